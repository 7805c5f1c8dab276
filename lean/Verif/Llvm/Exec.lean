import Verif.Llvm.Stmt

/-!
# Lemmas: the code of a statement does what the statement does
-/

namespace RuC.Llvm

section
variable {isLocal : Nat → Bool} {call : Calls} {crel : CallRel}

/-- Where the body of a loop ends up: behind it, behind the loop, or at a `ret`. -/
def LoopReach (next stop : List Instr) (flow : Flow) (rest : List Instr) (fr : Frame) : Prop :=
  match flow with
  | .normal => rest = next
  | .brk => rest = stop
  | .cont => False
  | .ret v => ∃ a r, rest = .ret a :: r ∧ fr.result a = some v

/-- A loop ends behind it or at a `ret`. -/
def EndReach (stop : List Instr) (flow : Flow) (rest : List Instr) (fr : Frame) : Prop :=
  match flow with
  | .normal => rest = stop
  | .ret v => ∃ a r, rest = .ret a :: r ∧ fr.result a = some v
  | _ => False

theorem loopT_ok {code rtest rbody rnext stop : List Instr} {k : Nat} {test next : S → Option (Option V × S)} {body : S → Option (Flow × S)}
    (hT : ∀ s v t s' fr, Match s.var fr → test s = some (some v, s') → v.truth = some t →
      ∃ fr', Star crel code (rtest, fr, s.w) (if t then rbody else stop, fr', s'.w) ∧ After k s s' fr fr')
    (hB : ∀ s flow s' fr, Match s.var fr → body s = some (flow, s') →
      ∃ rest fr', Star crel code (rbody, fr, s.w) (rest, fr', s'.w) ∧ LoopReach rnext stop flow rest fr' ∧ After k s s' fr fr')
    (hN : ∀ s x s' fr, Match s.var fr → next s = some (x, s') → ∃ fr', Star crel code (rnext, fr, s.w) (rtest, fr', s'.w) ∧ After k s s' fr fr') :
    ∀ (n : Nat) (s : S) (flow : Flow) (s' : S) (fr : Frame), Match s.var fr → loopT test body next n s = some (flow, s') →
      ∃ rest fr', Star crel code (rtest, fr, s.w) (rest, fr', s'.w) ∧ EndReach stop flow rest fr' ∧ After k s s' fr fr'
  | 0, s, flow, s', fr, hm, h => by simp [loopT] at h
  | n + 1, s, flow, s', fr, hm, h => by
    simp only [loopT, Option.bind_eq_bind, Option.bind_eq_some_iff] at h
    obtain ⟨⟨x, s1⟩, h1, t, ⟨v, rfl, ht⟩, h⟩ := h
    simp only at h
    obtain ⟨fr1, t1, a1⟩ := hT s v t s1 fr hm h1 ht
    cases t
    · simp only [if_true, Option.some.injEq, Prod.mk.injEq] at h
      obtain ⟨rfl, rfl⟩ := h
      exact ⟨_, fr1, t1, by simp [EndReach], a1⟩
    · simp only [Bool.true_eq_false, if_false, Option.bind_eq_some_iff] at h
      obtain ⟨⟨f, s2⟩, h2, h⟩ := h
      simp only at h
      simp only [if_true] at t1
      obtain ⟨rest, fr2, t2, r2, a2⟩ := hB s1 f s2 fr1 a1.mat h2
      cases f with
      | brk =>
        simp only [Option.some.injEq, Prod.mk.injEq] at h
        obtain ⟨rfl, rfl⟩ := h
        exact ⟨rest, fr2, t1.trans t2, r2, a1.trans a2 (Nat.le_refl _)⟩
      | ret u =>
        simp only [Option.some.injEq, Prod.mk.injEq] at h
        obtain ⟨rfl, rfl⟩ := h
        exact ⟨rest, fr2, t1.trans t2, r2, a1.trans a2 (Nat.le_refl _)⟩
      | cont => exact r2.elim
      | normal =>
        simp only [Option.bind_eq_some_iff] at h
        obtain ⟨⟨y, s3⟩, h3, h⟩ := h
        simp only [LoopReach] at r2
        subst r2
        obtain ⟨fr3, t3, a3⟩ := hN s2 y s3 fr2 a2.mat h3
        obtain ⟨rest4, fr4, t4, r4, a4⟩ := loopT_ok hT hB hN n s3 flow s' fr3 a3.mat h
        exact ⟨rest4, fr4, t1.trans (t2.trans (t3.trans t4)), r4,
          a1.trans (a2.trans (a3.trans a4 (Nat.le_refl _)) (Nat.le_refl _)) (Nat.le_refl _)⟩

theorem loopB_ok {code rtest rbody stop : List Instr} {k : Nat} {test : S → Option (Option V × S)} {body : S → Option (Flow × S)}
    (hB : ∀ s flow s' fr, Match s.var fr → body s = some (flow, s') →
      ∃ rest fr', Star crel code (rbody, fr, s.w) (rest, fr', s'.w) ∧ LoopReach rtest stop flow rest fr' ∧ After k s s' fr fr')
    (hT : ∀ s v t s' fr, Match s.var fr → test s = some (some v, s') → v.truth = some t →
      ∃ fr', Star crel code (rtest, fr, s.w) (if t then rbody else stop, fr', s'.w) ∧ After k s s' fr fr') :
    ∀ (n : Nat) (s : S) (flow : Flow) (s' : S) (fr : Frame), Match s.var fr → loopB body test n s = some (flow, s') →
      ∃ rest fr', Star crel code (rbody, fr, s.w) (rest, fr', s'.w) ∧ EndReach stop flow rest fr' ∧ After k s s' fr fr'
  | 0, s, flow, s', fr, hm, h => by simp [loopB] at h
  | n + 1, s, flow, s', fr, hm, h => by
    simp only [loopB, Option.bind_eq_bind, Option.bind_eq_some_iff] at h
    obtain ⟨⟨f, s2⟩, h2, h⟩ := h
    simp only at h
    obtain ⟨rest, fr2, t2, r2, a2⟩ := hB s f s2 fr hm h2
    cases f with
    | brk =>
      simp only [Option.some.injEq, Prod.mk.injEq] at h
      obtain ⟨rfl, rfl⟩ := h
      exact ⟨rest, fr2, t2, r2, a2⟩
    | ret u =>
      simp only [Option.some.injEq, Prod.mk.injEq] at h
      obtain ⟨rfl, rfl⟩ := h
      exact ⟨rest, fr2, t2, r2, a2⟩
    | cont => exact r2.elim
    | normal =>
      simp only [Option.bind_eq_some_iff] at h
      obtain ⟨⟨x, s3⟩, h3, t, ⟨v, rfl, ht⟩, h⟩ := h
      simp only [LoopReach] at r2
      subst r2
      obtain ⟨fr3, t3, a3⟩ := hT s2 v t s3 fr2 a2.mat h3 ht
      simp only at h
      cases t
      · simp only [if_true, Option.some.injEq, Prod.mk.injEq] at h
        obtain ⟨rfl, rfl⟩ := h
        exact ⟨_, fr3, t2.trans t3, by simp [EndReach], a2.trans a3 (Nat.le_refl _)⟩
      · simp only [Bool.true_eq_false, if_false] at h
        simp only [if_true] at t3
        obtain ⟨rest4, fr4, t4, r4, a4⟩ := loopB_ok hB hT n s3 flow s' fr3 a3.mat h
        exact ⟨rest4, fr4, t2.trans (t3.trans t4), r4, a2.trans (a3.trans a4 (Nat.le_refl _)) (Nat.le_refl _)⟩

theorem endReach {code stop : List Instr} {lb : Nat} {flow : Flow} {rest : List Instr} {fr : Frame} (h : EndReach stop flow rest fr) : Reach code stop lb flow rest fr := by
  cases flow
  · exact h
  · exact h.elim
  · exact h.elim
  · exact h

/-- The body of a loop inside of it. -/
theorem loopReach {code next stop : List Instr} {lb : Nat} {flow : Flow} {rest : List Instr} {fr : Frame} (h : Reach code next lb flow rest fr) (hf : find lb code = some stop) :
    LoopReach next stop flow rest fr := by
  cases flow
  · exact h
  · simp only [Reach, hf, Option.some.injEq] at h
    exact h.symm
  · exact h
  · exact h

/-- The code of statements. -/
def BOk (isLocal : Nat → Bool) (call : Calls) (crel : CallRel) (main : Bool) (n : Nat) (b : Stmts) : Prop :=
  ∀ (k : Option Nat) (g : Gen) (s : S) (flow : Flow) (s' : S) (fr : Frame) (post code : List Instr),
  0 < g.label → g.isMain = main → (labels code).Nodup → ((emitB isLocal k b g).1 ++ post) <:+ code → Match s.var fr → execB isLocal call n b s = some (flow, s') →
  (flow = .brk → ∃ r, find g.lb code = some r) → (∀ j, k = some j → j < g.block ∧ ∃ d, fr.dyn j = some d ∧ d ≤ fr.stack.length) →
    ∃ rest fr1 fr', Star crel code ((emitB isLocal k b g).1 ++ post, fr, s.w) (rest, fr', s'.w) ∧ Reach code post g.lb flow rest fr' ∧ After g.block s s' fr fr1 ∧
      (fr' = fr1 ∨ ∃ j d, k = some j ∧ fr.dyn j = some d ∧ fr' = { fr1 with stack := fr1.stack.take d })

theorem s_skip {main : Bool} {n : Nat} : SOk isLocal call crel main n .skip := by
  intro g s flow s' fr post code h0 hmain hn hs hm he hb
  simp only [execS, Option.some.injEq, Prod.mk.injEq] at he
  obtain ⟨rfl, rfl⟩ := he
  exact ⟨post, fr, .refl, rfl, After.refl hm⟩

theorem s_expr (hc : ∀ f vs w v w', call f vs w = some (v, w') → crel f vs w v w') {main : Bool} {n : Nat} {e : Exp} (hok : okS main (.expr e) = true) :
    SOk isLocal call crel main n (.expr e) := by
  intro g s flow s' fr post code h0 hmain hn hs hm he hb
  simp only [execS, Option.map_eq_some_iff, Prod.mk.injEq] at he
  obtain ⟨⟨x, s1⟩, h1, rfl, rfl⟩ := he
  simp only [okS] at hok
  obtain ⟨fr1, t1, m1, k1, -, -, -⟩ := (all_ok hc e).val hok g s x s1 fr post code h0 hn hs hm h1
  exact ⟨post, fr1, t1, rfl, After.keep m1 (domE isLocal call e _ _ _ h1) k1⟩

theorem s_decls (hc : ∀ f vs w v w', call f vs w = some (v, w') → crel f vs w v w') {main : Bool} {n : Nat} {l : List (Nat × Ty × Option Exp)} (hok : okS main (.decls l) = true) :
    SOk isLocal call crel main n (.decls l) := by
  intro g s flow s' fr post code h0 hmain hn hs hm he hb
  simp only [execS, Option.map_eq_some_iff, Prod.mk.injEq] at he
  obtain ⟨s1, h1, rfl, rfl⟩ := he
  simp only [okS] at hok
  obtain ⟨fr1, t1, a1⟩ := d_ok hc l hok g s s1 fr post code h0 hn hs hm h1
  exact ⟨post, fr1, t1, rfl, a1⟩

theorem s_break {main : Bool} {n : Nat} : SOk isLocal call crel main n .break_ := by
  intro g s flow s' fr post code h0 hmain hn hs hm he hb
  simp only [execS, Option.some.injEq, Prod.mk.injEq] at he
  obtain ⟨rfl, rfl⟩ := he
  obtain ⟨r, hr⟩ := hb rfl
  exact ⟨r, fr.enter g.lb, .one (.br hr), hr, (After.refl hm).enter _⟩

theorem s_return (hc : ∀ f vs w v w', call f vs w = some (v, w') → crel f vs w v w') {main : Bool} {n : Nat} {e : Option Exp} (hok : okS main (.return_ e) = true) :
    SOk isLocal call crel main n (.return_ e) := by
  intro g s flow s' fr post code h0 hmain hn hs hm he hb
  simp only [okS, Bool.and_eq_true, Bool.not_eq_true'] at hok
  have hnm : ¬ g.isMain = true := by rw [hmain, hok.1]; simp
  cases e with
  | none =>
    simp only [execS, Option.some.injEq, Prod.mk.injEq] at he
    obtain ⟨rfl, rfl⟩ := he
    simp only [emitS, if_neg hnm]
    exact ⟨_, fr, .refl, ⟨none, post, rfl, rfl⟩, After.refl hm⟩
  | some e =>
    simp only [okRet, Bool.and_eq_true, Bool.or_eq_true, beq_iff_eq] at hok
    simp only [execS, Option.bind_eq_bind, Option.bind_eq_some_iff, Option.some.injEq, Prod.mk.injEq] at he
    obtain ⟨⟨x, s1⟩, h1, v, rfl, rfl, rfl⟩ := he
    simp only [emitS, if_neg hnm, then_fst, List.append_assoc] at hs ⊢
    obtain ⟨fr1, t1, m1, k1, a1, -, -⟩ := (all_ok hc e).val hok.2.1 { g with loc := .reg } s _ s1 fr _ code h0 hn hs hm h1
    have han := a1 v rfl
    generalize emitE isLocal e { g with loc := .reg } = z at *
    have ho := han.opd
    have hk := han.kind
    have hret : ∃ ty o, (retOf e.ty z.2).1 = [.ret (some (ty, o))] ∧ fr1.opd ty o = some v := by
      unfold retOf
      unfold Gen.opd at ho
      rw [hk] at ho ⊢
      rw [han.ty]
      rcases hok.2.2 with h | ⟨h, h'⟩
      · rw [h] at ho ⊢
        exact ⟨_, _, rfl, ho⟩
      · have hvt : v.ty = .int := by have := han.ty; rw [h'] at this; exact (Option.some.inj this).symm
        rw [h, hvt] at ho
        rw [h, hvt]
        exact ⟨_, _, rfl, by simpa using ho⟩
    obtain ⟨ty, o, hr, hv⟩ := hret
    rw [hr] at t1 ⊢
    exact ⟨_, fr1, t1, ⟨_, post, rfl, by simp [Frame.result, hv]⟩, After.keep m1 (domE isLocal call e _ _ _ h1) k1⟩

theorem s_if (hc : ∀ f vs w v w', call f vs w = some (v, w') → crel f vs w v w') {main : Bool} {n : Nat} {c : Exp} {a : Stmt} (hok : okS main (.if_ c a) = true)
    (ha : SOk isLocal call crel main n a) : SOk isLocal call crel main n (.if_ c a) := by
  intro g s flow s' fr post code h0 hmain hn hs hm he hb
  simp only [okS, Bool.and_eq_true] at hok
  simp only [execS, Option.bind_eq_bind, Option.bind_eq_some_iff] at he
  obtain ⟨⟨x, s1⟩, h1, t, ⟨v, rfl, ht⟩, he⟩ := he
  simp only at he
  simp only [emitS, then_fst, then_snd, List.append_assoc] at hs ⊢
  have hT := @top_ok isLocal call crel c ((all_ok hc c).cond hok.1) hok.1 { g with label := g.label + 3, lt := g.label, lf := g.label + 1, loc := .free } s s1 v t fr
  have hg1 := (growE isLocal c { g with label := g.label + 3, lt := g.label, lf := g.label + 1, loc := .free }).toS
  generalize emitE isLocal c { g with label := g.label + 3, lt := g.label, lf := g.label + 1, loc := .free } = x at *
  have hg2 := (grow_check c.ty x.2).toS
  generalize check c.ty x.2 = y at *
  have hyes := suf_right (suf_right hs)
  have hbody := suf_right (a := [_]) hyes
  have hend := suf_right hbody
  have hno := suf_right (a := [Instr.br (g.label + 2)]) hend
  have hstop := suf_right (a := [Instr.label (g.label + 1), Instr.br (g.label + 2)]) hno
  have hd := domE isLocal call c _ _ _ h1
  cases t
  · simp only [Bool.false_eq_true, if_false, Option.some.injEq, Prod.mk.injEq] at he
    obtain ⟨rfl, rfl⟩ := he
    obtain ⟨fr1, t1, m1, k1, c1⟩ := hT (Nat.succ_pos _) rfl hn hs hm h1 ht (find_label hno hn)
    exact ⟨post, fr1.enter (g.label + 2), t1.trans (.one (.br (find_label hstop hn))), rfl, (After.keep m1 hd k1).enter _⟩
  · simp only [if_true] at he
    obtain ⟨fr1, t1, m1, k1, c1⟩ := hT (Nat.succ_pos _) rfl hn hs hm h1 ht (find_label hyes hn)
    have hlb : y.2.lb = g.lb := hg2.lb.trans hg1.lb
    have hbl : g.block ≤ y.2.block := Nat.le_trans hg1.block hg2.block
    obtain ⟨rest, fr2, t2, r2, a2⟩ := ha y.2 s1 flow s' fr1 _ code (Nat.lt_of_lt_of_le (Nat.succ_pos _) (Nat.le_trans hg1.label hg2.label))
      (by rw [hg2.isMain, hg1.isMain]; exact hmain) hn hbody m1 he (by rw [hlb]; exact hb)
    have aa := (After.keep (k := g.block) m1 hd k1).trans a2 hbl
    cases flow with
    | normal =>
      simp only [Reach] at r2
      subst r2
      exact ⟨post, fr2.enter (g.label + 2), t1.trans (t2.trans (.one (.br (find_label hstop hn)))), rfl, aa.enter _⟩
    | brk => exact ⟨rest, fr2, t1.trans t2, by rw [hlb] at r2; exact r2, aa⟩
    | cont => exact r2.elim
    | ret u => exact ⟨rest, fr2, t1.trans t2, r2, aa⟩

theorem s_ifElse (hc : ∀ f vs w v w', call f vs w = some (v, w') → crel f vs w v w') {main : Bool} {n : Nat} {c : Exp} {a b : Stmt} (hok : okS main (.ifElse c a b) = true)
    (ha : SOk isLocal call crel main n a) (hb : SOk isLocal call crel main n b) : SOk isLocal call crel main n (.ifElse c a b) := by
  intro g s flow s' fr post code h0 hmain hn hs hm he hbrk
  simp only [okS, Bool.and_eq_true] at hok
  simp only [execS, Option.bind_eq_bind, Option.bind_eq_some_iff] at he
  obtain ⟨⟨x, s1⟩, h1, t, ⟨v, rfl, ht⟩, he⟩ := he
  simp only at he
  simp only [emitS, then_fst, then_snd, List.append_assoc] at hs ⊢
  have hT := @top_ok isLocal call crel c ((all_ok hc c).cond hok.1.1) hok.1.1 { g with label := g.label + 3, lt := g.label, lf := g.label + 1, loc := .free } s s1 v t fr
  have hg1 := (growE isLocal c { g with label := g.label + 3, lt := g.label, lf := g.label + 1, loc := .free }).toS
  generalize emitE isLocal c { g with label := g.label + 3, lt := g.label, lf := g.label + 1, loc := .free } = x at *
  have hg2 := (grow_check c.ty x.2).toS
  generalize check c.ty x.2 = y at *
  have hg3 := (growS isLocal main a hok.1.2 y.2).1
  have hA := ha y.2 s1 flow s'
  generalize emitS isLocal a y.2 = z at *
  have hyes := suf_right (suf_right hs)
  have hbody := suf_right (a := [_]) hyes
  have hend := suf_right hbody
  have hno := suf_right (a := [Instr.br (g.label + 2)]) hend
  have hbody2 := suf_right (a := [Instr.label (g.label + 1)]) hno
  have hstop := suf_right (a := [Instr.br (g.label + 2)]) (suf_right hbody2)
  have hd := domE isLocal call c _ _ _ h1
  have hlab : 0 < y.2.label := Nat.lt_of_lt_of_le (Nat.succ_pos _) (Nat.le_trans hg1.label hg2.label)
  have hmain' : y.2.isMain = main := by rw [hg2.isMain, hg1.isMain]; exact hmain
  cases t
  · simp only [Bool.false_eq_true, if_false] at he
    obtain ⟨fr1, t1, m1, k1, c1⟩ := hT (Nat.succ_pos _) rfl hn hs hm h1 ht (find_label hno hn)
    have hlb : z.2.lb = g.lb := hg3.lb.trans (hg2.lb.trans hg1.lb)
    have hbl : g.block ≤ z.2.block := Nat.le_trans hg1.block (Nat.le_trans hg2.block hg3.block)
    obtain ⟨rest, fr2, t2, r2, a2⟩ := hb z.2 s1 flow s' fr1 _ code (Nat.lt_of_lt_of_le hlab hg3.label)
      (by rw [hg3.isMain]; exact hmain') hn hbody2 m1 he (by rw [hlb]; exact hbrk)
    have aa := (After.keep (k := g.block) m1 hd k1).trans a2 hbl
    cases flow with
    | normal =>
      simp only [Reach] at r2
      subst r2
      exact ⟨post, fr2.enter (g.label + 2), t1.trans (t2.trans (.one (.br (find_label hstop hn)))), rfl, aa.enter _⟩
    | brk => exact ⟨rest, fr2, t1.trans t2, by rw [hlb] at r2; exact r2, aa⟩
    | cont => exact r2.elim
    | ret u => exact ⟨rest, fr2, t1.trans t2, r2, aa⟩
  · simp only [if_true] at he
    obtain ⟨fr1, t1, m1, k1, c1⟩ := hT (Nat.succ_pos _) rfl hn hs hm h1 ht (find_label hyes hn)
    have hlb : y.2.lb = g.lb := hg2.lb.trans hg1.lb
    have hbl : g.block ≤ y.2.block := Nat.le_trans hg1.block hg2.block
    obtain ⟨rest, fr2, t2, r2, a2⟩ := hA fr1 _ code hlab hmain' hn hbody m1 he (by rw [hlb]; exact hbrk)
    have aa := (After.keep (k := g.block) m1 hd k1).trans a2 hbl
    cases flow with
    | normal =>
      simp only [Reach] at r2
      subst r2
      exact ⟨post, fr2.enter (g.label + 2), t1.trans (t2.trans (.one (.br (find_label hstop hn)))), rfl, aa.enter _⟩
    | brk => exact ⟨rest, fr2, t1.trans t2, by rw [hlb] at r2; exact r2, aa⟩
    | cont => exact r2.elim
    | ret u => exact ⟨rest, fr2, t1.trans t2, r2, aa⟩

theorem s_while (hc : ∀ f vs w v w', call f vs w = some (v, w') → crel f vs w v w') {main : Bool} {n : Nat} {c : Exp} {b : Stmt} (hok : okS main (.while_ c b) = true)
    (hb : SOk isLocal call crel main n b) : SOk isLocal call crel main n (.while_ c b) := by
  intro g s flow s' fr post code h0 hmain hn hs hm he hbrk
  simp only [okS, Bool.and_eq_true] at hok
  simp only [execS] at he
  simp only [emitS, then_fst, then_snd, List.append_assoc] at hs ⊢
  generalize hg0 : ({ g with label := g.label + 3, lt := g.label + 1, lf := g.label + 2, lb := g.label + 2, lc := g.label + 1, loc := .free } : Gen) = g0 at *
  have e1 : g0.label = g.label + 3 := by rw [← hg0]
  have e2 : g0.loc = .free := by rw [← hg0]
  have e3 : g0.lt = g.label + 1 := by rw [← hg0]
  have e4 : g0.lf = g.label + 2 := by rw [← hg0]
  have e5 : g0.lb = g.label + 2 := by rw [← hg0]
  have e6 : g0.block = g.block := by rw [← hg0]
  have e7 : g0.isMain = main := by rw [← hg0]; exact hmain
  have hT := fun s s1 v t fr => @top_ok isLocal call crel c ((all_ok hc c).cond hok.1) hok.1 g0 s s1 v t fr
  have hg1 := (growE isLocal c g0).toS
  generalize emitE isLocal c g0 = x at *
  have hg2 := (grow_check c.ty x.2).toS
  generalize check c.ty x.2 = y at *
  have hB := hb y.2
  generalize emitS isLocal b y.2 = z at *
  have hcond := suf_right (a := [Instr.br g.label]) hs
  have htest := suf_right (a := [Instr.label g.label]) hcond
  have hyes := suf_right (suf_right htest)
  have hbody := suf_right (a := [Instr.label (g.label + 1)]) hyes
  have hnext := suf_right hbody
  have hstop := suf_right (a := [Instr.br g.label]) hnext
  have hfs := find_label hstop hn
  have hfc := find_label hcond hn
  have hfb := find_label hyes hn
  have hlb : y.2.lb = g.label + 2 := (hg2.lb.trans hg1.lb).trans e5
  have hbl : g.block ≤ y.2.block := by rw [← e6]; exact Nat.le_trans hg1.block hg2.block
  obtain ⟨rest, fr', t', r', a'⟩ := loopT_ok (crel := crel) (code := code) (k := g.block) (rtest := _) (rbody := _) (rnext := _) (stop := post)
    (test := evalE isLocal call c) (body := execS isLocal call n b) (next := fun s => some (none, s))
    (fun s v t s' fr hm h1 ht => by
      obtain ⟨fr1, t1, m1, k1, -⟩ := hT s s' v t fr (by rw [e1]; exact Nat.succ_pos _) e2 hn htest hm h1 ht (r := if t then z.1 ++ ([.br g.label, .label (g.label + 2)] ++ post) else post)
        (by rw [e3, e4]; cases t
            · exact hfs
            · exact hfb)
      exact ⟨fr1, t1, After.keep m1 (domE isLocal call c _ _ _ h1) k1⟩)
    (fun s flow s' fr hm h1 => by
      obtain ⟨rest, fr1, t1, r1, a1⟩ := hB s flow s' fr _ code (Nat.lt_of_lt_of_le (by rw [e1]; exact Nat.succ_pos _) (Nat.le_trans hg1.label hg2.label))
        (by rw [hg2.isMain, hg1.isMain]; exact e7) hn hbody hm h1 (fun _ => ⟨post, by rw [hlb]; exact hfs⟩)
      exact ⟨rest, fr1, t1, loopReach r1 (by rw [hlb]; exact hfs), ⟨a1.mat, a1.dom, fun j hj => a1.dyn j (Nat.lt_of_lt_of_le hj hbl), a1.args, a1.addr, a1.size⟩⟩)
    (fun s x s' fr hm h1 => by
      simp only [Option.some.injEq, Prod.mk.injEq] at h1
      obtain ⟨-, rfl⟩ := h1
      exact ⟨fr.enter g.label, .one (.br hfc), (After.refl hm).enter _⟩)
    n s flow s' (fr.enter g.label) (hm.enter _) he
  exact ⟨rest, fr', .step (.br hfc) t', endReach r', a'.start⟩

theorem s_do (hc : ∀ f vs w v w', call f vs w = some (v, w') → crel f vs w v w') {main : Bool} {n : Nat} {c : Exp} {b : Stmt} (hok : okS main (.do_ b c) = true)
    (hb : SOk isLocal call crel main n b) : SOk isLocal call crel main n (.do_ b c) := by
  intro g s flow s' fr post code h0 hmain hn hs hm he hbrk
  simp only [okS, Bool.and_eq_true, Bool.not_eq_true'] at hok
  simp only [execS] at he
  simp only [emitS, then_fst, then_snd, List.append_assoc] at hs ⊢
  generalize hg0 : ({ g with label := g.label + 2, lt := g.label, lf := g.label + 1, lb := g.label + 1, lc := g.label } : Gen) = g0 at *
  have e1 : g0.label = g.label + 2 := by rw [← hg0]
  have e3 : g0.lt = g.label := by rw [← hg0]
  have e4 : g0.lf = g.label + 1 := by rw [← hg0]
  have e5 : g0.lb = g.label + 1 := by rw [← hg0]
  have e6 : g0.block = g.block := by rw [← hg0]
  have e7 : g0.isMain = main := by rw [← hg0]; exact hmain
  have hB := hb g0
  have hg1 := growS isLocal main b hok.1.1 g0
  generalize emitS isLocal b g0 = z at *
  have hsw := hg1.2 e7
  rw [hok.2] at hsw
  simp only [swapped, Bool.false_eq_true, if_false] at hsw
  have hT := fun s s1 v t fr => @top_ok isLocal call crel c ((all_ok hc c).cond hok.1.2) hok.1.2 { z.2 with loc := .free } s s1 v t fr
  generalize emitE isLocal c { z.2 with loc := .free } = x at *
  generalize check c.ty x.2 = y at *
  have hloop := suf_right (a := [Instr.br g.label]) hs
  have hbody := suf_right (a := [Instr.label g.label]) hloop
  have htest := suf_right hbody
  have hstop := suf_right (suf_right htest)
  have hfs := find_label hstop hn
  have hfl := find_label hloop hn
  obtain ⟨rest, fr', t', r', a'⟩ := loopB_ok (crel := crel) (code := code) (k := g.block) (rtest := _) (rbody := _) (stop := post)
    (test := evalE isLocal call c) (body := execS isLocal call n b)
    (fun s flow s' fr hm h1 => by
      obtain ⟨rest, fr1, t1, r1, a1⟩ := hB s flow s' fr _ code (by rw [e1]; exact Nat.succ_pos _) e7 hn hbody hm h1 (fun _ => ⟨post, by rw [e5]; exact hfs⟩)
      exact ⟨rest, fr1, t1, loopReach r1 (by rw [e5]; exact hfs), ⟨a1.mat, a1.dom, fun j hj => a1.dyn j (by rw [e6]; exact hj), a1.args, a1.addr, a1.size⟩⟩)
    (fun s v t s' fr hm h1 ht => by
      obtain ⟨fr1, t1, m1, k1, -⟩ := hT s s' v t fr (Nat.lt_of_lt_of_le (by rw [e1]; exact Nat.succ_pos _) hg1.1.label) rfl hn htest hm h1 ht
        (r := if t then z.1 ++ (x.1 ++ (y.1 ++ ([.label (g.label + 1)] ++ post))) else post)
        (by simp only [hsw.1, hsw.2, e3, e4]
            cases t
            · exact hfs
            · exact hfl)
      exact ⟨fr1, t1, After.keep m1 (domE isLocal call c _ _ _ h1) k1⟩)
    n s flow s' (fr.enter g.label) (hm.enter _) he
  exact ⟨rest, fr', .step (.br hfl) t', endReach r', a'.start⟩

end

end RuC.Llvm
