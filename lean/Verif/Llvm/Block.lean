import Verif.Llvm.Exec

/-!
# Lemmas: the code of `for`, blocks and all statements
-/

namespace RuC.Llvm

section
variable {isLocal : Nat → Bool} {call : Calls} {crel : CallRel}

theorem match_leave {s s' : S} {fr : Frame} (h : Match s'.var fr) : Match (leave s s').var fr := by
  have sub : ∀ j c, (leave s s').var j = some c → s'.var j = some c := by
    intro j c hj
    simp only [leave] at hj
    split at hj
    · exact hj
    · cases hj
  have sub' : ∀ j, ((leave s s').var j).isSome → (s'.var j).isSome := by
    intro j hj
    obtain ⟨c, hc⟩ := Option.isSome_iff_exists.mp hj
    rw [sub j c hc]
    rfl
  exact ⟨fun j c hj => h.cell j c (sub j c hj), fun i j a hi hj => h.inj i j a (sub' i hi) (sub' j hj)⟩

theorem dom_leave {s s' : S} (h : ∀ j, (s.var j).isSome → (s'.var j).isSome) (j : Nat) (hj : (s.var j).isSome) : ((leave s s').var j).isSome := by
  simp only [leave, hj, if_true]
  exact h j hj

theorem After.leave {k : Nat} {s s' : S} {fr fr' : Frame} (h : After k s s' fr fr') : After k s (leave s s') fr fr' :=
  ⟨match_leave h.mat, dom_leave h.dom, h.dyn, h.args, h.addr, h.size⟩

theorem After.mono {k l : Nat} {s s' : S} {fr fr' : Frame} (h : After l s s' fr fr') (hk : k ≤ l) : After k s s' fr fr' :=
  ⟨h.mat, h.dom, fun j hj => h.dyn j (Nat.lt_of_lt_of_le hj hk), h.args, h.addr, h.size⟩

theorem s_for (hc : ∀ f vs w v w', call f vs w = some (v, w') → crel f vs w v w') {main : Bool} {n : Nat} {i : Stmt} {c inc : Option Exp} {b : Stmt}
    (hok : okS main (.for_ i c inc b) = true) (hi : SOk isLocal call crel main n i) (hb : SOk isLocal call crel main n b) : SOk isLocal call crel main n (.for_ i c inc b) := by
  intro g s flow s' fr post code h0 hmain hn hs hm he hbrk
  simp only [okS, Bool.and_eq_true, Bool.not_eq_true'] at hok
  obtain ⟨⟨⟨⟨-, hoki⟩, hsw⟩, hfor⟩, hokb⟩ := hok
  simp only [execS, Option.bind_eq_bind, Option.bind_eq_some_iff] at he
  obtain ⟨⟨f, s1⟩, h1, he⟩ := he
  simp only at he
  split at he
  · rename_i hf
    subst hf
    simp only [Option.bind_eq_some_iff, Option.some.injEq, Prod.mk.injEq] at he
    obtain ⟨⟨f, s2⟩, h2, rfl, rfl⟩ := he
    simp only at h2 ⊢
    simp only [emitS, then_fst, then_snd, List.append_assoc] at hs ⊢
    generalize hg0 : ({ g with label := g.label + 4, lt := g.label + 1, lf := g.label + 3, lb := g.label + 3, lc := g.label + 1 } : Gen) = g0 at *
    have e1 : g0.label = g.label + 4 := by rw [← hg0]
    have e3 : g0.lt = g.label + 1 := by rw [← hg0]
    have e4 : g0.lf = g.label + 3 := by rw [← hg0]
    have e5 : g0.lb = g.label + 3 := by rw [← hg0]
    have e6 : g0.block = g.block := by rw [← hg0]
    have e7 : g0.isMain = main := by rw [← hg0]; exact hmain
    have hpos : 0 < g0.label := by rw [e1]; exact Nat.succ_pos _
    have hgi := growS isLocal main i hoki g0
    obtain ⟨rest1, fr1, t1, r1, a1⟩ := hi g0 s .normal s1 fr _ code hpos e7 hn hs hm h1 (by intro h; cases h)
    generalize emitS isLocal i g0 = xi at *
    simp only [Reach] at r1
    subst r1
    have hswi := hgi.2 e7
    rw [hsw] at hswi
    simp only [swapped, Bool.false_eq_true, if_false] at hswi
    have hposi : 0 < xi.2.label := Nat.lt_of_lt_of_le hpos hgi.1.label
    have hmaini : xi.2.isMain = main := hgi.1.isMain.trans e7
    have htest := suf_right hs
    have hb0 : g.block ≤ xi.2.block := by rw [← e6]; exact hgi.1.block
    rw [e6] at a1
    cases c with
    | some c =>
      simp only [okFor, Bool.and_eq_true] at hfor
      simp only [testOf, then_fst, then_snd, Option.isSome_some, if_true, List.append_assoc] at htest ⊢ t1
      have hT := fun s s1 v t fr => @top_ok isLocal call crel c ((all_ok hc c).cond hfor.1) hfor.1 { xi.2 with loc := .free } s s1 v t fr
      have hg1 := (growE isLocal c { xi.2 with loc := .free }).toS
      generalize emitE isLocal c { xi.2 with loc := .free } = x at *
      have hg2 := (grow_check c.ty x.2).toS
      generalize check c.ty x.2 = y at *
      have hposy : 0 < y.2.label := Nat.lt_of_lt_of_le hposi (Nat.le_trans hg1.label hg2.label)
      have hcond := suf_right (a := [Instr.br g.label]) htest
      have htest' := suf_right (a := [Instr.label g.label]) hcond
      have hincr := suf_right (suf_right htest')
      have hstep := suf_right (a := [Instr.label (g.label + 2)]) hincr
      have hS : ∀ s x s' fr, Match s.var fr → evalStep isLocal call inc s = some (x, s') → ∀ post, ((stepOf isLocal inc y.2).1 ++ post) <:+ code →
          ∃ fr', Star crel code ((stepOf isLocal inc y.2).1 ++ post, fr, s.w) (post, fr', s'.w) ∧ After g.block s s' fr fr' := by
        intro s x s' fr hm h1 post hs
        cases inc with
        | none =>
          simp only [evalStep, Option.some.injEq, Prod.mk.injEq] at h1
          obtain ⟨-, rfl⟩ := h1
          exact ⟨fr, .refl, After.refl hm⟩
        | some e =>
          simp only [Option.all_some] at hfor
          obtain ⟨fr1, t1, m1, k1, -, -, -⟩ := (all_ok hc e).val hfor.2 y.2 s x s' fr post code hposy hn hs hm h1
          exact ⟨fr1, t1, After.keep m1 (domE isLocal call e _ _ _ h1) k1⟩
      have hg3 := grow_stepOf isLocal inc y.2
      generalize stepOf isLocal inc y.2 = u at *
      have hback := suf_right hstep
      have hyes := suf_right (a := [Instr.br g.label]) hback
      have hbody := suf_right (a := [Instr.label (g.label + 1)]) hyes
      have hB := hb u.2
      generalize emitS isLocal b u.2 = z at *
      have hnext := suf_right hbody
      have hstop := suf_right (a := [Instr.br (g.label + 2)]) hnext
      have hfs := find_label hstop hn
      have hfc := find_label hcond hn
      have hfb := find_label hyes hn
      have hfi := find_label hincr hn
      have hlb : u.2.lb = g.label + 3 := (hg3.lb.trans (hg2.lb.trans (hg1.lb.trans hgi.1.lb))).trans e5
      have hbl : g.block ≤ u.2.block := Nat.le_trans hb0 (Nat.le_trans hg1.block (Nat.le_trans hg2.block hg3.block))
      obtain ⟨rest, fr', t', r', a'⟩ := loopT_ok (crel := crel) (code := code) (k := g.block) (rtest := _) (rbody := _) (rnext := _) (stop := post)
        (test := evalOpt isLocal call (some c)) (body := execS isLocal call n b) (next := evalStep isLocal call inc)
        (fun s v t s' fr hm h1 ht => by
          obtain ⟨fr1, t1, m1, k1, -⟩ := hT s s' v t fr hposi rfl hn htest' hm h1 ht (r := if t then z.1 ++ ([.br (g.label + 2), .label (g.label + 3)] ++ post) else post)
            (by simp only [hswi.1, hswi.2, e3, e4]; cases t
                · exact hfs
                · exact hfb)
          exact ⟨fr1, t1, After.keep m1 (domE isLocal call c _ _ _ h1) k1⟩)
        (fun s flow s' fr hm h1 => by
          obtain ⟨rest, fr1, t1, r1, a1⟩ := hB s flow s' fr _ code (Nat.lt_of_lt_of_le hposy hg3.label)
            (by rw [hg3.isMain, hg2.isMain, hg1.isMain]; exact hmaini) hn hbody hm h1 (fun _ => ⟨post, by rw [hlb]; exact hfs⟩)
          exact ⟨rest, fr1, t1, loopReach r1 (by rw [hlb]; exact hfs), a1.mono hbl⟩)
        (fun s x s' fr hm h1 => by
          obtain ⟨fr1, t1, a1⟩ := hS s x s' (fr.enter (g.label + 2)) (hm.enter _) h1 _ hstep
          exact ⟨fr1.enter g.label, .step (.br hfi) (t1.trans (.one (.br hfc))), (a1.enter _).start⟩)
        n s1 _ _ (fr1.enter g.label) (a1.mat.enter _) h2
      exact ⟨rest, fr', t1.trans (.step (.br hfc) t'), endReach r', ((a1.trans a'.start (Nat.le_refl _)).leave)⟩
    | none =>
      simp only [okFor, Option.isNone_iff_eq_none] at hfor
      subst hfor
      simp only [testOf, stepOf, quiet_fst, quiet_snd, Option.isSome_none, Bool.false_eq_true, if_false, List.nil_append] at htest ⊢ t1
      have hincr := suf_right (a := [Instr.br (g.label + 2)]) htest
      have hback := suf_right (a := [Instr.label (g.label + 2)]) hincr
      have hyes := suf_right (a := [Instr.br (g.label + 1)]) hback
      have hbody := suf_right (a := [Instr.label (g.label + 1)]) hyes
      have hB := hb xi.2
      generalize emitS isLocal b xi.2 = z at *
      have hnext := suf_right hbody
      have hstop := suf_right (a := [Instr.br (g.label + 2)]) hnext
      have hfs := find_label hstop hn
      have hfb := find_label hyes hn
      have hfi := find_label hincr hn
      have hlb : xi.2.lb = g.label + 3 := hgi.1.lb.trans e5
      obtain ⟨rest, fr', t', r', a'⟩ := loopT_ok (crel := crel) (code := code) (k := g.block) (rtest := [Instr.br (g.label + 1), Instr.label (g.label + 1)] ++ (z.1 ++ ([Instr.br (g.label + 2), Instr.label (g.label + 3)] ++ post))) (rbody := _) (rnext := _) (stop := post)
        (test := evalOpt isLocal call none) (body := execS isLocal call n b) (next := evalStep isLocal call none)
        (fun s v t s' fr hm h1 ht => by
          simp only [evalOpt, Option.some.injEq, Prod.mk.injEq] at h1
          obtain ⟨rfl, rfl⟩ := h1
          simp only [V.truth, Option.some.injEq] at ht
          subst ht
          exact ⟨fr.enter (g.label + 1), .one (.br hfb), (After.refl hm).enter _⟩)
        (fun s flow s' fr hm h1 => by
          obtain ⟨rest, fr1, t1, r1, a1⟩ := hB s flow s' fr _ code hposi hmaini hn hbody hm h1 (fun _ => ⟨post, by rw [hlb]; exact hfs⟩)
          exact ⟨rest, fr1, t1, loopReach r1 (by rw [hlb]; exact hfs), a1.mono hb0⟩)
        (fun s x s' fr hm h1 => by
          simp only [evalStep, Option.some.injEq, Prod.mk.injEq] at h1
          obtain ⟨-, rfl⟩ := h1
          exact ⟨fr.enter (g.label + 2), .one (.br hfi), (After.refl hm).enter _⟩)
        n s1 _ _ (fr1.enter (g.label + 2)) (a1.mat.enter _) h2
      exact ⟨rest, fr', t1.trans (.step (.br hfi) t'), endReach r', ((a1.trans a'.start (Nat.le_refl _)).leave)⟩
  · cases he

theorem s_block {main : Bool} {n : Nat} {b : Stmts} (hb : BOk isLocal call crel main n b) : SOk isLocal call crel main n (.block b) := by
  intro g s flow s' fr post code h0 hmain hn hs hm he hbrk
  simp only [execS, Option.bind_eq_bind, Option.bind_eq_some_iff, Option.some.injEq, Prod.mk.injEq] at he
  obtain ⟨⟨f, s1⟩, h1, rfl, rfl⟩ := he
  simp only at h1 hbrk ⊢
  simp only [emitS, then_fst, then_snd, List.append_assoc] at hs ⊢
  have hs' := suf_right (a := [Instr.save g.block g.reg]) hs
  have hm0 : Match s.var { fr with dyn := fun j => if j = g.block then some fr.stack.length else fr.dyn j } := ⟨hm.cell, hm.inj⟩
  obtain ⟨rest, fr1, fr', t, r, a, hfr⟩ := hb (some g.block) { g with block := g.block + 1, reg := g.reg + 1 } s _ s1 _ post code h0 hmain hn hs' hm0 h1 hbrk
    (by intro j hj; cases hj; exact ⟨Nat.lt_succ_self _, fr.stack.length, by simp, Nat.le_refl _⟩)
  refine ⟨rest, fr', .step .save t, r, ?_⟩
  have a1 : After g.block s s1 fr fr1 := by
    refine ⟨a.mat, a.dom, ?_, a.args, a.addr, a.size⟩
    intro j hj
    rw [a.dyn j (Nat.lt_succ_of_lt hj)]
    simp only [show ¬ j = g.block by omega, if_false]
  rcases hfr with rfl | ⟨j, d, hj, hd, rfl⟩
  · exact a1.leave
  · cases hj
    simp only [if_true, Option.some.injEq] at hd
    subst hd
    refine ⟨⟨?_, ?_⟩, dom_leave a1.dom, a1.dyn, a1.args, a1.addr, ?_⟩
    · intro j c hj
      have hsome : (s.var j).isSome := by
        simp only [leave] at hj
        split at hj
        · assumption
        · cases hj
      obtain ⟨b, k1, k2, k3⟩ := (match_leave (s := s) a1.mat).cell j c hj
      obtain ⟨c0, hc0⟩ := Option.isSome_iff_exists.mp hsome
      obtain ⟨b0, l1, l2, -⟩ := hm.cell j c0 hc0
      have : b = b0 := by
        have := a1.addr j hsome
        rw [k1, l1] at this
        exact Option.some.inj this
      subst this
      refine ⟨b, k1, ?_, ?_⟩
      · simp only [List.length_take]
        omega
      · intro v hv
        simp only [List.getElem?_take, l2, if_true]
        exact k3 v hv
    · exact (match_leave (s := s) a1.mat).inj
    · have := a1.size
      simp only [List.length_take]
      omega

theorem b_nil {main : Bool} {n : Nat} : BOk isLocal call crel main n .nil := by
  intro k g s flow s' fr post code h0 hmain hn hs hm he hbrk hk
  simp only [execB, Option.some.injEq, Prod.mk.injEq] at he
  obtain ⟨rfl, rfl⟩ := he
  exact ⟨post, fr, fr, .refl, rfl, After.refl hm, Or.inl rfl⟩

theorem b_one {main : Bool} {n : Nat} {st : Stmt} (hok : okS main st = true) (hst : SOk isLocal call crel main n st) : BOk isLocal call crel main n (.cons st .nil) := by
  intro k g s flow s' fr post code h0 hmain hn hs hm he hbrk hk
  simp only [execB, Option.bind_eq_bind, Option.bind_eq_some_iff] at he
  obtain ⟨⟨f, s1⟩, h1, he⟩ := he
  simp only at he
  have he' : f = flow ∧ s1 = s' := by
    split at he
    · rename_i hf
      simp only [Option.some.injEq, Prod.mk.injEq] at he
      exact ⟨hf.trans he.1, he.2⟩
    · simp only [Option.some.injEq, Prod.mk.injEq] at he
      exact he
  obtain ⟨rfl, rfl⟩ := he'
  simp only [emitB, then_fst, then_snd, not_case hok, Bool.false_eq_true, if_false, quiet_fst, List.append_nil, List.append_assoc] at hs ⊢
  obtain ⟨rest, fr1, t, r, a⟩ := hst g s f s1 fr _ code h0 hmain hn hs hm h1 hbrk
  by_cases hf : f = .normal
  · subst hf
    simp only [Reach] at r
    subst r
    cases k with
    | none => exact ⟨post, fr1, fr1, t, rfl, a, Or.inl rfl⟩
    | some j =>
      obtain ⟨hj, d, hd, hd'⟩ := hk j rfl
      refine ⟨post, fr1, _, t.trans (.one (.restore ((a.dyn j hj).trans hd) (Nat.le_trans hd' a.size))), rfl, a, Or.inr ⟨j, d, rfl, hd, rfl⟩⟩
  · refine ⟨rest, fr1, fr1, t, ?_, a, Or.inl rfl⟩
    cases f
    · exact absurd rfl hf
    · exact r
    · exact r
    · exact r

theorem emitB_cons (k : Option Nat) (st st' : Stmt) (b : Stmts) (g : Gen) :
    emitB isLocal k (.cons st (.cons st' b)) g = (emitS isLocal st g).then fun g => emitB isLocal k (.cons st' b) g := by
  rw [emitB]
  intro h; cases h

theorem b_cons {main : Bool} {n : Nat} {st st' : Stmt} {b : Stmts} (hok : okS main st = true) (hst : SOk isLocal call crel main n st)
    (hb : BOk isLocal call crel main n (.cons st' b)) : BOk isLocal call crel main n (.cons st (.cons st' b)) := by
  intro k g s flow s' fr post code h0 hmain hn hs hm he hbrk hk
  rw [execB] at he
  simp only [Option.bind_eq_bind, Option.bind_eq_some_iff] at he
  obtain ⟨⟨f, s1⟩, h1, he⟩ := he
  simp only at he
  rw [emitB_cons] at hs ⊢
  simp only [then_fst, List.append_assoc] at hs ⊢
  have hgr := (growS isLocal main st hok g).1
  by_cases hf : f = .normal
  · subst hf
    rw [if_pos rfl] at he
    obtain ⟨rest, fr1, t, r, a⟩ := hst g s _ s1 fr _ code h0 hmain hn hs hm h1 (by intro h; cases h)
    simp only [Reach] at r
    subst r
    generalize emitS isLocal st g = x at *
    obtain ⟨rest2, fr2, fr3, t2, r2, a2, hfr⟩ := hb k x.2 s1 flow s' fr1 post code (Nat.lt_of_lt_of_le h0 hgr.label) (hgr.isMain.trans hmain) hn (suf_right hs) a.mat he
      (by rw [hgr.lb]; exact hbrk)
      (by
        intro j hj
        obtain ⟨h, d, hd, hd'⟩ := hk j hj
        exact ⟨Nat.lt_of_lt_of_le h hgr.block, d, (a.dyn j h).trans hd, Nat.le_trans hd' a.size⟩)
    rw [hgr.lb] at r2
    refine ⟨rest2, fr2, fr3, t.trans t2, r2, a.trans a2 hgr.block, ?_⟩
    rcases hfr with h | ⟨j, d, hj, hd, h⟩
    · exact Or.inl h
    · refine Or.inr ⟨j, d, hj, ?_, h⟩
      rw [← a.dyn j (hk j hj).1]
      exact hd
  · rw [if_neg hf] at he
    simp only [Option.some.injEq, Prod.mk.injEq] at he
    obtain ⟨rfl, rfl⟩ := he
    obtain ⟨rest, fr1, t, r, a⟩ := hst g s _ s1 fr _ code h0 hmain hn hs hm h1 hbrk
    refine ⟨rest, fr1, fr1, t, ?_, a, Or.inl rfl⟩
    cases f
    · exact absurd rfl hf
    · exact r
    · exact r
    · exact r

mutual
theorem all_stmt (hc : ∀ f vs w v w', call f vs w = some (v, w') → crel f vs w v w') (main : Bool) (n : Nat) : ∀ st : Stmt, okS main st = true → SOk isLocal call crel main n st
  | .skip, _ => s_skip
  | .expr _, h => s_expr hc h
  | .decls _, h => s_decls hc h
  | .if_ c a, h => s_if hc h (all_stmt hc main n a (by simp only [okS, Bool.and_eq_true] at h; exact h.2))
  | .ifElse c a b, h => s_ifElse hc h (all_stmt hc main n a (by simp only [okS, Bool.and_eq_true] at h; exact h.1.2))
      (all_stmt hc main n b (by simp only [okS, Bool.and_eq_true] at h; exact h.2))
  | .while_ c b, h => s_while hc h (all_stmt hc main n b (by simp only [okS, Bool.and_eq_true] at h; exact h.2))
  | .do_ b c, h => s_do hc h (all_stmt hc main n b (by simp only [okS, Bool.and_eq_true] at h; exact h.1.1))
  | .for_ i c inc b, h => s_for hc h (all_stmt hc main n i (by simp only [okS, Bool.and_eq_true] at h; exact h.1.1.1.2))
      (all_stmt hc main n b (by simp only [okS, Bool.and_eq_true] at h; exact h.2))
  | .block b, h => s_block (all_stmts hc main n b h)
  | .break_, _ => s_break
  | .return_ _, h => s_return hc h

theorem all_stmts (hc : ∀ f vs w v w', call f vs w = some (v, w') → crel f vs w v w') (main : Bool) (n : Nat) : ∀ b : Stmts, okB main b = true → BOk isLocal call crel main n b
  | .nil, _ => b_nil
  | .cons st .nil, h => by
    simp only [okB, Bool.and_eq_true] at h
    exact b_one h.1 (all_stmt hc main n st h.1)
  | .cons st (.cons st' b), h => by
    have h' : okS main st = true ∧ okB main (.cons st' b) = true := by
      rw [okB] at h
      simpa only [Bool.and_eq_true] using h
    exact b_cons h'.1 (all_stmt hc main n st h'.1) (all_stmts hc main n (.cons st' b) h'.2)
end

end

end RuC.Llvm
