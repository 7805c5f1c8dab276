import Verif.Llvm.Exp

/-!
# Lemmas: conditions, assignments and calls
-/

namespace RuC.Llvm

theorem kind_good (isLocal : Nat → Bool) : ∀ e : Exp, good e = true → e.ty ≠ none → ∀ g : Gen, (emitE isLocal e g).2.kind = kindOf e
  | .int _, _, _, g => rfl
  | .bool _, _, _, g => rfl
  | .str _, _, _, g => rfl
  | .ident _ _, _, _, g => rfl
  | .un op e, _, _, g => rfl
  | .not e, hg, _, g => by
    simp only [good, cls, Bool.and_eq_true, beq_iff_eq] at hg
    have h := kind_good isLocal e hg.1.1 (by rw [hg.1.2]; simp) { g with lt := g.lf, lf := g.lt }
    have hne : e.ty ≠ some .int := by rw [hg.1.2]; simp
    simp only [emitE, then_snd, kindOf, if_neg hne]
    split
    · exact h
    · exact h
  | .inc _ _, _, _, g => rfl
  | .arith op l r, hg, _, g => rfl
  | .cmp op l r, hg, _, g => rfl
  | .logic isOr l r, hg, _, g => by simp [good, cls] at hg
  | .comma l r, hg, ht, g => by
    simp only [good, cls, Bool.and_eq_true] at hg
    exact kind_good isLocal r hg.2 ht _
  | .ternary c a b, hg, _, g => rfl
  | .assign (some op) id ty e, hg, _, g => rfl
  | .assign none id ty e, hg, _, g => by
    simp only [good, cls, Bool.and_eq_true, beq_iff_eq] at hg
    have h := kind_good isLocal e hg.1.1.1.1 (by rw [hg.1.1.1.2]; simp) { g with loc := .nolog }
    simp only [emitE, then_snd, kindOf]
    rw [h]
    split
    · rename_i hk
      rcases hk with hk | hk <;> simp [hk]
    · rename_i hk
      rw [if_neg (fun e => hk (Or.inr e))]
      split
      · exact h
      · split <;> exact h
  | .call f (some ret) args, hg, _, g => rfl
  | .call f none args, hg, ht, g => by simp [Exp.ty] at ht

theorem kind_test (isLocal : Nat → Bool) : ∀ e : Exp, test e = true → jumps e = false → kindOf e = .logic → ∀ g : Gen, (emitE isLocal e g).2.kind = .logic
  | .not e, ht, hj, hk, g => by
    simp only [jumps, Bool.or_eq_false_iff, beq_eq_false_iff_ne] at hj
    simp only [test, cls, if_neg hj.2, Bool.and_eq_true] at ht
    have h := kind_test isLocal e ht.1 hj.1 hk { g with lt := g.lf, lf := g.lt }
    simp only [emitE, then_snd, if_neg hj.2]
    rw [h]
    simpa using h
  | .logic .., _, hj, _, _ => by simp [jumps] at hj
  | .cmp op l r, ht, _, _, g => rfl
  | .comma l r, ht, _, hk, g => by
    simp only [test, cls, Bool.and_eq_true] at ht
    rw [kind_good isLocal (.comma l r) (by simp only [good, cls, Bool.and_eq_true]; exact ht.1) ?_ g]
    · exact hk
    · have := ht.2
      simp only [leaf, Bool.and_eq_true, Bool.or_eq_true, beq_iff_eq] at this
      rcases this.1.1.1 with h | h <;> rw [h] <;> simp
  | .assign none id ty e, ht, _, hk, g => by
    rw [kindOf] at hk
    split at hk
    · cases hk
    · exact absurd hk ‹_›

section
variable {isLocal : Nat → Bool} {call : Calls} {crel : CallRel}

theorem jump_test {e : Exp} (hj : JOk isLocal call crel e) : TOk isLocal call crel e := by
  intro g s v t s' fr post code r l h0 hloc hl' hn hs hm he ht hf
  simp only [then_fst, List.append_assoc] at hs ⊢
  exact hj g s v t s' fr _ code r h0 hloc hn hs hm he ht hf

theorem j_logic {isOr : Bool} {l r : Exp} (hl : TOk isLocal call crel l) (hr : TOk isLocal call crel r) : JOk isLocal call crel (.logic isOr l r) := by
  intro g s v t s' fr post code q h0 hloc hn hs hm he ht hf
  have hnl : g.loc ≠ .nolog := by rw [hloc]; simp
  simp only [emitE, if_pos hnl, then_fst, then_snd, List.append_assoc, List.append_nil] at hs ⊢
  simp only [evalE, Option.bind_eq_bind, Option.bind_eq_some_iff] at he
  obtain ⟨⟨y, s1⟩, h1, a, ⟨va, rfl, ha⟩, he⟩ := he
  simp only at he
  have hg1 := growE isLocal l { g with label := g.label + 1, loc := .free, lt := if isOr = true then g.lt else g.label, lf := if isOr = true then g.label else g.lf }
  have hl1 := hl { g with label := g.label + 1, loc := .free, lt := if isOr = true then g.lt else g.label, lf := if isOr = true then g.label else g.lf } s va a s1 fr
  generalize emitE isLocal l { g with label := g.label + 1, loc := .free, lt := if isOr = true then g.lt else g.label, lf := if isOr = true then g.label else g.lf } = x at *
  simp only [then_fst, List.append_assoc] at hl1
  by_cases hao : a = isOr
  · rw [if_pos hao] at he
    simp only [Option.some.injEq, Prod.mk.injEq] at he
    obtain ⟨rfl, rfl⟩ := he
    simp only [V.truth, Option.some.injEq] at ht
    subst ht
    subst hao
    have hlab : (if a = true then (if a = true then g.lt else g.label) else (if a = true then g.label else g.lf)) = if a = true then g.lt else g.lf := by cases a <;> rfl
    obtain ⟨fr1, t1, m1, k1, c1⟩ := hl1 _ code q .free (Nat.succ_pos _) trivial (by simp) hn hs hm h1 ha (by rw [hlab]; exact hf)
    exact ⟨fr1, t1, m1, k1, by rw [c1, hlab]⟩
  · rw [if_neg hao] at he
    simp only [Option.bind_eq_some_iff] at he
    obtain ⟨⟨z, s2⟩, h2, b, ⟨vb, rfl, hb⟩, he⟩ := he
    simp only [Option.some.injEq, Prod.mk.injEq] at he
    obtain ⟨rfl, rfl⟩ := he
    simp only [V.truth, Option.some.injEq] at ht
    subst ht
    have hlab : (if a = true then (if isOr = true then g.lt else g.label) else (if isOr = true then g.label else g.lf)) = g.label := by
      cases a <;> cases isOr <;> simp at hao ⊢
    have hs2 := suf_right (suf_right hs)
    obtain ⟨fr1, t1, m1, k1, c1⟩ := hl1 _ code _ .free (Nat.succ_pos _) trivial (by simp) hn hs hm h1 ha (by rw [hlab]; exact find_label hs2 hn)
    have hg2 := grow_check l.ty { x.2 with loc := .free }
    generalize check l.ty { x.2 with loc := .free } = y at *
    have hr1 := hr { y.2 with lt := g.lt, lf := g.lf, loc := .free } s1 vb b s2 fr1
    simp only [then_fst, List.append_assoc] at hr1
    have hlab1 : g.label + 1 ≤ y.2.label := Nat.le_trans hg1.label hg2.label
    obtain ⟨fr2, t2, m2, k2, c2⟩ := hr1 post code q .free (Nat.lt_of_lt_of_le (Nat.succ_pos _) hlab1) trivial (by simp) hn (suf_right (a := [_]) hs2) m1 h2 hb hf
    exact ⟨fr2, t1.trans t2, m2, k1.trans k2 (Nat.le_trans hg1.reg hg2.reg), c2⟩

/-- Behind `!` the labels are exchanged. -/
theorem exchanged {g : Gen} {t : Bool} : (if t = true then ({ g with lt := g.lf, lf := g.lt } : Gen).lt else ({ g with lt := g.lf, lf := g.lt } : Gen).lf) = if (!t) = true then g.lt else g.lf := by
  cases t <;> rfl

theorem j_not_jumps {e : Exp} (hj : JOk isLocal call crel e) : JOk isLocal call crel (.not e) := by
  intro g s v t s' fr post code q h0 hloc hn hs hm he ht hf
  simp only [evalE, Option.bind_eq_bind, Option.bind_eq_some_iff] at he
  obtain ⟨⟨y, s1⟩, h1, a, ⟨va, rfl, ha⟩, he⟩ := he
  simp only [Option.some.injEq, Prod.mk.injEq] at he
  obtain ⟨rfl, rfl⟩ := he
  simp only [V.truth, Option.some.injEq] at ht
  subst ht
  simp only [emitE, then_fst, List.append_assoc] at hs ⊢
  obtain ⟨fr1, t1, m1, k1, c1⟩ := hj { g with lt := g.lf, lf := g.lt } s va a s1 fr _ code q h0 hloc hn hs hm h1 ha (by rw [exchanged]; exact hf)
  exact ⟨fr1, t1, m1, k1, by rw [c1, exchanged]⟩

theorem j_not_int {e : Exp} (hv : VOk isLocal call crel e) (hg : good e = true) (hty : e.ty = some .int) (hk : kindOf e = .reg) (hloc' : endLoc e .free ≠ .nolog)
    (hsw : swaps e = false) : JOk isLocal call crel (.not e) := by
  intro g s v t s' fr post code q h0 hloc hn hs hm he ht hf
  simp only [evalE, Option.bind_eq_bind, Option.bind_eq_some_iff] at he
  obtain ⟨⟨y, s1⟩, h1, a, ⟨va, rfl, ha⟩, he⟩ := he
  simp only [Option.some.injEq, Prod.mk.injEq] at he
  obtain ⟨rfl, rfl⟩ := he
  simp only [V.truth, Option.some.injEq] at ht
  subst ht
  simp only [emitE, then_fst, List.append_assoc] at hs ⊢
  have hfl := fieldsE isLocal e hg { g with lt := g.lf, lf := g.lt }
  rw [hsw] at hfl
  simp only [swapped, Bool.false_eq_true, if_false] at hfl
  obtain ⟨fr1, t1, m1, k1, a1, -, -⟩ := hv { g with lt := g.lf, lf := g.lt } s _ s1 fr _ code h0 hn hs hm h1
  have han := a1 _ rfl
  have hgr := growE isLocal e { g with lt := g.lf, lf := g.lt }
  generalize emitE isLocal e { g with lt := g.lf, lf := g.lt } = x at *
  have hkx : x.2.kind = .reg := han.kind.trans hk
  rw [if_pos hkx, if_pos hty] at t1 ⊢
  simp only [then_fst, List.append_assoc] at t1 ⊢
  have hlab : (if a = true then x.2.lt else x.2.lf) = if (!a) = true then g.lt else g.lf := by
    rw [hfl.2.1, hfl.2.2]; cases a <;> rfl
  obtain ⟨fr2, t2, m2, k2, c2⟩ := check_ok (crel := crel) (post := [Instr.flip (check e.ty x.2).2.reg (check e.ty x.2).2.ansReg] ++ post) (w := s1.w) (r := q) (t := a) han (by rw [hk]; simp)
    (by rw [hfl.1]; simpa only [hloc] using hloc') ha (by rw [hlab]; exact hf) m1
  exact ⟨fr2, t1.trans t2, m2, k1.trans k2 hgr.reg, by rw [c2, hlab]⟩

theorem t_not {e : Exp} (ht : TOk isLocal call crel e) (hte : test e = true) (hne : e.ty ≠ some .int) (hj : jumps e = false) (hk : kindOf e = .logic) :
    TOk isLocal call crel (.not e) := by
  intro g s v t s' fr post code q l h0 hloc hl' hn hs hm he htr hf
  simp only [evalE, Option.bind_eq_bind, Option.bind_eq_some_iff] at he
  obtain ⟨⟨y, s1⟩, h1, a, ⟨va, rfl, ha⟩, he⟩ := he
  simp only [Option.some.injEq, Prod.mk.injEq] at he
  obtain ⟨rfl, rfl⟩ := he
  simp only [V.truth, Option.some.injEq] at htr
  subst htr
  have hkx := kind_test isLocal e hte hj hk { g with lt := g.lf, lf := g.lt }
  have hem : emitE isLocal (.not e) g = emitE isLocal e { g with lt := g.lf, lf := g.lt } := by
    simp only [emitE, Out.then, hkx, reduceCtorEq, if_false, quiet, List.append_nil]
  have hty : (Exp.not e).ty = e.ty := by rw [kind_logic e hk]; rfl
  rw [hem, hty] at hs ⊢
  obtain ⟨fr1, t1, m1, k1, c1⟩ := ht { g with lt := g.lf, lf := g.lt } s va a s1 fr post code q l h0 hloc hl' hn hs hm h1 ha (by rw [exchanged]; exact hf)
  exact ⟨fr1, t1, m1, k1, by rw [c1, exchanged]⟩

theorem v_assign {id : Nat} {ty : Ty} {e : Exp} (hv : VOk isLocal call crel e) (hg : good (.assign none id ty e) = true) :
    VOk isLocal call crel (.assign none id ty e) := by
  intro g s x s' fr post code h0 hn hs hm he
  simp only [good, cls, Bool.and_eq_true, beq_iff_eq, bne_iff_ne] at hg
  simp only [evalE, Option.bind_eq_bind, Option.bind_eq_some_iff] at he
  obtain ⟨⟨y, s1⟩, h1, v, rfl, he⟩ := he
  split at he
  · rename_i hvt
    simp only [Option.bind_eq_some_iff] at he
    obtain ⟨s2, hset, hx⟩ := he
    simp only [Option.some.injEq, Prod.mk.injEq] at hx
    obtain ⟨rfl, rfl⟩ := hx
    simp only [emitE, then_fst, then_snd, List.append_assoc] at hs ⊢
    obtain ⟨fr1, t1, m1, k1, a1, c1, -⟩ := hv { g with loc := .nolog } s _ s1 fr _ code h0 hn hs hm h1
    have han := a1 _ rfl
    have hgr := growE isLocal e { g with loc := .nolog }
    generalize emitE isLocal e { g with loc := .nolog } = z at *
    obtain ⟨fr2, hs2, m2, k2, c2⟩ := set_ok m1 hset
    have hopd := han.opd
    have hopd2 : fr2.opd v.ty (z.2.opd (some v.ty)) = some v := by
      rw [opd_keep (k2 z.2.reg) han.bound]; exact han.opd
    refine ⟨fr2, ?_, m2, k1.trans (k2 g.reg) (Nat.le_refl _), ?_, ?_, by simp [Exp.isTernary]⟩
    · refine t1.trans (.one ?_)
      rw [hvt] at hopd
      unfold Gen.opd at hopd
      split
      · rename_i hk
        rcases hk with hk | hk <;> rw [hk] at hopd <;> exact .store hopd hs2
      · rename_i hk
        cases hkk : z.2.kind
        · exact absurd (Or.inl hkk) hk
        · rw [hkk] at hopd
          split
          · rename_i e'
            subst e'
            exact .store (by simpa using hopd) hs2
          · rename_i hn1
            have hb : ty = .bool := by
              cases ty
              · exact absurd rfl hn1
              · rfl
              · exact absurd rfl hg.1.1.2
            subst hb
            rw [if_pos rfl]
            exact .store (by simpa using hopd) hs2
        · exact absurd (Or.inr hkk) hk
        · exact absurd (han.kind.symm.trans hkk) hg.1.2
    · intro v' hv'
      cases hv'
      have hk := han.kind
      refine ⟨by rw [hvt]; rfl, ?_, ?_, ?_⟩
      · simp only [kindOf]
        rw [← hk]
        split
        · rename_i h; rcases h with h | h <;> simp [h]
        · rename_i h
          rw [if_neg (fun e => h (Or.inr e))]
          split
          · rfl
          · split <;> rfl
      · split
        · rename_i h
          have : Gen.opd { z.2 with kind := .reg } (some v.ty) = z.2.opd (some v.ty) := by
            unfold Gen.opd
            rcases h with h | h <;> simp [h]
          simp only [this]
          exact hopd2
        · split
          · exact hopd2
          · split <;> exact hopd2
      · split
        · rename_i h
          intro _
          exact han.bound h
        · split
          · exact han.bound
          · split <;> exact han.bound
    · simp only [straight]
      exact fun p => by rw [c2, c1 p]
  · cases he

theorem v_assignOp {op : Arith} {id : Nat} {ty : Ty} {e : Exp} (hv : VOk isLocal call crel e) (hg : good (.assign (some op) id ty e) = true) :
    VOk isLocal call crel (.assign (some op) id ty e) := by
  intro g s x s' fr post code h0 hn hs hm he
  simp only [good, cls, Bool.and_eq_true, beq_iff_eq, bne_iff_ne, Option.isNone_some, Bool.false_or] at hg
  obtain ⟨⟨⟨⟨hge, hty⟩, -⟩, hks⟩, rfl, hkl⟩ := hg
  simp only [evalE, Option.bind_eq_bind, Option.bind_eq_some_iff] at he
  obtain ⟨⟨y, s1⟩, h1, b, hb, a, ⟨u, hu, ha⟩, c, hc, s2, hset, hx⟩ := he
  simp only [Option.some.injEq, Prod.mk.injEq] at hx
  obtain ⟨rfl, rfl⟩ := hx
  have hua : u = .i32 a := by cases u <;> simp [V.int] at ha ⊢; exact ha
  subst hua
  simp only [emitE, then_fst, then_snd, List.append_assoc] at hs ⊢
  obtain ⟨fr1, t1, m1, k1, a1, c1, -⟩ := hv { g with loc := .nolog } s _ s1 fr _ code h0 hn hs hm h1
  have han := a1 _ (int_of hb)
  have hgr := growE isLocal e { g with loc := .nolog }
  generalize emitE isLocal e { g with loc := .nolog } = z at *
  have m2 := (m1.setReg z.2.reg (.i32 a)).setReg (z.2.reg + 1) (.i32 c)
  obtain ⟨fr3, hs3, m3, k3, c3⟩ := set_ok m2 hset
  have hrc : fr3.reg (z.2.reg + 1) = some (.i32 c) := by rw [(k3 (z.2.reg + 2)).reg _ (by omega)]; simp [Frame.setReg]
  have hopd : (fr1.setReg z.2.reg (.i32 a)).opd .int (if z.2.kind = .reg then .reg z.2.ansReg else .int z.2.ansConst) = some (.i32 b) := by
    have h := han.opd
    rw [← opd_keep (Keep.setReg (n := z.2.reg) fr1 (.i32 a) (Nat.le_refl _)) han.bound] at h
    unfold Gen.opd at h
    have hk := han.kind
    split
    · rename_i hr; rw [hr] at h; exact h
    · rename_i hr
      cases hkk : z.2.kind
      · exact absurd hkk hr
      · rw [hkk] at h; exact h
      · exact absurd (hk.symm.trans hkk) hkl
      · exact absurd (hk.symm.trans hkk) hks
  refine ⟨fr3, ?_, m3, ?_, ?_, ?_, by simp [Exp.isTernary]⟩
  · refine t1.trans (.step (.load (get_ok m1 hu)) (.step (.arith (x := a) (y := b) (z := c) (opd_setReg _ _ (.i32 a)) hopd (arith_ok hc)) (.one ?_)))
    exact .store (v := .i32 c) (opd_setReg _ _ (.i32 c)) hs3
  · exact ((k1.trans (Keep.setReg fr1 _ (Nat.le_refl _)) hgr.reg).trans (Keep.setReg _ _ (Nat.le_succ _)) hgr.reg).trans (k3 g.reg) (Nat.le_refl _)
  · intro v hv
    cases hv
    refine ⟨rfl, rfl, ?_, by simp⟩
    simp only [Gen.opd]
    exact opd_reg hrc
  · simp only [straight]
    exact fun p => by rw [c3]; exact c1 p

theorem v_call {f : Nat} {ret : Option Ty} {args : Args} (hc : ∀ f vs w v w', call f vs w = some (v, w') → crel f vs w v w') (ha : AOk isLocal call crel args) :
    VOk isLocal call crel (.call f ret args) := by
  intro g s x s' fr post code h0 hn hs hm he
  simp only [evalE, Option.bind_eq_bind, Option.bind_eq_some_iff] at he
  obtain ⟨⟨vs, s1⟩, h1, ⟨v, w⟩, h2, he⟩ := he
  simp only at he
  split at he
  · rename_i hret
    simp only [Option.some.injEq, Prod.mk.injEq] at he
    obtain ⟨rfl, rfl⟩ := he
    cases ret with
    | none =>
      have hx : v = none := by cases v <;> simp at hret ⊢
      subst hx
      simp only [emitE, List.append_assoc] at hs ⊢
      obtain ⟨fr1, t1, m1, k1, a1, c1⟩ := ha g s vs s1 fr _ code h0 hn hs hm h1
      refine ⟨fr1, t1.trans (.one (.callVoid a1 (hc _ _ _ _ _ h2))), m1, k1, by simp, ?_, by simp [Exp.isTernary]⟩
      simpa only [straight] using c1
    | some ty =>
      obtain ⟨u, rfl, hu⟩ : ∃ u, v = some u ∧ u.ty = ty := by cases v <;> simp at hret ⊢; exact hret
      simp only [emitE, List.append_assoc] at hs ⊢
      obtain ⟨fr1, t1, m1, k1, a1, c1⟩ := ha g s vs s1 fr _ code h0 hn hs hm h1
      have hgr := growA isLocal args g
      refine ⟨fr1.setReg (emitA isLocal args g).2.2.reg u, t1.trans (.one (.call a1 (hc _ _ _ _ _ h2))), m1.setReg _ _,
        k1.trans (Keep.setReg _ _ (Nat.le_refl _)) hgr.reg, ?_, ?_, by simp [Exp.isTernary]⟩
      · intro v' hv'
        cases hv'
        refine ⟨by rw [hu]; rfl, rfl, ?_, by simp [Gen.answer]⟩
        simp only [Gen.answer, Gen.opd]
        exact opd_setReg _ _ _
      · simp only [straight]
        exact c1
  · cases he

end

section
variable {isLocal : Nat → Bool} {call : Calls} {crel : CallRel}

/-- The condition of a statement or of a ternary operator. -/
theorem top_ok {e : Exp} (hT : TOk isLocal call crel e) (hte : test e = true) {g : Gen} {s s' : S} {v : V} {t : Bool} {fr : Frame} {post code r : List Instr}
    (h0 : 0 < g.label) (hloc : g.loc = .free) (hn : (labels code).Nodup) (hs : ((emitE isLocal e g).1 ++ ((check e.ty (emitE isLocal e g).2).1 ++ post)) <:+ code)
    (hm : Match s.var fr) (he : evalE isLocal call e s = some (some v, s')) (ht : v.truth = some t) (hf : find (if t then g.lt else g.lf) code = some r) :
    ∃ fr', Star crel code ((emitE isLocal e g).1 ++ ((check e.ty (emitE isLocal e g).2).1 ++ post), fr, s.w) (r, fr', s'.w) ∧
      Match s'.var fr' ∧ Keep g.reg fr fr' ∧ fr'.cur = some (if t then g.lt else g.lf) := by
  have h := hT g s v t s' fr post code r (emitE isLocal e g).2.loc h0 hloc (loc_test isLocal e hte g hloc) hn
  simp only [then_fst, List.append_assoc] at h
  exact h hs hm he ht hf

theorem ternEnd_eq {a : Exp} (h : a.isTernary = true) (g : Gen) : (emitE isLocal a g).2.ternEnd = g.label + 2 ∧ g.label + 3 ≤ (emitE isLocal a g).2.label := by
  cases a with
  | ternary c a b =>
    simp only [emitE, then_snd, Gen.answer]
    refine ⟨trivial, ?_⟩
    have h1 := growE isLocal c { g with label := g.label + 3, lt := g.label, lf := g.label + 1, loc := .free }
    generalize emitE isLocal c { g with label := g.label + 3, lt := g.label, lf := g.label + 1, loc := .free } = x at h1 ⊢
    have h2 := grow_check c.ty x.2
    generalize check c.ty x.2 = y at h2 ⊢
    have h3 := growE isLocal a { y.2 with loc := .free }
    generalize emitE isLocal a { y.2 with loc := .free } = z at h3 ⊢
    have h4 := growE isLocal b { z.2 with loc := .free }
    exact Nat.le_trans h1.label (Nat.le_trans h2.label (Nat.le_trans h3.label h4.label))
  | _ => simp [Exp.isTernary] at h

/-- The operand of `phi`. -/
theorem phi_opd {e : Exp} {g : Gen} {v : V} {fr : Frame} (h : Ans e g v fr) (hi : intOpd e = true) :
    fr.opd .int (if g.kind = .reg then .reg g.ansReg else .int g.ansConst) = some v ∧ v.ty = .int := by
  simp only [intOpd, Bool.and_eq_true, Bool.or_eq_true, beq_iff_eq] at hi
  have hty : v.ty = .int := by have := h.ty; rw [hi.1] at this; exact (Option.some.inj this).symm
  have ho := h.opd
  rw [hty] at ho
  unfold Gen.opd at ho
  refine ⟨?_, hty⟩
  rcases hi.2 with hk | hk <;> rw [h.kind, hk] at ho ⊢ <;> simpa using ho

theorem eval_some : ∀ e : Exp, good e = true → e.ty ≠ none → ∀ {s s' : S} {x : Option V}, evalE isLocal call e s = some (x, s') → x ≠ none := by
  intro e
  cases e with
  | comma l r =>
    intro hg ht s s' x he
    simp only [good, cls, Bool.and_eq_true] at hg
    simp only [evalE, Option.bind_eq_bind, Option.bind_eq_some_iff] at he
    obtain ⟨p1, p2, he⟩ := he
    exact eval_some r hg.2 ht he
  | ternary c a b =>
    intro hg ht s s' x he
    simp only [good, cls, Bool.and_eq_true, intOpd, beq_iff_eq] at hg
    simp only [evalE, Option.bind_eq_bind, Option.bind_eq_some_iff] at he
    obtain ⟨p1, p2, t, p3, he⟩ := he
    cases t
    · exact eval_some b hg.1.1.1.1.2 (by rw [hg.1.1.2.1]; simp) he
    · exact eval_some a hg.1.1.1.1.1.2 (by rw [hg.1.1.1.2.1]; simp) he
  | call f ret args =>
    intro hg ht s s' x he
    simp only [evalE, Option.bind_eq_bind, Option.bind_eq_some_iff] at he
    obtain ⟨p1, p2, ⟨v, w⟩, p3, he⟩ := he
    simp only at he
    split at he
    · rename_i hret
      simp only [Option.some.injEq, Prod.mk.injEq] at he
      obtain ⟨rfl, -⟩ := he
      intro e
      subst e
      exact ht hret.symm
    · cases he
  | assign op id ty e =>
    intro hg ht s s' x he
    cases op
    · simp only [evalE, Option.bind_eq_bind, Option.bind_eq_some_iff] at he
      obtain ⟨p1, p2, v, p3, he⟩ := he
      split at he
      · simp only [Option.bind_eq_some_iff, Option.some.injEq, Prod.mk.injEq] at he
        obtain ⟨p4, p5, rfl, p6⟩ := he
        simp
      · cases he
    · simp only [evalE, Option.bind_eq_bind, Option.bind_eq_some_iff, Option.some.injEq, Prod.mk.injEq] at he
      obtain ⟨p1, p2, p3, p4, p5, p6, p7, p8, p9, p10, rfl, p11⟩ := he
      simp
  | logic => intro hg; simp [good, cls] at hg
  | _ =>
    intro hg ht s s' x he
    simp only [evalE, Option.bind_eq_bind, Option.bind_eq_some_iff, Option.map_eq_some_iff, Option.some.injEq, Prod.mk.injEq] at he
    intro e
    subst e
    simp_all

theorem v_ternary {c a b : Exp} (hc : TOk isLocal call crel c) (ha : VOk isLocal call crel a) (hb : VOk isLocal call crel b) (hg : good (.ternary c a b) = true) :
    VOk isLocal call crel (.ternary c a b) := by
  intro g s x s' fr post code h0 hn hs hm he
  simp only [good, cls, Bool.and_eq_true, Bool.or_eq_true] at hg
  obtain ⟨⟨⟨⟨⟨⟨hgc, hga⟩, hgb⟩, hia⟩, hib⟩, hsa⟩, hsb⟩ := hg
  simp only [evalE, Option.bind_eq_bind, Option.bind_eq_some_iff] at he
  obtain ⟨⟨y, s1⟩, h1, t, ⟨vc, rfl, ht⟩, he⟩ := he
  simp only at he
  have hrt : a.ty = some .int := by simp only [intOpd, Bool.and_eq_true, beq_iff_eq] at hia; exact hia.1
  simp only [emitE, then_fst, then_snd, List.append_assoc] at hs ⊢
  have hga1 := growE isLocal c { g with label := g.label + 3, lt := g.label, lf := g.label + 1, loc := .free }
  have hT := @top_ok isLocal call crel c hc hgc { g with label := g.label + 3, lt := g.label, lf := g.label + 1, loc := .free } s s1 vc t fr
  generalize emitE isLocal c { g with label := g.label + 3, lt := g.label, lf := g.label + 1, loc := .free } = gc at *
  have hgk := grow_check c.ty gc.2
  generalize check c.ty gc.2 = gk at *
  have hea := @ternEnd_eq isLocal a
  have hgga := growE isLocal a { gk.2 with loc := .free }
  have hVa := ha { gk.2 with loc := .free }
  have hea := fun h => @ternEnd_eq isLocal a h { gk.2 with loc := .free }
  generalize emitE isLocal a { gk.2 with loc := .free } = za at *
  have hggb := growE isLocal b { za.2 with loc := .free }
  have hVb := hb { za.2 with loc := .free }
  have heb := fun h => @ternEnd_eq isLocal b h { za.2 with loc := .free }
  generalize emitE isLocal b { za.2 with loc := .free } = zb at *
  have hlabk : g.label + 3 ≤ gk.2.label := Nat.le_trans hga1.label hgk.label
  have hlaba : gk.2.label ≤ za.2.label := hgga.label
  have hlabb : za.2.label ≤ zb.2.label := hggb.label
  have hregk : g.reg ≤ gk.2.reg := Nat.le_trans hga1.reg hgk.reg
  have hrega : gk.2.reg ≤ za.2.reg := hgga.reg
  have hregb : za.2.reg ≤ zb.2.reg := hggb.reg
  simp only at hea heb
  -- the places in the text
  have hyes := suf_right (suf_right hs)
  have hcodea := suf_right (a := [Instr.label g.label]) hyes
  have hno' := suf_right hcodea
  have hno : ([Instr.label (g.label + 1)] ++ (zb.1 ++ ([Instr.br (g.label + 2), Instr.label (g.label + 2), Instr.phi zb.2.reg (a.ty.getD .int)
      (if za.2.kind = .reg then .reg za.2.ansReg else .int za.2.ansConst) (if a.isTernary = true then za.2.ternEnd else g.label)
      (if zb.2.kind = .reg then .reg zb.2.ansReg else .int zb.2.ansConst) (if b.isTernary = true then zb.2.ternEnd else g.label + 1)] ++ post))) <:+ code :=
    suf_right (a := [Instr.br (g.label + 2)]) hno'
  have hcodeb := suf_right (a := [Instr.label (g.label + 1)]) hno
  have hend := suf_right hcodeb
  have hstop := suf_right (a := [Instr.br (g.label + 2)]) hend
  have hfstop := find_label hstop hn
  cases t
  · -- the second operand
    simp only [Bool.false_eq_true, if_false] at he
    obtain ⟨fr1, t1, m1, k1, c1⟩ := hT (Nat.succ_pos _) rfl hn hs hm h1 ht (find_label hno hn)
    obtain ⟨fr2, t2, m2, k2, a2, cs2, ct2⟩ := hVb s1 _ s' fr1 _ code (Nat.lt_of_lt_of_le (Nat.succ_pos _) (Nat.le_trans hlabk hlaba)) hn hcodeb m1 he
    simp only [Bool.false_eq_true, if_false] at c1
    have hcur : fr2.cur = some (if b.isTernary = true then zb.2.ternEnd else g.label + 1) := by
      by_cases hbt : b.isTernary = true
      · rw [if_pos hbt]; exact ct2 hbt
      · rw [if_neg hbt, cs2 (hsb.resolve_left hbt), c1]
    have hx : x ≠ none := by
      refine eval_some b hgb ?_ he
      simp only [intOpd, Bool.and_eq_true, beq_iff_eq] at hib
      rw [hib.1]; simp
    obtain ⟨v, rfl⟩ : ∃ v, x = some v := Option.ne_none_iff_exists'.mp hx
    have han := a2 v rfl
    obtain ⟨ho, hvt⟩ := phi_opd han hib
    refine ⟨(fr2.enter (g.label + 2)).setReg zb.2.reg v, ?_, (m2.enter _).setReg _ _, ?_, ?_, by simp [straight], ?_⟩
    · refine t1.trans (t2.trans (.step (.br hfstop) (.one ?_)))
      rw [hrt]
      refine .phiSnd ?_ ?_ ho
      · unfold Frame.cameFrom
        rw [if_neg]
        · exact hcur
        · split
          · rename_i h; have := heb h; omega
          · omega
      · unfold Frame.cameFrom
        have hne : (if a.isTernary = true then za.2.ternEnd else g.label) ≠ 0 ∧
            (if a.isTernary = true then za.2.ternEnd else g.label) ≠ (if b.isTernary = true then zb.2.ternEnd else g.label + 1) := by
          constructor
          · split
            · rename_i h; have := hea h; omega
            · omega
          · split
            · rename_i h; have := hea h
              split
              · rename_i h'; have := heb h'; omega
              · omega
            · split
              · rename_i h'; have := heb h'; omega
              · omega
        rw [if_neg hne.1]
        simp only [Frame.enter, hcur, Option.some.injEq]
        exact fun e => hne.2 e.symm
    · exact ((k1.trans k2 (Nat.le_trans hregk hrega)).trans (Keep.enter _ _ _) (Nat.le_refl _)).trans (Keep.setReg _ _ (by exact Nat.le_trans hregk (Nat.le_trans hrega hregb))) (Nat.le_refl _)
    · intro v' hv'
      cases hv'
      refine ⟨by rw [hvt]; exact hrt, rfl, ?_, by simp [Gen.answer]⟩
      simp only [Gen.answer, Gen.opd]
      exact opd_setReg _ _ _
    · intro _; rfl
  · -- the first operand
    simp only [if_true] at he
    obtain ⟨fr1, t1, m1, k1, c1⟩ := hT (Nat.succ_pos _) rfl hn hs hm h1 ht (find_label hyes hn)
    obtain ⟨fr2, t2, m2, k2, a2, cs2, ct2⟩ := hVa s1 _ s' fr1 _ code (Nat.lt_of_lt_of_le (Nat.succ_pos _) hlabk) hn hcodea m1 he
    simp only [if_true] at c1
    have hcur : fr2.cur = some (if a.isTernary = true then za.2.ternEnd else g.label) := by
      by_cases hat : a.isTernary = true
      · rw [if_pos hat]; exact ct2 hat
      · rw [if_neg hat, cs2 (hsa.resolve_left hat), c1]
    have hx : x ≠ none := by
      exact eval_some a hga (by rw [hrt]; simp) he
    obtain ⟨v, rfl⟩ : ∃ v, x = some v := Option.ne_none_iff_exists'.mp hx
    have han := a2 v rfl
    obtain ⟨ho, hvt⟩ := phi_opd han hia
    refine ⟨(fr2.enter (g.label + 2)).setReg zb.2.reg v, ?_, (m2.enter _).setReg _ _, ?_, ?_, by simp [straight], ?_⟩
    · refine t1.trans (t2.trans (.step (.br hfstop) (.one ?_)))
      rw [hrt]
      refine .phiFst ?_ ho
      unfold Frame.cameFrom
      rw [if_neg]
      · exact hcur
      · split
        · rename_i h; have := hea h; omega
        · omega
    · exact ((k1.trans k2 hregk).trans (Keep.enter _ _ _) (Nat.le_refl _)).trans (Keep.setReg _ _ (by exact Nat.le_trans hregk (Nat.le_trans hrega hregb))) (Nat.le_refl _)
    · intro v' hv'
      cases hv'
      refine ⟨by rw [hvt]; exact hrt, rfl, ?_, by simp [Gen.answer]⟩
      simp only [Gen.answer, Gen.opd]
      exact opd_setReg _ _ _
    · intro _; rfl

theorem a_nil : AOk isLocal call crel .nil := by
  intro g s vs s' fr post code h0 hn hs hm he
  simp only [evalA, Option.some.injEq, Prod.mk.injEq] at he
  obtain ⟨rfl, rfl⟩ := he
  exact ⟨fr, .refl, hm, Keep.refl _ _, rfl, fun _ => rfl⟩

theorem a_cons {e : Exp} {rest : Args} (hv : VOk isLocal call crel e) (ha : AOk isLocal call crel rest) : AOk isLocal call crel (.cons e rest) := by
  intro g s vs s' fr post code h0 hn hs hm he
  simp only [evalA, Option.bind_eq_bind, Option.bind_eq_some_iff] at he
  obtain ⟨⟨y, s1⟩, h1, v, rfl, ⟨us, s2⟩, h2, hx⟩ := he
  simp only [Option.some.injEq, Prod.mk.injEq] at hx
  obtain ⟨rfl, rfl⟩ := hx
  simp only [emitA, List.append_assoc] at hs ⊢
  obtain ⟨fr1, t1, m1, k1, a1, c1, -⟩ := hv { g with loc := .free } s _ s1 fr _ code h0 hn hs hm h1
  have han := a1 _ rfl
  have hgr := growE isLocal e { g with loc := .free }
  generalize emitE isLocal e { g with loc := .free } = z at *
  obtain ⟨fr2, t2, m2, k2, a2, c2⟩ := ha z.2 s1 us s2 fr1 _ code (Nat.lt_of_lt_of_le h0 hgr.label) hn (suf_right hs) m1 h2
  refine ⟨fr2, t1.trans t2, m2, k1.trans k2 hgr.reg, ?_, ?_⟩
  · simp only [Frame.opds, han.ty, Option.getD_some]
    rw [opd_keep k2 han.bound, han.opd, a2]
    rfl
  · simp only [straightA, Bool.and_eq_true]
    exact fun p => by rw [c2 p.2]; exact c1 p.1

end

/-! ## All together -/

section
variable {isLocal : Nat → Bool} {call : Calls} {crel : CallRel}

/-- An expression used for its value or as a condition. -/
structure EOk (isLocal : Nat → Bool) (call : Calls) (crel : CallRel) (e : Exp) : Prop where
  val : good e = true → VOk isLocal call crel e
  cond : test e = true → TOk isLocal call crel e
  jump : test e = true → jumps e = true → JOk isLocal call crel e

/-- A value may be a condition. -/
theorem ok_leaf {e : Exp} (hv : good e = true → VOk isLocal call crel e) (ht : test e = true → good e = true ∧ leaf e = true) (hj : jumps e = false) :
    EOk isLocal call crel e :=
  ⟨hv, fun h => leaf_ok (hv (ht h).1) (ht h).1 (ht h).2, fun _ h => by rw [hj] at h; cases h⟩

mutual
theorem all_ok (hc : ∀ f vs w v w', call f vs w = some (v, w') → crel f vs w v w') : ∀ e : Exp, EOk isLocal call crel e
  | .int v => ok_leaf (fun _ => v_int v) (fun h => ⟨rfl, h⟩) rfl
  | .bool v => ok_leaf (fun _ => v_bool v) (fun h => ⟨rfl, h⟩) rfl
  | .str v => ok_leaf (fun _ => v_str v) (fun h => ⟨rfl, h⟩) rfl
  | .ident id ty => ok_leaf (fun _ => v_ident id ty) (fun h => ⟨rfl, h⟩) rfl
  | .inc op id => ok_leaf (fun _ => v_inc op id) (fun h => ⟨rfl, h⟩) rfl
  | .un op e => by
    have ih := all_ok hc e
    refine ok_leaf (fun h => v_un (ih.val ?_) h) (fun h => ?_) rfl
    · simp only [good, cls, Bool.and_eq_true] at h; exact h.1.1
    · simp only [test, good, cls] at h ⊢; exact Bool.and_eq_true_iff.mp h
  | .arith op l r => by
    have ih := all_ok hc l
    have jh := all_ok hc r
    refine ok_leaf (fun h => ?_) (fun h => ?_) rfl
    · have h' := h
      simp only [good, cls, Bool.and_eq_true] at h'
      exact v_arith (ih.val h'.1.1.1.1) (jh.val h'.1.1.1.2) h
    · simp only [test, good, cls] at h ⊢; exact Bool.and_eq_true_iff.mp h
  | .cmp op l r => by
    have ih := all_ok hc l
    have jh := all_ok hc r
    refine ok_leaf (fun h => ?_) (fun h => ?_) rfl
    · have h' := h
      simp only [good, cls, Bool.and_eq_true] at h'
      exact v_cmp (ih.val h'.1.1.1.1) (jh.val h'.1.1.1.2) h
    · simp only [test, good, cls] at h ⊢; exact Bool.and_eq_true_iff.mp h
  | .comma l r => by
    have ih := all_ok hc l
    have jh := all_ok hc r
    refine ok_leaf (fun h => ?_) (fun h => ?_) rfl
    · simp only [good, cls, Bool.and_eq_true] at h
      exact v_comma (ih.val h.1) (jh.val h.2)
    · simp only [test, good, cls] at h ⊢; exact Bool.and_eq_true_iff.mp h
  | .ternary c a b => by
    have ih := all_ok hc c
    have jh := all_ok hc a
    have kh := all_ok hc b
    refine ok_leaf (fun h => ?_) (fun h => ?_) rfl
    · have h' := h
      simp only [good, cls, Bool.and_eq_true] at h'
      exact v_ternary (ih.cond h'.1.1.1.1.1.1) (jh.val h'.1.1.1.1.1.2) (kh.val h'.1.1.1.1.2) h
    · simp only [test, good, cls] at h ⊢; exact Bool.and_eq_true_iff.mp h
  | .assign op id ty e => by
    have ih := all_ok hc e
    refine ok_leaf (fun h => ?_) (fun h => ?_) rfl
    · have h' := h
      simp only [good, cls, Bool.and_eq_true] at h'
      cases op
      · exact v_assign (ih.val h'.1.1.1.1) h
      · exact v_assignOp (ih.val h'.1.1.1.1) h
    · simp only [test, good, cls] at h ⊢; exact Bool.and_eq_true_iff.mp h
  | .call f ret args => by
    have ih := all_args hc args
    refine ok_leaf (fun h => ?_) (fun h => ?_) rfl
    · simp only [good, cls] at h
      exact v_call hc (ih h)
    · simp only [test, good, cls] at h ⊢; exact Bool.and_eq_true_iff.mp h
  | .logic isOr l r => by
    have ih := all_ok hc l
    have jh := all_ok hc r
    have hj : test (.logic isOr l r) = true → JOk isLocal call crel (.logic isOr l r) := fun h => by
      simp only [test, cls, Bool.and_eq_true] at h
      exact j_logic (ih.cond h.1) (jh.cond h.2)
    exact ⟨fun h => by simp [good, cls] at h, fun h => jump_test (hj h), fun h _ => hj h⟩
  | .not e => by
    have ih := all_ok hc e
    have hj : test (.not e) = true → jumps (.not e) = true → JOk isLocal call crel (.not e) := fun h k => by
      simp only [test, cls] at h
      split at h
      · rename_i hty
        simp only [Bool.and_eq_true, beq_iff_eq, bne_iff_ne, Bool.not_eq_true'] at h
        exact j_not_int (ih.val h.1.1.1) h.1.1.1 hty h.1.1.2 h.1.2 h.2
      · rename_i hty
        simp only [Bool.and_eq_true] at h
        simp only [jumps, Bool.or_eq_true, beq_iff_eq] at k
        exact j_not_jumps (ih.jump h.1 (k.resolve_right hty))
    refine ⟨fun h => ?_, fun h => ?_, hj⟩
    · have h' := h
      simp only [good, cls, Bool.and_eq_true] at h'
      exact v_not (ih.val h'.1.1) h
    · cases hk : jumps (.not e)
      · simp only [jumps, Bool.or_eq_false_iff, beq_eq_false_iff_ne] at hk
        simp only [test, cls, if_neg hk.2, Bool.and_eq_true, Bool.or_eq_true, beq_iff_eq] at h
        exact t_not (ih.cond h.1) h.1 hk.2 hk.1 (h.2.resolve_left (by rw [hk.1]; simp))
      · exact jump_test (hj h hk)

theorem all_args (hc : ∀ f vs w v w', call f vs w = some (v, w') → crel f vs w v w') : ∀ args : Args, clsA args = true → AOk isLocal call crel args
  | .nil, _ => a_nil
  | .cons e rest, h => by
    have ih := all_ok hc e
    have jh := all_args hc rest
    simp only [clsA, Bool.and_eq_true] at h
    exact a_cons (ih.val h.1) (jh h.2)
end

end

end RuC.Llvm
