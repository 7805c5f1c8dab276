import Verif.Llvm.Flow

/-!
# Lemmas: statements one after the other
-/

namespace RuC.Llvm

/-! ## The state of the generator -/

/-- What only grows and what stays behind a statement. -/
structure GrowS (g g' : Gen) : Prop where
  reg : g.reg ≤ g'.reg
  label : g.label ≤ g'.label
  block : g.block ≤ g'.block
  lb : g'.lb = g.lb
  lc : g'.lc = g.lc
  isMain : g'.isMain = g.isMain

theorem GrowS.refl (g : Gen) : GrowS g g := ⟨Nat.le_refl _, Nat.le_refl _, Nat.le_refl _, rfl, rfl, rfl⟩

theorem GrowS.trans {a b c : Gen} (h : GrowS a b) (k : GrowS b c) : GrowS a c :=
  ⟨Nat.le_trans h.reg k.reg, Nat.le_trans h.label k.label, Nat.le_trans h.block k.block, k.lb.trans h.lb, k.lc.trans h.lc, k.isMain.trans h.isMain⟩

theorem Grow.toS {g g' : Gen} (h : Grow g g') : GrowS g g' := ⟨h.reg, h.label, Nat.le_of_eq h.block.symm, h.lb, h.lc, h.isMain⟩

theorem storeV_snd (ty : Ty) (id : Nat) (g : Gen) : (storeV ty id g).2 = g := by
  unfold storeV
  split <;> rfl

theorem retOf_snd (ty : Option Ty) (g : Gen) : (retOf ty g).2 = g := by
  unfold retOf
  split
  · split <;> rfl
  · rfl
  · rfl

theorem growD (isLocal : Nat → Bool) : ∀ (l : List (Nat × Ty × Option Exp)) (g : Gen), GrowS g (emitD isLocal l g).2
  | [], g => GrowS.refl g
  | (id, ty, none) :: l, g => by
    simp only [emitD, emitV, then_snd]
    exact growD isLocal l g
  | (id, ty, some e) :: l, g => by
    simp only [emitD, emitV, then_snd, storeV_snd]
    have h := (growE isLocal e { g with loc := .free }).toS
    exact GrowS.trans ⟨h.reg, h.label, h.block, h.lb, h.lc, h.isMain⟩ (growD isLocal l _)

theorem swapD (isLocal : Nat → Bool) : ∀ (l : List (Nat × Ty × Option Exp)), okD l = true → ∀ (g : Gen), swapped (swapsD l) g (emitD isLocal l g).2
  | [], _, g => by simp [swapsD, swapped, emitD]
  | (id, ty, none) :: l, h, g => by
    simp only [okD, Bool.and_eq_true] at h
    simp only [emitD, emitV, then_snd, swapsD]
    exact swapD isLocal l h.2 g
  | (id, ty, some e) :: l, h, g => by
    simp only [okD, Bool.and_eq_true] at h
    simp only [emitD, emitV, then_snd, storeV_snd, swapsD]
    have k := (fieldsE isLocal e h.1.1.1.2 { g with loc := .free }).2
    exact swapped_trans k (swapD isLocal l h.2 _)

theorem grow_testOf (isLocal : Nat → Bool) (cond incr : Nat) (c : Option Exp) (g : Gen) : GrowS g (testOf isLocal cond incr c g).2 := by
  cases c with
  | none => exact GrowS.refl g
  | some c =>
    simp only [testOf, then_snd]
    have h := (growE isLocal c { g with loc := .free }).toS
    exact GrowS.trans ⟨h.reg, h.label, h.block, h.lb, h.lc, h.isMain⟩ (grow_check c.ty _).toS

theorem grow_stepOf (isLocal : Nat → Bool) (c : Option Exp) (g : Gen) : GrowS g (stepOf isLocal c g).2 := by
  cases c with
  | none => exact GrowS.refl g
  | some c => exact (growE isLocal c g).toS

theorem grow_restoreOf (k : Option Nat) (g : Gen) : GrowS g (restoreOf k g).2 ∧ swapped false g (restoreOf k g).2 := by
  cases k with
  | none => exact ⟨GrowS.refl g, by simp [swapped, restoreOf]⟩
  | some c => exact ⟨⟨Nat.le_succ _, Nat.le_refl _, Nat.le_refl _, rfl, rfl, rfl⟩, by simp [swapped, restoreOf]⟩

theorem not_case {main : Bool} {s : Stmt} (h : okS main s = true) : s.isCase = false := by
  cases s <;> simp [Stmt.isCase, okS] at h ⊢

mutual
theorem growS (isLocal : Nat → Bool) (main : Bool) : ∀ (st : Stmt), okS main st = true → ∀ (g : Gen), GrowS g (emitS isLocal st g).2 ∧ (g.isMain = main → swapped (swapsS st) g (emitS isLocal st g).2)
  | .skip, _, g => ⟨GrowS.refl g, fun _ => by simp [swapped, swapsS, emitS]⟩
  | .expr e, h, g => by
    simp only [okS] at h
    simp only [emitS, swapsS]
    exact ⟨(growE isLocal e g).toS, fun _ => (fieldsE isLocal e h g).2⟩
  | .decls l, h, g => by
    simp only [okS] at h
    simp only [emitS, swapsS]
    exact ⟨growD isLocal l g, fun _ => swapD isLocal l h g⟩
  | .if_ c a, h, g => by
    simp only [okS, Bool.and_eq_true] at h
    simp only [emitS, then_snd, swapsS]
    have h1 := (growE isLocal c { g with label := g.label + 3, lt := g.label, lf := g.label + 1, loc := .free }).toS
    generalize emitE isLocal c { g with label := g.label + 3, lt := g.label, lf := g.label + 1, loc := .free } = x at h1 ⊢
    have h2 := (grow_check c.ty x.2).toS
    generalize check c.ty x.2 = y at h2 ⊢
    have h3 := (growS isLocal main a h.2 y.2).1
    have h1' : GrowS g x.2 := ⟨h1.reg, Nat.le_trans (Nat.le_add_right _ _) h1.label, h1.block, h1.lb, h1.lc, h1.isMain⟩
    have t := (h1'.trans h2).trans h3
    exact ⟨⟨t.reg, t.label, t.block, t.lb, t.lc, t.isMain⟩, fun _ => by simp [swapped]⟩
  | .ifElse c a b, h, g => by
    simp only [okS, Bool.and_eq_true] at h
    simp only [emitS, then_snd, swapsS]
    have h1 := (growE isLocal c { g with label := g.label + 3, lt := g.label, lf := g.label + 1, loc := .free }).toS
    generalize emitE isLocal c { g with label := g.label + 3, lt := g.label, lf := g.label + 1, loc := .free } = x at h1 ⊢
    have h2 := (grow_check c.ty x.2).toS
    generalize check c.ty x.2 = y at h2 ⊢
    have h3 := (growS isLocal main a h.1.2 y.2).1
    generalize emitS isLocal a y.2 = z at h3 ⊢
    have h4 := (growS isLocal main b h.2 z.2).1
    have h1' : GrowS g x.2 := ⟨h1.reg, Nat.le_trans (Nat.le_add_right _ _) h1.label, h1.block, h1.lb, h1.lc, h1.isMain⟩
    have t := ((h1'.trans h2).trans h3).trans h4
    exact ⟨⟨t.reg, t.label, t.block, t.lb, t.lc, t.isMain⟩, fun _ => by simp [swapped]⟩
  | .while_ c b, h, g => by
    simp only [okS, Bool.and_eq_true] at h
    simp only [emitS, then_snd, swapsS]
    generalize hg0 : ({ g with label := g.label + 3, lt := g.label + 1, lf := g.label + 2, lb := g.label + 2, lc := g.label + 1, loc := .free } : Gen) = g0
    have h1 := (growE isLocal c g0).toS
    generalize emitE isLocal c g0 = x at h1 ⊢
    have h2 := (grow_check c.ty x.2).toS
    generalize check c.ty x.2 = y at h2 ⊢
    have h3 := (growS isLocal main b h.2 y.2).1
    have t := (h1.trans h2).trans h3
    subst hg0
    exact ⟨⟨t.reg, Nat.le_trans (Nat.le_add_right _ _) t.label, t.block, rfl, rfl, t.isMain⟩, fun _ => by simp [swapped]⟩
  | .do_ b c, h, g => by
    simp only [okS, Bool.and_eq_true] at h
    simp only [emitS, then_snd, swapsS]
    generalize hg0 : ({ g with label := g.label + 2, lt := g.label, lf := g.label + 1, lb := g.label + 1, lc := g.label } : Gen) = g0
    have h1 := (growS isLocal main b h.1.1 g0).1
    generalize emitS isLocal b g0 = x at h1 ⊢
    have h2 := (growE isLocal c { x.2 with loc := .free }).toS
    generalize emitE isLocal c { x.2 with loc := .free } = y at h2 ⊢
    have h3 := (grow_check c.ty y.2).toS
    have h2' : GrowS x.2 y.2 := ⟨h2.reg, h2.label, h2.block, h2.lb, h2.lc, h2.isMain⟩
    have t := (h1.trans h2').trans h3
    subst hg0
    exact ⟨⟨t.reg, Nat.le_trans (Nat.le_add_right _ _) t.label, t.block, rfl, rfl, t.isMain⟩, fun _ => by simp [swapped]⟩
  | .for_ i c inc b, h, g => by
    simp only [okS, Bool.and_eq_true] at h
    simp only [emitS, then_snd, swapsS]
    generalize hg0 : ({ g with label := g.label + 4, lt := g.label + 1, lf := g.label + 3, lb := g.label + 3, lc := g.label + 1 } : Gen) = g0
    have h1 := (growS isLocal main i h.1.1.1.2 g0).1
    generalize emitS isLocal i g0 = x at h1 ⊢
    have h2 := grow_testOf isLocal g.label (g.label + 2) c x.2
    generalize testOf isLocal g.label (g.label + 2) c x.2 = y at h2 ⊢
    have h3 := grow_stepOf isLocal inc y.2
    generalize stepOf isLocal inc y.2 = z at h3 ⊢
    have h4 := (growS isLocal main b h.2 z.2).1
    have t := ((h1.trans h2).trans h3).trans h4
    subst hg0
    exact ⟨⟨t.reg, Nat.le_trans (Nat.le_add_right _ _) t.label, t.block, rfl, rfl, t.isMain⟩, fun _ => by simp [swapped]⟩
  | .block b, h, g => by
    simp only [okS] at h
    simp only [emitS, then_snd, swapsS]
    have h1 := growB isLocal main b h (some g.block) { g with block := g.block + 1, reg := g.reg + 1 }
    have t := h1.1
    exact ⟨⟨Nat.le_trans (Nat.le_succ _) t.reg, t.label, Nat.le_trans (Nat.le_succ _) t.block, t.lb, t.lc, t.isMain⟩, h1.2⟩
  | .break_, h, g => ⟨GrowS.refl g, fun _ => by simp [swapped, swapsS, emitS]⟩
  | .return_ none, h, g => by
    simp only [okS, Bool.and_eq_true, Bool.not_eq_true'] at h
    have : (emitS isLocal (.return_ none) g).2 = g := by
      simp only [emitS]; split <;> rfl
    rw [this]
    exact ⟨GrowS.refl g, fun _ => by simp [swapped, swapsS]⟩
  | .return_ (some e), h, g => by
    simp only [okS, okRet, Bool.and_eq_true, Bool.not_eq_true'] at h
    simp only [emitS, swapsS]
    have h1 := (growE isLocal e { g with loc := .reg }).toS
    split
    · rename_i hm
      refine ⟨GrowS.refl g, fun h' => ?_⟩
      rw [h.1] at h'
      rw [h'] at hm
      cases hm
    · simp only [then_snd, retOf_snd]
      exact ⟨⟨h1.reg, h1.label, h1.block, h1.lb, h1.lc, h1.isMain⟩, fun _ => (fieldsE isLocal e h.2.1 { g with loc := .reg }).2⟩
  | .switch_ .., h, _ => by simp [okS] at h
  | .case_ .., h, _ => by simp [okS] at h
  | .default_ .., h, _ => by simp [okS] at h
  | .continue_, h, _ => by simp [okS] at h

theorem growB (isLocal : Nat → Bool) (main : Bool) : ∀ (b : Stmts), okB main b = true → ∀ (k : Option Nat) (g : Gen),
    GrowS g (emitB isLocal k b g).2 ∧ (g.isMain = main → swapped (swapsB b) g (emitB isLocal k b g).2)
  | .nil, _, k, g => ⟨GrowS.refl g, fun _ => by simp [swapped, swapsB, emitB]⟩
  | .cons s .nil, h, k, g => by
    simp only [okB, Bool.and_true] at h
    have hc := not_case h
    simp only [emitB, then_snd, hc, Bool.false_eq_true, if_false, quiet_snd, swapsB]
    have h1 := growS isLocal main s h g
    have h2 := grow_restoreOf k (emitS isLocal s g).2
    exact ⟨h1.1.trans h2.1, fun hm => swapped_trans (h1.2 hm) h2.2⟩
  | .cons s (.cons s' rest), h, k, g => by
    rw [okB, Bool.and_eq_true] at h
    rw [emitB, swapsB]
    · simp only [then_snd]
      have h1 := growS isLocal main s h.1 g
      have h2 := growB isLocal main (.cons s' rest) h.2 k (emitS isLocal s g).2
      exact ⟨h1.1.trans h2.1, fun hm => swapped_trans (h1.2 hm) (h2.2 (by rw [h1.1.isMain]; exact hm))⟩
    · intro e; cases e
end

end RuC.Llvm
