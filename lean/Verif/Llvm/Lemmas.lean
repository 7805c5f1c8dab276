import Verif.Llvm.Spec
import Verif.Llvm.Frag

/-!
# Lemmas: what the generator does with its state
-/

namespace RuC.Llvm

@[simp] theorem then_fst (x : Out) (f : Gen → Out) : (x.then f).1 = x.1 ++ (f x.2).1 := rfl
@[simp] theorem then_snd (x : Out) (f : Gen → Out) : (x.then f).2 = (f x.2).2 := rfl
@[simp] theorem quiet_fst (g : Gen) : (quiet g).1 = [] := rfl
@[simp] theorem quiet_snd (g : Gen) : (quiet g).2 = g := rfl

/-- What only grows and what stays. -/
structure Grow (g g' : Gen) : Prop where
  reg : g.reg ≤ g'.reg
  label : g.label ≤ g'.label
  block : g'.block = g.block
  lb : g'.lb = g.lb
  lc : g'.lc = g.lc
  lswitch : g'.lswitch = g.lswitch
  isMain : g'.isMain = g.isMain

theorem Grow.refl (g : Gen) : Grow g g := ⟨Nat.le_refl _, Nat.le_refl _, rfl, rfl, rfl, rfl, rfl⟩

theorem Grow.trans {a b c : Gen} (h : Grow a b) (k : Grow b c) : Grow a c :=
  ⟨Nat.le_trans h.reg k.reg, Nat.le_trans h.label k.label, k.block.trans h.block, k.lb.trans h.lb, k.lc.trans h.lc, k.lswitch.trans h.lswitch, k.isMain.trans h.isMain⟩

theorem grow_check (ty : Option Ty) (g : Gen) : Grow g (check ty g).2 := by
  unfold check
  split <;> (try split) <;> (try split) <;> constructor <;> simp

mutual
theorem growE (isLocal : Nat → Bool) : ∀ (e : Exp) (g : Gen), Grow g (emitE isLocal e g).2
  | .int _, g => by simp only [emitE]; constructor <;> simp
  | .bool _, g => by simp only [emitE]; constructor <;> simp
  | .str _, g => by simp only [emitE]; constructor <;> simp
  | .ident _ _, g => by simp only [emitE, Gen.answer]; constructor <;> simp
  | .un op e, g => by
    have h := growE isLocal e { g with loc := if op = .abs then .free else .reg }
    simp only [emitE, then_snd, Gen.answer]
    have := h.reg
    exact ⟨by simp at this ⊢; omega, h.label, h.block, h.lb, h.lc, h.lswitch, h.isMain⟩
  | .not e, g => by
    have h := growE isLocal e { g with lt := g.lf, lf := g.lt }
    simp only [emitE, then_snd]
    have h0 : Grow g (emitE isLocal e { g with lt := g.lf, lf := g.lt }).2 := ⟨h.reg, h.label, h.block, h.lb, h.lc, h.lswitch, h.isMain⟩
    split
    · simp only [then_snd]
      refine h0.trans ?_
      split
      · have k := grow_check e.ty (emitE isLocal e { g with lt := g.lf, lf := g.lt }).2
        have := k.reg
        exact ⟨by simp; omega, k.label, k.block, k.lb, k.lc, k.lswitch, k.isMain⟩
      · simp only [quiet_snd]; constructor <;> simp
    · exact h0
  | .inc _ _, g => by simp only [emitE]; constructor <;> simp
  | .arith op l r, g => by
    have h := growE isLocal l { g with loc := .free }
    have k := growE isLocal r { (emitE isLocal l { g with loc := .free }).2 with loc := .free }
    simp only [emitE, then_snd, Gen.answer]
    have := h.reg; have := k.reg
    exact ⟨by simp at *; omega, Nat.le_trans h.label k.label, k.block.trans h.block, k.lb.trans h.lb, k.lc.trans h.lc, k.lswitch.trans h.lswitch, k.isMain.trans h.isMain⟩
  | .cmp op l r, g => by
    have h := growE isLocal l { g with loc := .free }
    have k := growE isLocal r { (emitE isLocal l { g with loc := .free }).2 with loc := .free }
    simp only [emitE, then_snd, Gen.answer]
    have := h.reg; have := k.reg
    exact ⟨by simp at *; omega, Nat.le_trans h.label k.label, k.block.trans h.block, k.lb.trans h.lb, k.lc.trans h.lc, k.lswitch.trans h.lswitch, k.isMain.trans h.isMain⟩
  | .logic isOr l r, g => by
    simp only [emitE]
    split
    · simp only [then_snd]
      have h1 := growE isLocal l { g with label := g.label + 1, loc := .free, lt := if isOr then g.lt else g.label, lf := if isOr then g.label else g.lf }
      generalize emitE isLocal l { g with label := g.label + 1, loc := .free, lt := if isOr then g.lt else g.label, lf := if isOr then g.label else g.lf } = x at h1 ⊢
      have h2 := grow_check l.ty { x.2 with loc := .free }
      generalize check l.ty { x.2 with loc := .free } = y at h2 ⊢
      have h3 := growE isLocal r { y.2 with lt := g.lt, lf := g.lf, loc := .free }
      generalize emitE isLocal r { y.2 with lt := g.lt, lf := g.lf, loc := .free } = z at h3 ⊢
      have h4 := grow_check r.ty { z.2 with loc := .free }
      generalize check r.ty { z.2 with loc := .free } = u at h4 ⊢
      have h1' : Grow g x.2 := ⟨h1.reg, Nat.le_trans (Nat.le_succ _) h1.label, h1.block, h1.lb, h1.lc, h1.lswitch, h1.isMain⟩
      have h2' : Grow x.2 y.2 := ⟨h2.reg, h2.label, h2.block, h2.lb, h2.lc, h2.lswitch, h2.isMain⟩
      have h3' : Grow y.2 z.2 := ⟨h3.reg, h3.label, h3.block, h3.lb, h3.lc, h3.lswitch, h3.isMain⟩
      have h4' : Grow z.2 u.2 := ⟨h4.reg, h4.label, h4.block, h4.lb, h4.lc, h4.lswitch, h4.isMain⟩
      have t := ((h1'.trans h2').trans h3').trans h4'
      exact ⟨t.reg, t.label, t.block, t.lb, t.lc, t.lswitch, t.isMain⟩
    · simp only [then_snd]
      generalize hlt : (if isOr = true then g.label + 1 else g.label + 2) = lt
      generalize hlf : (if isOr = true then g.label + 2 else g.label + 1) = lf
      have h1 := growE isLocal l { g with label := g.label + 3, lt := lt, lf := lf }
      generalize emitE isLocal l { g with label := g.label + 3, lt := lt, lf := lf } = x at h1 ⊢
      have h2 := grow_check l.ty { x.2 with loc := .free, lt := lt, lf := lf }
      generalize check l.ty { x.2 with loc := .free, lt := lt, lf := lf } = y at h2 ⊢
      have h3 := growE isLocal r { y.2 with lt := g.label, lf := g.label + 1, loc := .nolog }
      generalize emitE isLocal r { y.2 with lt := g.label, lf := g.label + 1, loc := .nolog } = z at h3 ⊢
      have h4 := grow_check r.ty { z.2 with loc := .nolog }
      generalize check r.ty { z.2 with loc := .nolog } = u at h4 ⊢
      have h1' : Grow g x.2 := ⟨h1.reg, Nat.le_trans (Nat.le_add_right _ _) h1.label, h1.block, h1.lb, h1.lc, h1.lswitch, h1.isMain⟩
      have h2' : Grow x.2 y.2 := ⟨h2.reg, h2.label, h2.block, h2.lb, h2.lc, h2.lswitch, h2.isMain⟩
      have h3' : Grow y.2 z.2 := ⟨h3.reg, h3.label, h3.block, h3.lb, h3.lc, h3.lswitch, h3.isMain⟩
      have h4' : Grow z.2 u.2 := ⟨h4.reg, h4.label, h4.block, h4.lb, h4.lc, h4.lswitch, h4.isMain⟩
      have t := ((h1'.trans h2').trans h3').trans h4'
      exact ⟨Nat.le_succ_of_le t.reg, t.label, t.block, t.lb, t.lc, t.lswitch, t.isMain⟩
  | .comma l r, g => by
    simp only [emitE, then_snd]
    exact (growE isLocal l g).trans (growE isLocal r _)
  | .ternary c a b, g => by
    simp only [emitE, then_snd]
    have h1 := growE isLocal c { g with label := g.label + 3, lt := g.label, lf := g.label + 1, loc := .free }
    generalize emitE isLocal c { g with label := g.label + 3, lt := g.label, lf := g.label + 1, loc := .free } = x at h1 ⊢
    have h2 := grow_check c.ty x.2
    generalize check c.ty x.2 = y at h2 ⊢
    have h3 := growE isLocal a { y.2 with loc := .free }
    generalize emitE isLocal a { y.2 with loc := .free } = z at h3 ⊢
    have h4 := growE isLocal b { z.2 with loc := .free }
    generalize emitE isLocal b { z.2 with loc := .free } = u at h4 ⊢
    have h1' : Grow g x.2 := ⟨h1.reg, Nat.le_trans (Nat.le_add_right _ _) h1.label, h1.block, h1.lb, h1.lc, h1.lswitch, h1.isMain⟩
    have h3' : Grow y.2 z.2 := ⟨h3.reg, h3.label, h3.block, h3.lb, h3.lc, h3.lswitch, h3.isMain⟩
    have h4' : Grow z.2 u.2 := ⟨h4.reg, h4.label, h4.block, h4.lb, h4.lc, h4.lswitch, h4.isMain⟩
    have t := ((h1'.trans h2).trans h3').trans h4'
    exact ⟨Nat.le_succ_of_le t.reg, t.label, t.block, t.lb, t.lc, t.lswitch, t.isMain⟩
  | .assign op id ty e, g => by
    simp only [emitE, then_snd]
    have h := growE isLocal e { g with loc := .nolog }
    generalize emitE isLocal e { g with loc := .nolog } = x at h ⊢
    have h' : Grow g x.2 := ⟨h.reg, h.label, h.block, h.lb, h.lc, h.lswitch, h.isMain⟩
    refine h'.trans ?_
    split
    · constructor <;> simp
    · split
      · constructor <;> simp
      · split
        · exact Grow.refl _
        · split <;> exact Grow.refl _
  | .call f ret args, g => by
    simp only [emitE]
    have h := growA isLocal args g
    split
    · exact h.trans (by constructor <;> simp [Gen.answer])
    · exact h

theorem growA (isLocal : Nat → Bool) : ∀ (args : Args) (g : Gen), Grow g (emitA isLocal args g).2.2
  | .nil, g => Grow.refl g
  | .cons e rest, g => by
    simp only [emitA]
    have h := growE isLocal e { g with loc := .free }
    exact Grow.trans ⟨h.reg, h.label, h.block, h.lb, h.lc, h.lswitch, h.isMain⟩ (growA isLocal rest _)
end

/-! ## `variable_location` and the labels of a condition -/

theorem check_loc (ty : Option Ty) (g : Gen) : (check ty g).2.loc = g.loc := by
  unfold check
  split <;> (try split) <;> (try split) <;> rfl

theorem check_lt (ty : Option Ty) (g : Gen) : (check ty g).2.lt = g.lt ∧ (check ty g).2.lf = g.lf := by
  unfold check
  split <;> (try split) <;> (try split) <;> exact ⟨rfl, rfl⟩

/-- The labels, exchanged or not. -/
def swapped (b : Bool) (g g' : Gen) : Prop := if b then g'.lt = g.lf ∧ g'.lf = g.lt else g'.lt = g.lt ∧ g'.lf = g.lf

theorem swapped_trans {b c : Bool} {g g' g'' : Gen} (h : swapped b g g') (k : swapped c g' g'') : swapped (b != c) g g'' := by
  unfold swapped at *
  cases b <;> cases c <;> simp_all

mutual
theorem fieldsE (isLocal : Nat → Bool) : ∀ (e : Exp), good e = true → ∀ g : Gen,
    (emitE isLocal e g).2.loc = endLoc e g.loc ∧ swapped (swaps e) g (emitE isLocal e g).2
  | .int _, _, g => by simp [emitE, endLoc, swaps, swapped]
  | .bool _, _, g => by simp [emitE, endLoc, swaps, swapped]
  | .str _, _, g => by simp [emitE, endLoc, swaps, swapped]
  | .ident _ _, _, g => by simp [emitE, endLoc, swaps, swapped, Gen.answer]
  | .un op e, hg, g => by
    simp only [good, cls, Bool.and_eq_true] at hg
    have h := fieldsE isLocal e hg.1.1 { g with loc := if op = .abs then .free else .reg }
    simp only [emitE, then_snd, Gen.answer, endLoc, swaps]
    exact ⟨h.1, h.2⟩
  | .not e, hg, g => by
    simp only [good, cls, Bool.and_eq_true, beq_iff_eq] at hg
    have h := fieldsE isLocal e hg.1.1 { g with lt := g.lf, lf := g.lt }
    have hne : e.ty ≠ some .int := by rw [hg.1.2]; simp
    simp only [emitE, then_snd, endLoc, swaps]
    have h2 : swapped (!swaps e) g (emitE isLocal e { g with lt := g.lf, lf := g.lt }).2 := by
      have := h.2
      unfold swapped at *
      generalize swaps e = b at *
      cases b <;> simpa using this
    split
    · simp only [then_snd, if_neg hne, quiet_snd]
      exact ⟨h.1, h2⟩
    · exact ⟨h.1, h2⟩
  | .inc _ _, _, g => by simp [emitE, endLoc, swaps, swapped]
  | .arith op l r, hg, g => by
    simp only [good, cls, Bool.and_eq_true] at hg
    have h := fieldsE isLocal l hg.1.1.1.1 { g with loc := .free }
    have k := fieldsE isLocal r hg.1.1.1.2 { (emitE isLocal l { g with loc := .free }).2 with loc := .free }
    simp only [emitE, then_snd, Gen.answer, endLoc, swaps]
    exact ⟨k.1, swapped_trans h.2 k.2⟩
  | .cmp op l r, hg, g => by
    simp only [good, cls, Bool.and_eq_true] at hg
    have h := fieldsE isLocal l hg.1.1.1.1 { g with loc := .free }
    have k := fieldsE isLocal r hg.1.1.1.2 { (emitE isLocal l { g with loc := .free }).2 with loc := .free }
    simp only [emitE, then_snd, Gen.answer, endLoc, swaps]
    exact ⟨k.1, swapped_trans h.2 k.2⟩
  | .logic isOr l r, hg, g => by simp [good, cls] at hg
  | .comma l r, hg, g => by
    simp only [good, cls, Bool.and_eq_true] at hg
    have h := fieldsE isLocal l hg.1 g
    have k := fieldsE isLocal r hg.2 (emitE isLocal l g).2
    simp only [emitE, then_snd, endLoc, swaps]
    exact ⟨by rw [k.1, h.1], swapped_trans h.2 k.2⟩
  | .ternary c a b, hg, g => by
    simp only [good, cls, Bool.and_eq_true] at hg
    simp only [emitE, then_snd, Gen.answer, endLoc, swaps]
    refine ⟨(fieldsE isLocal b hg.1.1.1.1.2 _).1, by simp [swapped]⟩
  | .assign op id ty e, hg, g => by
    simp only [good, cls, Bool.and_eq_true] at hg
    have h := fieldsE isLocal e hg.1.1.1.1 { g with loc := .nolog }
    simp only [emitE, then_snd, endLoc, swaps]
    split
    · exact ⟨h.1, h.2⟩
    · split
      · exact ⟨h.1, h.2⟩
      · split
        · exact ⟨h.1, h.2⟩
        · split <;> exact ⟨h.1, h.2⟩
  | .call f ret args, hg, g => by
    simp only [good, cls] at hg
    have h := fieldsA isLocal args hg g
    simp only [emitE, endLoc, swaps]
    split <;> exact ⟨h.1, h.2⟩

theorem fieldsA (isLocal : Nat → Bool) : ∀ (args : Args), clsA args = true → ∀ g : Gen,
    (emitA isLocal args g).2.2.loc = endLocA args g.loc ∧ swapped (swapsA args) g (emitA isLocal args g).2.2
  | .nil, _, g => by simp [emitA, endLocA, swapsA, swapped]
  | .cons e rest, hg, g => by
    simp only [clsA, Bool.and_eq_true] at hg
    have h := fieldsE isLocal e hg.1 { g with loc := .free }
    have k := fieldsA isLocal rest hg.2 (emitE isLocal e { g with loc := .free }).2
    simp only [emitA, endLocA, swapsA]
    exact ⟨by rw [k.1, h.1], swapped_trans h.2 k.2⟩
end

/-- Behind a condition `variable_location` is not the one that turns conditions off. -/
theorem loc_test (isLocal : Nat → Bool) : ∀ (e : Exp), test e = true → ∀ g : Gen, g.loc = .free → (emitE isLocal e g).2.loc ≠ .nolog
  | .logic isOr l r, ht, g, hl => by
    simp only [emitE, hl]
    simp [check_loc]
  | .not e, ht, g, hl => by
    simp only [test, cls] at ht
    simp only [emitE, then_snd]
    have h0 : (emitE isLocal e { g with lt := g.lf, lf := g.lt }).2.loc ≠ .nolog := by
      split at ht
      · simp only [Bool.and_eq_true, bne_iff_ne] at ht
        rw [(fieldsE isLocal e ht.1.1.1 _).1]
        simpa [hl] using ht.1.2
      · simp only [Bool.and_eq_true] at ht
        exact loc_test isLocal e ht.1 _ hl
    split
    · simp only [then_snd]
      split
      · rw [check_loc]; exact h0
      · exact h0
    · exact h0
  | .int v, ht, g, hl => by simp only [emitE]; simp [hl]
  | .bool v, ht, g, hl => by simp only [emitE]; simp [hl]
  | .str v, ht, g, hl => by simp only [emitE]; simp [hl]
  | .ident _ _, ht, g, hl => by simp only [emitE]; simp [hl, Gen.answer]
  | .inc _ _, ht, g, hl => by simp only [emitE]; simp [hl]
  | .un op e, ht, g, hl => by
    rw [(fieldsE isLocal (.un op e) (by simp only [test, cls, Bool.and_eq_true] at ht; simp [good, cls, ht]) g).1]
    simp only [test, cls, leaf, Bool.and_eq_true, bne_iff_ne] at ht
    rw [hl]; exact ht.2.1.2
  | .arith op l r, ht, g, hl => by
    rw [(fieldsE isLocal (.arith op l r) (by simp only [test, cls, Bool.and_eq_true] at ht; simp only [good, cls, Bool.and_eq_true]; exact ht.1) g).1]
    simp only [test, cls, leaf, Bool.and_eq_true, bne_iff_ne] at ht
    rw [hl]; exact ht.2.1.2
  | .cmp op l r, ht, g, hl => by
    rw [(fieldsE isLocal (.cmp op l r) (by simp only [test, cls, Bool.and_eq_true] at ht; simp only [good, cls, Bool.and_eq_true]; exact ht.1) g).1]
    simp only [test, cls, leaf, Bool.and_eq_true, bne_iff_ne] at ht
    rw [hl]; exact ht.2.1.2
  | .comma l r, ht, g, hl => by
    rw [(fieldsE isLocal (.comma l r) (by simp only [test, cls, Bool.and_eq_true] at ht; simp only [good, cls, Bool.and_eq_true]; exact ht.1) g).1]
    simp only [test, cls, leaf, Bool.and_eq_true, bne_iff_ne] at ht
    rw [hl]; exact ht.2.1.2
  | .ternary c a b, ht, g, hl => by
    rw [(fieldsE isLocal (.ternary c a b) (by simp only [test, cls, Bool.and_eq_true] at ht; simp only [good, cls, Bool.and_eq_true]; exact ht.1) g).1]
    simp only [test, cls, leaf, Bool.and_eq_true, bne_iff_ne] at ht
    rw [hl]; exact ht.2.1.2
  | .assign op id ty e, ht, g, hl => by
    rw [(fieldsE isLocal (.assign op id ty e) (by simp only [test, cls, Bool.and_eq_true] at ht; simp only [good, cls, Bool.and_eq_true]; exact ht.1) g).1]
    simp only [test, cls, leaf, Bool.and_eq_true, bne_iff_ne] at ht
    rw [hl]; exact ht.2.1.2
  | .call f ret args, ht, g, hl => by
    rw [(fieldsE isLocal (.call f ret args) (by simp only [test, cls, Bool.and_eq_true] at ht; simp only [good, cls]; exact ht.1) g).1]
    simp only [test, cls, leaf, Bool.and_eq_true, bne_iff_ne] at ht
    rw [hl]; exact ht.2.1.2

end RuC.Llvm
