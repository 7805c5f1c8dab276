import Verif.Llvm.Spec

/-!
# Lemmas: the arithmetic of LLVM is the arithmetic of C
-/

namespace RuC.Llvm

theorem fit_some {v : Int} {b : BitVec 32} (h : fit v = some b) : b.toInt = v ∧ b = BitVec.ofInt 32 v ∧ -2147483648 ≤ v ∧ v < 2147483648 := by
  unfold fit at h
  split at h
  · rename_i hv
    cases h
    refine ⟨?_, rfl, hv⟩
    rw [BitVec.toInt_ofInt]
    unfold Int.bmod
    simp only [show ((2 ^ 32 : Nat) : Int) = 4294967296 from rfl]
    split <;> omega
  · cases h

theorem fit_toInt (b : BitVec 32) : fit b.toInt = some b := by
  unfold fit
  rw [if_pos]
  · rw [BitVec.ofInt_toInt]
  · have := BitVec.le_toInt b
    have := BitVec.toInt_lt (x := b)
    simp at *; omega

theorem eq_of_toInt {a b : BitVec 32} (h : a.toInt = b.toInt) : a = b := BitVec.eq_of_toInt_eq h

theorem range (b : BitVec 32) : -2147483648 ≤ b.toInt ∧ b.toInt < 2147483648 := by
  have := BitVec.le_toInt b
  have := BitVec.toInt_lt (x := b)
  simp at *; omega

theorem bmod_small {v : Int} (h : -2147483648 ≤ v) (k : v < 2147483648) : v.bmod 4294967296 = v := by
  unfold Int.bmod
  simp only [show ((4294967296 : Nat) : Int) = 4294967296 from rfl]
  split <;> omega

theorem arith_ok {op : Arith} {a b c : BitVec 32} (h : arithV op a b = some c) : arithL op a b = some c := by
  have ra := range a
  have rb := range b
  cases op <;> simp only [arithV, arithL] at h ⊢
  · obtain ⟨h1, -, h3, h4⟩ := fit_some h
    have : BitVec.smulOverflow a b = false := by
      simp [BitVec.smulOverflow]; omega
    rw [this]
    simp only [Bool.false_eq_true, if_false, Option.some.injEq]
    apply eq_of_toInt
    rw [BitVec.toInt_mul, bmod_small h3 h4, h1]
  · split at h
    · cases h
    · rename_i hb
      obtain ⟨h1, -, h3, h4⟩ := fit_some h
      have hne : ¬(b = 0 ∨ a = BitVec.intMin 32 ∧ b = -1) := by
        rintro (h | ⟨h, k⟩)
        · exact hb h
        · subst h; subst k
          have : (BitVec.intMin 32).toInt.tdiv (-1 : BitVec 32).toInt = 2147483648 := by decide +kernel
          omega
      rw [if_neg hne]
      simp only [Option.some.injEq]
      apply eq_of_toInt
      rw [h1, BitVec.toInt_sdiv, bmod_small h3 h4]
  · split at h
    · cases h
    · rename_i hb
      have hb' : b ≠ 0 ∧ fit (a.toInt.tdiv b.toInt) ≠ none := by
        constructor
        · intro k; exact hb (Or.inl k)
        · intro k; exact hb (Or.inr k)
      obtain ⟨h1, -, h3, h4⟩ := fit_some h
      have hne : ¬(b = 0 ∨ a = BitVec.intMin 32 ∧ b = -1) := by
        rintro (h | ⟨h, k⟩)
        · exact hb'.1 h
        · subst h; subst k
          exact hb'.2 (by decide +kernel)
      rw [if_neg hne]
      simp only [Option.some.injEq]
      apply eq_of_toInt
      rw [h1, BitVec.toInt_srem]
  · obtain ⟨h1, -, h3, h4⟩ := fit_some h
    have : BitVec.saddOverflow a b = false := by
      simp [BitVec.saddOverflow]; omega
    rw [this]
    simp only [Bool.false_eq_true, if_false, Option.some.injEq]
    apply eq_of_toInt
    rw [BitVec.toInt_add, bmod_small h3 h4, h1]
  · obtain ⟨h1, -, h3, h4⟩ := fit_some h
    have : BitVec.ssubOverflow a b = false := by
      simp [BitVec.ssubOverflow]; omega
    rw [this]
    simp only [Bool.false_eq_true, if_false, Option.some.injEq]
    apply eq_of_toInt
    rw [BitVec.toInt_sub, bmod_small h3 h4, h1]
  · split at h
    · rename_i hb
      obtain ⟨h1, -, h3, h4⟩ := fit_some h
      rw [if_pos hb]
      simp only [Option.some.injEq]
      apply eq_of_toInt
      rw [h1, BitVec.toInt_shiftLeft, ← bmod_small h3 h4, show ((2 : Nat) ^ 32) = 4294967296 from rfl, BitVec.toInt_eq_toNat_bmod,
        show ((2 : Nat) ^ 32) = 4294967296 from rfl, Int.bmod_mul_bmod, Nat.shiftLeft_eq]
      simp
    · cases h
  · split at h
    · rename_i hb
      obtain ⟨h1, -, h3, h4⟩ := fit_some h
      rw [if_pos hb]
      simp only [Option.some.injEq]
      apply eq_of_toInt
      rw [h1, BitVec.toInt_sshiftRight, Int.shiftRight_eq_div_pow]
      simp
    · cases h
  · exact h
  · exact h
  · exact h

theorem cmp_ok (op : Cmp) (a b : BitVec 32) : cmpL op a b = cmpV op a.toInt b.toInt := by
  cases op <;> simp [cmpL, cmpV, BitVec.slt, BitVec.sle]
  · rw [Bool.eq_iff_iff]; simp [BitVec.toInt_inj]
  · rw [Bool.eq_iff_iff]; simp [BitVec.toInt_inj]

theorem minus_ok {a b : BitVec 32} (h : unV .minus a = some b) : arithL .sub 0 a = some b := by
  apply arith_ok
  simp only [arithV]
  simp only [unV] at h
  simpa using h

theorem not_ok {a b : BitVec 32} (h : unV .not a = some b) : arithL .xor a (-1) = some b := by
  simp only [unV] at h
  obtain ⟨h1, -, h3, h4⟩ := fit_some h
  simp only [arithL, Option.some.injEq]
  apply eq_of_toInt
  rw [h1]
  have : a ^^^ (-1 : BitVec 32) = ~~~a := by
    rw [show (-1 : BitVec 32) = BitVec.allOnes 32 from by decide]
    exact BitVec.xor_allOnes
  rw [this, BitVec.toInt_not, BitVec.toInt_eq_toNat_bmod, show ((2 : Nat) ^ 32) = 4294967296 from rfl]
  have ra := a.isLt
  unfold Int.bmod
  simp only [show ((4294967296 : Nat) : Int) = 4294967296 from rfl]
  split <;> split <;> omega

theorem abs_ok {a b : BitVec 32} (h : unV .abs a = some b) : fit (if a.toInt < 0 then -a.toInt else a.toInt) = some b := h

theorem inc_ok {op : Inc} {a b : BitVec 32} (h : fit (a.toInt + (incV op).1) = some b) :
    arithL (if op = .preInc ∨ op = .postInc then .add else .sub) a 1 = some b := by
  have h1 : (1 : BitVec 32).toInt = 1 := by decide
  cases op <;> simp [incV] at h ⊢ <;> apply arith_ok <;> simp only [arithV, h1] <;> simpa [Int.sub_eq_add_neg] using h

end RuC.Llvm
