import Verif.Item.Model

/-! Helper lemmas about the cell encoding. -/

namespace RuC.Item
open RuC

theorem and_shifted_mask (v s k : Nat) :
    (v &&& ((2 ^ k - 1) <<< s)) >>> s = (v >>> s) % 2 ^ k := by
  apply Nat.eq_of_testBit_eq
  intro i
  simp only [Nat.testBit_shiftRight, Nat.testBit_and, Nat.testBit_shiftLeft,
    Nat.testBit_two_pow_sub_one, Nat.testBit_mod_two_pow]
  by_cases h : i < k <;> simp [h, Bool.and_comm]

/-- Sign extension of a `k`-bit number to 64 bits. -/
def sext (k c : Nat) : Nat := if 2 ^ (k - 1) ≤ c then c + (18446744073709551616 - 2 ^ k) else c

theorem testBit_top {k c : Nat} (hk : 0 < k) (hc : c < 2 ^ k) :
    c.testBit (k - 1) = decide (2 ^ (k - 1) ≤ c) := by
  by_cases h : 2 ^ (k - 1) ≤ c
  · simp only [h, decide_true]
    rw [Nat.testBit_eq_decide_div_mod_eq]
    have h2 : 2 ^ k = 2 * 2 ^ (k - 1) := by
      rw [← Nat.pow_succ']; congr 1; omega
    have : c / 2 ^ (k - 1) = 1 := by
      apply Nat.div_eq_of_lt_le <;> omega
    simp [this]
  · simp only [h, decide_false]
    exact Nat.testBit_lt_two_pow (by omega)

theorem and_two_pow' (c j : Nat) : c &&& 2 ^ j = (c.testBit j).toNat * 2 ^ j := by
  apply Nat.eq_of_testBit_eq
  intro i
  rw [Nat.testBit_and, Nat.testBit_two_pow]
  cases h : c.testBit j
  · simp
    intro h1 h2; subst h2; simp [h] at h1
  · simp only [Bool.toNat_true, Nat.one_mul, Nat.testBit_two_pow]
    by_cases hj : j = i
    · subst hj; simp [h]
    · simp [hj]

theorem storeCell_unsigned (k pos v : Nat) :
    storeCell (2 ^ k - 1) 0 ((2 ^ k - 1) <<< pos) pos v = (v >>> pos) % 2 ^ k := by
  simp [storeCell, and_shifted_mask]

theorem storeCell_signed {k : Nat} (hk : 0 < k) (hk64 : k ≤ 64) (pos v : Nat) :
    storeCell (2 ^ k - 1) (2 ^ (k - 1)) ((2 ^ k - 1) <<< pos) pos v =
      sext k ((v >>> pos) % 2 ^ k) := by
  unfold storeCell sext
  simp only [and_shifted_mask]
  generalize hc : v >>> pos % 2 ^ k = c
  have hlt : c < 2 ^ k := by rw [← hc]; exact Nat.mod_lt _ (Nat.two_pow_pos k)
  rw [and_two_pow', testBit_top hk hlt]
  by_cases h : 2 ^ (k - 1) ≤ c
  · have hp : (2 : Nat) ^ (k - 1) ≠ 0 := by simp
    simp only [h, decide_true, Bool.toNat_true, Nat.one_mul, ne_eq, hp, not_false_eq_true, if_true]
    have h64 : (18446744073709551616 : Nat) = 2 ^ k * 2 ^ (64 - k) := by
      rw [← Nat.pow_add, show k + (64 - k) = 64 by omega]
    have hpos := Nat.two_pow_pos k
    have hpos' := Nat.two_pow_pos (64 - k)
    have hn : not64 (2 ^ k - 1) = 2 ^ k * (2 ^ (64 - k) - 1) := by
      unfold not64
      rw [Nat.mul_sub, ← h64]; omega
    rw [hn, Nat.or_comm, ← Nat.two_pow_add_eq_or_of_lt hlt, Nat.mul_sub, ← h64]
    omega
  · simp [h]

theorem sext_lt {k c : Nat} (hc : c < 2 ^ k) (hk : 2 ^ k ≤ 18446744073709551616) :
    sext k c < 18446744073709551616 := by
  unfold sext; split <;> omega

theorem sext_mod {k c : Nat} (hk64 : k ≤ 64) (hc : c < 2 ^ k) : sext k c % 2 ^ k = c := by
  have h64 : (18446744073709551616 : Nat) = 2 ^ k * 2 ^ (64 - k) := by
    rw [← Nat.pow_add, show k + (64 - k) = 64 by omega]
  have hpos' := Nat.two_pow_pos (64 - k)
  unfold sext
  split
  · have : 18446744073709551616 - 2 ^ k = 2 ^ k * (2 ^ (64 - k) - 1) := by
      rw [Nat.mul_sub, ← h64]; omega
    rw [this, Nat.add_mul_mod_self_left, Nat.mod_eq_of_lt hc]
  · exact Nat.mod_eq_of_lt hc

/-- Width of one cell of a target. -/
def width (st : Status) : Nat := 64 / getSize st

def isSigned : Status → Bool
  | .int64 | .int32 | .int16 | .int8 => true
  | _ => false

/-- The `i`-th cell that a target gets for the 64-bit word `v`. -/
def cellOf (st : Status) (v i : Nat) : Nat :=
  let c := (v >>> (width st * i)) % 2 ^ width st
  if isSigned st then sext (width st) c else c

theorem cellOf_lt (st : Status) (v i : Nat) (h : getSize st ≠ 0) :
    cellOf st v i < 18446744073709551616 := by
  have hw : 2 ^ width st ≤ 18446744073709551616 := by
    cases st <;> first | (exfalso; exact h rfl) | decide
  have hc : (v >>> (width st * i)) % 2 ^ width st < 2 ^ width st :=
    Nat.mod_lt _ (Nat.two_pow_pos _)
  unfold cellOf
  simp only
  split
  · exact sext_lt hc hw
  · omega

theorem cellOf_mod (st : Status) (v i : Nat) :
    cellOf st v i % 2 ^ width st = (v >>> (width st * i)) % 2 ^ width st := by
  have hc : (v >>> (width st * i)) % 2 ^ width st < 2 ^ width st :=
    Nat.mod_lt _ (Nat.two_pow_pos _)
  unfold cellOf
  simp only
  split
  · exact sext_mod (by unfold width; exact Nat.div_le_self _ _) hc
  · exact Nat.mod_mod _ _

theorem shl_ok (ub : Nat → Nat → Option Nat) {w s : Nat} (h : s < 64) :
    shl ub w s = some ((w <<< s) % 18446744073709551616) := by simp [shl, h]

/-- The store loop, for a target whose cells are `k < 64` bits wide. -/
theorem storeLoop_eq (ub : Nat → Nat → Option Nat) {k sign v : Nat} {f : Nat → Nat}
    (hk64 : k < 64)
    (hf : ∀ i, storeCell (2 ^ k - 1) sign ((2 ^ k - 1) <<< (k * i)) (k * i) v = f i)
    (n i temp : Nat) (hn : k * (i + n) ≤ 64)
    (ht : 0 < n → temp = (2 ^ k - 1) <<< (k * i)) :
    storeLoop ub k (2 ^ k - 1) sign v n i temp =
      some ((List.range' i n).map fun j => toItem (f j)) := by
  induction n generalizing i temp with
  | zero => rfl
  | succ n ih =>
    have ht := ht (by omega)
    subst ht
    have hn' : k * (i + 1 + n) ≤ 64 := by rw [show i + 1 + n = i + (n + 1) by omega]; exact hn
    unfold storeLoop
    rw [shl_ok ub hk64]
    simp only
    rw [ih (i + 1) _ hn' ?_]
    · simp only [hf i]
      rfl
    · intro hpos
      rw [Nat.mod_eq_of_lt, ← Nat.shiftLeft_add, Nat.mul_add, Nat.mul_one]
      rw [← Nat.shiftLeft_add, Nat.shiftLeft_eq]
      have h1 : k * i + k + k ≤ 64 := by
        have : k * (i + 1 + n) = k * i + k + k * n := by rw [Nat.mul_add, Nat.mul_add, Nat.mul_one]
        have h2 : k * 1 ≤ k * n := Nat.mul_le_mul_left _ hpos
        omega
      calc (2 ^ k - 1) * 2 ^ (k * i + k) < 2 ^ k * 2 ^ (k * i + k) :=
            Nat.mul_lt_mul_of_pos_right (by have := Nat.two_pow_pos k; omega) (Nat.two_pow_pos _)
        _ = 2 ^ (k + (k * i + k)) := (Nat.pow_add ..).symm
        _ ≤ 2 ^ 64 := Nat.pow_le_pow_right (by decide) (by omega)

theorem storeInt64_eq_aux (ub : Nat → Nat → Option Nat) (st : Status) (v : Int) (k : Nat)
    (hs : getSize st ≠ 0) (hk : getShift (getSize st) = k) (hk0 : 0 < k) (hk64 : k < 64)
    (hw : width st = k) (hm : getMask k = 2 ^ k - 1) (h64 : k * getSize st ≤ 64)
    (hsign : signMask st (2 ^ k - 1) = if isSigned st then 2 ^ (k - 1) else 0) :
    storeInt64 ub st v =
      some (some ((List.range (getSize st)).map fun i => toItem (cellOf st (toSize v) i))) := by
  unfold storeInt64
  simp only [hs, if_false, hk, hm, hsign]
  rw [storeLoop_eq ub (f := cellOf st (toSize v)) hk64 ?_ _ _ _ (by simpa using h64) (by simp)]
  · simp [List.range_eq_range']
  · intro i
    unfold cellOf
    rw [hw]
    split
    · exact storeCell_signed hk0 (by omega) _ _
    · exact storeCell_unsigned _ _ _

/-- All targets but the 64-bit ones: the store is defined and writes `cellOf`. -/
theorem storeInt64_eq (ub : Nat → Nat → Option Nat) (st : Status) (v : Int)
    (h : 1 < getSize st) :
    storeInt64 ub st v =
      some (some ((List.range (getSize st)).map fun i => toItem (cellOf st (toSize v) i))) := by
  cases st <;> first
    | (exfalso; revert h; decide)
    | exact storeInt64_eq_aux ub _ v _ (by decide) rfl (by decide) (by decide) (by decide) (by decide +kernel)
        (by decide) (by decide +kernel)

/-- The 64-bit targets write the value itself, but perform an undefined shift. -/
theorem storeInt64_eq64 (ub : Nat → Nat → Option Nat) (st : Status) (v : Int) (h : getSize st = 1) :
    storeInt64 ub st v = (ub 18446744073709551615 64).map fun _ => some [toItem (toSize v)] := by
  have hlt : toSize v < 18446744073709551616 := by unfold toSize; omega
  have hand : toSize v &&& 18446744073709551615 = toSize v := by
    have := Nat.and_two_pow_sub_one_eq_mod (toSize v) 64
    rw [Nat.mod_eq_of_lt hlt] at this
    exact this
  have key : ∀ sign, sign = 0 → storeLoop ub 64 18446744073709551615 sign (toSize v) 1 0 18446744073709551615 =
      (ub 18446744073709551615 64).map fun _ => [toItem (toSize v)] := by
    intro sign hs
    subst hs
    simp only [storeLoop, shl, show ¬ (64 < 64) by omega, if_false]
    cases ub 18446744073709551615 64 with
    | none => rfl
    | some w => simp [storeCell, hand]
  cases st <;> simp [getSize] at h
  all_goals
    simp only [storeInt64, getSize, getShift, show ¬ (1 = 0) by decide, if_false]
    rw [show getMask (64 / 1) = 18446744073709551615 from by decide +kernel,
      show 64 / 1 = 64 from rfl, key _ (by decide +kernel)]
    cases ub 18446744073709551615 64 <;> rfl

theorem restoreLoop_eq {k v : Nat} {f : Nat → Nat}
    (hf : ∀ i, f i % 2 ^ k = (v >>> (k * i)) % 2 ^ k) (hflt : ∀ i, f i < 18446744073709551616)
    (n i acc : Nat) (hn : k * (i + n) ≤ 64)
    (hacc : acc = v % 2 ^ (k * i)) :
    restoreLoop k (2 ^ k - 1) n i ((List.range' i n).map fun j => toItem (f j)) acc =
      some (v % 2 ^ (k * (i + n))) := by
  induction n generalizing i acc with
  | zero => simp [restoreLoop, hacc]
  | succ n ih =>
    have hn' : k * (i + 1 + n) ≤ 64 := by rw [show i + 1 + n = i + (n + 1) by omega]; exact hn
    simp only [List.range'_succ, List.map_cons, restoreLoop]
    rw [ih (i + 1) _ hn' ?_]
    · rw [show i + 1 + n = i + (n + 1) by omega]
    · rw [toSize_toItem (hflt i), Nat.and_two_pow_sub_one_eq_mod, hf]
      have hlt : (v >>> (k * i)) % 2 ^ k < 2 ^ k := Nat.mod_lt _ (Nat.two_pow_pos _)
      have h1 : k * i + k ≤ 64 := by
        have : k * (i + 1 + n) = k * i + k + k * n := by rw [Nat.mul_add, Nat.mul_add, Nat.mul_one]
        omega
      have hb : ((v >>> (k * i)) % 2 ^ k) <<< (k * i) < 18446744073709551616 := by
        rw [Nat.shiftLeft_eq]
        calc _ < 2 ^ k * 2 ^ (k * i) := Nat.mul_lt_mul_of_pos_right hlt (Nat.two_pow_pos _)
          _ = 2 ^ (k + k * i) := (Nat.pow_add ..).symm
          _ ≤ 2 ^ 64 := Nat.pow_le_pow_right (by decide) (by omega)
      rw [Nat.mod_eq_of_lt hb, hacc, Nat.or_comm,
        ← Nat.shiftLeft_add_eq_or_of_lt (Nat.mod_lt _ (Nat.two_pow_pos _)),
        Nat.shiftLeft_eq, Nat.shiftRight_eq_div_pow, Nat.mul_add, Nat.mul_one, Nat.pow_add,
        Nat.mod_mul, Nat.mul_comm]
      omega

end RuC.Item
