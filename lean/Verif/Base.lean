/-!
# Machine constants and casts shared by all models

Configuration modelled: `ITEM = -64` (`/repo/libs/utils/item.h`, the default), LP64.
-/

namespace RuC

/-- `SIZE_MAX` for a 64-bit `size_t`. -/
@[irreducible] def SIZE_MAX : Nat := 18446744073709551615

/-- `ITEM_MAX`: `LLONG_MAX` when `ITEM = -64`.  Models libs/utils/item.h:26-96 (the `ITEM` switch). -/
@[irreducible] def ITEM_MAX : Int := 9223372036854775807

/-- Least value of `item_t` (`int64_t`). -/
@[irreducible] def ITEM_MIN : Int := -9223372036854775808

/-- `size_t` arithmetic is modulo 2^64. -/
@[irreducible] def usz (n : Nat) : Nat := n % 18446744073709551616

/-- `size_t` subtraction with wrap-around. -/
@[irreducible] def usub (a b : Nat) : Nat :=
  if b ≤ a then a - b else a + 18446744073709551616 - b

/-- Cast `size_t -> item_t` (two's complement). -/
@[irreducible] def toItem (n : Nat) : Int :=
  if n < 9223372036854775808 then (n : Int) else (n : Int) - 18446744073709551616

/-- Cast `item_t -> size_t`. -/
@[irreducible] def toSize (i : Int) : Nat := (i % 18446744073709551616).toNat

/-- Result of mathematical value `i` reduced to `int64_t` by wrap-around. -/
@[irreducible] def wrapI64 (i : Int) : Int :=
  (i + 9223372036854775808) % 18446744073709551616 - 9223372036854775808

/-- `i` is representable as `item_t`. -/
def IsItem (i : Int) : Prop := ITEM_MIN ≤ i ∧ i ≤ ITEM_MAX

instance (i : Int) : Decidable (IsItem i) := by unfold IsItem; infer_instance

theorem usz_of_lt {n : Nat} (h : n < 18446744073709551616) : usz n = n := by
  unfold usz; exact Nat.mod_eq_of_lt h

theorem usub_of_le {a b : Nat} (h : b ≤ a) (_ha : a < 18446744073709551616) : usub a b = a - b := by
  unfold usub
  rw [if_pos h]

theorem toItem_of_lt {n : Nat} (h : n < 9223372036854775808) : toItem n = (n : Int) := by
  simp [toItem, h]

theorem toSize_natCast {n : Nat} (h : n < 18446744073709551616) : toSize (n : Int) = n := by
  unfold toSize; omega

theorem toSize_toItem {n : Nat} (h : n < 18446744073709551616) : toSize (toItem n) = n := by
  unfold toSize toItem
  split <;> omega

theorem toItem_toSize {i : Int} (h : IsItem i) : toItem (toSize i) = i := by
  unfold IsItem ITEM_MIN ITEM_MAX at h
  unfold toSize toItem
  split <;> omega

theorem wrapI64_of_isItem {i : Int} (h : IsItem i) : wrapI64 i = i := by
  unfold IsItem ITEM_MIN ITEM_MAX at h
  unfold wrapI64; omega

theorem wrapI64_isItem (i : Int) : IsItem (wrapI64 i) := by
  unfold IsItem ITEM_MIN ITEM_MAX wrapI64; omega

end RuC
