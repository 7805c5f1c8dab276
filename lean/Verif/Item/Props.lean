import Verif.Item.Lemmas

/-!
# Properties C16, C17: values for a target machine

The specification: what a target type is, in terms of its width and signedness only.
-/

namespace RuC.Item
open RuC

/-- Width in bits of a target cell (specification). -/
def bitsOf : Status → Option Nat
  | .int64 | .uint64 => some 64
  | .int32 | .uint32 => some 32
  | .int16 | .uint16 => some 16
  | .int8 | .uint8 => some 8
  | .error | .types => none

/-- The values of a target cell that an `item_t` can hold (specification): two's complement for
signed targets, from 0 up for unsigned ones. -/
def InRange (st : Status) (x : Int) : Prop :=
  match st with
  | .int64 => -2 ^ 63 ≤ x ∧ x < 2 ^ 63
  | .int32 => -2 ^ 31 ≤ x ∧ x < 2 ^ 31
  | .int16 => -2 ^ 15 ≤ x ∧ x < 2 ^ 15
  | .int8 => -2 ^ 7 ≤ x ∧ x < 2 ^ 7
  | .uint64 => 0 ≤ x ∧ x < 2 ^ 64
  | .uint32 => 0 ≤ x ∧ x < 2 ^ 32
  | .uint16 => 0 ≤ x ∧ x < 2 ^ 16
  | .uint8 => 0 ≤ x ∧ x < 2 ^ 8
  | .error | .types => False

theorem bitsOf_size {st w} (h : bitsOf st = some w) : getSize st * w = 64 ∧ getSize st ≠ 0 ∧ width st = w := by
  cases st <;> simp [bitsOf] at h <;> subst h <;> decide

theorem toItem_sext {k c : Nat} (hk : 2 ^ k ≤ 9223372036854775808) (hc : c < 2 ^ k) :
    toItem (sext k c) = if 2 ^ (k - 1) ≤ c then (c : Int) - (2 ^ k : Nat) else c := by
  unfold toItem sext
  by_cases h : 2 ^ (k - 1) ≤ c
  · simp only [h, if_true]
    rw [if_neg (by omega)]
    omega
  · simp only [h, if_false]
    rw [if_pos (by omega)]

theorem cell_in_range (st : Status) (h : 1 < getSize st) (v i : Nat) :
    InRange st (toItem (cellOf st v i)) := by
  unfold cellOf
  simp only
  have hc : (v >>> (width st * i)) % 2 ^ width st < 2 ^ width st :=
    Nat.mod_lt _ (Nat.two_pow_pos _)
  generalize (v >>> (width st * i)) % 2 ^ width st = c at hc
  cases st <;> first
    | (exfalso; revert h; decide)
    | (simp [width, getSize] at hc
       simp only [isSigned, InRange, width, getSize, if_true, Bool.false_eq_true, if_false]
       first
         | (rw [toItem_sext (by decide) (by simpa using hc)]
            simp
            split <;> omega)
         | (unfold toItem; split <;> omega))

/-- **C16**, cells of less than 64 bits: whatever an undefined shift would do, storing any 64-bit
value for the target writes exactly `64 / width` cells, each within the target's range, and
reading them back gives the value. -/
theorem item_int64_round_trip (ub : Nat → Nat → Option Nat) (st : Status) (w : Nat)
    (hw : bitsOf st = some w) (hw64 : w < 64) (v : Int) (hv : IsItem v) :
    ∃ cells, storeInt64 ub st v = some (some cells) ∧ cells.length * w = 64 ∧
      (∀ c ∈ cells, InRange st c) ∧ restoreInt64 st cells = some v := by
  obtain ⟨h64, hs0, hwd⟩ := bitsOf_size hw
  have hs1 : 1 < getSize st := by
    rcases Nat.lt_or_ge 1 (getSize st) with h | h
    · exact h
    · have : getSize st = 1 := by omega
      rw [this] at h64; omega
  refine ⟨_, storeInt64_eq ub st v hs1, by simp [h64], ?_, ?_⟩
  · intro c hc
    simp at hc
    obtain ⟨i, _, rfl⟩ := hc
    exact cell_in_range st hs1 _ _
  · have hlt : toSize v < 18446744073709551616 := by unfold toSize; omega
    have hmask : getMask (getShift (getSize st)) = 2 ^ w - 1 ∧ getShift (getSize st) = w := by
      cases st <;> simp [bitsOf] at hw <;> subst hw <;>
        exact ⟨by decide +kernel, by decide⟩
    unfold restoreInt64
    simp only [hs0, if_false, hmask.1]
    rw [List.range_eq_range', hmask.2]
    have hf : ∀ i, cellOf st (toSize v) i % 2 ^ w = (toSize v >>> (w * i)) % 2 ^ w := by
      intro i; have := cellOf_mod st (toSize v) i; rw [hwd] at this; exact this
    rw [restoreLoop_eq (v := toSize v) hf
      (fun i => cellOf_lt st _ i hs0) _ _ _ (by rw [Nat.zero_add, Nat.mul_comm]; omega)
      (by simp [Nat.mod_one])]
    rw [Nat.zero_add, Nat.mul_comm, h64, Nat.mod_eq_of_lt (by simpa using hlt)]
    simp [toItem_toSize hv]

example : bitsOf .int16 = some 16 ∧ IsItem (-98765432123) ∧
    storeInt64 strict .int16 (-98765432123) = some (some [6853, 287, -23, -1]) := by decide +kernel

/-- **C16**, 64-bit targets, `_partial`: the one cell written is the value itself, provided the
undefined shift `temp <<= 64` (item.c, last statement of the loop, its result unused) yields
something. -/
theorem item_int64_round_trip_64_partial (ub : Nat → Nat → Option Nat) (st : Status)
    (hw : bitsOf st = some 64) (hub : ∀ w s, ub w s ≠ none) (v : Int) (hv : IsItem v) :
    storeInt64 ub st v = some (some [v]) ∧ restoreInt64 st [v] = some v ∧
      (st = .int64 ∨ 0 ≤ v → InRange st v) := by
  obtain ⟨h64, hs0, _⟩ := bitsOf_size hw
  have hs : getSize st = 1 := by omega
  have hlt : toSize v < 18446744073709551616 := by unfold toSize; omega
  refine ⟨?_, ?_, ?_⟩
  · rw [storeInt64_eq64 ub st v hs, toItem_toSize hv]
    cases h : ub 18446744073709551615 64 with
    | none => exact absurd h (hub _ _)
    | some x => rfl
  · unfold restoreInt64
    simp only [hs, show ¬ (1 = 0) by decide, if_false]
    rw [show getMask (getShift 1) = 2 ^ 64 - 1 from by decide +kernel]
    simp only [restoreLoop, Nat.and_two_pow_sub_one_eq_mod, Nat.mul_zero, Nat.shiftLeft_zero, Nat.zero_or]
    rw [Nat.mod_eq_of_lt (show toSize v % 2 ^ 64 < 18446744073709551616 from Nat.mod_lt _ (by decide)),
      Nat.mod_eq_of_lt (show toSize v < 2 ^ 64 from hlt)]
    simp [toItem_toSize hv]
  · unfold IsItem ITEM_MIN ITEM_MAX at hv
    intro h
    cases st <;> simp [bitsOf] at hw <;> simp [InRange] <;> simp at h <;> omega

/-- Under the C standard the full round trip fails for 64-bit targets: the store always executes
a shift by the whole width. -/
theorem item_store_int64_undefined_shift (st : Status) (hw : bitsOf st = some 64) (v : Int) :
    storeInt64 strict st v = none := by
  obtain ⟨h64, hs0, _⟩ := bitsOf_size hw
  rw [storeInt64_eq64 strict st v (by omega)]
  rfl

/-- The range claim of C16 fails for the unsigned 64-bit target: a negative value (any double with
the sign bit set) is stored as a cell that `item_check_var` rejects. -/
theorem item_uint64_cell_out_of_range (ub : Nat → Nat → Option Nat) (hub : ∀ w s, ub w s ≠ none) :
    storeInt64 ub .uint64 (-1) = some (some [-1]) ∧ checkVar .uint64 (-1) = false :=
  ⟨(item_int64_round_trip_64_partial ub .uint64 rfl hub (-1) (by decide +kernel)).1, by decide⟩

/-- **C16** for doubles: the bit pattern survives, except the one pattern `0x7FFF..FF` (a NaN),
which is read back as `DBL_MAX`. -/
theorem item_double_round_trip (ub : Nat → Nat → Option Nat) (st : Status) (w : Nat)
    (hw : bitsOf st = some w) (hw64 : w < 64) (bits : Int) (hv : IsItem bits) :
    ∃ cells, storeDouble ub st bits = some (some cells) ∧ cells.length * w = 64 ∧
      restoreDouble st cells = some (if bits = ITEM_MAX then DBL_MAX_BITS else bits) := by
  obtain ⟨cells, h1, h2, _, h4⟩ := item_int64_round_trip ub st w hw hw64 bits hv
  refine ⟨cells, h1, h2, ?_⟩
  unfold restoreDouble
  rw [h4]
  simp only
  split <;> rfl

example : restoreDouble .int32 [1717986918, 1072588390] = some 4606732058837280358 := by decide +kernel

/-- The excluded pattern really is lost: it is not `DBL_MAX`. -/
theorem item_double_nan_lost :
    (storeDouble strict .int32 ITEM_MAX).bind (fun c => c.bind (restoreDouble .int32)) = some DBL_MAX_BITS ∧
    DBL_MAX_BITS ≠ ITEM_MAX := by decide +kernel

/-- **C17**.  `item_check_var` accepts exactly the values of the target type. -/
theorem item_check_var_exact (st : Status) (w : Nat) (hw : bitsOf st = some w) (x : Int) (hx : IsItem x) :
    checkVar st x = true ↔ InRange st x := by
  unfold IsItem ITEM_MIN ITEM_MAX at hx
  unfold checkVar
  rw [Bool.and_eq_true, decide_eq_true_eq, decide_eq_true_eq]
  cases st <;> simp [bitsOf] at hw <;> simp only [getMin, getMax, InRange, ITEM_MAX] <;>
    constructor <;> intro h <;> omega

example : bitsOf .int8 = some 8 ∧ checkVar .int8 (-128) = true ∧ checkVar .int8 128 = false := by decide

/-- The flags that select a target (specification). -/
def targetFlags : List (String × Status) :=
  [("-i64", .int64), ("-i32", .int32), ("-i16", .int16), ("-i8", .int8),
   ("-u64", .uint64), ("-u32", .uint32), ("-u16", .uint16), ("-u8", .uint8)]

/-- The targets named by a list of flags, in order (specification). -/
def namedTargets (flags : List String) : List Status := flags.filterMap fun f => targetFlags.lookup f

theorem flagTarget_eq (f : String) : flagTarget f = targetFlags.lookup f := by
  unfold flagTarget targetFlags
  simp only [List.lookup_cons]
  repeat' split
  all_goals simp_all

/-- What the loop makes of a start status and the targets named by the remaining flags. -/
def combine : Status → List Status → Status
  | st, [] => st
  | .types, [t] => t
  | _, _ => .error

theorem statusLoop_eq (flags : List String) (st : Status) (hst : st ≠ .error) :
    statusLoop flags st = combine st (namedTargets flags) := by
  have ht : ∀ f t, targetFlags.lookup f = some t → t ≠ .error ∧ t ≠ .types := by
    intro f t h
    rw [← flagTarget_eq] at h
    unfold flagTarget at h
    repeat' split at h
    all_goals simp at h
    all_goals subst h; exact ⟨by decide, by decide⟩
  have herr : ∀ fl, statusLoop fl .error = .error := by
    intro fl; cases fl <;> simp [statusLoop]
  induction flags generalizing st with
  | nil => simp [statusLoop, namedTargets, combine]
  | cons f fs ih =>
    unfold statusLoop
    rw [if_neg hst, flagTarget_eq]
    cases hl : targetFlags.lookup f with
    | none =>
      simp only [namedTargets, List.filterMap_cons, hl]
      exact ih st hst
    | some t =>
      have := ht f t hl
      have hn : namedTargets (f :: fs) = t :: namedTargets fs := by
        simp [namedTargets, hl]
      rw [hn]
      by_cases h2 : st = .types
      · subst h2
        simp only [ne_eq, not_true_eq_false, if_false]
        rw [ih t this.1]
        cases h3 : namedTargets fs with
        | nil => cases t <;> rfl
        | cons a b =>
          cases t <;> simp at this <;> cases b <;> rfl
      · simp only [ne_eq, h2, not_false_eq_true, if_true, herr]
        cases st <;> simp at h2 hst <;> rcases namedTargets fs with _ | ⟨a, b⟩ <;> rfl

/-- **C17**, target selection: no target flag means 32-bit signed cells, one target flag (among
any other flags) means that target, more than one is an error. -/
theorem item_get_status_exact (flags : List String) :
    getStatus flags =
      match namedTargets flags with
      | [] => .int32
      | [t] => t
      | _ => .error := by
  unfold getStatus
  rw [statusLoop_eq flags .types (by decide)]
  have ht : ∀ t ∈ namedTargets flags, t ≠ .types := by
    intro t h
    simp only [namedTargets, List.mem_filterMap] at h
    obtain ⟨f, _, h⟩ := h
    rw [← flagTarget_eq] at h
    unfold flagTarget at h
    repeat' split at h
    all_goals simp at h
    all_goals subst h; decide
  rcases hn : namedTargets flags with _ | ⟨a, _ | ⟨b, c⟩⟩
  · simp [combine]
  · have := ht a (by simp [hn])
    simp [combine, this]
  · simp [combine]

example : getStatus ["-o", "-u16", "x.c"] = .uint16 ∧ getStatus ["-i8", "-i8"] = .error ∧
    getStatus [] = .int32 := by decide

end RuC.Item
