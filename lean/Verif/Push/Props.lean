import Verif.Push.Model
import Verif.Item.Props

/-!
# Values of 64 bits at the end of a vector: the theorems
-/

namespace RuC.Push.Props
open RuC RuC.Push

/-- Adding the values in order: the answers and the vector. -/
def addAll (ub : Nat → Nat → Option Nat) (cells : List Int) : List Int → Option (List Nat × List Int)
  | [] => some ([], cells)
  | v :: vs => (addWide ub cells v).bind fun p => (addAll ub p.2 vs).map fun q => (p.1 :: q.1, q.2)

/-- Removing `n` values with `remove`: what was answered and the vector. -/
def removeAll (remove : List Int → Option (Int × List Int)) (cells : List Int) : Nat → Option (List Int × List Int)
  | 0 => some ([], cells)
  | n + 1 => (remove cells).bind fun p => (removeAll remove p.2 n).map fun q => (p.1 :: q.1, q.2)

/-- What is read for a `double`: one pattern of bits, a NaN, is read as `DBL_MAX`. -/
def asDouble (v : Int) : Int := if v = ITEM_MAX then Item.DBL_MAX_BITS else v

theorem add_one (ub : Nat → Nat → Option Nat) (hub : ∀ w s, ub w s ≠ none) (cells : List Int) (v : Int) (hv : IsItem v) :
    addWide ub cells v = some (cells.length, cells ++ [v]) := by
  have h := (Item.item_int64_round_trip_64_partial ub .int64 rfl hub v hv).1
  simp [addWide, h]

theorem remove_one (cells : List Int) (v : Int) (hv : IsItem v) :
    removeInt64 (cells ++ [v]) = some (v, cells) ∧ removeDouble (cells ++ [v]) = some (asDouble v, cells) := by
  have h := (Item.item_int64_round_trip_64_partial (fun _ _ => some 0) .int64 rfl (by simp) v hv).2.1
  constructor
  · simp [removeInt64, h]
  · simp only [removeDouble, Item.restoreDouble, asDouble]
    simp [h]
    split <;> rfl

theorem remove_many (cells : List Int) (remove : List Int → Option (Int × List Int)) (g : Int → Int) (P : Int → Prop)
    (h : ∀ cells v, P v → remove (cells ++ [v]) = some (g v, cells)) : ∀ ws : List Int, (∀ v ∈ ws, P v) →
    removeAll remove (cells ++ ws.reverse) ws.length = some (ws.map g, cells)
  | [], _ => by simp [removeAll]
  | w :: ws, hw => by
    have ih := remove_many cells remove g P h ws (fun v hv => hw v (by simp [hv]))
    have := h (cells ++ ws.reverse) w (hw w (by simp))
    simp [removeAll, ← List.append_assoc, this, ih]

/-- C104 (partial): values of 64 bits added to any vector get the next indices and leave what was there, and removing as many gives them back from the last to the first and the vector as it was.  Partial: the machine has to give some value for a shift by 64 places (`C104_undefined_shift`), and memory does not run out. -/
theorem C104_last_in_first_out_partial (ub : Nat → Nat → Option Nat) (hub : ∀ w s, ub w s ≠ none) (cells vs : List Int) (hv : ∀ v ∈ vs, IsItem v) :
    addAll ub cells vs = some (List.range' cells.length vs.length, cells ++ vs) ∧
      removeAll removeInt64 (cells ++ vs) vs.length = some (vs.reverse, cells) ∧
      removeAll removeDouble (cells ++ vs) vs.length = some (vs.reverse.map asDouble, cells) := by
  refine ⟨?_, ?_, ?_⟩
  · induction vs generalizing cells with
    | nil => simp [addAll]
    | cons v vs ih =>
      have := ih (cells ++ [v]) (fun x hx => hv x (by simp [hx]))
      simp [addAll, add_one ub hub cells v (hv v (by simp)), this, List.range'_succ]
  · have := remove_many cells removeInt64 id IsItem (fun c v h => (remove_one c v h).1) vs.reverse (by simpa using hv)
    simpa using this
  · have := remove_many cells removeDouble asDouble IsItem (fun c v h => (remove_one c v h).2) vs.reverse (by simpa using hv)
    simpa using this

/-- Nothing is removed from an empty vector. -/
example : removeInt64 [] = some (ITEM_MAX, []) ∧ removeDouble [] = some (Item.DBL_MAX_BITS, []) := by simp [removeInt64, removeDouble]

/-- The machine shifts by the lowest six bits of the number of places. -/
def x86 : Nat → Nat → Option Nat := fun w s => some ((w <<< (s % 64)) % 18446744073709551616)

example : (∀ w s, x86 w s ≠ none) ∧ addAll x86 [5] [-7, 4607182418800017408] = some ([1, 2], [5, -7, 4607182418800017408]) ∧
    removeAll removeInt64 [5, -7, 4607182418800017408] 2 = some ([4607182418800017408, -7], [5]) := by
  refine ⟨by simp [x86], ?_, ?_⟩ <;> decide +kernel

/-- What is not so: a `double` whose bits are those of `ITEM_MAX`, a NaN, is read as `DBL_MAX`. -/
theorem C104_nan : (addWide x86 [] ITEM_MAX).bind (fun p => removeDouble p.2) = some (Item.DBL_MAX_BITS, []) := by decide +kernel

/-- What is not so: by the C standard nothing is known after adding a value, for it shifts by the whole width. -/
theorem C104_undefined_shift : addWide Item.strict [] 9 = none := by decide +kernel

end RuC.Push.Props
