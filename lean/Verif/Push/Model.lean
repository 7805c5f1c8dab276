import Verif.Item.Model

/-!
# libs/utils/vector.c: values of 64 bits at the end of a vector

Cells have 64 bits (`ITEM = -64`), so that `DOUBLE_SIZE` and `INT64_SIZE` are 1.  A `double` is its pattern of bits, read as `int64_t`.  Memory does not run out.  `ub` is what the machine makes of a shift by 64 places (see `Verif/Item`), `none` is undefined behaviour.
-/

namespace RuC.Push
open RuC

/-- `vector_add_int64`, vector.c:90-99, and `vector_add_double`, vector.c:79-88: the vector grows by a zero, vector.c:22-45, which is then written over. -/
def addWide (ub : Nat → Nat → Option Nat) (cells : List Int) (v : Int) : Option (Nat × List Int) :=
  let grown := cells ++ [0]
  match Item.storeInt64 ub .int64 v with
  | some (some [c]) => some (grown.length - 1, grown.set (grown.length - 1) c)
  | some none => some (grown.length - 1, grown)
  | _ => none

/-- `vector_remove_int64`, vector.c:186-195. -/
def removeInt64 (cells : List Int) : Option (Int × List Int) :=
  if cells.length < 1 then some (ITEM_MAX, cells)
  else (Item.restoreInt64 .int64 (cells.drop (cells.length - 1))).map fun v => (v, cells.take (cells.length - 1))

/-- `vector_remove_double`, vector.c:175-184. -/
def removeDouble (cells : List Int) : Option (Int × List Int) :=
  if cells.length < 1 then some (Item.DBL_MAX_BITS, cells)
  else (Item.restoreDouble .int64 (cells.drop (cells.length - 1))).map fun v => (v, cells.take (cells.length - 1))

end RuC.Push
