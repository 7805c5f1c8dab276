import Verif.Hash.Model
import Verif.Item.Model

/-!
# libs/utils/hash.c, hash.h, vector.c: values of 64 bits in records

Cells have 64 bits (`ITEM = -64`), so that `DOUBLE_SIZE` and `INT64_SIZE` are 1.  A `double` is its pattern of bits, read as `int64_t`.  `ub` is what the machine makes of a shift by 64 places (see `Verif/Item`).  `none` is undefined behaviour, or a walk that does not end.
-/

namespace RuC.Wide
open RuC RuC.Hash

/-- `vector_set_int64`, vector.c:123-131, and `vector_set_double`, vector.c:113-121: the answer and the new contents.  The size is compared with `index + 1`, which is 0 for the largest index. -/
def vsetWide (ub : Nat → Nat → Option Nat) (hs : List Int) (i : Nat) (v : Int) : Option (Nat × List Int) :=
  if usz (i + 1) > hs.length then some (SIZE_MAX, hs)
  else if i < hs.length then
    match Item.storeInt64 ub .int64 v with
    | some (some [c]) => some (1, hs.set i c)
    | some none => some (SIZE_MAX, hs)
    | _ => none
  else none

/-- `vector_get_int64`, vector.c:154-162. -/
def vgetInt64 (hs : List Int) (i : Nat) : Option Int :=
  if usz (i + 1) > hs.length then some ITEM_MAX else Item.restoreInt64 .int64 (hs.drop i)

/-- `vector_get_double`, vector.c:144-152. -/
def vgetDouble (hs : List Int) (i : Nat) : Option Int :=
  if usz (i + 1) > hs.length then some Item.DBL_MAX_BITS else Item.restoreDouble .int64 (hs.drop i)

/-- `hash_set_int64_by_index`, hash.h:259-262, and `hash_set_double_by_index`, hash.h:244-247. -/
def setWideAt (ub : Nat → Nat → Option Nat) (hs : List Int) (index num : Nat) (v : Int) : Option (Nat × List Int) :=
  if usz (num + 1) ≤ amountAt hs index then vsetWide ub hs (usz (index + 3 + num)) v else some (SIZE_MAX, hs)

/-- `hash_get_int64_by_index`, hash.h:213-216. -/
def getInt64At (hs : List Int) (index num : Nat) : Option Int :=
  if usz (num + 1) ≤ amountAt hs index then vgetInt64 hs (usz (index + 3 + num)) else some ITEM_MAX

/-- `hash_get_double_by_index`, hash.h:199-202. -/
def getDoubleAt (hs : List Int) (index num : Nat) : Option Int :=
  if usz (num + 1) ≤ amountAt hs index then vgetDouble hs (usz (index + 3 + num)) else some Item.DBL_MAX_BITS

/-- `hash_set_int64`, hash.c:174-178: the answer is compared with `LLONG_MAX`, and is `SIZE_MAX` when nothing is stored. -/
def hashSetInt64 (ub : Nat → Nat → Option Nat) (hs : List Int) (key : Int) (num : Nat) (v : Int) : Option (Nat × List Int) :=
  (getIndex hs key).bind fun i => (setWideAt ub hs i num v).map fun r => (if r.1 ≠ 9223372036854775807 then i else SIZE_MAX, r.2)

/-- `hash_set_double`, hash.c:168-172: the answer is compared with `DBL_MAX`, which no `size_t` is. -/
def hashSetDouble (ub : Nat → Nat → Option Nat) (hs : List Int) (key : Int) (num : Nat) (bits : Int) : Option (Nat × List Int) :=
  (getIndex hs key).bind fun i => (setWideAt ub hs i num bits).map fun r => (i, r.2)

/-- `hash_get_int64`, hash.c:156-159. -/
def hashGetInt64 (hs : List Int) (key : Int) (num : Nat) : Option Int := (getIndex hs key).bind fun i => getInt64At hs i num

/-- `hash_get_double`, hash.c:151-154. -/
def hashGetDouble (hs : List Int) (key : Int) (num : Nat) : Option Int := (getIndex hs key).bind fun i => getDoubleAt hs i num

end RuC.Wide
