import Verif.Builder.Model
import Verif.Listing.Model

/-!
# libs/compiler/writer.c: the spelling of types

`write_type_spelling` over the table of types of `Verif/Types`.  A text is the characters put into the buffer from the place that is given, without the zero behind them.
-/

namespace RuC.Spelling
open RuC.Types RuC.Builder
open Listing (codes)

/-- The loop over the parameters in `write_type_spelling`, writer.c:2089-2197, with `k` of `n` parameters to go from the number `i` on. -/
def paramLoop (f : Int → Option (List Nat)) (cells : List Int) (t : Int) (n : Nat) : Nat → Nat → Option (List Nat)
  | 0, _ => some []
  | k + 1, i => (f (parameterType cells t i)).bind fun x => (paramLoop f cells t n k (i + 1)).map fun r => x ++ ((if i ≠ n - 1 then codes ", " else []) ++ r)

/-- The loop over the members in `write_type_spelling`, writer.c:2089-2197, with `k` members to go from the number `i` on; `name` is `repr_get_name`. -/
def memberLoop (f : Int → Option (List Nat)) (name : Nat → List Nat) (cells : List Int) (t : Int) : Nat → Nat → Option (List Nat)
  | 0, _ => some []
  | k + 1, i => (memberType cells t i).bind fun u => (memberName cells t i).bind fun m => (f u).bind fun x =>
      (memberLoop f name cells t k (i + 1)).map fun r => x ++ (codes " " ++ (name m ++ (codes "; " ++ r)))

/-- `write_type_spelling`, writer.c:2089-2197.  `none` when the recursion does not end within `fuel` calls.  For enumerations nothing is put into the buffer. -/
def spell (name : Nat → List Nat) (cells : List Int) : Nat → Int → Option (List Nat)
  | 0, _ => none
  | fuel + 1, t =>
    let c := typeClass cells t
    if c = TYPE_VARARG then some (codes "...")
    else if c = TYPE_NULL_POINTER then some (codes "nullptr")
    else if c = TYPE_FILE then some (codes "FILE")
    else if c = TYPE_VOID then some (codes "void")
    else if c = TYPE_BOOLEAN then some (codes "bool")
    else if c = TYPE_FLOATING then some (codes "double")
    else if c = TYPE_CHARACTER then some (codes "char")
    else if c = TYPE_INTEGER then some (codes "int")
    else if c = TYPE_UNDEFINED then some (codes "undefined type")
    else if c = TYPE_FUNCTION then
      (spell name cells fuel (returnType cells t)).bind fun r =>
        (paramLoop (spell name cells fuel) cells t (parameterAmount cells t) (parameterAmount cells t) 0).map fun ps => r ++ (codes " (" ++ (ps ++ codes ")"))
    else if c = TYPE_MSG_INFO ∨ c = TYPE_STRUCTURE then
      (memberAmount cells t).bind fun n => (memberLoop (spell name cells fuel) name cells t n 0).map fun ms => codes "struct { " ++ (ms ++ codes "}")
    else if c = TYPE_ARRAY then (arrayElement cells t).bind fun u => (spell name cells fuel u).map fun x => x ++ codes "[]"
    else if c = TYPE_POINTER then (pointerElement cells t).bind fun u => (spell name cells fuel u).map fun x => x ++ codes "*"
    else if c = TYPE_CONST then
      (isPointer cells (unqualified cells t)).bind fun p =>
        (spell name cells fuel (unqualified cells t)).map fun x => if p then x ++ codes " const" else codes "const " ++ x
    else some []

/-- `MAX_STRING_LENGTH`, syntax.h:30. -/
def MAX_STRING_LENGTH : Nat := 128

/-- `write_type`, writer.c:95-100: the text that is written.  `none`: nothing was put into the buffer and what happens to be there is printed, or the text and its zero are longer than
the buffer. -/
def writeType (name : Nat → List Nat) (cells : List Int) (fuel : Nat) (t : Int) : Option (List Nat) :=
  (spell name cells fuel t).bind fun s => if s ≠ [] ∧ s.length < MAX_STRING_LENGTH then some s else none

end RuC.Spelling
