import Verif.Types.Model

/-!
# libs/compiler/llvmgen.c: the declarations of structures at the head of a module

The text of a type is not spelled here (see `Verif/LlvmText`): a field is the type that is written, or the word `here`.  `none` is a walk through `const` types that does not end.
-/

namespace RuC.Declared
open RuC RuC.Types

/-- What is written for a member, llvmgen.c:3076-3085. -/
inductive Field
  | here
  | type (t : Int)
  deriving DecidableEq

/-- A `for` loop that writes what `f` gives for each place, llvmgen.c:3064-3090 and 3071-3086. -/
def collect {α : Type} (f : Nat → Option α) : List Nat → Option (List α)
  | [] => some []
  | i :: is => (f i).bind fun x => (collect f is).map (x :: ·)

/-- The body of the inner loop, llvmgen.c:3071-3086. -/
def field (cells : List Int) (i : Int) (j : Nat) : Option Field :=
  (memberType cells i j).bind fun t => (isArray cells t).map fun a => if a then .here else .type t

/-- The body of the outer loop, llvmgen.c:3064-3090: the number behind `%struct_opt.` and the fields, or nothing. -/
def entry (cells : List Int) (i : Nat) : Option (List (Nat × List Field)) :=
  (isStructure cells i).bind fun s =>
    if s then (memberAmount cells i).bind fun n => (collect (field cells i) (List.range n)).map fun fs => [(i, fs)]
    else some []

/-- `structs_declaration`, llvmgen.c:3061-3092: every cell of the table is taken for the beginning of a type. -/
def declare (cells : List Int) : Option (List (Nat × List Field)) := (collect (entry cells) (List.range cells.length)).map List.flatten

end RuC.Declared
