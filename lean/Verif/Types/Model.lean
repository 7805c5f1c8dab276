import Verif.Base

/-!
# The table of types, libs/compiler/syntax.c

The vector `types` is the sequence of its cells (`Verif.Vector` proves that a vector behaves as one); memory
is taken to be granted.  Loops and recursions through back links are bounded by `fuel`; running out of it,
and writing outside a local array, is `none`.
-/

namespace RuC.Types
open RuC

/-- `TYPE`, syntax.h:39-61. -/
def TYPE_VARARG : Int := -9
def TYPE_NULL_POINTER : Int := -8
def TYPE_FILE : Int := -7
def TYPE_VOID : Int := -6
def TYPE_BOOLEAN : Int := -4
def TYPE_FLOATING : Int := -3
def TYPE_CHARACTER : Int := -2
def TYPE_INTEGER : Int := -1
def TYPE_UNDEFINED : Int := 0
def TYPE_MSG_INFO : Int := 2
def TYPE_FUNCTION : Int := 1001
def TYPE_STRUCTURE : Int := 1002
def TYPE_ARRAY : Int := 1003
def TYPE_POINTER : Int := 1004
def TYPE_ENUM : Int := 1005
def TYPE_CONST : Int := 1006

/-- The fields `types` and `start_type` of `syntax`, syntax.h:65-92. -/
structure Table where
  cells : List Int
  start : Nat
  deriving DecidableEq, Repr

/-- `vector_get` on the sequence of cells. -/
def get (cells : List Int) (i : Nat) : Int := cells.getD i ITEM_MAX

/-- `type_is_const`, syntax.c:645-648. -/
def isConst (cells : List Int) (type : Int) : Prop := type > 0 ∧ get cells (toSize type) = TYPE_CONST

instance (cells : List Int) (type : Int) : Decidable (isConst cells type) := by unfold isConst; infer_instance

/-- `type_const_get_unqualified_type`, syntax.c:709-712. -/
def unqualified (cells : List Int) (type : Int) : Int :=
  if isConst cells type then get cells (usz (toSize type + 1)) else ITEM_MAX

/-- The number of cells `type_is_equal` compares behind the first, syntax.c:124-155. -/
def compared (cells : List Int) (first : Nat) : Nat :=
  if get cells first = TYPE_STRUCTURE ∨ get cells first = TYPE_FUNCTION then usz (2 + toSize (get cells (usz (first + 2)))) else 1

/-- The loop of `type_is_equal`, syntax.c:121-151. -/
def sameCells (cells : List Int) (first second length : Nat) : Bool :=
  (List.range length).all fun i => get cells (usz (first + (i + 1))) == get cells (usz (second + (i + 1)))

/-- `type_is_equal`, syntax.c:121-151. -/
def isEqual (cells : List Int) : Nat → Nat → Nat → Option Bool
  | 0, _, _ => none
  | fuel + 1, first, second =>
    if get cells first ≠ get cells second then some false
    else if get cells first = TYPE_CONST then
      isEqual cells fuel (toSize (unqualified cells (toItem first))) (toSize (unqualified cells (toItem second)))
    else some (sameCells cells first second (compared cells first))

/-- The loop of `type_add`, syntax.c:514-545: the record found equal to the one at `start`, if any. -/
def scan (cells : List Int) (start : Nat) : Nat → Nat → Option (Option Nat)
  | 0, _ => none
  | fuel + 1, old =>
    if old = 0 then some none
    else
      match isEqual cells (cells.length + 2) (usz (start + 1)) (usz (old + 1)) with
      | none => none
      | some true => some (some old)
      | some false => scan cells start fuel (toSize (get cells old))

/-- `type_add`, syntax.c:514-545. -/
def typeAdd (tb : Table) (record : List Int) : Option (Int × Table) :=
  let start := tb.cells.length
  let cells := tb.cells ++ toItem tb.start :: record
  match scan cells start (cells.length + 1) (toSize (get cells start)) with
  | none => none
  | some none => some (toItem start + 1, ⟨cells, start⟩)
  | some (some old) => some (toItem old + 1, ⟨cells.take start, toSize (get cells start)⟩)

/-- The type behind all `const`: the recursion shared by `type_size`, `type_is_array`, `type_is_structure`,
`type_is_enum`, `type_is_pointer` and the queries of components, syntax.c:570-786. -/
def strip (cells : List Int) : Nat → Int → Option Int
  | 0, _ => none
  | fuel + 1, type => if isConst cells type then strip cells fuel (unqualified cells type) else some type

/-- The type behind all `const`. -/
def behind (cells : List Int) (type : Int) : Option Int := strip cells (cells.length + 1) type

/-- The class a type without `const` is tested for. -/
def hasClass (cells : List Int) (type class_ : Int) : Prop := type > 0 ∧ get cells (toSize type) = class_

instance (cells : List Int) (type class_ : Int) : Decidable (hasClass cells type class_) := by unfold hasClass; infer_instance

/-- `type_is_array`, syntax.c:650-654. -/
def isArray (cells : List Int) (type : Int) : Option Bool := (behind cells type).map fun t => decide (hasClass cells t TYPE_ARRAY)

/-- `type_is_structure`, syntax.c:656-660. -/
def isStructure (cells : List Int) (type : Int) : Option Bool := (behind cells type).map fun t => decide (hasClass cells t TYPE_STRUCTURE)

/-- `type_is_enum`, syntax.c:662-666. -/
def isEnum (cells : List Int) (type : Int) : Option Bool := (behind cells type).map fun t => decide (hasClass cells t TYPE_ENUM)

/-- `type_is_pointer`, syntax.c:678-682. -/
def isPointer (cells : List Int) (type : Int) : Option Bool := (behind cells type).map fun t => decide (hasClass cells t TYPE_POINTER)

/-- `type_is_function`, syntax.c:673-676: without the recursion through `const`. -/
def isFunction (cells : List Int) (type : Int) : Bool := decide (hasClass cells type TYPE_FUNCTION)

/-- `type_size`, syntax.c:567-585. -/
def typeSize (cells : List Int) (type : Int) : Option Nat :=
  (behind cells type).map fun t =>
    if hasClass cells t TYPE_STRUCTURE then toSize (get cells (usz (toSize t + 1)))
    else if t = TYPE_FLOATING then 2
    else 1

/-- `type_pointer_get_element_type`, syntax.c:778-782. -/
def pointerElement (cells : List Int) (type : Int) : Option Int :=
  (behind cells type).map fun t => if hasClass cells t TYPE_POINTER then get cells (usz (toSize t + 1)) else ITEM_MAX

/-- `type_array_get_element_type`, syntax.c:714-718. -/
def arrayElement (cells : List Int) (type : Int) : Option Int :=
  (behind cells type).map fun t => if hasClass cells t TYPE_ARRAY then get cells (usz (toSize t + 1)) else ITEM_MAX

/-- `type_function_get_return_type`, syntax.c:763-766. -/
def returnType (cells : List Int) (type : Int) : Int := if hasClass cells type TYPE_FUNCTION then get cells (usz (toSize type + 1)) else ITEM_MAX

/-- `type_function_get_parameter_amount`, syntax.c:768-771. -/
def parameterAmount (cells : List Int) (type : Int) : Nat :=
  if hasClass cells type TYPE_FUNCTION then toSize (get cells (usz (toSize type + 2))) else SIZE_MAX

/-- `type_function_get_parameter_type`, syntax.c:773-776. -/
def parameterType (cells : List Int) (type : Int) (index : Nat) : Int :=
  if hasClass cells type TYPE_FUNCTION then get cells (usz (toSize type + 3 + index)) else ITEM_MAX

/-- `type_structure_get_member_amount`, syntax.c:744-748. -/
def memberAmount (cells : List Int) (type : Int) : Option Nat :=
  (behind cells type).map fun t => if hasClass cells t TYPE_STRUCTURE then toSize (get cells (usz (toSize t + 2))) / 2 else SIZE_MAX

/-- `type_structure_get_member_name`, syntax.c:750-754. -/
def memberName (cells : List Int) (type : Int) (index : Nat) : Option Nat :=
  (behind cells type).map fun t => if hasClass cells t TYPE_STRUCTURE then toSize (get cells (usz (toSize t + 4 + 2 * index))) else SIZE_MAX

/-- `type_structure_get_member_type`, syntax.c:756-760. -/
def memberType (cells : List Int) (type : Int) (index : Nat) : Option Int :=
  (behind cells type).map fun t => if hasClass cells t TYPE_STRUCTURE then get cells (usz (toSize t + 3 + 2 * index)) else ITEM_MAX

/-- `type_enum_add_fields`, syntax.c:547-560. -/
def enumAddFields (tb : Table) (record : List Int) : Option (Int × Table) :=
  match isEnum tb.cells (wrapI64 (toItem tb.cells.length - 1)) with
  | none => none
  | some false => some (ITEM_MAX, tb)
  | some true => some (toItem tb.start + 1, ⟨tb.cells ++ record, tb.start⟩)

/-- `type_pointer`, syntax.c:878-881. -/
def typePointer (tb : Table) (type : Int) : Option (Int × Table) := typeAdd tb [TYPE_POINTER, type]

/-- `type_array`, syntax.c:784-787. -/
def typeArray (tb : Table) (type : Int) : Option (Int × Table) := typeAdd tb [TYPE_ARRAY, type]

/-- `type_const`, syntax.c:883-886. -/
def typeConst (tb : Table) (type : Int) : Option (Int × Table) := typeAdd tb [TYPE_CONST, type]

/-- The record of a function type, syntax.c:815-876, and the end of `parse_function_declarator`,
parser.c:1870-2024, whose local array has 100 cells. -/
def typeFunction (tb : Table) (returned : Int) (parameters : List Int) : Option (Int × Table) :=
  if 3 + parameters.length ≤ 100 then typeAdd tb (TYPE_FUNCTION :: returned :: toItem parameters.length :: parameters) else none

/-- The sum of sizes in `type_structure`, syntax.c:721-742: `displ += type_size(..)` is computed in `size_t`. -/
def membersSize (cells : List Int) : List (Int × Int) → Option Nat
  | [] => some 0
  | (type, _) :: members =>
    match typeSize cells type, membersSize cells members with
    | some n, some m => some (usz (n + m))
    | _, _ => none

/-- `type_structure`, syntax.c:721-742, whose local array has 100 cells; members are types with names. -/
def typeStructure (tb : Table) (members : List (Int × Int)) : Option (Int × Table) :=
  if 3 + 2 * members.length ≤ 100 then
    match membersSize tb.cells members with
    | none => none
    | some n =>
      typeAdd tb (TYPE_STRUCTURE :: toItem n :: toItem (members.length * 2) :: members.flatMap fun m => [m.1, m.2])
  else none

/-- The enumeration of `parse_enum_declaration_list`, parser.c:1064-1131: the record is added with its first
cell alone and the cells of the fields later.  Simplified: no other type is added in between. -/
def typeEnum (tb : Table) (fields : List Int) : Option (Int × Table) :=
  match typeAdd tb [TYPE_ENUM] with
  | none => none
  | some (type, tb) => (enumAddFields tb fields).map fun r => (type, r.2)

/-- `type_init`, syntax.c:89-101: the table at the beginning, with the structure `TYPE_MSG_INFO`; `a` and `b`
are the representations of its members' names. -/
def initTable (a b : Int) : Table := ⟨[0, 0, TYPE_STRUCTURE, 2, 4, TYPE_INTEGER, a, TYPE_INTEGER, b], 1⟩

/-- A request to build a type. -/
inductive Req
  | pointer (type : Int)
  | array (type : Int)
  | const (type : Int)
  | function (returned : Int) (parameters : List Int)
  | struct (members : List (Int × Int))
  | enum (fields : List Int)
  deriving DecidableEq, Repr

/-- The function for a request. -/
def build (tb : Table) : Req → Option (Int × Table)
  | .pointer t => typePointer tb t
  | .array t => typeArray tb t
  | .const t => typeConst tb t
  | .function r ps => typeFunction tb r ps
  | .struct ms => typeStructure tb ms
  | .enum fs => typeEnum tb fs

end RuC.Types
