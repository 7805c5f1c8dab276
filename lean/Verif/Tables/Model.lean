import Verif.Base

/-!
# Fixed tables of the parser

The local arrays in which the parser collects the enumerators of an enumeration, the parameters of a function, the
members of a structure and the parameters of a builtin function, before `type_add` copies them.  What is written
outside the array, or read before it is written, is the outcome `none`.  Tokens, locations and messages are left out:
a list is given by its entries.
-/

namespace RuC.Tables

open RuC

/-- An array of `n` cells as declared: nothing is written yet. -/
def fresh (n : Nat) : List (Option Int) := List.replicate n none

/-- `array[i] = v`. -/
def write (tab : List (Option Int)) (i : Nat) (v : Int) : Option (List (Option Int)) := if i < tab.length then some (tab.set i (some v)) else none

/-- The value `array[i]`. -/
def read (tab : List (Option Int)) (i : Nat) : Option Int := (tab[i]?).join

/-- The first `n` cells, as `type_add` reads them. -/
def readAll (tab : List (Option Int)) : Nat → Option (List Int)
  | 0 => some []
  | n + 1 =>
    match readAll tab n, read tab n with
    | some l, some v => some (l ++ [v])
    | _, _ => none

/-! ### Enumerations -/

/-- What stands behind the name of an enumerator: nothing, `= v` with an integer constant, a constant of another type,
something that is no expression. -/
inductive Value
  | next
  | const (v : Int)
  | other
  | bad

/-- An enumerator: the number of its name, its value. -/
structure Entry where
  name : Int
  value : Value

/-- `INT_MAX` of limits.h. -/
def INT_MAX : Int := 2147483647

/-- `field_value++`: overflow is undefined. -/
def advance (v : Int) : Option Int := if ITEM_MIN ≤ v + 1 ∧ v + 1 ≤ ITEM_MAX then some (v + 1) else none

/-- What is known in the loop: the array, the next free cell, the next value, the identifiers made so far. -/
structure Loop where
  tab : List (Option Int)
  md : Nat
  value : Int
  idents : List (Int × Int)

/-- The enumerator gets the value `v`: the second half of the loop in `parse_enum_declaration_list`, parser.c:1064-1131. -/
def enumerator (l : Loop) (name v : Int) : Option Loop :=
  match advance v with
  | none => none
  | some v1 =>
    match write l.tab l.md (v1 - 1) with
    | none => none
    | some t1 => (write t1 (l.md + 1) name).map fun t2 => ⟨t2, l.md + 2, v1, l.idents ++ [(name, v)]⟩

/-- The loop in `parse_enum_declaration_list`, parser.c:1064-1131; the inner `none` is the return with `TYPE_UNDEFINED`.
Simplified: an entry that does not begin with a name is not modelled. -/
def enumLoop : Loop → List Entry → Option (Option Loop)
  | l, [] => some (some l)
  | l, e :: rest =>
    match e.value with
    | .next => (enumerator l e.name l.value).bind (enumLoop · rest)
    | .const v => if v = INT_MAX then some none else (enumerator l e.name v).bind (enumLoop · rest)
    | .other => some none
    | .bad => enumLoop l rest

/-- `parse_enum_declaration_list`, parser.c:1064-1131, for a list that is not empty: the identifiers with their values and
the cells given to `type_enum_add_fields`. -/
def enumList (es : List Entry) : Option (Option (List (Int × Int) × List Int)) :=
  match enumLoop ⟨fresh 100, 2, 0, []⟩ es with
  | none => none
  | some none => some none
  | some (some l) =>
    match write l.tab 1 ((l.md : Int) - 2) with
    | none => none
    | some t1 =>
      match read t1 2 with
      | none => none
      | some v =>
        match write t1 0 (v.tdiv 2) with
        | none => none
        | some t2 => (readAll t2 l.md).map fun r => some (l.idents, r)

/-! ### Functions -/

def TYPE_UNDEFINED : Int := 0
def TYPE_FUNCTION : Int := 1001
def TYPE_STRUCTURE : Int := 1002

mutual
/-- A parameter: of an ordinary type, or a function (named before or inside the parentheses) with its own parameters. -/
inductive Param
  | simple (named : Bool) (type : Int)
  | function (before inside : Bool) (type : Int) (params : Params)
inductive Params
  | nil
  | cons (p : Param) (rest : Params)
end

/-- The parameter has a name. -/
def Param.named : Param → Bool
  | .simple n _ => n
  | .function b i _ _ => b || i

/-- The answer about `func_def` after a parameter: `none` is the return with an error. -/
def nextDef (fd : Nat) (named : Bool) : Option Nat :=
  if fd = 3 then some (if named then 1 else 2)
  else if fd = 2 ∧ named then none
  else if fd = 1 ∧ !named then none
  else some fd

/-- What `type_add` answers for the cells collected. -/
def funcType (add : List Int → Int) (tab : List (Option Int)) (md args : Nat) (ret : Int) : Option Int :=
  match write tab 0 TYPE_FUNCTION with
  | none => none
  | some t0 =>
    match write t0 1 ret with
    | none => none
    | some t1 =>
      match write t1 2 (args : Int) with
      | none => none
      | some t2 => (readAll t2 md).map add

mutual
/-- The loop over the parameters in `parse_function_declarator`, parser.c:1870-2024: the type and the value of `func_def`.
Without parameters there is no loop, and `func_def` is 0. -/
def declLoop (add : List Int → Int) (level : Bool) (fd : Nat) (ret : Int) (tab : List (Option Int)) (md args : Nat) :
    Params → Option (Int × Nat)
  | .nil => (funcType add tab md args ret).map fun t => (t, if args = 0 then 0 else fd)
  | .cons p rest =>
    match paramType add level p with
    | none => none
    | some none => some (TYPE_UNDEFINED, 3)
    | some (some t) =>
      match nextDef fd p.named with
      | none => some (TYPE_UNDEFINED, 3)
      | some fd1 =>
        match write tab md t with
        | none => none
        | some tab1 => declLoop add level fd1 ret tab1 (md + 1) (args + 1) rest

/-- The type of a parameter; the inner `none` is the return with an error. -/
def paramType (add : List Int → Int) (level : Bool) : Param → Option (Option Int)
  | .simple named t => some (if !level && named then none else some t)
  | .function before inside t ps =>
    if !level && (before || inside) then some none
    else if before && inside then some none
    else (declLoop add false 2 t (fresh 100) 3 0 ps).map fun r => some r.1
end

/-- `parse_function_declarator`, parser.c:1870-2024; `add` is `type_add`.  Simplified: tokens are not modelled; `void`
parameters and wrong brackets, which only give messages, are left out. -/
def declarator (add : List Int → Int) (level : Bool) (fd : Nat) (ret : Int) (ps : Params) : Option (Int × Nat) :=
  declLoop add level fd ret (fresh 100) 3 0 ps

/-! ### Structures and builtin functions -/

/-- The loop in `type_structure`, syntax.c:721-742, over the types and names of members. -/
def memberLoop : List (Option Int) → Nat → List (Int × Int) → Option (List (Option Int) × Nat)
  | tab, md, [] => some (tab, md)
  | tab, md, m :: rest =>
    match write tab md m.1 with
    | none => none
    | some t1 => (write t1 (md + 1) m.2).bind fun t2 => memberLoop t2 (md + 2) rest

/-- The cells `type_structure`, syntax.c:721-742, gives to `type_add`; `displ` is the sum of the sizes. -/
def structCells (displ : Int) (ms : List (Int × Int)) : Option (List Int) :=
  match memberLoop (fresh 100) 3 ms with
  | none => none
  | some (tab, md) =>
    match write tab 0 TYPE_STRUCTURE with
    | none => none
    | some t0 =>
      match write t0 1 displ with
      | none => none
      | some t1 => (write t1 2 ((ms.length : Int) * 2)).bind fun t2 => readAll t2 md

/-- The loop in `type_function`, syntax.c:815-876; `type` is the type of a letter, `none` for a letter it does not know. -/
def letterLoop (type : Char → Option Int) : List (Option Int) → Nat → List Char → Option (List (Option Int) × Nat)
  | tab, i, [] => some (tab, i)
  | tab, i, c :: rest =>
    match type c with
    | none => letterLoop type tab (i + 1) rest
    | some t => (write tab (3 + i) t).bind fun t1 => letterLoop type t1 (i + 1) rest

/-- The cells `type_function`, syntax.c:815-876, gives to `type_add` for the letters of a signature. -/
def signatureCells (type : Char → Option Int) (ret : Int) (args : List Char) : Option (List Int) :=
  match write (fresh 6) 0 TYPE_FUNCTION with
  | none => none
  | some t0 =>
    match write t0 1 ret with
    | none => none
    | some t1 =>
      match letterLoop type t1 0 args with
      | none => none
      | some (t2, i) => (write t2 2 (i : Int)).bind fun t3 => readAll t3 (3 + i)

/-- The letters with a type, syntax.c:815-876. -/
def letters : List Char := ['v', 'V', 'b', 's', 'S', 'i', 'I', 'f', 'F', 'm', 'P', 'T', '.']

/-- The signatures of the builtin functions: `ident_init`, syntax.c:181-233, and the one in `type_function`, syntax.c:815-876. -/
def signatures : List String :=
  ["bs", "f", "f", "f", "f", "f", "f", "f", "", "f", "si", "ss", "ss", "ssi", "ss", "iI", "iF", "is", "i", "i", "i", "T", "", "i", "i", "",
   "", "", "i", "i", "i", "m", "", "ss", "P", "iP", "P", "i", "s.", ".", ".", ".", "V"]

end RuC.Tables
