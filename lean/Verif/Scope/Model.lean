import Verif.Base

/-!
# Identifiers and scopes, libs/compiler/syntax.c

The vector `identifiers` is the sequence of its cells (`Verif.Vector`), a cell that was never written is `none`;
memory is taken to be granted.  The values of the map `representations` (`Verif.Map`) are the list `refs`, by
index of the name.  `none` as a result is undefined behaviour: reading a cell that was never written, or a
signed overflow of a displacement; a loop that does not end in as many turns as there are cells is `none` too.
-/

namespace RuC.Scope
open RuC

/-- The fields of `syntax` concerned, syntax.h:65-92. -/
structure Sx where
  ids : List (Option Int)
  refs : List Int
  curId : Nat
  refMain : Nat
  displ : Int
  lg : Int
  maxDispl : Int
  maxDisplg : Int
  predef : List Int
  deriving DecidableEq, Repr

/-- `scope`, syntax.h:94-100. -/
structure Saved where
  displ : Int
  lg : Int
  curId : Nat
  deriving DecidableEq, Repr

/-- `vector_get` on cells: `ITEM_MAX` out of range, undefined if never written. -/
def get (ids : List (Option Int)) (i : Nat) : Option Int :=
  if i < ids.length then (ids[i]?).join else some ITEM_MAX

/-- `vector_set` on cells: nothing happens out of range. -/
def set (ids : List (Option Int)) (i : Nat) (x : Int) : List (Option Int) := ids.set i (some x)

/-- `repr_get_reference`, syntax.c:904-907. -/
def getRef (refs : List Int) (index : Nat) : Int := refs.getD index ITEM_MAX

/-- `repr_set_reference`, syntax.c:909-912: nothing happens out of range. -/
def setRef (refs : List Int) (index : Nat) (ref : Int) : List Int := refs.set index ref

/-- The result of a signed computation. -/
def signed (i : Int) : Option Int := if ITEM_MIN ≤ i ∧ i ≤ ITEM_MAX then some i else none

/-- `get_static`, syntax.c:103-118; `size` is `type_size` of the type. -/
def getStatic (s : Sx) (size : Nat) : Option (Int × Sx) :=
  (signed (s.displ + s.lg * toItem size)).map fun d =>
    (s.displ, if s.lg > 0 then { s with displ := d, maxDispl := if d > s.maxDispl then d else s.maxDispl } else { s with displ := d, maxDisplg := -d })

/-- The loop over `predef` in `ident_add`, syntax.c:378-461. -/
def strike (predef : List Int) (repr : Nat) : List Int := predef.map fun x => if toSize x = repr then 0 else x

/-- The end of `ident_add` after all checks, syntax.c:376-455: the displacement by kind. -/
def identFill (s : Sx) (last repr : Nat) (kind type : Int) (size : Nat) (funcDef : Int) : Option Sx :=
  let s := { s with ids := set (set s.ids (last + 1) (toItem repr)) (last + 2) type }
  if kind < 0 then
    (signed (s.displ + 1)).map fun d => { s with ids := set s.ids (last + 3) (-s.displ), displ := d, maxDispl := d }
  else if kind = 0 then
    (getStatic s size).map fun r => { r.2 with ids := set r.2.ids (last + 3) r.1 }
  else if kind = 1 then some { s with ids := set (set s.ids (last + 2) 0) (last + 3) 0 }
  else if kind ≥ 1000 then some { s with ids := set s.ids (last + 3) kind }
  else if type < 1000 then
    let s := { s with ids := set s.ids (last + 3) kind }
    if funcDef = 2 then
      (get s.ids (last + 1)).map fun r => { s with ids := set s.ids (last + 1) (-r), predef := s.predef ++ [toItem repr] }
    else some { s with predef := strike s.predef repr }
  else some s

/-- The cell `ident_add` puts into the new record for the reference of the name, syntax.c:376-455. -/
def prevCell (s : Sx) (repr : Nat) : Int := if getRef s.refs repr = ITEM_MAX then ITEM_MAX - 1 else getRef s.refs repr

/-- The new record and the reference to it in `ident_add`, syntax.c:378-461. -/
def identOpen (s : Sx) (repr : Nat) : Sx :=
  { s with
    ids := s.ids ++ [some (prevCell s repr), none, none, none]
    refMain := if getRef s.refs repr = 0 then s.ids.length else s.refMain
    refs := if toSize (prevCell s repr) ≠ 0 then setRef s.refs repr (toItem s.ids.length) else s.refs }

/-- The check for a repeated declaration in `ident_add`, syntax.c:378-461. -/
def isRepeated (s : Sx) (repr : Nat) (kind funcDef : Int) : Option Bool :=
  if kind ≠ 1 ∧ prevCell s repr ≠ ITEM_MAX - 1 ∧ toSize (prevCell s repr) ≥ s.curId then
    if funcDef ≠ 1 then some true
    else (get (identOpen s repr).ids (usz (toSize (prevCell s repr) + 1))).map fun r => decide (r > 0)
  else some false

/-- `ident_add`, syntax.c:378-461; `size` is `type_size` of the type. -/
def identAdd (s : Sx) (repr : Nat) (kind type : Int) (size : Nat) (funcDef : Int) : Option (Nat × Sx) :=
  if getRef s.refs repr = 0 ∧ s.refMain ≠ 0 then
    some (SIZE_MAX, { s with ids := s.ids ++ [some (prevCell s repr), none, none, none] })
  else
    match isRepeated s repr kind funcDef with
    | none => none
    | some true => some (SIZE_MAX - 1, identOpen s repr)
    | some false => (identFill (identOpen s repr) s.ids.length repr kind type size funcDef).map fun t => (s.ids.length, t)

/-- `ident_get_repr`, syntax.c:468-471. -/
def identRepr (s : Sx) (index : Nat) : Option Int := get s.ids (usz (index + 1))

/-- `ident_get_type`, syntax.c:473-476. -/
def identType (s : Sx) (index : Nat) : Option Int := get s.ids (usz (index + 2))

/-- `ident_get_displ`, syntax.c:478-481. -/
def identDispl (s : Sx) (index : Nat) : Option Int := get s.ids (usz (index + 3))

/-- `ident_is_type_specifier`, syntax.c:503-506. -/
def isTypeSpecifier (s : Sx) (index : Nat) : Option Bool := (identDispl s index).map fun d => decide (d ≥ 1000)

/-- `scope_block_enter`, syntax.c:915-925. -/
def blockEnter (s : Sx) : Saved × Sx := (⟨s.displ, s.lg, s.curId⟩, { s with curId := s.ids.length })

/-- The loop of `scope_block_exit` and of `scope_func_exit`, syntax.c:962-980, 962-982. -/
def restore (ids : List (Option Int)) (curId : Nat) : Nat → Nat → List Int → Option (List Int)
  | 0, _, _ => none
  | fuel + 1, i, refs =>
    if i ≥ curId then
      match get ids i, get ids (usz (i + 1)) with
      | some prev, some repr => restore ids curId fuel (usub i 4) (setRef refs (toSize repr) (if prev = ITEM_MAX - 1 then ITEM_MAX else prev))
      | _, _ => none
    else some refs

/-- `scope_block_exit`, syntax.c:927-944. -/
def blockExit (s : Sx) (scp : Saved) : Option Sx :=
  if scp.lg = ITEM_MAX ∨ scp.displ = ITEM_MAX then some s
  else (restore s.ids s.curId (s.ids.length + 1) (usub s.ids.length 4) s.refs).map fun refs =>
    { s with refs := refs, displ := scp.displ, lg := scp.lg, curId := scp.curId }

/-- `scope_func_enter`, syntax.c:946-960. -/
def funcEnter (s : Sx) : Int × Sx := (s.displ, { s with curId := s.ids.length, displ := 3, maxDispl := 3, lg := 1 })

/-- `scope_func_exit`, syntax.c:962-980. -/
def funcExit (s : Sx) (displ : Int) : Option (Int × Sx) :=
  (restore s.ids s.curId (s.ids.length + 1) (usub s.ids.length 4) s.refs).map fun refs =>
    (s.maxDispl, { s with refs := refs, curId := 2, lg := -1, displ := displ })

/-- What the parser keeps for an open scope: in `parse_compound_statement` and `parse_for_statement`,
parser.c:1605-1695, 1606-1691, or in `parse_function_definition`, parser.c:2033-2104. -/
inductive Open
  | block (saved : Saved)
  | func (displ : Int)
  deriving DecidableEq, Repr

/-- A call. -/
inductive Op
  | decl (repr : Nat) (kind type : Int) (size : Nat) (funcDef : Int)
  | enter
  | exit
  | funcEnter
  | funcExit
  deriving DecidableEq, Repr

/-- A call with the scopes the parser has open, and what it answered.  Scopes are closed in the order the
parser does it: anything else is `none`. -/
def step (m : Sx × List Open) : Op → Option (Nat × Sx × List Open)
  | .decl repr kind type size funcDef => (identAdd m.1 repr kind type size funcDef).map fun r => (r.1, r.2, m.2)
  | .enter => some (0, (blockEnter m.1).2, .block (blockEnter m.1).1 :: m.2)
  | .exit =>
    match m.2 with
    | .block saved :: rest => (blockExit m.1 saved).map fun s => (0, s, rest)
    | _ => none
  | .funcEnter =>
    match m.2 with
    | [] => some (0, (funcEnter m.1).2, [.func (funcEnter m.1).1])
    | _ => none
  | .funcExit =>
    match m.2 with
    | [.func displ] => (funcExit m.1 displ).map fun r => (0, r.2, [])
    | _ => none

/-- A sequence of calls, with the answers. -/
def run (m : Sx × List Open) : List Op → Option (List Nat × Sx × List Open)
  | [] => some ([], m)
  | op :: ops =>
    match step m op with
    | none => none
    | some (a, m) => (run m ops).map fun r => (a :: r.1, r.2)

/-- The errors of the last check. -/
inductive Fault
  | noMain
  | undefined (repr : Nat)
  deriving DecidableEq, Repr

/-- The errors `sx_is_correct` reports, syntax.c:287-312: no `main`, and one for each cell of `predef` that is not zero. -/
def faults (s : Sx) : List Fault :=
  (if s.refMain = 0 then [.noMain] else []) ++ (s.predef.filter fun x => x ≠ 0).map fun x => .undefined (toSize x)

/-- `sx_is_correct`, syntax.c:287-311, with the errors it reports; `errors` is the number of errors so far. -/
def isCorrect (errors : Nat) (s : Sx) : Bool × List Fault := if errors ≠ 0 then (true, []) else ((faults s).isEmpty, faults s)

end RuC.Scope
