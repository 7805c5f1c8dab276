import Verif.Text.Model

/-!
# libs/macro/parser.c: macros with arguments

Reading the arguments and the content of a definition, reading the arguments of a call, and the text in which the arguments are in the places of the
parameters.  As in `Text/Model.lean` the input is the list of its characters and a position is a number of characters.  Locations are left out, and messages
are the reason why a definition or a call fails; messages about comments and strings that are not ended are left out.  The two storages of this part, one for the
names of the parameters and one for the values of the arguments, are lists (C41).
-/

namespace RuC.Subst
open RuC RuC.Utf8 RuC.Io RuC.Locator RuC.Text

/-- Why a definition or a call fails, libs/macro/error.h. -/
inductive Err
  | expectedBracket
  | expectedName
  | duplicate
  | expectedComma
  | hashOnEdge
  | hashNotFollowed
  | string
  /-- not a failure: `#eval` in a definition is not modelled -/
  | eval
  /-- `ARGS_NON` -/
  | nothing
  /-- `ARGS_UNTERMINATED` or a string that is not ended -/
  | unterminated
  /-- `ARGS_REQUIRES` -/
  | few
  /-- `ARGS_PASSED` -/
  | many
  deriving DecidableEq, Repr

/-- The characters printed by events. -/
def putsOf : List Ev → List Nat
  | [] => []
  | .put c :: e => c :: putsOf e
  | _ :: e => putsOf e

/-- The name read by `map_get_hash_by_io`, map.c:104-138; nothing if there is no letter and no hash. -/
def nameAt (t : List Nat) (p : Nat) : List Nat :=
  match t.drop p with
  | [] => []
  | c :: r => if isLetter c = true ∨ c = 35 then c :: r.takeWhile fun c => isLetter c || isDigit c else []

/-- `MASK_ARGUMENT`, macro/parser.c:32, with the numbers of the macro and the argument: `__ARG_1_2`. -/
def argMask (index arg : Nat) : List Nat := [95, 95, 65, 82, 71, 95] ++ showNat index ++ [95] ++ showNat arg

/-- `MASK_STRING`, macro/parser.c:33: `__STR_1_2`. -/
def strMask (index arg : Nat) : List Nat := [95, 95, 83, 84, 82, 95] ++ showNat index ++ [95] ++ showNat arg

/-- `MASK_TOKEN_PASTE`, macro/parser.c:34: `#__TKP_1_2`. -/
def tkpMask (index arg : Nat) : List Nat := [35, 95, 95, 84, 75, 80, 95] ++ showNat index ++ [95] ++ showNat arg

/-! ## Definitions -/

/-- The loop of `parse_args`, macro/parser.c:1678-1736: the names so far, the significant character and its position. -/
def argsLoop (t : List Nat) : Nat → List (List Nat) → Nat → Nat → Except Err (List (List Nat) × Nat)
  | 0, _, _, _ => .error .expectedBracket
  | fuel + 1, names, c, p =>
    if c = 41 then .ok (names, (scan t p).2)
    else if c = 10 ∨ c = EOFc then .error .expectedBracket
    else if isLetter c = false then .error .expectedName
    else
      let name := nameAt t p
      if name ∈ names then .error .duplicate
      else
        let u := until' t (p + name.length)
        if u.2.1 = 44 then
          let v := until' t (scan t u.2.2).2
          argsLoop t fuel (names ++ [name]) v.2.1 v.2.2
        else if u.2.1 = 41 ∨ u.2.1 = 10 ∨ u.2.1 = EOFc then argsLoop t fuel (names ++ [name]) u.2.1 u.2.2
        else .error .expectedComma

/-- `parse_args`, macro/parser.c:1678-1736, at the position behind the name of the macro: the names of the parameters and the position. -/
def parseArgs (t : List Nat) (p : Nat) : Except Err (List (List Nat) × Nat) :=
  let u := until' t p
  if u.2.1 ≠ 40 ∨ u.2.2 ≠ p then .ok ([], u.2.2)
  else
    let v := until' t (scan t u.2.2).2
    argsLoop t (t.length + 1) [] v.2.1 v.2.2

/-- The number of a parameter: what the storage of the parameters has for its name. -/
def numberOf (params : List (List Nat)) (name : List Nat) : Option Nat := if name ∈ params then some (params.idxOf name) else none

/-- `parse_operator`, macro/parser.c:1748-1800, at the position of the hash: what is printed and the position. -/
def parseOperator (t : List Nat) (index : Nat) (params : List (List Nat)) (space : List Nat) (p : Nat) : Except Err (List Nat × Nat) :=
  let q := (scan t p).2
  let a := scan t q
  if a.1 = 35 then
    let u := until' t a.2
    if u.2.1 = 10 ∨ u.2.1 = EOFc then .error .hashOnEdge
    else
      match numberOf params (nameAt t u.2.2) with
      | none => .error .hashNotFollowed
      | some i => .ok (tkpMask index i, u.2.2 + (nameAt t u.2.2).length)
  else
    let u := until' t (unscan a.1 a.2)
    match numberOf params (nameAt t u.2.2) with
    | some i => .ok (space ++ strMask index i, u.2.2 + (nameAt t u.2.2).length)
    | none => if nameAt t u.2.2 = [101, 118, 97, 108] then .error .eval else .error .hashNotFollowed

/-- What the loop of `parse_content`, macro/parser.c:1813-1871, does to the significant character `c` at the position `q`: what is printed, `space` being the
separator in front of it, and the position. -/
def contentStep (t : List Nat) (index : Nat) (params : List (List Nat)) (space : List Nat) (c q : Nat) : Except Err (List Nat × Nat) :=
  if c = 35 then parseOperator t index params space q
  else if isLetter c = true then
    let name := nameAt t q
    match numberOf params name with
    | some i => .ok (space ++ argMask index i, q + name.length)
    | none => .ok (space ++ name, q + name.length)
  else if c = 39 ∨ c = 34 then
    let s := skipString t c (scan t q).2
    if s.2.1 ≠ c then .error .string else .ok (space ++ c :: putsOf s.1 ++ [c], s.2.2)
  else .ok (space ++ putsOf (putc (scan t q).1), (scan t q).2)

/-- The loop of `parse_content`, macro/parser.c:1813-1871: `p` is `position`, `c` the significant character, `q` its position. -/
def contentLoop (t : List Nat) (index : Nat) (params : List (List Nat)) : Nat → Nat → Nat → Nat → Except Err (List Nat)
  | 0, _, _, _ => .error .eval
  | fuel + 1, p, c, q =>
    if c = 10 ∨ c = EOFc then .ok []
    else
      match contentStep t index params (if q ≠ p then [32] else []) c q with
      | .error e => .error e
      | .ok (o, r) =>
        let u := until' t r
        match contentLoop t index params fuel r u.2.1 u.2.2 with
        | .error e => .error e
        | .ok o' => .ok (o ++ o')

/-- `parse_content`, macro/parser.c:1813-1871. -/
def parseContent (t : List Nat) (index : Nat) (params : List (List Nat)) (p : Nat) : Except Err (List Nat) :=
  let u := until' t p
  contentLoop t index params (t.length + 2) u.2.2 u.2.1 u.2.2

/-- `parse_context`, macro/parser.c:1881-1920, at the position behind the name of the macro with the number `index`: the number of parameters and the
value; in other cases the macro is removed. -/
def parseContext (t : List Nat) (index p : Nat) : Except Err (Nat × List Nat) :=
  match parseArgs t p with
  | .error e => .error e
  | .ok (params, q) =>
    let u := until' t q
    let a := scan t u.2.2
    let b := scan t a.2
    if u.2.1 = 35 ∧ b.1 = 35 then .error .hashOnEdge
    else
      match parseContent t index params (if u.2.1 = 35 then unscan 35 (unscan b.1 b.2) else u.2.2) with
      | .error e => .error e
      | .ok v => .ok (params.length, v)

/-! ## Calls -/

/-- The inner loop of `parse_brackets`, macro/parser.c:636-684: the brackets that are open, whether reading went well, `position`, the significant
character and its position; what is printed, whether reading went well, the character and its position at the end.  `none`: the loop does not end within
`fuel` turns. -/
def argLoop (t : List Nat) : Nat → Nat → Bool → Nat → Nat → Nat → Option (List Nat × Bool × Nat × Nat)
  | 0, _, _, _, _, _ => none
  | fuel + 1, depth, ok, p, c, q =>
    if depth ≠ 0 ∨ (c ≠ 44 ∧ c ≠ 41 ∧ c ≠ EOFc) then
      let space : List Nat := if q ≠ p then [32] else []
      let x := scan t q
      let s : List Nat × Bool × Nat :=
        if c = 39 ∨ c = 34 then
          let s := skipString t c x.2
          (putsOf s.1 ++ [c], decide (s.2.1 = c), s.2.2)
        else ([], true, x.2)
      let depth := if c = 40 then usz (depth + 1) else if c = 41 then usub depth 1 else depth
      let u := lines' t s.2.2
      (argLoop t fuel depth (ok && s.2.1 && decide (u.2.1 ≠ EOFc)) s.2.2 u.2.1 u.2.2).map fun z => (space ++ putsOf (putc x.1) ++ s.1 ++ z.1, z.2)
    else some ([], ok, c, q)

/-- The outer loop of `parse_brackets`, macro/parser.c:636-684, at the position of a bracket or a comma: the arguments as they are read (`none` inside: reading
failed) and the position of the last bracket. -/
def bracketsLoop (t : List Nat) : Nat → Bool → Nat → Option (Option (List (List Nat)) × Nat)
  | 0, _, _ => none
  | fuel + 1, ok, p =>
    let u := lines' t (scan t p).2
    (argLoop t (t.length + 2) 0 ok u.2.2 u.2.1 u.2.2).bind fun a =>
      if a.2.2.1 = 41 ∨ a.2.2.1 = EOFc then some (if a.2.1 = true then some [a.1] else none, a.2.2.2)
      else (bracketsLoop t fuel a.2.1 a.2.2.2).map fun z => (z.1.map (a.1 :: ·), z.2)

/-- The loop of `parse_values`, macro/parser.c:583-623, that makes a string. -/
def quoteLoop : List Nat → List Nat
  | [] => []
  | [c] => if c = 92 then [] else if c = 34 then [92, 34] else [c]
  | c :: d :: r =>
    if c = 92 then
      if d = 34 then 92 :: 92 :: 92 :: 34 :: quoteLoop r else 92 :: d :: quoteLoop r
    else (if c = 34 then [92, 34] else [c]) ++ quoteLoop (d :: r)

/-- What `parse_values`, macro/parser.c:583-623, puts into the storage of the values for the argument `arg`, read as `value`; `expanded` is what
`parser_preprocess` prints for it. -/
def values (index arg : Nat) (value expanded : List Nat) : List (List Nat × List Nat) :=
  [(tkpMask index arg, value), (argMask index arg, expanded), (strMask index arg, 34 :: quoteLoop value ++ [34])]

/-- The storage of the values of all arguments from the argument `arg` on. -/
def valuesFrom (index : Nat) : Nat → List (List Nat × List Nat) → List (List Nat × List Nat)
  | _, [] => []
  | arg, (v, e) :: l => values index arg v e ++ valuesFrom index (arg + 1) l

/-- The loop of `parse_observation`, macro/parser.c:695-733, on the value `v` of the macro: what is printed.  An empty string is not kept in a storage
(strings.c:97-116), so a null pointer is printed for it: `none`. -/
def observeLoop (stg : List (List Nat × List Nat)) (v : List Nat) : Nat → Nat → Option (List Nat)
  | 0, _ => none
  | fuel + 1, p =>
    let u := until' v p
    let front := putsOf u.1
    if u.2.1 = EOFc then some front
    else if u.2.1 = 35 ∨ isLetter u.2.1 = true then
      let name := nameAt v u.2.2
      match stg.lookup name with
      | some [] => none
      | some x => (observeLoop stg v fuel (u.2.2 + name.length)).map fun z => front ++ x ++ z
      | none => (observeLoop stg v fuel (u.2.2 + name.length)).map fun z => front ++ name ++ z
    else if u.2.1 = 39 ∨ u.2.1 = 34 then
      let s := skipString v u.2.1 (scan v u.2.2).2
      (observeLoop stg v fuel s.2.2).map fun z => front ++ u.2.1 :: putsOf s.1 ++ putsOf (putc s.2.1) ++ z
    else (observeLoop stg v fuel (scan v u.2.2).2).map fun z => front ++ putsOf (putc (scan v u.2.2).1) ++ z

/-- `parse_observation`, macro/parser.c:695-733: the text that is given to `parser_preprocess`. -/
def observe (stg : List (List Nat × List Nat)) (v : List Nat) : Option (List Nat) := observeLoop stg v (v.length + 1) 0

/-- `parse_replacement`, macro/parser.c:745-791, of a macro with `expected` parameters, not none of them, and the value `v`, at the position behind its name.
`expand`: what `parser_preprocess` prints for an argument.  The text that is given to `parser_preprocess` or the reason of failure, and the position; `none`: reading
does not end, or a null pointer is printed. -/
def parseReplacement (t : List Nat) (index expected : Nat) (v : List Nat) (expand : List Nat → List Nat) (p : Nat) : Option (Except Err (List Nat) × Nat) :=
  let u := lines' t p
  if u.2.1 ≠ 40 then some (.error .nothing, p)
  else
    (bracketsLoop t (t.length + 2) true u.2.2).bind fun b =>
      let q := (scan t b.2).2
      match b.1 with
      | none => some (.error .unterminated, q)
      | some args =>
        if expected = args.length then (observe (valuesFrom index 0 (args.map fun a => (a, expand a))) v).map fun o => (.ok o, q)
        else some (.error (if args.length < expected then .few else .many), q)

end RuC.Subst
