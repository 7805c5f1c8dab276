import Verif.Locator.Model
import Verif.Io.Spec

/-!
# libs/macro/parser.c: the text between the directives

Skipping comments, copying strings and usual content, the lines in front of directives and the replacement of macros
without arguments.  The input is the list of its characters and a position is a number of characters; by the properties of
`uni_scan_char` (C21) this is what is read from the octets of the characters.  What the functions do to the output, to the location
and to the list of messages is written as a list of events, in their order; `interp` below carries them out with the functions of
libs/utils/locator.c.  Positions in events are the positions of the input at that time.

Not modelled here: directives (a `#` that is first in a line is the outcome `none`) and macros with arguments (also `none`).
The contents of the storage are a function from names to macros, as they do not change between directives.
-/

namespace RuC.Text
open RuC RuC.Utf8 RuC.Io RuC.Locator

/-- Messages, libs/macro/error.h. -/
inductive Err
  | commentUnterminated
  | stringUnterminated
  | hashStray
  | callDepth
  deriving DecidableEq, Repr

/-- What is done besides reading. -/
inductive Ev
  /-- `uni_print_char` -/
  | put (c : Nat)
  /-- `loc_copy` or `loc_search_from` of the location of the parser -/
  | refresh (p : Nat)
  /-- `loc_line_break` -/
  | newline (p : Nat)
  /-- `loc_update` -/
  | mark (p : Nat)
  /-- `loc_update_begin` -/
  | markBegin (p : Nat)
  /-- `loc_update_end` -/
  | markEnd (p : Nat)
  /-- `parser_error` -/
  | error (e : Err)
  deriving DecidableEq, Repr

/-- `uni_print_char` of what was scanned: the end of the input prints nothing. -/
def putc (c : Nat) : List Ev := if c = EOFc then [] else [.put c]

/-- `uni_scan_char`, uniscanner.c:40-58, over characters. -/
def scan (t : List Nat) (p : Nat) : Nat × Nat :=
  match t[p]? with
  | some c => (c, p + 1)
  | none => (EOFc, p)

/-- `uni_unscan_char`, uniscanner.c:95-98, over characters. -/
def unscan (c p : Nat) : Nat := if c = EOFc then p else p - 1

/-- The loop of `skip_comment`, macro/parser.c:105-123, on what is not read yet; the last character is not read. -/
def commentLoop : Bool → Nat → List Nat → List Ev × Nat
  | _, p, [] => ([], p)
  | was, p, c :: r =>
    if was = false ∧ c = 10 then ([], p)
    else
      let x := commentLoop (c == 92 || (was && c == 13)) (p + 1) r
      ((if c = 10 then [.newline (p + 1), .put c] else []) ++ x.1, x.2)

/-- `skip_comment`, macro/parser.c:105-123. -/
def skipComment (t : List Nat) (p : Nat) : List Ev × Nat := commentLoop false p (t.drop p)

/-- How the first loop of `skip_multi_comment` ends. -/
inductive First
  /-- the comment ended in its first line; the characters of the buffer and the position -/
  | closed (cs : List Nat) (p : Nat)
  /-- `was_star`, `character`, the position and what is not read yet -/
  | broken (star : Bool) (c p : Nat) (r : List Nat)
  deriving DecidableEq, Repr

/-- The first loop of `skip_multi_comment`, macro/parser.c:132-187; `star`: the character before was a star. -/
def firstLoop : Bool → List Nat → Nat → List Nat → First
  | star, _, p, [] => .broken star EOFc p []
  | star, cs, p, c :: r =>
    if star = true ∧ c = 47 then .closed (cs ++ [c]) (p + 1)
    else if c = 13 ∨ c = 10 then .broken star c (p + 1) r
    else firstLoop (c == 42) (cs ++ [c]) (p + 1) r

/-- The second loop of `skip_multi_comment`, macro/parser.c:132-187: the events, `begin` (`none` if the input ended) and the position. -/
def secondLoop : Bool → Nat → Nat → Nat → List Nat → List Ev × Option Nat × Nat
  | star, c, p, b, [] =>
    if star = true ∧ c = 47 then ([], some b, p)
    else ((if c = 10 then [.newline p, .put c] else []) ++ [.error .commentUnterminated], none, p)
  | star, c, p, b, d :: r =>
    if star = true ∧ c = 47 then ([], some b, p)
    else
      let x := secondLoop (c == 42) d (p + 1) (if c = 10 then p else b) r
      ((if c = 10 then [.newline p, .put c] else []) ++ x.1, x.2)

/-- A blank of the width of a character: a tab for a tab, else a space. -/
def blankOf (c : Nat) : Nat := if c = 9 then 9 else 32

/-- `skip_multi_comment`, macro/parser.c:132-187, at the position after `/*`. -/
def skipMulti (t : List Nat) (p : Nat) : List Ev × Nat :=
  match firstLoop false [47, 42] p (t.drop p) with
  | .closed cs q => (.refresh (p - 2) :: cs.map .put, q)
  | .broken star c q r =>
    match secondLoop star c q 0 r with
    | (e, none, q) => (.refresh (p - 2) :: e, q)
    | (e, some b, q) => (.refresh (p - 2) :: e ++ ((t.take q).drop b).map fun c => .put (blankOf c), q)

/-- The loop of `skip_string`, macro/parser.c:199-228: the events, the last character and the position. -/
def stringLoop (quote : Nat) : Bool → Nat → List Nat → List Ev × Nat × Nat
  | _, p, [] => ([.error .stringUnterminated], EOFc, p)
  | was, p, [c] =>
    if was = false ∧ c = quote then ([], c, p + 1)
    else if c = 13 then ([.error .stringUnterminated], EOFc, p + 1)
    else if was = false ∧ c = 10 then ([.newline (p + 1), .error .stringUnterminated], c, p + 1)
    else ((if c = 10 then [.newline (p + 1)] else []) ++ [.put c, .error .stringUnterminated], EOFc, p + 1)
  | was, p, c :: d :: r =>
    if was = false ∧ c = quote then ([], c, p + 1)
    else if c = 13 then
      if was = false ∧ d = 10 then ([.newline (p + 2), .error .stringUnterminated], d, p + 2)
      else
        let x := stringLoop quote (!was && d == 92) (p + 2) r
        ((if d = 10 then [.newline (p + 2)] else []) ++ .put d :: x.1, x.2)
    else if was = false ∧ c = 10 then ([.newline (p + 1), .error .stringUnterminated], c, p + 1)
    else
      let x := stringLoop quote (!was && c == 92) (p + 1) (d :: r)
      ((if c = 10 then [.newline (p + 1)] else []) ++ .put c :: x.1, x.2)

/-- `skip_string`, macro/parser.c:199-228, at the position after the quote. -/
def skipString (t : List Nat) (quote p : Nat) : List Ev × Nat × Nat :=
  let x := stringLoop quote false p (t.drop p)
  (.refresh (p - 1) :: x.1, x.2)

/-- What is left of events when there is no output. -/
def mute : List Ev → List Ev
  | [] => []
  | .put _ :: e => mute e
  | .mark p :: e => .refresh p :: mute e
  | .markBegin p :: e => .refresh p :: mute e
  | .markEnd p :: e => .refresh p :: mute e
  | x :: e => x :: mute e

/-- `skip_until`, macro/parser.c:240-299, with output (`mute` is applied to the events without it): the events, the significant
character and the position.  Every turn of the loop reads a character, so that `fuel` can be the length of the text. -/
def skipUntil (t : List Nat) : Nat → Nat → List Ev × Nat × Nat
  | 0, p => ([], EOFc, p)
  | fuel + 1, p =>
    let x := scan t p
    if x.1 = 47 then
      let y := scan t x.2
      if y.1 = 42 then
        let m := skipMulti t y.2
        let z := skipUntil t fuel m.2
        (m.1 ++ z.1, z.2)
      else if y.1 = 47 then
        let m := skipComment t y.2
        let z := skipUntil t fuel m.2
        (m.1 ++ z.1, z.2)
      else ([], 47, unscan 47 (unscan y.1 y.2))
    else if x.1 = 92 then
      let y := scan t x.2
      let y := if y.1 = 13 then scan t y.2 else y
      if y.1 = 10 then
        let z := skipUntil t fuel y.2
        (.put 92 :: .put 10 :: .newline y.2 :: z.1, z.2)
      else ([], 92, unscan 92 (unscan y.1 y.2))
    else if x.1 = 32 ∨ x.1 = 9 then
      let z := skipUntil t fuel x.2
      (.put x.1 :: z.1, z.2)
    else if x.1 = 13 then
      let y := scan t x.2
      ([], y.1, unscan y.1 y.2)
    else ([], x.1, unscan x.1 x.2)

/-- `skip_until` from a position with enough fuel. -/
def until' (t : List Nat) (p : Nat) : List Ev × Nat × Nat := skipUntil t (t.length + 1 - p) p

/-- `skip_lines`, macro/parser.c:310-321: nothing is printed. -/
def skipLines (t : List Nat) : Nat → Nat → List Ev × Nat × Nat
  | 0, p => ([], EOFc, p)
  | fuel + 1, p =>
    let x := until' t p
    if x.2.1 = 10 then
      let y := scan t x.2.2
      let z := skipLines t fuel y.2
      (mute x.1 ++ .newline y.2 :: z.1, z.2)
    else (mute x.1, x.2)

/-- `skip_lines` from a position with enough fuel. -/
def lines' (t : List Nat) (p : Nat) : List Ev × Nat × Nat := skipLines t (t.length + 1 - p) p

/-- A macro: the number of its arguments and the characters of its value. -/
structure Macro where
  args : Nat
  value : List Nat
  deriving DecidableEq, Repr

/-- The messages among events. -/
def errorsOf : List Ev → List Ev
  | [] => []
  | .error e :: l => .error e :: errorsOf l
  | _ :: l => errorsOf l

/-- What is left of the events of the text of a macro: the location of the text of the macro is forgotten behind it, and marks are not printed, as a
buffer has no path. -/
def inner : List Ev → List Ev
  | [] => []
  | .error e :: l => .error e :: inner l
  | .put c :: l => .put c :: inner l
  | _ :: l => inner l

/-- The look for empty brackets in `parse_replacement`, macro/parser.c:745-791, at `p`: the events and the position behind the brackets; if there are
none, the location and the position are set back, and only the messages are left. -/
def brackets (t : List Nat) (p : Nat) : List Ev × Nat :=
  let x := lines' t p
  let a := scan t x.2.2
  if x.2.1 ≠ 40 ∨ a.1 ≠ 40 then (.refresh p :: errorsOf x.1, p)
  else
    let y := lines' t a.2
    let b := scan t y.2.2
    if y.2.1 ≠ 41 ∨ b.1 ≠ 41 then (.refresh p :: errorsOf (x.1 ++ y.1), p)
    else (.refresh p :: x.1 ++ y.1, b.2)

/-- What is given to the functions of the parser: the text, whether it is a file (else it is the text of a macro), the macros,
and what `parser_preprocess` does to the text of a macro (`none` inside: `MAX_CALL_DEPTH` has been reached). -/
structure Ctx where
  text : List Nat
  file : Bool
  macros : List Nat → Option Macro
  expand : Option (List Nat → Option (List Ev))

/-- The characters of an identifier from a position on, as `storage_search` reads them, storage.c:190-205 and map.c:104-138. -/
def ident (t : List Nat) (p : Nat) : List Nat := (t.drop p).takeWhile fun c => isLetter c || isDigit c

/-- `parse_identifier`, macro/parser.c:800-849, with `parse_replacement`, macro/parser.c:745-791, for macros without arguments: the events, the
position and `is_line_required`. -/
def parseIdentifier (x : Ctx) (p : Nat) (req : Bool) : Option (List Ev × Nat × Bool) :=
  let name := ident x.text p
  let q := p + name.length
  match x.macros name with
  | none => some (name.map .put, q, req)
  | some m =>
    match x.expand with
    | none => some (.error .callDepth :: name.map .put, q, req)
    | some expand =>
      if m.args ≠ 0 then none
      else
        let b := brackets x.text q
        (expand m.value).bind fun e =>
          if x.file = true then
            let u := until' x.text b.2
            let front := .refresh p :: .put 10 :: .markBegin p :: b.1 ++ inner e ++ u.1
            if u.2.1 ≠ 10 ∧ u.2.1 ≠ EOFc then some (front ++ [.put 10, .markEnd u.2.2], u.2.2, false)
            else some (front, u.2.2, true)
          else some (b.1 ++ inner e, b.2, false)

/-- What `parse_until`, macro/parser.c:860-900, does to the significant character `c` at the position `p`: the events, the position and `is_line_required`. -/
def untilStep (x : Ctx) (c p : Nat) (req : Bool) : Option (List Ev × Nat × Bool) :=
  let y := scan x.text p
  if isLetter c = true then parseIdentifier x p req
  else if c = 35 then some (.refresh p :: .error .hashStray :: putc y.1, y.2, req)
  else if c = 39 ∨ c = 34 then
    let s := skipString x.text c y.2
    some (putc y.1 ++ s.1 ++ putc s.2.1, s.2.2, req)
  else some (putc y.1, y.2, req)

/-- The loop of `parse_until`, macro/parser.c:860-900: the events, the last character, the position and `is_line_required`. -/
def untilLoop (x : Ctx) : Nat → Nat → Bool → Option (List Ev × Nat × Nat × Bool)
  | 0, _, _ => none
  | fuel + 1, p, req =>
    let u := until' x.text p
    (untilStep x u.2.1 u.2.2 req).bind fun s =>
      if u.2.1 = 10 ∨ u.2.1 = EOFc then some (u.1 ++ s.1, u.2.1, s.2.1, s.2.2)
      else (untilLoop x fuel s.2.1 s.2.2).map fun z => (u.1 ++ s.1 ++ z.1, z.2)

/-- `parse_until`, macro/parser.c:860-900. -/
def parseUntil (x : Ctx) (p : Nat) (req : Bool) : Option (List Ev × Nat × Nat × Bool) :=
  (untilLoop x (x.text.length + 2) p req).map fun z =>
    if z.2.1 ≠ EOFc then (z.1 ++ [.newline z.2.2.1], z.2)
    else if x.file = true ∧ z.2.2.1 ≠ p then (z.1 ++ [.put 10], z.2)
    else z

/-- The loop of `parse_hash`, macro/parser.c:913-944, with the events so far, whose output is in the buffer: the events, the first
significant character and the position. -/
def hashLoop (x : Ctx) (req : Bool) : Nat → List Ev → Nat → Option (List Ev × Nat × Nat)
  | 0, _, _ => none
  | fuel + 1, e, p =>
    let e := if req = true then mute e ++ [.mark p] else e
    let u := until' x.text p
    if u.2.1 ≠ 10 then some (if u.2.1 = EOFc then mute (e ++ u.1) else e ++ u.1, u.2)
    else
      let y := scan x.text u.2.2
      hashLoop x req fuel (e ++ u.1 ++ putc y.1 ++ [.newline y.2]) y.2

/-- `parse_hash`, macro/parser.c:913-944. -/
def parseHash (x : Ctx) (req : Bool) (p : Nat) : Option (List Ev × Nat × Nat) := hashLoop x req (x.text.length + 2) [] p

/-- `parse_block`, macro/parser.c:2310-2368, with `parse_directive`, macro/parser.c:957-1011, for a text without directives: the events. -/
def blockLoop (x : Ctx) : Nat → Nat → Bool → Option (List Ev)
  | 0, _, _ => none
  | fuel + 1, p, req =>
    (parseHash x req p).bind fun h =>
      if h.2.1 = 35 then none
      else
        (parseUntil x h.2.2 false).bind fun z =>
          if z.2.1 = EOFc then some (h.1 ++ z.1)
          else (blockLoop x fuel z.2.2.1 z.2.2.2).map fun e => h.1 ++ z.1 ++ e

/-- `MAX_CALL_DEPTH`, macro/parser.c:38. -/
def MAX_CALL_DEPTH : Nat := 256

/-- `parser_preprocess`, macro/parser.c:2408-2430, on the text of a macro, where `n` more calls are allowed (`prs->call` is
`MAX_CALL_DEPTH + 1 - n`). -/
def expansion (macros : List Nat → Option Macro) : Nat → List Nat → Option (List Ev)
  | 0, v => blockLoop ⟨v, false, macros, none⟩ (v.length + 2) 0 true
  | n + 1, v => blockLoop ⟨v, false, macros, some (expansion macros n)⟩ (v.length + 2) 0 true

/-- The events of `parser_preprocess`, macro/parser.c:2408-2430, on a file. -/
def events (macros : List Nat → Option Macro) (t : List Nat) : Option (List Ev) :=
  blockLoop ⟨t, true, macros, some (expansion macros MAX_CALL_DEPTH)⟩ (t.length + 2) 0 true

/-- Carrying out events: the path of the file, its characters and the location of the parser give the characters that are printed and the messages.
`none`: reading outside of the text or writing outside of a buffer in libs/utils/locator.c. -/
def interp (own t : List Nat) : List Ev → Loc → Option (List Nat × List Err)
  | [], _ => some ([], [])
  | .put c :: e, loc => (interp own t e loc).map fun x => (c :: x.1, x.2)
  | .error r :: e, loc => (interp own t e loc).map fun x => (x.1, r :: x.2)
  | .newline p :: e, loc => interp own t e (lineBreak (encodeAll (t.take p)).length loc)
  | .refresh p :: e, loc => (searchFrom (encodeAll t) (encodeAll (t.take p)).length loc).bind (interp own t e)
  | .mark p :: e, loc =>
    (update own (encodeAll t) (encodeAll (t.take p)).length loc).bind fun u => (interp own t e u.1).map fun x => (u.2.getD [] ++ x.1, x.2)
  | .markBegin p :: e, loc =>
    (updateBegin own (encodeAll t) (encodeAll (t.take p)).length loc).bind fun u => (interp own t e u.1).map fun x => (u.2.getD [] ++ x.1, x.2)
  | .markEnd p :: e, loc =>
    (updateEnd own (encodeAll t) (encodeAll (t.take p)).length loc).bind fun u => (interp own t e u.1).map fun x => (u.2.getD [] ++ x.1, x.2)

/-- `parser_preprocess`, macro/parser.c:2408-2430, on a file with the path `own` and the characters `t`: what is printed and the messages. -/
def preprocess (own : List Nat) (macros : List Nat → Option Macro) (t : List Nat) : Option (List Nat × List Err) :=
  (search (encodeAll t) 0).bind fun loc => (events macros t).bind fun e => interp own t e loc

end RuC.Text
