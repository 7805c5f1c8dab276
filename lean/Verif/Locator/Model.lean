import Verif.Io.Model

/-!
# libs/utils/locator.c

Searching for the place of a position of the text in the sources, and printing marks.  The text is the octets of
a buffer without zeros; a position that has been set is restored by every function, so that the functions take
the text and the position and answer the location only.  A location is a correct one (`loc_is_correct`).
What `uni_scanf` with `%c` and `%zu` reads is written over the octets from the position on.
-/

namespace RuC.Locator
open RuC RuC.Utf8 RuC.Io

/-- The fields of `location`, locator.h:29-38, without the input. -/
structure Loc where
  path : Nat
  code : Nat
  line : Nat
  symbol : Nat
  deriving DecidableEq, Repr

/-- `PREFIX`, locator.c:31. -/
def PREFIX : List Nat := [35, 108, 105, 110, 101]

/-- `COMMENT`, locator.c:32. -/
def COMMENT : List Nat := [47, 47]

/-- The loop of `line_to_begin`, locator.c:38-67: the octets from `position - 1` down to the beginning of the line.
Answers `symbol`, `filler` and the position. -/
def back (text : List Nat) : Nat → Nat → Nat → Nat × Nat × Nat
  | 0, symbol, filler => (symbol, filler, 0)
  | position + 1, symbol, filler =>
    let ch := text.getD position 0
    if ch = 10 then (symbol, filler, position + 1)
    else back text position (usz (symbol + usub 2 (symbolSize ch))) (if ch = 32 ∨ ch = 9 then filler + 1 else 1)

/-- `line_to_begin`, locator.c:38-67. -/
def lineToBegin (text : List Nat) (position : Nat) : Nat × Nat × Nat := back text position 1 1

/-- `line_to_end`, locator.c:69-76.  `none`: reading outside of the text. -/
def lineToEnd : Nat → In → Option Nat
  | 0, _ => none
  | fuel + 1, io =>
    match scanChar io with
    | none => none
    | some (c, io) => if c = 10 ∨ c = EOFc then some io.position else lineToEnd fuel io

/-- `uni_scanf(io, "%c", &ch)`: at the end `ch` keeps its value. -/
def octet (ch : Nat) : List Nat → Nat × List Nat
  | [] => (ch, [])
  | b :: s => (b, s)

/-- The loop of `mark_compare`, locator.c:78-92: whether all were equal, the last `ch` and what is left. -/
def compareLoop : List Nat → Nat → List Nat → Bool × Nat × List Nat
  | [], ch, s => (true, ch, s)
  | c :: str, ch, s =>
    let r := octet ch s
    if r.1 ≠ c then (false, r) else compareLoop str r.1 r.2

/-- `mark_compare`, locator.c:78-92. -/
def markCompare (str s : List Nat) : Bool × List Nat :=
  let r := compareLoop str 0 s
  if r.1 = false then (false, r.2.2)
  else
    let q := octet r.2.1 r.2.2
    (decide (q.1 = 32), q.2)

/-- White space for `%zu`. -/
def isSpace (c : Nat) : Bool := c = 32 || (9 ≤ c && c ≤ 13)

/-- The number of decimal digits. -/
def decimal (ds : List Nat) : Nat := ds.foldl (fun n d => 10 * n + (d - 48)) 0

/-- The digits of a number from the front. -/
def digits (s : List Nat) : List Nat := s.takeWhile fun c => 48 ≤ c && c ≤ 57

/-- The number behind an optional sign; a number that does not fit is `SIZE_MAX`. -/
def unsigned (negative : Bool) (s : List Nat) : Option (Nat × List Nat) :=
  if digits s = [] then none
  else
    let n := decimal (digits s)
    some (if n > SIZE_MAX then SIZE_MAX else if negative then usub 0 n else n, s.drop (digits s).length)

/-- `uni_scanf(io, "%zu", ..)`: `none` if there is no number, and nothing is read then. -/
def scanSize (s : List Nat) : Option (Nat × List Nat) :=
  match s.dropWhile isSpace with
  | 45 :: t => unsigned true t
  | 43 :: t => unsigned false t
  | t => unsigned false t

/-- `while (uni_scanf(io, "%c", &ch) == 1 && ch != QUOTE);`, locator.c:94-124. -/
def toQuote : Nat → List Nat → Nat × List Nat
  | ch, [] => (ch, [])
  | _, b :: s => if b = 34 then (34, s) else toQuote b s

/-- A mark that was found. -/
structure Mark where
  line : Nat
  path : Nat
  code : Nat
  deriving DecidableEq, Repr

/-- The end of `mark_recognize`, locator.c:94-124, after the number; `n` is the length of the whole text. -/
def markRest (n line : Nat) (s : List Nat) : Mark :=
  let r := octet 0 s
  if r.1 ≠ 32 then ⟨line, SIZE_MAX, SIZE_MAX⟩
  else
    let q := octet r.1 r.2
    let e := toQuote q.1 q.2
    let g := octet e.1 e.2
    let c := markCompare COMMENT g.2
    ⟨line, n - q.2.length, if g.1 = 32 ∧ c.1 = true then n - c.2.length else SIZE_MAX⟩

/-- `mark_recognize`, locator.c:94-124, on the text from the position on; `line` is what the variable holds before. -/
def markRecognize (n line : Nat) (s : List Nat) : Option Mark :=
  let r := markCompare PREFIX s
  if r.1 = false then none
  else
    match scanSize r.2 with
    | none => some (markRest n line r.2)
    | some (k, t) => some (markRest n k t)

/-- `mark_reverse_recognize`, locator.c:126-148: the mark, the new position and `filler`. -/
def markReverse (text : List Nat) (line position filler : Nat) : Option Mark × Nat × Nat :=
  if position = 0 then (none, 0, filler)
  else
    let r := lineToBegin text (position - 1)
    match markRecognize text.length line (text.drop r.2.2) with
    | none => (none, r.2.2, r.2.1)
    | some m => (some m, r.2.2, filler)

/-- How the main loop of `loc_search_from` ends, locator.c:263-330. -/
inductive Stop
  | start (begin diff : Nat)
  | begin (mark : Mark) (filler : Nat)
  | usual (mark : Mark) (begin diff : Nat)
  | «end» (mark : Mark) (position diff : Nat)
  deriving DecidableEq, Repr

/-- The main loop of `loc_search_from`, locator.c:277-351.  The loop is bounded by `fuel`; running out of it is `none`. -/
def walk (text : List Nat) (known : Nat) : Nat → Nat → Nat → Nat → Nat → Nat → Option Stop
  | 0, _, _, _, _, _ => none
  | fuel + 1, begin, position, diff, filler, line =>
    if begin = 0 ∨ begin = known then some (.start begin diff)
    else
      match markReverse text line position filler with
      | (none, position, filler) => walk text known fuel position position (usz (diff + 1)) filler line
      | (some m, position, filler) =>
        if m.code ≠ SIZE_MAX then some (.begin m filler)
        else if m.path ≠ SIZE_MAX then some (.usual m begin diff)
        else some (.end m position diff)

/-- The loop after the end mark of a macro in `loc_search_from`, locator.c:277-351: what the variables hold behind it. -/
def earlier (text : List Nat) : Nat → Nat → Mark → Option Mark
  | 0, _, _ => none
  | fuel + 1, position, m =>
    match markReverse text m.line position 0 with
    | (some k, _, _) => some k
    | (none, position, _) => if position = 0 then some m else earlier text fuel position m

/-- The end of `loc_search_from`, locator.c:277-351. -/
def finish (text : List Nat) (loc : Loc) (symbol code : Nat) : Stop → Option Loc
  | .start begin diff =>
    some (if begin = 0 then ⟨SIZE_MAX, code, usz (1 + diff), symbol⟩ else ⟨loc.path, code, usz (loc.line + diff), symbol⟩)
  | .begin m filler => some ⟨m.path, m.code, m.line, filler⟩
  | .usual m begin diff =>
    some (if begin = 0 then ⟨SIZE_MAX, code, usz (1 + diff), symbol⟩ else ⟨m.path, code, usz (m.line + diff), symbol⟩)
  | .end m position diff =>
    (earlier text (text.length + 1) position m).map fun k =>
      ⟨k.path, if usz (m.line + diff) = k.line ∧ k.code ≠ SIZE_MAX then k.code else code, usz (m.line + diff), symbol⟩

/-- The check of the next line in `loc_search_from`, locator.c:277-351: the mark that begins a macro, if there is one. -/
def nextMark (text : List Nat) (code : Nat) : Option (Option Mark) :=
  (lineToEnd (text.length + 1) ⟨text, code⟩).map fun next =>
    (markRecognize text.length 1 (text.drop next)).bind fun m => if m.code ≠ SIZE_MAX then some m else none

/-- The variable `line` after the check of the next line. -/
def nextLine (text : List Nat) (code : Nat) : Option Nat :=
  (lineToEnd (text.length + 1) ⟨text, code⟩).map fun next => ((markRecognize text.length 1 (text.drop next)).map Mark.line).getD 1

/-- `loc_search_from`, locator.c:277-351, at the position. -/
def searchFrom (text : List Nat) (position : Nat) (loc : Loc) : Option Loc :=
  let r := lineToBegin text position
  (nextMark text r.2.2).bind fun next =>
    match next with
    | some m => some ⟨m.path, m.code, m.line, r.1⟩
    | none =>
      (nextLine text r.2.2).bind fun line =>
        (walk text loc.code (text.length + 2) r.2.2 r.2.2 0 r.2.1 line).bind (finish text loc r.1 r.2.2)

/-- `loc_search`, locator.c:259-275. -/
def search (text : List Nat) (position : Nat) : Option Loc := searchFrom text position ⟨SIZE_MAX, 0, 1, 1⟩

/-- `loc_line_break`, locator.c:364-376. -/
def lineBreak (position : Nat) (loc : Loc) : Loc := { loc with code := position, line := usz (loc.line + 1), symbol := 1 }

/-- The characters up to the end of the line, as in `loc_get_code_line`, locator.c:395-415, and `loc_update_begin`, locator.c:204-235. -/
def restOfLine : Nat → In → Option (List Nat)
  | 0, _ => none
  | fuel + 1, io =>
    match scanChar io with
    | none => none
    | some (c, io) => if c = 10 ∨ c = EOFc then some [] else (restOfLine fuel io).map (c :: ·)

/-- `loc_get_code_line`, locator.c:395-415, as the characters. -/
def codeLine (text : List Nat) (loc : Loc) : Option (List Nat) := restOfLine (text.length + 1) ⟨text, loc.code⟩

/-- `MAX_PATH`, locator.c:25. -/
def MAX_PATH : Nat := 1024

/-- The loop of `loc_get_path`, locator.c:417-442: the characters written, `size` octets so far.  `none`: no quote (the loop does not
end) or the buffer of `MAX_PATH` octets is overrun, with the terminating zero. -/
def pathLoop : Nat → In → Nat → Option (List Nat)
  | 0, _, _ => none
  | fuel + 1, io, size =>
    match scanChar io with
    | none => none
    | some (c, io) =>
      if c = 34 then some []
      else if size ≥ MAX_PATH then some []
      else if size + (toStr c).length ≥ MAX_PATH then none
      else (pathLoop fuel io (size + (toStr c).length)).map (c :: ·)

/-- `loc_get_path`, locator.c:417-442, as the characters; `own` is the path of the input itself (nothing for a buffer). -/
def getPath (own text : List Nat) (loc : Loc) : Option (List Nat) :=
  if loc.path = SIZE_MAX then some own else pathLoop (text.length + 1) ⟨text, loc.path⟩ 0

/-- The characters that are printed to reach the column, locator.c:183-186: tabs where the code has tabs, else spaces. -/
def fill : Nat → In → Option (List Nat)
  | 0, _ => some []
  | n + 1, io =>
    match scanChar io with
    | none => none
    | some (c, io) => (fill n io).map ((if c = 9 then 9 else 32) :: ·)

/-- The digits of a number in front of `acc`; `fuel` is enough if it is greater than the number. -/
def showLoop : Nat → Nat → List Nat → List Nat
  | 0, _, acc => acc
  | fuel + 1, n, acc => if n < 10 then (48 + n) :: acc else showLoop fuel (n / 10) ((48 + n % 10) :: acc)

/-- What `%zu` prints. -/
def showNat (n : Nat) : List Nat := showLoop (n + 1) n []

/-- `loc_update`, locator.c:182-202: the location and the characters printed; `none` in the middle: -1 is answered. -/
def update (own text : List Nat) (position : Nat) (loc : Loc) : Option (Loc × Option (List Nat)) :=
  (searchFrom text position loc).bind fun loc =>
    (getPath own text loc).bind fun path =>
      if path = [] then some (loc, none)
      else (fill (loc.symbol - 1) ⟨text, loc.code⟩).map fun f =>
        (loc, some (PREFIX ++ [32] ++ showNat loc.line ++ [32, 34] ++ path ++ [34, 10] ++ f))

/-- `loc_update_begin`, locator.c:204-235. -/
def updateBegin (own text : List Nat) (position : Nat) (loc : Loc) : Option (Loc × Option (List Nat)) :=
  (searchFrom text position loc).bind fun loc =>
    (getPath own text loc).bind fun path =>
      if path = [] then some (loc, none)
      else
        (codeLine text loc).bind fun code =>
          (fill (loc.symbol - 1) ⟨text, loc.code⟩).map fun f =>
            (loc, some (PREFIX ++ [32] ++ showNat loc.line ++ [32, 34] ++ path ++ [34, 32] ++ COMMENT ++ [32] ++ code ++ [10] ++ f))

/-- `loc_update_end`, locator.c:237-256. -/
def updateEnd (own text : List Nat) (position : Nat) (loc : Loc) : Option (Loc × Option (List Nat)) :=
  (searchFrom text position loc).bind fun loc =>
    (getPath own text loc).bind fun path =>
      if path = [] then some (loc, none)
      else (fill (loc.symbol - 1) ⟨text, loc.code⟩).map fun f => (loc, some (PREFIX ++ [32] ++ showNat loc.line ++ [10] ++ f))

end RuC.Locator
