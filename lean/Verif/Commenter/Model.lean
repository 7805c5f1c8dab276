import Verif.Locator.Model

/-!
# libs/utils/commenter.c

Comments `// # path line` in a text and the search for the nearest one.  A text is the list of its octets without the terminating
zero.  A pointer into a text is the list of the octets from there on.
-/

namespace RuC.Commenter
open RuC RuC.Utf8

/-- `comment`, commenter.h:28-35. -/
structure Cmt where
  path : Option (List Nat)
  line : Nat
  symbol : Nat
  code : Option (List Nat)
  deriving DecidableEq, Repr

/-- `PREFIX`, commenter.c:24. -/
def PREFIX : List Nat := [47, 47, 32, 35]

/-- `SEPARATOR`, commenter.c:25. -/
def SEPARATOR : Nat := 32

/-- The octet at an index, the terminating zero at the end. -/
def atText (text : List Nat) (i : Nat) : Nat := text.getD i 0

/-- `cmt_create`, commenter.c:111-121. -/
def create (path : List Nat) (line : Nat) : Cmt := ⟨some path, line, SIZE_MAX, none⟩

/-- `cmt_create_macro`, commenter.c:123-133. -/
def createMacro (path : List Nat) (line symbol : Nat) : Cmt := ⟨some path, line, symbol, none⟩

/-- `cmt_to_string`, commenter.c:136-150: what is printed; nothing where it answers 0. -/
def toText (cmt : Cmt) : List Nat :=
  match cmt.path with
  | none => []
  | some path =>
    if cmt.symbol ≠ SIZE_MAX then
      PREFIX ++ [SEPARATOR] ++ path ++ [SEPARATOR] ++ Locator.showNat cmt.line ++ [SEPARATOR] ++ Locator.showNat cmt.symbol ++ [10]
    else PREFIX ++ [SEPARATOR] ++ path ++ [SEPARATOR] ++ Locator.showNat cmt.line ++ [10]

/-- The condition of the loops of `cmt_parse`, commenter.c:28-64, and `cmt_get_path`, commenter.c:229-245. -/
def inPath (c : Nat) : Bool := c ≠ 0 && c ≠ 10 && c ≠ SEPARATOR

/-- A decimal digit. -/
def isDecimal (c : Nat) : Bool := 48 ≤ c && c ≤ 57

/-- `sscanf(s, "%zu", &value)` with `value` 0 before: the answer and the value; -1 at the end of the string. -/
def scanZu (s : List Nat) : Int × Nat :=
  match Locator.scanSize s with
  | some (n, _) => (1, n)
  | none => if s.dropWhile Locator.isSpace = [] then (-1, 0) else (0, 0)

/-- The end of `cmt_parse`, commenter.c:28-64: a second number. -/
def parseSymbol (cmt : Cmt) (line : Nat) (s : List Nat) : Cmt :=
  if (scanZu s).1 ≠ 0 then { cmt with line := line, symbol := (scanZu s).2 } else cmt

/-- `cmt_parse`, commenter.c:28-64, behind the path and the separator. -/
def parseLine (cmt : Cmt) (s : List Nat) : Cmt :=
  if (scanZu s).1 = 0 then cmt
  else
    match s.dropWhile isDecimal with
    | [] => { cmt with line := usz (cmt.line + usub (scanZu s).2 2) }
    | c :: t => if c ≠ SEPARATOR then { cmt with line := usz (cmt.line + usub (scanZu s).2 2) } else parseSymbol cmt (scanZu s).2 t

/-- `cmt_parse`, commenter.c:28-64; `path` are the octets from the path on. -/
def parse (cmt : Cmt) (path : List Nat) : Cmt :=
  match path.dropWhile inPath with
  | [] => cmt
  | c :: s => if c ≠ SEPARATOR then cmt else parseLine cmt s

/-- The loop `while (j < size && ..)` of `cmt_reverse`, commenter.c:66-99, over the rest of the prefix from its end.  `none`: an octet in front of the
text is read. -/
def matchLoop (text : List Nat) (i : Nat) : List Nat → Nat → Option Bool
  | [], _ => some true
  | p :: ps, j => if i < j then none else if p = atText text (i - j) then matchLoop text i ps (j + 1) else some false

/-- The loop of `cmt_reverse`, commenter.c:66-99: the count of lines and the index of the path. -/
def reverseLoop (text : List Nat) : Nat → Nat → Option (Nat × Option Nat)
  | 0, line => some (line, none)
  | i + 1, line =>
    if atText text (i + 1) = 10 then reverseLoop text i (usz (line + 1))
    else
      match matchLoop text (i + 1) PREFIX.reverse 0 with
      | none => none
      | some true => some (line, some (i + 1 + 2))
      | some false => reverseLoop text i line

/-- `cmt_reverse`, commenter.c:66-99.  `none` also for a path behind the end of the text. -/
def reverse (cmt : Cmt) (text : List Nat) (position : Nat) : Option Cmt :=
  match reverseLoop text position cmt.line with
  | none => none
  | some (line, none) => some { cmt with line := line }
  | some (line, some p) =>
    if p ≤ text.length then some (parse { cmt with line := line, path := some (text.drop p) } (text.drop p)) else none

/-- The loop of `cmt_search`, commenter.c:153-177: the beginning of the line. -/
def lineStart (text : List Nat) : Nat → Nat
  | 0 => 0
  | i + 1 => if atText text i = 10 then i + 1 else lineStart text i

/-- `cmt_search`, commenter.c:153-177, for a text that is not `NULL`. -/
def search (text : List Nat) (position : Nat) : Option Cmt :=
  if position ≤ text.length then
    reverse ⟨none, 1, position - lineStart text position, some (text.drop (lineStart text position))⟩ text (lineStart text position)
  else none

/-- `cmt_is_correct`, commenter.c:180-183. -/
def isCorrect (cmt : Cmt) : Bool := cmt.path.isSome

/-- `cmt_get_path`, commenter.c:229-245: the octets written; nothing where it answers 0. -/
def getPath (cmt : Cmt) : List Nat :=
  match cmt.path with
  | none => []
  | some path => path.takeWhile inPath

/-- `cmt_get_code_line`, commenter.c:211-227. -/
def getCodeLine (cmt : Cmt) : List Nat :=
  match cmt.code with
  | none => []
  | some code => code.takeWhile fun c => c ≠ 0 && c ≠ 10

/-- `cmt_get_line`, commenter.c:247-250, for a comment that is not `NULL`. -/
def getLine (cmt : Cmt) : Nat := cmt.line

/-- `cmt_get_symbol`, commenter.c:252-255. -/
def getSymbol (cmt : Cmt) : Nat := cmt.symbol

/-- The loop of `cmt_get_tag`, commenter.c:186-209: the column. -/
def columnLoop (code : List Nat) (first : Nat) : Nat → Nat → Nat → Nat
  | 0, _, symbol => symbol
  | fuel + 1, i, symbol =>
    if i < first then columnLoop code first fuel (i + symbolSize (atText code i)) (usub symbol (symbolSize (atText code i) - 1)) else symbol

/-- `cmt_get_tag`, commenter.c:186-209.  `none`: there is no code, or an octet outside of it is read. -/
def getTag (cmt : Cmt) : Option (List Nat) :=
  if getPath cmt = [] then some []
  else
    match cmt.code with
    | none => none
    | some code =>
      match toFirstByte (code ++ [0]) cmt.symbol with
      | none => none
      | some first =>
        some (getPath cmt ++ [58] ++ Locator.showNat cmt.line ++ [58] ++ Locator.showNat (usz (columnLoop code first first 0 first + 1)))

end RuC.Commenter
