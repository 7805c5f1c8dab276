import Verif.Text.Model
import Verif.Locator.Spec

/-!
# What the text between the directives is

A text is made of lines and a line of pieces: blanks, continuations, comments, strings, words, calls of macros and other characters.
What is printed for a text is said piece by piece.
-/

namespace RuC.Text
open RuC RuC.Utf8 RuC.Io RuC.Locator

/-- What separates the words. -/
inductive Gap
  /-- a blank -/
  | blank (c : Nat)
  /-- a backslash at the end of a line -/
  | cont
  /-- a comment up to the end of the line -/
  | line (b : List Nat)
  /-- a comment in `/*` and its end -/
  | block (b : List Nat)
  /-- the end of a line: only between the name of a macro and its brackets and between these, else it ends the list of pieces -/
  | nl
  deriving DecidableEq, Repr

/-- The characters of a gap. -/
def Gap.raw : Gap → List Nat
  | .blank c => [c]
  | .cont => [92, 10]
  | .line b => 47 :: 47 :: b
  | .block b => 47 :: 42 :: b ++ [42, 47]
  | .nl => [10]

/-- The characters of gaps. -/
def gaps (l : List Gap) : List Nat := l.flatMap Gap.raw

/-- A piece of a line. -/
inductive Piece
  | gap (g : Gap)
  /-- a string -/
  | str (q : Nat) (b : List Nat)
  /-- an identifier -/
  | word (w : List Nat)
  /-- any other character -/
  | chr (c : Nat)
  /-- the name of a macro without arguments, with brackets that have nothing between them or without brackets -/
  | call (w : List Nat) (br : Option (List Gap × List Gap))
  deriving DecidableEq, Repr

/-- The characters of brackets behind the name of a macro. -/
def bracketsRaw : Option (List Gap × List Gap) → List Nat
  | none => []
  | some (a, b) => gaps a ++ 40 :: gaps b ++ [41]

/-- The characters of a piece. -/
def Piece.raw : Piece → List Nat
  | .gap g => g.raw
  | .str q b => q :: b ++ [q]
  | .word w => w
  | .chr c => [c]
  | .call w br => w ++ bracketsRaw br

/-- The characters of pieces. -/
def raws (l : List Piece) : List Nat := l.flatMap Piece.raw

/-- Whether a piece is more than a blank or a comment. -/
def Piece.solid : Piece → Bool
  | .gap _ => false
  | _ => true

/-- What a string may have between its quotes: a quote or an end of line only behind a backslash. -/
inductive Quoted (q : Nat) : List Nat → Prop
  | nil : Quoted q []
  | plain {c : Nat} {r : List Nat} : c ≠ q → c ≠ 92 → c ≠ 10 → Quoted q r → Quoted q (c :: r)
  | escaped {c : Nat} {r : List Nat} : Quoted q r → Quoted q (92 :: c :: r)

/-- A character of an identifier. -/
def wordChar (c : Nat) : Bool := isLetter c || isDigit c

/-- When a gap is read as such in front of the characters `r`: a comment goes up to a bare end of line; the end of a comment in brackets is the first one. -/
def Gap.Fits (r : List Nat) : Gap → Prop
  | .blank c => c = 32 ∨ c = 9
  | .cont => True
  | .line b => (r = [] ∨ ∃ v, r = 10 :: v) ∧ (∀ x y, b = x ++ 10 :: y → ∃ z, x = z ++ [92]) ∧ ∀ x, b ≠ x ++ [92]
  | .block b => ∀ x y, b ++ [42] ≠ x ++ 42 :: 47 :: y
  | .nl => True

/-- Gaps that are read as such in front of the characters `r`. -/
def GapsRead : List Gap → List Nat → Prop
  | [], _ => True
  | g :: l, r => g.Fits (gaps l ++ r) ∧ GapsRead l r

/-- An identifier. -/
def Word (w : List Nat) : Prop := (∃ c v, w = c :: v ∧ isLetter c = true) ∧ ∀ c ∈ w, wordChar c = true

/-- When a piece is read as such in front of the characters `r` of the rest of its line. -/
def Piece.Fits (r : List Nat) : Piece → Prop
  | .gap g => g ≠ .nl ∧ g.Fits r
  | .str q b => (q = 34 ∨ q = 39) ∧ Quoted q b
  | .word w => Word w ∧ ∀ c v, r = c :: v → wordChar c = false
  | .chr c => isLetter c = false ∧ c ≠ 10 ∧ c ≠ 32 ∧ c ≠ 9 ∧ c ≠ 34 ∧ c ≠ 39 ∧ c ≠ 35 ∧ (c = 92 → r ≠ [] ∧ ∀ v, r ≠ 10 :: v) ∧
    (c = 47 → ∀ v, r ≠ 47 :: v ∧ r ≠ 42 :: v)
  | .call w none => Word w ∧ ∀ c v, r = c :: v → wordChar c = false
  | .call w (some (a, b)) => Word w ∧ GapsRead a (40 :: gaps b ++ 41 :: r) ∧ GapsRead b (41 :: r)

/-- A line whose pieces are read as such. -/
def Reads : List Piece → Prop
  | [] => True
  | p :: r => p.Fits (raws r) ∧ Reads r

/-- The text of lines of pieces. -/
def textOf : List (List Piece) → List Nat
  | [] => []
  | l :: ls => raws l ++ ls.flatMap fun l => 10 :: raws l

/-- The pieces of lines that are more than gaps. -/
def solids (ls : List (List Piece)) : List Piece := ls.flatten.filter Piece.solid

/-- A call without brackets has no empty brackets behind it, whatever gaps and ends of lines are between. -/
def Bare (ls : List (List Piece)) : Prop :=
  ∀ before l after x y w, ls = before ++ l :: after → l = x ++ .call w none :: y → ∀ m, solids (y :: after) ≠ .chr 40 :: .chr 41 :: m

/-- The characters behind the last end of line. -/
def lastLine (cs : List Nat) : List Nat := (cs.reverse.takeWhile (· ≠ 10)).reverse

/-- A blank in the place of a character. -/
def blankFor (c : Nat) : Nat := if c = 9 then 9 else 32

/-- What is printed for a gap: a comment up to the end of the line is left out, and so is a comment over several lines, but the ends of lines and the
columns are kept. -/
def Gap.shown : Gap → List Nat
  | .line b => b.filter (· = 10)
  | .block b => if 10 ∈ b then b.filter (· = 10) ++ (lastLine b ++ [42, 47]).map blankFor else (Gap.block b).raw
  | g => g.raw

/-- What is printed for a piece that is not a call. -/
def Piece.shown : Piece → List Nat
  | .gap g => g.shown
  | p => p.raw

/-- A line that has nothing in it but blanks and comments. -/
def empty (l : List Piece) : Bool := l.all fun p => !p.solid

/-- What is printed to say the place of a position: in front of lines, in front of a replacement and behind it. -/
structure Marks where
  usual : Nat → List Nat
  before : Nat → List Nat
  behind : Nat → List Nat

/-- What is printed for a line from the position `p` on.  `marked`: replacements are set between marks; `val`: what is printed for a call;
`pending`: a replacement was printed and there was nothing but gaps since. -/
def lineOut (marked : Bool) (mk : Marks) (val : List Nat → List Nat) : Nat → Bool → List Piece → List Nat
  | _, _, [] => []
  | p, pending, .gap g :: l => g.shown ++ lineOut marked mk val (p + g.raw.length) pending l
  | p, pending, .call w br :: l =>
    (if pending = true then 10 :: mk.behind p else []) ++ (if marked = true then 10 :: mk.before p else []) ++ val w ++
      lineOut marked mk val (p + (Piece.call w br).raw.length) marked l
  | p, pending, x :: l => (if pending = true then 10 :: mk.behind p else []) ++ x.raw ++ lineOut marked mk val (p + x.raw.length) false l

/-- Whether a line ends with a replacement and gaps, so that the next line gets a mark. -/
def lineEnd (marked : Bool) : Bool → List Piece → Bool
  | pending, [] => pending
  | pending, .gap _ :: l => lineEnd marked pending l
  | _, .call .. :: l => lineEnd marked marked l
  | _, _ :: l => lineEnd marked false l

/-- What is printed for lines from the position `p` on: `need`: a mark has to be printed in front of the next line that is not empty, and the empty lines in front
of it are left out.  The empty lines at the end are always left out.  The last line of a file is ended. -/
def linesOut (marked : Bool) (mk : Marks) (val : List Nat → List Nat) : Nat → Bool → List (List Piece) → List Nat
  | _, _, [] => []
  | p, need, l :: ls =>
    if (l :: ls).all empty = true then []
    else if need = true ∧ empty l = true then linesOut marked mk val (p + (raws l).length + 1) need ls
    else (if need = true then mk.usual p else []) ++ lineOut marked mk val p false l ++ (if ls ≠ [] ∨ marked = true then [10] else []) ++
      linesOut marked mk val (p + (raws l).length + 1) (lineEnd marked false l) ls

/-- The number of the line a text ends in. -/
def lineNo (cs : List Nat) : Nat := 1 + cs.count 10

/-- The line of a position of a text. -/
def wholeLine (t : List Nat) (p : Nat) : List Nat := lastLine (t.take p) ++ (t.drop p).takeWhile (· ≠ 10)

/-- The marks of the file `own` with the text `t`: the number of the line, the file (and the line of code), blanks up to the column. -/
def marksOf (own t : List Nat) : Marks where
  usual p := (Line.usual (lineNo (t.take p)) own).chars ++ 10 :: (lastLine (t.take p)).map blankFor
  before p := (Line.begin (lineNo (t.take p)) own (wholeLine t p)).chars ++ 10 :: (lastLine (t.take p)).map blankFor
  behind p := (Line.end (lineNo (t.take p))).chars ++ 10 :: (lastLine (t.take p)).map blankFor

/-- No marks: in the text of a macro. -/
def noMarks : Marks where
  usual _ := []
  before _ := []
  behind _ := []

/-- A text that is read in the usual way: no zeros and carriage returns, characters that can be printed, no line that looks like a mark, not huge. -/
structure Plain (t : List Nat) : Prop where
  char : ∀ c ∈ t, c < 0x200000 ∧ c ≠ 0 ∧ c ≠ 13 ∧ Good c
  first : ¬ [35, 108, 105, 110, 101, 32] <+: t
  later : ∀ a b, t = a ++ 10 :: b → ¬ [35, 108, 105, 110, 101, 32] <+: b
  small : (encodeAll t).length < 4611686018427387903

/-- Lines of pieces that are the text `t`, are read as such, and whose words are no macros. -/
structure Written (macros : List Nat → Option Macro) (ls : List (List Piece)) (t : List Nat) : Prop where
  some : ls ≠ []
  text : t = textOf ls
  reads : ∀ l ∈ ls, Reads l
  bare : Bare ls
  words : ∀ l ∈ ls, ∀ w, .word w ∈ l → macros w = none

/-- What is printed for the call of a macro without arguments, when not more than `n` calls are in each other in its text: its text with the
calls in it replaced in the same way, and without marks. -/
inductive Expands (macros : List Nat → Option Macro) : Nat → List Nat → List Nat → Prop
  | leaf {n : Nat} {w v : List Nat} {vs : List (List Piece)} : macros w = some ⟨0, v⟩ → (∀ c ∈ v, c < 0x200000 ∧ c ≠ 0 ∧ c ≠ 13) → Written macros vs v →
    (∀ l ∈ vs, ∀ u br, .call u br ∉ l) → Expands macros n w (linesOut false noMarks (fun _ => []) 0 true vs)
  | node {n : Nat} {w v : List Nat} {vs : List (List Piece)} {val : List Nat → List Nat} : macros w = some ⟨0, v⟩ → (∀ c ∈ v, c < 0x200000 ∧ c ≠ 0 ∧ c ≠ 13) →
    Written macros vs v → (∀ l ∈ vs, ∀ u br, .call u br ∈ l → Expands macros n u (val u)) → Expands macros (n + 1) w (linesOut false noMarks val 0 true vs)

/-! ## Where a piece is printed -/

/-- What is printed for whole lines in front of a line that is not empty; the position behind them, and whether a mark is needed. -/
def linesFront (mk : Marks) (val : List Nat → List Nat) : Nat → Bool → List (List Piece) → List Nat × Nat × Bool
  | p, need, [] => ([], p, need)
  | p, need, l :: ls =>
    if need = true ∧ empty l = true then linesFront mk val (p + (raws l).length + 1) need ls
    else
      let r := linesFront mk val (p + (raws l).length + 1) (lineEnd true false l) ls
      ((if need = true then mk.usual p else []) ++ lineOut true mk val p false l ++ [10] ++ r.1, r.2)

/-- The position of a piece with the lines `bs` and the pieces `a` of its line in front of it. -/
def posOf (bs : List (List Piece)) (a : List Piece) : Nat := (bs.flatMap fun l => raws l ++ [10]).length + (raws a).length

/-- What is printed in front of a piece with the lines `bs` and the pieces `a` of its line in front of it. -/
def front (mk : Marks) (val : List Nat → List Nat) (bs : List (List Piece)) (a : List Piece) : List Nat :=
  let r := linesFront mk val 0 true bs
  r.1 ++ (if r.2.2 = true then mk.usual r.2.1 else []) ++ lineOut true mk val r.2.1 false a ++ (if lineEnd true false a = true then 10 :: mk.behind (posOf bs a) else [])

/-- Characters that make no line of code that begins with `#`. -/
def Clean (cs : List Nat) : Prop := (∀ c ∈ cs, c < 0x200000 ∧ c ≠ 0) ∧ (∀ r, cs ≠ 35 :: r) ∧ ∀ a r, cs ≠ a ++ 10 :: 35 :: r

/-- A path that can be written in a mark. -/
def GoodPath (own : List Nat) : Prop := own ≠ [] ∧ (∀ c ∈ own, Inner c ∧ Good c ∧ c ≠ 34) ∧ (encodeAll own).length < 1024

end RuC.Text
