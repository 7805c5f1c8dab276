import Verif.Locator.Model
import Verif.Io.Spec

/-!
# Where the place of a position in the sources is

A text is made of lines: lines of code and marks.  The place of a position is said over these lines.
-/

namespace RuC.Locator
open RuC RuC.Utf8 RuC.Io

/-- A line of a text: code, the mark `#line n "p"`, the mark `#line n "p" // cs` in front of a replacement, the
mark `#line n` behind it. -/
inductive Line
  | code (cs : List Nat)
  | usual (n : Nat) (p : List Nat)
  | begin (n : Nat) (p cs : List Nat)
  | «end» (n : Nat)
  deriving DecidableEq, Repr

/-- The decimal digits of a number (`fuel` is enough if it is not less than the number). -/
def digitsOf : Nat → Nat → List Nat
  | 0, n => [48 + n % 10]
  | fuel + 1, n => if n < 10 then [48 + n] else digitsOf fuel (n / 10) ++ [48 + n % 10]

/-- The characters of a line, without the end of the line. -/
def Line.chars : Line → List Nat
  | .code cs => cs
  | .usual n p => [35, 108, 105, 110, 101, 32] ++ digitsOf n n ++ [32, 34] ++ p ++ [34]
  | .begin n p cs => [35, 108, 105, 110, 101, 32] ++ digitsOf n n ++ [32, 34] ++ p ++ [34, 32, 47, 47, 32] ++ cs
  | .end n => [35, 108, 105, 110, 101, 32] ++ digitsOf n n

/-- Lines in front of a position. -/
def body (ls : List Line) : List Nat := ls.flatMap fun l => l.chars ++ [10]

/-- Lines behind a line. -/
def tail (ls : List Line) : List Nat := ls.flatMap fun l => 10 :: l.chars

/-- A character that does not end a line. -/
def Inner (c : Nat) : Prop := c < 0x200000 ∧ c ≠ 0 ∧ c ≠ 10

instance (c : Nat) : Decidable (Inner c) := by unfold Inner; infer_instance

/-- A line of code is not a mark; a path has no quote in it and fits the buffers; the numbers are not huge. -/
def Line.Valid : Line → Prop
  | .code cs => (∀ c ∈ cs, Inner c) ∧ ¬ [35, 108, 105, 110, 101, 32] <+: cs
  | .usual n p => n < 4611686018427387904 ∧ (∀ c ∈ p, Inner c ∧ Good c ∧ c ≠ 34) ∧ (encodeAll p).length < 1024
  | .begin n p cs => n < 4611686018427387904 ∧ (∀ c ∈ p, Inner c ∧ Good c ∧ c ≠ 34) ∧ (encodeAll p).length < 1024 ∧ ∀ c ∈ cs, Inner c
  | .end n => n < 4611686018427387904

/-- How many blanks are in front. -/
def blanks (cs : List Nat) : Nat := (cs.takeWhile fun c => c = 32 || c = 9).length

/-- A place: the line, the file (`none`: the text itself), the column and the text of the line. -/
structure Where where
  line : Nat
  path : Option (List Nat)
  symbol : Nat
  code : List Nat
  deriving DecidableEq, Repr

/-- The replacement whose mark is the nearest one, among the lines in front, the nearest first. -/
def opened : List Line → Option (Nat × List Nat × List Nat)
  | .begin n p cs :: _ => some (n, p, cs)
  | .code _ :: ls => opened ls
  | _ => none

/-- The place behind `diff` lines of code, with the lines in front, the nearest first; `here` is the column and
the text of the line itself, `first` the text of the nearest of the lines. -/
def place (symbol : Nat) (code : List Nat) : List Line → Nat → List Nat → Where
  | [], diff, _ => ⟨1 + diff, none, symbol, code⟩
  | .code cs :: ls, diff, _ => place symbol code ls (diff + 1) cs
  | .usual n p :: _, diff, _ => ⟨n + diff, some p, symbol, code⟩
  | .begin n p cs :: _, _, first => ⟨n, some p, 1 + blanks first, cs⟩
  | .end n :: ls, diff, _ =>
    match opened ls with
    | none => ⟨n + diff, none, symbol, code⟩
    | some (m, p, cs) => ⟨n + diff, some p, symbol, if n + diff = m then cs else code⟩

/-- The place of a position in a line of code: `before` are the lines in front, `col` is what is in front in the line,
`more` what is behind in the line, `after` are the lines behind. -/
def whereIs (before : List Line) (col more : List Nat) (after : List Line) : Where :=
  match after with
  | .begin n p cs :: _ => ⟨n, some p, 1 + col.length, cs⟩
  | _ => place (1 + col.length) (col ++ more) before.reverse 0 col

/-- Each mark behind a replacement has the mark in front of it as the nearest one before it, and does not count back. -/
def Paired (before : List Line) : Prop :=
  ∀ ls n rs, before = ls ++ .end n :: rs → ∃ m p cs, opened ls.reverse = some (m, p, cs) ∧ m ≤ n

/-- The characters of a text of lines. -/
def render : List Line → List Nat
  | [] => []
  | l :: ls => l.chars ++ tail ls

/-- A text of valid lines that is not huge. -/
structure Source (ls : List Line) : Prop where
  valid : ∀ l ∈ ls, l.Valid
  paired : Paired ls
  small : (encodeAll (render ls)).length < 4611686018427387904

/-- A location says a place. -/
def Says (own text : List Nat) (loc : Loc) (w : Where) : Prop :=
  loc.line = w.line ∧ loc.symbol = w.symbol ∧ getPath own text loc = some (w.path.getD own) ∧ codeLine text loc = some w.code

/-- The locations that come out of a search and of going on from there, for a position of the text. -/
inductive Reach (ls : List Line) : Loc → List Line → List Nat → List Nat → List Line → Prop
  | search {before after : List Line} {col more : List Nat} {loc : Loc} (at_ : ls = before ++ .code (col ++ more) :: after)
      (step : search (encodeAll (render ls)) (encodeAll (body before ++ col)).length = some loc) : Reach ls loc before col more after
  | again {before after before' after' : List Line} {col more col' more' : List Nat} {loc loc' : Loc} (from_ : Reach ls loc before col more after)
      (at_ : ls = before' ++ .code (col' ++ more') :: after')
      (step : searchFrom (encodeAll (render ls)) (encodeAll (body before' ++ col')).length loc = some loc') : Reach ls loc' before' col' more' after'
  | newline {before after : List Line} {col more cs : List Nat} {loc : Loc} (plain : ∀ l ∈ ls, ∃ cs, l = .code cs)
      (from_ : Reach ls loc before col more (.code cs :: after)) :
      Reach ls (lineBreak (encodeAll (body before ++ col ++ more ++ [10])).length loc) (before ++ [.code (col ++ more)]) [] cs after

/-- What is printed in front of the code to keep the column. -/
def pad (w : Where) : List Nat := (w.code.take (w.symbol - 1)).map fun c => if c = 9 then 9 else 32

/-- The file of a place. -/
def fileOf (own : List Nat) (w : Where) : List Nat := w.path.getD own

end RuC.Locator
