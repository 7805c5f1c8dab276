import Verif.MipsStrings.Model
import Verif.LlvmText.Spec

/-!
# Reading strings of assembler text, and what `printf` writes
-/

namespace RuC.MipsStrings
open LlvmText (chars skip number)

/-- Inside of a string: a byte, the letter behind a backslash, or digits behind a backslash (their value, and how many more may follow). -/
inductive St
  | plain
  | esc
  | oct (v left : Nat)

/-- The letters behind a backslash. -/
def escape (c : Nat) : Option Nat :=
  if c = 110 then some 10 else if c = 116 then some 9 else if c = 114 then some 13 else if c = 98 then some 8 else if c = 102 then some 12 else if c = 34 ∨ c = 92 then some c else none

/-- The bytes of a string up to the quote that ends it, and the rest; `none` if the string does not end on its line or has an escape that is not known. -/
def ascii : St → List Nat → Option (List Nat × List Nat)
  | _, [] => none
  | .plain, c :: r =>
    if c = 34 then some ([], r) else if c = 10 then none else if c = 92 then ascii .esc r else (ascii .plain r).map fun x => (c :: x.1, x.2)
  | .esc, c :: r =>
    match escape c with
    | some b => (ascii .plain r).map fun x => (b :: x.1, x.2)
    | none => if 48 ≤ c ∧ c ≤ 55 then ascii (.oct (c - 48) 2) r else none
  | .oct v left, c :: r =>
    if 48 ≤ c ∧ c ≤ 55 ∧ left ≠ 0 then ascii (.oct (8 * v + (c - 48)) (left - 1)) r
    else if c = 34 then some ([v % 256], r) else if c = 10 then none
    else if c = 92 then (ascii .esc r).map fun x => (v % 256 :: x.1, x.2) else (ascii .plain r).map fun x => (v % 256 :: c :: x.1, x.2)

/-- A label with the bytes behind it, and the rest. -/
def readItem (t : List Nat) : Option ((Nat × List Nat) × List Nat) :=
  (skip "STRING" t).bind fun t => (number t).bind fun n => (skip ":\n\t.ascii \"" n.2).bind fun t => (ascii .plain t).bind fun x => (skip "\n" x.2).map fun r => ((n.1, x.1), r)

/-- Labels with their bytes up to the text of the program. -/
def readItems : Nat → List Nat → Option (List (Nat × List Nat))
  | 0, _ => none
  | n + 1, t => if t = chars "\t.text\n\t.align 2\n\n" then some [] else (readItem t).bind fun x => (readItems n x.2).map fun l => x.1 :: l

/-- The strings of a text. -/
def readData (t : List Nat) : Option (List (Nat × List Nat)) := (skip "\t.rdata\n\t.align 2\n" t).bind fun r => readItems r.length r

/-- The string that begins at a label: the bytes from there up to a zero. -/
def stringAt (data : List (Nat × List Nat)) (n : Nat) : Option (List Nat) :=
  match data.dropWhile fun d => decide (d.1 ≠ n) with
  | [] => none
  | d :: r => if 0 ∈ (d :: r).flatMap Prod.snd then some (((d :: r).flatMap Prod.snd).takeWhile fun c => decide (c ≠ 0)) else none

/-- What `printf` writes; `render` writes a value for a letter behind `%`.  `none` when the format wants more arguments than there are or ends behind `%`. -/
def printf {α : Type} (render : Nat → α → List Nat) : List Nat → List α → Option (List Nat)
  | [], _ => some []
  | [37], _ => none
  | 37 :: c :: r, args =>
    if c = 37 then (printf render r args).map fun t => 37 :: t
    else match args with
      | [] => none
      | a :: args => (printf render r args).map fun t => render c a ++ t
  | c :: r, args => (printf render r args).map fun t => c :: t

/-- What a call of `printf` in the source writes: `noise` is what computing an argument writes; the arguments are computed before anything is printed. -/
def meaning {α : Type} (render : Nat → α → List Nat) (noise : α → List Nat) (s : List Nat) (args : List α) : Option (List Nat) :=
  (printf render s args).map fun t => args.flatMap noise ++ t

/-- What the text writes, with the strings in memory. -/
def written {α : Type} (render : Nat → α → List Nat) (noise : α → List Nat) (data : List (Nat × List Nat)) : List (Ev α) → Option (List Nat)
  | [] => some []
  | .eval a :: r => (written render noise data r).map fun t => noise a ++ t
  | .call n a :: r => (stringAt data n).bind fun f => (printf render f a.toList).bind fun x => (written render noise data r).map fun t => x ++ t

/-- Bytes that need no escape: no zero, quote or backslash. -/
def safe (c : Nat) : Bool := c ≠ 0 && c ≠ 34 && c ≠ 92

/-- Strings of such bytes, with a byte of the same line behind every `%`. -/
def printable : List Nat → Bool
  | [] => true
  | [37] => false
  | 37 :: c :: r => safe c && c ≠ 10 && printable r
  | c :: r => safe c && printable r

/-- The number of arguments that a format asks for; nothing if it has `%%`, or a letter of more than one byte behind `%`. -/
def asks : List Nat → Option Nat
  | [] => some 0
  | [37] => none
  | 37 :: c :: r => if c = 37 ∨ 128 ≤ c then none else (asks r).map (· + 1)
  | _ :: r => asks r

end RuC.MipsStrings
