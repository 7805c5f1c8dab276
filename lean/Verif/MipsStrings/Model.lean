import Verif.MipsText.Model

/-!
# libs/compiler/mipsgen.c: strings and `printf`

A string is cut behind every conversion of `printf`, and a call of `printf` is made of one call per argument.  Strings are lists of bytes without the zero that ends them.  Left out:
the instructions that bring the arguments into registers, and the lines that `strings_declaration` prints behind the strings to start the program (they are in `MipsText`).
-/

namespace RuC.MipsStrings
open LlvmText (codes)
open MipsText (labelText)

/-- A number of type `size_t`. -/
def toSize (n : Nat) : Nat := n % 18446744073709551616

/-- `emit_label_declaration`, mipsgen.c:1222-1226, of a string, with the line that begins its bytes, mipsgen.c:3847-3849 and 3868-3870. -/
def begins (n : Nat) : List Nat := labelText ⟨.string, toSize n⟩ ++ codes ":\n" ++ codes "\t.ascii \""

/-- The loop over the bytes of the string with the number `i` in `strings_declaration`, mipsgen.c:3838-3889, when `k` conversions have been met; `none` when the last byte is `%`:
the zero behind it is printed and the loop goes on behind the string. -/
def bytesText (amount i : Nat) : Nat → List Nat → Option (List Nat)
  | _, [] => some (codes "\\0\"\n")
  | _, [37] => none
  | k, 37 :: c :: r => (bytesText amount i (k + 1) r).map fun t => 37 :: c :: (codes "\\0\"\n" ++ (begins (i + (k + 1) * amount) ++ t))
  | k, c :: r => (bytesText amount i k r).map fun t => (if c = 10 then codes "\\n" else [c]) ++ t

/-- The loop over the strings from the number `i` on in `strings_declaration`, mipsgen.c:3838-3889, and what is printed behind them. -/
def stringsFrom (amount : Nat) : Nat → List (List Nat) → Option (List Nat)
  | _, [] => some (codes "\t.text\n\t.align 2\n\n")
  | i, s :: l => (bytesText amount i 0 s).bind fun t => (stringsFrom amount (i + 1) l).map fun u => begins i ++ (t ++ u)

/-- `strings_declaration`, mipsgen.c:3838-3889, of the strings of a program. -/
def stringsText (l : List (List Nat)) : Option (List Nat) := (stringsFrom l.length 0 l).map fun t => codes "\t.rdata\n\t.align 2\n" ++ t

/-- What the text made by `emit_printf_expression` does: the value of an argument is computed, or `printf` of the library is called with the string under a label and with a value. -/
inductive Ev (α : Type)
  | eval (a : α)
  | call (n : Nat) (a : Option α)

/-- `emit_printf_expression`, mipsgen.c:1944-2136, with the arguments behind the format, of which `k` have been printed; `index` is the number of the format. -/
def printfFrom {α : Type} (index amount : Nat) : Nat → List α → List (Ev α)
  | k, [] => [.call (toSize (index + k * amount)) none]
  | k, a :: r => .eval a :: .call (toSize (index + k * amount)) (some a) :: printfFrom index amount (k + 1) r

end RuC.MipsStrings
