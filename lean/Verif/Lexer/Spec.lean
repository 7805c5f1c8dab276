import Verif.Lexer.Model

/-!
# What lexing is supposed to do
-/

namespace RuC.Lexer
open RuC RuC.Utf8

/-! ## Punctuators -/

/-- The punctuators of the language with their spellings. -/
def spellings : List (String × Punct) := [
  ("[", .lSquare), ("]", .rSquare), ("(", .lParen), (")", .rParen), ("{", .lBrace), ("}", .rBrace),
  (",", .comma), (":", .colon), (";", .semicolon), ("?", .question), ("~", .tilde), (".", .period),
  ("+", .plus), ("-", .minus), ("*", .star), ("/", .slash), ("%", .percent), ("!", .exclaim),
  ("^", .caret), ("|", .pipe), ("&", .amp), ("=", .equal), ("<", .less), (">", .greater),
  ("->", .arrow), ("+=", .plusEqual), ("++", .plusPlus), ("-=", .minusEqual), ("--", .minusMinus),
  ("*=", .starEqual), ("/=", .slashEqual), ("%=", .percentEqual), ("!=", .exclaimEqual),
  ("^=", .caretEqual), ("|=", .pipeEqual), ("||", .pipePipe), ("&=", .ampEqual), ("&&", .ampAmp),
  ("==", .equalEqual), ("<=", .lessEqual), ("<<", .lessLess), (">=", .greaterEqual),
  (">>", .greaterGreater), ("<<=", .lessLessEqual), (">>=", .greaterGreaterEqual)]

/-- The code points of a string. -/
def codes (s : String) : List Nat := s.toList.map Char.toNat

/-- The longest punctuator at the start of a text: its kind and what follows it. -/
def LongestPunct (s : List Nat) (k : Punct) (rest : List Nat) : Prop :=
  ∃ p, (p, k) ∈ spellings ∧ s = codes p ++ rest ∧
    ∀ e ∈ spellings, codes e.1 <+: s → (codes e.1).length ≤ (codes p).length

/-- A comment starts here. -/
def StartsComment (s : List Nat) : Prop := codes "//" <+: s ∨ codes "/*" <+: s

/-- A period followed by a decimal digit. -/
def StartsFraction (s : List Nat) : Prop := ∃ d, 48 ≤ d ∧ d ≤ 57 ∧ [46, d] <+: s

/-! ## Blank space and comments -/

/-- Blank characters. -/
def Blank (c : Nat) : Prop := c ∈ codes " \t\r\n"

instance (c : Nat) : Decidable (Blank c) := by unfold Blank; infer_instance

/-- How many asterisks a text ends with. -/
def endStars (s : List Nat) : Nat := (s.reverse.takeWhile (· = 42)).length

/-! ## Numbers -/

/-- The value of a digit of a base up to sixteen. -/
def digitValue (c : Nat) : Option Nat :=
  ((codes "0123456789abcdef").zip (List.range 16) ++ (codes "ABCDEF").zip [10, 11, 12, 13, 14, 15]).lookup c

/-- The value of a sequence of digits of a base, if all of them are. -/
def numeral (base : Nat) (ds : List Nat) : Option Nat :=
  ds.foldl (fun v c => do
    let v ← v
    let d ← digitValue c
    if d < base then some (v * base + d) else none) (some 0)

/-- What may follow a number: the end, or a character that is no letter, digit or period. -/
def Follows (rest : List Nat) : Prop :=
  ∀ c, rest.head? = some c → isLetter c = false ∧ isDigit c = false ∧ c ≠ 46

/-- The prefixes that choose a base. -/
def basePrefixes : List (String × Nat) :=
  [("0x", 16), ("0X", 16), ("0o", 8), ("0O", 8), ("0b", 2), ("0B", 2), ("0d", 10), ("0D", 10)]

/-! ## Character and string literals -/

/-- The escape sequences and their meanings. -/
def escapes : List (String × Nat) :=
  [("\\n", 10), ("\\н", 10), ("\\t", 9), ("\\т", 9), ("\\0", 0), ("\\\\", 92), ("\\'", 39), ("\\\"", 34)]

/-- How an element of a string literal is written. -/
inductive Elem : List Nat → Nat → Prop
  | plain (c) (h : c ∉ codes "\"\\\n") : Elem [c] c
  | escape (e) (h : e ∈ escapes) : Elem (codes e.1) e.2

/-- How the inside of a string literal is written. -/
inductive Body : List Nat → List Nat → Prop
  | nil : Body [] []
  | cons {t c ts cs} (h : Elem t c) (h' : Body ts cs) : Body (t ++ ts) (c :: cs)

/-- Adjacent string literals with blanks after each. -/
inductive Literals : List Nat → List Nat → Prop
  | one {t cs ws} (h : Body t cs) (hw : ∀ c ∈ ws, Blank c) : Literals (34 :: t ++ 34 :: ws) cs
  | more {t cs ws ts ds} (h : Body t cs) (hw : ∀ c ∈ ws, Blank c) (h' : Literals ts ds) :
      Literals (34 :: t ++ 34 :: ws ++ ts) (cs ++ ds)

/-! ## Whole texts -/

/-- Lexing a text until the end of file. -/
inductive Lexes (refs : List Nat → Int) : List Nat → List Tok → Prop
  | eof {s es} (h : lex refs s = .tok .eof es []) : Lexes refs s []
  | tok {s t es r ts} (h : lex refs s = .tok t es r) (ht : t ≠ .eof) (h' : Lexes refs r ts) :
      Lexes refs s (t :: ts)

/-- A text that ends with a line end not preceded by a backslash, or is empty. -/
def EndsLine (s : List Nat) : Prop := s = [] ∨ s = [10] ∨ ∃ p x, s = p ++ [x, 10] ∧ x ≠ 92

/-- No more than eighteen decimal digits in a row. -/
def ShortNumbers (s : List Nat) : Prop := ∀ ds, ds <:+: s → (∀ c ∈ ds, isDigit c = true) → ds.length ≤ 18

end RuC.Lexer
