import Verif.Storage.Spec

/-!
# What the flags of the macro preprocessor are supposed to do

`-Dname` and `-Dname=value` define a macro, in the order of the command line; a flag without a name or
with a name that is already defined stops the reading with an error; other flags say nothing.
-/

namespace RuC.Flags
open RuC RuC.Utf8 RuC.Storage

/-- A character that may stand in a name. -/
def NameChar (c : Nat) : Prop := isLetter c = true ∨ isDigit c = true

/-- A name that fits the array: a letter, then letters and digits, below 1024 characters. -/
def Name (k : List Nat) : Prop :=
  ∃ c t, k = c :: t ∧ isLetter c = true ∧ (∀ x ∈ t, NameChar x) ∧ k.length < 1024

/-- What a flag says. -/
inductive Setting
  | nothing
  | wrong
  | define (name value : List Nat)
deriving Repr, DecidableEq

/-- The text of a flag, as given by the operating system, and what it says. -/
inductive Means : List Nat → Setting → Prop
  /-- Not a definition. -/
  | other (s : List Nat) (h : ¬ ∃ r, s = 45 :: 68 :: r) : Means (s ++ [0]) .nothing
  /-- `-Dname`. -/
  | plain (k : List Nat) (h : Name k) : Means (45 :: 68 :: (k.flatMap encode ++ [0])) (.define k [])
  /-- `-Dname=value`. -/
  | assign (k v : List Nat) (h : Name k) (hv : 0 ∉ v) :
      Means (45 :: 68 :: (k.flatMap encode ++ 61 :: (v ++ [0]))) (.define k v)
  /-- A name and another character: the value begins there. -/
  | glued (k : List Nat) (c : Nat) (v : List Nat) (h : Name k) (hv : 0 ∉ v) (hc : c ≠ 0 ∧ c ≠ 61 ∧ Good c)
      (hn : ¬ NameChar c) : Means (45 :: 68 :: (k.flatMap encode ++ (encode c ++ v ++ [0]))) (.define k (encode c ++ v))
  /-- `-D` and nothing. -/
  | bare : Means [45, 68, 0] .wrong
  /-- `-D` and a character that does not begin a name. -/
  | bad (c : Nat) (v : List Nat) (hc : c ≠ 0 ∧ Good c) (hn : isLetter c = false) :
      Means (45 :: 68 :: (encode c ++ v ++ [0])) .wrong

/-- The flags of a command line, one by one. -/
inductive AllMean : List (List Nat) → List Setting → Prop
  | nil : AllMean [] []
  | cons {f s fs ss} (h : Means f s) (t : AllMean fs ss) : AllMean (f :: fs) (s :: ss)

/-- The answer and the macros after the flags. -/
def settle (T : Macros) : List Setting → Int × Macros
  | [] => (0, T)
  | .nothing :: r => settle T r
  | .wrong :: _ => (-1, T)
  | .define k v :: r => if T k = none then settle (T.put k (some (0, v))) r else (-1, T)

/-- Room a flag may need. -/
def room : Setting → Nat
  | .define k v => 12 * (k.length + 1) + 4 * v.length + 80
  | _ => 0

end RuC.Flags
