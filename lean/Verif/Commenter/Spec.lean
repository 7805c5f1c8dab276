import Verif.Commenter.Model
import Verif.Locator.Spec

/-!
# What a comment says

A text is made of lines.  A comment in it says for the lines behind it which file they are of and which line is the first of them.
-/

namespace RuC.Commenter
open RuC RuC.Utf8 RuC.Io RuC.Locator

/-- A line (of octets) that holds no comment of this kind. -/
def Plain (l : List Nat) : Prop := (∀ b ∈ l, b ≠ 10 ∧ b ≠ 0) ∧ ¬ [47, 47, 32, 35] <:+: l

/-- A path that can be written in a comment. -/
def PathOk (p : List Nat) : Prop := p ≠ [] ∧ ∀ b ∈ p, b ≠ 0 ∧ b ≠ 10 ∧ b ≠ 32

/-- Lines with their ends. -/
def joined (ls : List (List Nat)) : List Nat := ls.flatMap fun l => l ++ [10]

/-- The rest of a text behind a line. -/
def Behind (r : List Nat) : Prop := r = [] ∨ ∃ s, r = 10 :: s

end RuC.Commenter
