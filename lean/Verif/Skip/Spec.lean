import Verif.Skip.Model

/-!
# What error recovery is to skip
-/

namespace RuC.Skip.Spec
open RuC RuC.Lexer

/-- The tokens a set of tokens can name, with their bits. -/
def bits : List (Punct × Nat) := [(.rSquare, 1), (.rParen, 2), (.rBrace, 4), (.colon, 16), (.semicolon, 32)]

/-- The token is one of the requested set. -/
def Requested (tokens : Nat) (t : Tok) : Prop := ∃ q i, (q, 2 ^ i) ∈ bits ∧ t = .punct q ∧ tokens.testBit i = true

/-- The opening token and the token that closes it, with the bit of the latter. -/
inductive Bracket : Punct → Punct → Nat → Prop
  | paren : Bracket .lParen .rParen 2
  | square : Bracket .lSquare .rSquare 1
  | brace : Bracket .lBrace .rBrace 4
  | question : Bracket .question .colon 16

/-- Text without a requested token outside brackets, where no bracket is closed by a requested token and
none stands directly inside one of its own kind: single tokens, and brackets around such text. -/
inductive Free : Nat → List Tok → Prop
  | nil {set} : Free set []
  | single {set t l} : t ≠ .eof → ¬Requested set t → (∀ o c b, Bracket o c b → t ≠ .punct o) → Free set l → Free set (t :: l)
  | group {set o c b body l} : Bracket o c b → ¬Requested set (.punct c) → Free b body → Free set l →
      Free set (.punct o :: body ++ .punct c :: l)

end RuC.Skip.Spec
