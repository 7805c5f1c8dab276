import Verif.Expr.Model

/-!
# Error recovery of the parser, `skip_until` of libs/compiler/parser.c

The state is the sequence of tokens from the current one on, as in `Verif.Expr.Model`.
-/

namespace RuC.Skip
open RuC RuC.Lexer RuC.Expr

/-- The values of the tokens that make up the sets, token.h:75-122. -/
def TK_R_SQUARE : Nat := 1
def TK_R_PAREN : Nat := 2
def TK_R_BRACE : Nat := 4
def TK_COMMA : Nat := 8
def TK_COLON : Nat := 16
def TK_SEMICOLON : Nat := 32

/-- `has_token_set`, parser.c:194-197. -/
def hasTokenSet (tokens token : Nat) : Bool := (tokens &&& token) != 0

/-- `skip_until`, compiler/parser.c:205-246.  Loop and calls are bounded by `fuel`; running out of it is `none`. -/
def skipLoop : Nat → Nat → List Tok → Option (List Tok)
  | 0, _, _ => none
  | fuel + 1, tokens, s =>
    match cur s with
    | .eof => some s
    | .punct .lParen => (skipLoop fuel TK_R_PAREN s.tail).bind (skipLoop fuel tokens)
    | .punct .lSquare => (skipLoop fuel TK_R_SQUARE s.tail).bind (skipLoop fuel tokens)
    | .punct .lBrace => (skipLoop fuel TK_R_BRACE s.tail).bind (skipLoop fuel tokens)
    | .punct .question => (skipLoop fuel TK_COLON s.tail).bind (skipLoop fuel tokens)
    | .punct .rParen => if hasTokenSet tokens TK_R_PAREN then some s else skipLoop fuel tokens s.tail
    | .punct .rSquare => if hasTokenSet tokens TK_R_SQUARE then some s else skipLoop fuel tokens s.tail
    | .punct .rBrace => if hasTokenSet tokens TK_R_BRACE then some s else skipLoop fuel tokens s.tail
    | .punct .colon => if hasTokenSet tokens TK_COLON then some s else skipLoop fuel tokens s.tail
    | .punct .semicolon => if hasTokenSet tokens TK_SEMICOLON then some s else skipLoop fuel tokens s.tail
    | _ => skipLoop fuel tokens s.tail

/-- `skip_until`, compiler/parser.c:205-246. -/
def skipUntil (tokens : Nat) (s : List Tok) : Option (List Tok) := skipLoop (s.length + 1) tokens s

end RuC.Skip
