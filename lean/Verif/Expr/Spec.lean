import Verif.Expr.Model

/-!
# The grammar of expressions

Written down as a grammar, with nothing of the parser in it: `G n l ts` says that the tokens `l` form
the nonterminal `n` with the trees `ts` (one tree, except for lists).  Parentheses leave no trace in the
tree.
-/

namespace RuC.Expr.Spec
open RuC RuC.Lexer RuC.Expr

/-- The binary operators of each level of C, from the loosest to the tightest; level 3 is `? :`. -/
def levels : List (List (Punct × Binary)) :=
  [ [(.comma, .comma)],
    [(.equal, .assign), (.starEqual, .mulAssign), (.slashEqual, .divAssign), (.percentEqual, .remAssign),
     (.plusEqual, .addAssign), (.minusEqual, .subAssign), (.lessLessEqual, .shlAssign),
     (.greaterGreaterEqual, .shrAssign), (.ampEqual, .andAssign), (.caretEqual, .xorAssign), (.pipeEqual, .orAssign)],
    [],
    [(.pipePipe, .logOr)],
    [(.ampAmp, .logAnd)],
    [(.pipe, .or)],
    [(.caret, .xor)],
    [(.amp, .and)],
    [(.equalEqual, .eq), (.exclaimEqual, .ne)],
    [(.less, .lt), (.greater, .gt), (.lessEqual, .le), (.greaterEqual, .ge)],
    [(.lessLess, .shl), (.greaterGreater, .shr)],
    [(.plus, .add), (.minus, .sub)],
    [(.star, .mul), (.slash, .div), (.percent, .rem)] ]

/-- The punctuator `q` is the binary operator `op` of level `p`, counted from 1. -/
def IsBinary (p : Nat) (q : Punct) (op : Binary) : Prop := 1 ≤ p ∧ ∃ row, levels[p - 1]? = some row ∧ (q, op) ∈ row

/-- The prefix operators. -/
inductive IsPrefix : Tok → Unary → Prop
  | preInc : IsPrefix (.punct .plusPlus) .preInc
  | preDec : IsPrefix (.punct .minusMinus) .preDec
  | address : IsPrefix (.punct .amp) .address
  | indirection : IsPrefix (.punct .star) .indirection
  | minus : IsPrefix (.punct .minus) .minus
  | not : IsPrefix (.punct .tilde) .not
  | logNot : IsPrefix (.punct .exclaim) .logNot
  | abs : IsPrefix (.keyword (-32766)) .abs
  | upb : IsPrefix (.keyword (-32741)) .upb

/-- One token that is an operand. -/
inductive IsAtom : Tok → Exp → Prop
  | ident (name : List Nat) : IsAtom (.ident name) (.ident name)
  | int (value : Nat) : IsAtom (.int value) (.int value)
  | float : IsAtom .float .float
  | char (value : Nat) : IsAtom (.char value) (.char value)
  | string (value : List Nat) : IsAtom (.string value) (.string value)
  | null : IsAtom (.keyword (-32747)) .null
  | true : IsAtom (.keyword (-32743)) (.bool true)
  | false : IsAtom (.keyword (-32754)) (.bool false)

/-- The nonterminals.  `level braces p`: an expression whose operators outside brackets are of level `p`
or tighter; `braces` says whether its first operand may be a list in braces. -/
inductive Nt
  | primary
  | postfix
  | unary
  | level (braces : Bool) (p : Nat)
  | initializer
  | initializerList
  deriving DecidableEq

/-- The grammar. -/
inductive G : Nt → List Tok → List Exp → Prop
  -- primary
  | atom {t e} : IsAtom t e → G .primary [t] [e]
  | paren {l e} : G (.level false 1) l [e] → G .primary (.punct .lParen :: l ++ [.punct .rParen]) [e]
  -- postfix
  | ofPrimary {l e} : G .primary l [e] → G .postfix l [e]
  | subscript {l₁ l₂ a i} : G .postfix l₁ [a] → G (.level false 1) l₂ [i] →
      G .postfix (l₁ ++ .punct .lSquare :: l₂ ++ [.punct .rSquare]) [.subscript a i]
  | callNone {l f} : G .postfix l [f] → G .postfix (l ++ [.punct .lParen, .punct .rParen]) [.call f []]
  | call {l₁ l₂ f es} : G .postfix l₁ [f] → G .initializerList l₂ es →
      G .postfix (l₁ ++ .punct .lParen :: l₂ ++ [.punct .rParen]) [.call f es]
  | period {l e n} : G .postfix l [e] → G .postfix (l ++ [.punct .period, .ident n]) [.member e n false]
  | arrow {l e n} : G .postfix l [e] → G .postfix (l ++ [.punct .arrow, .ident n]) [.member e n true]
  | postInc {l e} : G .postfix l [e] → G .postfix (l ++ [.punct .plusPlus]) [.unary .postInc e]
  | postDec {l e} : G .postfix l [e] → G .postfix (l ++ [.punct .minusMinus]) [.unary .postDec e]
  -- unary
  | ofPostfix {l e} : G .postfix l [e] → G .unary l [e]
  | prefixed {t l op e} : IsPrefix t op → G .unary l [e] → G .unary (t :: l) [.unary op e]
  -- operands of the tightest level
  | operand {b l e} : G .unary l [e] → G (.level b 14) l [e]
  | braces {l es} : G .initializerList l es →
      G (.level true 14) (.punct .lBrace :: l ++ [.punct .rBrace]) [.init es]
  -- a tighter expression
  | tighter {b p l e} : 1 ≤ p → p < 14 → G (.level b (p + 1)) l [e] → G (.level b p) l [e]
  -- left-associative levels
  | left {b p q op l₁ l₂ x y} : IsBinary p q op → p ≠ 2 → G (.level b p) l₁ [x] → G (.level true (p + 1)) l₂ [y] →
      G (.level b p) (l₁ ++ .punct q :: l₂) [.binary op x y]
  -- right-associative levels
  | assign {b q op l₁ l₂ x y} : IsBinary 2 q op → G (.level b 3) l₁ [x] → G (.level true 2) l₂ [y] →
      G (.level b 2) (l₁ ++ .punct q :: l₂) [.binary op x y]
  | ternary {b l₁ l₂ l₃ x y z} : G (.level b 4) l₁ [x] → G .initializer l₂ [y] → G (.level true 3) l₃ [z] →
      G (.level b 3) (l₁ ++ .punct .question :: l₂ ++ .punct .colon :: l₃) [.ternary x y z]
  -- initializers
  | initBraces {l es} : G .initializerList l es →
      G .initializer (.punct .lBrace :: l ++ [.punct .rBrace]) [.init es]
  | initExpr {l e} : G (.level false 2) l [e] → G .initializer l [e]
  | one {l e} : G .initializer l [e] → G .initializerList l [e]
  | more {l₁ l₂ e es} : G .initializer l₁ [e] → G .initializerList l₂ es →
      G .initializerList (l₁ ++ .punct .comma :: l₂) (e :: es)

/-- The tokens that go on an operand. -/
def IsPostfixStart (t : Tok) : Prop :=
  t = .punct .lSquare ∨ t = .punct .lParen ∨ t = .punct .period ∨ t = .punct .arrow ∨ t = .punct .plusPlus ∨ t = .punct .minusMinus

/-- What stands behind an operand is not a postfix of it. -/
def NoPostfix (rest : List Tok) : Prop := ∀ t ∈ rest.head?, ¬IsPostfixStart t

/-- What stands behind an expression is not an operator of level `p` or tighter. -/
def NoOperator (p : Nat) (rest : List Tok) : Prop :=
  ∀ t ∈ rest.head?, (∀ k q op, IsBinary k q op → t = .punct q → k < p) ∧ (t = .punct .question → 3 < p)

/-- A tree over names and binary operators, given by what may stand below what: `Plain k l e` says that
`e` has the tokens `l` from left to right and an operator of level `k` at the top (14: a single name), and
that below an operator of level `p` there stand only tighter ones, except that operators of the same level
may stand on its left, or on its right when they are assignments. -/
inductive Plain : Nat → List Tok → Exp → Prop
  | name (n : List Nat) : Plain 14 [.ident n] (.ident n)
  | node {p q op i j l r x y} : IsBinary p q op → Plain i l x → Plain j r y →
      (p < i ∨ (p = i ∧ p ≠ 2)) → (p < j ∨ (p = j ∧ p = 2)) → Plain p (l ++ .punct q :: r) (.binary op x y)

/-- The tokens of a sequence of names and operators. -/
def sequence (first : List Nat) : List (Punct × List Nat) → List Tok
  | [] => [.ident first]
  | (q, n) :: more => .ident first :: .punct q :: sequence n more

end RuC.Expr.Spec
