import Verif.Lexer.Model

/-!
# Parsing of expressions, libs/compiler/parser.c

The parser works on the sequence of tokens from the current one on; at the end of the sequence the
current token is `TK_EOF` for ever (C23, C24 and C25 say what the lexer gives).

Simplifications.  Locations are left out.  The tree is made of what the `build_*` functions are called
with; their type checks and the constant folding are not part of it (they never look at tokens, so they
do not influence parsing).  A call that reports a syntax error ends in `error`: what the parser reads
after the first syntax error is not modelled here.  The calls are bounded by `fuel`; running out of it
is `loop`.
-/

namespace RuC.Expr
open RuC RuC.Lexer

/-- `unary_t`, operations.h:29-49. -/
inductive Unary
  | postInc | postDec | preInc | preDec | address | indirection | minus | not | logNot | abs | upb
  deriving DecidableEq, Repr

/-- `binary_t`, operations.h:52-96. -/
inductive Binary
  | mul | div | rem | add | sub | shl | shr | lt | gt | le | ge | eq | ne | and | xor | or | logAnd | logOr
  | assign | mulAssign | divAssign | remAssign | addAssign | subAssign | shlAssign | shrAssign | andAssign
  | xorAssign | orAssign | comma
  deriving DecidableEq, Repr

/-- An expression as built. -/
inductive Exp
  | ident (name : List Nat)
  | int (value : Nat)
  | float
  | char (value : Nat)
  | string (value : List Nat)
  | null
  | bool (value : Bool)
  | subscript (base index : Exp)
  | call (callee : Exp) (args : List Exp)
  | member (base : Exp) (name : List Nat) (isArrow : Bool)
  | unary (op : Unary) (operand : Exp)
  | binary (op : Binary) (lhs rhs : Exp)
  | ternary (cond lhs rhs : Exp)
  | init (inits : List Exp)

/-- `TK_NULL`, `TK_TRUE`, `TK_FALSE`, `TK_ABS` and `TK_UPB`, token.h:32-73. -/
def TK_NULL : Int := -32747
def TK_TRUE : Int := -32743
def TK_FALSE : Int := -32754
def TK_ABS : Int := -32766
def TK_UPB : Int := -32741

/-- The cases of `parse_unary_expression`, parser.c:531-555, with `token_to_unary`, operations.c:21-39. -/
def prefixOp : Tok → Option Unary
  | .punct .plusPlus => some .preInc
  | .punct .minusMinus => some .preDec
  | .punct .amp => some .address
  | .punct .star => some .indirection
  | .punct .minus => some .minus
  | .punct .tilde => some .not
  | .punct .exclaim => some .logNot
  | .keyword k => if k = TK_ABS then some .abs else if k = TK_UPB then some .upb else none
  | _ => none

/-- `token_to_binary`, operations.c:41-80.  Other tokens are never asked for. -/
def toBinary : Tok → Binary
  | .punct .plus => .add
  | .punct .minus => .sub
  | .punct .star => .mul
  | .punct .slash => .div
  | .punct .percent => .rem
  | .punct .caret => .xor
  | .punct .pipe => .or
  | .punct .amp => .and
  | .punct .equal => .assign
  | .punct .less => .lt
  | .punct .greater => .gt
  | .punct .plusEqual => .addAssign
  | .punct .minusEqual => .subAssign
  | .punct .starEqual => .mulAssign
  | .punct .slashEqual => .divAssign
  | .punct .percentEqual => .remAssign
  | .punct .exclaimEqual => .ne
  | .punct .caretEqual => .xorAssign
  | .punct .pipeEqual => .orAssign
  | .punct .pipePipe => .logOr
  | .punct .ampEqual => .andAssign
  | .punct .ampAmp => .logAnd
  | .punct .equalEqual => .eq
  | .punct .lessEqual => .le
  | .punct .lessLess => .shl
  | .punct .greaterEqual => .ge
  | .punct .greaterGreater => .shr
  | .punct .lessLessEqual => .shlAssign
  | .punct .greaterGreaterEqual => .shrAssign
  | .punct .comma => .comma
  | _ => .mul

/-- `get_operator_precedence`, operations.c:82-146, in the numbers of `precedence_t`, operations.h:99-115. -/
def prec : Tok → Nat
  | .punct .comma => 1
  | .punct .equal | .punct .starEqual | .punct .slashEqual | .punct .percentEqual | .punct .plusEqual
  | .punct .minusEqual | .punct .lessLessEqual | .punct .greaterGreaterEqual | .punct .ampEqual
  | .punct .caretEqual | .punct .pipeEqual => 2
  | .punct .question => 3
  | .punct .pipePipe => 4
  | .punct .ampAmp => 5
  | .punct .pipe => 6
  | .punct .caret => 7
  | .punct .amp => 8
  | .punct .equalEqual | .punct .exclaimEqual => 9
  | .punct .greaterEqual | .punct .lessEqual | .punct .greater | .punct .less => 10
  | .punct .lessLess | .punct .greaterGreater => 11
  | .punct .plus | .punct .minus => 12
  | .punct .star | .punct .slash | .punct .percent => 13
  | _ => 0

/-- The current token. -/
def cur (s : List Tok) : Tok := s.headD .eof

/-- What a call of a parsing function does. -/
inductive Res (α : Type)
  | ok (result : α) (rest : List Tok)
  | error
  | loop

/-- Going on after a call. -/
def Res.bind {α β : Type} : Res α → (α → List Tok → Res β) → Res β
  | .ok a s, f => f a s
  | .error, _ => .error
  | .loop, _ => .loop

/-- The right operand in `parse_RHS_of_binary_expression`, compiler/parser.c:566-614, for an operator of
level `k`; the functions it calls are arguments. -/
def operand (initializer unary : List Tok → Res Exp) (rhs : Exp → Nat → List Tok → Res Exp) (k : Nat) (s : List Tok) : Res Exp :=
  (if cur s = .punct .lBrace then initializer s else unary s).bind fun r s =>
    if k < prec (cur s) ∨ (k = prec (cur s) ∧ (k = 3 ∨ k = 2)) then rhs r (if k = 3 ∨ k = 2 then k else k + 1) s
    else .ok r s

mutual

/-- `parse_primary_expression`, parser.c:301-372. -/
def primary : Nat → List Tok → Res Exp
  | 0, _ => .loop
  | fuel + 1, s =>
    match cur s with
    | .ident name => .ok (.ident name) s.tail
    | .char value => .ok (.char value) s.tail
    | .int value => .ok (.int value) s.tail
    | .float => .ok .float s.tail
    | .string value => .ok (.string value) s.tail
    | .keyword k =>
      if k = TK_NULL then .ok .null s.tail
      else if k = TK_TRUE then .ok (.bool true) s.tail
      else if k = TK_FALSE then .ok (.bool false) s.tail
      else .error
    | .punct .lParen =>
      (expression fuel s.tail).bind fun e s => if cur s = .punct .rParen then .ok e s.tail else .error
    | _ => .error

/-- `parse_initializer_list`, parser.c:385-396. -/
def initializerList : Nat → List Tok → Res (List Exp)
  | 0, _ => .loop
  | fuel + 1, s =>
    (initializer fuel s).bind fun e s =>
      if cur s = .punct .comma then (initializerList fuel s.tail).bind fun es s => .ok (e :: es) s
      else .ok [e] s

/-- The loop of `parse_postfix_expression`, parser.c:414-513. -/
def postfixLoop : Nat → Exp → List Tok → Res Exp
  | 0, _, _ => .loop
  | fuel + 1, operand, s =>
    match cur s with
    | .punct .lSquare =>
      (expression fuel s.tail).bind fun index s =>
        if cur s = .punct .rSquare then postfixLoop fuel (.subscript operand index) s.tail else .error
    | .punct .lParen =>
      if cur s.tail = .punct .rParen then postfixLoop fuel (.call operand []) s.tail.tail
      else
        (initializerList fuel s.tail).bind fun args s =>
          if cur s = .punct .rParen then postfixLoop fuel (.call operand args) s.tail else .error
    | .punct .period =>
      match cur s.tail with
      | .ident name => postfixLoop fuel (.member operand name false) s.tail.tail
      | _ => .error
    | .punct .arrow =>
      match cur s.tail with
      | .ident name => postfixLoop fuel (.member operand name true) s.tail.tail
      | _ => .error
    | .punct .plusPlus => postfixLoop fuel (.unary .postInc operand) s.tail
    | .punct .minusMinus => postfixLoop fuel (.unary .postDec operand) s.tail
    | _ => .ok operand s

/-- `parse_unary_expression`, parser.c:531-555, with the start of `parse_postfix_expression`,
parser.c:414-513. -/
def unary : Nat → List Tok → Res Exp
  | 0, _ => .loop
  | fuel + 1, s =>
    match prefixOp (cur s) with
    | some op => (unary fuel s.tail).bind fun e s => .ok (.unary op e) s
    | none => (primary fuel s).bind fun e s => postfixLoop fuel e s

/-- `parse_RHS_of_binary_expression`, parser.c:566-614; one round of the loop and the rest of it. -/
def rhs : Nat → Exp → Nat → List Tok → Res Exp
  | 0, _, _, _ => .loop
  | fuel + 1, lhs, minPrec, s =>
    let thisPrec := prec (cur s)
    if thisPrec ≥ minPrec then
      if thisPrec ≠ 3 then
        (operand (initializer fuel) (unary fuel) (rhs fuel) thisPrec s.tail).bind fun r t => rhs fuel (.binary (toBinary (cur s)) lhs r) minPrec t
      else
        (initializer fuel s.tail).bind fun m t =>
          if cur t = .punct .colon then
            (operand (initializer fuel) (unary fuel) (rhs fuel) thisPrec t.tail).bind fun r t => rhs fuel (.ternary lhs m r) minPrec t
          else .error
    else .ok lhs s

/-- `parse_assignment_expression`, parser.c:630-634. -/
def assignment : Nat → List Tok → Res Exp
  | 0, _ => .loop
  | fuel + 1, s => (unary fuel s).bind fun l s => rhs fuel l 2 s

/-- `parse_expression`, compiler/parser.c:647-651. -/
def expression : Nat → List Tok → Res Exp
  | 0, _ => .loop
  | fuel + 1, s => (assignment fuel s).bind fun l s => rhs fuel l 1 s

/-- `parse_initializer`, parser.c:682-715. -/
def initializer : Nat → List Tok → Res Exp
  | 0, _ => .loop
  | fuel + 1, s =>
    if cur s = .punct .lBrace then
      if cur s.tail = .punct .rBrace then .error
      else
        (initializerList fuel s.tail).bind fun es s =>
          if cur s = .punct .rBrace then .ok (.init es) s.tail else .error
    else assignment fuel s

end

/-- How many calls can be nested. -/
def fuelFor (s : List Tok) : Nat := 8 * s.length + 8

/-- `parse_expression`, compiler/parser.c:647-651. -/
def parseExpression (s : List Tok) : Res Exp := expression (fuelFor s) s

/-- `parse_assignment_expression`, parser.c:630-634. -/
def parseAssignment (s : List Tok) : Res Exp := assignment (fuelFor s) s

/-- `parse_initializer`, parser.c:682-715. -/
def parseInitializer (s : List Tok) : Res Exp := initializer (fuelFor s) s

/-- `parse_constant_expression`, parser.c:663-669. -/
def parseConstant (s : List Tok) : Res Exp :=
  (unary (fuelFor s) s).bind fun l t => rhs (fuelFor s) l 3 t

end RuC.Expr
