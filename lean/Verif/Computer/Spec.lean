import Verif.Builder.Spec
import Verif.Computer.Model

/-!
What is asked of preprocessor expressions: the expressions of C over integers, their writing, and their
values.
-/

namespace RuC.Computer.Spec
open RuC.Expr RuC.Builder.Spec

/-- Operators of two operands. -/
inductive Op
  | mul | div | rem | add | sub | shl | shr | lt | gt | le | ge | eq | ne | and | xor | or | logAnd | logOr
  deriving DecidableEq

/-- Operators of one operand. -/
inductive Pre
  | compl | not | minus | plus
  deriving DecidableEq

/-- The levels of precedence of C, the strongest first. -/
def Op.level : Op → Nat
  | .mul | .div | .rem => 3
  | .add | .sub => 4
  | .shl | .shr => 5
  | .lt | .gt | .le | .ge => 6
  | .eq | .ne => 7
  | .and => 8
  | .xor => 9
  | .or => 10
  | .logAnd => 11
  | .logOr => 12

/-- How an operator is written. -/
def Op.tk : Op → Tk
  | .mul => .mult | .div => .div | .rem => .mod | .add => .add | .sub => .sub | .shl => .lShift | .shr => .rShift
  | .lt => .less | .gt => .greater | .le => .lessEq | .ge => .greaterEq | .eq => .eq | .ne => .notEq
  | .and => .bitAnd | .xor => .xor | .or => .bitOr | .logAnd => .and | .logOr => .or

def Pre.tk : Pre → Tk
  | .compl => .compl | .not => .not | .minus => .sub | .plus => .add

/-- Expressions. -/
inductive E
  | num (v : Int)
  | name
  | paren (e : E)
  | pre (op : Pre) (e : E)
  | bin (op : Op) (l r : E)
  deriving DecidableEq

/-- The level of an expression: 0 for primary expressions, 1 for prefixed ones. -/
def E.level : E → Nat
  | .num _ | .name | .paren _ => 0
  | .pre _ _ => 1
  | .bin op _ _ => op.level

/-- The expression is read back as it stands: operators bind to the left and by their levels. -/
def E.Wf : E → Prop
  | .num _ | .name => True
  | .paren e => e.Wf
  | .pre _ e => e.Wf ∧ e.level ≤ 1
  | .bin op l r => l.Wf ∧ r.Wf ∧ l.level ≤ op.level ∧ r.level < op.level

/-- The writing of an expression. -/
def E.write : E → List Input
  | .num v => [.num v]
  | .name => [.name]
  | .paren e => .op .lBound :: (e.write ++ [.op .rBound])
  | .pre op e => .op op.tk :: e.write
  | .bin op l r => l.write ++ .op op.tk :: r.write

/-- The operator as in the language. -/
def Op.binary : Op → Binary
  | .mul => .mul | .div => .div | .rem => .rem | .add => .add | .sub => .sub | .shl => .shl | .shr => .shr
  | .lt => .lt | .gt => .gt | .le => .le | .ge => .ge | .eq => .eq | .ne => .ne
  | .and => .and | .xor => .xor | .or => .or | .logAnd => .logAnd | .logOr => .logOr

/-- The value of an operator of one operand. -/
def Pre.Value : Pre → Int → Int → Prop
  | .compl, a, v => UValue .not a v
  | .not, a, v => UValue .logNot a v
  | .minus, a, v => UValue .minus a v
  | .plus, a, v => v = a

/-- The value C gives to the expression, on 64-bit integers.  `&&` and `||` need their right operand only when
the left one does not settle the value. -/
inductive Means : E → Int → Prop
  | num {v} : Fits v → Means (.num v) v
  | name : Means .name 0
  | paren {e v} : Means e v → Means (.paren e) v
  | pre {op e a v} : Means e a → op.Value a v → Means (.pre op e) v
  | bin {op l r a b v} : Means l a → Means r b → Value op.binary a b v → Means (.bin op l r) v
  | andShort {l r} : Means l 0 → Means (.bin .logAnd l r) 0
  | orShort {l r a} : Means l a → a ≠ 0 → Means (.bin .logOr l r) 1

/-- Every part of the expression has a value. -/
def E.Defined : E → Prop
  | .num v => Fits v
  | .name => True
  | .paren e => e.Defined
  | .pre op e => e.Defined ∧ ∃ v, Means (.pre op e) v
  | .bin op l r => l.Defined ∧ r.Defined ∧ ∃ v, Means (.bin op l r) v

def E.isParen : E → Bool
  | .paren _ => true
  | _ => false

/-- No `!`, and no operator of one operand directly before a parenthesis. -/
def E.Plain : E → Prop
  | .num _ | .name => True
  | .paren e => e.Plain
  | .pre op e => op ≠ .not ∧ e.isParen = false ∧ e.Plain
  | .bin _ l r => l.Plain ∧ r.Plain

end RuC.Computer.Spec
