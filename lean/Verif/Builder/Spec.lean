import Verif.Builder.Model

/-!
What is asked of operator expressions: the values of operators on 64-bit integers, said without the
operations of the model, and the rules of types, on types as trees.
-/

namespace RuC.Builder.Spec

open RuC.Types RuC.Expr

/-- The value fits in 64 bits with sign. -/
def Fits (v : Int) : Prop := -(2 ^ 63) ≤ v ∧ v < 2 ^ 63

/-- Bit `i` of the two's complement writing of an integer. -/
def bit (x : Int) (i : Nat) : Prop := x / 2 ^ i % 2 = 1

/-- A boolean value. -/
def Truth (p : Prop) (v : Int) : Prop := (p ∧ v = 1) ∨ (¬p ∧ v = 0)

/-- `q` and `r` are quotient and remainder of the division that cuts the fraction off: the remainder is
smaller than the divisor and has the sign of the dividend. -/
def Divides (a b q r : Int) : Prop := a = q * b + r ∧ r.natAbs < b.natAbs ∧ (r = 0 ∨ (0 < r ∧ 0 < a) ∨ (r < 0 ∧ a < 0))

/-- The value of a binary operator on two integers; no value where the operator has none. -/
def Value : Binary → Int → Int → Int → Prop
  | .mul, a, b, v => v = a * b ∧ Fits v
  | .div, a, b, v => ∃ r, Divides a b v r ∧ Fits v
  | .rem, a, b, v => ∃ q, Divides a b q v ∧ Fits q
  | .add, a, b, v => v = a + b ∧ Fits v
  | .sub, a, b, v => v = a - b ∧ Fits v
  | .shl, a, b, v => 0 ≤ a ∧ ∃ n : Nat, b = n ∧ n < 64 ∧ v = a * 2 ^ n ∧ Fits v
  | .shr, a, b, v => ∃ n : Nat, b = n ∧ n < 64 ∧ v * 2 ^ n ≤ a ∧ a < (v + 1) * 2 ^ n
  | .lt, a, b, v => Truth (a < b) v
  | .gt, a, b, v => Truth (b < a) v
  | .le, a, b, v => Truth (a ≤ b) v
  | .ge, a, b, v => Truth (b ≤ a) v
  | .eq, a, b, v => Truth (a = b) v
  | .ne, a, b, v => Truth (a ≠ b) v
  | .and, a, b, v => Fits v ∧ ∀ i < 64, bit v i ↔ (bit a i ∧ bit b i)
  | .or, a, b, v => Fits v ∧ ∀ i < 64, bit v i ↔ (bit a i ∨ bit b i)
  | .xor, a, b, v => Fits v ∧ ∀ i < 64, bit v i ↔ ¬(bit a i ↔ bit b i)
  | .logAnd, a, b, v => Truth (a ≠ 0 ∧ b ≠ 0) v
  | .logOr, a, b, v => Truth (a ≠ 0 ∨ b ≠ 0) v
  | _, _, _, _ => False

/-- The value of a unary operator on an integer. -/
def UValue : Unary → Int → Int → Prop
  | .minus, a, v => v + a = 0 ∧ Fits v
  | .not, a, v => Fits v ∧ ∀ i < 64, bit v i ↔ ¬bit a i
  | .logNot, a, v => Truth (a = 0) v
  | .abs, a, v => (v = a ∨ v = -a) ∧ 0 ≤ v ∧ Fits v
  | _, _, _ => False

/-- The operators whose result is a truth value. -/
def isTruth : Binary → Bool
  | .lt | .gt | .le | .ge | .eq | .ne | .logAnd | .logOr => true
  | _ => false

/-- The type is an enumeration of the table. -/
def Enumeration (cells : List Int) (t : Int) : Prop := ∃ n : Nat, t = n ∧ 0 < n ∧ cells[n]? = some TYPE_ENUM

/-- A literal and the number it stands for: `NULL` is 0, a boolean 0 or 1, a character its code. -/
def standsFor {F : Type} (cells : List Int) : Ex F → Int → Prop
  | .lit t (.null _), v => t = TYPE_NULL_POINTER ∧ v = 0
  | .lit t (.cell x), v => x = v ∧ Fits x ∧ (t = TYPE_INTEGER ∨ t = TYPE_CHARACTER ∨ (t = TYPE_BOOLEAN ∧ (x = 0 ∨ x = 1)) ∨ Enumeration cells t)
  | _, _ => False

/-- The expression is not a literal, or it is a literal as the parser makes them: `NULL`, a floating number, or
a cell with a boolean, a character, an integer, an enumerator or the number of a string. -/
def Literal {F : Type} (cells : List Int) : Ex F → Prop
  | .lit t (.null _) => t = TYPE_NULL_POINTER
  | .lit t (.dbl _) => t = TYPE_FLOATING
  | .lit t (.cell _) => t = TYPE_INTEGER ∨ t = TYPE_CHARACTER ∨ t = TYPE_BOOLEAN ∨ Enumeration cells t ∨
      ∃ n : Nat, t = n ∧ 0 < n ∧ cells[n]? = some TYPE_ARRAY
  | _ => True

/-! Types as trees. -/

/-- A type as the programmer sees it.  `enum` and `field` (the type of an enumerator) name their enumeration,
structures and functions their record. -/
inductive Ty
  | vararg | null | file | void | bool | float | char | int | undefined
  | struct (record : Int)
  | function (record : Int)
  | enum (record : Int)
  | field (record : Int)
  | array (element : Ty)
  | pointer (element : Ty)
  | const (of : Ty)
  deriving DecidableEq

/-- The tree a number of the table of types stands for. -/
inductive Den (cells : List Int) : Int → Ty → Prop
  | vararg : Den cells (-9) .vararg
  | null : Den cells (-8) .null
  | file : Den cells (-7) .file
  | void : Den cells (-6) .void
  | bool : Den cells (-4) .bool
  | float : Den cells (-3) .float
  | char : Den cells (-2) .char
  | int : Den cells (-1) .int
  | undefined : Den cells 0 .undefined
  | struct {n : Nat} : 0 < n → n < cells.length → cells[n]? = some TYPE_STRUCTURE → Den cells n (.struct n)
  | function {n : Nat} : 0 < n → cells[n]? = some TYPE_FUNCTION → Den cells n (.function n)
  | enum {n : Nat} : 0 < n → cells[n]? = some TYPE_ENUM → Den cells n (.enum n)
  | field {n : Nat} : 9 < n → cells[n]? = some TYPE_ENUM → Den cells (-n) (.field n)
  | array {n : Nat} {u : Int} {U : Ty} : 0 < n → cells[n]? = some TYPE_ARRAY → cells[n + 1]? = some u → Den cells u U → Den cells n (.array U)
  | pointer {n : Nat} {u : Int} {U : Ty} : 0 < n → cells[n]? = some TYPE_POINTER → cells[n + 1]? = some u → Den cells u U → Den cells n (.pointer U)
  | const {n : Nat} {u : Int} {U : Ty} : 0 < n → cells[n]? = some TYPE_CONST → cells[n + 1]? = some u → u < n → Den cells u U → Den cells n (.const U)

/-- The type without `const` around it. -/
def Ty.bare : Ty → Ty
  | .const T => T.bare
  | T => T

/-- Characters, integers, enumerations and enumerators. -/
def Ty.Integral (T : Ty) : Prop := T.bare = .char ∨ T.bare = .int ∨ (∃ r, T.bare = .enum r) ∨ ∃ r, T.bare = .field r

/-- Numbers. -/
def Ty.Arithmetic (T : Ty) : Prop := T.Integral ∨ T.bare = .float

/-- Pointers. -/
def Ty.Pointer (T : Ty) : Prop := ∃ E, T.bare = .pointer E

/-- What may be a condition: booleans, integers, pointers, `NULL`. -/
def Ty.Scalar (T : Ty) : Prop := T.bare = .bool ∨ T.Integral ∨ T.Pointer ∨ T = .null

/-- The type without its outermost `const`. -/
def Ty.once : Ty → Ty
  | .const T => T
  | T => T

/-- `t` is `const` of `u`. -/
def ConstOf (cells : List Int) (t u : Int) : Prop := ∃ n : Nat, t = n ∧ 0 < n ∧ cells[n]? = some TYPE_CONST ∧ cells[n + 1]? = some u

/-- `u` is `t` without its outermost `const`. -/
def Once (cells : List Int) (t u : Int) : Prop := ConstOf cells t u ∨ ((∀ v, ¬ConstOf cells t v) ∧ u = t)

/-- `t`, behind any `const`, is a pointer to `u`. -/
inductive Elem (cells : List Int) : Int → Int → Prop
  | here {n : Nat} {u : Int} : 0 < n → cells[n]? = some TYPE_POINTER → cells[n + 1]? = some u → Elem cells n u
  | behind {t v u : Int} : ConstOf cells t v → Elem cells v u → Elem cells t u

/-- A value of the type `a`, which is `A`, may be put in a place of the type `e`, which is `E`: an integer in a
floating place, an integer in an integer place, `NULL` in a pointer, a pointer to `u` in a pointer to
`const u`, and a value of the same type. -/
def Fitting (cells : List Int) (e a : Int) (E A : Ty) : Prop :=
  (E.bare = .float ∧ A.Integral) ∨ (E.Integral ∧ A.Integral) ∨ (E.Pointer ∧ A.once = .null) ∨
  (∃ p u, Elem cells e p ∧ ConstOf cells p u ∧ Elem cells a u) ∨ ∃ u, Once cells e u ∧ Once cells a u

/-- No cell at the beginning of the table (where the structure of messages is) says "enumeration": only then
are the built-in types not taken for enumerators. -/
def Clean (cells : List Int) : Prop := ∀ k, 1 ≤ k → k ≤ 9 → cells[k]? ≠ some TYPE_ENUM

/-- The rule for unary operators, on the type and category of the operand. -/
def URule (op : Unary) (lv : Bool) (T : Ty) : Prop :=
  match op with
  | .postInc | .postDec | .preInc | .preDec => lv = true ∧ T.Arithmetic
  | .address => lv = true
  | .indirection => T.Pointer
  | .abs | .minus => T.Arithmetic
  | .not => T.Integral
  | .logNot => T.Scalar
  | .upb => ∃ E, T.bare = .array E

/-- The type a binary operator gives to its result. -/
inductive Result
  | int | float | bool | left | right
  deriving DecidableEq

/-- The rule for the binary operators that are not assignments. -/
def Rule (op : Binary) (L R : Ty) (same : Prop) (res : Result) : Prop :=
  match op with
  | .rem | .shl | .shr | .and | .xor | .or => L.Integral ∧ R.Integral ∧ res = .int
  | .mul | .div | .add | .sub =>
    L.Arithmetic ∧ R.Arithmetic ∧ ((L.Integral ∧ R.Integral ∧ res = .int) ∨ (¬(L.Integral ∧ R.Integral) ∧ res = .float))
  | .lt | .gt | .le | .ge => L.Arithmetic ∧ R.Arithmetic ∧ res = .bool
  | .eq | .ne =>
    ((L.Arithmetic ∧ R.Arithmetic) ∨ (L.Pointer ∧ R = .null) ∨ (L = .null ∧ R.Pointer) ∨ same) ∧ res = .bool
  | .logAnd | .logOr => L.Scalar ∧ R.Scalar ∧ res = .bool
  | .comma => res = .right
  | _ => False

/-- The rule for the operands of an assignment operator beyond `Fitting`. -/
def OperandRule (op : Binary) (L R : Ty) : Prop :=
  match op with
  | .assign => True
  | .remAssign | .shlAssign | .shrAssign | .andAssign | .xorAssign | .orAssign => L.Integral ∧ R.Integral
  | .mulAssign | .divAssign | .addAssign | .subAssign => L.Arithmetic ∧ R.Arithmetic
  | _ => False

/-- The number of a result type. -/
def Result.type (l r : Int) : Result → Int
  | .int => TYPE_INTEGER
  | .float => TYPE_FLOATING
  | .bool => TYPE_BOOLEAN
  | .left => l
  | .right => r

/-- The rule for the second and third operand of the conditional operator. -/
def TRule (L R : Ty) (same : Prop) (res : Result) : Prop :=
  (L.Arithmetic ∧ R.Arithmetic ∧ ((L.Integral ∧ R.Integral ∧ res = .int) ∨ (¬(L.Integral ∧ R.Integral) ∧ res = .float))) ∨
  (¬(L.Arithmetic ∧ R.Arithmetic) ∧ ((L.Pointer ∧ R = .null ∧ res = .left) ∨ (((L = .null ∧ R.Pointer) ∨ same) ∧ res = .right)))

/-- The type of the result of a unary operator other than `&`. -/
def UType (cells : List Int) (op : Unary) (T : Ty) (t t' : Int) : Prop :=
  match op with
  | .postInc | .postDec | .preInc | .preDec => t' = t
  | .indirection => Elem cells t t'
  | .abs | .minus => t' = t ∨ (T.Integral ∧ t' = TYPE_INTEGER)
  | .not | .upb => t' = TYPE_INTEGER
  | .logNot => t' = TYPE_BOOLEAN
  | .address => False

end RuC.Builder.Spec
