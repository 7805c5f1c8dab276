import Verif.Types.Model
import Verif.Expr.Model

/-!
Building of operator expressions, libs/compiler/builder.c: the checks of operand types, the conversions and
the folding of literals.  A built expression keeps its type, its category and its operands; places in the
source text are left out, except that a literal `NULL` keeps the one cell that is read as a value below.
Floating values are abstract: `Doubles` lists the operations of C on `double` that the code uses.
-/

namespace RuC.Builder

open RuC.Types RuC.Expr

/-- The operations on `double` that the builder uses. -/
structure Doubles (F : Type) where
  ofInt : Int → F
  neg : F → F
  mul : F → F → F
  div : F → F → F
  add : F → F → F
  sub : F → F → F
  lt : F → F → Bool
  le : F → F → Bool
  eq : F → F → Bool
  zero : F

/-- The cell of a literal that holds its value (AST.c:106-216).  A literal `NULL` has no such cell, and what is
found in its place is the beginning of its location. -/
inductive Val (F : Type)
  | null (begin_ : Int)
  | cell (v : Int)
  | dbl (x : F)

/-- A built expression.  `place` stands for subscripts, members and calls: they are not looked into. -/
inductive Ex (F : Type)
  | lit (type : Int) (v : Val F)
  | ident (type : Int) (id : Nat)
  | place (type : Int) (lv : Bool)
  | cast (type source : Int) (e : Ex F)
  | unary (type : Int) (lv : Bool) (op : Unary) (e : Ex F)
  | binary (type : Int) (op : Binary) (l r : Ex F)
  | ternary (type : Int) (c l r : Ex F)
  | assign (type : Int) (op : Binary) (l r : Ex F)
  | init (type : Int) (es : List (Ex F))

variable {F : Type}

/-- `expression_get_type`, AST.h:121-124. -/
def Ex.type : Ex F → Int
  | .lit t _ | .ident t _ | .place t _ | .cast t _ _ | .unary t _ _ _ | .binary t _ _ _ | .ternary t _ _ _
  | .assign t _ _ _ | .init t _ => t

/-- `expression_is_lvalue`, AST.h:133-136, with the categories set in AST.c:85-521. -/
def Ex.lvalue : Ex F → Bool
  | .ident _ _ => true
  | .place _ lv | .unary _ lv _ _ => lv
  | _ => false

/-- What a function of the builder answers: undefined behaviour (or an endless recursion), an error reported
and a broken node, or a value. -/
inductive Out (α : Type)
  | ub
  | bad
  | ok (a : α)
  deriving DecidableEq

/-- Going on after a call. -/
def Out.bind {α β : Type} : Out α → (α → Out β) → Out β
  | .ok a, f => f a
  | .bad, _ => .bad
  | .ub, _ => .ub

instance : Monad Out where
  pure := .ok
  bind := .bind

/-- An answer that may be an endless recursion. -/
def ask {α : Type} : Option α → Out α
  | none => .ub
  | some a => .ok a

/-- `type_get_class`, syntax.c:562-565. -/
def typeClass (cells : List Int) (t : Int) : Int := if t > 0 then get cells (toSize t) else t

/-- `type_is_enum_field`, syntax.c:668-671. -/
def isEnumField (cells : List Int) (t : Int) : Bool := decide (t < 0 ∧ get cells (toSize (-t)) = TYPE_ENUM)

/-- `type_is_integer`, syntax.c:618-623. -/
def isInteger (cells : List Int) (t : Int) : Option Bool :=
  (behind cells t).map fun t => decide (t = TYPE_CHARACTER ∨ t = TYPE_INTEGER ∨ hasClass cells t TYPE_ENUM) || isEnumField cells t

/-- `type_is_boolean`, syntax.c:613-616. -/
def isBoolean (cells : List Int) (t : Int) : Option Bool := (behind cells t).map fun t => decide (t = TYPE_BOOLEAN)

/-- `type_is_floating`, syntax.c:625-628. -/
def isFloating (cells : List Int) (t : Int) : Option Bool := (behind cells t).map fun t => decide (t = TYPE_FLOATING)

/-- `type_is_arithmetic`, syntax.c:630-633. -/
def isArithmetic (cells : List Int) (t : Int) : Option Bool := do return (← isInteger cells t) || (← isFloating cells t)

/-- `type_is_null_pointer`, syntax.c:640-643. -/
def isNull (t : Int) : Bool := decide (t = TYPE_NULL_POINTER)

/-- `type_is_scalar`, syntax.c:684-687. -/
def isScalar (cells : List Int) (t : Int) : Option Bool := do
  return (← isBoolean cells t) || (← isInteger cells t) || (← isPointer cells t) || isNull t

/-- `build_cast_expression`, builder.c:750-782. -/
def buildCast (D : Doubles F) (target : Int) (e : Ex F) : Out (Ex F) :=
  if target ≠ e.type then
    match e with
    | .lit _ (.null v) | .lit _ (.cell v) => .ok (.lit TYPE_FLOATING (.dbl (D.ofInt v)))
    | .lit _ (.dbl _) => .ub
    | _ => .ok (.cast target e.type e)
  else .ok e

/-- `usual_arithmetic_conversions`, builder.c:59-73. -/
def usualConversions (D : Doubles F) (cells : List Int) (l r : Ex F) : Out (Int × Ex F × Ex F) := do
  if (← ask (isFloating cells l.type)) || (← ask (isFloating cells r.type)) then
    return (TYPE_FLOATING, ← buildCast D TYPE_FLOATING l, ← buildCast D TYPE_FLOATING r)
  else return (TYPE_INTEGER, l, r)

/-- A signed 64-bit result; overflow is undefined behaviour. -/
def c64 (x : Int) : Out Int := if -9223372036854775808 ≤ x ∧ x ≤ 9223372036854775807 then .ok x else .ub

/-- `a / b` of C on `int64_t`. -/
def cDiv (a b : Int) : Out Int := if b = 0 then .ub else c64 (a.tdiv b)

/-- `a % b` of C on `int64_t`: undefined when the quotient is. -/
def cRem (a b : Int) : Out Int := if b = 0 then .ub else (c64 (a.tdiv b)).bind fun _ => .ok (a.tmod b)

/-- `a << b` of C on `int64_t`. -/
def cShl (a b : Int) : Out Int := if 0 ≤ a ∧ 0 ≤ b ∧ b < 64 then c64 (a * 2 ^ b.toNat) else .ub

/-- `a >> b` of C on `int64_t`; the sign is kept, as compilers do. -/
def cShr (a b : Int) : Out Int := if 0 ≤ b ∧ b < 64 then .ok (a >>> b.toNat) else .ub

/-- `&`, `^`, `|` of C on `int64_t`. -/
def cBits (f : BitVec 64 → BitVec 64 → BitVec 64) (a b : Int) : Int := (f (BitVec.ofInt 64 a) (BitVec.ofInt 64 b)).toInt

/-- `build_integer_literal_expression`, builder.c:595-598. -/
def intLit (v : Int) : Ex F := .lit TYPE_INTEGER (.cell v)

/-- `build_boolean_literal_expression`, builder.c:585-588. -/
def boolLit (b : Bool) : Ex F := .lit TYPE_BOOLEAN (.cell (if b then 1 else 0))

/-- `expression_literal_get_integer`, AST.c:172-176: the cell in the place of the value, whatever the literal;
for a floating literal it is left undefined here. -/
def Val.integer : Val F → Out Int
  | .null b => .ok b
  | .cell v => .ok v
  | .dbl _ => .ub

/-- `expression_literal_get_floating`, AST.c:192-196, for a floating literal. -/
def Val.floating : Val F → Out F
  | .dbl x => .ok x
  | _ => .ub

/-- `fold_unary_expression`, builder.c:75-136. -/
def foldUnary (D : Doubles F) (cells : List Int) (type : Int) (op : Unary) (e : Ex F) : Out (Ex F) :=
  match e with
  | .lit t v =>
    let c := typeClass cells t
    if c = TYPE_NULL_POINTER then .ok (boolLit true)
    else if c = TYPE_BOOLEAN then v.integer.bind fun x => .ok (boolLit (decide (x = 0)))
    else if c = TYPE_ENUM ∨ c = TYPE_INTEGER then
      v.integer.bind fun x =>
        match op with
        | .minus => (c64 (-x)).bind fun y => .ok (intLit y)
        | .not => .ok (intLit (-x - 1))
        | .logNot => .ok (boolLit (decide (x = 0)))
        | .abs => if x ≥ 0 then .ok (intLit x) else (c64 (-x)).bind fun y => .ok (intLit y)
        | _ => .bad
    else if c = TYPE_FLOATING then
      v.floating.bind fun x =>
        match op with
        | .minus => .ok (.lit TYPE_FLOATING (.dbl (D.neg x)))
        | .abs => .ok (.lit TYPE_FLOATING (.dbl (if D.le D.zero x then x else D.neg x)))
        | _ => .bad
    else .ok (.unary type false op e)
  | _ => .ok (.unary type false op e)

/-- The integer part of `fold_binary_expression`, builder.c:138-238. -/
def foldInt (op : Binary) (a b : Int) : Out (Ex F) :=
  match op with
  | .mul => (c64 (a * b)).bind fun v => .ok (intLit v)
  | .div => (cDiv a b).bind fun v => .ok (intLit v)
  | .rem => (cRem a b).bind fun v => .ok (intLit v)
  | .add => (c64 (a + b)).bind fun v => .ok (intLit v)
  | .sub => (c64 (a - b)).bind fun v => .ok (intLit v)
  | .shl => (cShl a b).bind fun v => .ok (intLit v)
  | .shr => (cShr a b).bind fun v => .ok (intLit v)
  | .lt => .ok (boolLit (decide (a < b)))
  | .gt => .ok (boolLit (decide (a > b)))
  | .le => .ok (boolLit (decide (a ≤ b)))
  | .ge => .ok (boolLit (decide (a ≥ b)))
  | .eq => .ok (boolLit (decide (a = b)))
  | .ne => .ok (boolLit (decide (a ≠ b)))
  | .and => .ok (intLit (cBits (· &&& ·) a b))
  | .xor => .ok (intLit (cBits (· ^^^ ·) a b))
  | .or => .ok (intLit (cBits (· ||| ·) a b))
  | .logAnd => .ok (boolLit (decide (a ≠ 0 ∧ b ≠ 0)))
  | .logOr => .ok (boolLit (decide (a ≠ 0 ∨ b ≠ 0)))
  | _ => .bad

/-- The floating part of `fold_binary_expression`, builder.c:138-238. -/
def foldFloat (D : Doubles F) (op : Binary) (a b : F) : Out (Ex F) :=
  match op with
  | .mul => .ok (.lit TYPE_FLOATING (.dbl (D.mul a b)))
  | .div => .ok (.lit TYPE_FLOATING (.dbl (D.div a b)))
  | .add => .ok (.lit TYPE_FLOATING (.dbl (D.add a b)))
  | .sub => .ok (.lit TYPE_FLOATING (.dbl (D.sub a b)))
  | .lt => .ok (boolLit (D.lt a b))
  | .gt => .ok (boolLit (D.lt b a))
  | .le => .ok (boolLit (D.le a b))
  | .ge => .ok (boolLit (D.le b a))
  | .eq => .ok (boolLit (D.eq a b))
  | .ne => .ok (boolLit (!D.eq a b))
  | _ => .bad

/-- `fold_binary_expression`, builder.c:138-238. -/
def foldBinary (D : Doubles F) (cells : List Int) (type : Int) (l r : Ex F) (op : Binary) : Out (Ex F) :=
  match l, r with
  | .lit t v, .lit _ w =>
    let c := typeClass cells t
    if c = TYPE_ENUM ∨ c = TYPE_INTEGER ∨ c = TYPE_BOOLEAN then
      v.integer.bind fun a => w.integer.bind fun b => foldInt op a b
    else if c = TYPE_FLOATING then
      v.floating.bind fun a => w.floating.bind fun b => foldFloat D op a b
    else .ok (.binary type op l r)
  | _, _ => .ok (.binary type op l r)

/-- `build_unary_expression`, builder.c:784-892.  Taking an address may add a type to the table. -/
def buildUnary (D : Doubles F) (tb : Table) (e : Ex F) (op : Unary) : Out (Ex F × Table) := do
  let t := e.type
  match op with
  | .postInc | .postDec | .preInc | .preDec =>
    if e.lvalue = false then .bad
    else if (← ask (isArithmetic tb.cells t)) = false then .bad
    else return (.unary t false op e, tb)
  | .address =>
    if e.lvalue = false then .bad
    else
      let p ← ask (typePointer tb t)
      return (.unary p.1 false op e, p.2)
  | .indirection =>
    if (← ask (isPointer tb.cells t)) = false then .bad
    else return (.unary (← ask (pointerElement tb.cells t)) true op e, tb)
  | .abs | .minus =>
    if (← ask (isArithmetic tb.cells t)) = false then .bad
    else return (← foldUnary D tb.cells t op e, tb)
  | .not =>
    if (← ask (isInteger tb.cells t)) = false then .bad
    else return (← foldUnary D tb.cells TYPE_INTEGER op e, tb)
  | .logNot =>
    if (← ask (isScalar tb.cells t)) = false then .bad
    else return (← foldUnary D tb.cells TYPE_BOOLEAN op e, tb)
  | .upb =>
    if (← ask (isArray tb.cells t)) = false then .bad
    else return (← foldUnary D tb.cells TYPE_INTEGER op e, tb)

/-- `operation_is_assignment`, operations.c:148-168. -/
def isAssignment : Binary → Bool
  | .assign | .addAssign | .subAssign | .mulAssign | .divAssign | .remAssign | .xorAssign | .orAssign | .andAssign
  | .shlAssign | .shrAssign => true
  | _ => false

/-- The type without its outermost `const`, as `check_assignment_operands` takes it, builder.c:456-458, 505-506. -/
def unqual (cells : List Int) (t : Int) : Int := if isConst cells t then unqualified cells t else t

/-- The end of `check_assignment_operands`, builder.c:440-557, for an expression that is not a list of
initialisers; `expected` is already without `const`. -/
def checkPlain (D : Doubles F) (cells : List Int) (expected : Int) (e : Ex F) : Out (Ex F) := do
  let actual := unqual cells e.type
  if (← ask (isFloating cells expected)) && (← ask (isInteger cells actual)) then buildCast D expected e
  else if (← ask (isEnum cells expected)) && isEnumField cells actual then .ok e
  else if (← ask (isInteger cells expected)) && ((← ask (isEnum cells actual)) || isEnumField cells actual) then .ok e
  else if (← ask (isInteger cells expected)) && (← ask (isInteger cells actual)) then .ok e
  else if (← ask (isPointer cells expected)) && isNull actual then .ok e
  else if (← ask (isPointer cells expected)) && (← ask (isPointer cells actual)) then
    let pe ← ask (pointerElement cells expected)
    let pa ← ask (pointerElement cells actual)
    if !decide (isConst cells pe) && decide (isConst cells pa) then .bad
    else if decide (isConst cells pe) && decide (pa = unqualified cells pe) then .ok e
    else if expected = actual then .ok e
    else .bad
  else if expected = actual then .ok e
  else .bad

mutual

/-- `check_assignment_operands`, builder.c:440-557. -/
def checkAssign (D : Doubles F) (cells : List Int) (isDecl : Bool) (expected : Int) : Ex F → Out (Ex F)
  | .init _ es =>
    if isConst cells expected ∧ isDecl = false then .bad
    else do
      let u := unqual cells expected
      if ← ask (isStructure cells u) then
        if (← ask (memberAmount cells u)) ≠ es.length then .bad
        else return .init u (← checkMembers D cells isDecl u 0 es)
      else if ← ask (isArray cells u) then
        return .init u (← checkElements D cells isDecl (← ask (arrayElement cells u)) es)
      else .bad
  | e =>
    if isConst cells expected ∧ isDecl = false then .bad
    else checkPlain D cells (unqual cells expected) e

/-- The loop over the members of a structure, builder.c:472-480. -/
def checkMembers (D : Doubles F) (cells : List Int) (isDecl : Bool) (struct : Int) (i : Nat) : List (Ex F) → Out (List (Ex F))
  | [] => .ok []
  | e :: es => do
    let e' ← checkAssign D cells isDecl (← ask (memberType cells struct i)) e
    return e' :: (← checkMembers D cells isDecl struct (i + 1) es)

/-- The loop over the elements of an array, builder.c:488-495. -/
def checkElements (D : Doubles F) (cells : List Int) (isDecl : Bool) (element : Int) : List (Ex F) → Out (List (Ex F))
  | [] => .ok []
  | e :: es => do
    let e' ← checkAssign D cells isDecl element e
    return e' :: (← checkElements D cells isDecl element es)

end

/-- The operators of one case of the `switch`, builder.c:923-1045. -/
inductive Group
  | integral | arithmetic | relational | equality | logical | assign | integralAssign | arithmeticAssign | comma
  deriving DecidableEq

/-- The case an operator belongs to, builder.c:923-1045. -/
def group : Binary → Group
  | .rem | .shl | .shr | .and | .xor | .or => .integral
  | .mul | .div | .add | .sub => .arithmetic
  | .lt | .gt | .le | .ge => .relational
  | .eq | .ne => .equality
  | .logAnd | .logOr => .logical
  | .assign => .assign
  | .remAssign | .shlAssign | .shrAssign | .andAssign | .xorAssign | .orAssign => .integralAssign
  | .mulAssign | .divAssign | .addAssign | .subAssign => .arithmeticAssign
  | .comma => .comma

/-- The `switch` of `build_binary_expression`, builder.c:894-1046. -/
def buildBinaryCase (D : Doubles F) (cells : List Int) (l r : Ex F) (lt rt : Int) (op : Binary) : Out (Ex F) := do
  match group op with
  | .integral =>
    if !(← ask (isInteger cells lt)) || !(← ask (isInteger cells rt)) then .bad
    else foldBinary D cells TYPE_INTEGER l r op
  | .arithmetic =>
    if !(← ask (isArithmetic cells lt)) || !(← ask (isArithmetic cells rt)) then .bad
    else
      let c ← usualConversions D cells l r
      foldBinary D cells c.1 c.2.1 c.2.2 op
  | .relational =>
    if !(← ask (isArithmetic cells lt)) || !(← ask (isArithmetic cells rt)) then .bad
    else
      let c ← usualConversions D cells l r
      foldBinary D cells TYPE_BOOLEAN c.2.1 c.2.2 op
  | .equality =>
    if (← ask (isArithmetic cells lt)) && (← ask (isArithmetic cells rt)) then
      let c ← usualConversions D cells l r
      foldBinary D cells TYPE_BOOLEAN c.2.1 c.2.2 op
    else if ((← ask (isPointer cells lt)) && isNull rt) || (isNull lt && (← ask (isPointer cells rt))) || decide (lt = rt) then
      foldBinary D cells TYPE_BOOLEAN l r op
    else .bad
  | .logical =>
    if !(← ask (isScalar cells lt)) || !(← ask (isScalar cells rt)) then .bad
    else foldBinary D cells TYPE_BOOLEAN l r op
  | .assign => .ok (.assign lt op l r)
  | .integralAssign =>
    if !(← ask (isInteger cells lt)) || !(← ask (isInteger cells rt)) then .bad
    else .ok (.assign lt op l r)
  | .arithmeticAssign =>
    if !(← ask (isArithmetic cells lt)) || !(← ask (isArithmetic cells rt)) then .bad
    else .ok (.assign lt op l r)
  | .comma => .ok (.binary rt op l r)

/-- `build_binary_expression`, builder.c:894-1046.  Warnings are left out. -/
def buildBinary (D : Doubles F) (cells : List Int) (l r : Ex F) (op : Binary) : Out (Ex F) :=
  if isAssignment op then
    if l.lvalue = false then .bad
    else (checkAssign D cells false l.type r).bind fun r' => buildBinaryCase D cells l r' l.type r.type op
  else buildBinaryCase D cells l r l.type r.type op

/-- Is the expression a list of initialisers? -/
def Ex.isInit : Ex F → Bool
  | .init _ _ => true
  | _ => false

/-- `build_ternary_expression`, builder.c:1048-1097. -/
def buildTernary (D : Doubles F) (cells : List Int) (c l r : Ex F) : Out (Ex F) := do
  if l.isInit || r.isInit then .bad
  else if (← ask (isScalar cells c.type)) = false then .bad
  else if (← ask (isArithmetic cells l.type)) && (← ask (isArithmetic cells r.type)) then
    let p ← usualConversions D cells l r
    return .ternary p.1 c p.2.1 p.2.2
  else if (← ask (isPointer cells l.type)) && isNull r.type then return .ternary l.type c l r
  else if (isNull l.type && (← ask (isPointer cells r.type))) || decide (l.type = r.type) then return .ternary r.type c l r
  else .bad

end RuC.Builder
