import Verif.Tree.Model

/-!
# Model of `libs/compiler/AST.c`

The nodes of the syntax tree are nodes of the tree of `libs/utils/tree.c`; a broken node is the handle
`SIZE_MAX`.  `vector *` arguments of a `node` are left out: there is one tree, `v`.  A `size_t` given
by a caller is a `UInt64`, a `char32_t` or an enumerator of an operator is a `UInt32`, a value category is `true` for
`LVALUE`.  A `double` is the number its 64 bits make when read as an `item_t`, kept in one cell (see C16).
Outer `none` stands for a loop in the tree that does not end.
-/

namespace RuC.Ast
open RuC Hash Tree

/-! ## Constants: `operation_t`, libs/compiler/operations.h; types, libs/compiler/syntax.h -/

abbrev OP_NOP : Int := 0
abbrev OP_IDENTIFIER : Int := 1
abbrev OP_LITERAL : Int := 2
abbrev OP_CALL : Int := 3
abbrev OP_SELECT : Int := 4
abbrev OP_SLICE : Int := 5
abbrev OP_CAST : Int := 6
abbrev OP_UNARY : Int := 7
abbrev OP_BINARY : Int := 8
abbrev OP_TERNARY : Int := 9
abbrev OP_ASSIGNMENT : Int := 10
abbrev OP_INITIALIZER : Int := 11
abbrev OP_CASE : Int := 12
abbrev OP_DEFAULT : Int := 13
abbrev OP_BLOCK : Int := 14
abbrev OP_IF : Int := 15
abbrev OP_SWITCH : Int := 16
abbrev OP_WHILE : Int := 17
abbrev OP_DO : Int := 18
abbrev OP_FOR : Int := 19
abbrev OP_CONTINUE : Int := 20
abbrev OP_BREAK : Int := 21
abbrev OP_RETURN : Int := 22
abbrev OP_DECLSTMT : Int := 23
abbrev OP_DECL_VAR : Int := 24
abbrev OP_DECL_MEMBER : Int := 25
abbrev OP_DECL_STRUCT : Int := 26
abbrev OP_FUNC_DEF : Int := 27
abbrev OP_EMPTY_BOUND : Int := 28
abbrev LVALUE : Int := 0
abbrev RVALUE : Int := 1
abbrev TYPE_UNDEFINED : Int := 0
abbrev TYPE_INTEGER : Int := -1
abbrev TYPE_FLOATING : Int := -3

/-- `location`, libs/utils/uniio.h: the first and the last position. -/
abbrev Loc := UInt64 × UInt64

/-- `(item_t)loc.begin, (item_t)loc.end`. -/
def Loc.items (loc : Loc) : List Int := [toItem loc.1.toNat, toItem loc.2.toNat]

/-- `category_t`, compiler/AST.h:31-35. -/
def category (lvalue : Bool) : Int := if lvalue then LVALUE else RVALUE

/-- A `bool` stored in a cell. -/
def flag (b : Bool) : Int := if b then 1 else 0

/-! ## The calls every constructor is made of -/

/-- `node_create`, compiler/AST.c:25-28, followed by `node_add_arg` for each of `args`. -/
def leaf (v : List Int) (context : Nat) (type : Int) (args : List Int) : Nat × List Int :=
  let x := nodeAddChild v context type
  (x.1.getD SIZE_MAX, args.foldl (fun v a => (nodeAddArg v (x.1.getD SIZE_MAX) a).2) x.2)

/-- `node_insert`, tree.c:391-421, with a broken handle as `SIZE_MAX`. -/
def insertNode (v : List Int) (nd : Nat) (type : Int) (argc : Nat) : Option (Nat × List Int) :=
  (nodeInsert v nd type argc).map fun x => (x.1.getD SIZE_MAX, x.2)

/-- `node_set_child`, compiler/AST.c:30-35. -/
def attach (v : List Int) (parent child : Nat) : Option (List Int) := nodeSetChild v parent child OP_NOP

/-- The loop `node_set_child(&nd, &item)` over a `node_vector` (compiler/AST.c:252-256, 483-487, 609-613, 957-961, 1064-1068);
`node_vector_get` is `node_load`, node_vector.h. -/
def attachAll (v : List Int) (parent : Nat) : List Nat → Option (List Int)
  | [] => some v
  | n :: l => (attach v parent ((nodeLoad v n).getD SIZE_MAX)).bind fun v => attachAll v parent l

/-- Consecutive `node_set_arg(&nd, i, …)`. -/
def setArgs (v : List Int) (nd i : Nat) : List Int → List Int
  | [] => v
  | a :: l => setArgs (nodeSetArg v nd i a).2 nd (i + 1) l

/-- The part `if (node_is_correct(child)) { node_set_arg(&nd, flag, 1); node_set_child(&nd, child); }` of
`statement_if`, `statement_for`, `statement_return`. -/
def attachIf (v : List Int) (nd flag child : Nat) : Option (List Int) :=
  if isCorrect child then attach (nodeSetArg v nd flag 1).2 nd child else some v

/-! ## Locations and classes -/

/-- `node_get_location`, compiler/AST.c:47-51. -/
def nodeGetLocation (v : List Int) (nd : Nat) : Nat × Nat :=
  let argc := nodeGetArgc v nd
  (toSize (nodeGetArg v nd (usub argc 2)), toSize (nodeGetArg v nd (usub argc 1)))

/-- `expression_t`, compiler/AST.h:38-53. -/
inductive ExprClass
  | identifier | literal | subscript | call | member | cast | unary | binary | ternary | assignment | initializer
  | emptyBound | invalid
deriving DecidableEq, Repr

/-- `expression_get_class`, compiler/AST.c:53-84. -/
def expressionGetClass (v : List Int) (nd : Nat) : ExprClass :=
  let t := nodeGetType v nd
  if t = OP_IDENTIFIER then .identifier
  else if t = OP_LITERAL then .literal
  else if t = OP_SLICE then .subscript
  else if t = OP_CALL then .call
  else if t = OP_SELECT then .member
  else if t = OP_CAST then .cast
  else if t = OP_UNARY then .unary
  else if t = OP_BINARY then .binary
  else if t = OP_TERNARY then .ternary
  else if t = OP_ASSIGNMENT then .assignment
  else if t = OP_INITIALIZER then .initializer
  else if t = OP_EMPTY_BOUND then .emptyBound
  else .invalid

/-- `statement_t`, compiler/AST.h:56-72. -/
inductive StmtClass
  | decl | case | default | compound | expr | null | «if» | switch | while | «do» | «for» | «continue» | «break» | «return»
deriving DecidableEq, Repr

/-- `statement_get_class`, compiler/AST.c:524-557. -/
def statementGetClass (v : List Int) (nd : Nat) : StmtClass :=
  let t := nodeGetType v nd
  if t = OP_DECLSTMT then .decl
  else if t = OP_CASE then .case
  else if t = OP_DEFAULT then .default
  else if t = OP_BLOCK then .compound
  else if t = OP_NOP then .null
  else if t = OP_IF then .if
  else if t = OP_SWITCH then .switch
  else if t = OP_WHILE then .while
  else if t = OP_DO then .do
  else if t = OP_FOR then .for
  else if t = OP_CONTINUE then .continue
  else if t = OP_BREAK then .break
  else if t = OP_RETURN then .return
  else .expr

/-- `declaration_t`, compiler/AST.h:75-82. -/
inductive DeclClass
  | var | func | member | struct | invalid
deriving DecidableEq, Repr

/-- `declaration_get_class`, compiler/AST.c:928-943. -/
def declarationGetClass (v : List Int) (nd : Nat) : DeclClass :=
  let t := nodeGetType v nd
  if t = OP_DECL_VAR then .var
  else if t = OP_DECL_MEMBER then .member
  else if t = OP_DECL_STRUCT then .struct
  else if t = OP_FUNC_DEF then .func
  else .invalid

/-! ## Expressions -/

/-- `expression_get_type`, compiler/AST.h:121-124. -/
def expressionGetType (v : List Int) (nd : Nat) : Int := nodeGetArg v nd 0

/-- `expression_is_lvalue`, compiler/AST.h:133-136. -/
def expressionIsLvalue (v : List Int) (nd : Nat) : Bool := decide (nodeGetArg v nd 1 = LVALUE)

/-- `expression_identifier`, compiler/AST.c:86-97. -/
def expressionIdentifier (v : List Int) (context : Nat) (type : Int) (id : UInt64) (loc : Loc) : Nat × List Int :=
  leaf v context OP_IDENTIFIER ([type, LVALUE, toItem id.toNat] ++ loc.items)

/-- `expression_identifier_get_id`, compiler/AST.c:99-103. -/
def expressionIdentifierGetId (v : List Int) (nd : Nat) : Nat := toSize (nodeGetArg v nd 2)

/-- `expression_null_literal`, compiler/AST.c:106-116. -/
def expressionNullLiteral (v : List Int) (context : Nat) (type : Int) (loc : Loc) : Nat × List Int :=
  leaf v context OP_LITERAL ([type, RVALUE] ++ loc.items)

/-- `expression_boolean_literal`, compiler/AST.c:119-130. -/
def expressionBooleanLiteral (v : List Int) (context : Nat) (type : Int) (value : Bool) (loc : Loc) : Nat × List Int :=
  leaf v context OP_LITERAL ([type, RVALUE, flag value] ++ loc.items)

/-- `expression_literal_get_boolean`, compiler/AST.c:132-136. -/
def expressionLiteralGetBoolean (v : List Int) (nd : Nat) : Bool := decide (nodeGetArg v nd 2 ≠ 0)

/-- `expression_character_literal`, compiler/AST.c:139-150. -/
def expressionCharacterLiteral (v : List Int) (context : Nat) (type : Int) (value : UInt32) (loc : Loc) : Nat × List Int :=
  leaf v context OP_LITERAL ([type, RVALUE, (value.toNat : Int)] ++ loc.items)

/-- `expression_literal_get_character`, compiler/AST.c:152-156. -/
def expressionLiteralGetCharacter (v : List Int) (nd : Nat) : Nat := toSize (nodeGetArg v nd 2) % 4294967296

/-- `expression_integer_literal`, compiler/AST.c:159-170. -/
def expressionIntegerLiteral (v : List Int) (context : Nat) (type : Int) (value : Int) (loc : Loc) : Nat × List Int :=
  leaf v context OP_LITERAL ([type, RVALUE, value] ++ loc.items)

/-- `expression_literal_get_integer`, compiler/AST.c:172-176. -/
def expressionLiteralGetInteger (v : List Int) (nd : Nat) : Int := nodeGetArg v nd 2

/-- `expression_floating_literal`, compiler/AST.c:179-190. -/
def expressionFloatingLiteral (v : List Int) (context : Nat) (type : Int) (bits : Int) (loc : Loc) : Nat × List Int :=
  leaf v context OP_LITERAL ([type, RVALUE, bits] ++ loc.items)

/-- `expression_literal_get_floating`, compiler/AST.c:192-196. -/
def expressionLiteralGetFloating (v : List Int) (nd : Nat) : Int := nodeGetArg v nd 2

/-- `expression_string_literal`, compiler/AST.c:199-210. -/
def expressionStringLiteral (v : List Int) (context : Nat) (type : Int) (index : UInt64) (loc : Loc) : Nat × List Int :=
  leaf v context OP_LITERAL ([type, RVALUE, toItem index.toNat] ++ loc.items)

/-- `expression_literal_get_string`, compiler/AST.c:212-216. -/
def expressionLiteralGetString (v : List Int) (nd : Nat) : Nat := toSize (nodeGetArg v nd 2)

/-- `expression_subscript`, compiler/AST.c:219-230. -/
def expressionSubscript (v : List Int) (type : Int) (base index : Nat) (loc : Loc) :
    Option (Nat × List Int) :=
  (insertNode v base OP_SLICE 4).bind fun x =>
  (attach x.2 x.1 index).map fun w =>
  (x.1, setArgs w x.1 0 ([type, LVALUE] ++ loc.items))

/-- `expression_subscript_get_base`, compiler/AST.c:232-236. -/
def expressionSubscriptGetBase (v : List Int) (nd : Nat) : Option Nat := nodeGetChild v nd 0

/-- `expression_subscript_get_index`, compiler/AST.c:238-242. -/
def expressionSubscriptGetIndex (v : List Int) (nd : Nat) : Option Nat := nodeGetChild v nd 1

/-- `expression_call`, compiler/AST.c:245-265. -/
def expressionCall (v : List Int) (type : Int) (callee : Nat) (args : List Nat) (loc : Loc) : Option (Nat × List Int) :=
  (insertNode v callee OP_CALL 4).bind fun x =>
  (attachAll x.2 x.1 args).map fun w =>
  (x.1, setArgs w x.1 0 ([type, RVALUE] ++ loc.items))

/-- `expression_call_get_callee`, compiler/AST.c:267-271. -/
def expressionCallGetCallee (v : List Int) (nd : Nat) : Option Nat := nodeGetChild v nd 0

/-- `expression_call_get_arguments_amount`, compiler/AST.c:273-277. -/
def expressionCallGetArgumentsAmount (v : List Int) (nd : Nat) : Nat := usub (nodeGetAmount v nd) 1

/-- `expression_call_get_argument`, compiler/AST.c:279-283. -/
def expressionCallGetArgument (v : List Int) (nd : Nat) (index : Nat) : Option Nat := nodeGetChild v nd (usz (1 + index))

/-- `expression_member`, compiler/AST.c:286-299. -/
def expressionMember (v : List Int) (type : Int) (ctg : Bool) (index : UInt64) (isArrow : Bool) (base : Nat) (loc : Loc) :
    Option (Nat × List Int) :=
  (insertNode v base OP_SELECT 6).map fun x =>
  (x.1, setArgs x.2 x.1 0 ([type, category ctg, toItem index.toNat, flag isArrow] ++ loc.items))

/-- `expression_member_get_base`, compiler/AST.c:301-305. -/
def expressionMemberGetBase (v : List Int) (nd : Nat) : Option Nat := nodeGetChild v nd 0

/-- `expression_member_get_member_index`, compiler/AST.c:307-311. -/
def expressionMemberGetMemberIndex (v : List Int) (nd : Nat) : Nat := toSize (nodeGetArg v nd 2)

/-- `expression_member_is_arrow`, compiler/AST.c:313-317. -/
def expressionMemberIsArrow (v : List Int) (nd : Nat) : Bool := decide (nodeGetArg v nd 3 ≠ 0)

/-- `expression_cast`, compiler/AST.c:320-331. -/
def expressionCast (v : List Int) (target source : Int) (expr : Nat) (loc : Loc) :
    Option (Nat × List Int) :=
  (insertNode v expr OP_CAST 5).map fun x =>
  (x.1, setArgs x.2 x.1 0 ([target, RVALUE, source] ++ loc.items))

/-- `expression_cast_get_source_type`, compiler/AST.c:333-337. -/
def expressionCastGetSourceType (v : List Int) (nd : Nat) : Int := nodeGetArg v nd 2

/-- `expression_cast_get_operand`, compiler/AST.c:339-343. -/
def expressionCastGetOperand (v : List Int) (nd : Nat) : Option Nat := nodeGetChild v nd 0

/-- `expression_unary`, compiler/AST.c:346-357. -/
def expressionUnary (v : List Int) (type : Int) (ctg : Bool) (expr : Nat) (op : UInt32) (loc : Loc) :
    Option (Nat × List Int) :=
  (insertNode v expr OP_UNARY 5).map fun x =>
  (x.1, setArgs x.2 x.1 0 ([type, category ctg, (op.toNat : Int)] ++ loc.items))

/-- `expression_unary_get_operator`, compiler/AST.c:359-363. -/
def expressionUnaryGetOperator (v : List Int) (nd : Nat) : Nat := toSize (nodeGetArg v nd 2) % 4294967296

/-- `expression_unary_get_operand`, compiler/AST.c:365-369. -/
def expressionUnaryGetOperand (v : List Int) (nd : Nat) : Option Nat := nodeGetChild v nd 0

/-- `expression_binary`, compiler/AST.c:372-384. -/
def expressionBinary (v : List Int) (type : Int) (lhs rhs : Nat) (op : UInt32) (loc : Loc) :
    Option (Nat × List Int) :=
  (insertNode v lhs OP_BINARY 5).bind fun x =>
  (attach x.2 x.1 rhs).map fun w =>
  (x.1, setArgs w x.1 0 ([type, RVALUE, (op.toNat : Int)] ++ loc.items))

/-- `expression_binary_get_operator`, compiler/AST.c:386-390. -/
def expressionBinaryGetOperator (v : List Int) (nd : Nat) : Nat := toSize (nodeGetArg v nd 2) % 4294967296

/-- `expression_binary_get_LHS`, compiler/AST.c:392-396. -/
def expressionBinaryGetLHS (v : List Int) (nd : Nat) : Option Nat := nodeGetChild v nd 0

/-- `expression_binary_get_RHS`, compiler/AST.c:398-402. -/
def expressionBinaryGetRHS (v : List Int) (nd : Nat) : Option Nat := nodeGetChild v nd 1

/-- `expression_ternary`, compiler/AST.c:405-417. -/
def expressionTernary (v : List Int) (type : Int) (cond lhs rhs : Nat) (loc : Loc) :
    Option (Nat × List Int) :=
  (insertNode v cond OP_TERNARY 4).bind fun x =>
  (attach x.2 x.1 lhs).bind fun w =>
  (attach w x.1 rhs).map fun w =>
  (x.1, setArgs w x.1 0 ([type, RVALUE] ++ loc.items))

/-- `expression_ternary_get_condition`, compiler/AST.c:419-423. -/
def expressionTernaryGetCondition (v : List Int) (nd : Nat) : Option Nat := nodeGetChild v nd 0

/-- `expression_ternary_get_LHS`, compiler/AST.c:425-429. -/
def expressionTernaryGetLHS (v : List Int) (nd : Nat) : Option Nat := nodeGetChild v nd 1

/-- `expression_ternary_get_RHS`, compiler/AST.c:431-435. -/
def expressionTernaryGetRHS (v : List Int) (nd : Nat) : Option Nat := nodeGetChild v nd 2

/-- `expression_assignment`, compiler/AST.c:438-450. -/
def expressionAssignment (v : List Int) (type : Int) (lhs rhs : Nat) (op : UInt32) (loc : Loc) :
    Option (Nat × List Int) :=
  (insertNode v lhs OP_ASSIGNMENT 5).bind fun x =>
  (attach x.2 x.1 rhs).map fun w =>
  (x.1, setArgs w x.1 0 ([type, RVALUE, (op.toNat : Int)] ++ loc.items))

/-- `expression_assignment_get_operator`, compiler/AST.c:452-456. -/
def expressionAssignmentGetOperator (v : List Int) (nd : Nat) : Nat := toSize (nodeGetArg v nd 2) % 4294967296

/-- `expression_assignment_get_LHS`, compiler/AST.c:458-462. -/
def expressionAssignmentGetLHS (v : List Int) (nd : Nat) : Option Nat := nodeGetChild v nd 0

/-- `expression_assignment_get_RHS`, compiler/AST.c:464-468. -/
def expressionAssignmentGetRHS (v : List Int) (nd : Nat) : Option Nat := nodeGetChild v nd 1

/-- `expression_initializer`, compiler/AST.c:471-489, for a list with the first element `fst`. -/
def expressionInitializer (v : List Int) (fst : Nat) (rest : List Nat) (loc : Loc) : Option (Nat × List Int) :=
  (insertNode v ((nodeLoad v fst).getD SIZE_MAX) OP_INITIALIZER 4).bind fun x =>
  (attachAll (setArgs x.2 x.1 0 ([TYPE_UNDEFINED, RVALUE] ++ loc.items)) x.1 rest).map fun w => (x.1, w)

/-- `expression_initializer_set_type`, compiler/AST.c:491-495. -/
def expressionInitializerSetType (v : List Int) (nd : Nat) (type : Int) : List Int := setArgs v nd 0 [type]

/-- `expression_initializer_get_size`, compiler/AST.c:497-501. -/
def expressionInitializerGetSize (v : List Int) (nd : Nat) : Nat := nodeGetAmount v nd

/-- `expression_initializer_get_subexpr`, compiler/AST.c:503-507. -/
def expressionInitializerGetSubexpr (v : List Int) (nd : Nat) (index : Nat) : Option Nat := nodeGetChild v nd index

/-- `expression_empty_bound`, compiler/AST.c:510-521. -/
def expressionEmptyBound (v : List Int) (context : Nat) (loc : Loc) : Nat × List Int :=
  leaf v context OP_EMPTY_BOUND ([TYPE_INTEGER, RVALUE] ++ loc.items)

/-- The literal case of `build_cast_expression`, builder.c:750-782: a literal is replaced by a floating literal with
the bits `bits`. -/
def literalToFloating (v : List Int) (expr : Nat) (bits : Int) (loc : Loc) : Option (Nat × List Int) :=
  (insertNode v expr OP_LITERAL 5).bind fun x =>
  (nodeRemove (setArgs x.2 x.1 0 ([TYPE_FLOATING, RVALUE, bits] ++ loc.items)) expr).map fun w => (x.1, w.2)

/-! ## Statements -/

/-- `statement_case`, compiler/AST.c:560-569. -/
def statementCase (v : List Int) (expr substmt : Nat) (loc : Loc) :
    Option (Nat × List Int) :=
  (insertNode v expr OP_CASE 2).bind fun x =>
  (attach x.2 x.1 substmt).map fun w =>
  (x.1, setArgs w x.1 0 loc.items)

/-- `statement_case_get_expression`, compiler/AST.c:571-575. -/
def statementCaseGetExpression (v : List Int) (nd : Nat) : Option Nat := nodeGetChild v nd 0

/-- `statement_case_get_substmt`, compiler/AST.c:577-581. -/
def statementCaseGetSubstmt (v : List Int) (nd : Nat) : Option Nat := nodeGetChild v nd 1

/-- `statement_default`, compiler/AST.c:584-592. -/
def statementDefault (v : List Int) (substmt : Nat) (loc : Loc) :
    Option (Nat × List Int) :=
  (insertNode v substmt OP_DEFAULT 2).map fun x =>
  (x.1, setArgs x.2 x.1 0 loc.items)

/-- `statement_default_get_substmt`, compiler/AST.c:594-598. -/
def statementDefaultGetSubstmt (v : List Int) (nd : Nat) : Option Nat := nodeGetChild v nd 0

/-- `statement_compound`, compiler/AST.c:601-619. -/
def statementCompound (v : List Int) (context : Nat) (stmts : List Nat) (loc : Loc) : Option (Nat × List Int) :=
  let x := leaf v context OP_BLOCK loc.items
  (attachAll x.2 x.1 stmts).map fun w => (x.1, w)

/-- `statement_compound_get_size`, compiler/AST.c:621-625. -/
def statementCompoundGetSize (v : List Int) (nd : Nat) : Nat := nodeGetAmount v nd

/-- `statement_compound_get_substmt`, compiler/AST.c:627-631. -/
def statementCompoundGetSubstmt (v : List Int) (nd : Nat) (index : Nat) : Option Nat := nodeGetChild v nd index

/-- `statement_null`, compiler/AST.c:634-642. -/
def statementNull (v : List Int) (context : Nat) (loc : Loc) : Nat × List Int :=
  leaf v context OP_NOP loc.items

/-- `statement_if`, compiler/AST.c:645-661. -/
def statementIf (v : List Int) (cond thenStmt elseStmt : Nat) (loc : Loc) : Option (Nat × List Int) :=
  (insertNode v cond OP_IF 3).bind fun x =>
  (attach x.2 x.1 thenStmt).bind fun w =>
  (attachIf (setArgs w x.1 0 ([0] ++ loc.items)) x.1 0 elseStmt).map fun w => (x.1, w)

/-- `statement_if_has_else_substmt`, compiler/AST.c:663-667. -/
def statementIfHasElseSubstmt (v : List Int) (nd : Nat) : Bool := decide (nodeGetArg v nd 0 ≠ 0)

/-- `statement_if_get_condition`, compiler/AST.c:669-673. -/
def statementIfGetCondition (v : List Int) (nd : Nat) : Option Nat := nodeGetChild v nd 0

/-- `statement_if_get_then_substmt`, compiler/AST.c:675-679. -/
def statementIfGetThenSubstmt (v : List Int) (nd : Nat) : Option Nat := nodeGetChild v nd 1

/-- `statement_if_get_else_substmt`, compiler/AST.c:681-686. -/
def statementIfGetElseSubstmt (v : List Int) (nd : Nat) : Option Nat := nodeGetChild v nd 2

/-- `statement_switch`, compiler/AST.c:689-698. -/
def statementSwitch (v : List Int) (cond body : Nat) (loc : Loc) :
    Option (Nat × List Int) :=
  (insertNode v cond OP_SWITCH 2).bind fun x =>
  (attach x.2 x.1 body).map fun w =>
  (x.1, setArgs w x.1 0 loc.items)

/-- `statement_switch_get_condition`, compiler/AST.c:700-704. -/
def statementSwitchGetCondition (v : List Int) (nd : Nat) : Option Nat := nodeGetChild v nd 0

/-- `statement_switch_get_body`, compiler/AST.c:706-710. -/
def statementSwitchGetBody (v : List Int) (nd : Nat) : Option Nat := nodeGetChild v nd 1

/-- `statement_while`, compiler/AST.c:713-722. -/
def statementWhile (v : List Int) (cond body : Nat) (loc : Loc) :
    Option (Nat × List Int) :=
  (insertNode v cond OP_WHILE 2).bind fun x =>
  (attach x.2 x.1 body).map fun w =>
  (x.1, setArgs w x.1 0 loc.items)

/-- `statement_while_get_condition`, compiler/AST.c:724-728. -/
def statementWhileGetCondition (v : List Int) (nd : Nat) : Option Nat := nodeGetChild v nd 0

/-- `statement_while_get_body`, compiler/AST.c:730-734. -/
def statementWhileGetBody (v : List Int) (nd : Nat) : Option Nat := nodeGetChild v nd 1

/-- `statement_do`, compiler/AST.c:737-746. -/
def statementDo (v : List Int) (body cond : Nat) (loc : Loc) :
    Option (Nat × List Int) :=
  (insertNode v body OP_DO 2).bind fun x =>
  (attach x.2 x.1 cond).map fun w =>
  (x.1, setArgs w x.1 0 loc.items)

/-- `statement_do_get_condition`, compiler/AST.c:748-752. -/
def statementDoGetCondition (v : List Int) (nd : Nat) : Option Nat := nodeGetChild v nd 1

/-- `statement_do_get_body`, compiler/AST.c:754-758. -/
def statementDoGetBody (v : List Int) (nd : Nat) : Option Nat := nodeGetChild v nd 0

/-- `statement_for`, compiler/AST.c:761-791. -/
def statementFor (v : List Int) (init cond incr body : Nat) (loc : Loc) : Option (Nat × List Int) :=
  (insertNode v body OP_FOR 5).bind fun x =>
  (attachIf (setArgs x.2 x.1 0 [0, 0, 0]) x.1 0 init).bind fun w =>
  (attachIf w x.1 1 cond).bind fun w =>
  (attachIf w x.1 2 incr).map fun w => (x.1, setArgs w x.1 3 loc.items)

/-- `statement_for_has_inition`, compiler/AST.c:793-797. -/
def statementForHasInition (v : List Int) (nd : Nat) : Bool := decide (nodeGetArg v nd 0 ≠ 0)

/-- `statement_for_has_condition`, compiler/AST.c:799-803. -/
def statementForHasCondition (v : List Int) (nd : Nat) : Bool := decide (nodeGetArg v nd 1 ≠ 0)

/-- `statement_for_has_increment`, compiler/AST.c:805-809. -/
def statementForHasIncrement (v : List Int) (nd : Nat) : Bool := decide (nodeGetArg v nd 2 ≠ 0)

/-- `statement_for_get_inition`, compiler/AST.c:811-815. -/
def statementForGetInition (v : List Int) (nd : Nat) : Option Nat := nodeGetChild v nd 1

/-- `statement_for_get_condition`, compiler/AST.c:817-822. -/
def statementForGetCondition (v : List Int) (nd : Nat) : Option Nat := nodeGetChild v nd (if statementForHasInition v nd then 2 else 1)

/-- `statement_for_get_increment`, compiler/AST.c:824-829. -/
def statementForGetIncrement (v : List Int) (nd : Nat) : Option Nat := nodeGetChild v nd (usub (nodeGetAmount v nd) 1)

/-- `statement_for_get_body`, compiler/AST.c:831-835. -/
def statementForGetBody (v : List Int) (nd : Nat) : Option Nat := nodeGetChild v nd 0

/-- `statement_continue`, compiler/AST.c:838-846. -/
def statementContinue (v : List Int) (context : Nat) (loc : Loc) : Nat × List Int :=
  leaf v context OP_CONTINUE loc.items

/-- `statement_break`, compiler/AST.c:849-857. -/
def statementBreak (v : List Int) (context : Nat) (loc : Loc) : Nat × List Int :=
  leaf v context OP_BREAK loc.items

/-- `statement_return`, compiler/AST.c:860-875. -/
def statementReturn (v : List Int) (context expr : Nat) (loc : Loc) : Option (Nat × List Int) :=
  let x := leaf v context OP_RETURN ([0] ++ loc.items)
  (attachIf x.2 x.1 0 expr).map fun w => (x.1, w)

/-- `statement_return_has_expression`, compiler/AST.c:877-881. -/
def statementReturnHasExpression (v : List Int) (nd : Nat) : Bool := decide (nodeGetAmount v nd ≠ 0)

/-- `statement_return_get_expression`, compiler/AST.c:883-888. -/
def statementReturnGetExpression (v : List Int) (nd : Nat) : Option Nat := nodeGetChild v nd 0

/-- `statement_declaration`, compiler/AST.c:890-898. -/
def statementDeclaration (v : List Int) (context : Nat) : Nat × List Int := leaf v context OP_DECLSTMT [ITEM_MAX, ITEM_MAX]

/-- `statement_declaration_add_declarator`, compiler/AST.c:900-904. -/
def statementDeclarationAddDeclarator (v : List Int) (nd declarator : Nat) : Option (List Int) := attach v nd declarator

/-- `statement_declaration_set_location`, compiler/AST.c:906-913. -/
def statementDeclarationSetLocation (v : List Int) (nd : Nat) (loc : Loc) : List Int := setArgs v nd 0 loc.items

/-- `statement_declaration_get_size`, compiler/AST.c:915-919. -/
def statementDeclarationGetSize (v : List Int) (nd : Nat) : Nat := nodeGetAmount v nd

/-- `statement_declaration_get_declarator`, compiler/AST.c:921-925. -/
def statementDeclarationGetDeclarator (v : List Int) (nd : Nat) (index : Nat) : Option Nat := nodeGetChild v nd index

/-! ## Declarations -/

/-- `declaration_member`, compiler/AST.c:946-967. -/
def declarationMember (v : List Int) (context : Nat) (type : Int) (name : UInt64) (bounds : List Nat) (loc : Loc) :
    Option (Nat × List Int) :=
  let x := leaf v context OP_DECL_MEMBER ([type, toItem name.toNat] ++ loc.items)
  (attachAll x.2 x.1 bounds).map fun w => (x.1, w)

/-- `declaration_member_get_name`, compiler/AST.c:969-973. -/
def declarationMemberGetName (v : List Int) (nd : Nat) : Nat := toSize (nodeGetArg v nd 1)

/-- `declaration_member_get_type`, compiler/AST.c:975-979. -/
def declarationMemberGetType (v : List Int) (nd : Nat) : Int := nodeGetArg v nd 0

/-- `declaration_member_get_bounds_amount`, compiler/AST.c:981-985. -/
def declarationMemberGetBoundsAmount (v : List Int) (nd : Nat) : Nat := nodeGetAmount v nd

/-- `declaration_member_get_bound`, compiler/AST.c:987-991. -/
def declarationMemberGetBound (v : List Int) (nd : Nat) (index : Nat) : Option Nat := nodeGetChild v nd index

/-- `declaration_struct`, compiler/AST.c:994-1004. -/
def declarationStruct (v : List Int) (context : Nat) (name : UInt64) (loc : Loc) : Nat × List Int :=
  leaf v context OP_DECL_STRUCT ([toItem name.toNat, TYPE_UNDEFINED] ++ loc.items)

/-- `declaration_struct_add_declarator`, compiler/AST.c:1006-1010. -/
def declarationStructAddDeclarator (v : List Int) (nd member : Nat) : Option (List Int) := attach v nd member

/-- `declaration_struct_set_type`, compiler/AST.c:1012-1016. -/
def declarationStructSetType (v : List Int) (nd : Nat) (type : Int) : List Int := setArgs v nd 1 [type]

/-- `declaration_struct_set_location`, compiler/AST.c:1018-1025. -/
def declarationStructSetLocation (v : List Int) (nd : Nat) (loc : Loc) : List Int := setArgs v nd 2 loc.items

/-- `declaration_struct_get_name`, compiler/AST.c:1027-1031. -/
def declarationStructGetName (v : List Int) (nd : Nat) : Nat := toSize (nodeGetArg v nd 0)

/-- `declaration_struct_get_type`, compiler/AST.c:1033-1037. -/
def declarationStructGetType (v : List Int) (nd : Nat) : Int := nodeGetArg v nd 1

/-- `declaration_struct_get_size`, compiler/AST.c:1039-1043. -/
def declarationStructGetSize (v : List Int) (nd : Nat) : Nat := nodeGetAmount v nd

/-- `declaration_struct_get_member`, compiler/AST.c:1045-1049. -/
def declarationStructGetMember (v : List Int) (nd : Nat) (index : Nat) : Option Nat := nodeGetChild v nd index

/-- `declaration_variable`, compiler/AST.c:1052-1078; `none` is the `NULL` initializer. -/
def declarationVariable (v : List Int) (context : Nat) (id : UInt64) (bounds : List Nat) (initializer : Option Nat) (loc : Loc) :
    Option (Nat × List Int) :=
  let x := leaf v context OP_DECL_VAR ([toItem id.toNat, flag initializer.isSome] ++ loc.items)
  (attachAll x.2 x.1 bounds).bind fun w =>
  match initializer with
  | none => some (x.1, w)
  | some i => if isCorrect i then (attach w x.1 i).map fun w => (x.1, w) else some (x.1, w)

/-- `declaration_variable_get_id`, compiler/AST.c:1080-1084. -/
def declarationVariableGetId (v : List Int) (nd : Nat) : Nat := toSize (nodeGetArg v nd 0)

/-- `declaration_variable_has_initializer`, compiler/AST.c:1086-1090. -/
def declarationVariableHasInitializer (v : List Int) (nd : Nat) : Bool := decide (nodeGetArg v nd 1 ≠ 0)

/-- `declaration_variable_get_initializer`, compiler/AST.c:1092-1097. -/
def declarationVariableGetInitializer (v : List Int) (nd : Nat) : Option Nat := nodeGetChild v nd (usub (nodeGetAmount v nd) 1)

/-- `declaration_variable_get_bounds_amount`, compiler/AST.c:1099-1103. -/
def declarationVariableGetBoundsAmount (v : List Int) (nd : Nat) : Nat := 
  usub (nodeGetAmount v nd) (if declarationVariableHasInitializer v nd then 1 else 0)

/-- `declaration_variable_get_bound`, compiler/AST.c:1105-1109. -/
def declarationVariableGetBound (v : List Int) (nd : Nat) (index : Nat) : Option Nat := nodeGetChild v nd index

/-- The node of a function definition, compiler/parser.c:2062-2064, under the root. -/
def functionDefinition (v : List Int) (id : UInt64) : Nat × List Int := leaf v 0 OP_FUNC_DEF [toItem id.toNat, 0]

/-- The node of a parameter, compiler/parser.c:2082-2085. -/
def functionParameter (v : List Int) (nd : Nat) (id dim : UInt64) : Nat × List Int :=
  leaf v nd OP_DECL_VAR [toItem id.toNat, toItem dim.toNat, 0]

/-- The end of a function definition, compiler/parser.c:2093-2103. -/
def functionBody (v : List Int) (nd body : Nat) (maxDispl : Int) : Option (List Int) :=
  (attach v nd body).map fun w => setArgs w nd 1 [maxDispl]

/-- `declaration_function_get_id`, compiler/AST.c:1112-1116. -/
def declarationFunctionGetId (v : List Int) (nd : Nat) : Nat := toSize (nodeGetArg v nd 0)

/-- `declaration_function_get_parameters_amount`, compiler/AST.c:1118-1122. -/
def declarationFunctionGetParametersAmount (v : List Int) (nd : Nat) : Nat := usub (nodeGetAmount v nd) 1

/-- `declaration_function_get_parameter`, compiler/AST.c:1124-1130. -/
def declarationFunctionGetParameter (v : List Int) (nd index : Nat) : Nat :=
  toSize (nodeGetArg v ((nodeGetChild v nd index).getD SIZE_MAX) 0)

/-- `declaration_function_get_body`, compiler/AST.c:1132-1136. -/
def declarationFunctionGetBody (v : List Int) (nd : Nat) : Option Nat := nodeGetChild v nd (usub (nodeGetAmount v nd) 1)

/-- A declarator of the translation unit, compiler/parser.c:2225-2229; a structure, compiler/parser.c:1002-1004. -/
def globalDeclarator (v : List Int) (declarator : Nat) : Option (List Int) := attach v 0 declarator

/-- `translation_unit_get_size`, compiler/AST.c:1139-1143. -/
def translationUnitGetSize (v : List Int) (nd : Nat) : Nat := nodeGetAmount v nd

/-- `translation_unit_get_declaration`, compiler/AST.c:1145-1149. -/
def translationUnitGetDeclaration (v : List Int) (nd : Nat) (index : Nat) : Option Nat := nodeGetChild v nd index

end RuC.Ast
