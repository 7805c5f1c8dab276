import Verif.Ast.Model

/-!
# What the syntax tree is supposed to be

Abstract syntax, what it means that a node *reads* as a piece of abstract syntax (only by the answers of the
getters of `AST.h`), and which calls of the constructors are allowed when and what they stand for.
-/

namespace RuC.Ast
open RuC Tree

/-! ## Abstract syntax -/

inductive Lit
  | null
  | bool (b : Bool)
  | char (c : UInt32)
  | int (n : Int)
  | float (bits : Int)
  | str (index : UInt64)
deriving DecidableEq, Repr

mutual
/-- Expressions. -/
inductive E
  | ident (type : Int) (id : UInt64) (loc : Loc)
  | lit (type : Int) (l : Lit) (loc : Loc)
  | subscript (type : Int) (base index : E) (loc : Loc)
  | call (type : Int) (callee : E) (args : Es) (loc : Loc)
  | member (type : Int) (lvalue : Bool) (index : UInt64) (arrow : Bool) (base : E) (loc : Loc)
  | cast (type source : Int) (e : E) (loc : Loc)
  | unary (type : Int) (lvalue : Bool) (e : E) (op : UInt32) (loc : Loc)
  | binary (type : Int) (lhs rhs : E) (op : UInt32) (loc : Loc)
  | ternary (type : Int) (cond lhs rhs : E) (loc : Loc)
  | assign (type : Int) (lhs rhs : E) (op : UInt32) (loc : Loc)
  | init (type : Int) (elements : Es) (loc : Loc)
  | emptyBound (loc : Loc)
/-- Lists of expressions. -/
inductive Es
  | nil
  | cons (e : E) (es : Es)
end

mutual
/-- Declarations of variables, members and structures. -/
inductive D
  | var (id : UInt64) (bounds : Es) (init : Option E) (loc : Loc)
  | member (type : Int) (name : UInt64) (bounds : Es) (loc : Loc)
  | struct (name : UInt64) (type : Int) (members : Ds) (loc : Loc)
/-- Lists of declarations. -/
inductive Ds
  | nil
  | cons (d : D) (ds : Ds)
end

mutual
/-- Statements. -/
inductive St
  | expr (e : E)
  | case (e : E) (s : St) (loc : Loc)
  | default (s : St) (loc : Loc)
  | compound (ss : Ss) (loc : Loc)
  | null (loc : Loc)
  | ite (cond : E) (thenStmt : St) (elseStmt : OS) (loc : Loc)
  | switch (cond : E) (body : St) (loc : Loc)
  | while (cond : E) (body : St) (loc : Loc)
  | doWhile (body : St) (cond : E) (loc : Loc)
  | for (init : OS) (cond incr : Option E) (body : St) (loc : Loc)
  | continue (loc : Loc)
  | break (loc : Loc)
  | ret (e : Option E) (loc : Loc)
  | decl (ds : Ds) (loc : Loc)
/-- Lists of statements. -/
inductive Ss
  | nil
  | cons (s : St) (ss : Ss)
/-- A statement or nothing. -/
inductive OS
  | none
  | some (s : St)
end

def Es.length : Es → Nat
  | .nil => 0
  | .cons _ es => es.length + 1

def Ds.length : Ds → Nat
  | .nil => 0
  | .cons _ ds => ds.length + 1

def Ss.length : Ss → Nat
  | .nil => 0
  | .cons _ ss => ss.length + 1

def Es.ofList : List E → Es
  | [] => .nil
  | e :: l => .cons e (ofList l)

def Ss.ofList : List St → Ss
  | [] => .nil
  | s :: l => .cons s (ofList l)

/-- One more declaration at the end. -/
def Ds.snoc : Ds → D → Ds
  | .nil, d => .cons d .nil
  | .cons d ds, d' => .cons d (ds.snoc d')

/-- What can be built. -/
inductive Item
  | e (e : E)
  | s (s : St)
  | d (d : D)
  /-- A function with the variables and dimensions of its parameters, the room its variables need, and its body, if
  already there. -/
  | f (id : UInt64) (params : List (UInt64 × UInt64)) (displ : Int) (body : Option St)

/-- An expression can stand where a statement is wanted. -/
def Item.stmt : Item → Option St
  | .e x => some (.expr x)
  | .s x => some x
  | _ => none

/-! ## Reading -/

/-- The location is the one given. -/
def At (v : List Int) (nd : Nat) (loc : Loc) : Prop := nodeGetLocation v nd = (loc.1.toNat, loc.2.toNat)

/-- What all expressions have. -/
def Basic (v : List Int) (nd : Nat) (cls : ExprClass) (type : Int) (lvalue : Bool) (loc : Loc) : Prop :=
  expressionGetClass v nd = cls ∧ expressionGetType v nd = type ∧ expressionIsLvalue v nd = lvalue ∧ At v nd loc

/-- The value of a literal. -/
def ReadsLit (v : List Int) (nd : Nat) : Lit → Prop
  | .null => True
  | .bool b => expressionLiteralGetBoolean v nd = b
  | .char c => expressionLiteralGetCharacter v nd = c.toNat
  | .int n => expressionLiteralGetInteger v nd = n
  | .float bits => expressionLiteralGetFloating v nd = bits
  | .str i => expressionLiteralGetString v nd = i.toNat

mutual
/-- Node `nd` reads as the expression. -/
def ReadsE (v : List Int) : E → Nat → Prop
  | .ident ty id loc, nd => Basic v nd .identifier ty true loc ∧ expressionIdentifierGetId v nd = id.toNat
  | .lit ty l loc, nd => Basic v nd .literal ty false loc ∧ ReadsLit v nd l
  | .subscript ty b i loc, nd => Basic v nd .subscript ty true loc ∧
      (∃ m, expressionSubscriptGetBase v nd = some m ∧ ReadsE v b m) ∧
      (∃ m, expressionSubscriptGetIndex v nd = some m ∧ ReadsE v i m)
  | .call ty f as loc, nd => Basic v nd .call ty false loc ∧
      (∃ m, expressionCallGetCallee v nd = some m ∧ ReadsE v f m) ∧
      expressionCallGetArgumentsAmount v nd = as.length ∧ ReadsEs v as (expressionCallGetArgument v nd) 0
  | .member ty lv i arrow b loc, nd => Basic v nd .member ty lv loc ∧
      (∃ m, expressionMemberGetBase v nd = some m ∧ ReadsE v b m) ∧
      expressionMemberGetMemberIndex v nd = i.toNat ∧ expressionMemberIsArrow v nd = arrow
  | .cast ty src e loc, nd => Basic v nd .cast ty false loc ∧ expressionCastGetSourceType v nd = src ∧
      (∃ m, expressionCastGetOperand v nd = some m ∧ ReadsE v e m)
  | .unary ty lv e op loc, nd => Basic v nd .unary ty lv loc ∧ expressionUnaryGetOperator v nd = op.toNat ∧
      (∃ m, expressionUnaryGetOperand v nd = some m ∧ ReadsE v e m)
  | .binary ty l r op loc, nd => Basic v nd .binary ty false loc ∧ expressionBinaryGetOperator v nd = op.toNat ∧
      (∃ m, expressionBinaryGetLHS v nd = some m ∧ ReadsE v l m) ∧
      (∃ m, expressionBinaryGetRHS v nd = some m ∧ ReadsE v r m)
  | .ternary ty c l r loc, nd => Basic v nd .ternary ty false loc ∧
      (∃ m, expressionTernaryGetCondition v nd = some m ∧ ReadsE v c m) ∧
      (∃ m, expressionTernaryGetLHS v nd = some m ∧ ReadsE v l m) ∧
      (∃ m, expressionTernaryGetRHS v nd = some m ∧ ReadsE v r m)
  | .assign ty l r op loc, nd => Basic v nd .assignment ty false loc ∧ expressionAssignmentGetOperator v nd = op.toNat ∧
      (∃ m, expressionAssignmentGetLHS v nd = some m ∧ ReadsE v l m) ∧
      (∃ m, expressionAssignmentGetRHS v nd = some m ∧ ReadsE v r m)
  | .init ty es loc, nd => Basic v nd .initializer ty false loc ∧
      expressionInitializerGetSize v nd = es.length ∧ ReadsEs v es (expressionInitializerGetSubexpr v nd) 0
  | .emptyBound loc, nd => Basic v nd .emptyBound TYPE_INTEGER false loc
/-- What `get` answers for `i`, `i + 1`, … reads as the expressions. -/
def ReadsEs (v : List Int) : Es → (Nat → Option Nat) → Nat → Prop
  | .nil, _, _ => True
  | .cons e es, get, i => (∃ m, get i = some m ∧ ReadsE v e m) ∧ ReadsEs v es get (i + 1)
end

/-- A part that need not be there: `has` says whether it is, `get` answers it. -/
def ReadsOpt (v : List Int) (has : Bool) (get : Option Nat) : Option E → Prop
  | none => has = false
  | some e => has = true ∧ ∃ m, get = some m ∧ ReadsE v e m

mutual
/-- Node `nd` reads as the declaration. -/
def ReadsD (v : List Int) : D → Nat → Prop
  | .var id bounds init loc, nd => declarationGetClass v nd = .var ∧ At v nd loc ∧
      declarationVariableGetId v nd = id.toNat ∧
      declarationVariableGetBoundsAmount v nd = bounds.length ∧ ReadsEs v bounds (declarationVariableGetBound v nd) 0 ∧
      ReadsOpt v (declarationVariableHasInitializer v nd) (declarationVariableGetInitializer v nd) init
  | .member ty name bounds loc, nd => declarationGetClass v nd = .member ∧ At v nd loc ∧
      declarationMemberGetType v nd = ty ∧ declarationMemberGetName v nd = name.toNat ∧
      declarationMemberGetBoundsAmount v nd = bounds.length ∧ ReadsEs v bounds (declarationMemberGetBound v nd) 0
  | .struct name ty ms loc, nd => declarationGetClass v nd = .struct ∧ At v nd loc ∧
      declarationStructGetName v nd = name.toNat ∧ declarationStructGetType v nd = ty ∧
      declarationStructGetSize v nd = ms.length ∧ ReadsDs v ms (declarationStructGetMember v nd) 0
def ReadsDs (v : List Int) : Ds → (Nat → Option Nat) → Nat → Prop
  | .nil, _, _ => True
  | .cons d ds, get, i => (∃ m, get i = some m ∧ ReadsD v d m) ∧ ReadsDs v ds get (i + 1)
end

mutual
/-- Node `nd` reads as the statement. -/
def ReadsSt (v : List Int) : St → Nat → Prop
  | .expr e, nd => statementGetClass v nd = .expr ∧ ReadsE v e nd
  | .case e s loc, nd => statementGetClass v nd = .case ∧ At v nd loc ∧
      (∃ m, statementCaseGetExpression v nd = some m ∧ ReadsE v e m) ∧
      (∃ m, statementCaseGetSubstmt v nd = some m ∧ ReadsSt v s m)
  | .default s loc, nd => statementGetClass v nd = .default ∧ At v nd loc ∧
      (∃ m, statementDefaultGetSubstmt v nd = some m ∧ ReadsSt v s m)
  | .compound ss loc, nd => statementGetClass v nd = .compound ∧ At v nd loc ∧
      statementCompoundGetSize v nd = ss.length ∧ ReadsSs v ss (statementCompoundGetSubstmt v nd) 0
  | .null loc, nd => statementGetClass v nd = .null ∧ At v nd loc
  | .ite c t e loc, nd => statementGetClass v nd = .if ∧ At v nd loc ∧
      (∃ m, statementIfGetCondition v nd = some m ∧ ReadsE v c m) ∧
      (∃ m, statementIfGetThenSubstmt v nd = some m ∧ ReadsSt v t m) ∧
      ReadsOS v e (statementIfHasElseSubstmt v nd) (statementIfGetElseSubstmt v nd)
  | .switch c b loc, nd => statementGetClass v nd = .switch ∧ At v nd loc ∧
      (∃ m, statementSwitchGetCondition v nd = some m ∧ ReadsE v c m) ∧
      (∃ m, statementSwitchGetBody v nd = some m ∧ ReadsSt v b m)
  | .while c b loc, nd => statementGetClass v nd = .while ∧ At v nd loc ∧
      (∃ m, statementWhileGetCondition v nd = some m ∧ ReadsE v c m) ∧
      (∃ m, statementWhileGetBody v nd = some m ∧ ReadsSt v b m)
  | .doWhile b c loc, nd => statementGetClass v nd = .do ∧ At v nd loc ∧
      (∃ m, statementDoGetCondition v nd = some m ∧ ReadsE v c m) ∧
      (∃ m, statementDoGetBody v nd = some m ∧ ReadsSt v b m)
  | .for i c n b loc, nd => statementGetClass v nd = .for ∧ At v nd loc ∧
      ReadsOS v i (statementForHasInition v nd) (statementForGetInition v nd) ∧
      ReadsOpt v (statementForHasCondition v nd) (statementForGetCondition v nd) c ∧
      ReadsOpt v (statementForHasIncrement v nd) (statementForGetIncrement v nd) n ∧
      (∃ m, statementForGetBody v nd = some m ∧ ReadsSt v b m)
  | .continue loc, nd => statementGetClass v nd = .continue ∧ At v nd loc
  | .break loc, nd => statementGetClass v nd = .break ∧ At v nd loc
  | .ret e loc, nd => statementGetClass v nd = .return ∧ At v nd loc ∧
      ReadsOpt v (statementReturnHasExpression v nd) (statementReturnGetExpression v nd) e
  | .decl ds loc, nd => statementGetClass v nd = .decl ∧ At v nd loc ∧
      statementDeclarationGetSize v nd = ds.length ∧ ReadsDs v ds (statementDeclarationGetDeclarator v nd) 0
def ReadsSs (v : List Int) : Ss → (Nat → Option Nat) → Nat → Prop
  | .nil, _, _ => True
  | .cons s ss, get, i => (∃ m, get i = some m ∧ ReadsSt v s m) ∧ ReadsSs v ss get (i + 1)
def ReadsOS (v : List Int) : OS → Bool → Option Nat → Prop
  | .none, has, _ => has = false
  | .some s, has, get => has = true ∧ ∃ m, get = some m ∧ ReadsSt v s m
end

/-- Node `nd` reads as the item.  A function reads when it has a body. -/
def ReadsItem (v : List Int) (nd : Nat) : Item → Prop
  | .e e => ReadsE v e nd
  | .s s => ReadsSt v s nd
  | .d d => ReadsD v d nd
  | .f id ps displ body => declarationGetClass v nd = .func ∧ declarationFunctionGetId v nd = id.toNat ∧
      nodeGetArg v nd 1 = displ ∧
      ∀ b, body = some b → declarationFunctionGetParametersAmount v nd = ps.length ∧
        (∀ i p, ps[i]? = some p → declarationFunctionGetParameter v nd i = p.1.toNat) ∧
        ∃ m, declarationFunctionGetBody v nd = some m ∧ ReadsSt v b m

/-! ## Histories of calls -/

/-- One call.  `c` is always the node under which a new one is made. -/
inductive Call
  | ident (c : Nat) (type : Int) (id : UInt64) (loc : Loc)
  | nullLit (c : Nat) (type : Int) (loc : Loc)
  | boolLit (c : Nat) (type : Int) (value : Bool) (loc : Loc)
  | charLit (c : Nat) (type : Int) (value : UInt32) (loc : Loc)
  | intLit (c : Nat) (type : Int) (value : Int) (loc : Loc)
  | floatLit (c : Nat) (type : Int) (bits : Int) (loc : Loc)
  | strLit (c : Nat) (type : Int) (index : UInt64) (loc : Loc)
  | emptyBound (c : Nat) (loc : Loc)
  | subscript (type : Int) (base index : Nat) (loc : Loc)
  | call (type : Int) (callee : Nat) (args : List Nat) (loc : Loc)
  | member (type : Int) (lvalue : Bool) (index : UInt64) (arrow : Bool) (base : Nat) (loc : Loc)
  | cast (target source : Int) (e : Nat) (loc : Loc)
  | unary (type : Int) (lvalue : Bool) (e : Nat) (op : UInt32) (loc : Loc)
  | binary (type : Int) (lhs rhs : Nat) (op : UInt32) (loc : Loc)
  | ternary (type : Int) (cond lhs rhs : Nat) (loc : Loc)
  | assign (type : Int) (lhs rhs : Nat) (op : UInt32) (loc : Loc)
  | init (fst : Nat) (rest : List Nat) (loc : Loc)
  | initType (nd : Nat) (type : Int)
  | toFloat (nd : Nat) (bits : Int) (loc : Loc)
  | case (e s : Nat) (loc : Loc)
  | default (s : Nat) (loc : Loc)
  | compound (c : Nat) (stmts : List Nat) (loc : Loc)
  | null (c : Nat) (loc : Loc)
  | ite (cond thenStmt elseStmt : Nat) (loc : Loc)
  | switch (cond body : Nat) (loc : Loc)
  | while (cond body : Nat) (loc : Loc)
  | doWhile (body cond : Nat) (loc : Loc)
  | for (init cond incr body : Nat) (loc : Loc)
  | continue (c : Nat) (loc : Loc)
  | break (c : Nat) (loc : Loc)
  | ret (c : Nat) (e : Nat) (loc : Loc)
  | decl (c : Nat)
  | declAdd (nd d : Nat)
  | declLoc (nd : Nat) (loc : Loc)
  | memberDecl (c : Nat) (type : Int) (name : UInt64) (bounds : List Nat) (loc : Loc)
  | struct (c : Nat) (name : UInt64) (loc : Loc)
  | structAdd (nd d : Nat)
  | structType (nd : Nat) (type : Int)
  | structLoc (nd : Nat) (loc : Loc)
  | var (c : Nat) (id : UInt64) (bounds : List Nat) (init : Option Nat) (loc : Loc)
  | func (id : UInt64)
  | param (nd : Nat) (id dim : UInt64)
  | body (nd b : Nat) (displ : Int)
  | global (nd : Nat)
  | discard (nd : Nat)
deriving Repr

/-- Execute a call: the node it answers (the one it changes, when it makes none) and the vector. -/
def run (v : List Int) : Call → Option (Nat × List Int)
  | .ident c ty id loc => some (expressionIdentifier v c ty id loc)
  | .nullLit c ty loc => some (expressionNullLiteral v c ty loc)
  | .boolLit c ty b loc => some (expressionBooleanLiteral v c ty b loc)
  | .charLit c ty x loc => some (expressionCharacterLiteral v c ty x loc)
  | .intLit c ty x loc => some (expressionIntegerLiteral v c ty x loc)
  | .floatLit c ty x loc => some (expressionFloatingLiteral v c ty x loc)
  | .strLit c ty x loc => some (expressionStringLiteral v c ty x loc)
  | .emptyBound c loc => some (expressionEmptyBound v c loc)
  | .subscript ty b i loc => expressionSubscript v ty b i loc
  | .call ty f as loc => expressionCall v ty f as loc
  | .member ty lv i arrow b loc => expressionMember v ty lv i arrow b loc
  | .cast ty src e loc => expressionCast v ty src e loc
  | .unary ty lv e op loc => expressionUnary v ty lv e op loc
  | .binary ty l r op loc => expressionBinary v ty l r op loc
  | .ternary ty c l r loc => expressionTernary v ty c l r loc
  | .assign ty l r op loc => expressionAssignment v ty l r op loc
  | .init fst rest loc => expressionInitializer v fst rest loc
  | .initType nd ty => some (nd, expressionInitializerSetType v nd ty)
  | .toFloat nd bits loc => literalToFloating v nd bits loc
  | .case e s loc => statementCase v e s loc
  | .default s loc => statementDefault v s loc
  | .compound c ss loc => statementCompound v c ss loc
  | .null c loc => some (statementNull v c loc)
  | .ite c t e loc => statementIf v c t e loc
  | .switch c b loc => statementSwitch v c b loc
  | .while c b loc => statementWhile v c b loc
  | .doWhile b c loc => statementDo v b c loc
  | .for i c n b loc => statementFor v i c n b loc
  | .continue c loc => some (statementContinue v c loc)
  | .break c loc => some (statementBreak v c loc)
  | .ret c e loc => statementReturn v c e loc
  | .decl c => some (statementDeclaration v c)
  | .declAdd nd d => (statementDeclarationAddDeclarator v nd d).map fun w => (nd, w)
  | .declLoc nd loc => some (nd, statementDeclarationSetLocation v nd loc)
  | .memberDecl c ty name bounds loc => declarationMember v c ty name bounds loc
  | .struct c name loc => some (declarationStruct v c name loc)
  | .structAdd nd d => (declarationStructAddDeclarator v nd d).map fun w => (nd, w)
  | .structType nd ty => some (nd, declarationStructSetType v nd ty)
  | .structLoc nd loc => some (nd, declarationStructSetLocation v nd loc)
  | .var c id bounds init loc => declarationVariable v c id bounds init loc
  | .func id => some (functionDefinition v id)
  | .param nd id dim => some (functionParameter v nd id dim)
  | .body nd b displ => (functionBody v nd b displ).map fun w => (nd, w)
  | .global nd => (globalDeclarator v nd).map fun w => (nd, w)
  | .discard nd => (nodeRemove v nd).map fun w => (nd, w.2)

/-- A bound on the cells a call may need. -/
def Call.cost : Call → Nat
  | .call _ _ as _ | .init _ as _ | .compound _ as _ | .memberDecl _ _ _ as _ | .var _ _ as _ _ => 30 + 5 * as.length
  | _ => 30

/-- What has been built: the items that are not part of another one, with their nodes; among them those that
belong to the translation unit, in their order; the nodes under which new ones may be made. -/
structure State where
  items : List (Nat × Item)
  tops : List Nat
  ctx : List Nat

/-- Replace the items by `rest` and one more. -/
def State.put (A : State) (rest : List (Nat × Item)) (n : Nat) (i : Item) : State := { A with items := (n, i) :: rest }

/-- `ops` are items (in any order among the others) that do not belong to the translation unit; the others are `rest`. -/
def State.Takes (A : State) (ops rest : List (Nat × Item)) : Prop :=
  A.items.Perm (ops ++ rest) ∧ ∀ o ∈ ops, o.1 ∉ A.tops

/-- An operand that may be missing: broken handle, or an item. -/
inductive OptE : Nat → Option E → List (Nat × Item) → Prop
  | none : OptE SIZE_MAX none []
  | some {n e} : OptE n (some e) [(n, .e e)]

inductive OptS : Nat → OS → List (Nat × Item) → Prop
  | none : OptS SIZE_MAX .none []
  | some {n i s} (h : Item.stmt i = some s) : OptS n (.some s) [(n, i)]

/-- Operands that are expressions. -/
def exprs (l : List (Nat × E)) : List (Nat × Item) := l.map fun x => (x.1, .e x.2)

/-- The location of a declaration statement before it is set. -/
def noLoc : Loc := (9223372036854775807, 9223372036854775807)

/-- The calls allowed in a state, each with the state after it, given the node it answers.  Operands are items
that were built before and are not yet part of another one; apart from that calls may come in any order. -/
inductive Use (A : State) : Call → (Nat → State) → Prop
  | ident {c ty id loc} (hc : c ∈ A.ctx) : Use A (.ident c ty id loc) fun n => A.put A.items n (.e (.ident ty id loc))
  | nullLit {c ty loc} (hc : c ∈ A.ctx) : Use A (.nullLit c ty loc) fun n => A.put A.items n (.e (.lit ty .null loc))
  | boolLit {c ty b loc} (hc : c ∈ A.ctx) : Use A (.boolLit c ty b loc) fun n => A.put A.items n (.e (.lit ty (.bool b) loc))
  | charLit {c ty x loc} (hc : c ∈ A.ctx) : Use A (.charLit c ty x loc) fun n => A.put A.items n (.e (.lit ty (.char x) loc))
  | intLit {c ty x loc} (hc : c ∈ A.ctx) : Use A (.intLit c ty x loc) fun n => A.put A.items n (.e (.lit ty (.int x) loc))
  | floatLit {c ty x loc} (hc : c ∈ A.ctx) : Use A (.floatLit c ty x loc) fun n => A.put A.items n (.e (.lit ty (.float x) loc))
  | strLit {c ty x loc} (hc : c ∈ A.ctx) : Use A (.strLit c ty x loc) fun n => A.put A.items n (.e (.lit ty (.str x) loc))
  | emptyBound {c loc} (hc : c ∈ A.ctx) : Use A (.emptyBound c loc) fun n => A.put A.items n (.e (.emptyBound loc))
  | subscript {ty b i loc x y rest} (h : A.Takes [(b, .e x), (i, .e y)] rest) :
      Use A (.subscript ty b i loc) fun n => A.put rest n (.e (.subscript ty x y loc))
  | call {ty f x loc rest} {as : List (Nat × E)} (h : A.Takes ((f, .e x) :: exprs as) rest) :
      Use A (.call ty f (as.map (·.1)) loc) fun n => A.put rest n (.e (.call ty x (.ofList (as.map (·.2))) loc))
  | member {ty lv i arrow b loc x rest} (h : A.Takes [(b, .e x)] rest) :
      Use A (.member ty lv i arrow b loc) fun n => A.put rest n (.e (.member ty lv i arrow x loc))
  | cast {ty src e loc x rest} (h : A.Takes [(e, .e x)] rest) :
      Use A (.cast ty src e loc) fun n => A.put rest n (.e (.cast ty src x loc))
  | unary {ty lv e op loc x rest} (h : A.Takes [(e, .e x)] rest) :
      Use A (.unary ty lv e op loc) fun n => A.put rest n (.e (.unary ty lv x op loc))
  | binary {ty l r op loc x y rest} (h : A.Takes [(l, .e x), (r, .e y)] rest) :
      Use A (.binary ty l r op loc) fun n => A.put rest n (.e (.binary ty x y op loc))
  | ternary {ty c l r loc x y z rest} (h : A.Takes [(c, .e x), (l, .e y), (r, .e z)] rest) :
      Use A (.ternary ty c l r loc) fun n => A.put rest n (.e (.ternary ty x y z loc))
  | assign {ty l r op loc x y rest} (h : A.Takes [(l, .e x), (r, .e y)] rest) :
      Use A (.assign ty l r op loc) fun n => A.put rest n (.e (.assign ty x y op loc))
  | init {f x loc rest} {as : List (Nat × E)} (h : A.Takes ((f, .e x) :: exprs as) rest) :
      Use A (.init f (as.map (·.1)) loc) fun n =>
        A.put rest n (.e (.init TYPE_UNDEFINED (.cons x (.ofList (as.map (·.2)))) loc))
  | initType {nd ty old es loc rest} (h : A.items.Perm ((nd, .e (.init old es loc)) :: rest)) :
      Use A (.initType nd ty) fun _ => A.put rest nd (.e (.init ty es loc))
  | toFloat {nd bits loc ty l old rest} (h : A.Takes [(nd, .e (.lit ty l old))] rest) :
      Use A (.toFloat nd bits loc) fun n => A.put rest n (.e (.lit TYPE_FLOATING (.float bits) loc))
  | case {e s loc x i y rest} (h : A.Takes [(e, .e x), (s, i)] rest) (hi : i.stmt = some y) :
      Use A (.case e s loc) fun n => A.put rest n (.s (.case x y loc))
  | default {s loc i y rest} (h : A.Takes [(s, i)] rest) (hi : i.stmt = some y) :
      Use A (.default s loc) fun n => A.put rest n (.s (.default y loc))
  | compound {c loc rest} {as : List (Nat × Item)} {ss : List St} (hc : c ∈ A.ctx) (h : A.Takes as rest)
      (hs : as.map (·.2.stmt) = ss.map some) :
      Use A (.compound c (as.map (·.1)) loc) fun n => A.put rest n (.s (.compound (.ofList ss) loc))
  | null {c loc} (hc : c ∈ A.ctx) : Use A (.null c loc) fun n => A.put A.items n (.s (.null loc))
  | ite {c t e loc x i y z os rest} (ho : OptS e z os) (h : A.Takes ((c, .e x) :: (t, i) :: os) rest) (hi : i.stmt = some y) :
      Use A (.ite c t e loc) fun n => A.put rest n (.s (.ite x y z loc))
  | switch {c b loc x i y rest} (h : A.Takes [(c, .e x), (b, i)] rest) (hi : i.stmt = some y) :
      Use A (.switch c b loc) fun n => A.put rest n (.s (.switch x y loc))
  | while {c b loc x i y rest} (h : A.Takes [(c, .e x), (b, i)] rest) (hi : i.stmt = some y) :
      Use A (.while c b loc) fun n => A.put rest n (.s (.while x y loc))
  | doWhile {c b loc x i y rest} (h : A.Takes [(b, i), (c, .e x)] rest) (hi : i.stmt = some y) :
      Use A (.doWhile b c loc) fun n => A.put rest n (.s (.doWhile y x loc))
  | for {i c n b loc x y z j w o1 o2 o3 rest} (h1 : OptS i x o1) (h2 : OptE c y o2) (h3 : OptE n z o3)
      (h : A.Takes ((b, j) :: (o1 ++ o2 ++ o3)) rest) (hj : j.stmt = some w) :
      Use A (.for i c n b loc) fun m => A.put rest m (.s (.for x y z w loc))
  | continue {c loc} (hc : c ∈ A.ctx) : Use A (.continue c loc) fun n => A.put A.items n (.s (.continue loc))
  | break {c loc} (hc : c ∈ A.ctx) : Use A (.break c loc) fun n => A.put A.items n (.s (.break loc))
  | ret {c e loc x os rest} (hc : c ∈ A.ctx) (ho : OptE e x os) (h : A.Takes os rest) :
      Use A (.ret c e loc) fun n => A.put rest n (.s (.ret x loc))
  | decl {c} (hc : c ∈ A.ctx) : Use A (.decl c) fun n => A.put A.items n (.s (.decl .nil noLoc))
  | declAdd {nd d ds loc x rest} (h : A.items.Perm ((nd, .s (.decl ds loc)) :: (d, .d x) :: rest)) (hd : d ∉ A.tops) :
      Use A (.declAdd nd d) fun _ => A.put rest nd (.s (.decl (ds.snoc x) loc))
  | declLoc {nd loc ds old rest} (h : A.items.Perm ((nd, .s (.decl ds old)) :: rest)) :
      Use A (.declLoc nd loc) fun _ => A.put rest nd (.s (.decl ds loc))
  | memberDecl {c ty name loc rest} {as : List (Nat × E)} (hc : c ∈ A.ctx) (h : A.Takes (exprs as) rest) :
      Use A (.memberDecl c ty name (as.map (·.1)) loc) fun n => A.put rest n (.d (.member ty name (.ofList (as.map (·.2))) loc))
  | struct {c name loc} (hc : c ∈ A.ctx) :
      Use A (.struct c name loc) fun n => A.put A.items n (.d (.struct name TYPE_UNDEFINED .nil loc))
  | structAdd {nd d name ty ds loc x rest} (h : A.items.Perm ((nd, .d (.struct name ty ds loc)) :: (d, .d x) :: rest))
      (hd : d ∉ A.tops) : Use A (.structAdd nd d) fun _ => A.put rest nd (.d (.struct name ty (ds.snoc x) loc))
  | structType {nd ty name old ds loc rest} (h : A.items.Perm ((nd, .d (.struct name old ds loc)) :: rest)) :
      Use A (.structType nd ty) fun _ => A.put rest nd (.d (.struct name ty ds loc))
  | structLoc {nd ty name old ds loc rest} (h : A.items.Perm ((nd, .d (.struct name ty ds old)) :: rest)) :
      Use A (.structLoc nd loc) fun _ => A.put rest nd (.d (.struct name ty ds loc))
  | var {c id loc rest} {as : List (Nat × E)} (hc : c ∈ A.ctx) (h : A.Takes (exprs as) rest) :
      Use A (.var c id (as.map (·.1)) none loc) fun n => A.put rest n (.d (.var id (.ofList (as.map (·.2))) none loc))
  | varInit {c id loc i x rest} {as : List (Nat × E)} (hc : c ∈ A.ctx) (h : A.Takes (exprs as ++ [(i, .e x)]) rest) :
      Use A (.var c id (as.map (·.1)) (some i) loc) fun n =>
        A.put rest n (.d (.var id (.ofList (as.map (·.2))) (some x) loc))
  | func {id} : Use A (.func id) fun n =>
      { items := (n, .f id [] 0 none) :: A.items, tops := A.tops ++ [n], ctx := n :: A.ctx }
  | param {nd id dim fid ps displ rest} (h : A.items.Perm ((nd, .f fid ps displ none) :: rest)) :
      Use A (.param nd id dim) fun _ => A.put rest nd (.f fid (ps ++ [(id, dim)]) displ none)
  | body {nd b displ fid ps old i s rest} (h : A.items.Perm ((nd, .f fid ps old none) :: (b, i) :: rest)) (hb : b ∉ A.tops)
      (hi : i.stmt = some s) : Use A (.body nd b displ) fun _ => A.put rest nd (.f fid ps displ (some s))
  | global {nd x rest} (h : A.Takes [(nd, .d x)] rest) : Use A (.global nd) fun _ => { A with tops := A.tops ++ [nd] }
  | discard {nd i rest} (h : A.Takes [(nd, i)] rest) : Use A (.discard nd) fun _ => { A with items := rest }

/-- The stored vectors that allowed calls produce from a new tree, with what has been built and a bound on the
cells asked for. -/
inductive Hist : Nat → List Int → State → Prop
  | new {v} (h : nodeGetRoot [] = (some 0, v)) : Hist 3 v { items := [], tops := [], ctx := [0] }
  | call {k v A c f n v'} (h : Hist k v A) (hu : Use A c f) (hr : run v c = some (n, v')) : Hist (k + c.cost) v' (f n)

end RuC.Ast
