import Verif.Machine.Spec

/-!
# The programs the theorems speak of

Integer expressions whose variables the compiler has placed, statements over them.  Some expressions are left out because
their code does not compute their value (`Machine.Props` has witnesses): a left operand of `||` that may be neither 0 nor 1,
where more than the truth of the value is needed; a left operand of a comma, inside of an expression, that leaves its value on the stack.  So are `switch`es that fall through from one label to the next, or
have labels behind their `default`.
-/

namespace RuC.Machine

open RuC RuC.Codegen RuC.Instr
open RuC.Expr (Unary Binary)

/-- One cell that is not an address. -/
def Scalar (t : Ty) : Prop := t = .integer ∨ t = .other

/-- The value is 0 or 1. -/
def Exp.Logical : Exp → Prop
  | .lit v => v = 0 ∨ v = 1
  | .cast _ e => Logical e
  | .unary op _ _ => op = .logNot
  | .binary op _ _ _ => op ∈ [Binary.lt, .gt, .le, .ge, .eq, .ne, .logAnd, .logOr]
  | .comma _ r => Logical r
  | .ternary _ a b => Logical a ∧ Logical b
  | _ => False

/-- As a statement, the expression leaves nothing on the stack. -/
def Exp.Quiet : Exp → Prop
  | .ident _ _ => True
  | .assign op _ _ _ => op ∈ [Binary.assign, .addAssign, .subAssign, .mulAssign, .divAssign]
  | .incdec _ _ _ => True
  | .print _ _ => True
  | .printf _ _ _ => True
  | .comma _ (.ident _ _) => False
  | .comma _ r => Quiet r
  | .cast _ (.ident _ _) => False
  | .cast _ e => Quiet e
  | _ => False

def argsLength : Args → Nat
  | .nil => 0
  | .cons _ rest => argsLength rest + 1

mutual
/-- An expression of the fragment.  `ok` tells the variables that may stand in it; `tr` says that only the truth of its
value is asked for. -/
def FitsE (ok : Nat → Prop) (tr : Bool) : Exp → Prop
  | .lit _ => True
  | .ident id t => ok id ∧ Scalar t
  | .cast w e => w = false ∧ FitsE ok tr e
  | .unary op e t => ((op = .minus ∨ op = .abs) → t = .integer) ∧ FitsE ok (decide (op = .logNot)) e
  | .binary op l r fl => fl = false ∧ op ≠ .assign ∧ compound op = none ∧
    (if op = .logAnd then FitsE ok true l ∧ FitsE ok true r
     else if op = .logOr then FitsE ok tr l ∧ (tr = false → Exp.Logical l) ∧ FitsE ok true r
     else FitsE ok false l ∧ FitsE ok false r)
  | .comma l r => ((∃ id t, l = .ident id t) ∨ FitsE ok true l) ∧ Exp.Quiet l ∧ FitsE ok tr r
  | .ternary c a b => FitsE ok true c ∧ FitsE ok tr a ∧ FitsE ok tr b
  | .assign _ l r t => (∃ id t', l = .ident id t' ∧ ok id) ∧ Scalar t ∧ FitsE ok false r
  | .incdec _ l t => (∃ id t', l = .ident id t' ∧ ok id) ∧ Scalar t
  | .call _ args => FitsA ok args
  | .print e t => t < MIN_INSTRUCTION_CODE ∧ FitsE ok false e
  | .printf f args n => (∃ chars, f = .str chars) ∧ n = argsLength args ∧ n < MIN_INSTRUCTION_CODE ∧ FitsA ok args
  | _ => False
/-- Arguments of the fragment. -/
def FitsA (ok : Nat → Prop) : Args → Prop
  | .nil => True
  | .cons e rest => FitsE ok false e ∧ FitsA ok rest
end

/-- An expression statement of the fragment. -/
def FitsV (ok : Nat → Prop) (e : Exp) : Prop := (∃ id t, e = .ident id t) ∨ FitsE ok true e

/-- The variables a statement leaves in scope. -/
def opens : Stmt → List Nat
  | .seq a b => opens a ++ opens b
  | .var id _ _ _ | .arr id _ _ _ _ _ _ => [id]
  | _ => []

/-- No identifier is declared in both. -/
def Disjoint (a b : Stmt) : Prop := ∀ id ∈ a.declared, id ∉ b.declared

/-- The statement does not end in front of the next one. -/
def Leaves : Stmt → Prop
  | .break_ | .continue_ | .return_ _ => True
  | .seq a b => Leaves a ∨ Leaves b
  | .block a => Leaves a
  | .ifElse _ a b => Leaves a ∧ Leaves b
  | _ => False

mutual
/-- A statement of the fragment in a function: `ok` tells the variables that may stand in it, `global` the globals.  A
name is declared once in a function, and names no global. -/
def InS (ok : Nat → Prop) (global : Nat → Bool) : Stmt → Prop
  | .skip | .continue_ | .break_ | .return_ none => True
  | .seq a b => InS ok global a ∧ InS ok global b ∧ Disjoint a b
  | .block s => InS ok global s
  | .var id t p i => global id = false ∧ Scalar t ∧ (p = 0 ∨ p = ITEM_MAX) ∧ (∀ e, i = some e → FitsE ok false e)
  | .expr e => FitsV ok e
  | .if_ c s => FitsE ok true c ∧ opens s = [] ∧ InS ok global s
  | .ifElse c a b => FitsE ok true c ∧ opens a = [] ∧ opens b = [] ∧ InS ok global a ∧ InS ok global b ∧ Disjoint a b
  | .while_ c s => FitsE ok true c ∧ opens s = [] ∧ InS ok global s
  | .do_ s c => FitsE ok true c ∧ opens s = [] ∧ InS ok global s
  | .for_ i c n s => InS ok global i ∧ (∀ e, c = some e → FitsE ok true e) ∧
    (∀ e, n = some e → FitsV ok e) ∧ opens s = [] ∧ InS ok global s ∧ Disjoint i s
  | .switch c b => FitsE ok false c ∧ InArms ok global b
  | .return_ (some (e, n)) => n = 1 ∧ FitsE ok false e
  | _ => False
/-- The body of a `switch` of the fragment: its `default` is the last label, and the statements behind each other label leave it
(`Machine.Props` has witnesses for the others). -/
def InArms (ok : Nat → Prop) (global : Nat → Bool) : Stmt → Prop
  | .skip => True
  | .case e x => (∃ k, e = .lit k) ∧ opens x = [] ∧ InS ok global x
  | .default x => opens x = [] ∧ InS ok global x
  | .seq (.case e x) r => (∃ k, e = .lit k) ∧ opens x = [] ∧ InS ok global x ∧ (Leaves x ∨ r = .skip) ∧ InArms ok global r ∧ Disjoint x r
  | .block b => InArms ok global b
  | _ => False
end

/-- A function of the fragment: its parameters are of one cell and have names of their own; it has less than 9000 cells
(the compiler takes a larger displacement for an instruction). -/
structure InF (ok : Nat → Prop) (global : Nat → Bool) (d : Func) : Prop where
  scalar : ∀ p ∈ d.params, Scalar p.2
  nodup : (d.params.map (·.1)).Nodup
  locals : ∀ id ∈ d.params.map (·.1), global id = false
  apart : ∀ id ∈ d.params.map (·.1), id ∉ d.body.declared
  body : InS ok global d.body
  few : d.params.length + d.body.declared.length ≤ 8997

/-- Declarations of globals; `G` are those before. -/
def InG (G : List Nat) : Stmt → Prop
  | .skip => True
  | .seq a b => InG G a ∧ InG (G ++ a.declared) b
  | .var id t p i => Scalar t ∧ (p = 0 ∨ p = ITEM_MAX) ∧ (∀ e, i = some e → FitsE (fun j => j ∈ G ++ [id]) false e)
  | _ => False

/-- A unit of the fragment: `all` are its globals, `G` those declared so far.  A global is used behind its declaration. -/
def InU (all : List Nat) : List Nat → List Top → Prop
  | _, [] => True
  | G, .vars d :: rest => InG G d ∧ InU all (G ++ d.declared) rest
  | G, .func f :: rest => InF (fun id => id ∈ all → id ∈ G) (fun id => decide (id ∈ all)) f ∧ InU all G rest

mutual
/-- A statement of the fragment in a function that is laid out in a certain way: `ok` tells the variables that may stand in it when the variables are laid
out that way. -/
def FitsS (ok : Layout → Nat → Prop) (global : Nat → Bool) (L : Layout) : Stmt → Prop
  | .skip | .continue_ | .break_ | .return_ none => True
  | .seq a b => FitsS ok global L a ∧ FitsS ok global (layS L a) b ∧ Disjoint a b
  | .block s => FitsS ok global L s
  | .var id t p i => global id = false ∧ Scalar t ∧ (p = 0 ∨ p = ITEM_MAX) ∧ ok (L.add id t) id ∧
    (∀ e, i = some e → FitsE (ok (L.add id t)) false e)
  | .expr e => FitsV (ok L) e
  | .if_ c s => FitsE (ok L) true c ∧ opens s = [] ∧ FitsS ok global L s
  | .ifElse c a b => FitsE (ok L) true c ∧ opens a = [] ∧ opens b = [] ∧ FitsS ok global L a ∧ FitsS ok global (layS L a) b ∧ Disjoint a b
  | .while_ c s => FitsE (ok L) true c ∧ opens s = [] ∧ FitsS ok global L s
  | .do_ s c => FitsE (ok (layS L s)) true c ∧ opens s = [] ∧ FitsS ok global L s
  | .for_ i c n s => FitsS ok global L i ∧ (∀ e, c = some e → FitsE (ok (layS L i)) true e) ∧
    (∀ e, n = some e → FitsV (ok (layS (layS L i) s)) e) ∧ opens s = [] ∧ FitsS ok global (layS L i) s ∧ Disjoint i s
  | .switch c b => FitsE (ok L) false c ∧ FitsArms ok global L b
  | .return_ (some (e, n)) => n = 1 ∧ FitsE (ok L) false e
  | _ => False
/-- The body of a `switch` of the fragment: its `default` is the last label, and the statements behind each other label leave it
(`Machine.Props` has witnesses for the others). -/
def FitsArms (ok : Layout → Nat → Prop) (global : Nat → Bool) (L : Layout) : Stmt → Prop
  | .skip => True
  | .case e x => (∃ k, e = .lit k) ∧ opens x = [] ∧ FitsS ok global L x
  | .default x => opens x = [] ∧ FitsS ok global L x
  | .seq (.case e x) r => (∃ k, e = .lit k) ∧ opens x = [] ∧ FitsS ok global L x ∧ (Leaves x ∨ r = .skip) ∧ FitsArms ok global (layS L x) r ∧ Disjoint x r
  | .block b => FitsArms ok global L b
  | _ => False
end

end RuC.Machine
