import Verif.Llvm.Model

/-!
# Trees for which the generator does the right thing

Everything that is asked for here is asked for because the generator gives wrong code otherwise; `Props` has such trees.  The predicates only look at the tree.
-/

namespace RuC.Llvm

/-- In what way the generator leaves the value of an expression. -/
def kindOf : Exp → Kind
  | .int _ | .bool _ => .const
  | .str _ => .str
  | .ident .. | .un .. | .inc .. | .arith .. | .ternary .. => .reg
  | .not e => kindOf e
  | .cmp .. | .logic .. => .logic
  | .comma _ r => kindOf r
  | .assign none _ _ e => if kindOf e = .logic then .reg else kindOf e
  | .assign (some _) .. => .reg
  | .call .. => .reg

mutual
/-- What `variable_location` is behind an expression, when it was `l` in front of it. -/
def endLoc : Exp → Loc → Loc
  | .un op e, _ => endLoc e (if op = .abs then .free else .reg)
  | .not e, l => endLoc e l
  | .arith _ _ r, _ => endLoc r .free
  | .cmp _ _ r, _ => endLoc r .free
  | .comma a b, l => endLoc b (endLoc a l)
  | .ternary _ _ b, _ => endLoc b .free
  | .assign _ _ _ e, _ => endLoc e .nolog
  | .call _ _ args, l => endLocA args l
  | _, l => l

/-- The same for arguments. -/
def endLocA : Args → Loc → Loc
  | .nil, l => l
  | .cons e rest, _ => endLocA rest (endLoc e .free)
end

mutual
/-- Whether `label_true` and `label_false` are exchanged behind an expression. -/
def swaps : Exp → Bool
  | .un _ e => swaps e
  | .not e => !swaps e
  | .arith _ l r => swaps l != swaps r
  | .cmp _ l r => swaps l != swaps r
  | .comma l r => swaps l != swaps r
  | .assign _ _ _ e => swaps e
  | .call _ _ args => swapsA args
  | _ => false

/-- The same for arguments. -/
def swapsA : Args → Bool
  | .nil => false
  | .cons e rest => swaps e != swapsA rest
end

mutual
/-- There is no ternary operator in the expression. -/
def straight : Exp → Bool
  | .un _ e => straight e
  | .not e => straight e
  | .arith _ l r => straight l && straight r
  | .cmp _ l r => straight l && straight r
  | .logic .. => false
  | .comma l r => straight l && straight r
  | .ternary .. => false
  | .assign _ _ _ e => straight e
  | .call _ _ args => straightA args
  | _ => true

/-- The same for arguments. -/
def straightA : Args → Bool
  | .nil => true
  | .cons e rest => straight e && straightA rest
end

/-- The code of a condition makes the jumps itself. -/
def jumps : Exp → Bool
  | .logic .. => true
  | .not e => jumps e || e.ty == some .int
  | _ => false

/-- What an operand of an operator with integers may be. -/
def intOpd (e : Exp) : Bool := e.ty == some .int && (kindOf e == .reg || kindOf e == .const)

/-- A value that may be used as a condition. -/
def leaf (e : Exp) : Bool := (e.ty == some .int || e.ty == some .bool) && kindOf e != .str && endLoc e .free != .nolog && !swaps e

mutual
/-- Whether an expression may be used for its value, and whether it may be used as a condition. -/
def cls : Exp → Bool × Bool
  | .int v => (true, leaf (.int v))
  | .bool b => (true, leaf (.bool b))
  | .str i => (true, leaf (.str i))
  | .ident id ty => (true, leaf (.ident id ty))
  | .un op e =>
    let g := (cls e).1 && e.ty == some .int && kindOf e == .reg
    (g, g && leaf (.un op e))
  | .not e =>
    ((cls e).1 && e.ty == some .bool && kindOf e == .reg,
     if e.ty = some .int then (cls e).1 && kindOf e == .reg && endLoc e .free != .nolog && !swaps e
     else (cls e).2 && (jumps e || kindOf e == .logic))
  | .inc op id => (true, leaf (.inc op id))
  | .arith op l r =>
    let g := (cls l).1 && (cls r).1 && intOpd l && intOpd r && (kindOf l == .reg || kindOf r == .reg)
    (g, g && leaf (.arith op l r))
  | .cmp op l r =>
    let g := (cls l).1 && (cls r).1 && intOpd l && intOpd r && (kindOf l == .reg || kindOf r == .reg)
    (g, g && leaf (.cmp op l r))
  | .logic _ l r => (false, (cls l).2 && (cls r).2)
  | .comma l r =>
    let g := (cls l).1 && (cls r).1
    (g, g && leaf (.comma l r))
  | .ternary c a b =>
    let g := (cls c).2 && (cls a).1 && (cls b).1 && intOpd a && intOpd b && (a.isTernary || straight a) && (b.isTernary || straight b)
    (g, g && leaf (.ternary c a b))
  | .assign op id ty e =>
    let g := (cls e).1 && e.ty == some ty && ty != .str && kindOf e != .str && (op.isNone || (ty == .int && kindOf e != .logic))
    (g, g && leaf (.assign op id ty e))
  | .call f ret args =>
    let g := clsA args
    (g, g && leaf (.call f ret args))

/-- Whether all arguments may be used. -/
def clsA : Args → Bool
  | .nil => true
  | .cons e rest => (cls e).1 && clsA rest
end

/-- An expression used for its value. -/
abbrev good (e : Exp) : Bool := (cls e).1

/-- An expression used as a condition. -/
abbrev test (e : Exp) : Bool := (cls e).2

/-- Declarations: no value of a comparison, which would not be stored. -/
def okD : List (Nat × Ty × Option Exp) → Bool
  | [] => true
  | (_, ty, none) :: l => ty != .str && okD l
  | (_, ty, some e) :: l => ty != .str && good e && e.ty == some ty && (kindOf e == .reg || kindOf e == .const) && okD l

/-- Whether the labels are exchanged behind declarations. -/
def swapsD : List (Nat × Ty × Option Exp) → Bool
  | [] => false
  | (_, _, none) :: l => swapsD l
  | (_, _, some e) :: l => swaps e != swapsD l

mutual
/-- Whether the labels are exchanged behind a statement. -/
def swapsS : Stmt → Bool
  | .expr e => swaps e
  | .decls l => swapsD l
  | .block b => swapsB b
  | .return_ (some e) => swaps e
  | _ => false

/-- The same for the statements of a block. -/
def swapsB : Stmts → Bool
  | .nil => false
  | .cons s rest => swapsS s != swapsB rest
end

/-- What may be first in a `for`. -/
def Stmt.isInit : Stmt → Bool
  | .skip | .expr _ | .decls _ => true
  | _ => false

/-- The condition and the step of a `for`: no step without a condition. -/
def okFor : Option Exp → Option Exp → Bool
  | some c, inc => test c && inc.all good
  | none, inc => inc.isNone

/-- What may be returned. -/
def okRet : Option Exp → Bool
  | none => true
  | some e => good e && (kindOf e == .reg || (kindOf e == .const && e.ty == some .int))

mutual
/-- Statements; `main`: inside of the function `main`. -/
def okS (main : Bool) : Stmt → Bool
  | .skip => true
  | .expr e => good e
  | .decls l => okD l
  | .if_ c a => test c && okS main a
  | .ifElse c a b => test c && okS main a && okS main b
  | .while_ c b => test c && okS main b
  | .do_ b c => okS main b && test c && !swapsS b
  | .for_ i c inc b => i.isInit && okS main i && !swapsS i && okFor c inc && okS main b
  | .block b => okB main b
  | .break_ => true
  | .return_ e => !main && okRet e
  | _ => false

/-- The statements of a block. -/
def okB (main : Bool) : Stmts → Bool
  | .nil => true
  | .cons s rest => okS main s && okB main rest
end

/-- The body of `main`: the only `return` is the last statement, and it gives 0. -/
def okMain : Stmts → Bool
  | .nil => true
  | .cons (.return_ (some (.int v))) .nil => v == 0
  | .cons s rest => okS true s && okMain rest

/-- A function. -/
def okF (main : Nat) (f : Func) : Bool :=
  f.params.all (fun p => p.2 != .str) && if f.id == main then okMain f.body else okB false f.body

mutual
/-- Whether there is a `break` that is not inside of a loop. -/
def stray : Stmt → Bool
  | .if_ _ a => stray a
  | .ifElse _ a b => stray a || stray b
  | .block b => strayB b
  | .break_ => true
  | _ => false

/-- The same for the statements of a block. -/
def strayB : Stmts → Bool
  | .nil => false
  | .cons s rest => stray s || strayB rest
end

end RuC.Llvm
