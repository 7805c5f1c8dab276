import Verif.Mips.Spec

/-!
# The trees whose text computes what the source means

Left out is what the generator gets wrong, as the theorems at the end of Run.lean show: comparisons, `?:`, `&&` and `||` as values, `switch`, operators whose first operand is a constant or a
parameter in a register, and others.  Calls stand alone, on the right of an assignment to a variable, in a declaration or in `return`.
-/

namespace RuC.Mips
open Llvm (Ty Arith Cmp Un Inc Exp Args Stmt Stmts Func V World S)

/-- A word stands for a value: an integer is itself, a truth value is false when the word is zero. -/
def stands : V → BitVec 32 → Prop
  | .i32 v, x => x = v
  | .i1 b, x => x = 0 ↔ b = false
  | .str _, _ => False

/-- The value comes to be in a register for temporary values; `par`: the variables in registers. -/
def tempE (par : Nat → Bool) : Exp → Bool
  | .ident id _ | .inc _ id | .assign (some _) id _ _ => !par id
  | .un _ x | .not x | .assign none _ _ x | .arith _ x _ | .comma _ x => tempE par x
  | _ => false

/-- Expressions without calls. -/
def okE (par : Nat → Bool) : Exp → Bool
  | .int _ | .bool _ | .ident .. => true
  | .un _ x | .not x => okE par x && tempE par x
  | .inc op id => isPrefix op || !par id
  | .arith _ a b => okE par a && okE par b && tempE par a
  | .comma a b => okE par a && okE par b
  | .assign none id _ x => okE par x && !(isConstE x && par id)
  | .assign (some o) _ _ x => okE par x && o ≠ .rem
  | _ => false

/-- The variables an expression speaks of. -/
def idsE : Exp → List Nat
  | .ident id _ | .inc _ id => [id]
  | .un _ x | .not x => idsE x
  | .arith _ a b | .comma a b => idsE a ++ idsE b
  | .assign _ id _ x => id :: idsE x
  | _ => []

/-- Arguments from the number `i` on: an argument does not speak of a variable in a register that has an argument before it already; `pos`: the numbers of the variables in registers. -/
def okA (par : Nat → Bool) (pos : Nat → Option Nat) : Nat → Args → Bool
  | _, .nil => true
  | i, .cons x rest => okE par x && (idsE x).all (fun id => match pos id with | some k => decide (i ≤ k) | none => true) && okA par pos (i + 1) rest

/-- A call of a function of the program. -/
def okCall (par : Nat → Bool) (pos : Nat → Option Nat) : Exp → Bool
  | .call f _ args => decide (170 ≤ f) && okA par pos 0 args
  | _ => false

/-- Expressions that stand alone. -/
def okX (par : Nat → Bool) (pos : Nat → Option Nat) : Exp → Bool
  | .assign none id ty x => okE par (.assign none id ty x) || okCall par pos x
  | x => okE par x || okCall par pos x

/-- Expressions behind `return`: the number of the register of the answer is taken for the answer. -/
def okRet (par : Nat → Bool) (pos : Nat → Option Nat) : Exp → Bool
  | .int v => v ≠ 2
  | .bool _ => true
  | x => okE par x && !isConstE x || okCall par pos x

/-- An expression that may be left out. -/
def okO (par : Nat → Bool) : Option Exp → Bool
  | none => true
  | some x => okE par x

/-- A declaration. -/
def okD (par : Nat → Bool) (pos : Nat → Option Nat) : Option Exp → Bool
  | none => true
  | some x => okE par x || okCall par pos x

/-- Statements that are not declarations. -/
def single : Stmt → Bool
  | .decls _ => false
  | _ => true

mutual
/-- Statements. -/
def okS (par : Nat → Bool) (pos : Nat → Option Nat) : Stmt → Bool
  | .skip | .break_ | .continue_ | .return_ none => true
  | .expr x => okX par pos x
  | .decls l => l.all fun d => okD par pos d.2.2
  | .if_ c a => okE par c && single a && okS par pos a
  | .ifElse c a b => okE par c && single a && single b && okS par pos a && okS par pos b
  | .while_ c b => okE par c && single b && okS par pos b
  | .do_ b c => okE par c && !isConstE c && single b && okS par pos b
  | .for_ i c inc b => okS par pos i && okO par c && okO par inc && single b && okS par pos b && (inc.isNone || !strayCont b)
  | .block b => okB par pos b
  | .return_ (some x) => okRet par pos x
  | _ => false

/-- The statements of a block. -/
def okB (par : Nat → Bool) (pos : Nat → Option Nat) : Stmts → Bool
  | .nil => true
  | .cons s rest => okS par pos s && okB par pos rest
end

mutual
/-- The variables declared in a statement. -/
def declsS : Stmt → List Nat
  | .decls l => l.map (·.1)
  | .if_ _ a | .while_ _ a | .do_ a _ | .case_ _ a | .default_ a => declsS a
  | .ifElse _ a b => declsS a ++ declsS b
  | .for_ i _ _ b => declsS i ++ declsS b
  | .block b | .switch_ _ b => declsB b
  | _ => []

/-- The variables declared in statements. -/
def declsB : Stmts → List Nat
  | .nil => []
  | .cons s rest => declsS s ++ declsB rest
end

/-- The number of a parameter. -/
def posOf (ps : List (Nat × Ty)) (id : Nat) : Option Nat := ps.findIdx? (fun p => p.1 == id)

/-- A parameter in a register. -/
def inReg (ps : List (Nat × Ty)) (id : Nat) : Bool := match posOf ps id with | some k => k < 4 | none => false

/-- The last statement is `return` with a value. -/
def returns : Stmts → Bool
  | .nil => false
  | .cons (.return_ (some _)) .nil => true
  | .cons _ rest => returns rest

/-- The parameters in registers of all functions. -/
def parU (fs : List Func) (id : Nat) : Bool := fs.any fun f => inReg f.params id

/-- The numbers of the parameters of all functions. -/
def posU (fs : List Func) (id : Nat) : Option Nat := fs.findSome? fun f => posOf f.params id

/-- The variables of a function. -/
def varsF (f : Func) : List Nat := f.params.map (·.1) ++ declsB f.body

/-- A function: no `break` and no `continue` outside of loops, and `main` ends with `return`. -/
def okF (par : Nat → Bool) (pos : Nat → Option Nat) (main : Nat) (f : Func) : Bool :=
  okB par pos f.body && !strayBreaks f.body && !strayConts f.body && (f.id ≠ main || returns f.body)

/-- A unit, variables in front of functions: every variable has its number, as in the table of identifiers. -/
def okU (isLocal : Nat → Bool) (main : Nat) (vs : List (Nat × Ty × Option Exp)) (fs : List Func) : Bool :=
  fs.all (okF (parU fs) (posU fs) main) && decide (fs.flatMap varsF).Nodup && (fs.flatMap varsF).all isLocal && decide (fs.map (·.id)).Nodup &&
    (vs.all fun d => !isLocal d.1) && decide (vs.map (·.1)).Nodup

end RuC.Mips
