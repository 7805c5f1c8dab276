import Verif.Listing.Model
import Verif.Codegen.UnitSpec

/-!
# What a listing should show

Where the lines of a listing lead to, and the programs whose code is made of instructions only: data that lies in the code must not be
numbers of instructions.
-/

namespace RuC.Listing
open RuC RuC.Instr RuC.Codegen
open RuC.Expr (Unary Binary)

/-- The address a line leads to, if it is a jump or the beginning of a function (which is jumped over). -/
def Line.dest (l : Line) : Option Int :=
  if l.op = IC_B ∨ l.op = IC_BE0 ∨ l.op = IC_BNE0 then l.args[0]?
  else if l.op = IC_FUNC_BEG then l.args[1]?
  else none

/-- The cells a line shows. -/
def Line.cells (l : Line) : List Int := l.op :: l.args

/-- A number that is not the number of an instruction. -/
def Low (c : Int) : Prop := 0 ≤ c ∧ c ≤ 9000

/-- `++` and `--`. -/
def isStep : Unary → Bool
  | .postInc | .postDec | .preInc | .preDec => true
  | _ => false

/-- The operators of assignments. -/
def isAssign : Binary → Bool
  | .assign | .mulAssign | .divAssign | .remAssign | .addAssign | .subAssign | .shlAssign | .shrAssign | .andAssign | .xorAssign | .orAssign => true
  | _ => false

end RuC.Listing

namespace RuC.Codegen
open RuC RuC.Instr RuC.Listing

/-- The expression is computed by something: it is not only a string, a list of values or an address. -/
def Exp.solid : Exp → Bool
  | .lit _ | .call _ _ | .callParam _ _ | .builtin _ _ | .printf _ _ _ | .print _ _ | .incdec _ _ _ | .unary _ _ _ | .upb _ | .binary _ _ _ _
  | .assign _ _ _ _ | .funArg _ | .paramArg _ | .flit _ => true
  | .dot b _ _ _ => !b.isLvalue
  | .both _ b | .comma _ b | .ternary _ _ b => b.solid
  | .cast w e => w || e.solid
  | _ => false

mutual
/-- Strings and tables in the code hold no numbers of instructions, floating literals take two cells (as on a machine of 32 bits), the operators
are those of their kind, and an expression whose value is not used computes something. -/
def Exp.Fine : Exp → Prop
  | .flit cells => cells.length = 2
  | .str chars => Low chars.length ∧ ∀ c ∈ chars, Low c
  | .initArg n cells => Low n ∧ ∀ c ∈ cells, Low c
  | .subscript b i _ => b.Fine ∧ i.Fine
  | .arrow b _ _ | .dot b _ _ _ => b.Fine
  | .deref e _ | .print e _ | .cast _ e | .address e | .unary _ e _ | .upb e => e.Fine
  | .incdec op e _ => isStep op = true ∧ e.Fine
  | .call _ args | .callParam _ args | .builtin _ args => args.Fine
  | .printf fmt args _ => fmt.Fine ∧ args.Fine
  | .both a b => a.Fine ∧ b.Fine
  | .comma a b => a.Fine ∧ b.Fine ∧ (a.isLvalue = true ∨ a.solid = true)
  | .binary op a b _ => isAssign op = false ∧ a.Fine ∧ b.Fine
  | .assign op a b _ => isAssign op = true ∧ a.Fine ∧ b.Fine
  | .ternary c a b => c.Fine ∧ a.Fine ∧ b.Fine
  | .init _ _ items => items.Fine
  | _ => True
/-- The same of a list. -/
def Args.Fine : Args → Prop
  | .nil => True
  | .cons e rest => e.Fine ∧ rest.Fine
end

/-- The same of an expression that is a statement. -/
def Exp.FineV (e : Exp) : Prop := e.Fine ∧ (e.isLvalue = true ∨ e.solid = true)

/-- The same of a statement. -/
def Stmt.Fine : Stmt → Prop
  | .seq a b => a.Fine ∧ b.Fine
  | .block s | .default s => s.Fine
  | .var _ _ _ i => ∀ e, i = some e → e.Fine
  | .arr _ bs _ _ _ _ i => bs.Fine ∧ ∀ e, i = some e → e.Fine
  | .expr e => e.FineV
  | .case e s | .if_ e s | .switch e s | .while_ e s | .do_ s e => e.Fine ∧ s.Fine
  | .ifElse c a b => c.Fine ∧ a.Fine ∧ b.Fine
  | .for_ i c n s => i.Fine ∧ (∀ e, c = some e → e.Fine) ∧ (∀ e, n = some e → e.FineV) ∧ s.Fine
  | .return_ e => ∀ p, e = some p → p.1.Fine
  | _ => True

def Top.Fine : Top → Prop
  | .vars s => s.Fine
  | .func f => f.body.Fine

end RuC.Codegen
