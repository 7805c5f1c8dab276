import Verif.Mips.Model
import Verif.Llvm.Spec

/-!
# What the instructions do, and what a text has to be

What the programs mean is said in `Llvm/Spec.lean`.  Here are the instructions of MIPS32 that are printed, as an assembler takes them: constants may have 32 bits, and an operand
that has to be a register is refused if it is none.  Instructions have their numbers in the text as addresses.  An answer `none` is an exception of the processor, or a text that
the assembler refuses.
-/

namespace RuC.Mips
open Llvm (Ty Arith Cmp Un Inc Exp Args Stmt Stmts Func V World)

/-! ## What a text has to be -/

/-- The label an instruction puts. -/
def puts : Instr → List Label
  | .label l => [l]
  | _ => []

/-- The label an instruction may jump to. -/
def targets : Instr → List Label
  | .br _ _ l => [l]
  | .j l => [l]
  | _ => []

/-- The label of the function an instruction calls. -/
def calls : Instr → List Label
  | .jal l => [l]
  | _ => []

/-- The register of an operand. -/
def Opd.regs : Opd → List Nat
  | .reg r => [r]
  | _ => []

/-- The register an instruction sets. -/
def sets : Instr → List Nat
  | .li d _ => d.regs
  | .move d _ => [d]
  | .lw d _ _ => [d]
  | .op _ _ d _ _ => d.regs
  | .sltiu d _ => d.regs
  | .abs d _ => d.regs
  | .jal _ => [R_RA]
  | _ => []

mutual
/-- The functions of the program that are called in an expression. -/
def calledE : Exp → List Nat
  | .un _ x | .not x | .assign _ _ _ x => calledE x
  | .arith _ a b | .cmp _ a b | .logic _ a b | .comma a b => calledE a ++ calledE b
  | .ternary c a b => calledE c ++ calledE a ++ calledE b
  | .call f _ args => (if 170 ≤ f then [f] else []) ++ calledA args
  | _ => []

/-- The functions of the program that are called in arguments. -/
def calledA : Args → List Nat
  | .nil => []
  | .cons x rest => calledE x ++ calledA rest
end

/-- The functions of the program that are called in an expression that may be left out. -/
def calledO : Option Exp → List Nat
  | none => []
  | some x => calledE x

mutual
/-- The functions of the program that are called in a statement. -/
def calledS : Stmt → List Nat
  | .expr x => calledE x
  | .decls l => l.flatMap fun d => calledO d.2.2
  | .if_ c a | .while_ c a | .do_ a c => calledE c ++ calledS a
  | .ifElse c a b => calledE c ++ calledS a ++ calledS b
  | .for_ i c s b => calledS i ++ calledO c ++ calledO s ++ calledS b
  | .block b => calledB b
  | .switch_ c b => calledE c ++ calledB b
  | .case_ _ s | .default_ s => calledS s
  | .return_ x => calledO x
  | _ => []

/-- The functions of the program that are called in statements. -/
def calledB : Stmts → List Nat
  | .nil => []
  | .cons s rest => calledS s ++ calledB rest
end

/-- The functions of the program that are called in a declaration. -/
def calledT : Top → List Nat
  | .var d => calledO d.2.2
  | .func f => calledB f.body

mutual
/-- A `break` that is outside of loops and of `switch`. -/
def strayBreak : Stmt → Bool
  | .break_ => true
  | .if_ _ a | .case_ _ a | .default_ a => strayBreak a
  | .ifElse _ a b => strayBreak a || strayBreak b
  | .for_ i _ _ _ => strayBreak i
  | .block b => strayBreaks b
  | _ => false

/-- A `break` that is outside of loops and of `switch`. -/
def strayBreaks : Stmts → Bool
  | .nil => false
  | .cons s rest => strayBreak s || strayBreaks rest
end

mutual
/-- A `continue` that is outside of loops. -/
def strayCont : Stmt → Bool
  | .continue_ => true
  | .if_ _ a | .case_ _ a | .default_ a => strayCont a
  | .ifElse _ a b => strayCont a || strayCont b
  | .for_ i _ _ _ => strayCont i
  | .block b | .switch_ _ b => strayConts b
  | _ => false

/-- A `continue` that is outside of loops. -/
def strayConts : Stmts → Bool
  | .nil => false
  | .cons s rest => strayCont s || strayConts rest
end

/-- The numbers of the functions of a unit. -/
def funcs (l : List Top) : List Nat := l.filterMap fun | .func f => some f.id | _ => none

/-! ## The registers in use -/

/-- What is asked: a register, or to give one back. -/
inductive Ask
  | get
  | free (r : Nat)

/-- The registers in use after a question; only a register in use is given back. -/
def ask (s : Enc × List Nat) : Ask → Option (Enc × List Nat)
  | .get => some ((getRegister s.1).2, (getRegister s.1).1 :: s.2)
  | .free r => if r ∈ s.2 then some (freeRegister s.1 r, s.2.erase r) else none

/-- The registers in use after several questions, never more than `n` of them. -/
def asks (n : Nat) (s : Enc × List Nat) : List Ask → Option (Enc × List Nat)
  | [] => some s
  | q :: l => (ask s q).bind fun s => if s.2.length ≤ n then asks n s l else none

/-- A register for temporary values is in use. -/
def used (e : Enc) (r : Nat) : Prop := ∃ i, i < 10 ∧ r = i + R_T0 ∧ e.busy i = true

/-- The place of a variable: a register for arguments, or a word of the frame or of the globals. -/
def Lv.placed : Lv → Prop
  | .reg r => R_A0 ≤ r ∧ r < R_A0 + 4
  | .stack _ b => b = R_FP ∨ b = R_GP

/-- The places of variables; those in registers are `par`. -/
def placed (par : Nat → Bool) (e : Enc) : Prop := ∀ id, (e.table id).placed ∧ ∀ r, e.table id = .reg r → par id = true

/-- Expressions that are constants for the generator: no register is asked for their values. -/
def isConstE : Exp → Bool
  | .int _ | .bool _ | .str _ => true
  | .un _ x | .not x | .assign none _ _ x => isConstE x
  | .arith _ a _ | .cmp _ a _ => isConstE a
  | .comma _ b | .logic _ _ b => isConstE b
  | .assign (some o) _ _ _ => o = .rem
  | .call f _ _ => f < 170
  | .ident .. | .inc .. | .ternary .. => false

/-- Arithmetic that asks for no register for a constant; `a`, `b`: the operands are constants. -/
def tidyOp (o : Arith) (a b : Bool) : Bool :=
  match o with
  | .sub | .div | .mul | .rem => !a && !b
  | .shl | .shr => !a
  | _ => true

mutual
/-- Expressions that ask for no register for a constant; `par`: the variables in registers. -/
def tidyE (par : Nat → Bool) : Exp → Bool
  | .int _ | .bool _ | .str _ | .ident .. | .inc .. => true
  | .un op x => op ≠ .minus && tidyE par x
  | .not x => tidyE par x
  | .arith o a b => tidyE par a && tidyE par b && tidyOp o (isConstE a) (isConstE b)
  | .cmp _ a b => tidyE par a && tidyE par b && !isConstE a && !isConstE b
  | .comma a b | .logic _ a b => tidyE par a && tidyE par b
  | .ternary c a b => tidyE par c && tidyE par a && tidyE par b
  | .assign none id _ x => tidyE par x && !(isConstE x && par id)
  | .assign (some o) _ _ x => tidyE par x && o ≠ .rem && tidyOp o false (isConstE x)
  | .call _ _ args => tidyA par args

/-- The same for arguments. -/
def tidyA (par : Nat → Bool) : Args → Bool
  | .nil => true
  | .cons x rest => tidyE par x && tidyA par rest
end

/-- The same for an expression that may be left out. -/
def tidyO (par : Nat → Bool) : Option Exp → Bool
  | none => true
  | some x => tidyE par x

mutual
/-- Statements that ask for no register for a constant. -/
def tidyS (par : Nat → Bool) : Stmt → Bool
  | .expr x => tidyE par x
  | .decls l => l.all fun d => tidyO par d.2.2
  | .if_ c a | .while_ c a | .do_ a c => tidyE par c && tidyS par a
  | .ifElse c a b => tidyE par c && tidyS par a && tidyS par b
  | .for_ i c s b => tidyS par i && tidyO par c && tidyO par s && tidyS par b
  | .block b => tidyB par b
  | .switch_ _ _ => false
  | .return_ (some x) => tidyE par x && !isConstE x
  | _ => true

/-- The same for the statements of a block. -/
def tidyB (par : Nat → Bool) : Stmts → Bool
  | .nil => true
  | .cons s rest => tidyS par s && tidyB par rest
end

/-- Declarations that ask for no register for a constant. -/
def tidyT (par : Nat → Bool) : Top → Prop
  | .var d => tidyO par d.2.2 = true
  | .func f => tidyB par f.body = true

/-- The variables in registers are parameters. -/
def parT (par : Nat → Bool) : Top → Prop
  | .var _ => True
  | .func f => ∀ p ∈ f.params, par p.1 = true

/-! ## The instructions -/

/-- The processor: the number of the next instruction, the registers, and the words of memory by their addresses. -/
structure M where
  pc : Nat
  reg : Nat → BitVec 32
  mem : Int → BitVec 32

/-- A register is set; the next instruction follows. -/
def M.set (m : M) (r : Nat) (v : BitVec 32) : M := { m with pc := m.pc + 1, reg := fun j => if j = r then v else m.reg j }

/-- The address of a word. -/
def M.addr (m : M) (off : Int) (base : Nat) : Option Int :=
  if 0 ≤ (m.reg base).toNat + off ∧ (m.reg base).toNat + off < 4294967296 ∧ ((m.reg base).toNat + off) % 4 = 0 then some ((m.reg base).toNat + off) else none

/-- A constant of 32 bits. -/
def imm32 (v : Int) : Option (BitVec 32) := if -2147483648 ≤ v ∧ v < 4294967296 then some (BitVec.ofInt 32 v) else none

/-- The value of an operand that has to be a register. -/
def M.regOf (m : M) : Opd → Option (BitVec 32)
  | .reg r => some (m.reg r)
  | _ => none

/-- The value of the last operand: a constant in the version with a constant, otherwise a register. -/
def M.last (m : M) (imm : Bool) : Opd → Option (BitVec 32)
  | .reg r => if imm then none else some (m.reg r)
  | .imm v => if imm then imm32 v else none
  | .bad => none

/-- Arithmetic: `add`, `sub` and `addi` stop when they overflow, `mul` does not; `div` and `mod` stop as the assembler makes them; shifts by a register take its last bits. -/
def arithM (imm : Bool) : Arith → BitVec 32 → BitVec 32 → Option (BitVec 32)
  | .mul, a, b => some (a * b)
  | .div, a, b => Llvm.arithL .div a b
  | .rem, a, b => Llvm.arithL .rem a b
  | .add, a, b => Llvm.arithL .add a b
  | .sub, a, b => Llvm.arithL .sub a b
  | .shl, a, b => if imm ∧ 32 ≤ b.toNat then none else some (a <<< (b.toNat % 32))
  | .shr, a, b => if imm ∧ 32 ≤ b.toNat then none else some (a.sshiftRight (b.toNat % 32))
  | .and, a, b => some (a &&& b)
  | .xor, a, b => some (a ^^^ b)
  | .or, a, b => some (a ||| b)

/-- The number of the instruction that puts a label. -/
def find (l : Label) : List Instr → Option Nat
  | [] => none
  | i :: r => if i = .label l then some 0 else (find l r).map (· + 1)

/-- What an instruction does; `code` is the whole text. -/
def exec (code : List Instr) (m : M) : Instr → Option M
  | .li (.reg d) (.imm v) => (imm32 v).map fun x => m.set d x
  | .li _ _ => none
  | .move d s => (m.regOf s).map fun x => m.set d x
  | .lw d off base => (m.addr off base).map fun a => m.set d (m.mem a)
  | .sw s off base => (m.regOf s).bind fun x => (m.addr off base).map fun a => { m with pc := m.pc + 1, mem := fun b => if b = a then x else m.mem b }
  | .op imm o (.reg d) a b => (m.regOf a).bind fun x => (m.last imm b).bind fun y => (arithM imm o x y).map fun z => m.set d z
  | .op .. => none
  | .sltiu (.reg d) a => (m.regOf a).map fun x => m.set d (if x = 0 then 1 else 0)
  | .sltiu .. => none
  | .abs (.reg d) a => (m.regOf a).bind fun x => (Llvm.fit (if x.toInt < 0 then -x.toInt else x.toInt)).map fun y => m.set d y
  | .abs .. => none
  | .br c r l => if Llvm.cmpV c (m.reg r).toInt 0 then (find l code).map fun k => { m with pc := k } else some { m with pc := m.pc + 1 }
  | .j l => (find l code).map fun k => { m with pc := k }
  | .jal l => (find l code).map fun k => { m.set R_RA (BitVec.ofNat 32 (m.pc + 1)) with pc := k }
  | .jr r => some { m with pc := (m.reg r).toNat }
  | .label _ => some { m with pc := m.pc + 1 }

/-- One instruction. -/
def step (code : List Instr) (m : M) : Option M := (code[m.pc]?).bind (exec code m)

/-- Several instructions. -/
def steps (code : List Instr) : Nat → M → Option M
  | 0, m => some m
  | n + 1, m => (step code m).bind (steps code n)

/-- One state is reached from another. -/
def Reach (code : List Instr) (m m' : M) : Prop := ∃ n, steps code n m = some m'

end RuC.Mips
