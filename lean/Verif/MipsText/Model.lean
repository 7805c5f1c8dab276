import Verif.Mips.Model
import Verif.LlvmText.Model

/-!
# libs/compiler/mipsgen.c: what is printed

The characters of the instructions that `Mips/Model.lean` keeps as a list: names of instructions and registers, labels, and the lines made of them.  Comments and empty lines may
stand between the lines.  Left out: the directives of `pregen`, mipsgen.c:3801-3835, the strings, the runtime, and the lines for floating values except those that keep registers.
-/

namespace RuC.MipsText
open RuC.Mips
open Llvm (Arith Cmp)
open LlvmText (codes)
open Locator (showNat)
open Listing (showInt)

/-- `mips_instruction_t`, mipsgen.c:153-233. -/
inductive Mn
  | move | li | la | not | addi | sll | sra | andi | xori | ori | add | sub | mul | div | mod | sllv | srav | and | xor | or | sw | lw | jr |
  jal | j | blez | bltz | bgez | bgtz | beq | bne | sltiu | nop | addS | subS | mulS | divS | absS | abs | sS | lS | liS | movS | mfc1 | mfhc1 |
  cvtDS | cvtSW | cvtWS
  deriving DecidableEq, Repr

/-- `instruction_to_io`, mipsgen.c:816-979. -/
def mnText : Mn → String
  | .move => "move"
  | .li => "li"
  | .la => "la"
  | .not => "not"
  | .addi => "addi"
  | .sll => "sll"
  | .sra => "sra"
  | .andi => "andi"
  | .xori => "xori"
  | .ori => "ori"
  | .add => "add"
  | .sub => "sub"
  | .mul => "mul"
  | .div => "div"
  | .mod => "mod"
  | .sllv => "sllv"
  | .srav => "srav"
  | .and => "and"
  | .xor => "xor"
  | .or => "or"
  | .sw => "sw"
  | .lw => "lw"
  | .jr => "jr"
  | .jal => "jal"
  | .j => "j"
  | .blez => "blez"
  | .bltz => "bltz"
  | .bgez => "bgez"
  | .bgtz => "bgtz"
  | .beq => "beq"
  | .bne => "bne"
  | .sltiu => "sltiu"
  | .nop => "nop"
  | .addS => "add.s"
  | .subS => "sub.s"
  | .mulS => "mul.s"
  | .divS => "div.s"
  | .absS => "abs.s"
  | .abs => "abs"
  | .sS => "s.s"
  | .lS => "l.s"
  | .liS => "li.s"
  | .movS => "mov.s"
  | .mfc1 => "mfc1"
  | .mfhc1 => "mfhc1"
  | .cvtDS => "cvt.d.s"
  | .cvtSW => "cvt.s.w"
  | .cvtWS => "cvt.w.s"

/-- `mips_register_to_io`, mipsgen.c:606-814, in the order of `mips_register_t`, mipsgen.c:58-148. -/
def regNames : List String :=
  ["$0", "$at", "$v0", "$v1", "$a0", "$a1", "$a2", "$a3", "$t0", "$t1", "$t2", "$t3", "$t4", "$t5", "$t6", "$t7", "$s0", "$s1", "$s2", "$s3",
  "$s4", "$s5", "$s6", "$s7", "$t8", "$t9", "$k0", "$k1", "$gp", "$sp", "$fp", "$ra", "$f0", "$f1", "$f2", "$f3", "$f12", "$f13", "$f14",
  "$f15", "$f4", "$f5", "$f6", "$f7", "$f8", "$f9", "$f10", "$f11", "$f16", "$f17", "$f18", "$f19", "$f20", "$f21", "$f22", "$f23", "$f24",
  "$f25", "$f26", "$f27", "$f28", "$f29", "$f30", "$f31"]

/-- `mips_register_to_io`, mipsgen.c:606-814; nothing for another number. -/
def regText (r : Nat) : List Nat := codes (regNames.getD r "")

/-- `get_bin_instruction`, mipsgen.c:544-604, for arithmetic. -/
def binMn (imm : Bool) : Arith → Mn
  | .add => if imm then .addi else .add
  | .sub => if imm then .addi else .sub
  | .mul => .mul
  | .div => .div
  | .rem => .mod
  | .shl => if imm then .sll else .sllv
  | .shr => if imm then .sra else .srav
  | .and => if imm then .andi else .and
  | .xor => if imm then .xori else .xor
  | .or => if imm then .ori else .or

/-- `get_bin_instruction`, mipsgen.c:544-604, for comparisons. -/
def cmpMn : Cmp → Mn
  | .eq => .beq
  | .ne => .bne
  | .gt => .bgtz
  | .lt => .bltz
  | .ge => .bgez
  | .le => .blez

/-- The name of a label, `emit_label`, mipsgen.c:1179-1214. -/
def kindText : LabelKind → String
  | .main => "MAIN"
  | .func => "FUNC"
  | .next => "NEXT"
  | .funcEnd => "FUNCEND"
  | .string => "STRING"
  | .else => "ELSE"
  | .end => "END"
  | .beginCycle => "BEGIN_CYCLE"
  | .case => "CASE"

/-- `emit_label`, mipsgen.c:1179-1214.  The label `MAIN`, which has no number, is printed by `emit_function_definition`, mipsgen.c:3153-3310, and by `strings_declaration`,
mipsgen.c:3838-3889; it has the number 0 in `Mips/Model.lean`. -/
def labelText (l : Label) : List Nat := codes (kindText l.kind) ++ if l.kind = .main ∧ l.num = 0 then [] else showNat l.num

/-- `rvalue_to_io`, mipsgen.c:1063-1075; `rvalue_const_to_io`, mipsgen.c:1037-1055. -/
def opdText : Opd → List Nat
  | .reg r => regText r
  | .imm v => showInt v
  | .bad => []

/-- The beginning of a line: a tab, the name, a blank. -/
def line (m : Mn) (args : List Nat) : List Nat := 9 :: (codes (mnText m) ++ 32 :: args)

/-- A comma and a blank between two operands. -/
def pair (a b : List Nat) : List Nat := a ++ 44 :: 32 :: b

/-- A displacement and the register it counts from, `lvalue_to_io`, mipsgen.c:1083-1095. -/
def place (off : Int) (base : Nat) : List Nat := showInt off ++ 40 :: (regText base ++ [41])

/-- Lines without their ends.
`li`: `emit_load_of_immediate`, mipsgen.c:1314-1335; `to_code_R_I`, mipsgen.c:1021-1029.
`move`: `to_code_2R`, mipsgen.c:982-992; `emit_move_rvalue_to_register`, mipsgen.c:1575-1608.
`lw`, `sw`: `to_code_R_I_R`, mipsgen.c:1008-1018; `emit_load_of_lvalue`, mipsgen.c:1346-1394; `emit_store_of_rvalue`, mipsgen.c:1617-1676.
`op`: `emit_binary_operation`, mipsgen.c:1733-1881; `to_code_2R_I`, mipsgen.c:995-1005.
`sltiu`, `abs`: `emit_unary_expression`, mipsgen.c:2427-2511; for a constant operand the code prints the register with the number of the constant, here the constant is printed.
`br`: `emit_conditional_branch`, mipsgen.c:1251-1277.  `j`, `jal`: `emit_unconditional_branch`, mipsgen.c:1234-1243.  `jr`: `emit_register_branch`, mipsgen.c:1285-1294.
`label`: `emit_label_declaration`, mipsgen.c:1222-1226. -/
def lineText : Instr → List Nat
  | .li d v => line .li (pair (opdText d) (opdText v))
  | .move d s => line .move (pair (regText d) (opdText s))
  | .lw d off base => line (if 32 ≤ d then .lS else .lw) (pair (regText d) (place off base))
  | .sw s off base => line (match s with | .reg r => if 32 ≤ r then .sS else .sw | _ => .sw) (pair (opdText s) (place off base))
  | .op imm o d a b => line (binMn imm o) (pair (opdText d) (pair (opdText a) (opdText b)))
  | .sltiu d a => line .sltiu (pair (opdText d) (pair (opdText a) (showInt 1)))
  | .abs d a => line .abs (pair (opdText d) (opdText a))
  | .br c r l => line (cmpMn c) (pair (regText r) (if c = .eq ∨ c = .ne then pair (regText 0) (labelText l) else labelText l))
  | .j l => line .j (labelText l)
  | .jal l => line .jal (labelText l)
  | .jr r => line .jr (regText r)
  | .label l => labelText l ++ [58]

/-- A part of the text: an instruction, an empty line, or a comment. -/
inductive Part
  | instr (i : Instr)
  | blank
  | note (c : List Nat)

/-- A line without its end; all comments begin with a tab and `#`. -/
def Part.line : Part → List Nat
  | .instr i => lineText i
  | .blank => []
  | .note c => 9 :: 35 :: c

/-- What is printed for the parts of a text. -/
def print (l : List Part) : List Nat := l.flatMap fun p => p.line ++ [10]

/-- The instructions among the parts of a text. -/
def instrs (l : List Part) : List Instr := l.filterMap fun | .instr i => some i | _ => none

end RuC.MipsText
