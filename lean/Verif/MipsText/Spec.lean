import Verif.MipsText.Model
import Verif.Mips.Spec
import Verif.LlvmText.Spec

/-!
# Reading MIPS text

A reader of the part of the language of assemblers for MIPS32 that the generator uses.  The text is cut into lines, and a line into words at blanks, tabs, commas, parentheses and
colons; `#` begins a comment.  A word is the name of an instruction, of a register, a number, or a label.  The registers have the names of the MIPS convention.
-/

namespace RuC.MipsText
open RuC.Mips
open Llvm (Arith Cmp Exp Args Stmt Stmts Func)
open LlvmText (chars numeral numbered integer)

/-- Words and punctuation: registers of integers and of floating values are apart. -/
inductive Tok
  | mn (m : Mn)
  | reg (r : Nat)
  | freg (r : Nat)
  | int (v : Int)
  | lab (l : Label)
  | comma | lpar | rpar | colon
  | bad
  deriving DecidableEq, Repr

/-- How the instructions are written. -/
def mnemonics : List (String × Mn) :=
  [("move", .move), ("li", .li), ("la", .la), ("not", .not), ("addi", .addi), ("sll", .sll), ("sra", .sra), ("andi", .andi), ("xori", .xori),
  ("ori", .ori), ("add", .add), ("sub", .sub), ("mul", .mul), ("div", .div), ("mod", .mod), ("sllv", .sllv), ("srav", .srav), ("and", .and),
  ("xor", .xor), ("or", .or), ("sw", .sw), ("lw", .lw), ("jr", .jr), ("jal", .jal), ("j", .j), ("blez", .blez), ("bltz", .bltz), ("bgez", .bgez),
  ("bgtz", .bgtz), ("beq", .beq), ("bne", .bne), ("sltiu", .sltiu), ("nop", .nop), ("add.s", .addS), ("sub.s", .subS), ("mul.s", .mulS), ("div.s", .divS),
  ("abs.s", .absS), ("abs", .abs), ("s.s", .sS), ("l.s", .lS), ("li.s", .liS), ("mov.s", .movS), ("mfc1", .mfc1), ("mfhc1", .mfhc1), ("cvt.d.s", .cvtDS),
  ("cvt.s.w", .cvtSW), ("cvt.w.s", .cvtWS)]

/-- A register with the letter `p`, below the number `n`, that stands from `base` on. -/
def numberedReg (p : String) (n base : Nat) (w : List Nat) : Option Nat := (numbered p w).bind fun k => if k < n then some (base + k) else none

/-- The registers of integers by their names. -/
def intReg (w : List Nat) : Option Nat :=
  ([("$0", 0), ("$at", 1), ("$t8", 24), ("$t9", 25), ("$gp", 28), ("$sp", 29), ("$fp", 30), ("$ra", 31)].map fun p => (chars p.1, p.2)).lookup w |>.or <|
    (numberedReg "$v" 2 2 w).or <| (numberedReg "$a" 4 4 w).or <| (numberedReg "$t" 8 8 w).or <| (numberedReg "$s" 8 16 w).or (numberedReg "$k" 2 26 w)

/-- The number of `$f0` to `$f31` in `mips_register_t`: results, arguments, temporary values and saved values stand together. -/
def floatNum (n : Nat) : Option Nat :=
  if n < 4 then some (32 + n) else if n < 12 then some (40 + (n - 4)) else if n < 16 then some (36 + (n - 12)) else if n < 20 then some (48 + (n - 16))
  else if n < 32 then some (52 + (n - 20)) else none

/-- A label: the name alone or a name and a number. -/
def labelOf (w : List Nat) : Option Label :=
  if w = chars "MAIN" then some ⟨.main, 0⟩
  else ([("MAIN", LabelKind.main), ("FUNC", .func), ("NEXT", .next), ("FUNCEND", .funcEnd), ("STRING", .string), ("ELSE", .else), ("END", .end),
    ("BEGIN_CYCLE", .beginCycle), ("CASE", .case)] : List (String × LabelKind)).findSome? fun p => (numbered p.1 w).map fun n => ⟨p.2, n⟩

/-- What a word is. -/
def classify (w : List Nat) : Tok :=
  match (mnemonics.map fun p => (chars p.1, p.2)).lookup w with
  | some m => .mn m
  | none =>
    match intReg w with
    | some r => .reg r
    | none =>
      match (numbered "$f" w).bind floatNum with
      | some r => .freg r
      | none =>
        match integer w with
        | some v => .int v
        | none =>
          match labelOf w with
          | some l => .lab l
          | none => .bad

/-- Blanks and punctuation. -/
def separator (c : Nat) : Option (List Tok) :=
  if c = 32 ∨ c = 9 then some [] else if c = 44 then some [.comma] else if c = 40 then some [.lpar] else if c = 41 then some [.rpar] else if c = 58 then some [.colon] else none

/-- The end of a word. -/
def flush (w : List Nat) : List Tok := if w = [] then [] else [classify w]

/-- The words of a line up to a comment; `w` is the word that has begun. -/
def cut : List Nat → List Nat → List Tok
  | w, [] => flush w
  | w, c :: r =>
    if c = 35 then flush w
    else match separator c with
      | some t => flush w ++ t ++ cut [] r
      | none => cut (w ++ [c]) r

/-- The lines of a text; `l` is the line that has begun. -/
def splitLines : List Nat → List Nat → List (List Nat)
  | l, [] => if l = [] then [] else [l]
  | l, c :: r => if c = 10 then l :: splitLines [] r else splitLines (l ++ [c]) r

/-- The instructions with three registers. -/
def regOp : Mn → Option Arith
  | .add => some .add | .sub => some .sub | .mul => some .mul | .div => some .div | .mod => some .rem | .sllv => some .shl | .srav => some .shr | .and => some .and
  | .xor => some .xor | .or => some .or | _ => none

/-- The instructions with two registers and a constant. -/
def immOp : Mn → Option Arith
  | .addi => some .add | .sll => some .shl | .sra => some .shr | .andi => some .and | .xori => some .xor | .ori => some .or | _ => none

/-- The instructions that compare a register with zero. -/
def zeroOp : Mn → Option Cmp
  | .bgtz => some .gt | .bltz => some .lt | .bgez => some .ge | .blez => some .le | _ => none

/-- The operands of an instruction. -/
def operands (m : Mn) (a : List Tok) : Option Instr :=
  match m with
  | .li => match a with | [.reg d, .comma, .int v] => some (.li (.reg d) (.imm v)) | _ => none
  | .move => match a with | [.reg d, .comma, .reg s] => some (.move d (.reg s)) | _ => none
  | .lw => match a with | [.reg d, .comma, .int v, .lpar, .reg b, .rpar] => some (.lw d v b) | _ => none
  | .lS => match a with | [.freg d, .comma, .int v, .lpar, .reg b, .rpar] => some (.lw d v b) | _ => none
  | .sw => match a with | [.reg s, .comma, .int v, .lpar, .reg b, .rpar] => some (.sw (.reg s) v b) | _ => none
  | .sS => match a with | [.freg s, .comma, .int v, .lpar, .reg b, .rpar] => some (.sw (.reg s) v b) | _ => none
  | .sltiu => match a with | [.reg d, .comma, .reg s, .comma, .int v] => if v = 1 then some (.sltiu (.reg d) (.reg s)) else none | _ => none
  | .abs => match a with | [.reg d, .comma, .reg s] => some (.abs (.reg d) (.reg s)) | _ => none
  | .beq => match a with | [.reg r, .comma, .reg z, .comma, .lab l] => if z = 0 then some (.br .eq r l) else none | _ => none
  | .bne => match a with | [.reg r, .comma, .reg z, .comma, .lab l] => if z = 0 then some (.br .ne r l) else none | _ => none
  | .j => match a with | [.lab l] => some (.j l) | _ => none
  | .jal => match a with | [.lab l] => some (.jal l) | _ => none
  | .jr => match a with | [.reg r] => some (.jr r) | _ => none
  | m =>
    match a with
    | [.reg d, .comma, .reg x, .comma, .reg y] => (regOp m).map fun o => .op false o (.reg d) (.reg x) (.reg y)
    | [.reg d, .comma, .reg x, .comma, .int v] => (immOp m).map fun o => .op true o (.reg d) (.reg x) (.imm v)
    | [.reg r, .comma, .lab l] => (zeroOp m).map fun c => .br c r l
    | _ => none

/-- A line: nothing, a label or an instruction; `none` for any other line. -/
def readLine : List Tok → Option (List Instr)
  | [] => some []
  | .mn m :: a => (operands m a).map fun i => [i]
  | [.lab l, .colon] => some [.label l]
  | _ => none

/-- The instructions of lines. -/
def readLines : List (List Nat) → Option (List Instr)
  | [] => some []
  | l :: r => (readLine (cut [] l)).bind fun i => (readLines r).map fun k => i ++ k

/-- The instructions of a text. -/
def read (t : List Nat) : Option (List Instr) := readLines (splitLines [] t)

/-! ## What an assembler takes -/

/-- Operations that have a version with a constant. -/
def hasImm : Arith → Bool
  | .add | .shl | .shr | .and | .xor | .or => true
  | _ => false

/-- Registers of integers and constants stand where the instruction has them; loads and stores also take registers of floating values. -/
def Fit : Instr → Prop
  | .li (.reg d) (.imm _) => d < 32
  | .move d (.reg s) => d < 32 ∧ s < 32
  | .lw d _ b => d < 64 ∧ b < 32
  | .sw (.reg s) _ b => s < 64 ∧ b < 32
  | .op true o (.reg d) (.reg a) (.imm _) => d < 32 ∧ a < 32 ∧ hasImm o = true
  | .op false _ (.reg d) (.reg a) (.reg b) => d < 32 ∧ a < 32 ∧ b < 32
  | .sltiu (.reg d) (.reg a) => d < 32 ∧ a < 32
  | .abs (.reg d) (.reg a) => d < 32 ∧ a < 32
  | .br _ r _ => r < 32
  | .j _ | .jal _ | .label _ => True
  | .jr r => r < 32
  | _ => False

/-! ## Programs whose text an assembler takes -/

mutual
/-- Expressions without strings, library functions and `%=`, and with operators on the values of variables and calls: the first operand, or the only one, is no constant for the
generator. -/
def plainE : Exp → Bool
  | .int _ | .bool _ | .ident .. | .inc .. => true
  | .str _ => false
  | .un _ x | .not x => plainE x && !isConstE x
  | .arith _ a b | .cmp _ a b => plainE a && plainE b && !isConstE a
  | .comma a b | .logic _ a b => plainE a && plainE b
  | .ternary c a b => plainE c && plainE a && plainE b
  | .assign none _ _ x => plainE x
  | .assign (some o) _ _ x => plainE x && o ≠ .rem
  | .call f _ args => decide (170 ≤ f) && plainA args

/-- The same for arguments. -/
def plainA : Args → Bool
  | .nil => true
  | .cons x rest => plainE x && plainA rest
end

/-- The same for an expression that may be left out. -/
def plainO : Option Exp → Bool
  | none => true
  | some x => plainE x

/-- A number or a truth value. -/
def isLiteral : Exp → Bool
  | .int _ | .bool _ => true
  | _ => false

mutual
/-- The same for statements; the values of cases are literals. -/
def plainS : Stmt → Bool
  | .expr x => plainE x
  | .decls l => l.all fun d => plainO d.2.2
  | .if_ c a | .while_ c a | .do_ a c => plainE c && plainS a
  | .ifElse c a b => plainE c && plainS a && plainS b
  | .for_ i c s b => plainS i && plainO c && plainO s && plainS b
  | .block b => plainB b
  | .switch_ c b => plainE c && plainB b
  | .case_ v s => isLiteral v && plainS s
  | .default_ s => plainS s
  | .return_ x => plainO x
  | _ => true

/-- The same for the statements of a block. -/
def plainB : Stmts → Bool
  | .nil => true
  | .cons s rest => plainS s && plainB rest
end

/-- The same for declarations. -/
def plainT : Top → Bool
  | .var d => plainO d.2.2
  | .func f => plainB f.body

end RuC.MipsText
