import Verif.Llvm.Model

/-!
# libs/compiler/mipsgen.c: integers, truth values and control flow

What is printed for functions over variables of the types int and bool.  The tree is that of `Llvm/Model.lean`: variables, arithmetic, comparisons, assignments, calls of
functions of the program, all statements.  Left out: characters, floating values, pointers, arrays, structures, strings, library functions (of these only `printf` prints
anything), the comments and directives of the text, and the runtime at its end.  Numbers of labels and displacements are natural numbers: a text with 2^64 of them is out of
reach.  The instructions are kept as a list instead of a text.
-/

namespace RuC.Mips
open Llvm (Ty Arith Cmp Un Inc Exp Args Stmt Stmts Func)

/-! ## Registers, `mips_register_t`, mipsgen.c:58-148 -/

abbrev R_V0 : Nat := 2
abbrev R_A0 : Nat := 4
abbrev R_T0 : Nat := 8
abbrev R_S0 : Nat := 16
abbrev R_T8 : Nat := 24
abbrev R_GP : Nat := 28
abbrev R_SP : Nat := 29
abbrev R_FP : Nat := 30
abbrev R_RA : Nat := 31
abbrev R_FT0 : Nat := 40
abbrev R_FS0 : Nat := 52

/-- `mips_label_t`, mipsgen.c:236-247. -/
inductive LabelKind
  | main | func | next | funcEnd | string | «else» | «end» | beginCycle | case
  deriving DecidableEq, Repr

/-- `label`, mipsgen.c:249-253. -/
structure Label where
  kind : LabelKind
  num : Nat
  deriving DecidableEq, Repr

/-- `lvalue`, mipsgen.c:257-273: a register, or a displacement from a register. -/
inductive Lv
  | reg (r : Nat)
  | stack (displ : Int) (base : Nat)
  deriving DecidableEq, Repr

/-- `rvalue`, mipsgen.c:277-296: a constant; a register, `true` if it is that of a variable; `RVALUE_VOID`, which is a constant without a type.  A string, which only
library functions take, is kept as `void`. -/
inductive Rv
  | const (v : Int)
  | reg (r : Nat) (fromLv : Bool)
  | void
  deriving DecidableEq, Repr

/-- What `rvalue_to_io`, mipsgen.c:1063-1075, prints; nothing for a constant without a type. -/
inductive Opd
  | reg (r : Nat)
  | imm (v : Int)
  | bad
  deriving DecidableEq, Repr

/-- `rvalue_to_io`, mipsgen.c:1063-1075. -/
def Rv.opd : Rv → Opd
  | .const v => .imm v
  | .reg r _ => .reg r
  | .void => .bad

/-- `rvalue.kind == RVALUE_KIND_CONST`. -/
def Rv.isConst : Rv → Bool
  | .reg .. => false
  | _ => true

/-- `rvalue.val.reg_num`: the parts of the union share their place. -/
def Rv.num : Rv → Int
  | .const v => v
  | .reg r _ => r
  | .void => 0

/-- Lines of the text. -/
inductive Instr
  /-- `li d, v` -/
  | li (d v : Opd)
  /-- `move d, s` -/
  | move (d : Nat) (s : Opd)
  /-- `lw d, off(base)`; `l.s` for a register of floating values -/
  | lw (d : Nat) (off : Int) (base : Nat)
  /-- `sw s, off(base)`; `s.s` for a register of floating values -/
  | sw (s : Opd) (off : Int) (base : Nat)
  /-- `add d, a, b`; the version with a constant: `addi d, a, b` -/
  | op (imm : Bool) (o : Arith) (d a b : Opd)
  /-- `sltiu d, a, 1` -/
  | sltiu (d a : Opd)
  /-- `abs d, a` -/
  | abs (d a : Opd)
  /-- `beq r, $0, l`, `bne r, $0, l`, `bltz r, l` and others -/
  | br (c : Cmp) (r : Nat) (l : Label)
  | j (l : Label)
  | jal (l : Label)
  | jr (r : Nat)
  | label (l : Label)
  deriving DecidableEq, Repr

/-! ## The registers in use -/

/-- `encoder`, mipsgen.c:299-324. -/
structure Enc where
  /-- `registers` -/
  busy : Nat → Bool
  /-- `label_num` -/
  lab : Nat
  /-- `case_label_num` -/
  caseLab : Nat
  /-- `label_break` -/
  brk : Label
  /-- `label_continue` -/
  cont : Label
  /-- `curr_function_ident` -/
  fn : Nat
  /-- `scope_displ` -/
  scope : Nat
  /-- `max_displ` -/
  maxd : Nat
  /-- `global_displ` -/
  gdispl : Nat
  /-- `displacements` -/
  table : Nat → Lv

/-- The place in `registers` for a register, mipsgen.c:369-414, 473-520. -/
def place (r : Nat) : Option Nat :=
  if R_T0 ≤ r ∧ r < R_T0 + 8 then some (r - R_T0)
  else if R_T8 ≤ r ∧ r < R_T8 + 2 then some (r - R_T8 + 8)
  else if R_FT0 ≤ r ∧ r < R_FT0 + 12 then some (r - R_FT0 + 10)
  else none

/-- A place is marked. -/
def Enc.mark (e : Enc) (i : Nat) (b : Bool) : Enc := { e with busy := fun j => if j = i then b else e.busy j }

/-- `lock_register`, mipsgen.c:367-415. -/
def lockRegister (e : Enc) (r : Nat) : Enc := match place r with | some i => e.mark i true | none => e

/-- `free_register`, mipsgen.c:471-521. -/
def freeRegister (e : Enc) (r : Nat) : Enc := match place r with | some i => e.mark i false | none => e

/-- The loops of `get_register` and `get_float_register`: the first place from `i` on, in steps of `k`, that is free, and at most `n` steps. -/
def search (busy : Nat → Bool) (k : Nat) : Nat → Nat → Nat
  | 0, i => i
  | n + 1, i => if busy i then search busy k n (i + k) else i

/-- `get_register`, mipsgen.c:424-439. -/
def getRegister (e : Enc) : Nat × Enc := (search e.busy 1 10 0 + R_T0, e.mark (search e.busy 1 10 0) true)

/-- `get_float_register`, mipsgen.c:448-463. -/
def getFloatRegister (e : Enc) : Nat × Enc := (search e.busy 2 6 10 + R_FT0 - 10, e.mark (search e.busy 2 6 10) true)

/-- `free_rvalue`, mipsgen.c:529-535. -/
def freeRvalue (e : Enc) : Rv → Enc
  | .reg r false => freeRegister e r
  | _ => e

/-! ## Expressions -/

/-- What was printed, the value, and the state. -/
abbrev Out := List Instr × Rv × Enc

/-- `emit_load_of_immediate`, mipsgen.c:1314-1335. -/
def loadImm (e : Enc) (v : Rv) : Out := ([.li (.reg (getRegister e).1) v.opd], .reg (getRegister e).1 false, (getRegister e).2)

/-- A constant is put in a register, mipsgen.c:1622, 1704, 2204. -/
def toReg (e : Enc) (v : Rv) : Out := if v.isConst then loadImm e v else ([], v, e)

/-- `emit_load_of_lvalue`, mipsgen.c:1346-1394. -/
def loadLv (e : Enc) : Lv → Out
  | .reg r => ([], .reg r true, e)
  | .stack d b => ([.lw (getRegister e).1 d b], .reg (getRegister e).1 false, freeRegister (getRegister e).2 b)

/-- `emit_move_rvalue_to_register`, mipsgen.c:1575-1608. -/
def moveTo (r : Nat) (v : Rv) : List Instr :=
  match v with
  | .reg q _ => if q = r then [] else [.move r (.reg q)]
  | v => [.li (.reg r) v.opd]

/-- `emit_store_of_rvalue`, mipsgen.c:1617-1676. -/
def store (e : Enc) (target : Lv) (v : Rv) : List Instr × Enc :=
  let x := toReg e v
  match target with
  | .reg r => (x.1 ++ if v.num ≠ r then [.move r x.2.1.opd] else [], x.2.2)
  | .stack d b => (x.1 ++ [.sw x.2.1.opd d b], freeRegister (if v.isConst then freeRvalue x.2.2 x.2.1 else x.2.2) b)

/-- `emit_conditional_branch`, mipsgen.c:1251-1277. -/
def condBranch (c : Cmp) (v : Rv) (l : Label) : List Instr :=
  match v with
  | .reg r _ => [.br c r l]
  | v => if v.num = 0 then [.j l] else []

/-- `emit_operand_load`, mipsgen.c:1688-1722, for arithmetic. -/
def operandLoad (e : Enc) (v : Rv) (o : Arith) (first : Bool) : Out :=
  match o with
  | .sub | .div | .mul | .rem => toReg e v
  | .shl | .shr => if first then toReg e v else ([], v, e)
  | _ => ([], v, e)

/-- Both operands have to be in registers, mipsgen.c:1845-1849. -/
def needsBoth (o : Arith) (a : Rv) : Bool :=
  match o with
  | .sub | .div | .mul | .rem => true
  | .shl | .shr => a.isConst
  | _ => false

/-- The operands change their places, mipsgen.c:1852. -/
def swaps (o : Arith) (a : Rv) : Bool :=
  match o with
  | .add | .or | .xor | .and => a.isConst
  | _ => false

/-- `emit_binary_operation`, mipsgen.c:1733-1881, for arithmetic; `get_bin_instruction`, mipsgen.c:544-604. -/
def arithOp (e : Enc) (dest a b : Rv) (o : Arith) : List Instr × Enc :=
  if a.isConst = false ∧ b.isConst = false then ([.op false o dest.opd a.opd b.opd], e)
  else
    let x := operandLoad e a o true
    let y := operandLoad x.2.2 b o false
    (x.1 ++ y.1 ++ [if swaps o a then .op (!needsBoth o a) o dest.opd y.2.1.opd x.2.1.opd else .op (!needsBoth o a) o dest.opd x.2.1.opd y.2.1.opd], y.2.2)

/-- `emit_binary_operation`, mipsgen.c:1733-1881, for comparisons. -/
def cmpOp (e : Enc) (dest a b : Rv) (o : Cmp) : List Instr × Enc :=
  let l : Label := ⟨if a.isConst = false ∧ b.isConst = false then .end else .else, e.lab⟩
  let x := toReg e a
  let y := toReg x.2.2 b
  (x.1 ++ y.1 ++ [.op false .sub dest.opd x.2.1.opd y.2.1.opd] ++ condBranch o dest l ++ [.li dest.opd (.imm 1), .label l], { y.2.2 with lab := e.lab + 1 })

/-- The registers of arguments get back their values, mipsgen.c:2278-2291; `n` of them from `i` on. -/
def restoreArgs (e : Enc) (i : Nat) : Nat → List Instr × Enc
  | 0 => ([], e)
  | n + 1 =>
    let x := loadLv e (.stack (4 * i) R_SP)
    let y := restoreArgs (freeRvalue x.2.2 x.2.1) (i + 1) n
    (x.1 ++ moveTo (R_A0 + i) x.2.1 ++ y.1, y.2)

/-- `$sp` is moved, mipsgen.c:2191-2194, 2293-2296. -/
def moveSp (n : Int) : List Instr := if n = 0 then [] else [.op true .add (.reg R_SP) (.reg R_SP) (.imm n)]

/-- The number of arguments. -/
def count : Args → Nat
  | .nil => 0
  | .cons _ r => count r + 1

/-- `expression_is_lvalue` for the forms modelled. -/
def isLvalue : Exp → Bool
  | .ident .. => true
  | _ => false

/-- The constant of `emit_increment_expression`, mipsgen.c:2382-2417. -/
def incBy : Inc → Int
  | .preInc | .postInc => 1
  | _ => -1

/-- Whether the operator stands in front, mipsgen.c:2389. -/
def isPrefix : Inc → Bool
  | .preInc | .preDec => true
  | _ => false

mutual
/-- `emit_expression`, mipsgen.c:2775-2824, and what it calls. -/
def emitE : Exp → Enc → Out
  /- `emit_literal_expression`, mipsgen.c:1891-1935 -/
  | .int v, e => ([], .const v, e)
  | .bool b, e => ([], .const (if b then 1 else 0), e)
  | .str _, e => ([], .void, e)
  /- `emit_identifier_lvalue`, mipsgen.c:1404-1407; `displacements_get`, mipsgen.c:1161-1171 -/
  | .ident id _, e => loadLv e (e.table id)
  /- `emit_unary_expression`, mipsgen.c:2427-2511 -/
  | .un op x, e =>
    let r := emitE x e
    match op with
    | .minus => let c := arithOp r.2.2 r.2.1 r.2.1 (.const (-1)) .mul; (r.1 ++ c.1, r.2.1, c.2)
    | .not => let c := arithOp r.2.2 r.2.1 r.2.1 (.const (-1)) .xor; (r.1 ++ c.1, r.2.1, c.2)
    | .abs => (r.1 ++ [.abs r.2.1.opd r.2.1.opd], r.2.1, r.2.2)
  | .not x, e =>
    let r := emitE x e
    (r.1 ++ [.sltiu r.2.1.opd r.2.1.opd], r.2.1, r.2.2)
  /- `emit_increment_expression`, mipsgen.c:2382-2417 -/
  | .inc op id, e =>
    let r := loadLv e (e.table id)
    if isPrefix op then
      let c := arithOp r.2.2 r.2.1 r.2.1 (.const (incBy op)) .add
      let s := store c.2 (e.table id) r.2.1
      (r.1 ++ c.1 ++ s.1, r.2.1, s.2)
    else
      let p := getRegister r.2.2
      let c := arithOp p.2 (.reg p.1 false) r.2.1 (.const (incBy op)) .add
      let s := store c.2 (e.table id) (.reg p.1 false)
      (r.1 ++ c.1 ++ s.1, r.2.1, freeRegister s.2 p.1)
  /- `emit_binary_expression`, mipsgen.c:2521-2567 -/
  | .arith o a b, e =>
    let l := emitE a e
    let r := emitE b l.2.2
    let c := arithOp r.2.2 l.2.1 l.2.1 r.2.1 o
    (l.1 ++ r.1 ++ c.1, l.2.1, freeRvalue c.2 r.2.1)
  | .cmp o a b, e =>
    let l := emitE a e
    let r := emitE b l.2.2
    let c := cmpOp r.2.2 l.2.1 l.2.1 r.2.1 o
    (l.1 ++ r.1 ++ c.1, l.2.1, freeRvalue c.2 r.2.1)
  | .comma a b, e =>
    let l := emitE a e
    let r := emitE b (if isLvalue a then e else freeRvalue l.2.2 l.2.1)
    ((if isLvalue a then [] else l.1) ++ r.1, r.2)
  | .logic isOr a b, e =>
    let l := emitE a e
    let r := emitE b (freeRvalue { l.2.2 with lab := l.2.2.lab + 1 } l.2.1)
    (l.1 ++ condBranch (if isOr then .ne else .eq) l.2.1 ⟨.end, l.2.2.lab⟩ ++ r.1 ++ [.label ⟨.end, l.2.2.lab⟩], r.2)
  /- `emit_ternary_expression`, mipsgen.c:2577-2608 -/
  | .ternary c a b, e =>
    let x := emitE c e
    let p := getRegister (freeRvalue { x.2.2 with lab := x.2.2.lab + 1 } x.2.1)
    let l := emitE a p.2
    let r := emitE b (freeRvalue l.2.2 l.2.1)
    (x.1 ++ condBranch .ne x.2.1 ⟨.else, x.2.2.lab⟩ ++ l.1 ++ moveTo p.1 l.2.1 ++ [.j ⟨.end, x.2.2.lab⟩, .label ⟨.else, x.2.2.lab⟩] ++ r.1 ++ moveTo p.1 r.2.1 ++
      [.label ⟨.end, x.2.2.lab⟩], .reg p.1 false, freeRvalue r.2.2 r.2.1)
  /- `emit_assignment_expression`, mipsgen.c:2670-2742 -/
  | .assign none id _ x, e =>
    let r := emitE x e
    let s := store r.2.2 (e.table id) r.2.1
    (r.1 ++ s.1, r.2.1, s.2)
  | .assign (some o) id _ x, e =>
    let r := emitE x e
    let t := loadLv r.2.2 (e.table id)
    if o = .rem then (r.1 ++ t.1, .void, t.2.2)
    else
      let c := arithOp t.2.2 t.2.1 t.2.1 r.2.1 o
      let s := store (freeRvalue c.2 r.2.1) (e.table id) t.2.1
      (r.1 ++ t.1 ++ c.1 ++ s.1, t.2.1, s.2)
  /- `emit_call_expression`, mipsgen.c:2168-2311; `emit_builtin_call`, mipsgen.c:2146-2158, without `printf` -/
  | .call f _ args, e =>
    if f < 170 then ([], .void, e)
    else
      let a := emitA 0 args e
      let b := restoreArgs a.2 0 (min (count args) 4)
      (moveSp (4 - 4 * (count args : Int)) ++ a.1 ++ [.jal ⟨.func, f⟩] ++ b.1 ++ moveSp (4 * (count args : Int) - 4), .reg R_V0 false, b.2)

/-- The arguments of a call from the number `i` on, mipsgen.c:2199-2270. -/
def emitA (i : Nat) : Args → Enc → List Instr × Enc
  | .nil, e => ([], e)
  | .cons x rest, e =>
    let r := emitE x e
    let v := toReg r.2.2 r.2.1
    let s := store v.2.2 (.stack (4 * i) R_SP) (if i < 4 then .reg (R_A0 + i) false else v.2.1)
    let t := emitA (i + 1) rest (freeRvalue s.2 v.2.1)
    (r.1 ++ v.1 ++ s.1 ++ (if i < 4 then moveTo (R_A0 + i) v.2.1 else []) ++ t.1, t.2)
end

/-- `emit_void_expression`, mipsgen.c:2834-2846. -/
def emitVoid (x : Exp) (e : Enc) : List Instr × Enc :=
  if isLvalue x then ([], e) else ((emitE x e).1, freeRvalue (emitE x e).2.2 (emitE x e).2.1)

/-! ## Declarations and statements -/

/-- `displacements_add`, mipsgen.c:1105-1136, for a variable of one word. -/
def addVar (isLocal : Nat → Bool) (e : Enc) (id : Nat) : Enc :=
  if isLocal id then
    { e with scope := e.scope + 4, maxd := max (e.scope + 4) e.maxd, table := fun j => if j = id then .stack (-(e.scope + 4 : Nat)) R_FP else e.table j }
  else { e with gdispl := e.gdispl + 4, table := fun j => if j = id then .stack e.gdispl R_GP else e.table j }

/-- `emit_variable_declaration`, mipsgen.c:3114-3145. -/
def emitV (isLocal : Nat → Bool) (d : Nat × Ty × Option Exp) (e : Enc) : List Instr × Enc :=
  let e := addVar isLocal e d.1
  match d.2.2 with
  | none => ([], e)
  | some x =>
    let r := emitE x e
    let s := store r.2.2 (e.table d.1) r.2.1
    (r.1 ++ s.1, freeRvalue s.2 r.2.1)

/-- `emit_declaration_statement`, mipsgen.c:3348-3356. -/
def emitD (isLocal : Nat → Bool) : List (Nat × Ty × Option Exp) → Enc → List Instr × Enc
  | [], e => ([], e)
  | d :: l, e =>
    let x := emitV isLocal d e
    let y := emitD isLocal l x.2
    (x.1 ++ y.1, y.2)

/-- `emit_literal_expression` for the expression of a case. -/
def literal : Exp → Rv
  | .int v => .const v
  | .bool b => .const (if b then 1 else 0)
  | _ => .void

/-- The jumps of a `switch`, mipsgen.c:3464-3499, and the label for `default`. -/
def dispatch (cond : Rv) : Stmts → Enc → List Instr × Option Nat × Enc
  | .nil, e => ([], none, e)
  | .cons (.case_ v _) rest, e =>
    let g := getRegister { e with caseLab := e.caseLab + 1 }
    let c := cmpOp g.2 (.reg g.1 false) cond (literal v) .eq
    let y := dispatch cond rest (freeRegister c.2 g.1)
    (c.1 ++ condBranch .eq (.reg g.1 false) ⟨.case, e.caseLab⟩ ++ y.1, y.2.1, y.2.2)
  | .cons (.default_ _) rest, e =>
    let y := dispatch cond rest { e with caseLab := e.caseLab + 1 }
    (y.1, some (y.2.1.getD e.caseLab), y.2.2)
  | .cons _ rest, e => dispatch cond rest e

/-- The condition of `for`, which leads to `l` if it is false, mipsgen.c:3639-3646. -/
def condOf (l : Label) : Option Exp → Enc → List Instr × Enc
  | none, e => ([], e)
  | some c, e => ((emitE c e).1 ++ condBranch .eq (emitE c e).2.1 l, freeRvalue (emitE c e).2.2 (emitE c e).2.1)

/-- The step of `for`, mipsgen.c:3651-3655. -/
def stepOf : Option Exp → Enc → List Instr × Enc
  | none, e => ([], e)
  | some x, e => emitVoid x e

/-- Where a `switch` goes when there is no case for the value, mipsgen.c:3501-3510. -/
def otherwise (d : Option Nat) (l : Label) : Label :=
  match d with
  | some k => ⟨.case, k⟩
  | none => l

mutual
/-- `emit_statement`, mipsgen.c:3715-3779, and what it calls. -/
def emitS (isLocal : Nat → Bool) : Stmt → Enc → List Instr × Enc
  | .skip, e => ([], e)
  | .expr x, e => emitVoid x e
  | .decls l, e => emitD isLocal l e
  /- `emit_if_statement`, mipsgen.c:3415-3442 -/
  | .if_ c a, e =>
    let x := emitE c e
    let l := x.2.2.lab
    let y := emitS isLocal a (freeRvalue { x.2.2 with lab := l + 1 } x.2.1)
    (x.1 ++ condBranch .eq x.2.1 ⟨.end, l⟩ ++ y.1 ++ [.label ⟨.end, l⟩], y.2)
  | .ifElse c a b, e =>
    let x := emitE c e
    let l := x.2.2.lab
    let y := emitS isLocal a (freeRvalue { x.2.2 with lab := l + 1 } x.2.1)
    let z := emitS isLocal b y.2
    (x.1 ++ condBranch .eq x.2.1 ⟨.else, l⟩ ++ y.1 ++ [.j ⟨.end, l⟩, .label ⟨.else, l⟩] ++ z.1 ++ [.label ⟨.end, l⟩], z.2)
  /- `emit_while_statement`, mipsgen.c:3546-3575 -/
  | .while_ c b, e =>
    let l := e.lab
    let x := emitE c { e with lab := l + 1, cont := ⟨.beginCycle, l⟩, brk := ⟨.end, l⟩ }
    let y := emitS isLocal b (freeRvalue x.2.2 x.2.1)
    ([.label ⟨.beginCycle, l⟩] ++ x.1 ++ condBranch .eq x.2.1 ⟨.end, l⟩ ++ y.1 ++ [.j ⟨.beginCycle, l⟩, .label ⟨.end, l⟩], { y.2 with cont := e.cont, brk := e.brk })
  /- `emit_do_statement`, mipsgen.c:3583-3611 -/
  | .do_ b c, e =>
    let l := e.lab
    let y := emitS isLocal b { e with lab := l + 1, cont := ⟨.next, l⟩, brk := ⟨.end, l⟩ }
    let x := emitE c y.2
    ([.label ⟨.beginCycle, l⟩] ++ y.1 ++ [.label ⟨.next, l⟩] ++ x.1 ++ condBranch .ne x.2.1 ⟨.beginCycle, l⟩ ++ [.label ⟨.end, l⟩],
      { freeRvalue x.2.2 x.2.1 with cont := e.cont, brk := e.brk })
  /- `emit_for_statement`, mipsgen.c:3619-3664 -/
  | .for_ i c inc b, e =>
    let p := emitS isLocal i e
    let l := p.2.lab
    let g : Enc := { p.2 with lab := l + 1, cont := ⟨.beginCycle, l⟩, brk := ⟨.end, l⟩ }
    let x := condOf ⟨.end, l⟩ c g
    let y := emitS isLocal b x.2
    let z := stepOf inc y.2
    (p.1 ++ [.label ⟨.beginCycle, l⟩] ++ x.1 ++ y.1 ++ z.1 ++ [.j ⟨.beginCycle, l⟩, .label ⟨.end, l⟩], { z.2 with cont := p.2.cont, brk := p.2.brk, scope := e.scope })
  /- `emit_compound_statement`, mipsgen.c:3394-3407 -/
  | .block b, e =>
    let x := emitB isLocal b e
    (x.1, { x.2 with maxd := max x.2.scope x.2.maxd, scope := e.scope })
  /- `emit_switch_statement`, mipsgen.c:3450-3538 -/
  | .switch_ c b, e =>
    let l := e.lab
    let x := emitE c { e with lab := l + 1, brk := ⟨.end, l⟩ }
    let v := toReg x.2.2 x.2.1
    let d := dispatch v.2.1 b v.2.2
    let y := emitW isLocal b e.caseLab (freeRvalue d.2.2 v.2.1)
    (x.1 ++ v.1 ++ d.1 ++ [.j (otherwise d.2.1 ⟨.end, l⟩)] ++ y.1 ++ [.label ⟨.end, l⟩], { y.2 with brk := e.brk })
  /- an error -/
  | .case_ _ _, e => ([], e)
  | .default_ _, e => ([], e)
  /- `emit_break_statement`, mipsgen.c:3681-3684; `emit_continue_statement`, mipsgen.c:3671-3674 -/
  | .break_, e => ([.j e.brk], e)
  | .continue_, e => ([.j e.cont], e)
  /- `emit_return_statement`, mipsgen.c:3692-3707 -/
  | .return_ none, e => ([.j ⟨.funcEnd, e.fn⟩], e)
  | .return_ (some x), e =>
    let r := emitE x e
    let s := store r.2.2 (.reg R_V0) r.2.1
    (r.1 ++ s.1 ++ [.j ⟨.funcEnd, e.fn⟩], freeRvalue s.2 r.2.1)

/-- The statements of a block. -/
def emitB (isLocal : Nat → Bool) : Stmts → Enc → List Instr × Enc
  | .nil, e => ([], e)
  | .cons s rest, e =>
    let x := emitS isLocal s e
    let y := emitB isLocal rest x.2
    (x.1 ++ y.1, y.2)

/-- The statements of a `switch`, mipsgen.c:3516-3534; `emit_case_statement`, mipsgen.c:3364-3371; `emit_default_statement`, mipsgen.c:3379-3386. -/
def emitW (isLocal : Nat → Bool) : Stmts → Nat → Enc → List Instr × Enc
  | .nil, _, e => ([], e)
  | .cons (.case_ _ s) rest, k, e =>
    let x := emitS isLocal s e
    let y := emitW isLocal rest (k + 1) x.2
    ([.label ⟨.case, k⟩] ++ x.1 ++ y.1, y.2)
  | .cons (.default_ s) rest, k, e =>
    let x := emitS isLocal s e
    let y := emitW isLocal rest (k + 1) x.2
    ([.label ⟨.case, k⟩] ++ x.1 ++ y.1, y.2)
  | .cons s rest, k, e =>
    let x := emitS isLocal s e
    let y := emitW isLocal rest k x.2
    (x.1 ++ y.1, y.2)
end

/-! ## Functions -/

/-- The places of the parameters from the number `i` on, mipsgen.c:3215-3253. -/
def params (e : Enc) (i : Nat) : List (Nat × Ty) → Enc
  | [] => e
  | (id, _) :: l => params { e with table := fun j => if j = id then (if i < 4 then .reg (R_A0 + i) else .stack (4 * i + 64) R_FP) else e.table j } (i + 1) l

/-- What is kept at the beginning of a function, mipsgen.c:3174-3194: registers and their places below `$sp`. -/
def kept : List (Nat × Int) :=
  [(R_RA, -4), (R_FP, -8), (R_S0, -12), (R_S0 + 1, -16), (R_S0 + 2, -20), (R_S0 + 3, -24), (R_S0 + 4, -28), (R_S0 + 5, -32), (R_S0 + 6, -36), (R_S0 + 7, -40),
   (R_FS0, -44), (R_FS0 + 2, -48), (R_FS0 + 4, -52), (R_FS0 + 6, -56), (R_FS0 + 8, -60)]

/-- What is taken back at its end, mipsgen.c:3286-3306. -/
def takenBack : List (Nat × Int) := kept.drop 2 ++ [(R_FP, -8), (R_RA, -4)]

/-- `emit_function_definition`, mipsgen.c:3153-3310. -/
def emitF (isLocal : Nat → Bool) (main : Nat) (f : Func) (e : Enc) : List Instr × Enc :=
  let x := emitS isLocal (.block f.body) (params { e with fn := f.id, maxd := 0, scope := 0 } 0 f.params)
  ([.label ⟨.func, f.id⟩] ++ (if f.id = main then [.label ⟨.main, 0⟩] else []) ++ kept.map (fun r => .sw (.reg r.1) r.2 R_SP) ++
    [.op true .add (.reg R_FP) (.reg R_SP) (.imm (-64)), .op true .add (.reg R_SP) (.reg R_FP) (.imm (-(4 + x.2.maxd : Nat)))] ++ x.1 ++
    [.label ⟨.funcEnd, f.id⟩, .op true .add (.reg R_SP) (.reg R_FP) (.imm 64)] ++ takenBack.map (fun r => .lw r.1 r.2 R_SP) ++ [.jr R_RA], x.2)

/-- Declarations of a unit. -/
inductive Top
  | var (d : Nat × Ty × Option Exp)
  | func (f : Func)

/-- `emit_translation_unit`, mipsgen.c:3787-3797; `emit_declaration`, mipsgen.c:3312-3330. -/
def emitU (isLocal : Nat → Bool) (main : Nat) : List Top → Enc → List Instr × Enc
  | [], e => ([], e)
  | .var d :: l, e =>
    let x := emitV isLocal d e
    let y := emitU isLocal main l x.2
    (x.1 ++ y.1, y.2)
  | .func f :: l, e =>
    let x := emitF isLocal main f e
    let y := emitU isLocal main l x.2
    (x.1 ++ y.1, y.2)

/-- The state at the beginning, `encode_to_mips`, mipsgen.c:3937-3970; the labels of loops and the function are not set yet and the hash is empty. -/
def start (brk cont : Label) (fn maxd : Nat) (table : Nat → Lv) : Enc := ⟨fun _ => false, 1, 1, brk, cont, fn, 0, maxd, 0, table⟩

/-- `pregen`, mipsgen.c:3801-3835, behind the setting of `$gp`; the end of `strings_declaration`, mipsgen.c:3838-3889. -/
def head : List Instr :=
  [.move R_FP (.reg R_SP), .op true .add (.reg R_SP) (.reg R_SP) (.imm (-4)), .sw (.reg R_RA) 0 R_SP, .li (.reg R_T0) (.imm 0x10010000), .sw (.reg R_T0) (-8060) R_GP,
   .jal ⟨.main, 0⟩, .lw R_RA 0 R_SP, .jr R_RA]

/-- The text of a unit. -/
def text (isLocal : Nat → Bool) (main : Nat) (l : List Top) (e : Enc) : List Instr := head ++ (emitU isLocal main l e).1

end RuC.Mips
