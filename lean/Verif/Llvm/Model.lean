import Verif.Base

/-!
# libs/compiler/llvmgen.c: integers, truth values and control flow

What is printed for functions over variables of the types int and bool: expressions, statements, functions.  Left out: characters, floating values, pointers, arrays,
structures and files; with them go the answers `AMEM` and `ANULL` and the location `LMEM`, which only they ask for, and `was_dynamic`, which stays false.  The tree is
given with its types: the checks of builder.c let the operands of arithmetic operators and of `++` be integers only, and that is how the tree is written down here.
Numbers of registers, labels and blocks are natural numbers: a text with 2^64 of them is out of reach.  The instructions are kept as a list instead of a text.
-/

namespace RuC.Llvm

/-- Types of values. -/
inductive Ty
  | int
  | bool
  /-- a string, only as an argument -/
  | str
  deriving DecidableEq, Repr

/-- `BIN_MUL` to `BIN_OR` without comparisons, libs/compiler/operations.h. -/
inductive Arith
  | mul | div | rem | add | sub | shl | shr | and | xor | or
  deriving DecidableEq, Repr

/-- `BIN_LT` to `BIN_NE`, libs/compiler/operations.h. -/
inductive Cmp
  | lt | gt | le | ge | eq | ne
  deriving DecidableEq, Repr

/-- `UN_MINUS`, `UN_NOT`, `UN_ABS`, libs/compiler/operations.h. -/
inductive Un
  | minus | not | abs
  deriving DecidableEq, Repr

/-- `UN_PREINC` to `UN_POSTDEC`, libs/compiler/operations.h. -/
inductive Inc
  | preInc | preDec | postInc | postDec
  deriving DecidableEq, Repr

mutual
/-- Expressions of the tree; libs/compiler/AST.h. -/
inductive Exp
  | int (v : Int)
  | bool (b : Bool)
  | str (i : Nat)
  | ident (id : Nat) (ty : Ty)
  | un (op : Un) (e : Exp)
  | not (e : Exp)
  | inc (op : Inc) (id : Nat)
  | arith (op : Arith) (l r : Exp)
  | cmp (op : Cmp) (l r : Exp)
  | logic (isOr : Bool) (l r : Exp)
  | comma (l r : Exp)
  | ternary (c a b : Exp)
  | assign (op : Option Arith) (id : Nat) (ty : Ty) (e : Exp)
  /-- the call of a function by its name -/
  | call (f : Nat) (ret : Option Ty) (args : Args)

/-- The arguments of a call. -/
inductive Args
  | nil
  | cons (e : Exp) (rest : Args)
end

/-- `expression_get_type`, AST.c:214-217, of what builder.c makes; nothing for void. -/
def Exp.ty : Exp → Option Ty
  | .int _ => some .int
  | .bool _ => some .bool
  | .str _ => some .str
  | .ident _ ty => some ty
  | .un _ _ => some .int
  | .not _ => some .bool
  | .inc _ _ => some .int
  | .arith _ _ _ => some .int
  | .cmp _ _ _ => some .bool
  | .logic _ _ _ => some .bool
  | .comma _ r => r.ty
  | .ternary _ a _ => a.ty
  | .assign _ _ ty _ => some ty
  | .call _ ret _ => ret

/-- `EXPR_TERNARY`, llvmgen.c:1826-1827. -/
def Exp.isTernary : Exp → Bool
  | .ternary .. => true
  | _ => false

mutual
/-- Statements of the tree. -/
inductive Stmt
  | skip
  | expr (e : Exp)
  /-- declarations of variables -/
  | decls (l : List (Nat × Ty × Option Exp))
  | if_ (c : Exp) (a : Stmt)
  | ifElse (c : Exp) (a b : Stmt)
  | while_ (c : Exp) (b : Stmt)
  | do_ (b : Stmt) (c : Exp)
  | for_ (i : Stmt) (c inc : Option Exp) (b : Stmt)
  | block (b : Stmts)
  | switch_ (e : Exp) (b : Stmts)
  | case_ (v : Exp) (b : Stmt)
  | default_ (b : Stmt)
  | break_
  | continue_
  | return_ (e : Option Exp)

/-- The statements of a block. -/
inductive Stmts
  | nil
  | cons (s : Stmt) (rest : Stmts)
end

/-- `STMT_CASE` and `STMT_DEFAULT`, llvmgen.c:2554-2555. -/
def Stmt.isCase : Stmt → Bool
  | .case_ .. | .default_ _ => true
  | _ => false

/-- The definition of a function; no type: void. -/
structure Func where
  id : Nat
  params : List (Nat × Ty)
  ret : Option Ty
  body : Stmts

/-! ## Instructions -/

/-- An operand: `%.5`, `7`, `true`, a string. -/
inductive Opd
  | reg (r : Nat)
  | int (v : Int)
  | bool (b : Bool)
  | str (i : Nat)
  deriving DecidableEq, Repr

/-- Lines of the text. -/
inductive Instr
  /-- `%.r = add nsw i32 a, b` and others -/
  | arith (r : Nat) (op : Arith) (a b : Opd)
  /-- `%.r = icmp slt ty a, b` and others -/
  | cmp (r : Nat) (op : Cmp) (ty : Ty) (a b : Opd)
  /-- `%.r = xor i1 %.a, true` -/
  | flip (r a : Nat)
  /-- an instruction for floating values, `fcmp` -/
  | float (r : Nat)
  /-- `%.r = call i32 @abs(i32 %.a)` -/
  | abs (r a : Nat)
  /-- `%.r = load ty, ty* %var.id` or `@var.id` -/
  | load (r : Nat) (ty : Ty) (loc : Bool) (id : Nat)
  /-- `store ty a, ty* %var.id` or `@var.id` -/
  | store (ty : Ty) (a : Opd) (loc : Bool) (id : Nat)
  /-- `%var.id = alloca ty` -/
  | alloca (id : Nat) (ty : Ty)
  /-- `store ty %i, ty* %var.id`: the argument with the number `i` -/
  | param (ty : Ty) (i id : Nat)
  /-- `label5:` -/
  | label (l : Nat)
  /-- `br label %label5` -/
  | br (l : Nat)
  /-- `br i1 %.r, label %label5, label %label6` -/
  | cbr (r a b : Nat)
  /-- `%.r = phi ty [ a, %labelx ], [ b, %labely ]`; for the label 0 it is `%0`, which is the first block of a function without parameters -/
  | phi (r : Nat) (ty : Ty) (a : Opd) (x : Nat) (b : Opd) (y : Nat)
  /-- `%.r = call ty @f(..)` -/
  | call (r : Option Nat) (f : Nat) (args : List (Ty × Opd))
  /-- `ret ty a`, `ret void` -/
  | ret (a : Option (Ty × Opd))
  /-- `unreachable` -/
  | unreachable
  /-- `%dyn.k = alloca i8*`, `%.r = call i8* @llvm.stacksave()`, `store i8* %.r, i8** %dyn.k` -/
  | save (k r : Nat)
  /-- `%.r = load i8*, i8** %dyn.k`, `call void @llvm.stackrestore(i8* %.r)` -/
  | restore (k r : Nat)
  /-- `switch i32 %.r, label %labeld [ i32 v, label %labell .. ]` -/
  | switch (r d : Nat) (table : List (Int × Nat))
  deriving DecidableEq, Repr

/-! ## The state of the generator -/

/-- `answer_t`, llvmgen.c:35-43; the rest is not used here. -/
inductive Kind
  | reg | const | logic | str
  deriving DecidableEq, Repr

/-- `location_t`, llvmgen.c:45-51, without `LMEM`. -/
inductive Loc
  | reg | nolog | free
  deriving DecidableEq, Repr

/-- `information`, llvmgen.c:53-96. -/
structure Gen where
  reg : Nat
  label : Nat
  block : Nat
  loc : Loc
  kind : Kind
  ansReg : Nat
  ansConst : Int
  ansBool : Bool
  ansStr : Nat
  lt : Nat
  lf : Nat
  lb : Nat
  lc : Nat
  ternEnd : Nat
  phiPrev : Nat
  lswitch : Nat
  isMain : Bool
  deriving DecidableEq, Repr

/-- What is printed, and the state behind it. -/
abbrev Out := List Instr × Gen

/-- One after the other. -/
def Out.then (x : Out) (f : Gen → Out) : Out := (x.1 ++ (f x.2).1, (f x.2).2)

/-- Nothing is printed. -/
def quiet (g : Gen) : Out := ([], g)

/-- The answer is in a new register. -/
def Gen.answer (g : Gen) : Gen := { g with kind := .reg, ansReg := g.reg, reg := g.reg + 1 }

/-- The answer as an operand, where `AREG` and `ALOGIC` are registers: llvmgen.c:1034-1054. -/
def Gen.opd (g : Gen) (ty : Option Ty) : Opd :=
  match g.kind with
  | .reg | .logic => .reg g.ansReg
  | .str => .str g.ansStr
  | .const => if ty = some .bool then .bool g.ansBool else .int g.ansConst

/-- `check_type_and_branch`, llvmgen.c:635-688. -/
def check (ty : Option Ty) (g : Gen) : Out :=
  match g.kind with
  | .const =>
    if ty = some .int then ([.br (if g.ansConst ≠ 0 then g.lt else g.lf)], g)
    else if ty = some .bool then ([.br (if g.ansBool then g.lt else g.lf)], g)
    else ([], g)
  | .reg =>
    let i : List Instr :=
      if ty = some .int then [.cmp g.reg .ne .int (.reg g.ansReg) (.int 0)]
      else if ty = some .bool then [.cmp g.reg .ne .bool (.reg g.ansReg) (.bool false)]
      else []
    (i ++ [if g.loc = .nolog then .br g.lf else .cbr g.reg g.lt g.lf], { g with ansReg := g.reg, reg := g.reg + 1 })
  | .logic => ([if g.loc = .nolog then .br g.lf else .cbr g.ansReg g.lt g.lf], g)
  | .str => ([], g)

/-! ## Expressions -/

/-- The instruction of `emit_integral_expression`, llvmgen.c:1484-1564, for the operands `a` and `b` with the answers of the kinds `ka` and `kb`; `mk` is the
instruction for integers.  For truth values (only compared by `==` and `!=`) it is an instruction for floating values. -/
def integral (mk : Opd → Opd → Instr) (ty : Option Ty) (r : Nat) (ka : Kind) (a : Nat) (ca : Int) (kb : Kind) (b : Nat) (cb : Int) : List Instr :=
  match ka, kb with
  | .reg, .reg => [if ty = some .int then mk (.reg a) (.reg b) else .float r]
  | .reg, .const => [if ty = some .int then mk (.reg a) (.int cb) else .float r]
  | .const, .reg => [if ty = some .int then mk (.int ca) (.reg b) else .float r]
  | _, _ => []

mutual
/-- `emit_expression`, llvmgen.c:1935-1987, with the functions for the classes of expressions: `emit_identifier_expression` llvmgen.c:744-782,
`emit_literal_expression` llvmgen.c:790-861, `emit_unary_expression` llvmgen.c:1307-1458, `emit_inc_dec_expression` llvmgen.c:1251-1299,
`emit_binary_expression` llvmgen.c:1680-1798, `emit_ternary_expression` llvmgen.c:1806-1876, `emit_assignment_expression` llvmgen.c:1553-1672,
`emit_call_expression` llvmgen.c:988-1161.  `isLocal`: `ident_is_local`, syntax.c:508-511. -/
def emitE (isLocal : Nat → Bool) : Exp → Gen → Out
  | .int v, g => ([], { g with kind := .const, ansConst := v })
  | .bool b, g => ([], { g with kind := .const, ansBool := b })
  | .str i, g => ([], { g with kind := .str, ansStr := i })
  | .ident id ty, g => ([.load g.reg ty (isLocal id) id], g.answer)
  | .un op e, g =>
    (emitE isLocal e { g with loc := if op = .abs then .free else .reg }).then fun g =>
      ([match op with
        | .minus => .arith g.reg .sub (.int 0) (.reg g.ansReg)
        | .not => .arith g.reg .xor (.reg g.ansReg) (.int (-1))
        | .abs => .abs g.reg g.ansReg], g.answer)
  | .not e, g =>
    (emitE isLocal e { g with lt := g.lf, lf := g.lt }).then fun g =>
      if g.kind = .reg then
        (if e.ty = some .int then check e.ty g else quiet g).then fun g => ([.flip g.reg g.ansReg], { g with ansReg := g.reg, reg := g.reg + 1 })
      else quiet g
  | .inc op id, g =>
    ([.load g.reg .int (isLocal id) id,
      .arith (g.reg + 1) (if op = .preInc ∨ op = .postInc then .add else .sub) (.reg g.reg) (.int 1),
      .store .int (.reg (g.reg + 1)) (isLocal id) id],
     { g with kind := .reg, ansReg := if op = .preInc ∨ op = .preDec then g.reg + 1 else g.reg, reg := g.reg + 2 })
  | .arith op l r, g =>
    (emitE isLocal l { g with loc := .free }).then fun g1 => (emitE isLocal r { g1 with loc := .free }).then fun g2 =>
      (integral (.arith g2.reg op) l.ty g2.reg g1.kind g1.ansReg g1.ansConst g2.kind g2.ansReg g2.ansConst, g2.answer)
  | .cmp op l r, g =>
    (emitE isLocal l { g with loc := .free }).then fun g1 => (emitE isLocal r { g1 with loc := .free }).then fun g2 =>
      (integral (.cmp g2.reg op .int) l.ty g2.reg g1.kind g1.ansReg g1.ansConst g2.kind g2.ansReg g2.ansConst, { g2.answer with kind := .logic })
  | .logic isOr l r, g =>
    if g.loc ≠ .nolog then
      let next := g.label
      (emitE isLocal l { g with label := g.label + 1, loc := .free, lt := if isOr then g.lt else next, lf := if isOr then next else g.lf }).then fun g1 =>
        (check l.ty { g1 with loc := .free }).then fun g1 =>
          Out.then ([.label next], { g1 with lt := g.lt, lf := g.lf, loc := .free }) fun g1 =>
            (emitE isLocal r g1).then fun g2 =>
              (check r.ty { g2 with loc := .free }).then fun g2 => ([], { g2 with kind := .logic })
    else
      let yes := g.label
      let no := g.label + 1
      let next := g.label + 2
      let lt := if isOr then no else next
      let lf := if isOr then next else no
      (emitE isLocal l { g with label := g.label + 3, lt := lt, lf := lf }).then fun g1 =>
        (check l.ty { g1 with loc := .free, lt := lt, lf := lf }).then fun g1 =>
          Out.then ([.label next], { g1 with lt := yes, lf := no, loc := .nolog }) fun g1 =>
            (emitE isLocal r g1).then fun g2 =>
              (check r.ty { g2 with loc := .nolog }).then fun g2 =>
                ([.label g2.lf, .phi g2.reg .bool (.bool isOr) g2.phiPrev (.reg (g2.reg - 1)) next], { g2.answer with phiPrev := g2.lf })
  | .comma l r, g => (emitE isLocal l g).then fun g => emitE isLocal r g
  | .ternary c a b, g =>
    let yes := g.label
    let no := g.label + 1
    let stop := g.label + 2
    (emitE isLocal c { g with label := g.label + 3, lt := yes, lf := no, loc := .free }).then fun g1 =>
      (check c.ty g1).then fun g1 =>
        Out.then ([.label yes], { g1 with loc := .free }) fun g1 =>
          (emitE isLocal a g1).then fun g2 =>
            Out.then ([.br stop, .label no], { g2 with loc := .free }) fun g3 =>
              (emitE isLocal b g3).then fun g4 =>
                let x := if a.isTernary then g2.ternEnd else yes
                let y := if b.isTernary then g4.ternEnd else no
                ([.br stop, .label stop,
                  .phi g4.reg (a.ty.getD .int) (if g2.kind = .reg then .reg g2.ansReg else .int g2.ansConst) x (if g4.kind = .reg then .reg g4.ansReg else .int g4.ansConst) y],
                 { g4.answer with lt := g.lt, lf := g.lf, ternEnd := stop })
  | .assign op id ty e, g =>
    (emitE isLocal e { g with loc := .nolog }).then fun g =>
      match op with
      | some op =>
        ([.load g.reg ty (isLocal id) id, .arith (g.reg + 1) op (.reg g.reg) (if g.kind = .reg then .reg g.ansReg else .int g.ansConst),
          .store ty (.reg (g.reg + 1)) (isLocal id) id], { g with kind := .reg, ansReg := g.reg + 1, reg := g.reg + 2 })
      | none =>
        if g.kind = .reg ∨ g.kind = .logic then ([.store ty (.reg g.ansReg) (isLocal id) id], { g with kind := .reg })
        else if ty = .int then ([.store ty (.int g.ansConst) (isLocal id) id], g)
        else if ty = .bool then ([.store ty (.bool g.ansBool) (isLocal id) id], g)
        else ([], g)
  | .call f ret args, g =>
    let x := emitA isLocal args g
    let g := x.2.2
    match ret with
    | some _ => (x.1 ++ [.call (some g.reg) f x.2.1], g.answer)
    | none => (x.1 ++ [.call none f x.2.1], g)

/-- The loop over the arguments in `emit_call_expression`, llvmgen.c:990-1170: what is printed, the arguments and the state. -/
def emitA (isLocal : Nat → Bool) : Args → Gen → List Instr × List (Ty × Opd) × Gen
  | .nil, g => ([], [], g)
  | .cons e rest, g =>
    let x := emitE isLocal e { g with loc := .free }
    let y := emitA isLocal rest x.2
    (x.1 ++ y.1, (e.ty.getD .int, x.2.opd e.ty) :: y.2.1, y.2.2)
end

/-! ## Statements -/

/-- The end of `emit_variable_declaration`, llvmgen.c:2203-2412: the answer is stored. -/
def storeV (ty : Ty) (id : Nat) (g : Gen) : Out :=
  match g.kind with
  | .const => ([.store ty (if ty = .int then .int g.ansConst else .bool g.ansBool) true id], g)
  | .reg => ([.store ty (.reg g.ansReg) true id], g)
  | _ => ([], g)

/-- `emit_variable_declaration`, llvmgen.c:2203-2412, of a local variable that is not an array. -/
def emitV (isLocal : Nat → Bool) (d : Nat × Ty × Option Exp) (g : Gen) : Out :=
  match d with
  | (id, ty, none) => ([.alloca id ty, .store ty (if ty = .int then .int 0 else .bool false) true id], g)
  | (id, ty, some e) =>
    Out.then ([.alloca id ty], { g with loc := .free }) fun g =>
      (emitE isLocal e g).then fun g =>
        storeV ty id g

/-- `emit_declaration_statement`, llvmgen.c:2917-2925. -/
def emitD (isLocal : Nat → Bool) : List (Nat × Ty × Option Exp) → Gen → Out
  | [], g => quiet g
  | d :: l, g => (emitV isLocal d g).then fun g => emitD isLocal l g

/-- The values of the cases of a `switch`, llvmgen.c:2881-2903, with the instructions printed for them (none for literals), and whether there is `default`. -/
def cases (isLocal : Nat → Bool) : Stmts → Gen → List Instr × List Int × Bool × Gen
  | .nil, g => ([], [], false, g)
  | .cons (.case_ v _) rest, g =>
    let x := emitE isLocal v g
    let y := cases isLocal rest x.2
    (x.1 ++ y.1, x.2.ansConst :: y.2.1, y.2.2.1, y.2.2.2)
  | .cons (.default_ _) rest, g =>
    let y := cases isLocal rest g
    (y.1, y.2.1, true, y.2.2.2)
  | .cons _ rest, g => cases isLocal rest g

/-- The end of `emit_return_statement`, llvmgen.c:2781-2820. -/
def retOf (ty : Option Ty) (g : Gen) : Out :=
  match g.kind with
  | .const => if ty = some .int then ([.ret (some (.int, .int g.ansConst))], g) else quiet g
  | .reg => ([.ret (some (ty.getD .int, .reg g.ansReg))], g)
  | _ => quiet g

/-- The condition in `emit_for_statement`, llvmgen.c:2707-2773. -/
def testOf (isLocal : Nat → Bool) (cond incr : Nat) (c : Option Exp) (g : Gen) : Out :=
  match c with
  | some c => Out.then ([.br cond, .label cond], { g with loc := .free }) fun g => (emitE isLocal c g).then fun g => check c.ty g
  | none => ([.br incr], g)

/-- The step in `emit_for_statement`, llvmgen.c:2707-2773. -/
def stepOf (isLocal : Nat → Bool) (inc : Option Exp) (g : Gen) : Out :=
  match inc with
  | some e => emitE isLocal e g
  | none => quiet g

/-- The end of a block in `emit_compound_statement`, llvmgen.c:2540-2571. -/
def restoreOf (k : Option Nat) (g : Gen) : Out :=
  match k with
  | some k => ([.restore k g.reg], { g with reg := g.reg + 1 })
  | none => quiet g

mutual
/-- `emit_statement`, llvmgen.c:2933-2996, with `emit_if_statement` llvmgen.c:2581-2618, `emit_while_statement` llvmgen.c:2626-2664, `emit_do_statement`
llvmgen.c:2672-2706, `emit_for_statement` llvmgen.c:2714-2779, `emit_return_statement` llvmgen.c:2787-2824, `emit_default_statement` llvmgen.c:2832-2840,
`emit_case_statement` llvmgen.c:2848-2856, `emit_switch_statement` llvmgen.c:2864-2926. -/
def emitS (isLocal : Nat → Bool) : Stmt → Gen → Out
  | .skip, g => quiet g
  | .expr e, g => emitE isLocal e g
  | .decls l, g => emitD isLocal l g
  | .if_ c a, g =>
    let yes := g.label
    let no := g.label + 1
    let stop := g.label + 2
    (emitE isLocal c { g with label := g.label + 3, lt := yes, lf := no, loc := .free }).then fun g1 => (check c.ty g1).then fun g1 =>
      Out.then ([.label yes], g1) fun g1 => (emitS isLocal a g1).then fun g1 =>
        ([.br stop, .label no, .br stop, .label stop], { g1 with lt := g.lt, lf := g.lf })
  | .ifElse c a b, g =>
    let yes := g.label
    let no := g.label + 1
    let stop := g.label + 2
    (emitE isLocal c { g with label := g.label + 3, lt := yes, lf := no, loc := .free }).then fun g1 => (check c.ty g1).then fun g1 =>
      Out.then ([.label yes], g1) fun g1 => (emitS isLocal a g1).then fun g1 =>
        Out.then ([.br stop, .label no], g1) fun g1 => (emitS isLocal b g1).then fun g1 =>
          ([.br stop, .label stop], { g1 with lt := g.lt, lf := g.lf })
  | .while_ c b, g =>
    let cond := g.label
    let body := g.label + 1
    let stop := g.label + 2
    Out.then ([.br cond, .label cond], { g with label := g.label + 3, lt := body, lf := stop, lb := stop, lc := body, loc := .free }) fun g1 =>
      (emitE isLocal c g1).then fun g1 => (check c.ty g1).then fun g1 => Out.then ([.label body], g1) fun g1 => (emitS isLocal b g1).then fun g1 =>
        ([.br cond, .label stop], { g1 with lt := g.lt, lf := g.lf, lb := g.lb, lc := g.lc })
  | .do_ b c, g =>
    let loop := g.label
    let stop := g.label + 1
    Out.then ([.br loop, .label loop], { g with label := g.label + 2, lt := loop, lf := stop, lb := stop, lc := loop }) fun g1 =>
      (emitS isLocal b g1).then fun g1 => (emitE isLocal c { g1 with loc := .free }).then fun g1 => (check c.ty g1).then fun g1 =>
        ([.label stop], { g1 with lt := g.lt, lf := g.lf, lb := g.lb, lc := g.lc })
  | .for_ i c inc b, g =>
    let cond := g.label
    let body := g.label + 1
    let incr := g.label + 2
    let stop := g.label + 3
    (emitS isLocal i { g with label := g.label + 4, lt := body, lf := stop, lb := stop, lc := body }).then fun g1 =>
      (testOf isLocal cond incr c g1).then fun g1 =>
      Out.then ([.label incr], g1) fun g1 =>
      (stepOf isLocal inc g1).then fun g1 =>
      Out.then ([.br (if c.isSome then cond else body), .label body], g1) fun g1 => (emitS isLocal b g1).then fun g1 =>
        ([.br incr, .label stop], { g1 with lt := g.lt, lf := g.lf, lb := g.lb, lc := g.lc })
  | .block b, g =>
    Out.then ([.save g.block g.reg], { g with block := g.block + 1, reg := g.reg + 1 }) fun g1 => emitB isLocal (some g.block) b g1
  | .switch_ e b, g =>
    (emitE isLocal e g).then fun g1 =>
      let x := cases isLocal b g1
      let g2 := x.2.2.2
      let d := usub (usub g2.lswitch x.2.1.length) (if x.2.2.1 then 1 else 0)
      Out.then (x.1 ++ [.switch g2.ansReg d (x.2.1.zipIdx.map fun y => (y.1, usub g2.lswitch y.2))], { g2 with lb := d, block := g2.block + 1 }) fun g3 =>
        (emitB isLocal none b g3).then fun g4 => ([.label g4.lb], g4)
  | .case_ _ b, g => Out.then ([.br g.lswitch, .label g.lswitch], { g with lswitch := usub g.lswitch 1 }) fun g => emitS isLocal b g
  | .default_ b, g => Out.then ([.br g.lswitch, .label g.lswitch], { g with lswitch := usub g.lswitch 1 }) fun g => emitS isLocal b g
  | .break_, g => ([.br g.lb], g)
  | .continue_, g => ([.br g.lc], g)
  | .return_ e, g =>
    if g.isMain then quiet g
    else
      match e with
      | none => ([.ret none], g)
      | some e => (emitE isLocal e { g with loc := .reg }).then fun g =>
        retOf e.ty g

/-- The loop of `emit_compound_statement`, llvmgen.c:2540-2571; `k`: the number of the block, nothing for the body of a function or a `switch`. -/
def emitB (isLocal : Nat → Bool) (k : Option Nat) : Stmts → Gen → Out
  | .nil, g => quiet g
  | .cons s .nil, g =>
    (emitS isLocal s g).then fun g =>
      (restoreOf k g).then fun g =>
      if s.isCase then ([.br g.lswitch], g) else quiet g
  | .cons s rest, g => (emitS isLocal s g).then fun g => emitB isLocal k rest g
end

/-- The parameters in `emit_function_definition`, llvmgen.c:2420-2504: the argument number `i` and the rest. -/
def emitP : Nat → List (Nat × Ty) → List Instr
  | _, [] => []
  | i, (id, ty) :: l => .alloca id ty :: .param ty i id :: emitP (i + 1) l

/-- `emit_function_definition`, llvmgen.c:2420-2504; `main`: whether it is the function `main`. -/
def emitF (isLocal : Nat → Bool) (main : Bool) (f : Func) (g : Gen) : Out :=
  Out.then (emitP 0 f.params, { g with isMain := main || g.isMain, block := g.block + 1 }) fun g =>
    (emitB isLocal none f.body g).then fun g =>
      if main then ([.ret (some (.int, .int 0)), .unreachable], { g with isMain := false })
      else if f.ret = none then ([.ret none, .unreachable], g)
      else ([.unreachable], g)

/-- `emit_translation_unit`, llvmgen.c:3004-3045: the functions of a unit, each with its text. -/
def emitU (isLocal : Nat → Bool) (main : Nat) : List Func → Gen → List (Func × List Instr)
  | [], _ => []
  | f :: l, g =>
    let x := emitF isLocal (f.id == main) f g
    (f, x.1) :: emitU isLocal main l x.2

/-- The state at the beginning of `encode_to_llvm`, llvmgen.c:3222-3266; the fields that are not set there have any value. -/
def Gen.start (g : Gen) : Gen := { g with reg := 1, label := 1, lswitch := 0, block := 1, loc := .reg, ansReg := 0, isMain := false, phiPrev := 0 }

end RuC.Llvm
