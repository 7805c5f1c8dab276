import Verif.Base
import Verif.Instr.Model

/-!
# The generator of virtual machine code, libs/compiler/codegen.c

The encoder appends cells to its memory and patches cells it has left behind: operands of forward jumps, and
the chains of `break`, `continue`, `case` and of calls of functions that are not yet defined.

Simplifications.
* Memory is given by its sequence of cells (`Verif.Vector`), allocations are granted.  The first four cells,
  which `enc_create` leaves unwritten, are zeros here.
* The tree is given as a term whose nodes carry what the encoder asks the tables about: the class of a type
  (`Ty`, `const` taken away as `type_is_integer` and the others do), the offset of a member, the number of an
  initialising procedure.
* `displacements` is one vector indexed by identifiers.  Here it is two tables, one for the variables and
  one for the functions, because no identifier is both.
* `abs` of the C library takes an `int`; cells and displacements are taken to be below `2^31`.
* A loop over a chain that does not end in as many steps as there are cells sets `hung`.
* Left out: `printid`, `getid`, definitions of structures inside the code (`emit_struct_declaration`), and
  the error messages.
-/

namespace RuC.Codegen

open RuC RuC.Instr
open RuC.Expr (Unary Binary)

/-- The classes of types the encoder tells apart, `const` taken away. -/
inductive Ty
  | structure (size : Nat)
  | array | pointer | integer | floating | function | other
  deriving DecidableEq, Repr

/-- `type_size`, syntax.c:567-585. -/
def Ty.size : Ty → Nat
  | .structure n => n
  | .floating => 2
  | _ => 1

mutual
/-- An expression of the tree.  `both` stands for a call of `print` with several arguments. -/
inductive Exp
  | lit (v : Int)
  | flit (cells : List Int)
  | str (chars : List Int)
  | ident (id : Nat) (t : Ty)
  | subscript (base index : Exp) (t : Ty)
  | arrow (base : Exp) (off : Int) (t : Ty)
  | dot (base : Exp) (off : Int) (baseSize : Nat) (t : Ty)
  | deref (e : Exp) (t : Ty)
  | call (f : Nat) (args : Args)
  | callParam (p : Nat) (args : Args)
  | builtin (f : Nat) (args : Args)
  | printf (fmt : Exp) (args : Args) (size : Nat)
  | print (e : Exp) (t : Int)
  | both (a b : Exp)
  | cast (widen : Bool) (e : Exp)
  | incdec (op : Unary) (e : Exp) (t : Ty)
  | address (e : Exp)
  | unary (op : Unary) (e : Exp) (t : Ty)
  | upb (e : Exp)
  | binary (op : Binary) (l r : Exp) (floating : Bool)
  | comma (l r : Exp)
  | ternary (c a b : Exp)
  | assign (op : Binary) (l r : Exp) (t : Ty)
  | init (array : Bool) (size : Nat) (items : Args)
  | funArg (f : Nat)
  | paramArg (p : Nat)
  | initArg (size : Nat) (cells : List Int)
/-- The arguments of a call, the items of an initialiser, the bounds of an array. -/
inductive Args
  | nil
  | cons (e : Exp) (rest : Args)
end

/-- `expression_is_lvalue`: names, elements, members behind arrows and indirections; a member behind a dot
when its structure is one (`build_member_expression`, builder.c:696-748). -/
def Exp.isLvalue : Exp → Bool
  | .ident _ _ | .subscript _ _ _ | .arrow _ _ _ | .deref _ _ => true
  | .dot b _ _ _ => b.isLvalue
  | _ => false

/-- What is laid out so far: where the variables are, and the counters of cells.  `inFunc` says whether
`curr_func` is set. -/
structure Layout where
  displs : Nat → Int
  displ : Int
  maxLocal : Int
  maxGlobal : Int
  inFunc : Bool

/-- `encoder`, codegen.c:49-75.  `brk`, `cont` and `next` are `addr_break`, `addr_cond` and `addr_case`; `fn`
are the displacements of functions. -/
structure Enc where
  mem : List Int
  brk : Nat
  cont : Nat
  next : Nat
  fn : Nat → Int
  funcs : List Int
  lay : Layout
  hung : Bool

/-- `f` with the answer at `i` replaced. -/
def update (f : Nat → Int) (i : Nat) (v : Int) : Nat → Int := fun j => if j = i then v else f j

/-- `mem_add`, codegen.c:114-117. -/
def Enc.add (st : Enc) (v : Int) : Enc := { st with mem := st.mem ++ [v] }

/-- Several `mem_add` in a row. -/
def Enc.adds (st : Enc) (vs : List Int) : Enc := { st with mem := st.mem ++ vs }

/-- `mem_set`, codegen.c:130-133. -/
def Enc.set (st : Enc) (i : Nat) (v : Int) : Enc := { st with mem := st.mem.set i v }

/-- `mem_get`, codegen.c:135-138. -/
def Enc.get (st : Enc) (i : Nat) : Int := st.mem.getD i ITEM_MAX

/-- `mem_size`, codegen.c:109-112. -/
def Enc.size (st : Enc) : Nat := st.mem.length

/-- `displacements_add`, codegen.c:165-189. -/
def Layout.add (l : Layout) (id : Nat) (t : Ty) : Layout :=
  if l.inFunc then
    { l with
      displs := update l.displs id (if t = .function then - l.displ else l.displ)
      displ := l.displ + t.size
      maxLocal := max (l.displ + t.size) l.maxLocal }
  else
    { l with
      displs := update l.displs id (- l.maxGlobal)
      maxGlobal := l.maxGlobal + t.size }

/-- The loops of `addr_begin_condition`, codegen.c:267-275, `addr_end_condition`, codegen.c:277-285,
`addr_end_break`, codegen.c:287-295, and `functions_add`, codegen.c:212-231: from the cell `head` on, every
cell is set to `v` and the next one is the address that stood there, until the address is `stop`.  `none`
when that does not happen in `fuel` steps. -/
def walk (fuel : Nat) (mem : List Int) (head stop : Nat) (v : Int) : Option (List Int) :=
  if head = stop then some mem
  else match fuel with
    | 0 => none
    | fuel + 1 => walk fuel (mem.set head v) (toSize (mem.getD head ITEM_MAX)) stop v

/-- `walk` over the memory of the encoder. -/
def Enc.patch (st : Enc) (head stop : Nat) (v : Int) : Enc :=
  match walk st.mem.length st.mem head stop v with
  | some m => { st with mem := m }
  | none => { st with hung := true }

/-- `addr_begin_condition`, codegen.c:267-275. -/
def Enc.beginCondition (st : Enc) (addr : Nat) : Enc := { st.patch st.cont addr addr with cont := addr }

/-- `addr_end_condition`, codegen.c:277-285. -/
def Enc.endCondition (st : Enc) : Enc := { st.patch st.cont 0 st.size with cont := 0 }

/-- `addr_end_break`, codegen.c:287-295. -/
def Enc.endBreak (st : Enc) : Enc := { st.patch st.brk 0 st.size with brk := 0 }

/-- `functions_get`, codegen.c:241-264, for a function that is not a parameter. -/
def Enc.functionsGet (st : Enc) (f : Nat) : Int × Enc :=
  ((st.fn f).natAbs, if st.fn f ≤ 0 then { st with fn := update st.fn f (- (st.size : Int)) } else st)

/-- `lvalue`, codegen.c:34-46. -/
inductive LV
  | var (d : Int) (t : Ty)
  | addr (t : Ty)

/-- `emit_load_of_lvalue`, codegen.c:429-465. -/
def loadCells : LV → List Int
  | .var d (.structure n) => [IC_COPY0ST, d, n]
  | .var d .floating => [IC_LOADD, d]
  | .var d _ => [IC_LOAD, d]
  | .addr (.structure n) => [IC_COPY1ST, n]
  | .addr .array | .addr .pointer => []
  | .addr .integer => [IC_LAT]
  | .addr _ => [IC_LATD]

/-- The cells added behind `IC_SLICE` and `IC_SELECT`. -/
def latIf (b : Bool) : List Int := if b then [IC_LAT] else []

/-- The instruction of `emit_increment_expression`, codegen.c:982-1008, and its operand. -/
def incdecCells (op : Unary) (t : Ty) : LV → List Int
  | .var d _ => [(if t = .floating then toFloating (unaryToInstruction op) else unaryToInstruction op), d]
  | .addr _ => [(if t = .floating then toFloating (toAddress (unaryToInstruction op)) else toAddress (unaryToInstruction op))]

/-- What `emit_assignment_expression`, codegen.c:1159-1203, adds behind the operands. -/
def assignCells (op : Binary) : Ty → LV → List Int
  | .structure n, .var d _ => [IC_COPY0ST_ASSIGN, d, n]
  | .structure n, .addr _ => [IC_COPY1ST_ASSIGN, n]
  | .floating, .var d _ => [toFloating (binaryToInstruction op), d]
  | .floating, .addr _ => [toFloating (toAddress (binaryToInstruction op))]
  | _, .var d _ => [binaryToInstruction op, d]
  | _, .addr _ => [toAddress (binaryToInstruction op)]

/-- The instruction of `emit_unary_expression`, codegen.c:1016-1076, for the operators that take a value. -/
def unaryCell (op : Unary) (t : Ty) : Int :=
  match op with
  | .minus => if t = .integer then IC_UNMINUS else IC_UNMINUS_R
  | .not => IC_NOT
  | .logNot => IC_LOG_NOT
  | _ => if t = .integer then IC_ABSI else IC_ABS

/-- The displacement of a member of a variable in `emit_member_lvalue`, codegen.c:521-570. -/
def memberDispl (d off : Int) : Int := if d > 0 then d + off else d - off

/-- The end of `emit_member_lvalue`, codegen.c:521-570, for a dot. -/
def member (off : Int) (t : Ty) : Enc × LV → Enc × LV
  | (st, .var d _) => (st, .var (memberDispl d off) t)
  | (st, .addr _) => ((st.adds [IC_SELECT, off]).adds (latIf (t = .array ∨ t = .pointer)), .addr t)

/-- The end of `emit_indirection_lvalue`, codegen.c:580-593. -/
def indirection (t : Ty) : Enc × LV → Enc × LV
  | (st, .var d _) => (st.adds [IC_LOAD, d], .addr t)
  | (st, .addr _) => (st, .addr t)

/-- What `emit_unary_expression`, codegen.c:1016-1076, adds for an address. -/
def addressCells : LV → List Int
  | .var d _ => [IC_LA, d]
  | .addr _ => []

/-- The patch at the end of `emit_void_expression`, codegen.c:1294-1311. -/
def Enc.void (st : Enc) : Enc :=
  let index := if st.get (usub st.size 1) < MIN_INSTRUCTION_CODE then usub st.size 2 else usub st.size 1
  st.set index (toVoid (st.get index))

mutual
/-- `emit_expression`, codegen.c:1235-1286, with `emit_literal_expression`, codegen.c:634-713, `emit_argument`,
codegen.c:721-766, `emit_printf_expression`, codegen.c:837-854, `emit_print_expression`, codegen.c:862-875,
`emit_call_expression`, codegen.c:883-925, `emit_member_expression`, codegen.c:933-953,
`emit_cast_expression`, codegen.c:961-974, `emit_increment_expression`, codegen.c:982-1008,
`emit_unary_expression`, codegen.c:1016-1076, `emit_binary_expression`, codegen.c:1084-1124,
`emit_ternary_expression`, codegen.c:1132-1151, `emit_assignment_expression`, codegen.c:1159-1203, and
`emit_initializer`, codegen.c:1211-1227. -/
def emitE (st : Enc) : Exp → Enc
  | .lit v => st.adds [IC_LI, v]
  | .flit cells => (st.add IC_LID).adds cells
  | .str chars =>
    let st1 := st.add IC_LI
    let reserved := st1.size + 4
    let st2 := ((st1.add reserved).add IC_B).adds [0, 0]
    let st3 := st2.adds chars
    let st4 := st3.set (reserved - 1) chars.length
    st4.set (reserved - 2) st4.size
  | .ident id t => st.adds (loadCells (.var (st.lay.displs id) t))
  | .subscript b i t =>
    let st1 := ((emitE (emitE st b) i).adds [IC_SLICE, t.size]).adds (latIf (t = .array))
    st1.adds (loadCells (.addr t))
  | .arrow b off t =>
    let st1 := ((emitE st b).adds [IC_SELECT, off]).adds (latIf (t = .array ∨ t = .pointer))
    st1.adds (loadCells (.addr t))
  | .dot b off n t =>
    if b.isLvalue then
      let r := member off t (emitL st b)
      r.1.adds (loadCells r.2)
    else (emitE st b).adds [IC_COPYST, off, t.size, n]
  | .deref e t =>
    let r := indirection t (emitL st e)
    r.1.adds (loadCells r.2)
  | .call f args =>
    let st1 := (emitA (st.add IC_CALL1) args).add IC_CALL2
    let r := st1.functionsGet f
    r.2.add r.1
  | .callParam p args =>
    let st1 := (emitA (st.add IC_CALL1) args).add IC_CALL2
    st1.add (st1.lay.displs p)
  | .builtin f args => (emitA st args).add (builtinToInstruction f)
  | .printf fmt args n => (emitE (emitA st args) fmt).adds [IC_PRINTF, n]
  | .print e t => (emitE st e).adds [IC_PRINT, t]
  | .both a b => emitE (emitE st a) b
  | .cast w e => if w then (emitE st e).add IC_WIDEN else emitE st e
  | .incdec op e t =>
    let r := emitL st e
    r.1.adds (incdecCells op t r.2)
  | .address e =>
    let r := emitL st e
    r.1.adds (addressCells r.2)
  | .unary op e t => (emitE st e).add (unaryCell op t)
  | .upb e => (emitE (st.adds [IC_LI, 0]) e).add IC_UPB
  | .binary op l r fl =>
    let st1 := emitE st l
    let logical := op = .logAnd ∨ op = .logOr
    let st2 := if logical then (st1.add IC_DUPLICATE).add (if op = .logAnd then IC_BE0 else IC_BNE0) else st1
    let addr := st2.size
    let st3 := if logical then st2.add 0 else st2
    let st4 := emitE st3 r
    let st5 := if logical then st4.set addr (st4.size + 1) else st4
    st5.add (if fl then toFloating (binaryToInstruction op) else binaryToInstruction op)
  | .comma l r =>
    let st1 := if l.isLvalue then (emitL st l).1 else (emitE st l).void
    emitE st1 r
  | .ternary c a b =>
    let st1 := (emitE st c).add IC_BE0
    let addr := st1.size
    let st2 := emitE (st1.add 0) a
    let st3 := (st2.set addr (st2.size + 2)).add IC_B
    let addr2 := st3.size
    let st4 := emitE (st3.add 0) b
    st4.set addr2 st4.size
  | .assign op l r t =>
    let p := emitL st l
    (emitE p.1 r).adds (assignCells op t p.2)
  | .init array n items =>
    emitA (if array then st.adds [IC_BEG_INIT, n] else st) items
  | .funArg f => st.adds [(if st.fn f ≥ 0 then IC_LI else IC_LOAD), ((st.fn f).natAbs : Int)]
  | .paramArg p => st.adds [(if st.lay.displs p ≥ 0 then IC_LI else IC_LOAD), ((st.lay.displs p).natAbs : Int)]
  | .initArg n cells =>
    let st1 := st.add IC_LI
    let reserved := st1.size + 4
    let st2 := ((st1.add reserved).add IC_B).adds [0, 0]
    let st3 := st2.adds cells
    let st4 := st3.set (reserved - 1) n
    st4.set (reserved - 2) st4.size

/-- `emit_lvalue`, codegen.c:603-625, with `emit_identifier_lvalue`, codegen.c:475-483, `emit_subscript_lvalue`,
codegen.c:493-511, `emit_member_lvalue`, codegen.c:521-570, and `emit_indirection_lvalue`, codegen.c:580-593.
Any unary expression is taken for an indirection; for the rest the displacement is `ITEM_MAX`. -/
def emitL (st : Enc) : Exp → Enc × LV
  | .ident id t => (st, .var (st.lay.displs id) t)
  | .subscript b i t => (((emitE (emitE st b) i).adds [IC_SLICE, t.size]).adds (latIf (t = .array)), .addr t)
  | .arrow b off t => (((emitE st b).adds [IC_SELECT, off]).adds (latIf (t = .array ∨ t = .pointer)), .addr t)
  | .dot b off _ t => member off t (emitL st b)
  | .deref e t | .incdec _ e t | .unary _ e t => indirection t (emitL st e)
  | .address e | .upb e => indirection .pointer (emitL st e)
  | _ => (st, .var ITEM_MAX .other)

/-- The loops over arguments, items and bounds. -/
def emitA (st : Enc) : Args → Enc
  | .nil => st
  | .cons e rest => emitA (emitE st e) rest
end

/-- `emit_void_expression`, codegen.c:1294-1311. -/
def emitV (st : Enc) (e : Exp) : Enc := if e.isLvalue then (emitL st e).1 else (emitE st e).void

mutual
/-- `only_strings`, codegen.c:1331-1356. -/
def onlyStrings : Exp → Bool
  | .str _ => true
  | .init _ _ items => onlyStringsA items
  | _ => false
/-- Its loop. -/
def onlyStringsA : Args → Bool
  | .nil => true
  | .cons e rest => onlyStrings e && onlyStringsA rest
end

/-- A statement of the tree.  A declaration statement and the inside of a compound statement are sequences;
`block` is the compound statement itself. -/
inductive Stmt
  | skip
  | seq (a b : Stmt)
  | block (s : Stmt)
  | var (id : Nat) (t : Ty) (iniproc : Int) (init : Option Exp)
  | arr (id : Nat) (bounds : Args) (dims : Nat) (empty : Bool) (elem : Ty) (iniproc : Int) (init : Option Exp)
  | expr (e : Exp)
  | case (e : Exp) (s : Stmt)
  | default (s : Stmt)
  | if_ (c : Exp) (s : Stmt)
  | ifElse (c : Exp) (a b : Stmt)
  | switch (c : Exp) (s : Stmt)
  | while_ (c : Exp) (s : Stmt)
  | do_ (s : Stmt) (c : Exp)
  | for_ (init : Stmt) (c inc : Option Exp) (s : Stmt)
  | continue_
  | break_
  | return_ (e : Option (Exp × Nat))

/-- `emit_variable_declaration`, codegen.c:1440-1477, for a type that is not an array. -/
def emitVar (st : Enc) (id : Nat) (t : Ty) (iniproc : Int) (init : Option Exp) : Enc :=
  let st1 := { st with lay := st.lay.add id t }
  let displ := st1.lay.displs id
  let st2 := if iniproc ≠ ITEM_MAX ∧ iniproc ≠ 0 then st1.adds [IC_STRUCT_WITH_ARR, displ, iniproc] else st1
  match init with
  | none => st2
  | some e => (emitE st2 e).adds (match t with
      | .structure n => [IC_COPY0ST_ASSIGN, displ, n]
      | .floating => [IC_ASSIGN_R_V, displ]
      | _ => [IC_ASSIGN_V, displ])

/-- `emit_array_declaration`, codegen.c:1364-1432.  `bounds` are the bounds that are written, `empty` says that
one is not. -/
def emitArr (st : Enc) (id : Nat) (bounds : Args) (dims : Nat) (empty : Bool) (elem : Ty) (iniproc : Int) (init : Option Exp) : Enc :=
  let st0 := emitA st bounds
  let st1 := { st0 with lay := st0.lay.add id .array }
  let displ := st1.lay.displs id
  let st2 := st1.adds [IC_DEFARR, (if init.isSome then (dims : Int) - 1 else dims), elem.size, displ, (if iniproc ≠ 0 ∧ iniproc ≠ ITEM_MAX then iniproc else 0)]
  let usualAddr := st2.size
  let usual : Int := if empty then 0 else 1
  let st3 := st2.adds [usual, (if init.isSome then 1 else 0), 0]
  match init with
  | none => st3
  | some e =>
    let st4 := emitE st3 e
    let usual2 := if onlyStrings e then usual + 2 else usual
    let st5 := if onlyStrings e then st4.set usualAddr usual2 else st4
    st5.adds [IC_ARR_INIT, dims, elem.size, displ, usual2]

/-- The condition of `emit_for_statement`, codegen.c:1852-1894. -/
def emitTest (st : Enc) : Option Exp → Enc
  | none => st
  | some c =>
    let st1 := (emitE st c).add IC_BE0
    { st1 with brk := st1.size }.add 0

/-- Its increment. -/
def emitOptV (st : Enc) : Option Exp → Enc
  | none => st
  | some e => emitV st e

/-- `emit_statement`, codegen.c:1950-2009, with `emit_declaration_statement`, codegen.c:1650-1658,
`emit_case_statement`, codegen.c:1666-1684, `emit_default_statement`, codegen.c:1692-1702,
`emit_compound_statement`, codegen.c:1710-1722, `emit_if_statement`, codegen.c:1730-1752,
`emit_switch_statement`, codegen.c:1760-1782, `emit_while_statement`, codegen.c:1790-1814,
`emit_do_statement`, codegen.c:1822-1844, `emit_for_statement`, codegen.c:1852-1894,
`emit_continue_statement`, codegen.c:1901-1906, `emit_break_statement`, codegen.c:1913-1918, and
`emit_return_statement`, codegen.c:1926-1942. -/
def emitS (st : Enc) : Stmt → Enc
  | .skip => st
  | .seq a b => emitS (emitS st a) b
  | .block s =>
    let st1 := emitS st s
    { st1 with lay := { st1.lay with displ := st.lay.displ } }
  | .var id t p i => emitVar st id t p i
  | .arr id bs n em t p i => emitArr st id bs n em t p i
  | .expr e => emitV st e
  | .case e s =>
    let st1 := if st.next ≠ 0 then st.set st.next st.size else st
    let st2 := (emitE (st1.add IC_DUPLICATE) e).adds [IC_EQ, IC_BE0]
    emitS { st2.add 0 with next := st2.size } s
  | .default s =>
    let st1 := if st.next ≠ 0 then st.set st.next st.size else st
    emitS { st1 with next := 0 } s
  | .if_ c s =>
    let st1 := (emitE st c).add IC_BE0
    let addr := st1.size
    let st2 := emitS (st1.add 0) s
    st2.set addr st2.size
  | .ifElse c a b =>
    let st1 := (emitE st c).add IC_BE0
    let addr := st1.size
    let st2 := emitS (st1.add 0) a
    let st3 := (st2.set addr (st2.size + 2)).add IC_B
    let addr2 := st3.size
    let st4 := emitS (st3.add 0) b
    st4.set addr2 st4.size
  | .switch c s =>
    let st1 := emitE { st with brk := 0, next := 0 } c
    let st2 := emitS st1 s
    let st3 := if st2.next > 0 then st2.set st2.next st2.size else st2
    { st3.endBreak with brk := st.brk, next := st.next }
  | .while_ c s =>
    let addr := st.size
    let st1 := (emitE { st with cont := addr } c).add IC_BE0
    let st2 := emitS ({ st1 with brk := st1.size }.add 0) s
    let st3 := ((st2.beginCondition addr).add IC_B).add addr
    { st3.endBreak with brk := st.brk, cont := st.cont }
  | .do_ s c =>
    let addr := st.size
    let st1 := (emitS { st with cont := 0, brk := 0 } s).endCondition
    let st2 := ((emitE st1 c).add IC_BNE0).add addr
    { st2.endBreak with brk := st.brk, cont := st.cont }
  | .for_ i c inc s =>
    let st0 := emitS st i
    let st1 := { st0 with cont := 0, brk := 0 }
    let addr := st1.size
    let st3 := (emitS (emitTest st1 c) s).endCondition
    let st4 := emitOptV st3 inc
    let st5 := ((st4.add IC_B).add addr).endBreak
    { st5 with brk := st0.brk, cont := st0.cont, lay := { st5.lay with displ := st.lay.displ } }
  | .continue_ =>
    let st1 := (st.add IC_B).add st.cont
    { st1 with cont := st1.size - 1 }
  | .break_ =>
    let st1 := (st.add IC_B).add st.brk
    { st1 with brk := st1.size - 1 }
  | .return_ none => st.add IC_RETURN_VOID
  | .return_ (some (e, n)) => (emitE st e).adds [IC_RETURN_VAL, n]

/-- A function: `prev` is its identifier in the earlier declaration, if there is one. -/
structure Func where
  id : Nat
  prev : Option Nat
  params : List (Nat × Ty)
  body : Stmt

/-- `functions_add`, codegen.c:212-231.  `prev` none stands for an `ident_get_prev` that leads to no
negative displacement. -/
def Enc.functionsAdd (st : Enc) (id : Nat) (prev : Option Nat) (address : Nat) : Enc :=
  let number : Int := st.funcs.length
  let st1 := { st with funcs := st.funcs ++ [(address : Int)], fn := update st.fn id number }
  match prev with
  | none => st1
  | some p => if st1.fn p < 0 then st1.patch (st1.fn p).natAbs 0 number else st1

/-- `DISPL_START`, codegen.c:28. -/
def DISPL_START : Int := 3

/-- `emit_function_definition`, codegen.c:1576-1604. -/
def emitF (st : Enc) (f : Func) : Enc :=
  let st1 := st.functionsAdd f.id f.prev st.size
  let lay1 := { st1.lay with inFunc := true, displ := DISPL_START, maxLocal := DISPL_START }
  let st2 := { st1 with lay := f.params.foldl (fun (l : Layout) (p : Nat × Ty) => l.add p.1 p.2) lay1 }
  let st3 := st2.add IC_FUNC_BEG
  let displAddr := st3.size
  let st4 := st3.add 0
  let jumpAddr := st4.size
  let st5 := (emitS (st4.add 0) f.body).add IC_RETURN_VOID
  let st6 := (st5.set displAddr st5.lay.maxLocal).set jumpAddr st5.size
  { st6 with lay := { st6.lay with inFunc := false } }

/-- A declaration of the translation unit: variables (`var` and `arr`, in sequences) or a function. -/
inductive Top
  | vars (s : Stmt)
  | func (f : Func)

/-- `emit_declaration`, codegen.c:1612-1632. -/
def emitT (st : Enc) : Top → Enc
  | .vars s => emitS st s
  | .func f => emitF st f

/-- `enc_create`, codegen.c:306-328. -/
def start : Enc :=
  { mem := [0, 0, 0, 0], brk := 0, cont := 0, next := 0, fn := fun _ => 0, funcs := [0, 0],
    lay := { displs := fun _ => 0, displ := 0, maxLocal := 0, maxGlobal := 3, inFunc := false }, hung := false }

/-- `emit_translation_unit`, codegen.c:2017-2032. -/
def emitU (tops : List Top) (main : Nat) : Enc :=
  let st := tops.foldl emitT start
  st.adds [IC_CALL1, IC_CALL2, st.fn main, IC_STOP]

end RuC.Codegen
