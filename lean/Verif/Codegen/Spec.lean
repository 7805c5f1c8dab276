import Verif.Codegen.Model

/-!
# What the code of a statement should be

The code of a statement written down at once, every jump with its destination computed from the lengths of the
pieces.  Nothing is patched: a piece whose destination is not known yet has a named hole, and the construct that
knows the destination fills it.
-/

namespace RuC.Codegen

open RuC RuC.Instr
open RuC.Expr (Unary Binary)

/-- A cell of code: a number, or a hole.  `brk`, `cont`: where the enclosing loop or `switch` says; `next`: the
next label of the `switch`, or its end; `fn f`: the number of the function `f`; `fnOp f`, `fnArg f`: the two cells
that push the function `f`. -/
inductive Sym
  | val (v : Int)
  | brk | cont | next
  | fn (f : Nat)
  | fnOp (f : Nat)
  | fnArg (f : Nat)
  deriving DecidableEq

def vals (l : List Int) : List Sym := l.map .val

/-- All holes `k` filled with `v`. -/
def fill (k : Sym) (v : Int) (A : List Sym) : List Sym := A.map fun x => if x = k then .val v else x

/-- The instruction that ends the code, without its operand, in reverse. -/
def voidHead : List Sym → List Sym
  | .val u :: r => .val (toVoid u) :: r
  | r => r

/-- The code of an expression with the instruction it ends with replaced by the one that leaves no value. -/
def voidCode (A : List Sym) : List Sym :=
  match A.reverse with
  | [] => []
  | .val v :: r => if v < MIN_INSTRUCTION_CODE then (.val v :: voidHead r).reverse else (.val (toVoid v) :: r).reverse
  | _ => A

/-- The cells of a table placed in the code: its address, a jump over it, its length, its cells. -/
def tableCode (base : Nat) (n : Nat) (cells : List Int) : List Sym :=
  vals ([IC_LI, ((base + 5 : Nat) : Int), IC_B, ((base + 5 + cells.length : Nat) : Int), (n : Int)] ++ cells)

/-- The instruction of a binary operator. -/
def binaryCell (op : Binary) (fl : Bool) : Int := if fl then toFloating (binaryToInstruction op) else binaryToInstruction op

/-- The place of a member of what is at a place. -/
def memberCode (off : Int) (t : Ty) : List Sym × LV → List Sym × LV
  | (B, .var d _) => (B, .var (memberDispl d off) t)
  | (B, .addr _) => (B ++ vals ([IC_SELECT, off] ++ latIf (t = .array ∨ t = .pointer)), .addr t)

/-- The place behind what is taken for a pointer. -/
def indirectionCode (t : Ty) : List Sym × LV → List Sym × LV
  | (E, .var d _) => (E ++ vals [IC_LOAD, d], .addr t)
  | (E, .addr _) => (E, .addr t)

mutual
/-- The code of the value of an expression at the address `base`, the variables being where `D` says. -/
def codeE (D : Nat → Int) (base : Nat) : Exp → List Sym
  | .lit v => vals [IC_LI, v]
  | .flit cells => vals (IC_LID :: cells)
  | .str chars => tableCode base chars.length chars
  | .ident id t => vals (loadCells (.var (D id) t))
  | .subscript b i t =>
    let B := codeE D base b
    let I := codeE D (base + B.length) i
    B ++ I ++ vals ([IC_SLICE, (t.size : Int)] ++ latIf (t = .array) ++ loadCells (.addr t))
  | .arrow b off t => codeE D base b ++ vals ([IC_SELECT, off] ++ latIf (t = .array ∨ t = .pointer) ++ loadCells (.addr t))
  | .dot b off n t =>
    if b.isLvalue then
      let r := memberCode off t (codeL D base b)
      r.1 ++ vals (loadCells r.2)
    else codeE D base b ++ vals [IC_COPYST, off, t.size, n]
  | .deref e t =>
    let r := indirectionCode t (codeL D base e)
    r.1 ++ vals (loadCells r.2)
  | .call f args => vals [IC_CALL1] ++ codeA D (base + 1) args ++ [.val IC_CALL2, .fn f]
  | .callParam p args => vals [IC_CALL1] ++ codeA D (base + 1) args ++ vals [IC_CALL2, D p]
  | .builtin f args => codeA D base args ++ vals [builtinToInstruction f]
  | .printf fmt args n =>
    let A := codeA D base args
    A ++ codeE D (base + A.length) fmt ++ vals [IC_PRINTF, n]
  | .print e t => codeE D base e ++ vals [IC_PRINT, t]
  | .both a b =>
    let A := codeE D base a
    A ++ codeE D (base + A.length) b
  | .cast w e => codeE D base e ++ vals (if w then [IC_WIDEN] else [])
  | .incdec op e t =>
    let r := codeL D base e
    r.1 ++ vals (incdecCells op t r.2)
  | .address e =>
    let r := codeL D base e
    r.1 ++ vals (addressCells r.2)
  | .unary op e t => codeE D base e ++ vals [unaryCell op t]
  | .upb e => vals [IC_LI, 0] ++ codeE D (base + 2) e ++ vals [IC_UPB]
  | .binary op l r fl =>
    let A := codeE D base l
    if op = .logAnd ∨ op = .logOr then
      -- `a && b`: a duplicate of `a`, a jump behind the operator unless it decides, `b`, the operator
      let B := codeE D (base + A.length + 3) r
      A ++ vals [IC_DUPLICATE, (if op = .logAnd then IC_BE0 else IC_BNE0), ((base + A.length + 3 + B.length + 1 : Nat) : Int)] ++
        B ++ vals [binaryCell op fl]
    else A ++ codeE D (base + A.length) r ++ vals [binaryCell op fl]
  | .comma l r =>
    let A := if l.isLvalue then (codeL D base l).1 else voidCode (codeE D base l)
    A ++ codeE D (base + A.length) r
  | .ternary c a b =>
    let C := codeE D base c
    let A := codeE D (base + C.length + 2) a
    let B := codeE D (base + C.length + 2 + A.length + 2) b
    C ++ vals [IC_BE0, ((base + C.length + 2 + A.length + 2 : Nat) : Int)] ++ A ++
      vals [IC_B, ((base + C.length + 2 + A.length + 2 + B.length : Nat) : Int)] ++ B
  | .assign op l r t =>
    let p := codeL D base l
    p.1 ++ codeE D (base + p.1.length) r ++ vals (assignCells op t p.2)
  | .init array n items =>
    let H := vals (if array then [IC_BEG_INIT, (n : Int)] else [])
    H ++ codeA D (base + H.length) items
  | .funArg f => [.fnOp f, .fnArg f]
  | .paramArg p => vals [(if D p ≥ 0 then IC_LI else IC_LOAD), ((D p).natAbs : Int)]
  | .initArg n cells => tableCode base n cells

/-- The code that finds the place of an expression, and what is known about the place. -/
def codeL (D : Nat → Int) (base : Nat) : Exp → List Sym × LV
  | .ident id t => ([], .var (D id) t)
  | .subscript b i t =>
    let B := codeE D base b
    (B ++ codeE D (base + B.length) i ++ vals ([IC_SLICE, (t.size : Int)] ++ latIf (t = .array)), .addr t)
  | .arrow b off t => (codeE D base b ++ vals ([IC_SELECT, off] ++ latIf (t = .array ∨ t = .pointer)), .addr t)
  | .dot b off _ t => memberCode off t (codeL D base b)
  | .deref e t | .incdec _ e t | .unary _ e t => indirectionCode t (codeL D base e)
  | .address e | .upb e => indirectionCode .pointer (codeL D base e)
  | _ => ([], .var ITEM_MAX .other)

/-- The code of the expressions of a list, in order. -/
def codeA (D : Nat → Int) (base : Nat) : Args → List Sym
  | .nil => []
  | .cons e rest =>
    let E := codeE D base e
    E ++ codeA D (base + E.length) rest
end

/-- The code of an expression that is a statement. -/
def codeV (D : Nat → Int) (base : Nat) (e : Exp) : List Sym :=
  if e.isLvalue then (codeL D base e).1 else voidCode (codeE D base e)

/-- The code of a condition that may be left out. -/
def codeOpt (D : Nat → Int) (base : Nat) : Option Exp → List Sym
  | none => []
  | some e => codeE D base e

/-- The code of an expression that is a statement and may be left out. -/
def codeOptV (D : Nat → Int) (base : Nat) : Option Exp → List Sym
  | none => []
  | some e => codeV D base e

/-- The code of a statement.  `label` is the address of its first `case` or `default`, those of inner `switch`es not
counted.  `pend` says what is left to a label that follows: `none` nothing (there is no label), `some none` nothing
(the last label is `default`), `some (some a)` the destination of the test at `a`. -/
structure Piece where
  code : List Sym
  label : Option Nat
  pend : Option (Option Nat)

def plain (A : List Sym) : Piece := ⟨A, none, none⟩

/-- The first label behind a piece is where its last test goes. -/
def toLabel (l : Option Nat) (A : List Sym) : List Sym :=
  match l with
  | none => A
  | some l => fill .next l A

/-- One piece behind the other. -/
def Piece.join (P Q : Piece) : Piece := ⟨toLabel Q.label P.code ++ Q.code, P.label.or Q.label, Q.pend.or P.pend⟩

/-- A piece with holes filled. -/
def Piece.fill (k : Sym) (v : Int) (P : Piece) : Piece := ⟨Codegen.fill k v P.code, P.label, P.pend⟩

/-- How a statement changes what is laid out. -/
def layS (L : Layout) : Stmt → Layout
  | .seq a b => layS (layS L a) b
  | .block s => { layS L s with displ := L.displ }
  | .var id t _ _ => L.add id t
  | .arr id _ _ _ _ _ _ => L.add id .array
  | .case _ s | .default s | .if_ _ s | .switch _ s | .while_ _ s | .do_ s _ => layS L s
  | .ifElse _ a b => layS (layS L a) b
  | .for_ i _ _ s => { layS (layS L i) s with displ := L.displ }
  | _ => L

/-- The code of the declaration of a variable at `d`. -/
def codeVar (D : Nat → Int) (base : Nat) (d : Int) (t : Ty) (iniproc : Int) (init : Option Exp) : List Sym :=
  let P := vals (if iniproc ≠ ITEM_MAX ∧ iniproc ≠ 0 then [IC_STRUCT_WITH_ARR, d, iniproc] else [])
  match init with
  | none => P
  | some e => P ++ codeE D (base + P.length) e ++ vals (match t with
      | .structure n => [IC_COPY0ST_ASSIGN, d, n]
      | .floating => [IC_ASSIGN_R_V, d]
      | _ => [IC_ASSIGN_V, d])

/-- The code of the declaration of an array at `d`; `D0` are the places before it. -/
def codeArr (D0 D : Nat → Int) (base : Nat) (d : Int) (bounds : Args) (dims : Nat) (empty : Bool) (elem : Ty) (iniproc : Int)
    (init : Option Exp) : List Sym :=
  let B := codeA D0 base bounds
  let usual : Int := if empty then 0 else 1
  let strings := match init with
    | none => false
    | some e => onlyStrings e
  let usual2 := if strings then usual + 2 else usual
  let H := B ++ vals [IC_DEFARR, (if init.isSome then (dims : Int) - 1 else dims), elem.size, d,
    (if iniproc ≠ 0 ∧ iniproc ≠ ITEM_MAX then iniproc else 0), usual2, (if init.isSome then 1 else 0), 0]
  match init with
  | none => H
  | some e => H ++ codeE D (base + H.length) e ++ vals [IC_ARR_INIT, dims, elem.size, d, usual2]

/-- The code of a statement at the address `base`. -/
def codeS (L : Layout) (base : Nat) : Stmt → Piece
  | .skip => plain []
  | .seq a b =>
    let A := codeS L base a
    A.join (codeS (layS L a) (base + A.code.length) b)
  | .block s => codeS L base s
  | .var id t p i =>
    let L1 := L.add id t
    plain (codeVar L1.displs base (L1.displs id) t p i)
  | .arr id bs n em t p i =>
    let L1 := L.add id .array
    plain (codeArr L.displs L1.displs base (L1.displs id) bs n em t p i)
  | .expr e => plain (codeV L.displs base e)
  | .case e s =>
    -- a duplicate of the value, the expression, the test; from a failed test to the next label
    let E := codeE L.displs (base + 1) e
    let T : Piece := ⟨vals [IC_DUPLICATE] ++ E ++ vals [IC_EQ, IC_BE0] ++ [.next], some base, some (some (base + 1 + E.length + 2))⟩
    T.join (codeS L (base + 1 + E.length + 3) s)
  | .default s => Piece.join ⟨[], some base, some none⟩ (codeS L base s)
  | .if_ c s =>
    let C := codeE L.displs base c
    let S := codeS L (base + C.length + 2) s
    let after := base + C.length + 2 + S.code.length
    (plain (C ++ vals [IC_BE0, (after : Int)])).join S
  | .ifElse c a b =>
    let C := codeE L.displs base c
    let A := codeS L (base + C.length + 2) a
    let other := base + C.length + 2 + A.code.length + 2
    let B := codeS (layS L a) other b
    let after := other + B.code.length
    (((plain (C ++ vals [IC_BE0, (other : Int)])).join A).join (plain (vals [IC_B, (after : Int)]))).join B
  | .switch c s =>
    let C := codeE L.displs base c
    let S := codeS L (base + C.length) s
    let after := base + C.length + S.code.length
    plain (C ++ fill .brk after (fill .next after S.code))
  | .while_ c s =>
    let C := codeE L.displs base c
    let S := codeS L (base + C.length + 2) s
    let after := base + C.length + 2 + S.code.length + 2
    ((plain (C ++ vals [IC_BE0, (after : Int)])).join ((S.fill .cont base).fill .brk after)).join (plain (vals [IC_B, (base : Int)]))
  | .do_ s c =>
    let S := codeS L base s
    let test := base + S.code.length
    let C := codeE (layS L s).displs test c
    let after := test + C.length + 2
    ((S.fill .cont test).fill .brk after).join (plain (C ++ vals [IC_BNE0, (base : Int)]))
  | .for_ i c inc s =>
    let I := codeS L base i
    let L1 := layS L i
    let test := base + I.code.length
    let C := codeOpt L1.displs test c
    let body := test + C.length + (if c.isSome then 2 else 0)
    let S := codeS L1 body s
    let step := body + S.code.length
    let N := codeOptV (layS L1 s).displs step inc
    let after := step + N.length + 2
    let T := C ++ vals (if c.isSome then [IC_BE0, (after : Int)] else [])
    ((I.join (plain T)).join ((S.fill .cont step).fill .brk after)).join (plain (N ++ vals [IC_B, (test : Int)]))
  | .continue_ => plain [.val IC_B, .cont]
  | .break_ => plain [.val IC_B, .brk]
  | .return_ none => plain (vals [IC_RETURN_VOID])
  | .return_ (some (e, n)) => plain (codeE L.displs base e ++ vals [IC_RETURN_VAL, n])

end RuC.Codegen
