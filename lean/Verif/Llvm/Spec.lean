import Verif.Llvm.Model

/-!
# What the programs mean, and what the instructions do

First the meaning of the tree, as in C, with integers of 32 bits.  Then the instructions of LLVM that are printed, after the LLVM Language Reference Manual: registers are set and
read by their numbers, `%var.id` is the address of a cell on the stack of the function, `stackrestore` gives back what was allocated since the matching `stacksave`, a label is only
reached by a jump, and `phi` depends on the block that was left last.
-/

namespace RuC.Llvm

/-- A value. -/
inductive V
  | i32 (v : BitVec 32)
  | i1 (b : Bool)
  | str (i : Nat)
  deriving DecidableEq, Repr

/-- The type of a value. -/
def V.ty : V → Ty
  | .i32 _ => .int
  | .i1 _ => .bool
  | .str _ => .str

/-- What functions share: the globals, and what was asked from the library. -/
structure World where
  glob : Nat → Option V
  trace : List (Nat × List V)

/-- What a function does with its arguments: its value, and what is shared. -/
abbrev Calls := Nat → List V → World → Option (Option V × World)

/-! ## The meaning of the tree -/

/-- An integer that fits. -/
def fit (v : Int) : Option (BitVec 32) := if -2147483648 ≤ v ∧ v < 2147483648 then some (BitVec.ofInt 32 v) else none

/-- Arithmetic, as in C; undefined if it overflows. -/
def arithV : Arith → BitVec 32 → BitVec 32 → Option (BitVec 32)
  | .mul, a, b => fit (a.toInt * b.toInt)
  | .div, a, b => if b = 0 then none else fit (a.toInt.tdiv b.toInt)
  | .rem, a, b => if b = 0 ∨ fit (a.toInt.tdiv b.toInt) = none then none else fit (a.toInt.tmod b.toInt)
  | .add, a, b => fit (a.toInt + b.toInt)
  | .sub, a, b => fit (a.toInt - b.toInt)
  | .shl, a, b => if b.toNat < 32 then fit (a.toInt * 2 ^ b.toNat) else none
  | .shr, a, b => if b.toNat < 32 then fit (a.toInt / 2 ^ b.toNat) else none
  | .and, a, b => some (a &&& b)
  | .xor, a, b => some (a ^^^ b)
  | .or, a, b => some (a ||| b)

/-- Comparison. -/
def cmpV : Cmp → Int → Int → Bool
  | .lt, a, b => a < b
  | .gt, a, b => a > b
  | .le, a, b => a ≤ b
  | .ge, a, b => a ≥ b
  | .eq, a, b => a = b
  | .ne, a, b => a ≠ b

/-- Operators with one operand. -/
def unV : Un → BitVec 32 → Option (BitVec 32)
  | .minus, a => fit (-a.toInt)
  | .not, a => fit (-a.toInt - 1)
  | .abs, a => fit (if a.toInt < 0 then -a.toInt else a.toInt)

/-- By how much, and whether the value is the one before. -/
def incV : Inc → Int × Bool
  | .preInc => (1, false)
  | .preDec => (-1, false)
  | .postInc => (1, true)
  | .postDec => (-1, true)

/-- Whether a value is true. -/
def V.truth : V → Option Bool
  | .i32 v => some (v ≠ 0)
  | .i1 b => some b
  | .str _ => none

/-- The variables in scope, some of them with a value, and what is shared. -/
structure S where
  var : Nat → Option (Option V)
  w : World

/-- The value of a variable. -/
def S.get (isLocal : Nat → Bool) (s : S) (id : Nat) (ty : Ty) : Option V :=
  match if isLocal id then s.var id else (s.w.glob id).map some with
  | some (some v) => if v.ty = ty then some v else none
  | _ => none

/-- A variable gets a value; it has to be in scope. -/
def S.set (isLocal : Nat → Bool) (s : S) (id : Nat) (v : V) : Option S :=
  if isLocal id then
    if (s.var id).isSome then some { s with var := fun j => if j = id then some (some v) else s.var j } else none
  else if (s.w.glob id).isSome then some { s with w := { s.w with glob := fun j => if j = id then some v else s.w.glob j } } else none

/-- The value of an integer. -/
def V.int : V → Option (BitVec 32)
  | .i32 v => some v
  | _ => none

mutual
/-- The value of an expression, nothing for void, and its effects. -/
def evalE (isLocal : Nat → Bool) (call : Calls) : Exp → S → Option (Option V × S)
  | .int v, s => (fit v).map fun v => (some (.i32 v), s)
  | .bool b, s => some (some (.i1 b), s)
  | .str i, s => some (some (.str i), s)
  | .ident id ty, s => (s.get isLocal id ty).map fun v => (some v, s)
  | .un op e, s => do
    let (v, s) ← evalE isLocal call e s
    let a ← v.bind V.int
    let b ← unV op a
    some (some (.i32 b), s)
  | .not e, s => do
    let (v, s) ← evalE isLocal call e s
    let b ← v.bind V.truth
    some (some (.i1 !b), s)
  | .inc op id, s => do
    let a ← (s.get isLocal id .int).bind V.int
    let b ← fit (a.toInt + (incV op).1)
    let s ← s.set isLocal id (.i32 b)
    some (some (.i32 (if (incV op).2 then a else b)), s)
  | .arith op l r, s => do
    let (x, s) ← evalE isLocal call l s
    let a ← x.bind V.int
    let (y, s) ← evalE isLocal call r s
    let b ← y.bind V.int
    let c ← arithV op a b
    some (some (.i32 c), s)
  | .cmp op l r, s => do
    let (x, s) ← evalE isLocal call l s
    let a ← x.bind V.int
    let (y, s) ← evalE isLocal call r s
    let b ← y.bind V.int
    some (some (.i1 (cmpV op a.toInt b.toInt)), s)
  | .logic isOr l r, s => do
    let (x, s) ← evalE isLocal call l s
    let a ← x.bind V.truth
    if a = isOr then some (some (.i1 a), s)
    else
      let (y, s) ← evalE isLocal call r s
      let b ← y.bind V.truth
      some (some (.i1 b), s)
  | .comma l r, s => do
    let (_, s) ← evalE isLocal call l s
    evalE isLocal call r s
  | .ternary c a b, s => do
    let (x, s) ← evalE isLocal call c s
    let t ← x.bind V.truth
    if t then evalE isLocal call a s else evalE isLocal call b s
  | .assign none id ty e, s => do
    let (x, s) ← evalE isLocal call e s
    let v ← x
    if v.ty = ty then
      let s ← s.set isLocal id v
      some (some v, s)
    else none
  | .assign (some op) id ty e, s => do
    let (x, s) ← evalE isLocal call e s
    let b ← x.bind V.int
    let a ← (s.get isLocal id ty).bind V.int
    let c ← arithV op a b
    let s ← s.set isLocal id (.i32 c)
    some (some (.i32 c), s)
  | .call f ret args, s => do
    let (vs, s) ← evalA isLocal call args s
    let (v, w) ← call f vs s.w
    if v.map V.ty = ret then some (v, { s with w := w }) else none

/-- The values of arguments, from left to right. -/
def evalA (isLocal : Nat → Bool) (call : Calls) : Args → S → Option (List V × S)
  | .nil, s => some ([], s)
  | .cons e rest, s => do
    let (x, s) ← evalE isLocal call e s
    let v ← x
    let (vs, s) ← evalA isLocal call rest s
    some (v :: vs, s)
end

/-- How a statement ends. -/
inductive Flow
  | normal | brk | cont
  | ret (v : Option V)
  deriving DecidableEq

/-- At the end of a block the variables declared in it are gone. -/
def leave (s0 s : S) : S := { s with var := fun id => if (s0.var id).isSome then s.var id else none }

/-- Rounds of a loop that tests first, at most `n`. -/
def loopT (test : S → Option (Option V × S)) (body : S → Option (Flow × S)) (next : S → Option (Option V × S)) : Nat → S → Option (Flow × S)
  | 0, _ => none
  | n + 1, s => do
    let (x, s) ← test s
    let t ← x.bind V.truth
    if t = false then some (.normal, s)
    else
      let (f, s) ← body s
      match f with
      | .brk => some (.normal, s)
      | .ret v => some (.ret v, s)
      | _ =>
        let (_, s) ← next s
        loopT test body next n s

/-- Rounds of a loop that tests last, at most `n`. -/
def loopB (body : S → Option (Flow × S)) (test : S → Option (Option V × S)) : Nat → S → Option (Flow × S)
  | 0, _ => none
  | n + 1, s => do
    let (f, s) ← body s
    match f with
    | .brk => some (.normal, s)
    | .ret v => some (.ret v, s)
    | _ =>
      let (x, s) ← test s
      let t ← x.bind V.truth
      if t = false then some (.normal, s) else loopB body test n s

/-- A condition that is left out is true. -/
def evalOpt (isLocal : Nat → Bool) (call : Calls) : Option Exp → S → Option (Option V × S)
  | none, s => some (some (.i1 true), s)
  | some e, s => evalE isLocal call e s

/-- A step that is left out does nothing. -/
def evalStep (isLocal : Nat → Bool) (call : Calls) : Option Exp → S → Option (Option V × S)
  | none, s => some (none, s)
  | some e, s => evalE isLocal call e s

/-- Declarations: a variable is in scope in its own initializer. -/
def execD (isLocal : Nat → Bool) (call : Calls) : List (Nat × Ty × Option Exp) → S → Option S
  | [], s => some s
  | (id, ty, i) :: l, s =>
    if (s.var id).isSome ∨ isLocal id = false then none
    else
      let s : S := { s with var := fun j => if j = id then some none else s.var j }
      match i with
      | none => execD isLocal call l s
      | some e => do
        let (x, s) ← evalE isLocal call e s
        let v ← x
        if v.ty = ty then
          let s ← s.set isLocal id v
          execD isLocal call l s
        else none

/-- Whether a statement is the case for the value `x`. -/
def isCaseOf (x : BitVec 32) : Stmt → Bool
  | .case_ (.int v) _ => fit v == some x
  | _ => false

/-- Whether a statement is the `default`. -/
def isDefault : Stmt → Bool
  | .default_ _ => true
  | _ => false

/-- Whether there is a statement of that kind. -/
def Stmts.any (p : Stmt → Bool) : Stmts → Bool
  | .nil => false
  | .cons s rest => p s || rest.any p

/-- At which statement of a `switch` the value `x` is looked for: its case, or `default`. -/
def entry (x : BitVec 32) (b : Stmts) : Stmt → Bool := if b.any (isCaseOf x) then isCaseOf x else isDefault

/-- A `switch` is left by `break`. -/
def Flow.outside : Flow → Flow
  | .brk => .normal
  | f => f

mutual
/-- What a statement does; loops make at most `n` rounds. -/
def execS (isLocal : Nat → Bool) (call : Calls) (n : Nat) : Stmt → S → Option (Flow × S)
  | .skip, s => some (.normal, s)
  | .expr e, s => (evalE isLocal call e s).map fun x => (.normal, x.2)
  | .decls l, s => (execD isLocal call l s).map fun s => (.normal, s)
  | .if_ c a, s => do
    let (x, s) ← evalE isLocal call c s
    let t ← x.bind V.truth
    if t then execS isLocal call n a s else some (.normal, s)
  | .ifElse c a b, s => do
    let (x, s) ← evalE isLocal call c s
    let t ← x.bind V.truth
    if t then execS isLocal call n a s else execS isLocal call n b s
  | .while_ c b, s => loopT (evalE isLocal call c) (execS isLocal call n b) (fun s => some (none, s)) n s
  | .do_ b c, s => loopB (execS isLocal call n b) (evalE isLocal call c) n s
  | .for_ i c inc b, s => do
    let (f, s1) ← execS isLocal call n i s
    if f = .normal then
      let (f, s2) ← loopT (evalOpt isLocal call c) (execS isLocal call n b) (evalStep isLocal call inc) n s1
      some (f, leave s s2)
    else none
  | .block b, s => do
    let (f, s1) ← execB isLocal call n b s
    some (f, leave s s1)
  | .break_, s => some (.brk, s)
  | .continue_, s => some (.cont, s)
  | .return_ none, s => some (.ret none, s)
  | .return_ (some e), s => do
    let (x, s) ← evalE isLocal call e s
    let v ← x
    some (.ret (some v), s)
  | .switch_ e b, s => do
    let (x, s) ← evalE isLocal call e s
    let v ← x.bind V.int
    let (f, s1) ← execW isLocal call n (entry v b) false b s
    some (f.outside, leave s s1)
  | .case_ _ b, s => execS isLocal call n b s
  | .default_ b, s => execS isLocal call n b s

/-- What the statements of a block do. -/
def execB (isLocal : Nat → Bool) (call : Calls) (n : Nat) : Stmts → S → Option (Flow × S)
  | .nil, s => some (.normal, s)
  | .cons a rest, s => do
    let (f, s) ← execS isLocal call n a s
    if f = .normal then execB isLocal call n rest s else some (f, s)

/-- What the statements of a `switch` do: all from the first one that is `p`; `on`: it was there. -/
def execW (isLocal : Nat → Bool) (call : Calls) (n : Nat) (p : Stmt → Bool) (on : Bool) : Stmts → S → Option (Flow × S)
  | .nil, s => some (.normal, s)
  | .cons a rest, s =>
    if on || p a then do
      let (f, s) ← execS isLocal call n a s
      if f = .normal then execW isLocal call n p true rest s else some (f, s)
    else execW isLocal call n p false rest s
end

/-- The variables at the beginning of a function: its parameters with the arguments. -/
def bind : List (Nat × Ty) → List V → Option (Nat → Option (Option V))
  | [], [] => some fun _ => none
  | (id, ty) :: ps, v :: vs => do
    let f ← bind ps vs
    if v.ty = ty ∧ (f id).isNone then some fun j => if j = id then some (some v) else f j else none
  | _, _ => none

/-- What the functions of a unit do; calls are at most `n` deep.  Other functions are those of the library.  `main` gives 0 when it comes to its end. -/
def callF (isLocal : Nat → Bool) (lib : Calls) (main : Nat) (fs : List Func) : Nat → Calls
  | 0, _, _, _ => none
  | n + 1, f, vs, w =>
    match fs.find? fun d => d.id == f with
    | none => lib f vs w
    | some d => do
      let var ← bind d.params vs
      let (flow, s) ← execB isLocal (callF isLocal lib main fs n) n d.body ⟨var, w⟩
      match flow with
      | .ret v => if v.map V.ty = d.ret then some (v, s.w) else none
      | .normal => if f = main then some (some (.i32 0), s.w) else if d.ret = none then some (none, s.w) else none
      | _ => none

/-! ## The instructions -/

/-- Arithmetic of LLVM; undefined where the result is a poison value or the behaviour is undefined. -/
def arithL : Arith → BitVec 32 → BitVec 32 → Option (BitVec 32)
  | .mul, a, b => if BitVec.smulOverflow a b then none else some (a * b)
  | .div, a, b => if b = 0 ∨ (a = BitVec.intMin 32 ∧ b = -1) then none else some (a.sdiv b)
  | .rem, a, b => if b = 0 ∨ (a = BitVec.intMin 32 ∧ b = -1) then none else some (a.srem b)
  | .add, a, b => if BitVec.saddOverflow a b then none else some (a + b)
  | .sub, a, b => if BitVec.ssubOverflow a b then none else some (a - b)
  | .shl, a, b => if b.toNat < 32 then some (a <<< b.toNat) else none
  | .shr, a, b => if b.toNat < 32 then some (a.sshiftRight b.toNat) else none
  | .and, a, b => some (a &&& b)
  | .xor, a, b => some (a ^^^ b)
  | .or, a, b => some (a ||| b)

/-- Comparison of integers. -/
def cmpL : Cmp → BitVec 32 → BitVec 32 → Bool
  | .lt, a, b => a.slt b
  | .gt, a, b => b.slt a
  | .le, a, b => a.sle b
  | .ge, a, b => b.sle a
  | .eq, a, b => a == b
  | .ne, a, b => a != b

/-- What a function has for itself. -/
structure Frame where
  reg : Nat → Option V
  /-- `%var.id`: the number of a cell -/
  addr : Nat → Option Nat
  /-- `%dyn.k`: the size of the stack -/
  dyn : Nat → Option Nat
  stack : List (Option V)
  args : List V
  /-- the label of the block, nothing for the first block -/
  cur : Option Nat
  /-- the label of the block that was left -/
  prev : Option Nat

/-- The value of an operand of a type. -/
def Frame.opd (fr : Frame) (ty : Ty) (a : Opd) : Option V :=
  match a with
  | .reg r => (fr.reg r).bind fun v => if v.ty = ty then some v else none
  | .int v => if ty = .int then (fit v).map .i32 else none
  | .bool b => if ty = .bool then some (.i1 b) else none
  | .str i => if ty = .str then some (.str i) else none

/-- A register is set. -/
def Frame.setReg (fr : Frame) (r : Nat) (v : V) : Frame := { fr with reg := fun j => if j = r then some v else fr.reg j }

/-- What is behind a label. -/
def find (l : Nat) : List Instr → Option (List Instr)
  | [] => none
  | .label k :: r => if k = l then some r else find l r
  | _ :: r => find l r

/-- The value in a cell or in a global variable. -/
def Frame.get (fr : Frame) (w : World) (isLocal : Bool) (id : Nat) (ty : Ty) : Option V :=
  match if isLocal then (fr.addr id).bind (fr.stack[·]?) else (w.glob id).map some with
  | some (some v) => if v.ty = ty then some v else none
  | _ => none

/-- A cell or a global variable is set. -/
def Frame.set (fr : Frame) (w : World) (isLocal : Bool) (id : Nat) (v : V) : Option (Frame × World) :=
  if isLocal then
    (fr.addr id).bind fun a => if a < fr.stack.length then some ({ fr with stack := fr.stack.set a (some v) }, w) else none
  else if (w.glob id).isSome then some (fr, { w with glob := fun j => if j = id then some v else w.glob j }) else none

/-- A block is left for the one with the label `l`. -/
def Frame.enter (fr : Frame) (l : Nat) : Frame := { fr with prev := fr.cur, cur := some l }

/-- Whether the label `x` of a `phi` is that of the block that was left. -/
def Frame.cameFrom (fr : Frame) (x : Nat) : Prop := if x = 0 then fr.prev = none ∧ fr.args = [] else fr.prev = some x

/-- Values of operands. -/
def Frame.opds (fr : Frame) : List (Ty × Opd) → Option (List V)
  | [] => some []
  | (ty, a) :: l => do
    let v ← fr.opd ty a
    let vs ← fr.opds l
    some (v :: vs)

/-- What is left to do of a function, what it has for itself, and what is shared. -/
abbrev Conf := List Instr × Frame × World

/-- What the functions called may do. -/
abbrev CallRel := Nat → List V → World → Option V → World → Prop

/-- One instruction; `code` is the text of the function. -/
inductive Step (call : CallRel) (code : List Instr) : Conf → Conf → Prop
  | arith {r op a b rest fr w x y z} : fr.opd .int a = some (.i32 x) → fr.opd .int b = some (.i32 y) → arithL op x y = some z →
      Step call code (.arith r op a b :: rest, fr, w) (rest, fr.setReg r (.i32 z), w)
  | cmpInt {r op a b rest fr w x y} : fr.opd .int a = some (.i32 x) → fr.opd .int b = some (.i32 y) →
      Step call code (.cmp r op .int a b :: rest, fr, w) (rest, fr.setReg r (.i1 (cmpL op x y)), w)
  | cmpBool {r a b rest fr w x y} : fr.opd .bool a = some (.i1 x) → fr.opd .bool b = some (.i1 y) →
      Step call code (.cmp r .ne .bool a b :: rest, fr, w) (rest, fr.setReg r (.i1 (x != y)), w)
  | flip {r a rest fr w x} : fr.opd .bool (.reg a) = some (.i1 x) → Step call code (.flip r a :: rest, fr, w) (rest, fr.setReg r (.i1 !x), w)
  | abs {r a rest fr w x y} : fr.opd .int (.reg a) = some (.i32 x) → fit (if x.toInt < 0 then -x.toInt else x.toInt) = some y →
      Step call code (.abs r a :: rest, fr, w) (rest, fr.setReg r (.i32 y), w)
  | load {r ty l id rest fr w v} : fr.get w l id ty = some v → Step call code (.load r ty l id :: rest, fr, w) (rest, fr.setReg r v, w)
  | store {ty a l id rest fr w v fr' w'} : fr.opd ty a = some v → fr.set w l id v = some (fr', w') → Step call code (.store ty a l id :: rest, fr, w) (rest, fr', w')
  | alloca {id ty rest fr w} :
      Step call code (.alloca id ty :: rest, fr, w) (rest, { fr with addr := fun j => if j = id then some fr.stack.length else fr.addr j, stack := fr.stack ++ [none] }, w)
  | param {ty i id rest fr w v fr' w'} : fr.args[i]? = some v → v.ty = ty → fr.set w true id v = some (fr', w') →
      Step call code (.param ty i id :: rest, fr, w) (rest, fr', w')
  | br {l rest fr w r} : find l code = some r → Step call code (.br l :: rest, fr, w) (r, fr.enter l, w)
  | cbr {c a b rest fr w x r} : fr.opd .bool (.reg c) = some (.i1 x) → find (if x then a else b) code = some r →
      Step call code (.cbr c a b :: rest, fr, w) (r, fr.enter (if x then a else b), w)
  | phiFst {r ty a x b y rest fr w v} : fr.cameFrom x → fr.opd ty a = some v → Step call code (.phi r ty a x b y :: rest, fr, w) (rest, fr.setReg r v, w)
  | phiSnd {r ty a x b y rest fr w v} : fr.cameFrom y → ¬ fr.cameFrom x → fr.opd ty b = some v →
      Step call code (.phi r ty a x b y :: rest, fr, w) (rest, fr.setReg r v, w)
  | call {r f args rest fr w vs v w'} : fr.opds args = some vs → call f vs w (some v) w' →
      Step call code (.call (some r) f args :: rest, fr, w) (rest, fr.setReg r v, w')
  | callVoid {f args rest fr w vs w'} : fr.opds args = some vs → call f vs w none w' → Step call code (.call none f args :: rest, fr, w) (rest, fr, w')
  | save {k r rest fr w} : Step call code (.save k r :: rest, fr, w) (rest, { fr with dyn := fun j => if j = k then some fr.stack.length else fr.dyn j }, w)
  | restore {k r rest fr w d} : fr.dyn k = some d → d ≤ fr.stack.length → Step call code (.restore k r :: rest, fr, w) (rest, { fr with stack := fr.stack.take d }, w)
  | switch {r d t rest fr w x q} : fr.opd .int (.reg r) = some (.i32 x) → find (((t.find? fun y => fit y.1 == some x).map (·.2)).getD d) code = some q →
      Step call code (.switch r d t :: rest, fr, w) (q, fr.enter (((t.find? fun y => fit y.1 == some x).map (·.2)).getD d), w)

/-- Instructions one after the other. -/
inductive Star (call : CallRel) (code : List Instr) : Conf → Conf → Prop
  | refl {c} : Star call code c c
  | step {c d e} : Step call code c d → Star call code d e → Star call code c e

/-- The value given by `ret`. -/
def Frame.result (fr : Frame) : Option (Ty × Opd) → Option (Option V)
  | none => some none
  | some (ty, a) => (fr.opd ty a).map some

/-- A run of a function from its beginning to a `ret`. -/
def Runs (call : CallRel) (code : List Instr) (vs : List V) (w : World) (v : Option V) (w' : World) : Prop :=
  ∃ a rest fr, Star call code (code, ⟨fun _ => none, fun _ => none, fun _ => none, [], vs, none, none⟩, w) (.ret a :: rest, fr, w') ∧ fr.result a = some v

/-- What the functions of a module do; calls are at most `n` deep. -/
def callL (lib : Calls) (fs : List (Func × List Instr)) : Nat → CallRel
  | 0, _, _, _, _, _ => False
  | n + 1, f, vs, w, v, w' =>
    match fs.find? fun d => d.1.id == f with
    | none => lib f vs w = some (v, w')
    | some d => Runs (callL lib fs n) d.2 vs w v w'

/-! ## What a text has to be -/

/-- The register an instruction sets. -/
def defs : Instr → List Nat
  | .arith r .. | .cmp r .. | .flip r _ | .float r | .abs r _ | .load r .. | .phi r .. | .save _ r | .restore _ r => [r]
  | .call r _ _ => r.toList
  | _ => []

/-- The label an instruction puts. -/
def puts : Instr → List Nat
  | .label l => [l]
  | _ => []

/-- The labels an instruction speaks of. -/
def targets : Instr → List Nat
  | .br l => [l]
  | .cbr _ a b => [a, b]
  | .phi _ _ _ x _ y => [x, y]
  | .switch _ d t => d :: t.map (·.2)
  | _ => []

end RuC.Llvm
