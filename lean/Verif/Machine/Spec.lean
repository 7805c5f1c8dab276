import Verif.Machine.Model
import Verif.Codegen.Slots

/-!
# What a program means

The meaning of expressions and statements over integers, of functions and of units, written without the machine.  The
values of variables are held by their identifiers.  A run gives a result, or it goes wrong (a value that is not there or
does not fit a cell, a division by zero, a construct that is left out), or it is not finished when it has used up what it
was allowed: rounds of a loop and depth of calls.

Left out: floating, structures, arrays, pointers, strings but for formats, the functions of the library.
-/

namespace RuC.Machine

open RuC RuC.Codegen
open RuC.Expr (Unary Binary)

/-- The variables in scope, some with a value; and what is printed so far. -/
structure Src where
  var : Nat → Option (Option Int)
  out : List Event

/-- The result of a run. -/
inductive Res (α : Type)
  | ok (a : α) (s : Src)
  | more (out : List Event)
  | wrong

/-- One run after the other. -/
def Res.bind {α β} (r : Res α) (f : α → Src → Res β) : Res β :=
  match r with
  | .ok a s => f a s
  | .more out => .more out
  | .wrong => .wrong

/-- A run that needs the value of another. -/
def Res.value {β} (r : Res (Option Int)) (f : Int → Src → Res β) : Res β :=
  r.bind fun v s => match v with
    | some v => f v s
    | none => .wrong

/-- The value of an operator, as in C, on cells of 64 bits. -/
def arith : Binary → Int → Int → Option Int
  | .add, a, b => fit (a + b)
  | .sub, a, b => fit (a - b)
  | .mul, a, b => fit (a * b)
  | .div, a, b => if b = 0 then none else fit (a.tdiv b)
  | .rem, a, b => if b = 0 then none else fit (a.tmod b)
  | .shl, a, b => if 0 ≤ b ∧ b < 64 then fit (a * 2 ^ b.toNat) else none
  | .shr, a, b => if 0 ≤ b ∧ b < 64 then fit (a / 2 ^ b.toNat) else none
  | .and, a, b => some (bits (· &&& ·) a b)
  | .xor, a, b => some (bits (· ^^^ ·) a b)
  | .or, a, b => some (bits (· ||| ·) a b)
  | .lt, a, b => some (if a < b then 1 else 0)
  | .gt, a, b => some (if a > b then 1 else 0)
  | .le, a, b => some (if a ≤ b then 1 else 0)
  | .ge, a, b => some (if a ≥ b then 1 else 0)
  | .eq, a, b => some (if a = b then 1 else 0)
  | .ne, a, b => some (if a ≠ b then 1 else 0)
  | _, _, _ => none

/-- The value of an operator with one operand. -/
def arith1 : Unary → Int → Option Int
  | .minus, a => fit (-a)
  | .not, a => some (-a - 1)
  | .logNot, a => some (if a = 0 then 1 else 0)
  | .abs, a => fit (if a < 0 then -a else a)
  | _, _ => none

/-- The operator of a compound assignment. -/
def compound : Binary → Option Binary
  | .mulAssign => some .mul | .divAssign => some .div | .remAssign => some .rem | .addAssign => some .add
  | .subAssign => some .sub | .shlAssign => some .shl | .shrAssign => some .shr | .andAssign => some .and
  | .xorAssign => some .xor | .orAssign => some .or | _ => none

/-- What is assigned: `old` is the value before, if any. -/
def assigned (op : Binary) (old : Option Int) (v : Int) : Option Int :=
  if op = .assign then some v
  else (compound op).bind fun o => old.bind fun a => arith o a v

/-- `++` and `--`: by how much, and whether the value is the one before. -/
def incdec : Unary → Option (Int × Bool)
  | .preInc => some (1, false) | .preDec => some (-1, false) | .postInc => some (1, true) | .postDec => some (-1, true) | _ => none

/-- A variable given a value. -/
def Src.set (s : Src) (id : Nat) (v : Option (Option Int)) : Src := { s with var := fun j => if j = id then v else s.var j }

def Src.print (s : Src) (e : Event) : Src := { s with out := s.out ++ [e] }

/-- What a function does: its arguments, the state, its value if it has one. -/
abbrev Calls := Nat → List Int → Src → Res (Option Int)

mutual
/-- The value of an expression, if it has one, and its effects. -/
def evalE (call : Calls) : Exp → Src → Res (Option Int)
  | .lit v, s => .ok (some v) s
  | .ident id _, s => match s.var id with
    | some (some v) => .ok (some v) s
    | _ => .wrong
  | .cast false e, s => evalE call e s
  | .unary op e _, s => (evalE call e s).value fun v s => match arith1 op v with
    | some w => .ok (some w) s
    | none => .wrong
  | .binary op l r _, s => (evalE call l s).value fun a s =>
      if op = .logAnd ∧ a = 0 then .ok (some 0) s
      else if op = .logOr ∧ a ≠ 0 then .ok (some 1) s
      else (evalE call r s).value fun b s =>
        if op = .logAnd ∨ op = .logOr then .ok (some (if b = 0 then 0 else 1)) s
        else match arith op a b with
          | some w => .ok (some w) s
          | none => .wrong
  | .comma l r, s => (evalE call l s).bind fun _ s => evalE call r s
  | .ternary c a b, s => (evalE call c s).value fun v s => if v ≠ 0 then evalE call a s else evalE call b s
  | .assign op (.ident id _) r _, s => (evalE call r s).value fun v s => match s.var id with
    | some old => match assigned op old v with
      | some w => .ok (some w) (s.set id (some (some w)))
      | none => .wrong
    | none => .wrong
  | .incdec op (.ident id _) _, s => match s.var id, incdec op with
    | some (some v), some (i, post) => match fit (v + i) with
      | some w => .ok (some (if post then v else w)) (s.set id (some (some w)))
      | none => .wrong
    | _, _ => .wrong
  | .call f args, s => (evalA call args s).bind fun vs s => call f vs s
  | .print e t, s => (evalE call e s).value fun v s => .ok none (s.print (.print t v))
  | .printf (.str f) args _, s => (evalA call args s).bind fun vs s => .ok none (s.print (.printf f vs))
  | _, _ => .wrong

/-- The values of arguments, from left to right. -/
def evalA (call : Calls) : Args → Src → Res (List Int)
  | .nil, s => .ok [] s
  | .cons e rest, s => (evalE call e s).value fun v s => (evalA call rest s).bind fun vs s => .ok (v :: vs) s
end

/-- How a statement ends. -/
inductive Flow
  | normal | brk | cont
  | ret (v : Option Int)
  deriving DecidableEq

/-- At the end of a block the variables declared in it are gone. -/
def leave (s0 s : Src) : Src := { s with var := fun id => if (s0.var id).isSome then s.var id else none }

/-- The end of a block that began in `s0`. -/
def Res.leave (s0 : Src) (r : Res Flow) : Res Flow := r.bind fun f s => .ok f (Machine.leave s0 s)

/-- Rounds of a loop that tests first, at most `n`. -/
def loopT (test : Src → Res (Option Int)) (body : Src → Res Flow) (next : Src → Res (Option Int)) : Nat → Src → Res Flow
  | 0, s => .more s.out
  | n + 1, s => (test s).value fun v s =>
    if v = 0 then .ok .normal s
    else (body s).bind fun f s => match f with
      | .brk => .ok .normal s
      | .ret v => .ok (.ret v) s
      | _ => (next s).bind fun _ s => loopT test body next n s

/-- Rounds of a loop that tests last, at most `n`. -/
def loopB (body : Src → Res Flow) (test : Src → Res (Option Int)) : Nat → Src → Res Flow
  | 0, s => .more s.out
  | n + 1, s => (body s).bind fun f s => match f with
      | .brk => .ok .normal s
      | .ret v => .ok (.ret v) s
      | _ => (test s).value fun v s => if v = 0 then .ok .normal s else loopB body test n s

/-- A condition that is left out is true. -/
def evalOpt (call : Calls) : Option Exp → Src → Res (Option Int)
  | none, s => .ok (some 1) s
  | some e, s => evalE call e s

/-- A step that is left out does nothing. -/
def evalStep (call : Calls) : Option Exp → Src → Res (Option Int)
  | none, s => .ok none s
  | some e, s => evalE call e s

/-- The value of a constant. -/
def litOf : Exp → Option Int
  | .lit k => some k
  | _ => none

/-- There is a `case` for the value. -/
def matches_ (v : Int) : Stmt → Bool
  | .case e _ => litOf e == some v
  | .seq (.case e _) rest => litOf e == some v || matches_ v rest
  | .seq (.default _) rest => matches_ v rest
  | .block b => matches_ v b
  | _ => false

mutual
/-- What a statement does; loops make at most `n` rounds. -/
def execS (call : Calls) (n : Nat) : Stmt → Src → Res Flow
  | .skip, s => .ok .normal s
  | .seq a b, s => (execS call n a s).bind fun f s => if f = .normal then execS call n b s else .ok f s
  | .block b, s => (execS call n b s).leave s
  | .var id _ _ i, s =>
    if (s.var id).isSome then .wrong
    else match i with
      | none => .ok .normal (s.set id (some none))
      | some e => (evalE call e (s.set id (some none))).value fun v s => .ok .normal (s.set id (some (some v)))
  | .expr e, s => (evalE call e s).bind fun _ s => .ok .normal s
  | .if_ c a, s => (evalE call c s).value fun v s => if v ≠ 0 then execS call n a s else .ok .normal s
  | .ifElse c a b, s => (evalE call c s).value fun v s => if v ≠ 0 then execS call n a s else execS call n b s
  | .while_ c b, s => loopT (evalE call c) (execS call n b) (fun s => .ok none s) n s
  | .do_ b c, s => loopB (execS call n b) (evalE call c) n s
  | .for_ i c inc b, s => ((execS call n i s).bind fun f s =>
      if f = .normal then loopT (evalOpt call c) (execS call n b) (evalStep call inc) n s
      else .wrong).leave s
  | .switch c b, s => (evalE call c s).value fun v s => (execArms call n b v false s).bind fun f s => .ok (if f = .brk then .normal else f) s
  | .continue_, s => .ok .cont s
  | .break_, s => .ok .brk s
  | .return_ none, s => .ok (.ret none) s
  | .return_ (some (e, _)), s => (evalE call e s).value fun v s => .ok (.ret (some v)) s
  | _, _ => .wrong
/-- What the body of a `switch` does for the value `v`.  The statements behind a label stand under it, up to the next one;
`hit` says that a label before was taken, so that the statements are carried out without a test. -/
def execArms (call : Calls) (n : Nat) : Stmt → Int → Bool → Src → Res Flow
  | .skip, _, _, s => .ok .normal s
  | .case e x, v, hit, s => match litOf e with
    | none => .wrong
    | some k => if hit ∨ v = k then execS call n x s else .ok .normal s
  | .default x, _, _, s => execS call n x s
  | .seq (.case e x) rest, v, hit, s => match litOf e with
    | none => .wrong
    | some k =>
      if hit ∨ v = k then (execS call n x s).bind fun f s => if f = .normal then execArms call n rest v true s else .ok f s
      else execArms call n rest v false s
  | .seq (.default x) rest, v, hit, s =>
    if ¬ hit ∧ matches_ v rest then execArms call n rest v false s
    else (execS call n x s).bind fun f s => if f = .normal then execArms call n rest v true s else .ok f s
  | .block b, v, hit, s => (execArms call n b v hit s).leave s
  | _, _, _, _ => .wrong
end

/-- The variables in scope at the beginning of a function: the globals, and its parameters with the arguments. -/
def bindParams (ps : List Nat) (vs : List Int) (globals : Nat → Option (Option Int)) : Nat → Option (Option Int) :=
  fun id => match (ps.zip vs).find? fun p => p.1 == id with
    | some p => some (some p.2)
    | none => globals id

/-- What the functions of a unit do; calls are at most `n` deep.  `global` tells the globals. -/
def callF (global : Nat → Bool) (fs : List Func) : Nat → Calls
  | 0, _, _, s => .more s.out
  | n + 1, f, vs, s => match fs.find? fun d => d.id = f ∨ d.prev = some f with
    | none => .wrong
    | some d =>
      if vs.length ≠ d.params.length then .wrong
      else (execS (callF global fs n) n d.body
          ⟨bindParams (d.params.map (·.1)) vs fun id => if global id then s.var id else none, s.out⟩).bind fun f s1 =>
        let s2 : Src := ⟨fun id => if global id then s1.var id else s.var id, s1.out⟩
        match f with
        | .ret v => .ok v s2
        | .normal => .ok none s2
        | _ => .wrong

/-- The declarations of globals, in order. -/
def execTops (call : Calls) (n : Nat) : List Top → Src → Res Unit
  | [], s => .ok () s
  | .vars d :: rest, s => (execS call n d s).bind fun f s => if f = .normal then execTops call n rest s else .wrong
  | .func _ :: rest, s => execTops call n rest s

/-- The globals a unit declares. -/
def globalsOf : List Top → List Nat
  | [] => []
  | .vars d :: rest => d.declared ++ globalsOf rest
  | .func _ :: rest => globalsOf rest

/-- What a unit does: the globals are made, and `main` is called. -/
def execU (tops : List Top) (main n : Nat) : Res (Option Int) :=
  let call := callF (fun id => decide (id ∈ globalsOf tops)) (defs tops) n
  (execTops call n tops ⟨fun _ => none, []⟩).bind fun _ s => call main [] s

end RuC.Machine
