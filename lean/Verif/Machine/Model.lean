import Verif.Codegen.UnitSpec

/-!
# The stack machine the code is for

The virtual machine is not part of the repository: only the numbers and the names of its instructions are
(libs/compiler/instructions.h:26-261), and the use codegen.c makes of them.  What the instructions do is an
assumption, written down here for those the code of integer expressions and of statements consists of.

* There is a stack of values.  `LI`, `LOAD`, `DUPLICATE` push; `BE0`, `BNE0` pop the value they test; an operator
  pops its operands and pushes the result; `=` and its like store what is on top, and leave what was stored; the
  version with `V` leaves nothing.
* A displacement below zero means a global cell, one above zero a cell of the frame of the running function.  The
  cells up to the third are the machine's own.  Cells outside the frame, or outside the globals, stop the machine.
* `CALL1` opens a list of arguments, the values pushed from there on to `CALL2` are the arguments, and `CALL2` makes
  the frame of the function, the arguments from the third cell on, the other cells with anything in them.  The operand
  of `CALL2` is an index into the table of functions, where the address of `FUNC_BEG` stands.
* `FUNC_BEG` that is come across is jumped over.  Its first operand is the size of the frame.
* Results that do not fit a cell, a division by zero, and a shift by less than zero or by the width of the cell or more stop the machine.
* `PRINT` and `PRINTF` pop what they print and leave nothing.
-/

namespace RuC.Machine

open RuC RuC.Instr

/-- What a program prints: a value with its type, or the values with a format. -/
inductive Event
  | print (t v : Int)
  | printf (format : List Int) (values : List Int)
  deriving DecidableEq, Repr

/-- A result that fits a cell. -/
def fit (v : Int) : Option Int := if ITEM_MIN ≤ v ∧ v ≤ ITEM_MAX then some v else none

/-- The answer of a comparison. -/
def truth (b : Bool) : Int := if b then 1 else 0

/-- An operator on the 64 bits of cells. -/
def bits (f : BitVec 64 → BitVec 64 → BitVec 64) (a b : Int) : Int := (f (BitVec.ofInt 64 a) (BitVec.ofInt 64 b)).toInt

/-- What an instruction does, apart from its number. -/
inductive Op
  | li | load | dup | be0 | bne0 | jump | call1 | call2 | retVal | retVoid | funcBeg | print | printf | stop
  | binary (f : Int → Int → Option Int)
  | unary (f : Int → Option Int)
  | assign (void : Bool)
  | update (f : Int → Int → Option Int) (void : Bool)
  | step (by_ : Int) (post void : Bool)
  | unknown

def add (a b : Int) : Option Int := fit (a + b)
def sub (a b : Int) : Option Int := fit (a - b)
def mul (a b : Int) : Option Int := fit (a * b)
def div (a b : Int) : Option Int := if b = 0 then none else fit (a.tdiv b)
def rem (a b : Int) : Option Int := if b = 0 then none else fit (a.tmod b)
def shl (a b : Int) : Option Int := if 0 ≤ b ∧ b < 64 then fit (a * 2 ^ b.toNat) else none
def shr (a b : Int) : Option Int := if 0 ≤ b ∧ b < 64 then fit (a / 2 ^ b.toNat) else none
def band (a b : Int) : Option Int := some (bits (· &&& ·) a b)
def bxor (a b : Int) : Option Int := some (bits (· ^^^ ·) a b)
def bor (a b : Int) : Option Int := some (bits (· ||| ·) a b)

/-- The instructions of instructions.h:26-261 that are taken into account. -/
def ops : List (Int × Op) :=
  [(IC_LI, .li), (IC_LOAD, .load), (IC_DUPLICATE, .dup), (IC_BE0, .be0), (IC_BNE0, .bne0), (IC_B, .jump),
   (IC_CALL1, .call1), (IC_CALL2, .call2), (IC_RETURN_VAL, .retVal), (IC_RETURN_VOID, .retVoid), (IC_FUNC_BEG, .funcBeg),
   (IC_PRINT, .print), (IC_PRINTF, .printf), (IC_STOP, .stop),
   (IC_ADD, .binary add), (IC_SUB, .binary sub), (IC_MUL, .binary mul), (IC_DIV, .binary div), (IC_REM, .binary rem),
   (IC_SHL, .binary shl), (IC_SHR, .binary shr), (IC_AND, .binary band), (IC_XOR, .binary bxor), (IC_OR, .binary bor),
   (IC_EQ, .binary fun a b => some (truth (a == b))), (IC_NE, .binary fun a b => some (truth (a != b))),
   (IC_LT, .binary fun a b => some (truth (a < b))), (IC_GT, .binary fun a b => some (truth (a > b))),
   (IC_LE, .binary fun a b => some (truth (a ≤ b))), (IC_GE, .binary fun a b => some (truth (a ≥ b))),
   (IC_LOG_AND, .binary fun a b => some (truth (a != 0 && b != 0))), (IC_LOG_OR, .binary fun a b => some (truth (a != 0 || b != 0))),
   (IC_UNMINUS, .unary fun a => fit (-a)), (IC_NOT, .unary fun a => some (-a - 1)),
   (IC_LOG_NOT, .unary fun a => some (truth (a == 0))), (IC_ABSI, .unary fun a => fit (if a < 0 then -a else a)),
   (IC_ASSIGN, .assign false), (IC_ASSIGN_V, .assign true),
   (IC_ADD_ASSIGN, .update add false), (IC_ADD_ASSIGN_V, .update add true), (IC_SUB_ASSIGN, .update sub false), (IC_SUB_ASSIGN_V, .update sub true),
   (IC_MUL_ASSIGN, .update mul false), (IC_MUL_ASSIGN_V, .update mul true), (IC_DIV_ASSIGN, .update div false), (IC_DIV_ASSIGN_V, .update div true),
   (IC_REM_ASSIGN, .update rem false), (IC_REM_ASSIGN_V, .update rem true), (IC_SHL_ASSIGN, .update shl false), (IC_SHL_ASSIGN_V, .update shl true),
   (IC_SHR_ASSIGN, .update shr false), (IC_SHR_ASSIGN_V, .update shr true), (IC_AND_ASSIGN, .update band false), (IC_AND_ASSIGN_V, .update band true),
   (IC_XOR_ASSIGN, .update bxor false), (IC_XOR_ASSIGN_V, .update bxor true), (IC_OR_ASSIGN, .update bor false), (IC_OR_ASSIGN_V, .update bor true),
   (IC_PRE_INC, .step 1 false false), (IC_PRE_INC_V, .step 1 false true), (IC_PRE_DEC, .step (-1) false false), (IC_PRE_DEC_V, .step (-1) false true),
   (IC_POST_INC, .step 1 true false), (IC_POST_INC_V, .step 1 true true), (IC_POST_DEC, .step (-1) true false), (IC_POST_DEC_V, .step (-1) true true)]

/-- The instruction a number stands for. -/
def decode (i : Int) : Op := ((ops.find? fun p => p.1 == i).map (·.2)).getD .unknown

/-- A function that waits for a call it made: where it goes on, its frame, its stack, and its open lists of arguments. -/
structure Frame where
  pc : Nat
  size : Int
  cells : Int → Int
  stack : List Int
  pend : List (List Int)

/-- The machine.  `pend` are the stacks below the open lists of arguments. -/
structure State where
  pc : Nat
  stack : List Int
  pend : List (List Int)
  globals : Int → Int
  cells : Int → Int
  size : Int
  frames : List Frame
  out : List Event

/-- What is loaded into the machine: the code, the table of functions, the number of global cells; and what the cells of a
frame have in them before they are written. -/
structure Load where
  code : List Int
  funcs : List Int
  globals : Int
  fresh : State → Int → Int

/-- The value at a displacement. -/
def State.get (M : Load) (s : State) (d : Int) : Option Int :=
  if d < 0 then (if 3 ≤ -d ∧ -d < M.globals then some (s.globals d) else none)
  else if 3 ≤ d ∧ d < s.size then some (s.cells d) else none

/-- A value stored at a displacement. -/
def State.set (M : Load) (s : State) (d v : Int) : Option State :=
  if d < 0 then
    (if 3 ≤ -d ∧ -d < M.globals then some { s with globals := fun x => if x = d then v else s.globals x } else none)
  else if 3 ≤ d ∧ d < s.size then some { s with cells := fun x => if x = d then v else s.cells x }
  else none

/-- A string in the code: its length stands before it. -/
def stringAt (M : Load) (a : Int) : Option (List Int) :=
  match M.code[a.toNat - 1]? with
  | none => none
  | some n => if 1 ≤ a ∧ a.toNat + n.toNat ≤ M.code.length then some ((M.code.drop a.toNat).take n.toNat) else none

/-- The frame of a function that is called from `s`. -/
def State.enter (M : Load) (s : State) (a : Nat) (size : Int) (k : List Int) (ks : List (List Int)) : State :=
  { s with
    pc := a + 3
    stack := []
    pend := []
    cells := fun d => if 3 ≤ d then (s.stack.reverse[(d - 3).toNat]?).getD (M.fresh s d) else M.fresh s d
    size := size
    frames := ⟨s.pc + 2, s.size, s.cells, k, ks⟩ :: s.frames }

/-- Back to the function that waits, with the values `r` on its stack. -/
def State.leave (s : State) (r : List Int) : Option State :=
  match s.frames with
  | [] => none
  | f :: fs => some { s with pc := f.pc, stack := r ++ f.stack, pend := f.pend, cells := f.cells, size := f.size, frames := fs }

/-- An instruction carried out; `x` is the cell behind it. -/
def exec (M : Load) (s : State) (x : Option Int) : Op → Option State
  | .li => x.bind fun v => some { s with pc := s.pc + 2, stack := v :: s.stack }
  | .load => x.bind fun d => (s.get M d).bind fun v => some { s with pc := s.pc + 2, stack := v :: s.stack }
  | .dup => match s.stack with
    | v :: k => some { s with pc := s.pc + 1, stack := v :: v :: k }
    | [] => none
  | .be0 => x.bind fun a => match s.stack with
    | v :: k => some { s with pc := if v = 0 then a.toNat else s.pc + 2, stack := k }
    | [] => none
  | .bne0 => x.bind fun a => match s.stack with
    | v :: k => some { s with pc := if v ≠ 0 then a.toNat else s.pc + 2, stack := k }
    | [] => none
  | .jump => x.bind fun a => some { s with pc := a.toNat }
  | .call1 => some { s with pc := s.pc + 1, stack := [], pend := s.stack :: s.pend }
  | .call2 => x.bind fun n => match s.pend with
    | [] => none
    | k :: ks =>
      if n < 0 then none
      else (M.funcs[n.toNat]?).bind fun a =>
        if M.code[a.toNat]? = some IC_FUNC_BEG then
          (M.code[a.toNat + 1]?).bind fun size =>
            if 3 + (s.stack.length : Int) ≤ size then some (s.enter M a.toNat size k ks) else none
        else none
  | .retVal => x.bind fun n => match s.stack with
    | v :: _ => if n = 1 then s.leave [v] else none
    | [] => none
  | .retVoid => s.leave []
  | .funcBeg => (M.code[s.pc + 2]?).bind fun a => some { s with pc := a.toNat }
  | .print => x.bind fun t => match s.stack with
    | v :: k => some { s with pc := s.pc + 2, stack := k, out := s.out ++ [.print t v] }
    | [] => none
  | .printf => x.bind fun n => match s.stack with
    | a :: k => (stringAt M a).bind fun f =>
      if 0 ≤ n ∧ n.toNat ≤ k.length then
        some { s with pc := s.pc + 2, stack := k.drop n.toNat, out := s.out ++ [.printf f (k.take n.toNat).reverse] }
      else none
    | [] => none
  | .stop => none
  | .binary f => match s.stack with
    | b :: a :: k => (f a b).bind fun v => some { s with pc := s.pc + 1, stack := v :: k }
    | _ => none
  | .unary f => match s.stack with
    | a :: k => (f a).bind fun v => some { s with pc := s.pc + 1, stack := v :: k }
    | [] => none
  | .assign void => x.bind fun d => match s.stack with
    | v :: k => (s.set M d v).bind fun s' => some { s' with pc := s.pc + 2, stack := if void then k else v :: k }
    | [] => none
  | .update f void => x.bind fun d => match s.stack with
    | v :: k => (s.get M d).bind fun a => (f a v).bind fun w => (s.set M d w).bind fun s' =>
        some { s' with pc := s.pc + 2, stack := if void then k else w :: k }
    | [] => none
  | .step i post void => x.bind fun d => (s.get M d).bind fun a => (fit (a + i)).bind fun w => (s.set M d w).bind fun s' =>
      some { s' with pc := s.pc + 2, stack := if void then s.stack else (if post then a else w) :: s.stack }
  | .unknown => none

/-- One step; `none` when the machine stops. -/
def step (M : Load) (s : State) : Option State := (M.code[s.pc]?).bind fun i => exec M s (M.code[s.pc + 1]?) (decode i)

/-- Several steps. -/
def run (M : Load) : Nat → State → Option State
  | 0, s => some s
  | n + 1, s => (step M s).bind (run M n)

end RuC.Machine
