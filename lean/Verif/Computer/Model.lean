import Verif.Builder.Model

/-!
# The computer of preprocessor expressions, libs/macro/computer.c

The computer is fed with the numbers, names and operators of a `#if`, `#elif`, `#while` or `#eval`
expression, from left to right, by `parse_expression`.

Simplifications.  The two stacks are lists, top first; pushing never runs out of memory.  The stack of
operators keeps a position beside each operator, used in messages only and left out.  An error in the
expression is reported once (`comp->loc` is taken away, and `computer_clear` answers -1 for ever); the
texts of messages are left out.  `char32_t` constants are numbers like the others.  Cutting the text into
numbers, names and operators (`parse_token`, `parse_number`) and the replacement of macros in the expression are not
modelled: `name` stands for an identifier that is not a macro.
-/

namespace RuC.Computer
open RuC RuC.Builder

/-- `token_t`, computer.h:30-70. -/
inductive Tk
  | lBound | rBound | compl | not | uNeg | uPlus | mult | div | mod | add | sub | lShift | rShift
  | less | greater | lessEq | greaterEq | eq | notEq | bitAnd | xor | bitOr | and | or
  deriving DecidableEq, Repr

/-- The number of a token in the enumeration, computer.h:30-70. -/
def Tk.num : Tk → Nat
  | .lBound => 0 | .rBound => 1 | .compl => 2 | .not => 3 | .uNeg => 4 | .uPlus => 5 | .mult => 6 | .div => 7
  | .mod => 8 | .add => 9 | .sub => 10 | .lShift => 11 | .rShift => 12 | .less => 13 | .greater => 14
  | .lessEq => 15 | .greaterEq => 16 | .eq => 17 | .notEq => 18 | .bitAnd => 19 | .xor => 20 | .bitOr => 21
  | .and => 22 | .or => 23

/-- `computer`, computer.h:73-83: the numbers, the operators, `was_number`, and whether an error was
reported. -/
structure St where
  nums : List Int
  ops : List Tk
  was : Bool
  err : Bool
  deriving DecidableEq

/-- `computer_create`, computer.c:308-314. -/
def St.new : St := ⟨[], [], false, false⟩

/-- `stack_pop` on the numbers: `ITEM_MAX` from an empty stack, stack.c. -/
def popNum : List Int → Int × List Int
  | [] => (9223372036854775807, [])
  | x :: xs => (x, xs)

/-- `computer_token_without_number`, computer.c:112-164. -/
def tokenWithout (tk : Tk) (st : St) : Out St :=
  match tk with
  | .lBound => .ok { st with ops := .lBound :: st.ops }
  | .compl => .ok { st with ops := .compl :: st.ops }
  | .not => .ok { st with ops := .not :: st.ops }
  | .add => .ok { st with ops := .uPlus :: st.ops }
  | .sub => .ok { st with ops := .uNeg :: st.ops }
  | _ => .bad

/-- `computer_select_three`, computer.c:166-216, with the operator taken from its stack already.  Signed
overflow, division by zero and shifts out of range are undefined behaviour; an operator of one operand pushes nothing. -/
def selectThree (tk : Tk) (nums : List Int) : Out (List Int) :=
  let second := (popNum nums).1
  let first := (popNum (popNum nums).2).1
  let rest := (popNum (popNum nums).2).2
  let push := fun v => Out.ok (v :: rest)
  match tk with
  | .mult => (c64 (first * second)).bind push
  | .div => (cDiv first second).bind push
  | .mod => (cRem first second).bind push
  | .add => (c64 (first + second)).bind push
  | .sub => (c64 (first - second)).bind push
  | .lShift => (cShl first second).bind push
  | .rShift => (cShr first second).bind push
  | .less => push (if first < second then 1 else 0)
  | .greater => push (if first > second then 1 else 0)
  | .lessEq => push (if first ≤ second then 1 else 0)
  | .greaterEq => push (if first ≥ second then 1 else 0)
  | .eq => push (if first = second then 1 else 0)
  | .notEq => push (if first ≠ second then 1 else 0)
  | .bitAnd => push (cBits (· &&& ·) first second)
  | .xor => push (cBits (· ^^^ ·) first second)
  | .bitOr => push (cBits (· ||| ·) first second)
  | .and => push (if first ≠ 0 ∧ second ≠ 0 then 1 else 0)
  | .or => push (if first ≠ 0 ∨ second ≠ 0 then 1 else 0)
  | _ => .ok rest

/-- A three-way comparison of `snd` with a group of operators, computer.c:230-255. -/
def against (lo hi snd : Tk) : Int := if hi.num < snd.num then 1 else if lo.num ≤ snd.num then 0 else -1

/-- `computer_compare_priority`, computer.c:218-257, with an operator on the stack. -/
def comparePriority (fst snd : Tk) : Int :=
  if snd = .rBound then 1
  else match fst with
    | .lBound => -1
    | .mult | .div | .mod => against .mult .mod snd
    | .add | .sub => against .add .sub snd
    | .lShift | .rShift => against .lShift .rShift snd
    | .less | .greater | .lessEq | .greaterEq => against .less .greaterEq snd
    | .eq | .notEq => against .eq .notEq snd
    | t => if t.num < snd.num then 1 else if t.num = snd.num then 0 else -1

/-- `computer_push_token` after a number, computer.c:339-366, on the operators and numbers.  An empty stack of
operators compares as -1. -/
def pushOver (tk : Tk) (err : Bool) : List Tk → List Int → Out St
  | [], nums => if tk = .rBound then .bad else .ok ⟨nums, [tk], false, err⟩
  | p :: ops, nums =>
    if p = .lBound ∧ tk = .rBound then .ok ⟨nums, ops, true, err⟩
    else if comparePriority p tk > 0 then (selectThree p nums).bind fun nums => pushOver tk err ops nums
    else if comparePriority p tk = 0 then (selectThree p nums).bind fun nums => .ok ⟨nums, tk :: ops, false, err⟩
    else .ok ⟨nums, tk :: p :: ops, false, err⟩

/-- `computer_push_token`, computer.c:317-367. -/
def pushToken (tk : Tk) (st : St) : Out St :=
  if st.was = false then tokenWithout tk st
  else if tk = .compl ∨ tk = .not ∨ tk = .lBound then .bad
  else pushOver tk st.err st.ops st.nums

/-- The loop of `computer_const_number`, computer.c:259-296: operators of one operand on top of the stack are
applied to the number. -/
def applyUnary (err : Bool) (nums : List Int) : List Tk → Int → Out St
  | .compl :: ops, num => applyUnary err nums ops (-num - 1)
  | .not :: ops, num => applyUnary err nums ops (if num ≠ 0 then 1 else 0)
  | .uNeg :: ops, num => (c64 (-num)).bind fun num => applyUnary err nums ops num
  | .uPlus :: ops, num => applyUnary err nums ops num
  | ops, num => .ok ⟨num :: nums, ops, true, err⟩

/-- `computer_const_number`, computer.c:259-296. -/
def constNumber (num : Int) (st : St) : Out St :=
  if st.was then .bad else applyUnary st.err st.nums st.ops num

/-- The loop of `computer_pop_result`, computer.c:392-428. -/
def drain : List Tk → List Int → Out Int
  | [], nums => .ok (popNum nums).1
  | p :: ops, nums => if p = .lBound then .bad else (selectThree p nums).bind fun nums => drain ops nums

/-- `computer_pop_result`, computer.c:392-428. -/
def popResult (st : St) : Out Int :=
  if st.nums = [] then .bad
  else if st.was = false then .bad
  else drain st.ops st.nums

/-- What `parse_expression`, macro/parser.c:1464-1609, feeds the computer with. -/
inductive Input
  | num (v : Int)
  | name
  | op (tk : Tk)
  deriving DecidableEq

/-- The loop of `parse_expression`, macro/parser.c:1464-1609: a number or an operator refused ends it; a name, of
value 0, refused is noted only. -/
def run : List Input → St → Out St
  | [], st => .ok st
  | .num v :: rest, st => (constNumber v st).bind fun st => run rest st
  | .op tk :: rest, st => (pushToken tk st).bind fun st => run rest st
  | .name :: rest, st => if st.was then run rest { st with err := true } else (constNumber 0 st).bind fun st => run rest st

/-- `parse_expression`, macro/parser.c:1464-1609: the value, or `bad` when an error was reported. -/
def evaluate (inp : List Input) : Out Int :=
  (run inp .new).bind fun st => (popResult st).bind fun v => if st.err then .bad else .ok v

end RuC.Computer
