import Verif.Base

/-!
# Model of `libs/utils/vector.c` and `libs/utils/stack.h`

A vector is the C structure `{ item_t *array; size_t size; size_t size_alloc; }`
(libs/utils/vector.h:28-33).  The heap block behind `array` is a list of cells; `none` is a cell
that was allocated but never written.  `array = none` is the NULL pointer (after `vector_clear`).

Every operation answers `Option (result × vector)`; the outer `none` is undefined behaviour
(an access outside the block, or a read of an uninitialised cell).
The Boolean argument `ok` of allocating operations is the allocator's answer to a request,
should one be made: `false` means `realloc` returns NULL.
-/

namespace RuC.Vector
open RuC

/-- The C `vector` structure, libs/utils/vector.h:28-33. -/
structure Vec where
  size : Nat
  sizeAlloc : Nat
  array : Option (List (Option Int))
deriving Repr, DecidableEq

/-- `vector_is_correct`, vector.c:213-216 (the model has no NULL vector pointer). -/
def Vec.isCorrect (v : Vec) : Bool := v.array.isSome

/-- `vector_create`, vector.c:56-65; `malloc` is assumed to succeed here
(`vectorCreateFailed` is the other case). -/
def vectorCreate (alloc : Nat) : Vec :=
  let a := if alloc ≠ 0 then alloc else 1
  { size := 0, sizeAlloc := a, array := some (List.replicate a none) }

/-- `vector_create` when `malloc` answers NULL, vector.c:56-65. -/
def vectorCreateFailed (alloc : Nat) : Vec :=
  { size := 0, sizeAlloc := if alloc ≠ 0 then alloc else 1, array := none }

/-- Raw write `array[i] = x`; undefined outside the block. -/
def poke (m : List (Option Int)) (i : Nat) (x : Int) : Option (List (Option Int)) :=
  if i < m.length then some (m.set i (some x)) else none

/-- Raw read `array[i]`; undefined outside the block or on an uninitialised cell. -/
def peek (m : List (Option Int)) (i : Nat) : Option Int :=
  match m[i]? with
  | some (some x) => some x
  | _ => none

/-- `realloc(m, bytes)` for a block of 8-byte cells: keeps the common prefix, new cells are
uninitialised.  `bytes / 8` cells are really available. -/
def reallocCells (m : List (Option Int)) (bytes : Nat) : List (Option Int) :=
  m.take (bytes / 8) ++ List.replicate (bytes / 8 - m.length) none

/-- `memset(&m[from], 0, n * sizeof(item_t))`; undefined if it leaves the block. -/
def zeroFill (m : List (Option Int)) (from_ n : Nat) : Option (List (Option Int)) :=
  if from_ + n ≤ m.length then
    some (m.take from_ ++ List.replicate n (some 0) ++ m.drop (from_ + n))
  else none

/-- The allocator's answer: requests of 2^63 bytes or more are always refused
(`PTRDIFF_MAX`), others as `ok` says. -/
def granted (ok : Bool) (bytes : Nat) : Bool := ok && decide (bytes < 9223372036854775808)

/-- First half of `change_size`, vector.c:22-44: make room for `size` cells.
Outer `none`: undefined behaviour (`realloc(p, 0)`); inner `none`: allocation refused. -/
def reserve (v : Vec) (m : List (Option Int)) (size : Nat) (ok : Bool) :
    Option (Option (Nat × List (Option Int))) :=
  if size > v.sizeAlloc then
    let dbl := usz (2 * v.sizeAlloc)
    let allocNew := if size > dbl then size else dbl
    let bytes := usz (allocNew * 8)
    if bytes = 0 then none
    else if granted ok bytes then some (some (allocNew, reallocCells m bytes))
    else some none
  else some (some (v.sizeAlloc, m))

/-- `change_size`, vector.c:22-44.  Answers `0` or `-1`. -/
def changeSize (v : Vec) (size : Nat) (ok : Bool) : Option (Int × Vec) :=
  match v.array with
  | none => none
  | some m =>
    match reserve v m size ok with
    | none => none
    | some none => some (-1, v)
    | some (some (alloc, m')) =>
      if size > v.size then
        match zeroFill m' v.size (size - v.size) with
        | none => none
        | some m'' => some (0, { size := size, sizeAlloc := alloc, array := some m'' })
      else some (0, { size := size, sizeAlloc := alloc, array := some m' })

/-- `vector_add`, vector.c:68-77. -/
def vectorAdd (v : Vec) (value : Int) (ok : Bool) : Option (Nat × Vec) :=
  if v.isCorrect then
    match changeSize v (usz (v.size + 1)) ok with
    | none => none
    | some (r, v') =>
      if r ≠ 0 then some (SIZE_MAX, v')
      else
        match v'.array with
        | none => none
        | some m =>
          match poke m (usub v'.size 1) value with
          | none => none
          | some m' => some (usub v'.size 1, { v' with array := some m' })
  else some (SIZE_MAX, v)

/-- `vector_set`, vector.c:102-111. -/
def vectorSet (v : Vec) (index : Nat) (value : Int) : Option (Int × Vec) :=
  match v.array with
  | none => some (-1, v)
  | some m =>
    if index ≥ v.size then some (-1, v)
    else
      match poke m index value with
      | none => none
      | some m' => some (0, { v with array := some m' })

/-- `vector_get`, vector.c:134-142. -/
def vectorGet (v : Vec) (index : Nat) : Option Int :=
  match v.array with
  | none => some ITEM_MAX
  | some m => if index ≥ v.size then some ITEM_MAX else peek m index

/-- `vector_set_int64`, vector.c:123-131, with `INT64_SIZE = 1`; `index + 1` wraps.
`vector_set_double` (vector.c:113-121) is the same with `DOUBLE_SIZE = 1` on the bit pattern.
`item_store_int64` answers the number of cells written, 1. -/
def vectorSetInt64 (v : Vec) (index : Nat) (value : Int) : Option (Nat × Vec) :=
  match v.array with
  | none => some (SIZE_MAX, v)
  | some m =>
    if usz (index + 1) > v.size then some (SIZE_MAX, v)
    else
      match poke m index value with
      | none => none
      | some m' => some (1, { v with array := some m' })

/-- `vector_get_int64`, vector.c:154-162, with `INT64_SIZE = 1`; `index + 1` wraps.
`vector_get_double` (vector.c:144-152) performs the same access. -/
def vectorGetInt64 (v : Vec) (index : Nat) : Option Int :=
  match v.array with
  | none => some ITEM_MAX
  | some m => if usz (index + 1) > v.size then some ITEM_MAX else peek m index

/-- `vector_remove`, vector.c:165-173 (`vector_remove_int64`/`_double` coincide for cell size 1). -/
def vectorRemove (v : Vec) : Option (Int × Vec) :=
  match v.array with
  | none => some (ITEM_MAX, v)
  | some m =>
    if v.size = 0 then some (ITEM_MAX, v)
    else
      match peek m (v.size - 1) with
      | none => none
      | some x => some (x, { v with size := v.size - 1 })

/-- `vector_increase`, vector.c:198-201. -/
def vectorIncrease (v : Vec) (n : Nat) (ok : Bool) : Option (Int × Vec) :=
  if v.isCorrect then changeSize v (usz (v.size + n)) ok else some (-1, v)

/-- `vector_resize`, vector.c:203-206. -/
def vectorResize (v : Vec) (n : Nat) (ok : Bool) : Option (Int × Vec) :=
  if v.isCorrect then changeSize v n ok else some (-1, v)

/-- `vector_size`, vector.c:208-211. -/
def vectorSize (v : Vec) : Nat := if v.isCorrect then v.size else SIZE_MAX

/-- `vector_clear`, vector.c:219-230. -/
def vectorClear (v : Vec) : Int × Vec :=
  if v.isCorrect then (0, { v with array := none }) else (-1, v)

/-! ## `stack.h` -/

/-- `stack_push`, stack.h:51-54. -/
def stackPush (s : Vec) (x : Int) (ok : Bool) : Option (Int × Vec) :=
  match vectorAdd s x ok with
  | none => none
  | some (r, s') => some (if r ≠ SIZE_MAX then 0 else -1, s')

/-- `stack_pop`, stack.h:90-93. -/
def stackPop (s : Vec) : Option (Int × Vec) := vectorRemove s

/-- `stack_peek`, stack.h:127-130; `vector_size(stk) - 1` wraps on the empty stack. -/
def stackPeek (s : Vec) : Option Int := vectorGet s (usub (vectorSize s) 1)

/-- `stack_peek_int64`, stack.h:150-153 (also `stack_peek_double`, stack.h:139-142). -/
def stackPeekInt64 (s : Vec) : Option Int := vectorGetInt64 s (usub (vectorSize s) 1)

/-- `stack_reset`, stack.h:163-166. -/
def stackReset (s : Vec) (ok : Bool) : Option (Int × Vec) := vectorResize s 0 ok

/-- `stack_size`, stack.h:175-178. -/
def stackSize (s : Vec) : Nat := vectorSize s

/-! ## Histories -/

/-- One call on a vector.  The Boolean is the allocator's answer during that call. -/
inductive Op
  | add (x : Int) (ok : Bool)
  | set (i : Nat) (x : Int)
  | get (i : Nat)
  | remove
  | increase (n : Nat) (ok : Bool)
  | resize (n : Nat) (ok : Bool)
  | size
deriving Repr, DecidableEq

/-- What a call returned. -/
inductive Res
  | idx (n : Nat)
  | code (i : Int)
  | item (i : Int)
deriving Repr, DecidableEq

/-- Execute one call. -/
def step (v : Vec) : Op → Option (Res × Vec)
  | .add x ok => (vectorAdd v x ok).map fun (r, v) => (.idx r, v)
  | .set i x => (vectorSet v i x).map fun (r, v) => (.code r, v)
  | .get i => (vectorGet v i).map fun r => (.item r, v)
  | .remove => (vectorRemove v).map fun (r, v) => (.item r, v)
  | .increase n ok => (vectorIncrease v n ok).map fun (r, v) => (.code r, v)
  | .resize n ok => (vectorResize v n ok).map fun (r, v) => (.code r, v)
  | .size => some (.idx (vectorSize v), v)

/-- Execute a history, collecting results. -/
def run (v : Vec) : List Op → Option (List Res × Vec)
  | [] => some ([], v)
  | op :: ops =>
    match step v op with
    | none => none
    | some (r, v') =>
      match run v' ops with
      | none => none
      | some (rs, v'') => some (r :: rs, v'')

/-- One call on a stack. -/
inductive SOp
  | push (x : Int) (ok : Bool)
  | pop
  | peek
  | reset
  | size
deriving Repr, DecidableEq

/-- Execute one stack call. -/
def sstep (v : Vec) : SOp → Option (Res × Vec)
  | .push x ok => (stackPush v x ok).map fun (r, v) => (.code r, v)
  | .pop => (stackPop v).map fun (r, v) => (.item r, v)
  | .peek => (stackPeek v).map fun r => (.item r, v)
  | .reset => (stackReset v true).map fun (r, v) => (.code r, v)
  | .size => some (.idx (stackSize v), v)

/-- Execute a stack history. -/
def srun (v : Vec) : List SOp → Option (List Res × Vec)
  | [] => some ([], v)
  | op :: ops =>
    match sstep v op with
    | none => none
    | some (r, v') =>
      match srun v' ops with
      | none => none
      | some (rs, v'') => some (r :: rs, v'')

end RuC.Vector
