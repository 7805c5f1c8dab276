import Verif.Base

/-!
# Model of `libs/utils/item.c` (configuration `ITEM = -64`)

64-bit words are naturals below 2^64; `item_t` cells are `Int`s.  A shift by 64 or more is
undefined in C; `shl` takes the outcome of such a shift as a parameter `ub` (`none`: the program
has undefined behaviour and nothing is known afterwards; `some w`: the machine yields `w`).
-/

namespace RuC.Item
open RuC

/-- `item_status`, item.h:81-93. -/
inductive Status
  | error | int64 | int32 | int16 | int8 | uint64 | uint32 | uint16 | uint8 | types
deriving Repr, DecidableEq

/-- `item_get_size`, item.c:49-70.  The correction for `abs(ITEM) <= 32 / size` never applies
for `ITEM = -64`. -/
def getSize : Status → Nat
  | .error | .types => 0
  | .int64 | .uint64 => 1
  | .int32 | .uint32 => 2
  | .int16 | .uint16 => 4
  | .int8 | .uint8 => 8

/-- `item_get_shift`, item.c:72-75. -/
def getShift (size : Nat) : Nat := 64 / size

/-- The loop of `item_get_mask`, item.c:77-86: `mask = (mask << i) | mask` for `i = 8, 16, ..`.
`fuel` bounds the number of doublings (3 are enough up to `shift = 64`). -/
def maskLoop : Nat → Nat → Nat → Nat → Nat
  | 0, _, _, mask => mask
  | fuel + 1, i, shift, mask =>
    if i < shift then maskLoop fuel (i * 2) shift (((mask <<< i) % 18446744073709551616) ||| mask)
    else mask

/-- `item_get_mask`, item.c:77-86. -/
def getMask (shift : Nat) : Nat := maskLoop 4 8 shift 0xFF

/-- `~w` on 64 bits. -/
def not64 (w : Nat) : Nat := 18446744073709551615 - w

/-- `w << s` on 64 bits; undefined for `s >= 64`. -/
def shl (ub : Nat → Nat → Option Nat) (w s : Nat) : Option Nat :=
  if s < 64 then some ((w <<< s) % 18446744073709551616) else ub w s

/-- The C standard's answer: nothing is known after an undefined shift. -/
def strict : Nat → Nat → Option Nat := fun _ _ => none

/-- What `sign` is in `item_store_int64_for_target`, item.c:267-294. -/
def signMask (st : Status) (mask : Nat) : Nat :=
  match st with
  | .int64 | .int32 | .int16 | .int8 => (not64 mask >>> 1) &&& mask
  | _ => 0

/-- One cell written by the loop: the masked part moved down, sign-extended. -/
def storeCell (mask sign temp pos value : Nat) : Nat :=
  let c := (value &&& temp) >>> pos
  if c &&& sign ≠ 0 then c ||| not64 mask else c

/-- The loop of `item_store_int64_for_target`, item.c:267-294; `n` iterations remain, the next is
number `i`. -/
def storeLoop (ub : Nat → Nat → Option Nat) (shift mask sign value : Nat) :
    Nat → Nat → Nat → Option (List Int)
  | 0, _, _ => some []
  | n + 1, i, temp =>
    match shl ub temp shift with
    | none => none
    | some temp' =>
      match storeLoop ub shift mask sign value n (i + 1) temp' with
      | none => none
      | some cs => some (toItem (storeCell mask sign temp (shift * i) value) :: cs)

/-- `item_store_int64_for_target`, item.c:267-294.  Answers the cells written; their number is the
returned `size`.  Inner `none` is the answer `SIZE_MAX` for an unknown target; outer `none` is
undefined behaviour.  (The NULL storage case is not modelled.) -/
def storeInt64 (ub : Nat → Nat → Option Nat) (st : Status) (value : Int) : Option (Option (List Int)) :=
  let size := getSize st
  if size = 0 then some none
  else
    let shift := getShift size
    let mask := getMask shift
    match storeLoop ub shift mask (signMask st mask) (toSize value) size 0 mask with
    | none => none
    | some cs => some (some cs)

/-- The loop of `item_restore_int64_for_target`, item.c:301-319.  Outer `none`: read past the
given cells. -/
def restoreLoop (shift mask : Nat) : Nat → Nat → List Int → Nat → Option Nat
  | 0, _, _, acc => some acc
  | _ + 1, _, [], _ => none
  | n + 1, i, c :: cs, acc =>
    restoreLoop shift mask n (i + 1) cs
      (acc ||| (((toSize c &&& mask) <<< (shift * i)) % 18446744073709551616))

/-- `item_restore_int64_for_target`, item.c:301-319. -/
def restoreInt64 (st : Status) (stg : List Int) : Option Int :=
  let size := getSize st
  if size = 0 then some ITEM_MAX
  else
    let shift := getShift size
    (restoreLoop shift (getMask shift) size 0 stg 0).map toItem

/-- `item_store_double_for_target`, item.c:236-241.  A `double` is its 64-bit pattern, read as
`int64_t`. -/
def storeDouble (ub : Nat → Nat → Option Nat) (st : Status) (bits : Int) : Option (Option (List Int)) :=
  storeInt64 ub st bits

/-- Bit pattern of `DBL_MAX`. -/
def DBL_MAX_BITS : Int := 0x7FEFFFFFFFFFFFFF

/-- `item_restore_double_for_target`, item.c:248-259. -/
def restoreDouble (st : Status) (stg : List Int) : Option Int :=
  match restoreInt64 st stg with
  | none => none
  | some t => if t = ITEM_MAX then some DBL_MAX_BITS else some t

/-- `item_get_min`, item.c:150-181 (all `#if`s hold for `ITEM = -64`). -/
def getMin : Status → Int
  | .int8 => -128
  | .int16 => -32768
  | .int32 => -2147483648
  | .int64 => -9223372036854775808
  | _ => 0

/-- `item_get_max`, item.c:183-228 (`ITEM_MAX >= ULLONG_MAX` fails, the other `#if`s hold). -/
def getMax : Status → Int
  | .int8 => 127
  | .uint8 => 255
  | .int16 => 32767
  | .uint16 => 65535
  | .int32 => 2147483647
  | .uint32 => 4294967295
  | .int64 => 9223372036854775807
  | .uint64 => ITEM_MAX
  | _ => 0

/-- `item_check_var`, item.c:322-325. -/
def checkVar (st : Status) (var : Int) : Bool := decide (var ≥ getMin st) && decide (var ≤ getMax st)

/-- The chain of `strcmp`s in `item_get_status`, item.c:98-148. -/
def flagTarget (flag : String) : Option Status :=
  if flag = "-i64" then some .int64
  else if flag = "-i32" then some .int32
  else if flag = "-i16" then some .int16
  else if flag = "-i8" then some .int8
  else if flag = "-u64" then some .uint64
  else if flag = "-u32" then some .uint32
  else if flag = "-u16" then some .uint16
  else if flag = "-u8" then some .uint8
  else none

/-- The loop of `item_get_status`, item.c:98-148, over the workspace flags. -/
def statusLoop : List String → Status → Status
  | [], st => st
  | flag :: flags, st =>
    if st = .error then st
    else
      match flagTarget flag with
      | none => statusLoop flags st
      | some t => statusLoop flags (if st ≠ .types then .error else t)

/-- `item_get_status`, item.c:98-148, for a correct workspace with the given flags. -/
def getStatus (flags : List String) : Status :=
  let st := statusLoop flags .types
  if st = .types then .int32 else st

end RuC.Item
