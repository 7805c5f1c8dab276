import Verif.Base

/-!
# Model of `libs/utils/hash.c`, `libs/utils/hash.h`

A hash table is a vector of cells.  The vector calls are modelled by their sequence meaning, which
is what property C01 proves of the vector model: `vget` answers `ITEM_MAX` out of range, `vset`
does nothing out of range, `vinc` appends zero cells.  Allocation is assumed to succeed here.

A loop over a chain takes fuel; running out of fuel (`none`) stands for a loop that does not end.
-/

namespace RuC.Hash
open RuC

/-- `MAX_HASH`, hash.h:20. -/
def MAX_HASH : Nat := 256

/-- Sequence meaning of `vector_get`, vector.c:134-142. -/
def vget (hs : List Int) (i : Nat) : Int :=
  match hs[i]? with
  | some x => x
  | none => ITEM_MAX

/-- Sequence meaning of `vector_set`, vector.c:102-111 (the new contents). -/
def vset (hs : List Int) (i : Nat) (x : Int) : List Int := hs.set i x

/-- Sequence meaning of `vector_set`, vector.c:102-111 (the answer). -/
def vsetCode (hs : List Int) (i : Nat) : Int := if i < hs.length then 0 else -1

/-- Sequence meaning of `vector_increase`, vector.c:198-201. -/
def vinc (hs : List Int) (n : Nat) : List Int := hs ++ List.replicate n 0

/-- `get_hash`, hash.c:37-40. -/
def getHash (key : Int) : Nat := toSize key % MAX_HASH

/-- `hash_create`, hash.c:52-57 (contents; the capacity is not observable). -/
def hashCreate : List Int := vinc [] MAX_HASH

/-- The chain walk of `hash_add`, hash.c:60-113: answers `inl ()` if the key was found, otherwise
the last link position `prev`, the last `index` read and the reusable `record`. -/
def addLoop (hs : List Int) (key : Int) (amount : Nat) :
    Nat → Nat → Int → Int → Option (Sum Unit (Nat × Int × Int))
  | 0, _, _, _ => none
  | fuel + 1, prev, index, record =>
    if index ≠ ITEM_MAX ∧ index ≠ 0 then
      let temp := vget hs (usz (toSize index + 1))
      let step (record : Int) :=
        addLoop hs key amount fuel (toSize index) (vget hs (toSize index)) record
      if record = ITEM_MAX ∧ temp = ITEM_MAX ∧ toSize (vget hs (usz (toSize index + 2))) = amount then
        step index
      else if temp = key then some (.inl ())
      else step record
    else some (.inr (prev, index, record))

/-- The loop clearing a reused record, hash.c:60-113. -/
def clearRecord (hs : List Int) (index : Int) : Nat → List Int
  | 0 => hs
  | n + 1 => vset (clearRecord hs index n) (usz (toSize index + 3 + n)) 0

/-- The last lines of `hash_add`, hash.c:60-113, from `if (index == 0)` on. -/
def addFinish (hs : List Int) (key : Int) (amount prev : Nat) (index : Int) : Nat × List Int :=
  if index = 0 then
    let index := toItem hs.length
    let hs := vset hs prev index
    let hs := vinc hs (usz (3 + amount))
    let hs := vset hs (usz (toSize index + 2)) (toItem amount)
    (toSize index, vset hs (usz (toSize index + 1)) key)
  else (toSize index, vset hs (usz (toSize index + 1)) key)

/-- `hash_add`, hash.c:60-113. -/
def hashAdd (hs : List Int) (key : Int) (amount : Nat) : Option (Nat × List Int) :=
  let prev := getHash key
  let index := vget hs prev
  if index ≠ 0 then
    match addLoop hs key amount (hs.length + 1) prev index ITEM_MAX with
    | none => none
    | some (.inl _) => some (SIZE_MAX, hs)
    | some (.inr (prev, index, record)) =>
      if record ≠ ITEM_MAX then
        some (addFinish (clearRecord hs record amount) key amount prev record)
      else if index = ITEM_MAX then some (SIZE_MAX, hs)
      else some (addFinish hs key amount prev index)
  else some (addFinish hs key amount prev index)

/-- The chain walk of `hash_get_index`, hash.c:116-138. -/
def indexLoop (hs : List Int) (key : Int) : Nat → Int → Option Nat
  | 0, _ => none
  | fuel + 1, index =>
    if index ≠ ITEM_MAX ∧ index ≠ 0 then
      if vget hs (usz (toSize index + 1)) = key then some (toSize index)
      else indexLoop hs key fuel (vget hs (toSize index))
    else some SIZE_MAX

/-- `hash_get_index`, hash.c:116-138. -/
def getIndex (hs : List Int) (key : Int) : Option Nat :=
  indexLoop hs key (hs.length + 1) (vget hs (getHash key))

/-- `hash_get_key`, hash.h:156-159. -/
def getKey (hs : List Int) (index : Nat) : Int := vget hs (usz (index + 1))

/-- `hash_get_amount_by_index`, hash.h:169-173. -/
def amountAt (hs : List Int) (index : Nat) : Nat :=
  let amount := vget hs (usz (index + 2))
  if index ≠ SIZE_MAX ∧ amount ≠ ITEM_MAX then toSize amount else 0

/-- `hash_get_by_index`, hash.h:185-188. -/
def getAt (hs : List Int) (index num : Nat) : Int :=
  if num < amountAt hs index then vget hs (usz (index + 3 + num)) else ITEM_MAX

/-- `hash_set_by_index`, hash.h:229-232. -/
def setAt (hs : List Int) (index num : Nat) (value : Int) : Int × List Int :=
  if num < amountAt hs index then
    (vsetCode hs (usz (index + 3 + num)), vset hs (usz (index + 3 + num)) value)
  else (-1, hs)

/-- `hash_remove_by_index`, hash.h:283-286. -/
def removeAt (hs : List Int) (index : Nat) : Int × List Int :=
  if index ≠ SIZE_MAX then (vsetCode hs (usz (index + 1)), vset hs (usz (index + 1)) ITEM_MAX)
  else (-1, hs)

/-- `hash_get_amount`, hash.c:140-143. -/
def getAmount (hs : List Int) (key : Int) : Option Nat :=
  (getIndex hs key).map fun i => amountAt hs i

/-- `hash_get`, hash.c:146-149. -/
def hashGet (hs : List Int) (key : Int) (num : Nat) : Option Int :=
  (getIndex hs key).map fun i => getAt hs i num

/-- `hash_set`, hash.c:162-166. -/
def hashSet (hs : List Int) (key : Int) (num : Nat) (value : Int) : Option (Nat × List Int) :=
  (getIndex hs key).map fun i =>
    let r := setAt hs i num value
    (if r.1 = 0 then i else SIZE_MAX, r.2)

/-- `hash_remove`, hash.c:181-184. -/
def hashRemove (hs : List Int) (key : Int) : Option (Int × List Int) :=
  (getIndex hs key).map fun i => removeAt hs i

/-! ## Histories -/

/-- One call.  The `..At` calls use the index that the client got from `hash_add` for that key. -/
inductive Op
  | add (key : Int) (amount : Nat)
  | set (key : Int) (num : Nat) (value : Int)
  | get (key : Int) (num : Nat)
  | amount (key : Int)
  | index (key : Int)
  | remove (key : Int)
  | setAt (key : Int) (num : Nat) (value : Int)
  | getAt (key : Int) (num : Nat)
  | keyAt (key : Int)
  | removeAt (key : Int)
deriving Repr, DecidableEq

/-- The key a call mentions. -/
def Op.key : Op → Int
  | .add k _ | .set k _ _ | .get k _ | .amount k | .index k | .remove k
  | .setAt k _ _ | .getAt k _ | .keyAt k | .removeAt k => k

/-- What a call returned; `skipped` when the client holds no index for the key. -/
inductive Res
  | idx (n : Nat)
  | code (i : Int)
  | item (i : Int)
  | skipped
deriving Repr, DecidableEq

/-- The table and the client's record of indices returned by `hash_add`. -/
structure St where
  hs : List Int
  held : Int → Option Nat

/-- The fresh table, nothing held. -/
def St.init : St := { hs := hashCreate, held := fun _ => none }

/-- Update a function at one point. -/
def upd {β : Type} (f : Int → Option β) (k : Int) (v : Option β) : Int → Option β :=
  fun k' => if k' = k then v else f k'

/-- Execute one call; `none` is a call that does not return. -/
def step (s : St) : Op → Option (Res × St)
  | .add k n =>
    match hashAdd s.hs k n with
    | none => none
    | some (r, hs) =>
      some (.idx r, { hs := hs, held := if r = SIZE_MAX then s.held else upd s.held k (some r) })
  | .set k i v => (hashSet s.hs k i v).map fun (r, hs) => (.idx r, { s with hs := hs })
  | .get k i => (hashGet s.hs k i).map fun r => (.item r, s)
  | .amount k => (getAmount s.hs k).map fun r => (.idx r, s)
  | .index k => (getIndex s.hs k).map fun r => (.idx r, s)
  | .remove k =>
    (hashRemove s.hs k).map fun (r, hs) => (.code r, { hs := hs, held := upd s.held k none })
  | .setAt k i v =>
    match s.held k with
    | none => some (.skipped, s)
    | some j => some (.code (setAt s.hs j i v).1, { s with hs := (setAt s.hs j i v).2 })
  | .getAt k i =>
    match s.held k with
    | none => some (.skipped, s)
    | some j => some (.item (getAt s.hs j i), s)
  | .keyAt k =>
    match s.held k with
    | none => some (.skipped, s)
    | some j => some (.item (getKey s.hs j), s)
  | .removeAt k =>
    match s.held k with
    | none => some (.skipped, s)
    | some j =>
      some (.code (removeAt s.hs j).1, { hs := (removeAt s.hs j).2, held := upd s.held k none })

/-- Execute a history. -/
def run (s : St) : List Op → Option (List Res × St)
  | [] => some ([], s)
  | op :: ops =>
    match step s op with
    | none => none
    | some (r, s') =>
      match run s' ops with
      | none => none
      | some (rs, s'') => some (r :: rs, s'')

end RuC.Hash
