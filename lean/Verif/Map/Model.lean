import Verif.Utf8.Model

/-!
# Model of `libs/utils/map.c`

`keys` is the allocated block of key octets (an uninitialised octet is `none`), `values` the first
`values_size` records of the value block.  An outer `none` is undefined behaviour (reading or
writing outside a block, reading an uninitialised cell, a loop that does not end).  The allocator
is an oracle: two Booleans per call, one for the key block and one for the value block.
-/

namespace RuC.Map
open RuC Utf8

/-- `struct map_hash`, map.c:24-29; the value of an unused bucket is uninitialised. -/
structure Rec where
  next : Nat
  ref : Nat
  value : Option Int
deriving Repr, DecidableEq

/-- `map`, map.h:33-44.  `keys_alloc` is the length of `keys`, `values_size` that of `values`;
`keys_next` is uninitialised in a fresh map. -/
structure Map where
  keys : List (Option Nat)
  keysSize : Nat
  keysNext : Option Nat
  values : List Rec
  valuesAlloc : Nat
deriving Repr, DecidableEq

/-- `MAP_HASH_MAX`, map.h:28. -/
def MAP_HASH_MAX : Nat := 256

/-- `MAX_SYMBOL_SIZE`, uniscanner.h:25. -/
def MAX_SYMBOL_SIZE : Nat := 8

/-- `map_create`, map.c:264-294, when both allocations succeed. -/
def mapCreate (alloc : Nat) : Map :=
  { keys := List.replicate (usz (usz (256 + alloc) * 8)) none, keysSize := 0, keysNext := none,
    values := List.replicate 256 { next := SIZE_MAX, ref := SIZE_MAX, value := none },
    valuesAlloc := usz (256 + alloc) }

/-- Store octets into a block; undefined outside it. -/
def store (mem : List (Option Nat)) (pos : Nat) (bs : List Nat) : Option (List (Option Nat)) :=
  if pos + bs.length ≤ mem.length then
    some (mem.take pos ++ bs.map some ++ mem.drop (pos + bs.length))
  else none

/-- `utf8_to_string(&mem[pos], ch)`, utf8.c:976-1022, on a block: the octets and a zero, or
nothing at all for a refused symbol. -/
def storeSymbol (mem : List (Option Nat)) (pos ch : Nat) : Option (List (Option Nat)) :=
  if toStr ch = [] then some mem else store mem pos (toStr ch ++ [0])

/-- `realloc` of a block of octets. -/
def reallocOctets (mem : List (Option Nat)) (bytes : Nat) : List (Option Nat) :=
  mem.take bytes ++ List.replicate (bytes - mem.length) none

/-- Bound on the nested calls of `map_add_key_symbol`: every one of them doubles the block, so
sixty four are more than a block can take. -/
@[irreducible] def growFuel : Nat := 64

/-- `map_add_key_symbol`, map.c:32-49.  Inner `none` is the answer -1.  The first argument bounds
the recursion. -/
def addKeySymbol : Nat → Map → Nat → Bool → Option (Option Map)
  | 0, _, _, _ => none
  | fuel + 1, m, ch, ok =>
    match m.keysNext with
    | none => none
    | some next =>
      if MAX_SYMBOL_SIZE ≤ usub m.keys.length next then
        match storeSymbol m.keys next ch with
        | none => none
        | some keys => some (some { m with keys := keys, keysNext := some (next + (toStr ch).length) })
      else if ok then
        addKeySymbol fuel { m with keys := reallocOctets m.keys (usz (2 * m.keys.length)) } ch ok
      else some none

/-- What a `map_get_hash..` function answers: the hash (`none` for `SIZE_MAX`) and the map. -/
abbrev Hashed := Option Nat × Map

/-- `&key[as->keys_next - as->keys_size]`, map.c:51-79. -/
@[irreducible] def keyRest (key : List Nat) (next size : Nat) : List Nat := key.drop (usub next size)

/-- One round of the loop of `map_get_hash`, map.c:51-79, entered with the symbol at the current
place still to be read: either the final answer or the map and hash for the next round. -/
@[irreducible] def hashStrStep (key : List Nat) (ok : Bool) (m : Map) (hash : Nat) :
    Option (Hashed ⊕ (Map × Nat)) :=
  match m.keysNext with
  | none => none
  | some next =>
    match keyRest key next m.keysSize with
    | [] => none
    | b :: s =>
      if b = 0 then some (.inl (some (hash % MAP_HASH_MAX), m))
      else
        match convert (b :: s) with
        | none => none
        | some ch =>
          match addKeySymbol growFuel m ch ok with
          | none => none
          | some none => some (.inl (none, m))
          | some (some m') => some (.inr (m', usz (hash + ch)))

/-- The loop of `map_get_hash`, map.c:51-79; the first number bounds the rounds. -/
def hashStrLoop (key : List Nat) (ok : Bool) : Nat → Map → Nat → Option Hashed
  | 0, _, _ => none
  | fuel + 1, m, hash =>
    match hashStrStep key ok m hash with
    | none => none
    | some (.inl r) => some r
    | some (.inr (m', hash')) => hashStrLoop key ok fuel m' hash'

/-- `map_get_hash`, map.c:51-79; `key` includes the terminating zero.  The first symbol is read
before the loop in C, which is the same because an empty key is refused first. -/
def getHashStr (m : Map) (key : List Nat) (ok : Bool) : Option Hashed :=
  match key with
  | [] => none
  | b :: _ =>
    if b = 0 then some (none, m)
    else hashStrLoop key ok (key.length + 1) { m with keysNext := some m.keysSize } 0

/-- The loop of `map_get_hash_by_utf8`, map.c:81-102. -/
def hashUtf8Loop (ok : Bool) : List Nat → Map → Nat → Option Hashed
  | [], _, _ => none
  | c :: key, m, hash =>
    if c = 0 then some (some (hash % MAP_HASH_MAX), m)
    else
      match addKeySymbol growFuel m c ok with
      | none => none
      | some none => some (none, m)
      | some (some m') => hashUtf8Loop ok key m' (usz (hash + c))

/-- `map_get_hash_by_utf8`, map.c:81-102; `key` includes the terminating zero. -/
def getHashUtf8 (m : Map) (key : List Nat) (ok : Bool) : Option Hashed :=
  match key with
  | [] => none
  | c :: _ =>
    if c = 0 then some (none, m)
    else hashUtf8Loop ok key { m with keysNext := some m.keysSize } 0

/-- The loop of `map_get_hash_by_io`, map.c:104-138, over the characters the input still holds
(`uni_scan_char` answers `EOF`, which is no letter and no digit, at the end). -/
def hashIoLoop (ok : Bool) : List Nat → Map → Nat → Option Hashed
  | [], m, hash => some (some (hash % MAP_HASH_MAX), m)
  | c :: input, m, hash =>
    if isLetter c || isDigit c then
      match addKeySymbol growFuel m c ok with
      | none => none
      | some none => some (none, m)
      | some (some m') => hashIoLoop ok input m' (usz (hash + c))
    else some (some (hash % MAP_HASH_MAX), m)

/-- `map_get_hash_by_io`, map.c:104-138.  The characters consumed and `last` are not part of the
map and are not modelled here. -/
def getHashIo (m : Map) (input : List Nat) (ok : Bool) : Option Hashed :=
  let m := { m with keysNext := some m.keysSize }
  match input with
  | [] => some (none, m)
  | c :: input =>
    if !isLetter c && c != 35 then some (none, m)
    else
      match addKeySymbol growFuel m c ok with
      | none => none
      | some none => some (none, m)
      | some (some m') => hashIoLoop ok input m' c

/-- A key argument: a C string, a `char32_t` string (both with the terminating zero), or the
characters of an input. -/
inductive KeyArg
  | str (octets : List Nat)
  | utf8 (codes : List Nat)
  | io (input : List Nat)
deriving Repr, DecidableEq

/-- The three `map_get_hash..` functions, map.c:51-138. -/
def getHash (m : Map) (key : KeyArg) (ok : Bool) : Option Hashed :=
  match key with
  | .str s => getHashStr m s ok
  | .utf8 s => getHashUtf8 m s ok
  | .io s => getHashIo m s ok

/-- `strcmp(&mem[i], &mem[j]) == 0`. -/
def strEq (mem : List (Option Nat)) : Nat → Nat → Nat → Option Bool
  | 0, _, _ => none
  | fuel + 1, i, j =>
    match mem[i]?, mem[j]? with
    | some (some a), some (some b) =>
      if a ≠ b then some false else if a = 0 then some true else strEq mem fuel (i + 1) (j + 1)
    | _, _ => none

/-- `map_cmp_key`, map.c:141-144 (`== 0`). -/
def cmpKey (m : Map) (r : Rec) : Option Bool := strEq m.keys (m.keys.length + 1) r.ref m.keysSize

/-- The chain walk common to `map_get_index_by_hash`, map.c:146-169, and `map_add_by_hash`,
map.c:171-220: `inl i` if the key was met at a record with a successor, `inr i` for the last
record. -/
def walk (m : Map) : Nat → Nat → Option (Sum Nat Nat)
  | 0, _ => none
  | fuel + 1, index =>
    match m.values[index]? with
    | none => none
    | some r =>
      if r.next ≠ SIZE_MAX then
        match cmpKey m r with
        | none => none
        | some true => some (.inl index)
        | some false => walk m fuel r.next
      else some (.inr index)

/-- `map_get_index_by_hash`, map.c:146-169. -/
def getIndexByHash (m : Map) (hash : Option Nat) : Option Nat :=
  match hash with
  | none => some SIZE_MAX
  | some hash =>
    match walk m (m.values.length + 1) hash with
    | none => none
    | some (.inl i) => some i
    | some (.inr i) =>
      match m.values[i]? with
      | none => none
      | some r =>
        if r.ref = SIZE_MAX then some SIZE_MAX
        else
          match cmpKey m r with
          | none => none
          | some true => some i
          | some false => some SIZE_MAX

/-- The end of `map_add_by_hash`, map.c:171-220: a new record behind record `index` (`r`). -/
def appendRec (m : Map) (index next : Nat) (r : Rec) (value : Int) (okv : Bool) : Option (Nat × Map) :=
  let grown := if m.values.length = m.valuesAlloc then usz (2 * m.valuesAlloc) else m.valuesAlloc
  if m.values.length = m.valuesAlloc ∧ ¬ okv then some (SIZE_MAX, m)
  else if m.values.length < grown then
    some (m.values.length,
      { m with
        values := m.values.set index { r with next := m.values.length } ++
          [{ next := SIZE_MAX, ref := m.keysSize, value := some value }],
        valuesAlloc := grown, keysSize := next + 1 })
  else none

/-- `map_add_by_hash`, map.c:171-220. -/
def addByHash (m : Map) (hash : Option Nat) (value : Int) (okv : Bool) : Option (Nat × Map) :=
  match hash with
  | none => some (SIZE_MAX, m)
  | some hash =>
    match walk m (m.values.length + 1) hash with
    | none => none
    | some (.inl i) => some (if value = ITEM_MAX then i else SIZE_MAX, m)
    | some (.inr i) =>
      match m.values[i]?, m.keysNext with
      | some r, some next =>
        if r.ref = SIZE_MAX then
          some (i, { m with
            values := m.values.set i { r with ref := m.keysSize, value := some value },
            keysSize := next + 1 })
        else
          match cmpKey m r with
          | none => none
          | some true => some (if value = ITEM_MAX then i else SIZE_MAX, m)
          | some false => appendRec m i next r value okv
      | _, _ => none

/-- `map_set_by_hash`, map.c:222-232. -/
def setByHash (m : Map) (hash : Option Nat) (value : Int) : Option (Nat × Map) :=
  match getIndexByHash m hash with
  | none => none
  | some i =>
    if i = SIZE_MAX then some (SIZE_MAX, m)
    else
      match m.values[i]? with
      | none => none
      | some r => some (i, { m with values := m.values.set i { r with value := some value } })

/-- `map_get_by_hash`, map.c:234-243. -/
def getByHash (m : Map) (hash : Option Nat) : Option Int :=
  match getIndexByHash m hash with
  | none => none
  | some i =>
    if i = SIZE_MAX then some ITEM_MAX
    else
      match m.values[i]? with
      | none => none
      | some r => r.value

/-- `map_set_by_index`, map.c:344-353. -/
def setByIndex (m : Map) (index : Nat) (value : Int) : Int × Map :=
  match m.values[index]? with
  | none => (-1, m)
  | some r =>
    if r.ref = SIZE_MAX then (-1, m)
    else (0, { m with values := m.values.set index { r with value := some value } })

/-- `map_get_by_index`, map.c:387-392. -/
def getByIndex (m : Map) (index : Nat) : Option Int :=
  match m.values[index]? with
  | none => some ITEM_MAX
  | some r => if r.ref = SIZE_MAX then some ITEM_MAX else r.value

/-- Read the C string at `pos`. -/
def readStr (mem : List (Option Nat)) : Nat → Nat → Option (List Nat)
  | 0, _ => none
  | fuel + 1, pos =>
    match mem[pos]? with
    | some (some b) => if b = 0 then some [] else (readStr mem fuel (pos + 1)).map (b :: ·)
    | _ => none

/-- `map_to_string`, map.c:395-400: the text found at the answered address (inner `none`: NULL). -/
def mapToString (m : Map) (index : Nat) : Option (Option (List Nat)) :=
  match m.values[index]? with
  | none => some none
  | some r =>
    if r.ref = SIZE_MAX then some none
    else (readStr m.keys (m.keys.length + 1) r.ref).map some

/-! ## Histories -/

/-- One call; the Booleans are the allocator's answers for the key block and the value block. -/
inductive Op
  | reserve (key : KeyArg) (ok okv : Bool)
  | add (key : KeyArg) (value : Int) (ok okv : Bool)
  | set (key : KeyArg) (value : Int) (ok : Bool)
  | index (key : KeyArg) (ok : Bool)
  | get (key : KeyArg) (ok : Bool)
  | setAt (index : Nat) (value : Int)
  | getAt (index : Nat)
  | text (index : Nat)
deriving Repr, DecidableEq

/-- What a call returned. -/
inductive Res
  | idx (n : Nat)
  | code (i : Int)
  | item (i : Int)
  | str (s : Option (List Nat))
deriving Repr, DecidableEq

/-- Execute one call: `map_reserve..` map.c:297-310, `map_add..` map.c:313-326, `map_set..`
map.c:329-342, `map_get_index..` map.c:356-369, `map_get..` map.c:372-385 and the calls by index. -/
def step (m : Map) : Op → Option (Res × Map)
  | .reserve key ok okv =>
    match getHash m key ok with
    | none => none
    | some (h, m) => (addByHash m h ITEM_MAX okv).map fun (r, m) => (.idx r, m)
  | .add key v ok okv =>
    match getHash m key ok with
    | none => none
    | some (h, m) => (addByHash m h v okv).map fun (r, m) => (.idx r, m)
  | .set key v ok =>
    match getHash m key ok with
    | none => none
    | some (h, m) => (setByHash m h v).map fun (r, m) => (.idx r, m)
  | .index key ok =>
    match getHash m key ok with
    | none => none
    | some (h, m) => (getIndexByHash m h).map fun r => (.idx r, m)
  | .get key ok =>
    match getHash m key ok with
    | none => none
    | some (h, m) => (getByHash m h).map fun r => (.item r, m)
  | .setAt i v => some (.code (setByIndex m i v).1, (setByIndex m i v).2)
  | .getAt i => (getByIndex m i).map fun r => (.item r, m)
  | .text i => (mapToString m i).map fun r => (.str r, m)

/-- Execute a history. -/
def run (m : Map) : List Op → Option (List Res × Map)
  | [] => some ([], m)
  | op :: ops =>
    match step m op with
    | none => none
    | some (r, m') =>
      match run m' ops with
      | none => none
      | some (rs, m'') => some (r :: rs, m'')

end RuC.Map
