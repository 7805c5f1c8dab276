import Verif.Map.Model

/-!
# Model of `libs/utils/strings.c`

`chars` and `idx` are the two allocated blocks (an uninitialised cell is `none`).  An outer `none`
is undefined behaviour.  The allocator is an oracle: per call one function for the index block and
one for the text block, from the requested number of cells to its answer.
C strings are given by the octets before the terminating zero.
-/

namespace RuC.Strings
open RuC Utf8 Map

/-- `strings`, strings.h:28-37; `all_strings_alloc` and `indexes_alloc` are the block lengths. -/
structure Strs where
  chars : List (Option Nat)
  size : Nat
  idx : List (Option Nat)
  count : Nat
deriving Repr, DecidableEq

/-- `strings_create`, strings.c:70-94, when both allocations succeed. -/
def stringsCreate (alloc : Nat) : Strs :=
  let a := if alloc ≠ 0 then alloc else 1
  { chars := List.replicate (usz (a * 256)) none, size := 0, idx := List.replicate a none, count := 0 }

/-- `strings_add_index`, strings.c:24-40.  Inner `none` is the answer -1. -/
def addIndex (s : Strs) (ok : Nat → Bool) : Option (Option Strs) :=
  let full := s.count = s.idx.length
  let alloc := usz (2 * s.idx.length)
  if full ∧ ¬ ok alloc then some none
  else
    let idx := if full then reallocOctets s.idx alloc else s.idx
    if s.count < idx.length then some (some { s with idx := idx.set s.count (some s.size) }) else none

/-- Bound on the nested calls of `strings_increase`; every one of them doubles the block. -/
@[irreducible] def growFuel : Nat := 64

/-- `strings_increase`, strings.c:42-58.  Inner `none` is the answer -1. -/
def increase : Nat → Strs → Nat → (Nat → Bool) → Option (Option Strs)
  | 0, _, _, _ => none
  | fuel + 1, s, n, ok =>
    if usz (s.size + n) ≤ s.chars.length then some (some s)
    else
      let alloc := usz (2 * s.chars.length)
      if ok alloc then increase fuel { s with chars := reallocOctets s.chars alloc } n ok
      else some none

/-- The loop of `strings_add`, strings.c:97-116; the Boolean says whether it ran to the end. -/
def addLoop (ok : Nat → Bool) : List Nat → Strs → Option (Bool × Strs)
  | [], s => some (true, s)
  | c :: cs, s =>
    match increase growFuel s 2 ok with
    | none => none
    | some none => some (false, s)
    | some (some s) =>
      match store s.chars s.size [c] with
      | none => none
      | some chars => addLoop ok cs { s with chars := chars, size := s.size + 1 }

/-- `strings_add`, strings.c:97-116. -/
def stringsAdd (s : Strs) (str : List Nat) (oki okc : Nat → Bool) : Option (Nat × Strs) :=
  if str = [] then some (SIZE_MAX, s)
  else
    match addIndex s oki with
    | none => none
    | some none => some (SIZE_MAX, s)
    | some (some s) =>
      match addLoop okc str s with
      | none => none
      | some (false, s) => some (SIZE_MAX, s)
      | some (true, s) =>
        match store s.chars s.size [0] with
        | none => none
        | some chars => some (s.count, { s with chars := chars, size := s.size + 1, count := s.count + 1 })

/-- The loop of `strings_add_by_utf8`, strings.c:118-137, and `strings_add_by_vector`,
strings.c:139-164; the latter stops at a zero. -/
def addCodesLoop (ok : Nat → Bool) : List Nat → Strs → Option (Bool × Strs)
  | [], s => some (true, s)
  | c :: cs, s =>
    if c = 0 then some (true, s)
    else
      match increase growFuel s (utf8Size c + 1) ok with
      | none => none
      | some none => some (false, s)
      | some (some s) =>
        match storeSymbol s.chars s.size c with
        | none => none
        | some chars => addCodesLoop ok cs { s with chars := chars, size := s.size + (toStr c).length }

/-- The common part of `strings_add_by_utf8` and `strings_add_by_vector`, strings.c:139-164. -/
def addCodes (s : Strs) (codes : List Nat) (oki okc : Nat → Bool) : Option (Nat × Strs) :=
  match addIndex s oki with
  | none => none
  | some none => some (SIZE_MAX, s)
  | some (some s) =>
    match addCodesLoop okc codes s with
    | none => none
    | some (false, s) => some (SIZE_MAX, s)
    | some (true, s) => some (s.count, { s with size := s.size + 1, count := s.count + 1 })

/-- `strings_add_by_utf8`, strings.c:118-137; `codes` are those before the terminating zero. -/
def stringsAddByUtf8 (s : Strs) (codes : List Nat) (oki okc : Nat → Bool) : Option (Nat × Strs) :=
  if codes = [] then some (SIZE_MAX, s) else addCodes s codes oki okc

/-- `strings_add_by_vector`, strings.c:139-164; `vec` are the cells of a correct vector.  The test
`vector_get(str, 0) == '\0'` sees `ITEM_MAX` for an empty vector; later cells are cast to
`char32_t`. -/
def stringsAddByVector (s : Strs) (vec : List Int) (oki okc : Nat → Bool) : Option (Nat × Strs) :=
  if vec.head?.getD ITEM_MAX = 0 then some (SIZE_MAX, s)
  else addCodes s (vec.map fun x => (x % 4294967296).toNat) oki okc

/-- `strings_get`, strings.c:167-175: the text at the answered address (inner `none`: NULL). -/
def stringsGet (s : Strs) (index : Nat) : Option (Option (List Nat)) :=
  if index ≥ s.count then some none
  else
    match s.idx[index]? with
    | some (some pos) => (readStr s.chars (s.chars.length + 1) pos).map some
    | _ => none

/-- `strings_get_length`, strings.c:177-187. -/
def stringsGetLength (s : Strs) (index : Nat) : Option Nat :=
  if index ≥ s.count then some 0
  else
    match s.idx[index]? with
    | some (some pos) =>
      if index = s.count - 1 then some (usub (usub s.size pos) 1)
      else
        match s.idx[index + 1]? with
        | some (some next) => some (usub (usub next pos) 1)
        | _ => none
    | _ => none

/-- `strings_remove`, strings.c:190-199: the text at the answered address (inner `none`: NULL). -/
def stringsRemove (s : Strs) : Option (Option (List Nat) × Strs) :=
  if s.count = 0 then some (none, s)
  else
    match s.idx[s.count - 1]? with
    | some (some pos) =>
      (readStr s.chars (s.chars.length + 1) pos).map fun t =>
        (some t, { s with size := pos, count := s.count - 1 })
    | _ => none

/-- `strings_size`, strings.c:202-205, for a correct structure. -/
def stringsSize (s : Strs) : Nat := s.count

/-! ## Histories -/

/-- One call with the allocator's answers. -/
inductive Op
  | add (str : List Nat) (oki okc : Nat → Bool)
  | addUtf8 (codes : List Nat) (oki okc : Nat → Bool)
  | addVector (vec : List Int) (oki okc : Nat → Bool)
  | get (index : Nat)
  | length (index : Nat)
  | remove
  | size

/-- What a call returned. -/
inductive Res
  | idx (n : Nat)
  | text (s : Option (List Nat))
deriving Repr, DecidableEq

/-- Execute one call. -/
def step (s : Strs) : Op → Option (Res × Strs)
  | .add str a b => (stringsAdd s str a b).map fun (r, s) => (.idx r, s)
  | .addUtf8 codes a b => (stringsAddByUtf8 s codes a b).map fun (r, s) => (.idx r, s)
  | .addVector vec a b => (stringsAddByVector s vec a b).map fun (r, s) => (.idx r, s)
  | .get i => (stringsGet s i).map fun r => (.text r, s)
  | .length i => (stringsGetLength s i).map fun r => (.idx r, s)
  | .remove => (stringsRemove s).map fun (r, s) => (.text r, s)
  | .size => some (.idx (stringsSize s), s)

/-- Execute a history. -/
def run (s : Strs) : List Op → Option (List Res × Strs)
  | [] => some ([], s)
  | op :: ops =>
    match step s op with
    | none => none
    | some (r, s') =>
      match run s' ops with
      | none => none
      | some (rs, s'') => some (r :: rs, s'')

end RuC.Strings
