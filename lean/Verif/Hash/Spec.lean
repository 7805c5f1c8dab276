import Verif.Hash.Model

/-!
# What a hash table is supposed to be

A finite map from keys to an index and an array of values.  The index is the number `hash_add`
answered; nothing else is said about it than that live records do not overlap.
-/

namespace RuC.Hash
open RuC

/-- The abstract table: for each live key its index and its values. -/
abbrev Table := Int → Option (Nat × List Int)

/-- The cells a record with index `i` and `n` values occupies: `i, .., i + n + 2`.  Two records
overlap when they share a cell. -/
def Disjoint (i n j m : Nat) : Prop := i + 3 + n ≤ j ∨ j + 3 + m ≤ i

/-- The map meaning of one call. -/
inductive TStep : Table → Op → Res → Table → Prop
  | add (A : Table) (k n i) (h : A k = none) (hi : i ≠ SIZE_MAX)
      (hd : ∀ k' j vs, A k' = some (j, vs) → Disjoint i n j vs.length) :
      TStep A (.add k n) (.idx i) (upd A k (some (i, List.replicate n 0)))
  | addPresent (A : Table) (k n p) (h : A k = some p) : TStep A (.add k n) (.idx SIZE_MAX) A
  | set (A : Table) (k n v i vs) (h : A k = some (i, vs)) (hn : n < vs.length) :
      TStep A (.set k n v) (.idx i) (upd A k (some (i, vs.set n v)))
  | setOut (A : Table) (k n v) (h : ∀ i vs, A k = some (i, vs) → vs.length ≤ n) :
      TStep A (.set k n v) (.idx SIZE_MAX) A
  | get (A : Table) (k n i vs) (h : A k = some (i, vs)) (hn : n < vs.length) :
      TStep A (.get k n) (.item vs[n]) A
  | getOut (A : Table) (k n) (h : ∀ i vs, A k = some (i, vs) → vs.length ≤ n) :
      TStep A (.get k n) (.item ITEM_MAX) A
  | amount (A : Table) (k i vs) (h : A k = some (i, vs)) : TStep A (.amount k) (.idx vs.length) A
  | amountAbsent (A : Table) (k) (h : A k = none) : TStep A (.amount k) (.idx 0) A
  | index (A : Table) (k i vs) (h : A k = some (i, vs)) : TStep A (.index k) (.idx i) A
  | indexAbsent (A : Table) (k) (h : A k = none) : TStep A (.index k) (.idx SIZE_MAX) A
  | remove (A : Table) (k p) (h : A k = some p) : TStep A (.remove k) (.code 0) (upd A k none)
  | removeAbsent (A : Table) (k) (h : A k = none) : TStep A (.remove k) (.code (-1)) A
  | setAt (A : Table) (k n v i vs) (h : A k = some (i, vs)) (hn : n < vs.length) :
      TStep A (.setAt k n v) (.code 0) (upd A k (some (i, vs.set n v)))
  | setAtOut (A : Table) (k n v i vs) (h : A k = some (i, vs)) (hn : vs.length ≤ n) :
      TStep A (.setAt k n v) (.code (-1)) A
  | getAt (A : Table) (k n i vs) (h : A k = some (i, vs)) (hn : n < vs.length) :
      TStep A (.getAt k n) (.item vs[n]) A
  | getAtOut (A : Table) (k n i vs) (h : A k = some (i, vs)) (hn : vs.length ≤ n) :
      TStep A (.getAt k n) (.item ITEM_MAX) A
  | keyAt (A : Table) (k p) (h : A k = some p) : TStep A (.keyAt k) (.item k) A
  | removeAt (A : Table) (k p) (h : A k = some p) : TStep A (.removeAt k) (.code 0) (upd A k none)
  | skipped (A : Table) (op) (hk : A op.key = none)
      (ho : (∃ k n v, op = .setAt k n v) ∨ (∃ k n, op = .getAt k n) ∨ (∃ k, op = .keyAt k) ∨
        ∃ k, op = .removeAt k) : TStep A op .skipped A

/-- The map meaning of a history. -/
inductive TRun : Table → List Op → List Res → Table → Prop
  | nil (A) : TRun A [] [] A
  | cons {A op r A' ops rs A''} (h : TStep A op r A') (t : TRun A' ops rs A'') :
      TRun A (op :: ops) (r :: rs) A''

/-- Number of cells a call may add. -/
def Op.cost : Op → Nat
  | .add _ n => 3 + n
  | _ => 0

end RuC.Hash
