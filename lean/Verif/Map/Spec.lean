import Verif.Map.Model
import Verif.Utf8.Spec

/-!
# What a map is supposed to be

A finite map from key texts to an index and a value.  A key text is a non-empty sequence of code
points, none of them zero, each one that `utf8_to_string` can write (`Utf8.Good`, see C13).
-/

namespace RuC.Map
open RuC Utf8

/-- A key text. -/
def ValidKey (ks : List Nat) : Prop := ks ≠ [] ∧ ∀ c ∈ ks, c ≠ 0 ∧ Good c

instance (ks : List Nat) : Decidable (ValidKey ks) := by unfold ValidKey; infer_instance

/-- The octets of a text. -/
def octets (ks : List Nat) : List Nat := ks.flatMap encode

/-- What a key argument says: a C string its UTF-8 contents, a `char32_t` string its contents, an
input the longest prefix of letters and digits after a first letter or `#`. -/
inductive Denotes : KeyArg → List Nat → Prop
  | str (ks) (hv : ValidKey ks) : Denotes (.str (octets ks ++ [0])) ks
  | utf8 (ks) (hv : ValidKey ks) : Denotes (.utf8 (ks ++ [0])) ks
  | io (c ks tail) (hc : isLetter c = true ∨ c = 35) (hk : ∀ x ∈ ks, isLetter x = true ∨ isDigit x = true)
      (ht : ∀ x, tail.head? = some x → isLetter x = false ∧ isDigit x = false) :
      Denotes (.io (c :: ks ++ tail)) (c :: ks)

/-- The abstract map: for each key its index and its value. -/
abbrev Table := List Nat → Option (Nat × Int)

/-- Change one key. -/
def Table.upd (A : Table) (k : List Nat) (v : Nat × Int) : Table := fun k' => if k' = k then some v else A k'

/-- The index `i` is not in use. -/
def Free (A : Table) (i : Nat) : Prop := ∀ k j v, A k = some (j, v) → j ≠ i

/-- The map meaning of one call.  The `refused` rules need a refusing allocator. -/
inductive TStep : Table → Op → Res → Table → Prop
  | reserveNew (A : Table) (a k ok okv i) (hd : Denotes a k) (h : A k = none) (hi : i ≠ SIZE_MAX)
      (hf : Free A i) : TStep A (.reserve a ok okv) (.idx i) (A.upd k (i, ITEM_MAX))
  | reserveOld (A : Table) (a k ok okv i v) (hd : Denotes a k) (h : A k = some (i, v)) :
      TStep A (.reserve a ok okv) (.idx i) A
  | reserveRefused (A : Table) (a ok okv) (hr : ok = false ∨ okv = false) :
      TStep A (.reserve a ok okv) (.idx SIZE_MAX) A
  | addNew (A : Table) (a k v ok okv i) (hd : Denotes a k) (h : A k = none) (hi : i ≠ SIZE_MAX)
      (hf : Free A i) : TStep A (.add a v ok okv) (.idx i) (A.upd k (i, v))
  | addOld (A : Table) (a k v ok okv i w) (hd : Denotes a k) (h : A k = some (i, w)) :
      TStep A (.add a v ok okv) (.idx (if v = ITEM_MAX then i else SIZE_MAX)) A
  | addRefused (A : Table) (a v ok okv) (hr : ok = false ∨ okv = false) :
      TStep A (.add a v ok okv) (.idx SIZE_MAX) A
  | set (A : Table) (a k v ok i w) (hd : Denotes a k) (h : A k = some (i, w)) :
      TStep A (.set a v ok) (.idx i) (A.upd k (i, v))
  | setAbsent (A : Table) (a k v ok) (hd : Denotes a k) (h : A k = none) :
      TStep A (.set a v ok) (.idx SIZE_MAX) A
  | setRefused (A : Table) (a v) : TStep A (.set a v false) (.idx SIZE_MAX) A
  | index (A : Table) (a k ok i w) (hd : Denotes a k) (h : A k = some (i, w)) :
      TStep A (.index a ok) (.idx i) A
  | indexAbsent (A : Table) (a k ok) (hd : Denotes a k) (h : A k = none) :
      TStep A (.index a ok) (.idx SIZE_MAX) A
  | indexRefused (A : Table) (a) : TStep A (.index a false) (.idx SIZE_MAX) A
  | get (A : Table) (a k ok i w) (hd : Denotes a k) (h : A k = some (i, w)) :
      TStep A (.get a ok) (.item w) A
  | getAbsent (A : Table) (a k ok) (hd : Denotes a k) (h : A k = none) :
      TStep A (.get a ok) (.item ITEM_MAX) A
  | getRefused (A : Table) (a) : TStep A (.get a false) (.item ITEM_MAX) A
  | setAt (A : Table) (k i v w) (h : A k = some (i, w)) :
      TStep A (.setAt i v) (.code 0) (A.upd k (i, v))
  | setAtFree (A : Table) (i v) (h : Free A i) : TStep A (.setAt i v) (.code (-1)) A
  | getAt (A : Table) (k i w) (h : A k = some (i, w)) : TStep A (.getAt i) (.item w) A
  | getAtFree (A : Table) (i) (h : Free A i) : TStep A (.getAt i) (.item ITEM_MAX) A
  | text (A : Table) (k i w) (h : A k = some (i, w)) : TStep A (.text i) (.str (some (octets k))) A
  | textFree (A : Table) (i) (h : Free A i) : TStep A (.text i) (.str none) A

/-- The map meaning of a history. -/
inductive TRun : Table → List Op → List Res → Table → Prop
  | nil (A) : TRun A [] [] A
  | cons {A op r A' ops rs A''} (h : TStep A op r A') (t : TRun A' ops rs A'') :
      TRun A (op :: ops) (r :: rs) A''

/-- The key argument of a call. -/
def Op.key? : Op → Option KeyArg
  | .reserve a _ _ | .add a _ _ _ | .set a _ _ | .index a _ | .get a _ => some a
  | _ => none

/-- Size of a key argument, in octets or code points. -/
def KeyArg.size : KeyArg → Nat
  | .str s | .utf8 s | .io s => s.length

/-- Room a call may need. -/
def Op.cost (op : Op) : Nat :=
  match op.key? with
  | some a => 4 * a.size + 9
  | none => 0

/-- Every key argument says a key text. -/
def Op.Valid (op : Op) : Prop := ∀ a, op.key? = some a → ∃ k, Denotes a k

/-- The call may change the value stored for key `k` held at index `i`. -/
def Op.Writes (op : Op) (k : List Nat) (i : Nat) : Prop :=
  (∃ a v ok, op = .set a v ok ∧ Denotes a k) ∨ ∃ v, op = .setAt i v

/-- The allocator refuses nothing to this call. -/
def Op.Granted : Op → Prop
  | .reserve _ b c | .add _ _ b c => b = true ∧ c = true
  | .set _ _ b | .index _ b | .get _ b => b = true
  | _ => True

/-- The call may insert a key: its text is not in the table. -/
def Op.Inserts (op : Op) (A : Table) : Prop :=
  ∃ a k, A k = none ∧ Denotes a k ∧ ((∃ b c, op = .reserve a b c) ∨ ∃ v b c, op = .add a v b c)

/-- No two keys share an index. -/
def Table.Distinct (A : Table) : Prop :=
  ∀ k k' i v v', A k = some (i, v) → A k' = some (i, v') → k = k'

end RuC.Map
