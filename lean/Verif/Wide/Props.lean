import Verif.Wide.Model
import Verif.Hash.Props
import Verif.Item.Props

/-!
# The property of values of 64 bits in records

What a table of records is, and what `hash_set` does to it, is in `Verif/Hash` (C05, C06).
-/

namespace RuC.Wide.Props
open RuC RuC.Hash

/-- Where a value of a record lies. -/
theorem record_fits {s A R} (h : Rep s A R) {k : Int} (hk : k ≠ ITEM_MAX) {i : Nat} (hi : getIndex s.hs k = some i) {n : Nat} (hn : n < amountAt s.hs i) :
    i + 3 + n < s.hs.length ∧ s.hs.length < 1152921504606846976 ∧ ∃ vs, A k = some (i, vs) := by
  have hp : i ≠ SIZE_MAX := by
    intro e; rw [e, amountAt_sizeMax] at hn; omega
  cases hA : A k with
  | none => rw [h.absent hk hA] at hi; cases hi; exact absurd rfl hp
  | some p =>
    obtain ⟨j, vs⟩ := p
    have ho := rep_observe h hA
    rw [hi] at ho
    obtain ⟨e, _, _, _, ha, _⟩ := ho
    cases e
    obtain ⟨_, P, r, S, h1, h2, h3, h4, h5⟩ := h.split hA
    have hsm := h.wf.small
    subst h1
    have htl := total_cons_le P S r
    rw [h.hs, render_length]
    rw [ha, h4] at hn
    exact ⟨by omega, hsm, vs, rfl⟩

theorem drop_restore (hs : List Int) (i : Nat) (v : Int) (hi : i < hs.length) (hv : IsItem v) (e : hs[i]? = some v) :
    Item.restoreInt64 .int64 (hs.drop i) = some v := by
  have h1 := (Item.item_int64_round_trip_64_partial (fun _ _ => some 0) .int64 rfl (by simp) v hv).2.1
  rw [List.getElem?_eq_getElem hi, Option.some.injEq] at e
  rw [List.drop_eq_getElem_cons hi, e]
  exact h1

/-- C101: in every table made by calls, if the record of the key has the place, then `hash_set_int64` and `hash_set_double` store the value as `hash_set` stores it and answer the index of the record, and `hash_get_int64` and `hash_get_double` give it back (for a `double` all patterns of bits but one, a NaN).  Partial: the machine has to give some value for a shift by 64 places, by the C standard nothing is known after it (`C101_undefined_shift`). -/
theorem C101_stored_partial (ub : Nat → Nat → Option Nat) (hub : ∀ w s, ub w s ≠ none) (ops : List Op) (hk : ∀ op ∈ ops, op.key ≠ ITEM_MAX)
    (hc : 256 + (ops.map Op.cost).sum < 1152921504606846976) (rs : List Res) (s : St) (hr : run St.init ops = some (rs, s))
    (k : Int) (hkm : k ≠ ITEM_MAX) (i n : Nat) (hi : getIndex s.hs k = some i) (hn : n < amountAt s.hs i) (v : Int) (hv : IsItem v) :
    ∃ hs', hashSet s.hs k n v = some (i, hs') ∧ hashSetInt64 ub s.hs k n v = some (i, hs') ∧ hashSetDouble ub s.hs k n v = some (i, hs') ∧
      hashGetInt64 hs' k n = some v ∧ hashGetDouble hs' k n = some (if v = ITEM_MAX then Item.DBL_MAX_BITS else v) := by
  obtain ⟨_, _, A, R, e1, _, h⟩ := rep_run rep_init ops hk (by simpa [total] using hc)
  rw [hr] at e1; cases e1
  obtain ⟨hf, hl, vs, hA⟩ := record_fits h hkm hi hn
  obtain ⟨_, P, r, S, h1, h2, h3, h4, h5⟩ := h.split hA
  have hsm := h.wf.small
  subst h1
  have ham := amountAt_render hsm
  have hset := setAt_render hsm n v
  rw [← h.hs, ← h3] at ham hset
  rw [ham] at hn
  rw [if_pos hn] at hset
  have hrep := rep_vals h (by rw [h2]; exact hkm) n v
  have hA' := rep_observe hrep (show upd A r.key (some (256 + total P, r.vals.set n v)) k = some (i, r.vals.set n v) by
    simp [upd, h2, h3])
  obtain ⟨g1, _, _, _, g5, g6⟩ := hA'
  simp only at g1 g5 g6
  have hset2 : setAt s.hs i n v = (0, s.hs.set (i + 3 + n) v) := by
    unfold setAt vsetCode vset
    rw [ham, if_pos hn, usz_of_lt (by omega), if_pos hf]
  have heq : render (P ++ { r with vals := r.vals.set n v } :: S) = s.hs.set (i + 3 + n) v := by
    rw [hset2] at hset; exact (Prod.mk.inj hset).2.symm
  rw [heq] at g1 g5
  have hst := (Item.item_int64_round_trip_64_partial ub .int64 rfl hub v hv).1
  have hv1 : vsetWide ub s.hs (i + 3 + n) v = some (1, s.hs.set (i + 3 + n) v) := by
    unfold vsetWide
    rw [usz_of_lt (by omega), if_neg (by omega), if_pos hf, hst]
  have hw : setWideAt ub s.hs i n v = some (1, s.hs.set (i + 3 + n) v) := by
    unfold setWideAt
    rw [usz_of_lt (by omega), usz_of_lt (by omega), ham, if_pos (by omega), hv1]
  have hres := drop_restore (s.hs.set (i + 3 + n) v) (i + 3 + n) v (by simpa using hf) hv (by simp [hf])
  have hamt : amountAt (s.hs.set (i + 3 + n) v) i = r.vals.length := by rw [g5]; simp
  have hu1 : usz (n + 1) = n + 1 := usz_of_lt (by omega)
  have hu2 : usz (i + 3 + n) = i + 3 + n := usz_of_lt (by omega)
  have hu3 : usz (i + 3 + n + 1) = i + 3 + n + 1 := usz_of_lt (by omega)
  refine ⟨s.hs.set (i + 3 + n) v, ?_, ?_, ?_, ?_, ?_⟩
  · simp [hashSet, hi, hset2]
  · simp [hashSetInt64, hi, hw]
  · simp [hashSetDouble, hi, hw]
  · simp only [hashGetInt64, g1, Option.bind_some, getInt64At, vgetInt64, hamt]
    rw [hu1, hu2, hu3, if_pos (by omega), if_neg (by simp; omega), hres]
  · simp only [hashGetDouble, g1, Option.bind_some, getDoubleAt, vgetDouble, hamt]
    rw [hu1, hu2, hu3, if_pos (by omega), if_neg (by simp; omega)]
    unfold Item.restoreDouble
    rw [hres]
    simp only
    split <;> rfl

/-- C101: if the record of the key has no such place, nothing is stored. -/
theorem C101_refused (ub : Nat → Nat → Option Nat) (hs : List Int) (k : Int) (i n : Nat) (hi : getIndex hs k = some i)
    (hn : amountAt hs i ≤ n) (hm : n < SIZE_MAX) (v : Int) :
    (hashSetInt64 ub hs k n v).map Prod.snd = some hs ∧ (hashSetDouble ub hs k n v).map Prod.snd = some hs ∧
      hashGetInt64 hs k n = some ITEM_MAX ∧ hashGetDouble hs k n = some Item.DBL_MAX_BITS := by
  unfold SIZE_MAX at hm
  have h1 : usz (n + 1) = n + 1 := usz_of_lt (by omega)
  have hw : setWideAt ub hs i n v = some (SIZE_MAX, hs) := by
    unfold setWideAt; rw [h1, if_neg (by omega)]
  refine ⟨by simp [hashSetInt64, hi, hw], by simp [hashSetDouble, hi, hw], ?_, ?_⟩
  · simp only [hashGetInt64, hi, Option.bind_some, getInt64At]; rw [h1, if_neg (by omega)]
  · simp only [hashGetDouble, hi, Option.bind_some, getDoubleAt]; rw [h1, if_neg (by omega)]

/-- The machine shifts by the lowest six bits of the number of places. -/
def x86 : Nat → Nat → Option Nat := fun w s => some ((w <<< (s % 64)) % 18446744073709551616)

example : (∀ w s, x86 w s ≠ none) ∧ (run St.init [.add 1 2, .add 257 1]).map (fun p => (getIndex p.2.hs 257, amountAt p.2.hs 261)) = some (some 261, 1) ∧
    ((run St.init [.add 1 2, .add 257 1]).bind fun p => (hashSetInt64 x86 p.2.hs 257 0 (-7)).bind fun q => hashGetInt64 q.2 257 0) = some (-7) := by
  refine ⟨by simp [x86], ?_, ?_⟩ <;> decide +kernel

/-- What is not so: when nothing is stored, the answer is the index of the record all the same, not `SIZE_MAX` as for `hash_set`. -/
theorem C101_refusal_not_told : (run St.init [.add 1 2]).map (fun p =>
      ((hashSet p.2.hs 1 2 5).map Prod.fst, (hashSetInt64 x86 p.2.hs 1 2 5).map Prod.fst, (hashSetDouble x86 p.2.hs 1 2 5).map Prod.fst,
        hashGetInt64 p.2.hs 1 2)) =
    some (some SIZE_MAX, some 256, some 256, some ITEM_MAX) := by
  decide +kernel

/-- What is not so: the number `SIZE_MAX` passes the check, for 1 is added to it, and the amount of the record is written over. -/
theorem C101_amount_overwritten : ((run St.init [.add 1 2]).bind fun p => (hashSetInt64 x86 p.2.hs 1 SIZE_MAX 9).map fun q => (amountAt p.2.hs 256, amountAt q.2 256)) =
    some (2, 9) := by
  decide +kernel

/-- What is not so: by the C standard nothing is known after storing a value, for it shifts by the whole width. -/
theorem C101_undefined_shift : ((run St.init [.add 1 2]).bind fun p => hashSetInt64 Item.strict p.2.hs 1 0 9) = none := by
  decide +kernel

end RuC.Wide.Props
