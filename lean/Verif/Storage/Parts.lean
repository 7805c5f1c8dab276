import Verif.Storage.Spec
import Verif.Map.Refine
import Verif.Hash.Refine
import Verif.Strings.Refine

/-! The calls of the three containers, as the storage uses them. -/

namespace RuC.Storage
open RuC

/-! ## The map -/

section
open Map
variable {m : Map.Map} {K : Nat → Option (List Nat)} {A : Table} {a : KeyArg} {k : List Nat}

theorem mapAdd_spec (v : Int) (h : Inv m K) (ha : Abs m K A) (hd : Denotes a k)
    (hs : m.keysSize + m.values.length + (4 * a.size + 9) < 1152921504606846976) :
    (∃ i w m', A k = some (i, w) ∧ mapAdd m a v = some (if v = ITEM_MAX then i else SIZE_MAX, m') ∧
      Inv m' K ∧ Abs m' K A ∧ m'.keysSize = m.keysSize ∧ m'.values = m.values) ∨
    (A k = none ∧ ∃ n m', Free A n ∧ n ≠ SIZE_MAX ∧ mapAdd m a v = some (n, m') ∧
      Inv m' (setKey K n k) ∧ Abs m' (setKey K n k) (A.upd k (n, v)) ∧
      m'.keysSize + m'.values.length ≤ m.keysSize + m.values.length + (4 * a.size + 9) ∧
      ((K (keyHash k) = none ∧ n = keyHash k ∧ m'.values.length = m.values.length) ∨
        (K (keyHash k) ≠ none ∧ n = m.values.length ∧ m'.values.length = m.values.length + 1))) := by
  have hsz := denotes_size hd
  rcases getHash_ready true h ha hd (denotes_valid hd) hs with ⟨m1, e1, i1, a1, r1, s1, v1⟩ | ⟨e0, _⟩
  · rcases add_place v true i1 a1 r1 (by rw [v1]; omega) with
      ⟨i, w, hA, f⟩ | ⟨_, f0, _⟩ | ⟨hA, n, m', hf, hn, f, i2, a2, z1, z2, z3⟩
    · exact .inl ⟨i, w, m1, hA, by simp only [mapAdd, e1, f], i1, a1, s1, v1⟩
    · cases f0
    · refine .inr ⟨hA, n, m', hf, hn, by simp only [mapAdd, e1, f], i2, a2, ?_, ?_⟩
      · rw [v1] at z2; rw [z1, s1]; omega
      · rw [v1] at z3; exact z3
  · cases e0

theorem mapIndex_spec (h : Inv m K) (ha : Abs m K A) (hd : Denotes a k)
    (hs : m.keysSize + m.values.length + (4 * a.size + 9) < 1152921504606846976) :
    ∃ n m', mapIndex m a = some (n, m') ∧ Inv m' K ∧ Abs m' K A ∧ m'.keysSize = m.keysSize ∧
      m'.values = m.values ∧ ((∃ w, A k = some (n, w)) ∨ (A k = none ∧ n = SIZE_MAX)) := by
  rcases getHash_ready true h ha hd (denotes_valid hd) hs with ⟨m1, e1, i1, a1, r1, s1, v1⟩ | ⟨e0, _⟩
  · rcases getIndex_spec i1 r1 with ⟨i, hk, f⟩ | ⟨hk, f⟩
    · obtain ⟨r, w, g1, g2, g3⟩ := present_some i1 a1 hk
      exact ⟨i, m1, by simp only [mapIndex, e1, f, Option.map_some], i1, a1, s1, v1, .inl ⟨w, g3⟩⟩
    · exact ⟨SIZE_MAX, m1, by simp only [mapIndex, e1, f, Option.map_some], i1, a1, s1, v1,
        .inr ⟨absent_none a1 hk, rfl⟩⟩
  · cases e0

theorem mapGet_spec (h : Inv m K) (ha : Abs m K A) (hd : Denotes a k)
    (hs : m.keysSize + m.values.length + (4 * a.size + 9) < 1152921504606846976) :
    ∃ v m', mapGet m a = some (v, m') ∧ Inv m' K ∧ Abs m' K A ∧ m'.keysSize = m.keysSize ∧
      m'.values = m.values ∧ ((∃ n, A k = some (n, v)) ∨ (A k = none ∧ v = ITEM_MAX)) := by
  rcases getHash_ready true h ha hd (denotes_valid hd) hs with ⟨m1, e1, i1, a1, r1, s1, v1⟩ | ⟨e0, _⟩
  · rcases getIndex_spec i1 r1 with ⟨i, hk, f⟩ | ⟨hk, f⟩
    · obtain ⟨r, w, g1, g2, g3⟩ := present_some i1 a1 hk
      have hne := index_not_max i1 hk (by rw [v1]; omega)
      exact ⟨w, m1, by simp only [mapGet, e1, getByHash, f, if_neg hne, g1, g2, Option.map_some], i1, a1, s1,
        v1, .inl ⟨i, g3⟩⟩
    · exact ⟨ITEM_MAX, m1, by simp only [mapGet, e1, getByHash, f, if_pos, Option.map_some], i1, a1, s1, v1,
        .inr ⟨absent_none a1 hk, rfl⟩⟩
  · cases e0

theorem used_ref {i : Nat} {w : Int} (h : Inv m K) (ha : Abs m K A) (hA : A k = some (i, w))
    (hs : m.keysSize < 1152921504606846976) :
    ∃ r, m.values[i]? = some r ∧ r.ref ≠ SIZE_MAX ∧ r.value = some w ∧ K i = some k ∧
      i < m.values.length := by
  obtain ⟨hk, r, g1, g2⟩ := (ha k i w).1 hA
  obtain ⟨_, r', u1, u2, _⟩ := h.used i k hk
  rw [g1] at u1
  cases u1
  exact ⟨r, g1, by unfold SIZE_MAX; omega, g2, hk, (List.getElem?_eq_some_iff.1 g1).1⟩

theorem mapSetAt_spec {i : Nat} {w : Int} (v : Int) (h : Inv m K) (ha : Abs m K A)
    (hA : A k = some (i, w)) (hs : m.keysSize < 1152921504606846976) :
    Inv (setByIndex m i v).2 K ∧ Abs (setByIndex m i v).2 K (A.upd k (i, v)) ∧
      (setByIndex m i v).2.keysSize = m.keysSize ∧
      (setByIndex m i v).2.values.length = m.values.length := by
  obtain ⟨r, g1, g2, _, hk, _⟩ := used_ref h ha hA hs
  have : (setByIndex m i v).2 = { m with values := m.values.set i { r with value := some v } } := by
    simp only [setByIndex, g1, if_neg g2]
  rw [this]
  exact ⟨inv_setValue h g1, abs_setValue h ha hk g1, rfl, by simp⟩

theorem mapGetAt_spec {i : Nat} {w : Int} (h : Inv m K) (ha : Abs m K A)
    (hA : A k = some (i, w)) (hs : m.keysSize < 1152921504606846976) : getByIndex m i = some w := by
  obtain ⟨r, g1, g2, g3, _⟩ := used_ref h ha hA hs
  simp only [getByIndex, g1, if_neg g2, g3]

theorem mapGetAt_max (hs : m.values.length < 1152921504606846976) :
    getByIndex m SIZE_MAX = some ITEM_MAX := by
  have : m.values[SIZE_MAX]? = none := by
    rw [List.getElem?_eq_none]; unfold SIZE_MAX; omega
  simp only [getByIndex, this]

/-- Two keys have different indices. -/
theorem abs_distinct (ha : Abs m K A) {k k' : List Nat} {i : Nat} {v v' : Int} (h : A k = some (i, v))
    (h' : A k' = some (i, v')) : k = k' := by
  have h1 := ((ha k i v).1 h).1
  have h2 := ((ha k' i v').1 h').1
  rw [h1] at h2
  cases h2
  rfl

end

/-! ## The hash table -/

section
open Hash
variable {hs : List Int} {held : Int → Option Nat} {B : Table} {R : List Rec} {i : Int}

theorem hashAdd_new (n : Nat) (h : Rep ⟨hs, held⟩ B R) (hi : i ≠ ITEM_MAX) (hB : B i = none)
    (hc : 256 + total R + (3 + n) < 1152921504606846976) :
    ∃ j hs' held' R', hashAdd hs i n = some (j, hs') ∧ j ≠ SIZE_MAX ∧
      Rep ⟨hs', held'⟩ (upd B i (some (j, List.replicate n 0))) R' ∧ total R' ≤ total R + (3 + n) := by
  obtain ⟨r, s', A', R', e, t, rr, tt⟩ := rep_step h (.add i n) hi (by simpa [Hash.Op.cost] using hc)
  cases t with
  | add _ _ j _ hj _ =>
    simp only [Hash.step] at e
    cases e2 : hashAdd hs i n with
    | none => rw [e2] at e; cases e
    | some p =>
      rw [e2] at e
      simp only [Option.some.injEq, Prod.mk.injEq, Res.idx.injEq] at e
      obtain ⟨rfl, rfl⟩ := e
      exact ⟨p.1, p.2, _, R', rfl, hj, rr, by simpa [Hash.Op.cost] using tt⟩
  | addPresent _ _ p hp => exact absurd (hB.symm.trans hp) (by simp)
  | skipped _ hk ho => rcases ho with ⟨_, _, _, h⟩ | ⟨_, _, h⟩ | ⟨_, h⟩ | ⟨_, h⟩ <;> cases h

theorem hashAdd_present (n : Nat) (h : Rep ⟨hs, held⟩ B R) (hi : i ≠ ITEM_MAX) {p} (hB : B i = some p)
    (hc : 256 + total R + (3 + n) < 1152921504606846976) :
    ∃ hs' held' R', hashAdd hs i n = some (SIZE_MAX, hs') ∧ Rep ⟨hs', held'⟩ B R' ∧
      total R' ≤ total R + (3 + n) := by
  obtain ⟨r, s', A', R', e, t, rr, tt⟩ := rep_step h (.add i n) hi (by simpa [Hash.Op.cost] using hc)
  cases t with
  | add _ _ j h' hj _ => exact absurd (hB.symm.trans h') (by simp)
  | addPresent _ _ p hp =>
    simp only [Hash.step] at e
    cases e2 : hashAdd hs i n with
    | none => rw [e2] at e; cases e
    | some q =>
      rw [e2] at e
      simp only [Option.some.injEq, Prod.mk.injEq, Res.idx.injEq] at e
      obtain ⟨e1, rfl⟩ := e
      exact ⟨q.2, _, R', by rw [← e1], rr, by simpa [Hash.Op.cost] using tt⟩
  | skipped _ hk ho => rcases ho with ⟨_, _, _, h⟩ | ⟨_, _, h⟩ | ⟨_, h⟩ | ⟨_, h⟩ <;> cases h

theorem hashSetAt {j : Nat} {vs : List Int} (n : Nat) (v : Int) (h : Rep ⟨hs, held⟩ B R) (hi : i ≠ ITEM_MAX)
    (hB : B i = some (j, vs)) (hn : n < vs.length) (hc : 256 + total R < 1152921504606846976) :
    ∃ R', Rep ⟨(setAt hs j n v).2, held⟩ (upd B i (some (j, vs.set n v))) R' ∧ total R' ≤ total R := by
  obtain ⟨r, s', A', R', e, t, rr, tt⟩ := rep_step h (.setAt i n v) hi (by simpa [Hash.Op.cost] using hc)
  have hh : held i = some j := by have := h.held i; rw [hB] at this; exact this
  simp only [Hash.step, hh, Option.some.injEq, Prod.mk.injEq] at e
  obtain ⟨e1, rfl⟩ := e
  cases t with
  | setAt _ _ _ j' vs' h' hn' =>
    rw [hB] at h'; cases h'
    exact ⟨R', rr, by simpa [Hash.Op.cost] using tt⟩
  | setAtOut _ _ _ j' vs' h' hn' => rw [hB] at h'; cases h'; omega
  | skipped _ hk ho => simp only [Hash.Op.key, hB] at hk; cases hk

theorem hashRemoveAt {j : Nat} {vs : List Int} (h : Rep ⟨hs, held⟩ B R) (hi : i ≠ ITEM_MAX)
    (hB : B i = some (j, vs)) (hc : 256 + total R < 1152921504606846976) :
    ∃ held' R', Rep ⟨(removeAt hs j).2, held'⟩ (upd B i none) R' ∧ total R' ≤ total R := by
  obtain ⟨r, s', A', R', e, t, rr, tt⟩ := rep_step h (.removeAt i) hi (by simpa [Hash.Op.cost] using hc)
  have hh : held i = some j := by have := h.held i; rw [hB] at this; exact this
  simp only [Hash.step, hh, Option.some.injEq, Prod.mk.injEq] at e
  obtain ⟨e1, rfl⟩ := e
  cases t with
  | removeAt _ p h' => exact ⟨_, R', rr, by simpa [Hash.Op.cost] using tt⟩
  | skipped _ hk ho => simp only [Hash.Op.key, hB] at hk; cases hk

theorem setAt_max (hs : List Int) (n : Nat) (v : Int) : (setAt hs SIZE_MAX n v).2 = hs := by
  unfold setAt
  rw [amountAt_sizeMax, if_neg (by omega)]

/-- A live index lies behind the heads of the chains. -/
theorem live_index {j : Nat} {vs : List Int} (h : Rep ⟨hs, held⟩ B R) (hB : B i = some (j, vs)) :
    256 ≤ j ∧ j < 256 + total R := by
  obtain ⟨_, P, r, S, h1, h2, h3, h4, h5⟩ := h.split hB
  have := total_cons_le P S r
  rw [h1, h3]
  simp only [total_append, total, Rec.sz] at this ⊢
  omega

end

/-! ## The strings -/

section
open Strings
variable {s : Strs} {L : List (List Nat)}

theorem strAdd (t : List Nat) (h : Inv s L true) (h0 : 0 ∉ t) (hne : t ≠ [])
    (hs : s.size + (4 * t.length + 9) < 1152921504606846976) (hc : s.count < 1152921504606846976) :
    ∃ s', stringsAdd s t (fun _ => true) (fun _ => true) = some (L.length, s') ∧ Inv s' (L ++ [t]) true ∧
      s'.size ≤ s.size + (4 * t.length + 9) ∧ s'.count ≤ s.count + (4 * t.length + 9) := by
  obtain ⟨r, s', A, e, t', i, z1, z2⟩ := step_refines h (.add t (fun _ => true) (fun _ => true))
    ⟨t, .add _ _ _ h0⟩ hs hc
  simp only [Strings.step] at e
  cases e2 : stringsAdd s t (fun _ => true) (fun _ => true) with
  | none => rw [e2] at e; cases e
  | some q =>
    rw [e2] at e
    simp only [Option.map_some, Option.some.injEq, Prod.mk.injEq] at e
    obtain ⟨e1, rfl⟩ := e
    cases t' with
    | add _ _ h' _ =>
      cases h'
      simp only [Res.idx.injEq] at e1
      exact ⟨q.2, by rw [← e1], i, z1, z2⟩
    | addEmpty _ _ h' => cases h'; exact absurd rfl hne
    | refused _ _ h' => obtain ⟨n, h' | h'⟩ := h' <;> cases h'

theorem strRemove (h : Inv s L true) (hs : s.size < 1152921504606846976)
    (hc : s.count < 1152921504606846976) :
    ∃ t s', stringsRemove s = some (t, s') ∧ Inv s' L.dropLast true ∧ s'.size ≤ s.size ∧
      s'.count ≤ s.count := by
  obtain ⟨r, s', A, e, t', i, z1, z2⟩ := step_refines h .remove trivial (by simpa [Strings.Op.cost] using hs) hc
  simp only [Strings.step] at e
  cases e2 : stringsRemove s with
  | none => rw [e2] at e; cases e
  | some q =>
    rw [e2] at e
    simp only [Option.map_some, Option.some.injEq, Prod.mk.injEq] at e
    obtain ⟨e1, rfl⟩ := e
    cases t' with
    | remove => exact ⟨q.1, q.2, rfl, i, by simpa [Strings.Op.cost] using z1, by simpa [Strings.Op.cost] using z2⟩
    | addEmpty _ _ h' => cases h'
    | refused _ _ h' => cases h'
    | add _ _ h' _ => cases h'

theorem strGet (n : Nat) (h : Inv s L true) (hs : s.size < 1152921504606846976)
    (hc : s.count < 1152921504606846976) : stringsGet s n = some L[n]? := by
  obtain ⟨r, s', A, e, t', i, z1, z2⟩ := step_refines h (.get n) trivial (by simpa [Strings.Op.cost] using hs) hc
  simp only [Strings.step] at e
  cases e2 : stringsGet s n with
  | none => rw [e2] at e; cases e
  | some q =>
    rw [e2] at e
    simp only [Option.map_some, Option.some.injEq, Prod.mk.injEq] at e
    obtain ⟨e1, rfl⟩ := e
    cases t' with
    | get => simp only [Res.text.injEq] at e1; rw [e1]
    | addEmpty _ _ h' => cases h'
    | refused _ _ h' => cases h'
    | add _ _ h' _ => cases h'

theorem strAdd_empty (s : Strs) (a b : Nat → Bool) : stringsAdd s [] a b = some (SIZE_MAX, s) := by
  simp only [stringsAdd, if_true]

end

end RuC.Storage
