import Verif.Map.Lemmas

/-! The record chains and the refinement to the abstract map. -/

namespace RuC.Map
open RuC Utf8

/-! ### Chains -/

def nextOf (vals : List Rec) (x : Nat) : Option Nat := vals[x]?.map (·.next)

/-- The records `x :: L` are linked one after the other, and the last has no successor. -/
def Chain (vals : List Rec) : List Nat → Prop
  | [] => False
  | [x] => nextOf vals x = some SIZE_MAX
  | x :: y :: L => nextOf vals x = some y ∧ y ≠ SIZE_MAX ∧ Chain vals (y :: L)

theorem chain_congr {vals vals' : List Rec} {L : List Nat} (h : ∀ x ∈ L, nextOf vals' x = nextOf vals x)
    (hc : Chain vals L) : Chain vals' L := by
  induction L with
  | nil => exact hc
  | cons x L ih =>
    cases L with
    | nil => simp only [Chain] at hc ⊢; rw [h x (by simp)]; exact hc
    | cons y L =>
      simp only [Chain] at hc ⊢
      exact ⟨by rw [h x (by simp)]; exact hc.1, hc.2.1, ih (fun z hz => h z (by simp [hz])) hc.2.2⟩

theorem chain_last {vals : List Rec} {L : List Nat} {i : Nat} (hc : Chain vals L) (hi : i ∈ L)
    (hn : nextOf vals i = some SIZE_MAX) : ∃ pre, L = pre ++ [i] := by
  induction L with
  | nil => simp at hi
  | cons x L ih =>
    cases L with
    | nil =>
      simp only [List.mem_singleton] at hi
      exact ⟨[], by simp [hi]⟩
    | cons y L =>
      simp only [Chain] at hc
      rcases List.mem_cons.1 hi with rfl | hi
      · rw [hn] at hc
        exact absurd (Option.some.inj hc.1).symm hc.2.1
      · obtain ⟨pre, e⟩ := ih hc.2.2 hi
        exact ⟨x :: pre, by rw [e]; rfl⟩

theorem chain_snoc {vals vals' : List Rec} {pre : List Nat} {i n : Nat} (hc : Chain vals (pre ++ [i]))
    (hp : ∀ x ∈ pre, nextOf vals' x = nextOf vals x) (hi : nextOf vals' i = some n) (hn : n ≠ SIZE_MAX)
    (hl : nextOf vals' n = some SIZE_MAX) : Chain vals' (pre ++ [i, n]) := by
  induction pre with
  | nil => exact ⟨hi, hn, hl⟩
  | cons x pre ih =>
    cases pre with
    | nil =>
      simp only [List.cons_append, List.nil_append, Chain] at hc ⊢
      exact ⟨by rw [hp x (by simp)]; exact hc.1, hc.2.1, hi, hn, hl⟩
    | cons y pre =>
      simp only [List.cons_append, Chain] at hc ⊢
      exact ⟨by rw [hp x (by simp)]; exact hc.1, hc.2.1, ih hc.2.2 (fun z hz => hp z (by simp [hz]))⟩

/-! ### The invariant -/

/-- `K i` is the key of record `i`. -/
structure Inv (m : Map) (K : Nat → Option (List Nat)) : Prop where
  len : 256 ≤ m.values.length
  alloc : m.values.length ≤ m.valuesAlloc
  used : ∀ i ks, K i = some ks → ValidKey ks ∧ ∃ r, m.values[i]? = some r ∧
    r.ref + (octets ks).length + 1 ≤ m.keysSize ∧ BytesAt m.keys r.ref (octets ks ++ [0]) ∧
    ∃ v, r.value = some v
  free : ∀ i r, m.values[i]? = some r → K i = none → r.ref = SIZE_MAX ∧ r.next = SIZE_MAX ∧ i < 256
  inj : ∀ i j ks, K i = some ks → K j = some ks → i = j
  chain : ∀ b, b < 256 → K b ≠ none → ∃ L, Chain m.values (b :: L) ∧ (b :: L).Nodup ∧
    (b :: L).length ≤ m.values.length ∧ ∀ i, i ∈ b :: L ↔ ∃ ks, K i = some ks ∧ keyHash ks = b
  home : ∀ i ks, K i = some ks → K (keyHash ks) ≠ none
  block : 2048 ≤ m.keys.length
  blockMax : m.keys.length ≤ 2305843009213693952
  size : m.keysSize ≤ m.keys.length

/-- The abstract map. -/
def Abs (m : Map) (K : Nat → Option (List Nat)) (A : Table) : Prop :=
  ∀ k i v, A k = some (i, v) ↔ K i = some k ∧ ∃ r, m.values[i]? = some r ∧ r.value = some v

theorem Inv.ext {m m' : Map} {K : Nat → Option (List Nat)} (h : Inv m K) (he : Ext m.keysSize m m') :
    Inv m' K := by
  refine ⟨?_, ?_, ?_, ?_, h.inj, ?_, h.home, Nat.le_trans h.block he.len, he.max, ?_⟩
  · rw [he.values]; exact h.len
  · rw [he.values, he.alloc]; exact h.alloc
  · intro i ks hk
    obtain ⟨hv, r, h1, h2, h3, h4⟩ := h.used i ks hk
    refine ⟨hv, r, by rw [he.values]; exact h1, by rw [he.size]; exact h2, ?_, h4⟩
    exact bytesAt_mono h3 (by simp; omega) he.same
  · rw [he.values]; exact h.free
  · rw [he.values]; exact h.chain
  · rw [he.size]; exact Nat.le_trans h.size he.len

theorem Abs.ext {n : Nat} {m m' : Map} {K : Nat → Option (List Nat)} {A : Table} (h : Abs m K A)
    (he : Ext n m m') : Abs m' K A := by
  intro k i v
  rw [he.values]
  exact h k i v

theorem keyHash_lt (ks : List Nat) : keyHash ks < 256 := Nat.mod_lt _ (by decide)

/-! ### Looking for a key -/

/-- The text `k` stands behind the stored keys. -/
structure Ready (m : Map) (k : List Nat) : Prop where
  valid : ValidKey k
  next : m.keysNext = some (m.keysSize + (octets k).length)
  text : BytesAt m.keys m.keysSize (octets k ++ [0])
  room : m.keysSize + (octets k).length + 1 ≤ m.keys.length
  bound : m.keysSize + (octets k).length + 1 < 1152921504606846976

theorem cmpKey_spec {m : Map} {K : Nat → Option (List Nat)} {k ks : List Nat} {i : Nat} {r : Rec}
    (h : Inv m K) (hr : Ready m k) (hk : K i = some ks) (hv : m.values[i]? = some r) :
    cmpKey m r = some (decide (ks = k)) := by
  obtain ⟨hval, r', h1, h2, h3, _⟩ := h.used i ks hk
  rw [hv] at h1
  cases h1
  have := hr.room
  unfold cmpKey
  rw [strEq_spec (octets_zero hval.2) (octets_zero hr.valid.2) h3 hr.text (by omega)]
  congr 1
  by_cases he : ks = k
  · simp [he]
  · have : octets ks ≠ octets k := fun e => he (octets_inj hval.2 hr.valid.2 e)
    simp [he, this]

theorem walk_spec {m : Map} {K : Nat → Option (List Nat)} {k : List Nat} (h : Inv m K) (hr : Ready m k)
    {x : Nat} {L : List Nat} {fuel : Nat} (hc : Chain m.values (x :: L))
    (hu : ∀ i ∈ x :: L, K i ≠ none) (hf : (x :: L).length ≤ fuel) :
    ∃ res, walk m fuel x = some res ∧ (∀ i, res = .inl i → K i = some k) ∧
      ∀ i, res = .inr i → i ∈ x :: L ∧ nextOf m.values i = some SIZE_MAX ∧
        ∀ j ∈ x :: L, j ≠ i → K j ≠ some k := by
  induction L generalizing x fuel with
  | nil =>
    cases fuel with
    | zero => simp at hf
    | succ fuel =>
      simp only [Chain] at hc
      obtain ⟨r, e1, e2⟩ := Option.map_eq_some_iff.1 hc
      refine ⟨.inr x, ?_, by simp, ?_⟩
      · unfold walk
        simp [e1, e2]
      · intro i hi
        cases hi
        exact ⟨by simp, hc, by simp⟩
  | cons y L ih =>
    cases fuel with
    | zero => simp at hf
    | succ fuel =>
      simp only [Chain] at hc
      obtain ⟨r, e1, e2⟩ := Option.map_eq_some_iff.1 hc.1
      obtain ⟨ks, hks⟩ := Option.ne_none_iff_exists'.1 (hu x (by simp))
      have hcmp := cmpKey_spec h hr hks e1
      by_cases he : ks = k
      · refine ⟨.inl x, ?_, ?_, by simp⟩
        · unfold walk
          simp only [e1, e2, hc.2.1, hcmp, he, decide_true, ne_eq, not_false_eq_true, if_true]
        · intro i hi
          cases hi
          rw [hks, he]
      · obtain ⟨res, f1, f2, f3⟩ := ih (fuel := fuel) hc.2.2 (fun i hi => hu i (by simp [hi]))
          (by simp at hf ⊢; omega)
        refine ⟨res, ?_, f2, ?_⟩
        · unfold walk
          simp only [e1, e2, hc.2.1, hcmp, he, decide_false, ne_eq, not_false_eq_true, if_true]
          exact f1
        · intro i hi
          obtain ⟨g1, g2, g3⟩ := f3 i hi
          refine ⟨by simp [g1], g2, ?_⟩
          intro j hj hji
          rcases List.mem_cons.1 hj with rfl | hj
          · rw [hks]; intro e; exact he (Option.some.inj e)
          · exact g3 j hj hji

/-- Outcome of the search for the key `k`. -/
inductive Search (m : Map) (K : Nat → Option (List Nat)) (k : List Nat) : Prop
  | early (i : Nat) (hk : K i = some k) (hw : walk m (m.values.length + 1) (keyHash k) = some (.inl i))
  | last (i : Nat) (r : Rec) (hk : K i = some k) (hv : m.values[i]? = some r) (hr : r.ref ≠ SIZE_MAX)
      (hc : cmpKey m r = some true) (hw : walk m (m.values.length + 1) (keyHash k) = some (.inr i))
  | bucket (r : Rec) (ha : ∀ i, K i ≠ some k) (hb : K (keyHash k) = none)
      (hv : m.values[keyHash k]? = some r) (hr : r.ref = SIZE_MAX) (hn : r.next = SIZE_MAX)
      (hw : walk m (m.values.length + 1) (keyHash k) = some (.inr (keyHash k)))
  | absent (i : Nat) (r : Rec) (ha : ∀ i, K i ≠ some k) (hb : K (keyHash k) ≠ none)
      (hi : ∃ ks, K i = some ks ∧ keyHash ks = keyHash k) (hv : m.values[i]? = some r)
      (hr : r.ref ≠ SIZE_MAX) (hn : r.next = SIZE_MAX) (hc : cmpKey m r = some false)
      (hw : walk m (m.values.length + 1) (keyHash k) = some (.inr i))

theorem search {m : Map} {K : Nat → Option (List Nat)} {k : List Nat} (h : Inv m K) (hr : Ready m k) :
    Search m K k := by
  have hlt := keyHash_lt k
  by_cases hb : K (keyHash k) = none
  · have hl : keyHash k < m.values.length := Nat.lt_of_lt_of_le hlt h.len
    have hv : m.values[keyHash k]? = some m.values[keyHash k] := List.getElem?_eq_getElem hl
    obtain ⟨e1, e2, _⟩ := h.free _ _ hv hb
    refine .bucket _ (fun i hi => h.home i k hi hb) hb hv e1 e2 ?_
    unfold walk
    simp only [hv, e2, ne_eq, not_true_eq_false, if_false]
  · obtain ⟨L, c1, c2, c3, c4⟩ := h.chain _ hlt hb
    obtain ⟨res, f1, f2, f3⟩ := walk_spec (fuel := m.values.length + 1) h hr c1
      (fun i hi => by
        obtain ⟨ks, e, _⟩ := (c4 i).1 hi
        rw [e]; simp) (by omega)
    cases res with
    | inl i => exact .early i (f2 i rfl) f1
    | inr i =>
      obtain ⟨g1, g2, g3⟩ := f3 i rfl
      obtain ⟨ks, e1, e2⟩ := (c4 i).1 g1
      obtain ⟨_, r, u1, u2, _, _⟩ := h.used i ks e1
      have hbd := hr.bound
      have hne : r.ref ≠ SIZE_MAX := by unfold SIZE_MAX; omega
      have hnx : r.next = SIZE_MAX := by
        simp only [nextOf, u1, Option.map_some, Option.some.injEq] at g2
        exact g2
      have hcmp := cmpKey_spec h hr e1 u1
      by_cases he : ks = k
      · subst he
        exact .last i r e1 u1 hne (by simpa using hcmp) f1
      · refine .absent i r ?_ hb ⟨ks, e1, e2⟩ u1 hne hnx (by simpa [he] using hcmp) f1
        intro j hj
        have hm : j ∈ keyHash k :: L := (c4 j).2 ⟨k, hj, rfl⟩
        by_cases hji : j = i
        · subst hji
          rw [e1] at hj
          exact he (Option.some.inj hj)
        · exact g3 j hm hji hj

theorem getIndex_spec {m : Map} {K : Nat → Option (List Nat)} {k : List Nat} (h : Inv m K)
    (hr : Ready m k) :
    (∃ i, K i = some k ∧ getIndexByHash m (some (keyHash k)) = some i) ∨
    ((∀ i, K i ≠ some k) ∧ getIndexByHash m (some (keyHash k)) = some SIZE_MAX) := by
  rcases search h hr with ⟨i, hk, hw⟩ | ⟨i, r, hk, hv, hr', hc, hw⟩ | ⟨r, ha, hb, hv, hr', hn, hw⟩ |
    ⟨i, r, ha, hb, hi, hv, hr', hn, hc, hw⟩
  · exact .inl ⟨i, hk, by simp only [getIndexByHash, hw]⟩
  · exact .inl ⟨i, hk, by simp only [getIndexByHash, hw, hv, hr', hc, if_false]⟩
  · exact .inr ⟨ha, by simp only [getIndexByHash, hw, hv, hr', if_true]⟩
  · exact .inr ⟨ha, by simp only [getIndexByHash, hw, hv, hr', hc, if_false]⟩

/-! ### Changing a value -/

theorem inv_setValue {m : Map} {K : Nat → Option (List Nat)} {i : Nat} {r : Rec} {v : Int} (h : Inv m K)
    (hv : m.values[i]? = some r) :
    Inv { m with values := m.values.set i { r with value := some v } } K := by
  have hlt : i < m.values.length := (List.getElem?_eq_some_iff.1 hv).1
  have hget : ∀ j, (m.values.set i { r with value := some v })[j]? =
      if i = j then some { r with value := some v } else m.values[j]? := by
    intro j
    rw [List.getElem?_set]
    by_cases hj : i = j
    · subst hj; simp [hlt]
    · simp [hj]
  have hnext : ∀ j, nextOf (m.values.set i { r with value := some v }) j = nextOf m.values j := by
    intro j
    unfold nextOf
    rw [hget]
    by_cases hj : i = j
    · subst hj; simp [hv]
    · simp [hj]
  refine ⟨by simpa using h.len, by simpa using h.alloc, ?_, ?_, h.inj, ?_, h.home, h.block, h.blockMax, h.size⟩
  · intro j ks hk
    obtain ⟨h0, r', h1, h2, h3, h4⟩ := h.used j ks hk
    refine ⟨h0, ?_⟩
    dsimp only
    rw [hget]
    by_cases hj : i = j
    · subst hj
      rw [hv] at h1
      cases h1
      exact ⟨{ r with value := some v }, by simp, h2, h3, v, rfl⟩
    · exact ⟨r', by simp [hj, h1], h2, h3, h4⟩
  · intro j r' hj hk
    dsimp only at hj
    rw [hget] at hj
    by_cases hij : i = j
    · subst hij
      simp at hj
      subst hj
      exact h.free i r hv hk
    · simp [hij] at hj
      exact h.free j r' hj hk
  · intro b hb hk
    obtain ⟨L, c1, c2, c3, c4⟩ := h.chain b hb hk
    exact ⟨L, chain_congr (fun x _ => hnext x) c1, c2, by simpa using c3, c4⟩

theorem abs_setValue {m : Map} {K : Nat → Option (List Nat)} {A : Table} {i : Nat} {k : List Nat}
    {r : Rec} {v : Int} (h : Inv m K) (ha : Abs m K A) (hk : K i = some k)
    (hv : m.values[i]? = some r) :
    Abs { m with values := m.values.set i { r with value := some v } } K (A.upd k (i, v)) := by
  have hlt : i < m.values.length := (List.getElem?_eq_some_iff.1 hv).1
  intro k' j w
  dsimp only [Table.upd]
  rw [List.getElem?_set]
  by_cases hkk : k' = k
  · subst hkk
    rw [if_pos rfl]
    constructor
    · intro e
      cases e
      exact ⟨hk, { r with value := some v }, by simp [hlt], rfl⟩
    · rintro ⟨e1, r', e2, e3⟩
      have := h.inj _ _ _ hk e1
      subst this
      simp [hlt] at e2
      subst e2
      simp at e3
      rw [e3]
  · rw [if_neg hkk, ha k' j w]
    constructor
    · rintro ⟨e1, r', e2, e3⟩
      have hij : i ≠ j := by
        rintro rfl
        rw [hk] at e1
        exact hkk (Option.some.inj e1).symm
      exact ⟨e1, r', by simp [hij, e2], e3⟩
    · rintro ⟨e1, r', e2, e3⟩
      have hij : i ≠ j := by
        rintro rfl
        rw [hk] at e1
        exact hkk (Option.some.inj e1).symm
      simp [hij] at e2
      exact ⟨e1, r', e2, e3⟩

/-! ### A new key -/

/-- The key function after key `k` was given to record `i`. -/
def setKey (K : Nat → Option (List Nat)) (i : Nat) (k : List Nat) : Nat → Option (List Nat) :=
  fun j => if j = i then some k else K j

theorem absent_none {K : Nat → Option (List Nat)} {A : Table} {m : Map} {k : List Nat} (ha : Abs m K A)
    (h : ∀ i, K i ≠ some k) : A k = none := by
  cases e : A k with
  | none => rfl
  | some p =>
    obtain ⟨i, v⟩ := p
    exact absurd ((ha k i v).1 e).1 (h i)

theorem present_some {K : Nat → Option (List Nat)} {A : Table} {m : Map} {k : List Nat} {i : Nat}
    (h : Inv m K) (ha : Abs m K A) (hk : K i = some k) :
    ∃ r v, m.values[i]? = some r ∧ r.value = some v ∧ A k = some (i, v) := by
  obtain ⟨_, r, h1, _, _, v, h4⟩ := h.used i k hk
  exact ⟨r, v, h1, h4, (ha k i v).2 ⟨hk, r, h1, h4⟩⟩

theorem free_of_unused {K : Nat → Option (List Nat)} {A : Table} {m : Map} {i : Nat} (ha : Abs m K A)
    (h : K i = none) : Free A i := by
  intro k j v e hji
  subst hji
  have := ((ha k j v).1 e).1
  rw [h] at this
  cases this

/-- The record at the new place. -/
theorem inv_bucket {m : Map} {K : Nat → Option (List Nat)} {k : List Nat} {r : Rec} {v : Int}
    (h : Inv m K) (hr : Ready m k) (ha : ∀ i, K i ≠ some k) (hb : K (keyHash k) = none)
    (hv : m.values[keyHash k]? = some r) (hn : r.next = SIZE_MAX) :
    Inv { m with
      values := m.values.set (keyHash k) { r with ref := m.keysSize, value := some v },
      keysSize := m.keysSize + (octets k).length + 1 } (setKey K (keyHash k) k) := by
  have hlt : keyHash k < m.values.length := (List.getElem?_eq_some_iff.1 hv).1
  have hget : ∀ j, (m.values.set (keyHash k) { r with ref := m.keysSize, value := some v })[j]? =
      if keyHash k = j then some { r with ref := m.keysSize, value := some v } else m.values[j]? := by
    intro j
    rw [List.getElem?_set]
    by_cases hj : keyHash k = j
    · rw [if_pos hj, if_pos hj, if_pos hlt]
    · simp [hj]
  have hnext : ∀ j, nextOf (m.values.set (keyHash k) { r with ref := m.keysSize, value := some v }) j =
      nextOf m.values j := by
    intro j
    unfold nextOf
    rw [hget]
    by_cases hj : keyHash k = j
    · rw [if_pos hj, ← hj, hv]; rfl
    · simp [hj]
  refine ⟨by simpa using h.len, by simpa using h.alloc, ?_, ?_, ?_, ?_, ?_, h.block, h.blockMax, hr.room⟩
  · intro j ks hk
    dsimp only
    rw [hget]
    by_cases hj : j = keyHash k
    · rw [setKey, if_pos hj] at hk
      cases hk
      rw [if_pos hj.symm]
      exact ⟨hr.valid, _, rfl, Nat.le_refl _, hr.text, v, rfl⟩
    · rw [setKey, if_neg hj] at hk
      obtain ⟨h0, r', h1, h2, h3, h4⟩ := h.used j ks hk
      rw [if_neg (fun e => hj e.symm)]
      exact ⟨h0, r', h1, by omega, h3, h4⟩
  · intro j r' hj hk
    dsimp only at hj
    rw [hget] at hj
    by_cases hij : j = keyHash k
    · rw [setKey, if_pos hij] at hk
      cases hk
    · rw [setKey, if_neg hij] at hk
      rw [if_neg (fun e => hij e.symm)] at hj
      exact h.free j r' hj hk
  · intro i j ks hi hj
    unfold setKey at hi hj
    by_cases h1 : i = keyHash k <;> by_cases h2 : j = keyHash k
    · rw [h1, h2]
    · rw [if_pos h1] at hi
      rw [if_neg h2] at hj
      cases hi
      exact absurd hj (ha j)
    · rw [if_neg h1] at hi
      rw [if_pos h2] at hj
      cases hj
      exact absurd hi (ha i)
    · rw [if_neg h1] at hi
      rw [if_neg h2] at hj
      exact h.inj i j ks hi hj
  · intro b hb' hk
    by_cases hbk : b = keyHash k
    · subst hbk
      refine ⟨[], ?_, by simp, by simp; omega, ?_⟩
      · simp only [Chain]
        rw [hnext]
        simp only [nextOf, hv, Option.map_some, hn]
      · intro i
        simp only [List.mem_singleton]
        constructor
        · rintro rfl
          exact ⟨k, by simp [setKey], rfl⟩
        · rintro ⟨ks, e1, e2⟩
          by_cases hi : i = keyHash k
          · exact hi
          · rw [setKey, if_neg hi] at e1
            have := h.home i ks e1
            rw [e2] at this
            exact absurd hb this
    · rw [setKey, if_neg hbk] at hk
      obtain ⟨L, c1, c2, c3, c4⟩ := h.chain b hb' hk
      refine ⟨L, chain_congr (fun x _ => hnext x) c1, c2, by simpa using c3, ?_⟩
      intro i
      rw [c4 i]
      by_cases hi : i = keyHash k
      · subst hi
        simp only [setKey, if_true, hb]
        constructor
        · rintro ⟨ks, e, _⟩; cases e
        · rintro ⟨ks, e, e2⟩
          cases e
          exact absurd e2.symm hbk
      · simp only [setKey, if_neg hi]
  · intro i ks hi
    unfold setKey at hi ⊢
    by_cases h2 : keyHash ks = keyHash k
    · rw [if_pos h2]; simp
    · rw [if_neg h2]
      by_cases h1 : i = keyHash k
      · rw [if_pos h1] at hi
        cases hi
        exact absurd rfl h2
      · rw [if_neg h1] at hi
        exact h.home i ks hi

theorem abs_newKey {m : Map} {K : Nat → Option (List Nat)} {A : Table} {n : Nat} {k : List Nat}
    {vals' : List Rec} {r' : Rec} {v : Int} {m' : Map} (hm : m'.values = vals') (h : Inv m K)
    (ha : Abs m K A) (hk : ∀ i, K i ≠ some k) (hn : K n = none) (hv : vals'[n]? = some r')
    (hr : r'.value = some v)
    (ho : ∀ j r, j ≠ n → m.values[j]? = some r → ∃ q, vals'[j]? = some q ∧ q.value = r.value) :
    Abs m' (setKey K n k) (A.upd k (n, v)) := by
  intro k' j w
  rw [hm]
  dsimp only [Table.upd]
  by_cases hkk : k' = k
  · subst hkk
    rw [if_pos rfl]
    constructor
    · intro e
      cases e
      exact ⟨by simp [setKey], r', hv, hr⟩
    · rintro ⟨e1, r2, e2, e3⟩
      by_cases hj : j = n
      · subst hj
        rw [hv] at e2
        cases e2
        rw [hr] at e3
        cases e3
        rfl
      · rw [setKey, if_neg hj] at e1
        exact absurd e1 (hk j)
  · rw [if_neg hkk, ha k' j w]
    constructor
    · rintro ⟨e1, r2, e2, e3⟩
      have hj : j ≠ n := by
        rintro rfl
        rw [hn] at e1
        cases e1
      obtain ⟨q, q1, q2⟩ := ho j r2 hj e2
      exact ⟨by rw [setKey, if_neg hj]; exact e1, q, q1, by rw [q2]; exact e3⟩
    · rintro ⟨e1, r2, e2, e3⟩
      have hj : j ≠ n := by
        rintro rfl
        rw [setKey, if_pos rfl] at e1
        exact hkk (Option.some.inj e1).symm
      rw [setKey, if_neg hj] at e1
      obtain ⟨_, r, u1, _⟩ := h.used j k' e1
      obtain ⟨q, q1, q2⟩ := ho j r hj u1
      rw [q1] at e2
      cases e2
      exact ⟨e1, r, u1, by rw [← q2]; exact e3⟩

/-- The values after a record was appended behind record `i`. -/
def appended (m : Map) (i : Nat) (r : Rec) (v : Int) : List Rec :=
  m.values.set i { r with next := m.values.length } ++
    [{ next := SIZE_MAX, ref := m.keysSize, value := some v }]

theorem appended_get {m : Map} {i : Nat} {r : Rec} {v : Int} (hv : m.values[i]? = some r) (j : Nat) :
    (appended m i r v)[j]? =
      if j = m.values.length then some { next := SIZE_MAX, ref := m.keysSize, value := some v }
      else if j = i then some { r with next := m.values.length } else m.values[j]? := by
  have hlt : i < m.values.length := (List.getElem?_eq_some_iff.1 hv).1
  unfold appended
  by_cases hj : j = m.values.length
  · subst hj
    rw [if_pos rfl, List.getElem?_append_right (by simp)]
    simp
  · rw [if_neg hj]
    by_cases hl : j < m.values.length
    · rw [List.getElem?_append_left (by simpa using hl), List.getElem?_set]
      by_cases hi : i = j
      · subst hi; simp [hlt]
      · rw [if_neg hi, if_neg (fun e => hi e.symm)]
    · rw [List.getElem?_eq_none (by simp; omega), if_neg (by omega), List.getElem?_eq_none (by omega)]

theorem inv_append {m : Map} {K : Nat → Option (List Nat)} {k : List Nat} {i g : Nat} {r : Rec} {v : Int}
    (h : Inv m K) (hr : Ready m k) (ha : ∀ i, K i ≠ some k) (hb : K (keyHash k) ≠ none)
    (hi : ∃ ks, K i = some ks ∧ keyHash ks = keyHash k) (hv : m.values[i]? = some r)
    (hn : r.next = SIZE_MAX) (hN : K m.values.length = none) (hg : m.values.length < g)
    (hs : m.values.length < 1152921504606846976) :
    Inv { m with
      values := appended m i r v,
      valuesAlloc := g,
      keysSize := m.keysSize + (octets k).length + 1 } (setKey K m.values.length k) := by
  have hlt : i < m.values.length := (List.getElem?_eq_some_iff.1 hv).1
  have hlen : (appended m i r v).length = m.values.length + 1 := by simp [appended]
  have hget := appended_get (v := v) hv
  have hmem : ∀ {j ks}, K j = some ks → j < m.values.length := by
    intro j ks e
    obtain ⟨_, q, q1, _⟩ := h.used j ks e
    exact (List.getElem?_eq_some_iff.1 q1).1
  have hnext : ∀ j, j ≠ i → j < m.values.length → nextOf (appended m i r v) j = nextOf m.values j := by
    intro j h1 h2
    unfold nextOf
    rw [hget, if_neg (by omega), if_neg h1]
  have hnMax : m.values.length ≠ SIZE_MAX := by unfold SIZE_MAX; omega
  refine ⟨by dsimp only; rw [hlen]; have := h.len; omega, by dsimp only; rw [hlen]; omega, ?_, ?_, ?_, ?_, ?_, h.block, h.blockMax, hr.room⟩
  · intro j ks hk
    dsimp only
    rw [hget]
    by_cases hj : j = m.values.length
    · rw [setKey, if_pos hj] at hk
      cases hk
      rw [if_pos hj]
      exact ⟨hr.valid, _, rfl, Nat.le_refl _, hr.text, v, rfl⟩
    · rw [setKey, if_neg hj] at hk
      obtain ⟨h0, r', h1, h2, h3, h4⟩ := h.used j ks hk
      rw [if_neg hj]
      by_cases hji : j = i
      · subst hji
        rw [hv] at h1
        cases h1
        rw [if_pos rfl]
        exact ⟨h0, { r with next := m.values.length }, rfl, Nat.le_trans h2 (by omega), h3, h4⟩
      · rw [if_neg hji]
        exact ⟨h0, r', h1, by omega, h3, h4⟩
  · intro j r' hj hk
    dsimp only at hj
    rw [hget] at hj
    by_cases hij : j = m.values.length
    · rw [setKey, if_pos hij] at hk
      cases hk
    · rw [setKey, if_neg hij] at hk
      rw [if_neg hij] at hj
      by_cases hji : j = i
      · subst hji
        obtain ⟨ks, e, _⟩ := hi
        rw [hk] at e
        cases e
      · rw [if_neg hji] at hj
        exact h.free j r' hj hk
  · intro a b ks hi hj
    unfold setKey at hi hj
    by_cases h1 : a = m.values.length <;> by_cases h2 : b = m.values.length
    · rw [h1, h2]
    · rw [if_pos h1] at hi
      rw [if_neg h2] at hj
      cases hi
      exact absurd hj (ha b)
    · rw [if_neg h1] at hi
      rw [if_pos h2] at hj
      cases hj
      exact absurd hi (ha a)
    · rw [if_neg h1] at hi
      rw [if_neg h2] at hj
      exact h.inj a b ks hi hj
  · intro b hb' hk
    have hbl : b ≠ m.values.length := by have := h.len; omega
    rw [setKey, if_neg hbl] at hk
    obtain ⟨L, c1, c2, c3, c4⟩ := h.chain b hb' hk
    have hlt' : ∀ x ∈ b :: L, x < m.values.length := by
      intro x hx
      obtain ⟨ks, e, _⟩ := (c4 x).1 hx
      exact hmem e
    by_cases hbk : b = keyHash k
    · have hiL : i ∈ b :: L := (c4 i).2 (by rw [hbk]; exact hi)
      have hin : nextOf m.values i = some SIZE_MAX := by simp [nextOf, hv, hn]
      obtain ⟨pre, hpre⟩ := chain_last c1 hiL hin
      have hnd := c2
      rw [hpre] at hnd
      have hnot : i ∉ pre := by
        intro hm
        rw [List.nodup_append] at hnd
        exact hnd.2.2 i hm i (by simp) rfl
      have hch : Chain (appended m i r v) (pre ++ [i, m.values.length]) := by
        apply chain_snoc (hpre ▸ c1)
        · intro x hx
          exact hnext x (fun e => hnot (e ▸ hx)) (hlt' x (by rw [hpre]; simp [hx]))
        · simp [nextOf, hget, show i ≠ m.values.length by omega]
        · exact hnMax
        · simp [nextOf, hget]
      have hL : b :: (L ++ [m.values.length]) = pre ++ [i, m.values.length] := by
        rw [← List.cons_append, hpre]; simp
      refine ⟨L ++ [m.values.length], hL ▸ hch, ?_, ?_, ?_⟩
      · rw [← List.cons_append, List.nodup_append]
        refine ⟨c2, by simp, ?_⟩
        intro x hx y hy
        simp only [List.mem_singleton] at hy
        have := hlt' x hx
        omega
      · dsimp only
        rw [hlen]
        simp only [List.length_cons, List.length_append, List.length_nil] at c3 ⊢
        omega
      · intro j
        rw [← List.cons_append, List.mem_append, c4 j, List.mem_singleton]
        unfold setKey
        by_cases hj : j = m.values.length
        · simp only [hj, or_true, if_true, true_iff]
          exact ⟨k, rfl, hbk.symm⟩
        · simp only [hj, or_false, if_false]
    · refine ⟨L, chain_congr ?_ c1, c2, ?_, ?_⟩
      · intro x hx
        apply hnext x _ (hlt' x hx)
        rintro rfl
        obtain ⟨ks, e1, e2⟩ := (c4 x).1 hx
        obtain ⟨ks', e3, e4⟩ := hi
        rw [e1] at e3
        cases e3
        exact hbk (e2.symm.trans e4)
      · dsimp only
        rw [hlen]
        omega
      · intro j
        rw [c4 j]
        unfold setKey
        by_cases hj : j = m.values.length
        · simp only [hj, hN, if_true]
          constructor
          · rintro ⟨ks, e, _⟩; cases e
          · rintro ⟨ks, e, e2⟩
            cases e
            exact absurd e2.symm hbk
        · simp only [hj, if_false]
  · intro a ks hi
    unfold setKey at hi ⊢
    have hne : ∀ ks, keyHash ks ≠ m.values.length := by
      intro ks
      have := h.len
      have := keyHash_lt ks
      omega
    rw [if_neg (hne ks)]
    by_cases h1 : a = m.values.length
    · rw [if_pos h1] at hi
      cases hi
      exact hb
    · rw [if_neg h1] at hi
      exact h.home a ks hi

/-! ### Adding -/

/-- Adding, with the place of a new record: its bucket if that is free, else the end. -/
theorem add_place {m : Map} {K : Nat → Option (List Nat)} {A : Table} {k : List Nat} (v : Int) (okv : Bool)
    (h : Inv m K) (ha : Abs m K A) (hr : Ready m k) (hs : m.values.length < 1152921504606846976) :
    (∃ i w, A k = some (i, w) ∧
      addByHash m (some (keyHash k)) v okv = some (if v = ITEM_MAX then i else SIZE_MAX, m)) ∨
    (A k = none ∧ okv = false ∧ addByHash m (some (keyHash k)) v okv = some (SIZE_MAX, m)) ∨
    (A k = none ∧ ∃ n m', Free A n ∧ n ≠ SIZE_MAX ∧
      addByHash m (some (keyHash k)) v okv = some (n, m') ∧
      Inv m' (setKey K n k) ∧ Abs m' (setKey K n k) (A.upd k (n, v)) ∧
      m'.keysSize = m.keysSize + (octets k).length + 1 ∧ m'.values.length ≤ m.values.length + 1 ∧
      ((K (keyHash k) = none ∧ n = keyHash k ∧ m'.values.length = m.values.length) ∨
        (K (keyHash k) ≠ none ∧ n = m.values.length ∧ m'.values.length = m.values.length + 1))) := by
  rcases search h hr with ⟨i, hk, hw⟩ | ⟨i, r, hk, hv, hr', hc, hw⟩ | ⟨r, hab, hb, hv, hr', hn, hw⟩ |
    ⟨i, r, hab, hb, hi, hv, hr', hn, hc, hw⟩
  · obtain ⟨r, w, _, _, hA⟩ := present_some h ha hk
    exact .inl ⟨i, w, hA, by simp only [addByHash, hw]⟩
  · obtain ⟨r, w, _, _, hA⟩ := present_some h ha hk
    exact .inl ⟨i, w, hA, by simp only [addByHash, hw, hv, hr', hc, hr.next, if_false]⟩
  · right; right
    have hlt := keyHash_lt k
    have hlt2 : keyHash k < m.values.length := (List.getElem?_eq_some_iff.1 hv).1
    refine ⟨absent_none ha hab, keyHash k, _, free_of_unused ha hb, by unfold SIZE_MAX; omega, ?_,
      inv_bucket (v := v) h hr hab hb hv hn, ?_, rfl, ?_, .inl ⟨hb, rfl, by simp⟩⟩
    · simp only [addByHash, hw, hv, hr', hr.next, if_true]
    · refine abs_newKey rfl h ha hab hb (r' := { r with ref := m.keysSize, value := some v }) ?_ rfl ?_
      · rw [List.getElem?_set]; simp [hlt2]
      · intro j q hj hq
        rw [List.getElem?_set, if_neg (fun e => hj e.symm)]
        exact ⟨q, hq, rfl⟩
    · simp
  · right
    have hN : K m.values.length = none := by
      cases e : K m.values.length with
      | none => rfl
      | some ks =>
        obtain ⟨_, q, q1, _⟩ := h.used _ ks e
        simp at q1
    have hbase : addByHash m (some (keyHash k)) v okv =
        appendRec m i (m.keysSize + (octets k).length) r v okv := by
      simp only [addByHash, hw, hv, hr', hc, hr.next, if_false]
    have hlt : i < m.values.length := (List.getElem?_eq_some_iff.1 hv).1
    by_cases hfull : m.values.length = m.valuesAlloc ∧ okv = false
    · left
      refine ⟨absent_none ha hab, hfull.2, ?_⟩
      rw [hbase]
      unfold appendRec
      simp [hfull.1, hfull.2]
    · right
      have hal := h.alloc
      have hl := h.len
      have hgrow : m.values.length <
          (if m.values.length = m.valuesAlloc then usz (2 * m.valuesAlloc) else m.valuesAlloc) := by
        split
        · rw [usz_of_lt (by omega)]; omega
        · omega
      refine ⟨absent_none ha hab, m.values.length, _, free_of_unused ha hN, by unfold SIZE_MAX; omega, ?_,
        inv_append (v := v) h hr hab hb hi hv hn hN hgrow hs, ?_, rfl, ?_,
        .inr ⟨hb, rfl, by simp [appended]⟩⟩
      · rw [hbase]
        unfold appendRec
        dsimp only
        rw [if_neg (by simpa using hfull), if_pos hgrow]
        rfl
      · refine abs_newKey rfl h ha hab hN
          (r' := { next := SIZE_MAX, ref := m.keysSize, value := some v }) ?_ rfl ?_
        · rw [appended_get hv]; simp
        · intro j q hj hq
          rw [appended_get hv, if_neg hj]
          by_cases hji : j = i
          · subst hji
            rw [hv] at hq
            cases hq
            exact ⟨{ r with next := m.values.length }, by simp, rfl⟩
          · exact ⟨q, by simp [hji, hq], rfl⟩
      · simp [appended]

theorem add_spec {m : Map} {K : Nat → Option (List Nat)} {A : Table} {k : List Nat} (v : Int) (okv : Bool)
    (h : Inv m K) (ha : Abs m K A) (hr : Ready m k) (hs : m.values.length < 1152921504606846976) :
    (∃ i w, A k = some (i, w) ∧
      addByHash m (some (keyHash k)) v okv = some (if v = ITEM_MAX then i else SIZE_MAX, m)) ∨
    (A k = none ∧ okv = false ∧ addByHash m (some (keyHash k)) v okv = some (SIZE_MAX, m)) ∨
    (A k = none ∧ ∃ n m', Free A n ∧ n ≠ SIZE_MAX ∧
      addByHash m (some (keyHash k)) v okv = some (n, m') ∧
      Inv m' (setKey K n k) ∧ Abs m' (setKey K n k) (A.upd k (n, v)) ∧
      m'.keysSize = m.keysSize + (octets k).length + 1 ∧ m'.values.length ≤ m.values.length + 1) := by
  rcases add_place v okv h ha hr hs with g | g | ⟨a, n, m', b, c, d, e, f, x, y, _⟩
  · exact .inl g
  · exact .inr (.inl g)
  · exact .inr (.inr ⟨a, n, m', b, c, d, e, f, x, y⟩)

/-! ### One call -/

theorem denotes_size {a : KeyArg} {k : List Nat} (h : Denotes a k) : (octets k).length + 1 ≤ 4 * a.size + 1 := by
  cases h with
  | str => simp [KeyArg.size]; omega
  | utf8 =>
    have := octets_length k
    simp [KeyArg.size]; omega
  | io c ks tail =>
    have := octets_length (c :: ks)
    simp [KeyArg.size] at this ⊢; omega

theorem denotes_valid {a : KeyArg} {k : List Nat} (h : Denotes a k) : ValidKey k := by
  cases h with
  | str _ hv => exact hv
  | utf8 _ hv => exact hv
  | io c ks tail hc hk ht =>
    refine ⟨by simp, ?_⟩
    intro x hx
    apply isLetter_good
    rcases List.mem_cons.1 hx with rfl | hx
    · rcases hc with h | h
      · exact .inl h
      · exact .inr (.inr h)
    · rcases hk x hx with h | h
      · exact .inl h
      · exact .inr (.inl h)

/-- Reading the key argument of a call. -/
theorem getHash_ready {m : Map} {K : Nat → Option (List Nat)} {A : Table} {a : KeyArg} {k : List Nat}
    (ok : Bool) (h : Inv m K) (ha : Abs m K A) (hd : Denotes a k) (hv : ValidKey k)
    (hs : m.keysSize + m.values.length + (4 * a.size + 9) < 1152921504606846976) :
    (∃ m', getHash m a ok = some (some (keyHash k), m') ∧ Inv m' K ∧ Abs m' K A ∧ Ready m' k ∧
      m'.keysSize = m.keysSize ∧ m'.values = m.values) ∨
    (ok = false ∧ ∃ m', getHash m a ok = some (none, m') ∧ Inv m' K ∧ Abs m' K A ∧
      m'.keysSize = m.keysSize ∧ m'.values = m.values) := by
  have hsz := denotes_size hd
  rcases getHash_spec ok hd hv h.size h.block h.blockMax (by omega) with
    ⟨m', e1, e2, e3, e4, e5⟩ | ⟨e0, m', e1, e2⟩
  · left
    refine ⟨m', e1, h.ext e2, ha.ext e2, ⟨hv, ?_, ?_, ?_, ?_⟩, e2.size, e2.values⟩
    · rw [e2.size]; exact e3
    · rw [e2.size]; exact e4
    · rw [e2.size]; exact e5
    · rw [e2.size]; omega
  · right
    exact ⟨e0, m', e1, h.ext e2, ha.ext e2, e2.size, e2.values⟩

theorem index_not_max {m : Map} {K : Nat → Option (List Nat)} {i : Nat} {k : List Nat} (h : Inv m K)
    (hk : K i = some k) (hs : m.values.length < 1152921504606846976) : i ≠ SIZE_MAX := by
  obtain ⟨_, r, e, _⟩ := h.used i k hk
  have := (List.getElem?_eq_some_iff.1 e).1
  unfold SIZE_MAX
  omega

theorem step_refines {m : Map} {K : Nat → Option (List Nat)} {A : Table} {op : Op} (h : Inv m K)
    (ha : Abs m K A) (hop : op.Valid)
    (hs : m.keysSize + m.values.length + op.cost < 1152921504606846976) :
    ∃ r m' K' A', step m op = some (r, m') ∧ TStep A op r A' ∧ Inv m' K' ∧ Abs m' K' A' ∧
      m'.keysSize + m'.values.length ≤ m.keysSize + m.values.length + op.cost := by
  cases op with
  | reserve a ok okv =>
    obtain ⟨k, hd⟩ := hop a rfl
    have hv := denotes_valid hd
    simp only [Op.cost, Op.key?] at hs ⊢
    have hsz := denotes_size hd
    rcases getHash_ready ok h ha hd hv hs with ⟨m1, e1, i1, a1, r1, s1, v1⟩ | ⟨e0, m1, e1, i1, a1, s1, v1⟩
    · rcases add_spec ITEM_MAX okv i1 a1 r1 (by rw [v1]; omega) with
        ⟨i, w, hA, f⟩ | ⟨hA, f0, f⟩ | ⟨hA, n, m', hf, hn, f, i2, a2, z1, z2⟩
      · rw [if_pos rfl] at f
        refine ⟨.idx i, m1, K, A, ?_, .reserveOld A a k ok okv i w hd hA, i1, a1, by rw [s1, v1]; omega⟩
        simp [step, e1, f]
      · refine ⟨.idx SIZE_MAX, m1, K, A, ?_, .reserveRefused A a ok okv (.inr f0), i1, a1,
          by rw [s1, v1]; omega⟩
        simp [step, e1, f]
      · refine ⟨.idx n, m', _, _, ?_, .reserveNew A a k ok okv n hd hA hn hf, i2, a2, ?_⟩
        · simp [step, e1, f]
        · rw [v1] at z2; rw [z1, s1]; omega
    · refine ⟨.idx SIZE_MAX, m1, K, A, ?_, .reserveRefused A a ok okv (.inl e0), i1, a1,
        by rw [s1, v1]; omega⟩
      simp [step, e1, addByHash]
  | add a v ok okv =>
    obtain ⟨k, hd⟩ := hop a rfl
    have hv := denotes_valid hd
    simp only [Op.cost, Op.key?] at hs ⊢
    have hsz := denotes_size hd
    rcases getHash_ready ok h ha hd hv hs with ⟨m1, e1, i1, a1, r1, s1, v1⟩ | ⟨e0, m1, e1, i1, a1, s1, v1⟩
    · rcases add_spec v okv i1 a1 r1 (by rw [v1]; omega) with
        ⟨i, w, hA, f⟩ | ⟨hA, f0, f⟩ | ⟨hA, n, m', hf, hn, f, i2, a2, z1, z2⟩
      · refine ⟨_, m1, K, A, ?_, .addOld A a k v ok okv i w hd hA, i1, a1, by rw [s1, v1]; omega⟩
        simp [step, e1, f]
      · refine ⟨.idx SIZE_MAX, m1, K, A, ?_, .addRefused A a v ok okv (.inr f0), i1, a1,
          by rw [s1, v1]; omega⟩
        simp [step, e1, f]
      · refine ⟨.idx n, m', _, _, ?_, .addNew A a k v ok okv n hd hA hn hf, i2, a2, ?_⟩
        · simp [step, e1, f]
        · rw [v1] at z2; rw [z1, s1]; omega
    · refine ⟨.idx SIZE_MAX, m1, K, A, ?_, .addRefused A a v ok okv (.inl e0), i1, a1,
        by rw [s1, v1]; omega⟩
      simp [step, e1, addByHash]
  | set a v ok =>
    obtain ⟨k, hd⟩ := hop a rfl
    have hv := denotes_valid hd
    simp only [Op.cost, Op.key?] at hs ⊢
    rcases getHash_ready ok h ha hd hv hs with ⟨m1, e1, i1, a1, r1, s1, v1⟩ | ⟨e0, m1, e1, i1, a1, s1, v1⟩
    · rcases getIndex_spec i1 r1 with ⟨i, hk, f⟩ | ⟨hk, f⟩
      · obtain ⟨r, w, g1, g2, g3⟩ := present_some i1 a1 hk
        have hne := index_not_max i1 hk (by rw [v1]; omega)
        refine ⟨.idx i, { m1 with values := m1.values.set i { r with value := some v } }, K,
          A.upd k (i, v), ?_, .set A a k v ok i w hd g3, inv_setValue i1 g1, abs_setValue i1 a1 hk g1, ?_⟩
        · simp [step, e1, setByHash, f, hne, g1]
        · simp only [List.length_set]; rw [s1, v1]; omega
      · refine ⟨.idx SIZE_MAX, m1, K, A, ?_, .setAbsent A a k v ok hd (absent_none a1 hk), i1, a1,
          by rw [s1, v1]; omega⟩
        simp [step, e1, setByHash, f]
    · subst e0
      refine ⟨.idx SIZE_MAX, m1, K, A, ?_, .setRefused A a v, i1, a1, by rw [s1, v1]; omega⟩
      simp [step, e1, setByHash, getIndexByHash]
  | index a ok =>
    obtain ⟨k, hd⟩ := hop a rfl
    have hv := denotes_valid hd
    simp only [Op.cost, Op.key?] at hs ⊢
    rcases getHash_ready ok h ha hd hv hs with ⟨m1, e1, i1, a1, r1, s1, v1⟩ | ⟨e0, m1, e1, i1, a1, s1, v1⟩
    · rcases getIndex_spec i1 r1 with ⟨i, hk, f⟩ | ⟨hk, f⟩
      · obtain ⟨r, w, g1, g2, g3⟩ := present_some i1 a1 hk
        refine ⟨.idx i, m1, K, A, ?_, .index A a k ok i w hd g3, i1, a1, by rw [s1, v1]; omega⟩
        simp [step, e1, f]
      · refine ⟨.idx SIZE_MAX, m1, K, A, ?_, .indexAbsent A a k ok hd (absent_none a1 hk), i1, a1,
          by rw [s1, v1]; omega⟩
        simp [step, e1, f]
    · subst e0
      refine ⟨.idx SIZE_MAX, m1, K, A, ?_, .indexRefused A a, i1, a1, by rw [s1, v1]; omega⟩
      simp [step, e1, getIndexByHash]
  | get a ok =>
    obtain ⟨k, hd⟩ := hop a rfl
    have hv := denotes_valid hd
    simp only [Op.cost, Op.key?] at hs ⊢
    rcases getHash_ready ok h ha hd hv hs with ⟨m1, e1, i1, a1, r1, s1, v1⟩ | ⟨e0, m1, e1, i1, a1, s1, v1⟩
    · rcases getIndex_spec i1 r1 with ⟨i, hk, f⟩ | ⟨hk, f⟩
      · obtain ⟨r, w, g1, g2, g3⟩ := present_some i1 a1 hk
        have hne := index_not_max i1 hk (by rw [v1]; omega)
        refine ⟨.item w, m1, K, A, ?_, .get A a k ok i w hd g3, i1, a1, by rw [s1, v1]; omega⟩
        simp [step, e1, getByHash, f, hne, g1, g2]
      · refine ⟨.item ITEM_MAX, m1, K, A, ?_, .getAbsent A a k ok hd (absent_none a1 hk), i1, a1,
          by rw [s1, v1]; omega⟩
        simp [step, e1, getByHash, f]
    · subst e0
      refine ⟨.item ITEM_MAX, m1, K, A, ?_, .getRefused A a, i1, a1, by rw [s1, v1]; omega⟩
      simp [step, e1, getByHash, getIndexByHash]
  | setAt i v =>
    simp only [Op.cost, Op.key?] at hs ⊢
    cases hk : K i with
    | none =>
      refine ⟨.code (-1), m, K, A, ?_, .setAtFree A i v (free_of_unused ha hk), h, ha, by omega⟩
      cases e : m.values[i]? with
      | none => simp [step, setByIndex, e]
      | some r => simp [step, setByIndex, e, (h.free i r e hk).1]
    | some k =>
      obtain ⟨r, w, g1, g2, g3⟩ := present_some h ha hk
      obtain ⟨_, r', u1, u2, _⟩ := h.used i k hk
      rw [g1] at u1
      cases u1
      have hne : r.ref ≠ SIZE_MAX := by unfold SIZE_MAX; omega
      refine ⟨.code 0, { m with values := m.values.set i { r with value := some v } }, K,
        A.upd k (i, v), ?_, .setAt A k i v w g3, inv_setValue h g1, abs_setValue h ha hk g1, ?_⟩
      · simp [step, setByIndex, g1, hne]
      · simp only [List.length_set]; omega
  | getAt i =>
    simp only [Op.cost, Op.key?] at hs ⊢
    cases hk : K i with
    | none =>
      refine ⟨.item ITEM_MAX, m, K, A, ?_, .getAtFree A i (free_of_unused ha hk), h, ha, by omega⟩
      cases e : m.values[i]? with
      | none => simp [step, getByIndex, e]
      | some r => simp [step, getByIndex, e, (h.free i r e hk).1]
    | some k =>
      obtain ⟨r, w, g1, g2, g3⟩ := present_some h ha hk
      obtain ⟨_, r', u1, u2, _⟩ := h.used i k hk
      rw [g1] at u1
      cases u1
      have hne : r.ref ≠ SIZE_MAX := by unfold SIZE_MAX; omega
      refine ⟨.item w, m, K, A, ?_, .getAt A k i w g3, h, ha, by omega⟩
      simp [step, getByIndex, g1, hne, g2]
  | text i =>
    simp only [Op.cost, Op.key?] at hs ⊢
    cases hk : K i with
    | none =>
      refine ⟨.str none, m, K, A, ?_, .textFree A i (free_of_unused ha hk), h, ha, by omega⟩
      cases e : m.values[i]? with
      | none => simp [step, mapToString, e]
      | some r => simp [step, mapToString, e, (h.free i r e hk).1]
    | some k =>
      obtain ⟨r, w, g1, g2, g3⟩ := present_some h ha hk
      obtain ⟨hval, r', u1, u2, u3, _⟩ := h.used i k hk
      rw [g1] at u1
      cases u1
      have hne : r.ref ≠ SIZE_MAX := by unfold SIZE_MAX; omega
      have hsz := h.size
      refine ⟨.str (some (octets k)), m, K, A, ?_, .text A k i w g3, h, ha, by omega⟩
      simp [step, mapToString, g1, hne, readStr_spec (octets_zero hval.2) u3 (fuel := m.keys.length + 1) (by omega)]

theorem run_refines {m : Map} {K : Nat → Option (List Nat)} {A : Table} {ops : List Op} (h : Inv m K)
    (ha : Abs m K A) (hop : ∀ op ∈ ops, op.Valid)
    (hs : m.keysSize + m.values.length + (ops.map Op.cost).sum < 1152921504606846976) :
    ∃ rs m' K' A', run m ops = some (rs, m') ∧ TRun A ops rs A' ∧ Inv m' K' ∧ Abs m' K' A' ∧
      m'.keysSize + m'.values.length ≤ m.keysSize + m.values.length + (ops.map Op.cost).sum := by
  induction ops generalizing m K A with
  | nil => exact ⟨[], m, K, A, rfl, .nil A, h, ha, by simp⟩
  | cons op ops ih =>
    simp only [List.map_cons, List.sum_cons] at hs ⊢
    obtain ⟨r, m1, K1, A1, e1, t1, i1, a1, s1⟩ := step_refines h ha (hop op (by simp)) (by omega)
    obtain ⟨rs, m2, K2, A2, e2, t2, i2, a2, s2⟩ := ih i1 a1 (fun o ho => hop o (by simp [ho])) (by omega)
    exact ⟨r :: rs, m2, K2, A2, by simp [run, e1, e2], .cons t1 t2, i2, a2, by omega⟩

theorem inv_create {alloc : Nat} (h : alloc < 1125899906842624) : Inv (mapCreate alloc) (fun _ => none) := by
  have e1 : usz (256 + alloc) = 256 + alloc := usz_of_lt (by omega)
  have e2 : usz ((256 + alloc) * 8) = (256 + alloc) * 8 := usz_of_lt (by omega)
  refine ⟨?_, ?_, ?_, ?_, ?_, ?_, ?_, ?_, ?_, ?_⟩
  · simp only [mapCreate, List.length_replicate]; omega
  · simp only [mapCreate, List.length_replicate, e1]; omega
  · intro i ks hk; cases hk
  · intro i r hr _
    simp only [mapCreate] at hr
    obtain ⟨hl, hv⟩ := List.getElem?_eq_some_iff.1 hr
    rw [List.getElem_replicate] at hv
    subst hv
    rw [List.length_replicate] at hl
    exact ⟨rfl, rfl, hl⟩
  · intro i j ks hk; cases hk
  · intro b _ hk; exact absurd rfl hk
  · intro i ks hk; cases hk
  · simp only [mapCreate, List.length_replicate, e1, e2]; omega
  · simp only [mapCreate, List.length_replicate, e1, e2]; omega
  · simp only [mapCreate, List.length_replicate]; omega

theorem abs_create {alloc : Nat} : Abs (mapCreate alloc) (fun _ => none) (fun _ => none) := by
  intro k i v
  constructor
  · intro h; cases h
  · rintro ⟨h, _⟩; cases h

end RuC.Map
