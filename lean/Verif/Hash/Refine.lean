import Verif.Hash.Walk

/-! Helper lemmas: every call on the rendered table refines the map. -/

namespace RuC.Hash
open RuC

/-- The map that a list of records stands for. -/
def tbl (off : Nat) : List Rec → Table
  | [], _ => none
  | r :: R, k => if r.key = k then some (off, r.vals) else tbl (off + r.sz) R k

theorem tbl_none {off : Nat} {R : List Rec} {k : Int} :
    tbl off R k = none ↔ ∀ r ∈ R, r.key ≠ k := by
  induction R generalizing off with
  | nil => simp [tbl]
  | cons r R ih =>
    simp only [tbl]
    by_cases h : r.key = k
    · simp [h]
    · simp [h, ih]

theorem tbl_some {off : Nat} {R : List Rec} {k : Int} {i : Nat} {vs : List Int}
    (h : tbl off R k = some (i, vs)) :
    ∃ P r S, R = P ++ r :: S ∧ r.key = k ∧ i = off + total P ∧ vs = r.vals ∧
      ∀ q ∈ P, q.key ≠ k := by
  induction R generalizing off with
  | nil => simp [tbl] at h
  | cons r R ih =>
    simp only [tbl] at h
    by_cases hk : r.key = k
    · simp only [hk, if_true, Option.some.injEq, Prod.mk.injEq] at h
      exact ⟨[], r, R, rfl, hk, by simp [total, h.1], h.2.symm, by simp⟩
    · simp only [hk, if_false] at h
      obtain ⟨P, r', S, h1, h2, h3, h4, h5⟩ := ih h
      refine ⟨r :: P, r', S, by simp [h1], h2, ?_, h4, ?_⟩
      · simp only [total]; omega
      · intro q hq
        simp at hq
        rcases hq with rfl | hq
        · exact hk
        · exact h5 q hq

theorem tbl_hit {off : Nat} {P S : List Rec} {r : Rec} {k : Int} (hP : ∀ q ∈ P, q.key ≠ k)
    (hr : r.key = k) : tbl off (P ++ r :: S) k = some (off + total P, r.vals) := by
  induction P generalizing off with
  | nil => simp [tbl, hr, total]
  | cons p P ih =>
    have h1 : p.key ≠ k := hP p (by simp)
    have h2 := ih (off := off + p.sz) (fun q hq => hP q (by simp [hq]))
    simp only [List.cons_append, tbl, h1, if_false, h2, total]
    congr 2; omega

theorem tbl_replace {off : Nat} {P S : List Rec} {r r' : Rec} {k : Int}
    (hl : r'.vals.length = r.vals.length) (h1 : r.key ≠ k) (h2 : r'.key ≠ k) :
    tbl off (P ++ r' :: S) k = tbl off (P ++ r :: S) k := by
  induction P generalizing off with
  | nil => simp [tbl, h1, h2, Rec.sz, hl]
  | cons p P ih => simp [tbl, ih]

theorem tbl_snoc {off : Nat} {R : List Rec} {r : Rec} {k : Int} (h : r.key ≠ k) :
    tbl off (R ++ [r]) k = tbl off R k := by
  induction R generalizing off with
  | nil => simp [tbl, h]
  | cons p P ih => simp [tbl, ih]

/-- Well-formed list of records. -/
structure WF (R : List Rec) : Prop where
  bucket : ∀ r ∈ R, r.bucket < 256
  hash : ∀ r ∈ R, r.key ≠ ITEM_MAX → r.bucket = getHash r.key
  uniq : R.Pairwise fun a b => a.key ≠ ITEM_MAX → a.key ≠ b.key
  small : 256 + total R < 1152921504606846976

/-- The state `s` holds the map `A`, as records `R`. -/
structure Rep (s : St) (A : Table) (R : List Rec) : Prop where
  hs : s.hs = render R
  wf : WF R
  tbl : ∀ k, k ≠ ITEM_MAX → A k = tbl 256 R k
  held : ∀ k, s.held k = (A k).map Prod.fst
  top : A ITEM_MAX = none

theorem getHash_lt (k : Int) : getHash k < 256 := by
  unfold getHash MAX_HASH; exact Nat.mod_lt _ (by decide)

theorem length_le_total (R : List Rec) : R.length ≤ total R := by
  induction R with
  | nil => simp [total]
  | cons r R ih => simp only [List.length_cons, total, Rec.sz]; omega

theorem getIndex_absent {R : List Rec} (w : WF R) {k : Int} (hk : ∀ r ∈ R, r.key ≠ k) :
    getIndex (render R) k = some SIZE_MAX := by
  unfold getIndex
  rw [vget_bucket R (getHash_lt k)]
  have hl := length_le_total R
  have hrl := render_length R
  have := indexLoop_absent (b := getHash k) (key := k) R [] ((render R).length + 1)
    (by simpa using w.small) (fun q hq _ => hk q hq) (by omega)
  simpa [total] using this

theorem getIndex_found {P S : List Rec} {r : Rec} (w : WF (P ++ r :: S)) {k : Int}
    (hkm : k ≠ ITEM_MAX) (hP : ∀ q ∈ P, q.key ≠ k) (hr : r.key = k) :
    getIndex (render (P ++ r :: S)) k = some (256 + total P) := by
  unfold getIndex
  rw [vget_bucket _ (getHash_lt k)]
  have hl := length_le_total (P ++ r :: S)
  have hrl := render_length (P ++ r :: S)
  have hb : r.bucket = getHash k := by
    rw [← hr]; exact w.hash r (by simp) (by rw [hr]; exact hkm)
  have := indexLoop_found (b := getHash k) (key := k) P [] r S ((render (P ++ r :: S)).length + 1)
    (by simpa using w.small) hP hr hb (by simp at hl; omega)
  simpa [total] using this

theorem amountAt_render {P S : List Rec} {r : Rec} (hs : 256 + total (P ++ r :: S) < 1152921504606846976) :
    amountAt (render (P ++ r :: S)) (256 + total P) = r.vals.length := by
  have htl := total_cons_le P S r
  unfold amountAt
  rw [usz_of_lt (by omega), vget_len]
  have h1 : 256 + total P ≠ SIZE_MAX := by unfold SIZE_MAX; omega
  simp only
  rw [if_pos ⟨h1, nat_ne_itemMax (by omega)⟩, toSize_natCast (by omega)]

theorem getAt_render {P S : List Rec} {r : Rec} (hs : 256 + total (P ++ r :: S) < 1152921504606846976)
    (n : Nat) : getAt (render (P ++ r :: S)) (256 + total P) n =
      if h : n < r.vals.length then r.vals[n] else ITEM_MAX := by
  have htl := total_cons_le P S r
  unfold getAt
  rw [amountAt_render hs]
  by_cases h : n < r.vals.length
  · rw [if_pos h, dif_pos h, usz_of_lt (by omega), vget_val _ _ _ h]
  · rw [if_neg h, dif_neg h]

theorem setAt_render {P S : List Rec} {r : Rec} (hs : 256 + total (P ++ r :: S) < 1152921504606846976)
    (n : Nat) (v : Int) : setAt (render (P ++ r :: S)) (256 + total P) n v =
      if n < r.vals.length then (0, render (P ++ { r with vals := r.vals.set n v } :: S))
      else (-1, render (P ++ r :: S)) := by
  have htl := total_cons_le P S r
  unfold setAt
  rw [amountAt_render hs]
  by_cases h : n < r.vals.length
  · rw [if_pos h, if_pos h, usz_of_lt (by omega), vset_val _ _ _ h]
    unfold vsetCode
    rw [if_pos (by rw [render_length]; omega)]
  · rw [if_neg h, if_neg h]

theorem removeAt_render {P S : List Rec} {r : Rec}
    (hs : 256 + total (P ++ r :: S) < 1152921504606846976) :
    removeAt (render (P ++ r :: S)) (256 + total P) =
      (0, render (P ++ { r with key := ITEM_MAX } :: S)) := by
  have htl := total_cons_le P S r
  unfold removeAt
  have h1 : 256 + total P ≠ SIZE_MAX := by unfold SIZE_MAX; omega
  rw [if_pos h1, usz_of_lt (by omega), vset_key]
  unfold vsetCode
  rw [if_pos (by rw [render_length]; omega)]

theorem total_replace (P S : List Rec) {r r' : Rec} (hl : r'.vals.length = r.vals.length) :
    total (P ++ r' :: S) = total (P ++ r :: S) := by
  rw [total_append, total_append]; simp [total, Rec.sz, hl]

/-- Uniqueness seen from one record. -/
theorem WF.others {P S : List Rec} {r : Rec} (w : WF (P ++ r :: S)) (hk : r.key ≠ ITEM_MAX) :
    (∀ q ∈ P, q.key ≠ r.key) ∧ (∀ q ∈ S, q.key ≠ r.key) := by
  have := w.uniq
  rw [List.pairwise_append] at this
  obtain ⟨_, h2, h3⟩ := this
  rw [List.pairwise_cons] at h2
  refine ⟨?_, ?_⟩
  · intro q hq hqk
    exact h3 q hq r (by simp) (by rw [hqk]; exact hk) hqk
  · intro q hq hqk
    exact h2.1 q hq hk hqk.symm

theorem WF.replace {P S : List Rec} {r r' : Rec} (w : WF (P ++ r :: S))
    (hb : r'.bucket = r.bucket) (hl : r'.vals.length = r.vals.length)
    (hh : r'.key ≠ ITEM_MAX → r.bucket = getHash r'.key)
    (hu : r'.key ≠ ITEM_MAX → (∀ q ∈ P, q.key ≠ r'.key) ∧ (∀ q ∈ S, q.key ≠ r'.key)) :
    WF (P ++ r' :: S) := by
  constructor
  · intro q hq
    simp only [List.mem_append, List.mem_cons] at hq
    rcases hq with hq | rfl | hq
    · exact w.bucket q (by simp [hq])
    · rw [hb]; exact w.bucket r (by simp)
    · exact w.bucket q (by simp [hq])
  · intro q hq hk
    simp only [List.mem_append, List.mem_cons] at hq
    rcases hq with hq | rfl | hq
    · exact w.hash q (by simp [hq]) hk
    · rw [hb]; exact hh hk
    · exact w.hash q (by simp [hq]) hk
  · have := w.uniq
    rw [List.pairwise_append] at this ⊢
    obtain ⟨h1, h2, h3⟩ := this
    rw [List.pairwise_cons] at h2
    refine ⟨h1, ?_, ?_⟩
    · rw [List.pairwise_cons]
      refine ⟨?_, h2.2⟩
      intro q hq hk e
      exact (hu hk).2 q hq e.symm
    · intro q hq x hx hk e
      simp only [List.mem_cons] at hx
      rcases hx with rfl | hx
      · exact (hu (by rw [← e]; exact hk)).1 q hq e
      · exact h3 q hq x (by simp [hx]) hk e
  · rw [total_replace P S hl]; exact w.small

/-- Replacing the values of a live record. -/
theorem rep_vals {s A P r S} (h : Rep s A (P ++ r :: S)) (hk : r.key ≠ ITEM_MAX) (n : Nat) (v : Int) :
    Rep { s with hs := render (P ++ { r with vals := r.vals.set n v } :: S) }
      (upd A r.key (some (256 + total P, r.vals.set n v)))
      (P ++ { r with vals := r.vals.set n v } :: S) := by
  have ho := h.wf.others hk
  have hA : A r.key = some (256 + total P, r.vals) := by
    rw [h.tbl _ hk]; exact tbl_hit ho.1 rfl
  constructor
  · rfl
  · exact h.wf.replace rfl (by simp) (fun _ => h.wf.hash r (by simp) hk) (fun _ => ho)
  · intro k hkm
    unfold upd
    split
    · rename_i e; subst e
      exact (tbl_hit (r := { r with vals := r.vals.set n v }) ho.1 rfl).symm
    · rename_i e
      rw [h.tbl k hkm]
      exact (tbl_replace (r := r) (r' := { r with vals := r.vals.set n v }) (by simp)
        (fun x => e x.symm) (fun x => e x.symm)).symm
  · intro k
    simp only [upd]
    rw [h.held]
    split
    · rename_i e; subst e; rw [hA]; rfl
    · rfl
  · unfold upd; rw [if_neg (fun e => hk e.symm)]; exact h.top

/-- Removing a live record. -/
theorem rep_removed {s A P r S} (h : Rep s A (P ++ r :: S)) (hk : r.key ≠ ITEM_MAX) :
    Rep { hs := render (P ++ { r with key := ITEM_MAX } :: S), held := upd s.held r.key none }
      (upd A r.key none) (P ++ { r with key := ITEM_MAX } :: S) := by
  have ho := h.wf.others hk
  constructor
  · rfl
  · exact h.wf.replace rfl rfl (fun e => absurd rfl e) (fun e => absurd rfl e)
  · intro k hkm
    unfold upd
    split
    · rename_i e; subst e
      symm
      rw [tbl_none]
      intro q hq
      simp only [List.mem_append, List.mem_cons] at hq
      rcases hq with hq | rfl | hq
      · exact ho.1 q hq
      · exact fun e => hkm e.symm
      · exact ho.2 q hq
    · rename_i e
      rw [h.tbl k hkm]
      exact (tbl_replace (r := r) (r' := { r with key := ITEM_MAX }) rfl (fun x => e x.symm)
        (fun x => hkm x.symm)).symm
  · intro k
    simp only [upd]
    split
    · rfl
    · exact h.held k
  · unfold upd; rw [if_neg (fun e => hk e.symm)]; exact h.top

/-- Two different records of a table do not overlap. -/
theorem splits_disjoint {P S P' S' : List Rec} {r r' : Rec} (h : P ++ r :: S = P' ++ r' :: S')
    (hne : r ≠ r') : total P + r.sz ≤ total P' ∨ total P' + r'.sz ≤ total P := by
  rw [List.append_eq_append_iff] at h
  rcases h with ⟨a, h1, h2⟩ | ⟨a, h1, h2⟩
  · cases a with
    | nil => simp at h2; exact absurd h2.1 hne
    | cons x a =>
      simp at h2
      left
      rw [h1, total_append, h2.1]; simp only [total]; omega
  · cases a with
    | nil => simp at h2; exact absurd h2.1.symm hne
    | cons x a =>
      simp at h2
      right
      rw [h1, total_append, h2.1]; simp only [total]; omega

theorem clearRecord_render {P S : List Rec} {r : Rec}
    (hs : 256 + total (P ++ r :: S) < 1152921504606846976) {m : Nat} (hm : m ≤ r.vals.length) :
    clearRecord (render (P ++ r :: S)) ((256 + total P : Nat) : Int) m =
      render (P ++ { r with vals := List.replicate m 0 ++ r.vals.drop m } :: S) := by
  have htl := total_cons_le P S r
  induction m with
  | zero => simp [clearRecord]
  | succ m ih =>
    unfold clearRecord
    rw [ih (by omega), toSize_natCast (by omega), usz_of_lt (by omega)]
    rw [vset_val _ _ _ (by simp; omega)]
    have : (List.replicate m (0 : Int) ++ r.vals.drop m).set m 0 =
        List.replicate (m + 1) 0 ++ r.vals.drop (m + 1) := by
      rw [List.set_append_right _ _ (by simp)]
      have hd : r.vals.drop m = r.vals[m] :: r.vals.drop (m + 1) := List.drop_eq_getElem_cons (by omega)
      rw [hd, List.length_replicate, Nat.sub_self, List.set_cons_zero, List.replicate_succ']
      simp
    simp only [this]

theorem tomb_some {b n off : Nat} {R : List Rec} {p : Nat} (h : tomb b n off R = some p) :
    ∃ P r S, R = P ++ r :: S ∧ p = off + total P ∧ r.bucket = b ∧ r.key = ITEM_MAX ∧ r.vals.length = n := by
  induction R generalizing off with
  | nil => simp [tomb] at h
  | cons r R ih =>
    rw [tomb_cons] at h
    split at h
    · rename_i hc
      cases h
      exact ⟨[], r, R, rfl, by simp [total], hc⟩
    · obtain ⟨P, r', S, h1, h2, h3⟩ := ih h
      exact ⟨r :: P, r', S, by simp [h1], by simp only [total]; omega, h3⟩

/-- Hanging a new record behind the table. -/
theorem addFinish_new {R : List Rec} {k : Int} {n : Nat}
    (hs : 256 + total R + 3 + n < 1152921504606846976) :
    addFinish (render R) k n (linkPos (getHash k) R) 0 =
      (256 + total R, render (R ++ [{ bucket := getHash k, key := k, vals := List.replicate n 0 }])) := by
  unfold addFinish
  simp only [if_true]
  have hitem : toItem (render R).length = ((256 + total R : Nat) : Int) := by
    rw [render_length, toItem_of_lt (by omega)]
  rw [hitem, toSize_natCast (by omega), usz_of_lt (show 3 + n < _ by omega),
    usz_of_lt (show 256 + total R + 2 < _ by omega), usz_of_lt (show 256 + total R + 1 < _ by omega),
    toItem_of_lt (by omega), render_append _ _ (getHash_lt k)]
  congr 1
  unfold vinc
  generalize hl : vset (render R) (linkPos (getHash k) R) ((256 + total R : Nat) : Int) = L
  have hlen : L.length = 256 + total R := by
    rw [← hl]; unfold vset; rw [List.length_set, render_length]
  unfold vset
  rw [List.set_append_right _ _ (by omega), List.set_append_right _ _ (by omega), hlen,
    Nat.add_sub_cancel_left, Nat.add_sub_cancel_left, show 3 + n = n + 1 + 1 + 1 by omega]
  simp [List.replicate_succ]

theorem addFinish_reuse {P S : List Rec} {r : Rec} {k : Int} {n prev : Nat}
    (hs : 256 + total (P ++ r :: S) < 1152921504606846976) :
    addFinish (render (P ++ r :: S)) k n prev ((256 + total P : Nat) : Int) =
      (256 + total P, render (P ++ { r with key := k } :: S)) := by
  have htl := total_cons_le P S r
  unfold addFinish
  rw [if_neg (by omega), toSize_natCast (by omega), usz_of_lt (by omega), vset_key]

/-- A live record of the map is a record of the list. -/
theorem Rep.split {s A R} (h : Rep s A R) {k : Int} {i : Nat} {vs : List Int}
    (hA : A k = some (i, vs)) :
    k ≠ ITEM_MAX ∧ ∃ P r S, R = P ++ r :: S ∧ r.key = k ∧ i = 256 + total P ∧ vs = r.vals ∧
      ∀ q ∈ P, q.key ≠ k := by
  have hk : k ≠ ITEM_MAX := by
    intro e; rw [e, h.top] at hA; cases hA
  refine ⟨hk, ?_⟩
  rw [h.tbl k hk] at hA
  exact tbl_some hA

theorem rep_add {s A R} (h : Rep s A R) {k : Int} (hk : k ≠ ITEM_MAX) {n : Nat}
    (hs : 256 + total R + 3 + n < 1152921504606846976) :
    ∃ r s' A' R', step s (.add k n) = some (r, s') ∧ TStep A (.add k n) r A' ∧ Rep s' A' R' ∧
      total R' ≤ total R + (3 + n) := by
  have hl := length_le_total R
  have hrl := render_length R
  cases hA : A k with
  | some p =>
    obtain ⟨i, vs⟩ := p
    obtain ⟨_, P, r, S, h1, h2, h3, h4, h5⟩ := h.split hA
    have hb : r.bucket = getHash k := by
      rw [← h2]; exact h.wf.hash r (by simp [h1]) (by rw [h2]; exact hk)
    have hf := addLoop_found (b := getHash k) (key := k) (n := n) hk R [] ((render R).length + 1)
      (getHash k) ITEM_MAX (by simpa using h.wf.small) ⟨r, by simp [h1], hb, h2⟩ (by omega)
    simp only [List.nil_append, total, Nat.add_zero] at hf
    refine ⟨.idx SIZE_MAX, s, A, R, ?_, .addPresent _ _ _ _ hA, h, by omega⟩
    have hne : first (getHash k) 256 R ≠ 0 := by
      rw [Ne, first_eq_zero _ _ _ (by omega)]
      intro hn
      have : ∀ (off : Nat) (R : List Rec), last (getHash k) off R = none →
          ∀ q ∈ R, q.bucket ≠ getHash k := by
        intro off R
        induction R generalizing off with
        | nil => simp
        | cons a R ih =>
          intro hl q hq
          rw [last_cons] at hl
          split at hl
          · cases hl
          · rename_i hn'
            simp at hq
            rcases hq with rfl | hq
            · intro e; simp [e] at hl
            · exact ih _ hn' q hq
      exact this _ _ hn r (by simp [h1]) hb
    unfold step hashAdd
    simp only [h.hs, vget_bucket R (getHash_lt k)]
    have he : s = { s with hs := render R } := by rw [← h.hs]
    rw [if_pos (by omega), hf]
    simp [← he]
  | none =>
    have habs : ∀ q ∈ R, q.key ≠ k := by
      rw [h.tbl k hk] at hA
      exact tbl_none.1 hA
    -- a fresh record
    have fresh : ∃ s' A' R', (some (Res.idx (256 + total R),
          ({ hs := render (R ++ [{ bucket := getHash k, key := k, vals := List.replicate n 0 }]),
             held := if 256 + total R = SIZE_MAX then s.held else upd s.held k (some (256 + total R)) } : St)) =
          some (Res.idx (256 + total R), s')) ∧
        TStep A (.add k n) (.idx (256 + total R)) A' ∧ Rep s' A' R' ∧ total R' ≤ total R + (3 + n) := by
      have hne : 256 + total R ≠ SIZE_MAX := by unfold SIZE_MAX; omega
      refine ⟨_, upd A k (some (256 + total R, List.replicate n 0)),
        R ++ [{ bucket := getHash k, key := k, vals := List.replicate n 0 }], rfl, ?_, ?_, ?_⟩
      · refine .add _ _ _ _ hA hne ?_
        intro k' j vs hk'
        obtain ⟨_, P, r, S, h1, h2, h3, h4, h5⟩ := h.split hk'
        right
        rw [h1, total_append, h3, h4]; simp only [total, Rec.sz]; omega
      · constructor
        · rfl
        · constructor
          · intro q hq
            simp only [List.mem_append, List.mem_singleton] at hq
            rcases hq with hq | rfl
            · exact h.wf.bucket q hq
            · exact getHash_lt k
          · intro q hq hqk
            simp only [List.mem_append, List.mem_singleton] at hq
            rcases hq with hq | rfl
            · exact h.wf.hash q hq hqk
            · rfl
          · rw [List.pairwise_append]
            refine ⟨h.wf.uniq, by simp, ?_⟩
            intro q hq x hx _
            simp only [List.mem_singleton] at hx
            subst hx
            exact habs q hq
          · rw [total_snoc]; simp only [Rec.sz, List.length_replicate]; omega
        · intro k' hkm
          unfold upd
          split
          · rename_i e; subst e
            rw [tbl_hit habs rfl]
          · rename_i e
            rw [h.tbl k' hkm]
            exact (tbl_snoc (fun x => e x.symm)).symm
        · intro k'
          simp only [hne, if_false, upd]
          rw [h.held]
          split <;> rfl
        · unfold upd; rw [if_neg (fun e => hk e.symm)]; exact h.top
      · rw [total_snoc]; simp only [Rec.sz, List.length_replicate]; omega
    by_cases h0 : first (getHash k) 256 R = 0
    · obtain ⟨s', A', R', e1, e2, e3, e4⟩ := fresh
      refine ⟨_, s', A', R', ?_, e2, e3, e4⟩
      rw [← e1]
      unfold step hashAdd
      simp only [h.hs, vget_bucket R (getHash_lt k)]
      rw [if_neg (by omega), h0]
      have hlp : linkPos (getHash k) R = getHash k := by
        unfold linkPos; rw [(first_eq_zero _ _ _ (by omega)).1 h0]
      have := addFinish_new (k := k) hs
      rw [hlp] at this
      simp only [Int.natCast_zero] at *
      rw [this]
    · have hw := addLoop_absent (b := getHash k) (key := k) (n := n) (by omega) R []
        ((render R).length + 1) (getHash k) ITEM_MAX (by simpa using h.wf.small)
        (fun q hq _ => habs q hq) (by omega)
      simp only [List.nil_append, total, Nat.add_zero, walkEnd] at hw
      rw [if_neg (by simp)] at hw
      have hlp : (last (getHash k) 256 R).getD (getHash k) = linkPos (getHash k) R := by
        unfold linkPos; cases last (getHash k) 256 R <;> rfl
      rw [hlp] at hw
      cases ht : tomb (getHash k) n 256 R with
      | none =>
        rw [ht] at hw
        obtain ⟨s', A', R', e1, e2, e3, e4⟩ := fresh
        refine ⟨_, s', A', R', ?_, e2, e3, e4⟩
        rw [← e1]
        unfold step hashAdd
        simp only [h.hs, vget_bucket R (getHash_lt k)]
        have hz : (0 : Int) ≠ ITEM_MAX := by unfold ITEM_MAX; decide
        rw [if_pos (by omega), hw]
        simp only [ne_eq, not_true_eq_false, if_false, hz, addFinish_new (k := k) hs]
      | some p =>
        rw [ht] at hw
        obtain ⟨P, r, S, h1, h2, h3, h4, h5⟩ := tomb_some ht
        subst h1
        have hsm := h.wf.small
        have htl := total_cons_le P S r
        have hlen : (({ r with vals := List.replicate n 0 } : Rec).vals.length) = r.vals.length := by simp [h5]
        have hc := clearRecord_render hsm (Nat.le_of_eq h5.symm)
        have hdrop : r.vals.drop n = [] := by simp [h5]
        rw [hdrop, List.append_nil] at hc
        have hne : 256 + total P ≠ SIZE_MAX := by unfold SIZE_MAX; omega
        have hoth : (∀ q ∈ P, q.key ≠ k) ∧ (∀ q ∈ S, q.key ≠ k) :=
          ⟨fun q hq => habs q (by simp [hq]), fun q hq => habs q (by simp [hq])⟩
        refine ⟨.idx (256 + total P),
          { hs := render (P ++ { r with key := k, vals := List.replicate n 0 } :: S),
            held := upd s.held k (some (256 + total P)) },
          upd A k (some (256 + total P, List.replicate n 0)),
          P ++ { r with key := k, vals := List.replicate n 0 } :: S, ?_, ?_, ?_, ?_⟩
        · unfold step hashAdd
          simp only [h.hs, vget_bucket _ (getHash_lt k)]
          rw [if_pos (by omega), hw]
          simp only [h2]
          rw [if_pos (nat_ne_itemMax (by omega)), hc,
            addFinish_reuse (r := { r with vals := List.replicate n 0 })
              (by rw [total_replace P S hlen]; exact hsm)]
          simp only [hne, if_false]
        · refine .add _ _ _ _ hA hne ?_
          intro k' j vs hk'
          obtain ⟨hk'm, P', r', S', g1, g2, g3, g4, g5⟩ := h.split hk'
          have hrr : r ≠ r' := by
            intro e; rw [← e, h4] at g2; exact hk'm g2.symm
          have := splits_disjoint g1 hrr
          unfold Disjoint
          simp only [Rec.sz] at this
          rw [g3, g4]; omega
        · constructor
          · rfl
          · exact h.wf.replace rfl (by simp [h5]) (fun _ => h3) (fun _ => hoth)
          · intro k' hkm
            unfold upd
            split
            · rename_i e; subst e
              rw [tbl_hit hoth.1 rfl]
            · rename_i e
              rw [h.tbl k' hkm]
              exact (tbl_replace (r := r) (r' := { r with key := k, vals := List.replicate n 0 })
                (by simp [h5]) (by rw [h4]; exact fun x => hkm x.symm) (fun x => e x.symm)).symm
          · intro k'
            simp only [upd]
            rw [h.held]
            split <;> rfl
          · unfold upd; rw [if_neg (fun e => hk e.symm)]; exact h.top
        · rw [total_replace (r := r) P S (by simp [h5])]; omega

theorem Rep.absent {s A R} (h : Rep s A R) {k : Int} (hk : k ≠ ITEM_MAX) (hA : A k = none) :
    getIndex s.hs k = some SIZE_MAX := by
  rw [h.tbl k hk, tbl_none] at hA
  rw [h.hs]
  exact getIndex_absent h.wf hA

theorem amountAt_sizeMax (hs : List Int) : amountAt hs SIZE_MAX = 0 := by
  simp [amountAt]

theorem rep_step {s A R} (h : Rep s A R) (op : Op) (hk : op.key ≠ ITEM_MAX)
    (hc : 256 + total R + op.cost < 1152921504606846976) :
    ∃ r s' A' R', step s op = some (r, s') ∧ TStep A op r A' ∧ Rep s' A' R' ∧
      total R' ≤ total R + op.cost := by
  cases op with
  | add k n => exact rep_add h hk (by simp only [Op.cost] at hc; omega)
  | set k n v =>
    simp only [Op.key] at hk
    cases hA : A k with
    | none =>
      refine ⟨.idx SIZE_MAX, s, A, R, ?_, .setOut _ _ _ _ (by simp [hA]), h, by omega⟩
      simp [step, hashSet, h.absent hk hA, setAt, amountAt_sizeMax]
    | some p =>
      obtain ⟨i, vs⟩ := p
      obtain ⟨_, P, r, S, h1, h2, h3, h4, h5⟩ := h.split hA
      subst h1
      have hg := getIndex_found h.wf hk h5 h2
      have hsa := setAt_render h.wf.small n v
      by_cases hn : n < vs.length
      · have hr : r.key ≠ ITEM_MAX := by rw [h2]; exact hk
        have hrep := rep_vals h hr n v
        rw [show upd A r.key (some (256 + total P, r.vals.set n v)) =
          upd A k (some (i, vs.set n v)) by rw [h2, h4, h3]] at hrep
        refine ⟨.idx i, _, _, _, ?_, .set _ _ _ _ _ _ hA hn, hrep, by
          rw [total_replace (r := r) P S (by simp)]; omega⟩
        rw [h4] at hn
        simp [step, hashSet, h.hs, hg, hsa, hn, h3]
      · refine ⟨.idx SIZE_MAX, s, A, _, ?_, .setOut _ _ _ _ ?_, h, by omega⟩
        · have hn' : ¬ n < r.vals.length := by rw [← h4]; exact hn
          have he : s = { s with hs := render (P ++ r :: S) } := by rw [← h.hs]
          simp [step, hashSet, h.hs, hg, hsa, hn', ← he]
        · intro i' vs' e
          rw [hA] at e; cases e; omega
  | get k n =>
    simp only [Op.key] at hk
    cases hA : A k with
    | none =>
      refine ⟨.item ITEM_MAX, s, A, R, ?_, .getOut _ _ _ (by simp [hA]), h, by omega⟩
      simp [step, hashGet, h.absent hk hA, getAt, amountAt_sizeMax]
    | some p =>
      obtain ⟨i, vs⟩ := p
      obtain ⟨_, P, r, S, h1, h2, h3, h4, h5⟩ := h.split hA
      subst h1
      have hg := getIndex_found h.wf hk h5 h2
      have hga := getAt_render h.wf.small n
      by_cases hn : n < vs.length
      · refine ⟨.item vs[n], s, A, _, ?_, .get _ _ _ _ _ hA hn, h, by omega⟩
        subst h4
        simp [step, hashGet, h.hs, hg, hga, hn]
      · refine ⟨.item ITEM_MAX, s, A, _, ?_, .getOut _ _ _ ?_, h, by omega⟩
        · subst h4
          simp [step, hashGet, h.hs, hg, hga, hn]
        · intro i' vs' e
          rw [hA] at e; cases e; omega
  | amount k =>
    simp only [Op.key] at hk
    cases hA : A k with
    | none =>
      refine ⟨.idx 0, s, A, R, ?_, .amountAbsent _ _ hA, h, by omega⟩
      simp [step, getAmount, h.absent hk hA, amountAt_sizeMax]
    | some p =>
      obtain ⟨i, vs⟩ := p
      obtain ⟨_, P, r, S, h1, h2, h3, h4, h5⟩ := h.split hA
      subst h1
      have hg := getIndex_found h.wf hk h5 h2
      refine ⟨.idx vs.length, s, A, _, ?_, .amount _ _ _ _ hA, h, by omega⟩
      simp [step, getAmount, h.hs, hg, amountAt_render h.wf.small, h4]
  | index k =>
    simp only [Op.key] at hk
    cases hA : A k with
    | none =>
      exact ⟨.idx SIZE_MAX, s, A, R, by simp [step, h.absent hk hA], .indexAbsent _ _ hA, h, by omega⟩
    | some p =>
      obtain ⟨i, vs⟩ := p
      obtain ⟨_, P, r, S, h1, h2, h3, h4, h5⟩ := h.split hA
      subst h1
      have hg := getIndex_found h.wf hk h5 h2
      exact ⟨.idx i, s, A, _, by simp [step, h.hs, hg, h3], .index _ _ _ _ hA, h, by omega⟩
  | remove k =>
    simp only [Op.key] at hk
    cases hA : A k with
    | none =>
      refine ⟨.code (-1), s, A, R, ?_, .removeAbsent _ _ hA, h, by omega⟩
      have hh : upd s.held k none = s.held := by
        funext x; unfold upd; split
        · rename_i e; subst e; rw [h.held, hA]; rfl
        · rfl
      simp [step, hashRemove, h.absent hk hA, removeAt, hh]
    | some p =>
      obtain ⟨i, vs⟩ := p
      obtain ⟨_, P, r, S, h1, h2, h3, h4, h5⟩ := h.split hA
      subst h1
      have hg := getIndex_found h.wf hk h5 h2
      have hr : r.key ≠ ITEM_MAX := by rw [h2]; exact hk
      have hrep := rep_removed h hr
      rw [h2] at hrep
      refine ⟨.code 0, _, _, _, ?_, .remove _ _ _ hA, hrep, by
        rw [total_replace (r := r) (r' := { r with key := ITEM_MAX }) P S rfl]; omega⟩
      simp [step, hashRemove, h.hs, hg, removeAt_render h.wf.small]
  | setAt k n v =>
    simp only [Op.key] at hk
    cases hA : A k with
    | none =>
      refine ⟨.skipped, s, A, R, ?_, .skipped _ _ hA (Or.inl ⟨_, _, _, rfl⟩), h, by omega⟩
      simp [step, h.held, hA]
    | some p =>
      obtain ⟨i, vs⟩ := p
      obtain ⟨_, P, r, S, h1, h2, h3, h4, h5⟩ := h.split hA
      subst h1
      have hsa := setAt_render h.wf.small n v
      by_cases hn : n < vs.length
      · have hr : r.key ≠ ITEM_MAX := by rw [h2]; exact hk
        have hrep := rep_vals h hr n v
        rw [show upd A r.key (some (256 + total P, r.vals.set n v)) =
          upd A k (some (i, vs.set n v)) by rw [h2, h4, h3]] at hrep
        refine ⟨.code 0, _, _, _, ?_, .setAt _ _ _ _ _ _ hA hn, hrep, by
          rw [total_replace (r := r) P S (by simp)]; omega⟩
        rw [h4] at hn
        simp [step, h.held, hA, h.hs, hsa, hn, h3, h4]
      · refine ⟨.code (-1), s, A, _, ?_, .setAtOut _ _ _ _ _ _ hA (by omega), h, by omega⟩
        have hn' : ¬ n < r.vals.length := by rw [← h4]; exact hn
        have he : s = { s with hs := render (P ++ r :: S) } := by rw [← h.hs]
        simp [step, h.held, hA, h.hs, h3, hsa, hn', ← he]
  | getAt k n =>
    simp only [Op.key] at hk
    cases hA : A k with
    | none =>
      refine ⟨.skipped, s, A, R, ?_, .skipped _ _ hA (Or.inr (Or.inl ⟨_, _, rfl⟩)), h, by omega⟩
      simp [step, h.held, hA]
    | some p =>
      obtain ⟨i, vs⟩ := p
      obtain ⟨_, P, r, S, h1, h2, h3, h4, h5⟩ := h.split hA
      subst h1
      have hga := getAt_render h.wf.small n
      by_cases hn : n < vs.length
      · refine ⟨.item vs[n], s, A, _, ?_, .getAt _ _ _ _ _ hA hn, h, by omega⟩
        subst h4
        simp [step, h.held, hA, h.hs, h3, hga, hn]
      · refine ⟨.item ITEM_MAX, s, A, _, ?_, .getAtOut _ _ _ _ _ hA (by omega), h, by omega⟩
        subst h4
        simp [step, h.held, hA, h.hs, h3, hga, hn]
  | keyAt k =>
    simp only [Op.key] at hk
    cases hA : A k with
    | none =>
      refine ⟨.skipped, s, A, R, ?_, .skipped _ _ hA (Or.inr (Or.inr (Or.inl ⟨_, rfl⟩))), h, by omega⟩
      simp [step, h.held, hA]
    | some p =>
      obtain ⟨i, vs⟩ := p
      obtain ⟨_, P, r, S, h1, h2, h3, h4, h5⟩ := h.split hA
      subst h1
      have hsm := h.wf.small
      have htl := total_cons_le P S r
      refine ⟨.item k, s, A, _, ?_, .keyAt _ _ _ hA, h, by omega⟩
      have : getKey (render (P ++ r :: S)) (256 + total P) = k := by
        unfold getKey; rw [usz_of_lt (by omega), vget_key, h2]
      simp [step, h.held, hA, h.hs, h3, this]
  | removeAt k =>
    simp only [Op.key] at hk
    cases hA : A k with
    | none =>
      refine ⟨.skipped, s, A, R, ?_, .skipped _ _ hA (Or.inr (Or.inr (Or.inr ⟨_, rfl⟩))), h, by omega⟩
      simp [step, h.held, hA]
    | some p =>
      obtain ⟨i, vs⟩ := p
      obtain ⟨_, P, r, S, h1, h2, h3, h4, h5⟩ := h.split hA
      subst h1
      have hr : r.key ≠ ITEM_MAX := by rw [h2]; exact hk
      have hrep := rep_removed h hr
      rw [h2] at hrep
      refine ⟨.code 0, _, _, _, ?_, .removeAt _ _ _ hA, hrep, by
        rw [total_replace (r := r) (r' := { r with key := ITEM_MAX }) P S rfl]; omega⟩
      simp [step, h.held, hA, h.hs, h3, removeAt_render h.wf.small]

theorem rep_run' {s A R} (h : Rep s A R) (ops : List Op) (hk : ∀ op ∈ ops, op.key ≠ ITEM_MAX)
    (hc : 256 + total R + (ops.map Op.cost).sum < 1152921504606846976) :
    ∃ rs s' A' R', run s ops = some (rs, s') ∧ TRun A ops rs A' ∧ Rep s' A' R' ∧
      total R' ≤ total R + (ops.map Op.cost).sum := by
  induction ops generalizing s A R with
  | nil => exact ⟨_, _, _, _, rfl, .nil _, h, by simp⟩
  | cons op ops ih =>
    simp only [List.map_cons, List.sum_cons] at hc ⊢
    obtain ⟨r, s', A', R', h1, h2, h3, h4⟩ := rep_step h op (hk op (by simp)) (by omega)
    obtain ⟨rs, s'', A'', R'', h5, h6, h7, h8⟩ := ih h3 (fun o ho => hk o (by simp [ho])) (by omega)
    exact ⟨_, _, _, _, by simp [run, h1, h5], .cons h2 h6, h7, by omega⟩

theorem rep_run {s A R} (h : Rep s A R) (ops : List Op) (hk : ∀ op ∈ ops, op.key ≠ ITEM_MAX)
    (hc : 256 + total R + (ops.map Op.cost).sum < 1152921504606846976) :
    ∃ rs s' A' R', run s ops = some (rs, s') ∧ TRun A ops rs A' ∧ Rep s' A' R' := by
  obtain ⟨rs, s', A', R', h1, h2, h3, _⟩ := rep_run' h ops hk hc
  exact ⟨rs, s', A', R', h1, h2, h3⟩

theorem rep_observe {s A R} (h : Rep s A R) {k i vs} (hA : A k = some (i, vs)) :
    getIndex s.hs k = some i ∧ s.held k = some i ∧
        i ≠ SIZE_MAX ∧ getKey s.hs i = k ∧ amountAt s.hs i = vs.length ∧
        ∀ n, getAt s.hs i n = vs.getD n ITEM_MAX := by
  obtain ⟨hk, P, r, S, h1, h2, h3, h4, h5⟩ := h.split hA
  subst h1
  have hsm := h.wf.small
  have htl := total_cons_le P S r
  have hh := h.held k
  rw [hA] at hh
  rw [h.hs, h3] at *
  refine ⟨getIndex_found h.wf hk h5 h2, hh, by unfold SIZE_MAX; omega, ?_, ?_, ?_⟩
  · unfold getKey; rw [usz_of_lt (by omega), vget_key, h2]
  · rw [amountAt_render hsm, h4]
  · intro n
    rw [getAt_render hsm, h4]
    by_cases hn : n < r.vals.length
    · simp [hn]
    · simp [hn]

theorem rep_disjoint {s A R} (h : Rep s A R) {k i vs k' i' vs'} (hA : A k = some (i, vs))
    (hA' : A k' = some (i', vs')) (hne : k ≠ k') : Disjoint i vs.length i' vs'.length := by
  obtain ⟨hk, P, r, S, h1, h2, h3, h4, h5⟩ := h.split hA
  obtain ⟨hk', P', r', S', g1, g2, g3, g4, g5⟩ := h.split hA'
  have := splits_disjoint (h1 ▸ g1) (by intro e; rw [e, g2] at h2; exact hne h2.symm)
  unfold Disjoint
  simp only [Rec.sz] at this
  rw [h3, g3, h4, g4]; omega

theorem TStep.other {A op r A'} (h : TStep A op r A') {k : Int} (ho : op.key ≠ k) : A' k = A k := by
  have ho' : ¬ k = op.key := fun e => ho e.symm
  cases h <;> simp only [Op.key] at ho' <;> simp [upd, ho']

theorem TRun.other {A ops rs A'} (h : TRun A ops rs A') {k : Int} (ho : ∀ op ∈ ops, op.key ≠ k) :
    A' k = A k := by
  induction h with
  | nil => rfl
  | cons h t ih =>
    rw [ih (fun o h => ho o (by simp [h])), h.other (ho _ (by simp))]

theorem rep_init : Rep St.init (fun _ => none) [] := by
  have hr : hashCreate = render [] := by
    unfold hashCreate vinc render MAX_HASH body heads
    simp only [first, List.nil_append, List.append_nil]
    rw [List.map_const', List.length_range]
    rfl
  constructor
  · exact hr
  · constructor
    · simp
    · simp
    · simp
    · simp [total]
  · intro k _; rfl
  · intro k; rfl
  · rfl

end RuC.Hash
