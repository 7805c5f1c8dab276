import Verif.Strings.Spec
import Verif.Map.Lemmas

/-! Helper lemmas: the layout of the texts in the block, and one call at a time. -/

namespace RuC.Strings
open RuC Utf8 Map

/-- The texts `L` lie one after the other between `pos` and `fin`, their starts are in the index
block from entry `i` on.  With `tight` there are no gaps. -/
def Layout (tight : Bool) (chars idx : List (Option Nat)) : Nat → Nat → List (List Nat) → Nat → Prop
  | _, pos, [], fin => pos ≤ fin ∧ (tight = true → pos = fin)
  | i, pos, t :: L, fin => ∃ st, idx[i]? = some (some st) ∧ pos ≤ st ∧ (tight = true → pos = st) ∧
      BytesAt chars st (t ++ [0]) ∧ 0 ∉ t ∧ Layout tight chars idx (i + 1) (st + t.length + 1) L fin

theorem layout_le {tight chars idx i pos L fin} (h : Layout tight chars idx i pos L fin) : pos ≤ fin := by
  induction L generalizing i pos with
  | nil => exact h.1
  | cons t L ih =>
    obtain ⟨st, _, h2, _, _, _, h6⟩ := h
    have := ih h6
    omega

theorem layout_mono {tight chars idx chars' idx' i pos L fin} (h : Layout tight chars idx i pos L fin)
    (hc : ∀ j, j < fin → chars'[j]? = chars[j]?) (hi : ∀ j, j < i + L.length → idx'[j]? = idx[j]?) :
    Layout tight chars' idx' i pos L fin := by
  induction L generalizing i pos with
  | nil => exact h
  | cons t L ih =>
    obtain ⟨st, h1, h2, h3, h4, h5, h6⟩ := h
    simp only [List.length_cons] at hi
    have := layout_le h6
    exact ⟨st, by rw [hi i (by omega)]; exact h1, h2, h3, bytesAt_mono h4 (by simp; omega) hc, h5,
      ih h6 (fun j hj => hi j (by omega))⟩

theorem layout_loose {tight chars idx i pos L fin fin'} (h : Layout tight chars idx i pos L fin)
    (hf : fin ≤ fin') : Layout false chars idx i pos L fin' := by
  induction L generalizing i pos with
  | nil => exact ⟨Nat.le_trans h.1 hf, fun e => by cases e⟩
  | cons t L ih =>
    obtain ⟨st, h1, h2, h3, h4, h5, h6⟩ := h
    exact ⟨st, h1, h2, (fun e => by cases e), h4, h5, ih h6⟩

theorem layout_snoc {tight chars idx i pos L t fin'} :
    Layout tight chars idx i pos (L ++ [t]) fin' ↔
      ∃ fin, Layout tight chars idx i pos L fin ∧ idx[i + L.length]? = some (some fin) ∧
        BytesAt chars fin (t ++ [0]) ∧ 0 ∉ t ∧ fin + t.length + 1 ≤ fin' ∧
        (tight = true → fin + t.length + 1 = fin') := by
  induction L generalizing i pos with
  | nil =>
    simp only [List.nil_append, Layout, List.length_nil, Nat.add_zero]
    constructor
    · rintro ⟨st, h1, h2, h3, h4, h5, h6, h7⟩
      exact ⟨st, ⟨h2, h3⟩, h1, h4, h5, h6, h7⟩
    · rintro ⟨st, ⟨h2, h3⟩, h1, h4, h5, h6, h7⟩
      exact ⟨st, h1, h2, h3, h4, h5, h6, h7⟩
  | cons u L ih =>
    simp only [List.cons_append, Layout, ih, List.length_cons]
    rw [show i + 1 + L.length = i + (L.length + 1) by omega]
    constructor
    · rintro ⟨st, h1, h2, h3, h4, h5, fin, h6, h7, h8, h9, h10, h11⟩
      exact ⟨fin, ⟨st, h1, h2, h3, h4, h5, h6⟩, h7, h8, h9, h10, h11⟩
    · rintro ⟨fin, ⟨st, h1, h2, h3, h4, h5, h6⟩, h7, h8, h9, h10, h11⟩
      exact ⟨st, h1, h2, h3, h4, h5, fin, h6, h7, h8, h9, h10, h11⟩

/-- The text with number `j`. -/
theorem layout_get {tight chars idx i pos L fin} (h : Layout tight chars idx i pos L fin) {j : Nat}
    {t : List Nat} (hj : L[j]? = some t) :
    ∃ st, idx[i + j]? = some (some st) ∧ BytesAt chars st (t ++ [0]) ∧ 0 ∉ t ∧ st + t.length + 1 ≤ fin ∧
      (tight = true → (j + 1 < L.length → idx[i + j + 1]? = some (some (st + t.length + 1))) ∧
        (j + 1 = L.length → fin = st + t.length + 1)) := by
  induction L generalizing i pos j with
  | nil => simp at hj
  | cons u L ih =>
    obtain ⟨st, h1, h2, h3, h4, h5, h6⟩ := h
    cases j with
    | zero =>
      simp only [List.getElem?_cons_zero, Option.some.injEq] at hj
      subst hj
      refine ⟨st, h1, h4, h5, layout_le h6, ?_⟩
      intro ht
      cases L with
      | nil => exact ⟨by simp, fun _ => (h6.2 ht).symm⟩
      | cons v L =>
        obtain ⟨st', g1, g2, g3, _⟩ := h6
        refine ⟨fun _ => ?_, by simp⟩
        rw [Nat.add_zero, g1, g3 ht]
    | succ j =>
      obtain ⟨st', g1, g2, g3, g4, g5⟩ := ih h6 (by simpa using hj)
      refine ⟨st', by rw [show i + (j + 1) = i + 1 + j by omega]; exact g1, g2, g3, g4, ?_⟩
      intro ht
      simp only [List.length_cons]
      rw [show i + (j + 1) + 1 = i + 1 + j + 1 by omega]
      obtain ⟨p, q⟩ := g5 ht
      exact ⟨fun e => p (by omega), fun e => q (by omega)⟩

/-! ### The invariant -/

structure Inv (s : Strs) (L : List (List Nat)) (tight : Bool) : Prop where
  layout : Layout tight s.chars s.idx 0 0 L s.size
  count : s.count = L.length
  cap : s.count ≤ s.idx.length
  icap : 1 ≤ s.idx.length
  size : s.size ≤ s.chars.length
  block : 256 ≤ s.chars.length
  blockMax : s.chars.length ≤ 2305843009213693952

theorem addIndex_spec {s : Strs} {L tight} (h : Inv s L tight) (ok : Nat → Bool)
    (hb : s.count < 1152921504606846976) :
    (∃ s', addIndex s ok = some (some s') ∧ Inv s' L tight ∧ s'.idx[s.count]? = some (some s.size) ∧
      s'.size = s.size ∧ s'.count = s.count ∧ s'.count < s'.idx.length) ∨
    ((∃ n, ok n = false) ∧ addIndex s ok = some none) := by
  unfold addIndex
  by_cases hfull : s.count = s.idx.length
  · have hz : usz (2 * s.idx.length) = 2 * s.idx.length := usz_of_lt (by omega)
    simp only [hz]
    cases hok : ok (2 * s.idx.length) with
    | false =>
      right
      exact ⟨⟨_, hok⟩, by rw [if_pos ⟨hfull, by simp⟩]⟩
    | true =>
      left
      have hic := h.icap
      have hl : (reallocOctets s.idx (2 * s.idx.length)).length = 2 * s.idx.length := by
        simp [reallocOctets]; omega
      rw [if_neg (by simp), if_pos hfull, if_pos (by rw [hl]; omega)]
      refine ⟨_, rfl, ⟨layout_mono h.layout (fun _ _ => rfl) ?_, h.count, ?_, ?_, h.size, h.block, h.blockMax⟩, ?_, rfl, rfl, ?_⟩
      · intro j hj
        have hc := h.count
        dsimp only
        rw [List.getElem?_set_ne (by omega)]
        simp only [reallocOctets]
        rw [List.getElem?_append_left (by simp; omega), List.getElem?_take]
        rw [if_pos (by omega)]
      · simp only [List.length_set, hl]; omega
      · simp only [List.length_set, hl]; omega
      · dsimp only; rw [List.getElem?_set_self (by rw [hl]; omega)]
      · simp only [List.length_set, hl]; omega
  · left
    have hcap := h.cap
    simp only [hfull, false_and, if_false]
    rw [if_pos (by omega)]
    refine ⟨_, rfl, ⟨layout_mono h.layout (fun _ _ => rfl) ?_, h.count, ?_, ?_, h.size, h.block, h.blockMax⟩, ?_, rfl, rfl, ?_⟩
    · intro j hj
      have hc := h.count
      dsimp only
      rw [List.getElem?_set_ne (by omega)]
    · simp only [List.length_set]; omega
    · simp only [List.length_set]; exact h.icap
    · dsimp only; rw [List.getElem?_set_self (by omega)]
    · simp only [List.length_set]; omega

/-- `s'` differs from `s` only in the text block from `n` on and in the text size. -/
structure Ext (n : Nat) (s s' : Strs) : Prop where
  idx : s'.idx = s.idx
  count : s'.count = s.count
  same : ∀ i, i < n → s'.chars[i]? = s.chars[i]?
  len : s.chars.length ≤ s'.chars.length
  max : s'.chars.length ≤ 2305843009213693952
  fit : s'.size ≤ s'.chars.length
  grow : s.size ≤ s'.size

theorem Ext.refl {n : Nat} {s : Strs} (h : s.chars.length ≤ 2305843009213693952) (hs : s.size ≤ s.chars.length) :
    Ext n s s := ⟨rfl, rfl, fun _ _ => rfl, Nat.le_refl _, h, hs, Nat.le_refl _⟩

theorem Ext.trans {n n' : Nat} {s s' s'' : Strs} (h : Ext n s s') (h' : Ext n' s' s'') (hn : n ≤ n') :
    Ext n s s'' :=
  ⟨h'.idx.trans h.idx, h'.count.trans h.count, fun i hi => (h'.same i (by omega)).trans (h.same i hi),
    Nat.le_trans h.len h'.len, h'.max, h'.fit, Nat.le_trans h.grow h'.grow⟩

theorem growFuel_eq : growFuel = 62 + 2 := by unfold growFuel; rfl

theorem increase_spec {s : Strs} {n : Nat} (ok : Nat → Bool) (h1 : s.size ≤ s.chars.length)
    (h2 : 256 ≤ s.chars.length) (h3 : s.chars.length ≤ 2305843009213693952) (hn : n ≤ 256)
    (h4 : s.size + n < 1152921504606846976) :
    (∃ s', increase growFuel s n ok = some (some s') ∧ Ext s.size s s' ∧ s'.size = s.size ∧
      s.size + n ≤ s'.chars.length) ∨
    ((∃ n, ok n = false) ∧ increase growFuel s n ok = some none) := by
  have hz : usz (s.size + n) = s.size + n := usz_of_lt (by omega)
  rw [growFuel_eq]
  by_cases hr : s.size + n ≤ s.chars.length
  · left
    refine ⟨s, ?_, Ext.refl h3 h1, rfl, hr⟩
    unfold increase
    rw [hz, if_pos hr]
  · have hd : usz (2 * s.chars.length) = 2 * s.chars.length := usz_of_lt (by omega)
    have hl : (reallocOctets s.chars (2 * s.chars.length)).length = 2 * s.chars.length := by
      simp [reallocOctets]; omega
    cases hok : ok (2 * s.chars.length) with
    | false =>
      right
      refine ⟨⟨_, hok⟩, ?_⟩
      unfold increase
      simp only [hz, hd, hok, if_neg hr, Bool.false_eq_true, if_false]
    | true =>
      left
      refine ⟨{ s with chars := reallocOctets s.chars (2 * s.chars.length) }, ?_, ⟨rfl, rfl, ?_, ?_, ?_, ?_, Nat.le_refl _⟩, rfl, ?_⟩
      · unfold increase
        simp only [hz, hd, hok, if_neg hr, if_true]
        unfold increase
        simp only [hz, hl, if_pos (show s.size + n ≤ 2 * s.chars.length by omega)]
      · intro i hi
        simp only [reallocOctets]
        rw [List.getElem?_append_left (by simp; omega), List.getElem?_take]
        rw [if_pos (by omega)]
      · dsimp only; omega
      · dsimp only; omega
      · dsimp only; omega
      · dsimp only; omega

theorem addLoop_spec {s : Strs} (ok : Nat → Bool) (t : List Nat) (h1 : s.size ≤ s.chars.length)
    (h2 : 256 ≤ s.chars.length) (h3 : s.chars.length ≤ 2305843009213693952)
    (h4 : s.size + t.length + 2 < 1152921504606846976) :
    (∃ s', addLoop ok t s = some (true, s') ∧ Ext s.size s s' ∧ s'.size = s.size + t.length ∧
      BytesAt s'.chars s.size t ∧ (t ≠ [] → s'.size + 1 ≤ s'.chars.length)) ∨
    ((∃ n, ok n = false) ∧ ∃ s', addLoop ok t s = some (false, s') ∧ Ext s.size s s' ∧
      s'.size ≤ s.size + t.length) := by
  induction t generalizing s with
  | nil =>
    left
    exact ⟨s, rfl, Ext.refl h3 h1, rfl, trivial, fun e => absurd rfl e⟩
  | cons c t ih =>
    simp only [List.length_cons] at h4 ⊢
    rcases increase_spec (n := 2) ok h1 h2 h3 (by omega) (by omega) with ⟨s1, e1, x1, z1, r1⟩ | ⟨hr, e1⟩
    · obtain ⟨mem, e2, l2, b2, w2⟩ := store_spec (mem := s1.chars) (pos := s1.size) (bs := [c])
        (by simp; omega)
      have x2 : Ext s1.size s1 { s1 with chars := mem, size := s1.size + 1 } :=
        ⟨rfl, rfl, b2, by simp [l2], by simp only [l2]; exact x1.max, by simp only [l2]; omega,
          Nat.le_add_right _ _⟩
      have hx := x1.trans x2 (by omega)
      have heq : addLoop ok (c :: t) s = addLoop ok t { s1 with chars := mem, size := s1.size + 1 } := by
        simp only [addLoop, e1, e2]
      rw [heq]
      rcases ih (s := { s1 with chars := mem, size := s1.size + 1 }) x2.fit
        (Nat.le_trans h2 hx.len) x2.max (by simp only [z1]; omega) with
        ⟨s', f1, f2, f3, f4, f5⟩ | ⟨hr, s', f1, f2, f3⟩
      · left
        refine ⟨s', f1, hx.trans f2 (by dsimp only; omega), by rw [f3]; dsimp only; omega, ?_, ?_⟩
        · dsimp only at f2 f4
          rw [z1] at f2 f4 w2
          refine ⟨?_, f4⟩
          rw [f2.same _ (by omega)]
          exact w2.1
        · intro _
          by_cases ht : t = []
          · subst ht
            simp only [addLoop, Option.some.injEq, Prod.mk.injEq, true_and] at f1
            subst f1
            dsimp only
            rw [l2]; omega
          · exact f5 ht
      · right
        exact ⟨hr, s', f1, hx.trans f2 (by dsimp only; omega), by dsimp only at f3; omega⟩
    · right
      refine ⟨hr, s, ?_, Ext.refl h3 h1, by omega⟩
      simp only [addLoop, e1]

theorem utf8Size_good {c : Nat} (h : Good c) : utf8Size c = (encode c).length := by
  have hlt := good_lt h
  unfold utf8Size encode
  simp only [and80 (show c < 4294967296 by omega), and800 (show c < 4294967296 by omega),
    and10000 (show c < 4294967296 by omega), and200000 (show c < 4294967296 by omega)]
  repeat' split
  all_goals first | rfl | omega

theorem addCodesLoop_spec {s : Strs} (ok : Nat → Bool) (ks tail : List Nat) (ht : ∀ x, tail.head? = some x → x = 0)
    (hg : ∀ c ∈ ks, c ≠ 0 ∧ Good c) (h1 : s.size ≤ s.chars.length)
    (h2 : 256 ≤ s.chars.length) (h3 : s.chars.length ≤ 2305843009213693952)
    (h4 : s.size + (octets ks).length + 8 < 1152921504606846976) :
    (∃ s', addCodesLoop ok (ks ++ tail) s = some (true, s') ∧ Ext s.size s s' ∧
      s'.size = s.size + (octets ks).length ∧ BytesAt s'.chars s.size (octets ks) ∧
      (ks ≠ [] → BytesAt s'.chars s.size (octets ks ++ [0]) ∧ s'.size + 1 ≤ s'.chars.length)) ∨
    ((∃ n, ok n = false) ∧ ∃ s', addCodesLoop ok (ks ++ tail) s = some (false, s') ∧ Ext s.size s s' ∧
      s'.size ≤ s.size + (octets ks).length) := by
  induction ks generalizing s with
  | nil =>
    left
    refine ⟨s, ?_, Ext.refl h3 h1, rfl, trivial, fun e => absurd rfl e⟩
    cases tail with
    | nil => rfl
    | cons x tail =>
      have := ht x rfl
      subst this
      rfl
  | cons c ks ih =>
    have hc := hg c (by simp)
    have hlen := encode_length (c := c)
    rw [octets_cons] at h4 ⊢
    simp only [List.length_append] at h4 ⊢
    rcases increase_spec (n := utf8Size c + 1) ok h1 h2 h3 (by rw [utf8Size_good hc.2]; omega)
      (by rw [utf8Size_good hc.2]; omega) with ⟨s1, e1, x1, z1, r1⟩ | ⟨hr, e1⟩
    · rw [utf8Size_good hc.2] at r1
      obtain ⟨mem, e2, l2, b2, w2⟩ := store_spec (mem := s1.chars) (pos := s1.size) (bs := encode c ++ [0])
        (by simp; omega)
      have es : storeSymbol s1.chars s1.size c = some mem := by
        unfold storeSymbol
        rw [if_neg (toStr_ne_nil hc.2), toStr_of_good hc.2]
        exact e2
      have x2 : Ext s1.size s1 { s1 with chars := mem, size := s1.size + (toStr c).length } := by
        rw [toStr_of_good hc.2]
        exact ⟨rfl, rfl, b2, by simp [l2], by simp only [l2]; exact x1.max, by simp only [l2]; omega,
          Nat.le_add_right _ _⟩
      have hx := x1.trans x2 (by omega)
      have heq : addCodesLoop ok (c :: ks ++ tail) s =
          addCodesLoop ok (ks ++ tail) { s1 with chars := mem, size := s1.size + (toStr c).length } := by
        simp only [List.cons_append, addCodesLoop, e1, es, if_neg hc.1]
      rw [heq]
      rcases ih (s := { s1 with chars := mem, size := s1.size + (toStr c).length })
        (fun x hx => hg x (by simp [hx])) x2.fit
        (Nat.le_trans h2 hx.len) x2.max (by simp only [z1, toStr_of_good hc.2]; omega) with
        ⟨s', f1, f2, f3, f4, f5⟩ | ⟨hr, s', f1, f2, f3⟩
      · left
        dsimp only at f2 f3 f4 f5
        have hx2 := hx.trans f2 (by omega)
        simp only [toStr_of_good hc.2, z1] at f2 f3 f4 f5
        rw [z1, bytesAt_append] at w2
        refine ⟨s', f1, hx2, by rw [f3]; omega, ?_, ?_⟩
        · rw [bytesAt_append]
          exact ⟨bytesAt_mono w2.1 (Nat.le_refl _) f2.same, f4⟩
        · intro _
          rw [List.append_assoc, bytesAt_append]
          by_cases hk : ks = []
          · subst hk
            have f1' : (({ s1 with chars := mem, size := s1.size + (toStr c).length } : Strs)) = s' := by
              cases tail with
              | nil =>
                simp only [List.nil_append, addCodesLoop, Option.some.injEq, Prod.mk.injEq, true_and] at f1
                exact f1
              | cons x tail =>
                have := ht x rfl
                subst this
                simp only [List.nil_append, addCodesLoop, if_true, Option.some.injEq, Prod.mk.injEq, true_and] at f1
                exact f1
            subst f1'
            simp only [octets, List.flatMap_nil, List.nil_append, toStr_of_good hc.2, z1, l2]
            exact ⟨w2, by omega⟩
          · exact ⟨⟨bytesAt_mono w2.1 (Nat.le_refl _) f2.same, (f5 hk).1⟩, (f5 hk).2⟩
      · right
        dsimp only at f2 f3
        have hx2 := hx.trans f2 (by omega)
        simp only [toStr_of_good hc.2, z1] at f3
        exact ⟨hr, s', f1, hx2, by omega⟩
    · right
      refine ⟨hr, s, ?_, Ext.refl h3 h1, by omega⟩
      simp only [List.cons_append, addCodesLoop, e1, if_neg hc.1]

/-- A refused call leaves the texts. -/
theorem inv_refused {s s' : Strs} {L tight} (h : Inv s L tight) (hx : Ext s.size s s') : Inv s' L false := by
  refine ⟨?_, by rw [hx.count]; exact h.count, by rw [hx.count, hx.idx]; exact h.cap,
    by rw [hx.idx]; exact h.icap, hx.fit, Nat.le_trans h.block hx.len, hx.max⟩
  exact layout_loose (layout_mono (idx' := s'.idx) h.layout hx.same (fun j _ => by rw [hx.idx])) hx.grow

/-- A completed call appends its text. -/
theorem inv_added {s s' : Strs} {L tight} {t : List Nat} (h : Inv s L tight)
    (hi : s.idx[s.count]? = some (some s.size)) (hc : s.count < s.idx.length)
    (hx : Ext s.size s s') (hb : BytesAt s'.chars s.size (t ++ [0])) (h0 : 0 ∉ t)
    (hs : s'.size = s.size + t.length) (hf : s'.size + 1 ≤ s'.chars.length) :
    Inv { s' with size := s'.size + 1, count := s'.count + 1 } (L ++ [t]) tight := by
  refine ⟨?_, ?_, ?_, ?_, hf, Nat.le_trans h.block hx.len, hx.max⟩
  · rw [layout_snoc]
    refine ⟨s.size, layout_mono h.layout hx.same (fun j _ => by rw [hx.idx]), ?_, hb, h0, ?_, ?_⟩
    · rw [hx.idx, ← h.count, Nat.zero_add]; exact hi
    · dsimp only; omega
    · intro _; dsimp only; omega
  · simp only [hx.count, h.count, List.length_append, List.length_cons, List.length_nil]
  · simp only [hx.count, hx.idx]; omega
  · simp only [hx.idx]; exact h.icap

end RuC.Strings
