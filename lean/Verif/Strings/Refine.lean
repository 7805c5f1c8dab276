import Verif.Strings.Lemmas

/-! One call at a time, and whole histories. -/

namespace RuC.Strings
open RuC Utf8 Map

theorem finish_zero {s s' : Strs} {t : List Nat} (hx : Ext s.size s s') (hz : s'.size = s.size + t.length)
    (hb : BytesAt s'.chars s.size t) (hf : s'.size + 1 ≤ s'.chars.length) :
    ∃ mem, store s'.chars s'.size [0] = some mem ∧ BytesAt mem s.size (t ++ [0]) ∧
      mem.length = s'.chars.length ∧ Ext s.size s { s' with chars := mem } := by
  obtain ⟨mem, e, l, b, w⟩ := store_spec (mem := s'.chars) (pos := s'.size) (bs := [0]) (by simpa using hf)
  refine ⟨mem, e, ?_, l, ?_⟩
  · rw [bytesAt_append]
    refine ⟨bytesAt_mono hb (Nat.le_refl _) (fun j hj => b j (by omega)), ?_⟩
    rw [← hz]; exact w
  · have x : Ext s'.size s' { s' with chars := mem } :=
      ⟨rfl, rfl, b, by simp [l], by simp only [l]; exact hx.max, by simp only [l]; exact hx.fit, Nat.le_refl _⟩
    exact hx.trans x hx.grow

theorem add_spec {s : Strs} {L tight} (h : Inv s L tight) (t : List Nat) (oki okc : Nat → Bool)
    (h0 : 0 ∉ t) (hne : t ≠ []) (hs : s.size + t.length + 8 < 1152921504606846976)
    (hc : s.count < 1152921504606846976) :
    (∃ s', stringsAdd s t oki okc = some (L.length, s') ∧ Inv s' (L ++ [t]) tight ∧
      s'.size = s.size + t.length + 1 ∧ s'.count = s.count + 1) ∨
    ((∃ n, oki n = false ∨ okc n = false) ∧ ∃ s', stringsAdd s t oki okc = some (SIZE_MAX, s') ∧ Inv s' L false ∧
      s'.size ≤ s.size + t.length ∧ s'.count = s.count) := by
  unfold stringsAdd
  rw [if_neg hne]
  rcases addIndex_spec h oki hc with ⟨s1, e1, i1, x1, z1, c1, r1⟩ | ⟨⟨n, hn⟩, e1⟩
  · rw [e1]
    rcases addLoop_spec (s := s1) okc t i1.size i1.block i1.blockMax (by omega) with
      ⟨s', f1, f2, f3, f4, f5⟩ | ⟨⟨n, hn⟩, s', f1, f2, f3⟩
    · left
      obtain ⟨mem, g1, g2, g3, g4⟩ := finish_zero f2 f3 f4 (f5 hne)
      have hinv := inv_added (s' := { s' with chars := mem }) i1 (by rw [c1, z1]; exact x1) r1 g4 g2 h0 f3 (by dsimp only; rw [g3]; exact f5 hne)
      have hcnt : s'.count = L.length := by rw [f2.count, i1.count]
      refine ⟨_, ?_, hinv, by dsimp only; omega, by dsimp only; rw [f2.count, c1]⟩
      simp only [f1, g1, hcnt]
    · right
      refine ⟨⟨n, Or.inr hn⟩, s', ?_, inv_refused i1 f2, by omega, by rw [f2.count, c1]⟩
      simp only [f1]
  · right
    rw [e1]
    exact ⟨⟨n, Or.inl hn⟩, s, rfl, inv_refused h (Ext.refl h.blockMax h.size), by omega, rfl⟩

theorem octets_no_zero {ks : List Nat} (hg : ∀ c ∈ ks, c ≠ 0 ∧ Good c) : 0 ∉ octets ks := by
  unfold octets
  simp only [List.mem_flatMap, not_exists, not_and]
  intro c hc he
  exact encode_zero (hg c hc).1 he

theorem addCodes_spec {s : Strs} {L tight} (h : Inv s L tight) (ks tail : List Nat) (oki okc : Nat → Bool)
    (ht : ∀ x, tail.head? = some x → x = 0)
    (hg : ∀ c ∈ ks, c ≠ 0 ∧ Good c) (hne : ks ≠ []) (hs : s.size + (octets ks).length + 8 < 1152921504606846976)
    (hc : s.count < 1152921504606846976) :
    (∃ s', addCodes s (ks ++ tail) oki okc = some (L.length, s') ∧ Inv s' (L ++ [octets ks]) tight ∧
      s'.size = s.size + (octets ks).length + 1 ∧ s'.count = s.count + 1) ∨
    ((∃ n, oki n = false ∨ okc n = false) ∧ ∃ s', addCodes s (ks ++ tail) oki okc = some (SIZE_MAX, s') ∧
      Inv s' L false ∧ s'.size ≤ s.size + (octets ks).length ∧ s'.count = s.count) := by
  unfold addCodes
  rcases addIndex_spec h oki hc with ⟨s1, e1, i1, x1, z1, c1, r1⟩ | ⟨⟨n, hn⟩, e1⟩
  · rw [e1]
    rcases addCodesLoop_spec (s := s1) okc ks tail ht hg i1.size i1.block i1.blockMax (by omega) with
      ⟨s', f1, f2, f3, f4, f5⟩ | ⟨⟨n, hn⟩, s', f1, f2, f3⟩
    · left
      have hinv := inv_added i1 (by rw [c1, z1]; exact x1) r1 f2 (f5 hne).1 (octets_no_zero hg) f3 (f5 hne).2
      have hcnt : s'.count = L.length := by rw [f2.count, i1.count]
      refine ⟨_, ?_, hinv, by dsimp only; omega, by dsimp only; rw [f2.count, c1]⟩
      simp only [f1, hcnt]
    · right
      refine ⟨⟨n, Or.inr hn⟩, s', ?_, inv_refused i1 f2, by omega, by rw [f2.count, c1]⟩
      simp only [f1]
  · right
    rw [e1]
    exact ⟨⟨n, Or.inl hn⟩, s, rfl, inv_refused h (Ext.refl h.blockMax h.size), by omega, rfl⟩

theorem octets_len4 (ks : List Nat) : (octets ks).length ≤ 4 * ks.length := by
  induction ks with
  | nil => simp [octets]
  | cons c ks ih =>
    have := (encode_length (c := c))
    rw [octets_cons, List.length_append, List.length_cons]
    omega

theorem octets_ne {ks : List Nat} (h : ks ≠ []) : octets ks ≠ [] := by
  cases ks with
  | nil => exact absurd rfl h
  | cons c ks =>
    have := (encode_length (c := c))
    intro e
    have e2 := congrArg List.length e
    rw [octets_cons, List.length_append, List.length_nil] at e2
    omega

theorem get_spec {s : Strs} {L tight} (h : Inv s L tight) (i : Nat) : stringsGet s i = some L[i]? := by
  unfold stringsGet
  rw [h.count]
  by_cases hi : i < L.length
  · rw [if_neg (by omega)]
    obtain ⟨st, g1, g2, g3, g4, _⟩ := layout_get h.layout (List.getElem?_eq_getElem hi)
    rw [Nat.zero_add] at g1
    have := h.size
    rw [g1, List.getElem?_eq_getElem hi]
    dsimp only
    rw [readStr_spec g3 g2 (by omega)]
    rfl
  · rw [if_pos (by omega), List.getElem?_eq_none (by omega)]

theorem length_spec {s : Strs} {L} (h : Inv s L true) (i : Nat) :
    stringsGetLength s i = some ((L[i]?.map List.length).getD 0) := by
  unfold stringsGetLength
  rw [h.count]
  by_cases hi : i < L.length
  · rw [if_neg (by omega)]
    obtain ⟨st, g1, g2, g3, g4, g5⟩ := layout_get h.layout (List.getElem?_eq_getElem hi)
    rw [Nat.zero_add] at g1
    obtain ⟨g6, g7⟩ := g5 rfl
    have := h.size
    have := h.blockMax
    rw [g1, List.getElem?_eq_getElem hi]
    dsimp only [Option.map_some, Option.getD_some]
    by_cases hl : i = L.length - 1
    · rw [if_pos hl, g7 (by omega)]
      rw [usub_of_le (show st ≤ st + L[i].length + 1 by omega) (by omega), usub_of_le (by omega) (by omega)]
      congr 1
      omega
    · rw [if_neg hl]
      have := g6 (by omega)
      rw [Nat.zero_add] at this
      rw [this]
      dsimp only
      rw [usub_of_le (show st ≤ st + L[i].length + 1 by omega) (by omega), usub_of_le (by omega) (by omega)]
      congr 1
      omega
  · rw [if_pos (by omega), List.getElem?_eq_none (by omega)]
    rfl

theorem length_loose {s : Strs} {L tight} (h : Inv s L tight) (i : Nat) :
    ∃ n, stringsGetLength s i = some n ∧ (L.length ≤ i → n = 0) := by
  unfold stringsGetLength
  rw [h.count]
  by_cases hi : i < L.length
  · rw [if_neg (by omega)]
    obtain ⟨st, g1, -⟩ := layout_get h.layout (List.getElem?_eq_getElem hi)
    rw [Nat.zero_add] at g1
    rw [g1]
    dsimp only
    by_cases hl : i = L.length - 1
    · rw [if_pos hl]
      exact ⟨_, rfl, fun _ => by omega⟩
    · rw [if_neg hl]
      obtain ⟨st', k1, -⟩ := layout_get h.layout (List.getElem?_eq_getElem (show i + 1 < L.length by omega))
      rw [Nat.zero_add] at k1
      rw [k1]
      exact ⟨_, rfl, fun _ => by omega⟩
  · rw [if_pos (by omega)]
    exact ⟨0, rfl, fun _ => rfl⟩

theorem remove_spec {s : Strs} {L tight} (h : Inv s L tight) :
    ∃ s', stringsRemove s = some (L.getLast?, s') ∧ Inv s' L.dropLast tight ∧ s'.size ≤ s.size ∧ s'.count ≤ s.count := by
  unfold stringsRemove
  rcases List.eq_nil_or_concat L with rfl | ⟨L', t, rfl⟩
  · rw [if_pos (by rw [h.count]; rfl)]
    exact ⟨s, rfl, h, Nat.le_refl _, Nat.le_refl _⟩
  · rw [List.concat_eq_append] at h ⊢
    have hc := h.count
    rw [List.length_append, List.length_singleton] at hc
    rw [if_neg (by omega)]
    obtain ⟨fin, k1, k2, k3, k4, k5, k6⟩ := layout_snoc.1 h.layout
    rw [Nat.zero_add] at k2
    have := h.size
    rw [hc, Nat.add_sub_cancel, k2]
    dsimp only
    rw [readStr_spec k4 k3 (by omega)]
    refine ⟨_, by rw [List.getLast?_concat]; rfl, ?_, by dsimp only; omega, by dsimp only; omega⟩
    rw [List.dropLast_concat]
    exact ⟨k1, rfl, by dsimp only; have := h.cap; omega, h.icap, by dsimp only; omega, h.block, h.blockMax⟩

theorem castCodes {ks : List Nat} (h : ∀ c ∈ ks, c ≠ 0 ∧ Good c) :
    (ks.map Int.ofNat).map (fun x => (x % 4294967296).toNat) = ks := by
  rw [List.map_map]
  conv => rhs; rw [← List.map_id ks]
  apply List.map_congr_left
  intro c hc
  have := good_lt (h c hc).2
  simp only [Function.comp_apply, Int.ofNat_eq_natCast, id]
  omega

theorem step_refines {s : Strs} {L tight} (h : Inv s L tight) (op : Op) (hv : op.Valid)
    (hs : s.size + op.cost < 1152921504606846976) (hc : s.count < 1152921504606846976) :
    ∃ r s' A, step s op = some (r, s') ∧ SStep (L, tight) op r A ∧ Inv s' A.1 A.2 ∧
      s'.size ≤ s.size + op.cost ∧ s'.count ≤ s.count + op.cost := by
  cases op with
  | add t a b =>
    obtain ⟨t', hA⟩ := hv
    cases hA with
    | add _ _ _ h0 =>
      simp only [Op.cost] at hs ⊢
      by_cases hne : t = []
      · subst hne
        exact ⟨_, s, (L, tight), by simp only [step, stringsAdd, if_true, Option.map_some], SStep.addEmpty L tight (.add _ _ _ (by simp)),
          h, by omega, by omega⟩
      · rcases add_spec h t a b h0 hne (by omega) hc with ⟨s', e, i, z, c⟩ | ⟨hr, s', e, i, z, c⟩
        · exact ⟨_, s', (_, _), by simp only [step, e, Option.map_some], SStep.add L tight (.add _ _ _ h0) hne, i, by omega, by omega⟩
        · exact ⟨_, s', (_, _), by simp only [step, e, Option.map_some], SStep.refused L tight hr, i, by omega, by omega⟩
  | addUtf8 ks a b =>
    obtain ⟨t', hA⟩ := hv
    cases hA with
    | addUtf8 _ _ _ hg =>
      simp only [Op.cost] at hs ⊢
      have h4 := octets_len4 ks
      by_cases hne : ks = []
      · subst hne
        exact ⟨_, s, (L, tight), by simp only [step, stringsAddByUtf8, if_true, Option.map_some], SStep.addEmpty L tight (.addUtf8 [] _ _ (by simp)),
          h, by omega, by omega⟩
      · have key := addCodes_spec h ks [] a b (by simp) hg hne (by omega) hc
        rw [List.append_nil] at key
        rcases key with ⟨s', e, i, z, c⟩ | ⟨hr, s', e, i, z, c⟩
        · exact ⟨_, s', (_, _), by simp only [step, stringsAddByUtf8, if_neg hne, e, Option.map_some],
            SStep.add L tight (.addUtf8 _ _ _ hg) (octets_ne hne), i, by omega, by omega⟩
        · exact ⟨_, s', (_, _), by simp only [step, stringsAddByUtf8, if_neg hne, e, Option.map_some],
            SStep.refused L tight hr, i, by omega, by omega⟩
  | addVector vec a b =>
    obtain ⟨t', hA⟩ := hv
    cases hA with
    | addVector ks tail _ _ hg hn ht =>
      simp only [Op.cost, List.length_append, List.length_map] at hs ⊢
      have h4 := octets_len4 ks
      by_cases hne : ks = []
      · subst hne
        have htl : tail ≠ [] := by simpa using hn
        obtain ⟨x, tl, rfl⟩ := List.exists_cons_of_ne_nil htl
        have := ht x rfl
        subst this
        exact ⟨_, s, (L, tight), by simp only [step, stringsAddByVector, List.map_nil, List.nil_append, List.head?_cons, Option.getD_some, if_true, Option.map_some],
          SStep.addEmpty L tight (.addVector [] (0 :: tl) _ _ (by simp) (by simp) (by simp)), h, by omega, by omega⟩
      · have key := addCodes_spec h ks (tail.map fun x => (x % 4294967296).toNat) a b (by
          intro x hx
          cases tail with
          | nil => simp at hx
          | cons y tl =>
            have := ht y rfl
            subst this
            simpa using hx.symm) hg hne (by omega) hc
        have hh : ¬ ((ks.map Int.ofNat ++ tail).head?.getD ITEM_MAX = 0) := by
          obtain ⟨c, cs, rfl⟩ := List.exists_cons_of_ne_nil hne
          have := (hg c (by simp)).1
          simp only [List.map_cons, List.cons_append, List.head?_cons, Option.getD_some, Int.ofNat_eq_natCast]
          omega
        rw [← castCodes hg, ← List.map_append, castCodes hg] at key
        rcases key with ⟨s', e, i, z, c⟩ | ⟨hr, s', e, i, z, c⟩
        · exact ⟨_, s', (_, _), by simp only [step, stringsAddByVector, if_neg hh, e, Option.map_some],
            SStep.add L tight (.addVector _ _ _ _ hg hn ht) (octets_ne hne), i, by omega, by omega⟩
        · exact ⟨_, s', (_, _), by simp only [step, stringsAddByVector, if_neg hh, e, Option.map_some],
            SStep.refused L tight hr, i, by omega, by omega⟩
  | get i =>
    exact ⟨_, s, (_, _), by simp only [step, get_spec h, Option.map_some], SStep.get L tight i, h, by omega, by omega⟩
  | length i =>
    cases tight with
    | true =>
      exact ⟨_, s, (_, _), by simp only [step, length_spec h, Option.map_some], SStep.length L i, h, by omega, by omega⟩
    | false =>
      obtain ⟨n, e, hn⟩ := length_loose h i
      by_cases hi : i < L.length
      · exact ⟨_, s, (_, _), by simp only [step, e, Option.map_some], SStep.lengthLoose L i n hi, h, by omega, by omega⟩
      · have := hn (by omega)
        subst this
        exact ⟨_, s, (_, _), by simp only [step, e, Option.map_some], SStep.lengthOut L i (by omega), h, by omega, by omega⟩
  | remove =>
    obtain ⟨s', e, i, z, c⟩ := remove_spec h
    exact ⟨_, s', (_, _), by simp only [step, e, Option.map_some], SStep.remove L tight, i, by omega, by omega⟩
  | size =>
    exact ⟨_, s, (_, _), rfl, by rw [stringsSize, h.count]; exact SStep.size L tight, h, by omega, by omega⟩

theorem run_refines {s : Strs} {L tight} (h : Inv s L tight) (ops : List Op) (hv : ∀ op ∈ ops, op.Valid)
    (hs : s.size + (ops.map Op.cost).sum < 1152921504606846976)
    (hc : s.count + (ops.map Op.cost).sum < 1152921504606846976) :
    ∃ rs s' A, run s ops = some (rs, s') ∧ SRun (L, tight) ops rs A ∧ Inv s' A.1 A.2 := by
  induction ops generalizing s L tight with
  | nil => exact ⟨[], s, (L, tight), rfl, .nil _, h⟩
  | cons op ops ih =>
    rw [List.map_cons, List.sum_cons] at hs hc
    obtain ⟨r, s1, ⟨L1, t1⟩, e1, st, i1, z1, c1⟩ := step_refines h op (hv op (by simp)) (by omega) (by omega)
    obtain ⟨rs, s2, A, e2, sr, i2⟩ := ih i1 (fun o ho => hv o (by simp [ho])) (by omega) (by omega)
    exact ⟨r :: rs, s2, A, by simp only [run, e1, e2], .cons st sr, i2⟩

theorem create_inv {alloc : Nat} (ha : alloc < 1125899906842624) : Inv (stringsCreate alloc) [] true := by
  unfold stringsCreate
  by_cases h : alloc = 0
  · subst h
    simp only [ne_eq, not_true_eq_false, if_false, Nat.one_mul]
    rw [usz_of_lt (by omega)]
    exact ⟨⟨Nat.le_refl _, fun _ => rfl⟩, rfl, Nat.zero_le _, by rw [List.length_replicate]; omega,
      Nat.zero_le _, by rw [List.length_replicate]; omega, by rw [List.length_replicate]; omega⟩
  · simp only [ne_eq, h, not_false_eq_true, if_true]
    rw [usz_of_lt (by omega)]
    exact ⟨⟨Nat.le_refl _, fun _ => rfl⟩, rfl, Nat.zero_le _, by rw [List.length_replicate]; omega,
      Nat.zero_le _, by rw [List.length_replicate]; omega, by rw [List.length_replicate]; omega⟩

end RuC.Strings
