import Verif.Storage.Lemmas

/-! The fresh storage and the directives. -/

namespace RuC.Storage
open RuC

/-! ## Keywords -/

theorem keywordTable_eq : keywordTable = spellings.map fun p => (p.1, (p.2 : Int)) := by decide +kernel

/-- The directives by code points. -/
theorem directiveOf_codes (k : List Nat) :
    directiveOf k = (keywordTable.find? fun p => p.1 == k).map fun p => p.2.toNat := by
  unfold directiveOf
  rw [keywordTable_eq, List.find?_map, Option.map_map]
  rfl

theorem spellings_nodup : (spellings.map Prod.fst).Nodup := by decide +kernel

theorem keyword_hash : ∀ p ∈ keywordTable, p.1.head? = some 35 := by decide

theorem keyword_valid : ∀ p ∈ keywordTable, Map.ValidKey p.1 := by decide +kernel

theorem spelling_range : ∀ p ∈ spellings, 1 < p.2 ∧ p.2 < 18 := by decide +kernel

theorem find_fst {l : List (List Nat × Nat)} (h : (l.map Prod.fst).Nodup) {p} (hp : p ∈ l) :
    l.find? (fun q => q.1 == p.1) = some p := by
  induction l with
  | nil => cases hp
  | cons q l ih =>
    simp only [List.map_cons, List.nodup_cons] at h
    rw [List.find?_cons]
    by_cases e : q.1 = p.1
    · have : q = p := by
        rcases List.mem_cons.1 hp with rfl | hp
        · rfl
        · exact absurd (List.mem_map_of_mem hp) (e ▸ h.1)
      simp [this]
    · have : p ∈ l := by
        rcases List.mem_cons.1 hp with rfl | hp
        · exact absurd rfl e
        · exact hp
      have he : (q.1 == p.1) = false := by simp [e]
      simp only [he, ih h.2 this]

theorem directive_of_mem {p} (hp : p ∈ keywordTable) {k} (he : p.1 = k) :
    ∃ n : Nat, directiveOf k = some n ∧ toSize p.2 = n ∧ p.2 = (n : Int) ∧ 1 < n ∧ n < 18 := by
  rw [keywordTable_eq, List.mem_map] at hp
  obtain ⟨q, hq, rfl⟩ := hp
  subst he
  have hr := spelling_range q hq
  refine ⟨q.2, ?_, toSize_natCast (by omega), rfl, hr⟩
  unfold directiveOf
  simp only
  rw [find_fst spellings_nodup hq]
  rfl

theorem directive_none {k} (hk : isKw k = false) : directiveOf k = none := by
  unfold directiveOf
  rw [Option.map_eq_none_iff, List.find?_eq_none]
  intro q hq e
  have he : q.1 = k := by simpa using e
  have : isKw k = true := by
    unfold isKw
    rw [List.any_eq_true]
    refine ⟨(q.1, (q.2 : Int)), ?_, by simp [he]⟩
    rw [keywordTable_eq]
    exact List.mem_map_of_mem (f := fun p : List Nat × Nat => (p.1, (p.2 : Int))) hq
  rw [hk] at this
  cases this

theorem name_not_kw {k} (h : IsName k) : isKw k = false := by
  obtain ⟨c, t, rfl, hc⟩ := h
  cases e : isKw (c :: t) with
  | false => rfl
  | true =>
    obtain ⟨p, hp, he⟩ := List.any_eq_true.1 e
    have he : p.1 = c :: t := by simpa using he
    have := keyword_hash p hp
    rw [he] at this
    simp only [List.head?_cons, Option.some.injEq] at this
    subst this
    exact absurd hc (by decide)

/-! ## The fresh storage -/

/-- Where `map_add` puts new keys: in the bucket of the key if it is free, else at the end. -/
def lay : List (Nat × List Nat) × Nat → List (List Nat) → List (Nat × List Nat) × Nat
  | u, [] => u
  | u, k :: ks =>
    if (u.1.lookup (Map.keyHash k)).isSome then lay ((u.2, k) :: u.1, u.2 + 1) ks
    else lay ((Map.keyHash k, k) :: u.1, u.2) ks

theorem kwAdd_spec {m : Map.Map} {K : Nat → Option (List Nat)} {A : Map.Table} (u : List (Nat × List Nat) × Nat)
    (l : List (List Nat × Int)) (h : Map.Inv m K) (ha : Map.Abs m K A)
    (hK : ∀ i, K i = u.1.lookup i) (hl : m.values.length = u.2)
    (hv : ∀ p ∈ l, Map.ValidKey p.1) (hn : (l.map Prod.fst).Nodup) (hA : ∀ p ∈ l, A p.1 = none)
    (hs : m.keysSize + m.values.length + (l.map fun p => 4 * (p.1.length + 1) + 9).sum < 1152921504606846976) :
    ∃ m' K' A', kwAdd m l = some m' ∧ Map.Inv m' K' ∧ Map.Abs m' K' A' ∧
      (∀ p ∈ l, ∃ i, A' p.1 = some (i, p.2)) ∧ (∀ k, k ∉ l.map Prod.fst → A' k = A k) ∧
      m'.keysSize + m'.values.length ≤
        m.keysSize + m.values.length + (l.map fun p => 4 * (p.1.length + 1) + 9).sum ∧
      (∀ i, K' i = (lay u (l.map Prod.fst)).1.lookup i) ∧
      m'.values.length = (lay u (l.map Prod.fst)).2 := by
  induction l generalizing m K A u with
  | nil =>
    exact ⟨m, K, A, rfl, h, ha, fun p hp => (by cases hp), fun _ _ => rfl, by simp, hK, hl⟩
  | cons p l ih =>
    obtain ⟨s, v⟩ := p
    simp only [List.map_cons, List.sum_cons, List.nodup_cons] at hs hn
    have hd : Map.Denotes (.utf8 (s ++ [0])) s := .utf8 s (hv (s, v) (by simp))
    have hsz : (Map.KeyArg.utf8 (s ++ [0])).size = s.length + 1 := by simp [Map.KeyArg.size]
    rcases mapAdd_spec v h ha hd (by rw [hsz]; omega) with ⟨i, w, _, hA', _⟩ | ⟨_, n, m1, hf, hn1, e, i1, a1, z, pl⟩
    · rw [hA (s, v) (by simp)] at hA'; cases hA'
    · rw [hsz] at z
      have hlook : ∀ i, Map.setKey K n s i = ((n, s) :: u.1).lookup i := by
        intro i
        unfold Map.setKey
        rw [List.lookup_cons, hK]
        by_cases e : i = n
        · simp [e]
        · have he : (i == n) = false := by simp [e]
          simp only [he, if_neg e]
      have hstep : ∃ u' : List (Nat × List Nat) × Nat, u'.1 = (n, s) :: u.1 ∧ m1.values.length = u'.2 ∧
          lay u (s :: l.map Prod.fst) = lay u' (l.map Prod.fst) := by
        rcases pl with ⟨p1, p2, p3⟩ | ⟨p1, p2, p3⟩
        · refine ⟨(((Map.keyHash s), s) :: u.1, u.2), by rw [p2], by rw [p3, hl], ?_⟩
          rw [hK] at p1
          simp [lay, p1]
        · refine ⟨((u.2, s) :: u.1, u.2 + 1), by rw [p2, hl], by rw [p3, hl], ?_⟩
          rw [hK] at p1
          have : (u.1.lookup (Map.keyHash s)).isSome = true := by
            rw [Option.isSome_iff_ne_none]; exact p1
          simp only [lay, this, if_true]
      obtain ⟨u', hu1, hu2, hu3⟩ := hstep
      have hAl : ∀ p ∈ l, (A.upd s (n, v)) p.1 = none := by
        intro p hp
        have : p.1 ≠ s := by
          rintro e
          exact hn.1 (e ▸ List.mem_map_of_mem hp)
        simp only [Map.Table.upd, if_neg this]
        exact hA p (by simp [hp])
      obtain ⟨m', K', A', g1, g2, g3, g4, g5, g6, g7, g8⟩ := ih u' i1 a1 (by rw [hu1]; exact hlook) hu2
        (fun p hp => hv p (by simp [hp])) hn.2 hAl (by omega)
      refine ⟨m', K', A', ?_, g2, g3, ?_, ?_, ?_, ?_, ?_⟩
      · simp only [kwAdd, e, if_neg hn1, g1]
      · intro p hp
        rcases List.mem_cons.1 hp with rfl | hp
        · refine ⟨n, ?_⟩
          rw [g5 s hn.1]
          simp [Map.Table.upd]
        · exact g4 p hp
      · intro k hk
        simp only [List.map_cons, List.mem_cons, not_or] at hk
        rw [g5 k hk.2]
        simp only [Map.Table.upd, if_neg hk.1]
      · simp only [List.map_cons, List.sum_cons]; omega
      · intro i
        rw [List.map_cons, hu3]; exact g7 i
      · rw [List.map_cons, hu3]; exact g8

theorem create_spec : ∃ g G, storageCreate = some g ∧ Rel g G (fun _ => none) 8000 ∧
    (∀ i, G.K i = (lay ([], 256) (keywordTable.map Prod.fst)).1.lookup i) ∧
    g.as.values.length = (lay ([], 256) (keywordTable.map Prod.fst)).2 ∧ g.hs = Hash.hashCreate ∧
    G.L = [] ∧ (∀ k, isKw k = false → G.A k = none) := by
  have hsum : (keywordTable.map fun p => 4 * (p.1.length + 1) + 9).sum ≤ 7000 := by decide +kernel
  have hnd : (keywordTable.map Prod.fst).Nodup := by decide +kernel
  have hvl : (Map.mapCreate 256).values.length = 256 := List.length_replicate
  have hks : (Map.mapCreate 256).keysSize = 0 := rfl
  obtain ⟨m, K, A, e, i1, a1, k1, k2, z, k3, k4⟩ := kwAdd_spec (u := ([], 256)) keywordTable
    (Map.inv_create (alloc := 256) (by decide)) (Map.abs_create (alloc := 256))
    (fun _ => rfl) hvl keyword_valid hnd (fun _ _ => rfl) (by omega)
  have hvec := Strings.create_inv (alloc := 256) (by decide)
  have k5 : ∀ k, isKw k = false → A k = none := by
    intro k hk
    have : k ∉ keywordTable.map Prod.fst := by
      intro hm
      obtain ⟨p, hp, he⟩ := List.mem_map.1 hm
      have : isKw k = true := by
        unfold isKw; rw [List.any_eq_true]; exact ⟨p, hp, by simp [he]⟩
      rw [hk] at this; cases this
    exact k2 k this
  refine ⟨⟨m, Hash.hashCreate, Strings.stringsCreate 256⟩, ⟨K, A, fun _ => none, fun _ => none, [], []⟩, by simp only [storageCreate, e, Option.map_some], ?_,
    k3, k4, rfl, rfl, k5⟩
  refine ⟨i1, a1, Hash.rep_init, hvec, k1, ?_, ?_, ?_, ?_, ?_, ?_, ?_, ?_⟩
  · intro k i v hA hk
    exact absurd ((k5 k hk).symm.trans hA) (by simp)
  · intro i p hp; cases hp
  · intro k _ i v _; rfl
  · intro i i' j j' s n n' h1; cases h1
  · simp only; omega
  · simp [Hash.total]
  · exact Nat.zero_le _
  · exact Nat.zero_le _

/-! ## The directives -/

/-- `parse_context` on a live macro. -/
theorem context_spec {g G T b k j} (h : Rel g G T b) (hk : isKw k = false) (ha : At G k j) (c : Context)
    (hc : GoodContext T k c) (hb : b + (4 * (c.elim [] Prod.snd).length + 9) < 4294967296) :
    ∃ g' G', parseContext g j c = some g' ∧ Rel g' G' (T.put k c) (b + (4 * (c.elim [] Prod.snd).length + 9)) := by
  cases c with
  | none =>
    obtain ⟨g', G', e, r⟩ := remove_spec h hk ha (by omega)
    exact ⟨g', G', e, r.mono (by omega)⟩
  | some p =>
    obtain ⟨n, v⟩ := p
    obtain ⟨hn, h0, hemp⟩ := hc
    simp only [Option.elim] at hb ⊢
    obtain ⟨G1, n0, v0, hT, r1, a1, _⟩ := setArgs_spec h hk ha (by omega) n hn
    obtain ⟨g', G', e, r, _⟩ := set_spec r1 hk a1 v (by omega) h0 (n := n) (v0 := v0) (by simp [Macros.put])
      (fun hv => hemp hv n0 v0 hT)
    rw [put_put] at r
    exact ⟨g', G', by simp only [parseContext, e, Option.map_some], r⟩

theorem good_fresh {T : Macros} {k c} (h : GoodContext T k c) :
    GoodContext (T.put k (some (0, []))) k c := by
  cases c with
  | none => trivial
  | some p =>
    obtain ⟨n, v⟩ := p
    refine ⟨h.1, h.2.1, fun _ n' v' e => ?_⟩
    simp only [Macros.put, if_true] at e
    cases e
    rfl

theorem define_spec {g G T b a k} (h : Rel g G T b) (hd : Map.Denotes a k) (hk : isKw k = false) (c : Context)
    (hc : GoodContext T k c) (hb : b + (12 * a.size + 4 * (c.elim [] Prod.snd).length + 80) < 4294967296) :
    ∃ g' G', parseDefine g a c = some g' ∧
      Rel g' G' (T.put k c) (b + (12 * a.size + 4 * (c.elim [] Prod.snd).length + 80)) := by
  cases hT : T k with
  | none =>
    obtain ⟨j, g1, G1, e1, hj, a1, r1, _⟩ := add_fresh h hd hk hT (by omega)
    obtain ⟨g2, G2, e2, r2⟩ := context_spec r1 hk a1 c (good_fresh hc) (by omega)
    rw [put_put] at r2
    exact ⟨g2, G2, by simp only [parseDefine, e1, if_neg hj, e2], r2.mono (by omega)⟩
  | some p =>
    obtain ⟨g1, G1, e1, r1, _⟩ := add_taken h hd hk hT (by omega)
    obtain ⟨j, m, e2, r2, hr⟩ := search_spec r1 hd (by omega)
    rcases hr with ⟨q, hq, hqk, _⟩ | ⟨_, _, a2, h256, _⟩ | ⟨_, hT', _⟩
    · exfalso
      have : isKw k = true := by
        unfold isKw; rw [List.any_eq_true]; exact ⟨q, hq, by simp [hqk]⟩
      rw [hk] at this; cases this
    · obtain ⟨g3, G3, e3, r3⟩ := context_spec r2 hk a2 c hc (by omega)
      exact ⟨g3, G3, by simp only [parseDefine, e1, if_true, e2, e3], r3.mono (by omega)⟩
    · rw [hT] at hT'; cases hT'

theorem set_directive_spec {g G T b a k} (h : Rel g G T b) (hd : Map.Denotes a k) (hk : isKw k = false)
    (c : Context) (hc : GoodContext T k c)
    (hb : b + (12 * a.size + 4 * (c.elim [] Prod.snd).length + 80) < 4294967296) :
    ∃ g' G', parseSet g a c = some g' ∧
      Rel g' G' (T.put k c) (b + (12 * a.size + 4 * (c.elim [] Prod.snd).length + 80)) := by
  obtain ⟨j, m, e1, r1, hr⟩ := search_spec h hd (by omega)
  rcases hr with ⟨q, hq, hqk, _⟩ | ⟨_, _, a2, h256, hlt⟩ | ⟨_, hT, rfl⟩
  · exfalso
    have : isKw k = true := by
      unfold isKw; rw [List.any_eq_true]; exact ⟨q, hq, by simp [hqk]⟩
    rw [hk] at this; cases this
  · have hne : j ≠ SIZE_MAX := by unfold SIZE_MAX; omega
    obtain ⟨g3, G3, e3, r3⟩ := context_spec r1 hk a2 c hc (by omega)
    exact ⟨g3, G3, by simp only [parseSet, e1, if_neg hne, e3], r3.mono (by omega)⟩
  · obtain ⟨j, g1, G1, e2, hj, a1, r2, _⟩ := add_fresh r1 hd hk hT (by omega)
    obtain ⟨g2, G2, e3, r3⟩ := context_spec r2 hk a1 c (good_fresh hc) (by omega)
    rw [put_put] at r3
    exact ⟨g2, G2, by simp only [parseSet, e1, if_true, e2, e3], r3.mono (by omega)⟩

theorem undef_spec {g G T b a k} (h : Rel g G T b) (hd : Map.Denotes a k) (hk : isKw k = false)
    (hT : T k ≠ none) (hb : b + (4 * a.size + 9) < 4294967296) :
    ∃ g' G', parseUndef g a = some g' ∧ Rel g' G' (T.put k none) b := by
  obtain ⟨j, m, e1, r1, hr⟩ := search_spec h hd (by omega)
  rcases hr with ⟨q, hq, hqk, _⟩ | ⟨_, _, a2, h256, hlt⟩ | ⟨_, hT', rfl⟩
  · exfalso
    have : isKw k = true := by
      unfold isKw; rw [List.any_eq_true]; exact ⟨q, hq, by simp [hqk]⟩
    rw [hk] at this; cases this
  · obtain ⟨g3, G3, e3, r3⟩ := remove_spec r1 hk a2 (by omega)
    exact ⟨g3, G3, by simp only [parseUndef, e1, e3], r3⟩
  · exact absurd hT' hT

/-- `storage_set_by_index` with the answer of a refused addition only leaves a string nobody refers to. -/
theorem set_nothing {g G T b} (h : Rel g G T b) (v : List Nat) (h0 : 0 ∉ v) (hne : v ≠ [])
    (hb : b + (4 * v.length + 9) < 4294967296) :
    ∃ g' G', storageSet g SIZE_MAX v = some (SIZE_MAX, g') ∧ Rel g' G' T (b + (4 * v.length + 9)) := by
  have hz := h.sizeV
  have hct := h.countV
  have hcl := h.vec.count
  have hg : Hash.getAt g.hs SIZE_MAX 0 = ITEM_MAX := by
    unfold Hash.getAt
    rw [Hash.amountAt_sizeMax, if_neg (by omega)]
  have hdl : dropLast g SIZE_MAX = some g.vec := by
    unfold dropLast
    rw [hg]
    apply if_neg
    unfold Strings.stringsSize
    rw [toItem_of_lt (by omega)]
    unfold ITEM_MAX
    omega
  obtain ⟨vec, e, inv, z1, z2⟩ := strAdd v h.vec h0 hne (by omega) (by omega)
  have hnl : G.L.length ≠ SIZE_MAX := by unfold SIZE_MAX; omega
  refine ⟨{ g with vec := vec }, { G with L := G.L ++ [v] }, ?_, ?_⟩
  · simp only [storageSet, hdl, e, ne_eq, hnl, not_false_eq_true, if_true, setAt_max]
  · have h' := h.mono (b' := b + (4 * v.length + 9)) (by omega)
    refine ⟨h.inv, h.abs, h.rep, inv, h.kw, h.plain, h.cell, ?_, h.uniq, h'.sizeM, h'.sizeH, by simp only; omega,
      by simp only; omega⟩
    intro k hk
    have hl := h.live k hk
    cases hT : T k with
    | none => rw [hT] at hl; exact hl
    | some p =>
      obtain ⟨n, x⟩ := p
      rw [hT] at hl
      obtain ⟨i, mv, j, s, g1, g2, g3⟩ := hl
      refine ⟨i, mv, j, s, g1, g2, ?_⟩
      rcases g3 with g3 | ⟨g3, y, e1, e2⟩
      · exact .inl g3
      · refine .inr ⟨g3, y, e1, ?_⟩
        have := (List.getElem?_eq_some_iff.1 e2).1
        simp only
        rw [List.getElem?_append_left this]; exact e2

theorem flag_spec {g G T b a k} (h : Rel g G T b) (hd : Map.Denotes a k) (hk : isKw k = false) (v : List Nat)
    (h0 : 0 ∉ v) (hb : b + (4 * a.size + 4 * v.length + 40) < 4294967296) :
    ∃ g' G', parseFlag g a v = some (decide (T k = none), g') ∧
      Rel g' G' (if T k = none then T.put k (some (0, v)) else T) (b + (4 * a.size + 4 * v.length + 40)) := by
  cases hT : T k with
  | none =>
    obtain ⟨j, g1, G1, e1, hj, a1, r1, _⟩ := add_fresh h hd hk hT (by omega)
    by_cases hv : v = []
    · subst hv
      exact ⟨g1, G1, by simp [parseFlag, e1, hj], by simp only [if_true]; exact r1.mono (by omega)⟩
    · obtain ⟨g2, G2, e2, r2, _⟩ := set_spec r1 hk a1 v (by omega) h0 (n := 0) (v0 := []) (by simp [Macros.put])
        (fun e => rfl)
      rw [put_put] at r2
      exact ⟨g2, G2, by simp [parseFlag, e1, hv, e2, hj], by simp only [if_true]; exact r2.mono (by omega)⟩
  | some p =>
    obtain ⟨g1, G1, e1, r1, _⟩ := add_taken h hd hk hT (by omega)
    by_cases hv : v = []
    · subst hv
      exact ⟨g1, G1, by simp [parseFlag, e1], by simp only [reduceCtorEq, if_false]; exact r1.mono (by omega)⟩
    · obtain ⟨g2, G2, e2, r2⟩ := set_nothing r1 v h0 hv (by omega)
      exact ⟨g2, G2, by simp [parseFlag, e1, hv, e2], by
        simp only [reduceCtorEq, if_false]; exact r2.mono (by omega)⟩

/-- The numbers of parameters are small. -/
def Small (T : Macros) : Prop := ∀ k n v, T k = some (n, v) → n < 4294967296

theorem lookup_spec {g G T b a k} (h : Rel g G T b) (hS : Small T) (hd : Map.Denotes a k)
    (hb : b + (4 * a.size + 9) < 4294967296) :
    ∃ g', lookup g a = some (answer T k, g') ∧ Rel g' G T b := by
  obtain ⟨j, m, e1, r1, hr⟩ := search_spec h hd (by omega)
  refine ⟨_, ?_, r1⟩
  rcases hr with ⟨q, hq, hqk, hj⟩ | ⟨hk, ⟨d, hT⟩, a2, h256, hlt⟩ | ⟨hk, hT, rfl⟩
  · obtain ⟨n, d1, d2, _, d4, d5⟩ := directive_of_mem hq hqk
    have hjn : j = n := by rw [hj, d2]
    subst hjn
    have hne : j ≠ SIZE_MAX := by unfold SIZE_MAX; omega
    have hkw : kwIsCorrect (j : Int) = true := by
      unfold kwIsCorrect
      have : (j : Int) % 4294967296 = j := by omega
      rw [this]
      simp only [Bool.and_eq_true, decide_eq_true_eq]
      omega
    simp only [lookup, e1, if_neg hne, hkw, if_true, answer, d1]
  · have hne : j ≠ SIZE_MAX := by unfold SIZE_MAX; omega
    have hkw := kwIsCorrect_big h256 hlt
    obtain ⟨n, v, i, mv, s, hT', hA, hB, hV, g0, g1, _⟩ := cells_of_at r1 hk a2
    rw [hT] at hT'
    cases hT'
    have hn := hS k n v hT
    have hz := r1.sizeV
    have hct := r1.countV
    have hcl := r1.vec.count
    have hargs : storageGetArgs { g with as := m } j = n := by
      unfold storageGetArgs
      rw [g1, if_pos (by unfold ITEM_MAX; omega), toSize_natCast (by omega)]
    have hget : storageGetByIndex { g with as := m } j = some (if v = [] then none else some v) := by
      unfold storageGetByIndex
      rw [g0]
      rcases hV with ⟨rfl, hs⟩ | ⟨hv, x, rfl, hx⟩
      · rw [strGet _ r1.vec (Nat.lt_of_le_of_lt hz (by omega)) (Nat.lt_of_le_of_lt hct (by omega)), if_pos rfl, hs]
        congr 1
        rw [List.getElem?_eq_none]
        have : toSize ITEM_MAX = 9223372036854775807 := by unfold toSize ITEM_MAX; rfl
        rw [this, ← hcl]
        exact Nat.le_trans hct (by omega)
      · have hxl := (List.getElem?_eq_some_iff.1 hx).1
        rw [toSize_natCast (by rw [← hcl] at hxl; exact Nat.lt_of_lt_of_le hxl (Nat.le_trans hct (by omega))),
          strGet _ r1.vec (Nat.lt_of_le_of_lt hz (by omega)) (Nat.lt_of_le_of_lt hct (by omega)), if_neg hv, hx]
    simp only [lookup, e1, if_neg hne, hkw, hget, hargs, answer, directive_none hk, hT]
    rfl
  · simp only [lookup, e1, if_true, answer, directive_none hk, hT]

theorem kwIsCorrect_size (v : Int) : kwIsCorrect (toSize v : Int) = kwIsCorrect v := by
  unfold kwIsCorrect toSize
  have : ((v % 18446744073709551616).toNat : Int) % 4294967296 = v % 4294967296 := by omega
  rw [this]

theorem spaced_spec {g G T b a k} (h : Rel g G T b) (hd : Map.Denotes a k)
    (hb : b + (4 * a.size + 9) < 4294967296) :
    ∃ g', lookupSpaced g a =
      some ((match directiveOf k with | some n => Answer.keyword n | none => .absent), g') ∧ Rel g' G T b := by
  have hz := h.sizeM
  obtain ⟨v, m, e, i1, a1, s1, v1, hr⟩ := mapGet_spec h.inv h.abs hd (by omega)
  refine ⟨_, ?_, h.sameMap i1 a1 s1 v1⟩
  cases hk : isKw k with
  | true =>
    obtain ⟨p, hp, he⟩ := List.any_eq_true.1 hk
    have he : p.1 = k := by simpa using he
    obtain ⟨n, d1, d2, d3, d4, d5⟩ := directive_of_mem hp he
    obtain ⟨i, hA⟩ := h.kw p hp
    rw [he] at hA
    have hv : v = p.2 := by
      rcases hr with ⟨n', hr⟩ | ⟨hr, _⟩
      · rw [hA] at hr; cases hr; rfl
      · rw [hA] at hr; cases hr
    have hne : v ≠ ITEM_MAX := by rw [hv, d3]; unfold ITEM_MAX; omega
    have hkw : kwIsCorrect (toSize v : Int) = true := by
      rw [hv, d2]
      unfold kwIsCorrect
      have : (n : Int) % 4294967296 = n := by omega
      rw [this]
      simp only [Bool.and_eq_true, decide_eq_true_eq]
      omega
    simp only [lookupSpaced, storageGetIndex, e, Option.map_some, if_pos hne, hkw, if_true, d1]
    rw [hv, d2]
  | false =>
    have hkw : kwIsCorrect ((if v ≠ ITEM_MAX then toSize v else SIZE_MAX : Nat) : Int) = false := by
      by_cases hne : v = ITEM_MAX
      · rw [if_neg (by simpa using hne)]
        unfold SIZE_MAX kwIsCorrect; decide
      · rw [if_pos hne, kwIsCorrect_size]
        rcases hr with ⟨n', hr⟩ | ⟨_, hr⟩
        · exact h.plain k n' v hr hk
        · exact absurd hr hne
    simp only [lookupSpaced, storageGetIndex, e, Option.map_some, hkw, directive_none hk]
    rfl

/-! ## Histories -/

theorem small_put {T : Macros} (h : Small T) (k : List Nat) {d : Context}
    (hd : ∀ n v, d = some (n, v) → n < 4294967296) : Small (T.put k d) := by
  intro k' n v e
  unfold Macros.put at e
  by_cases hk : k' = k
  · rw [if_pos hk] at e; exact hd n v e
  · rw [if_neg hk] at e; exact h k' n v e

theorem good_small {T : Macros} {k c} (h : GoodContext T k c) : ∀ n v, c = some (n, v) → n < 4294967296 := by
  rintro n v rfl
  exact h.1

theorem small_apply {T : Macros} {e : Event} (h : Small T) (hl : e.Legal T) : Small (e.apply T).2 := by
  cases e with
  | define k c => exact small_put h k (good_small hl.2)
  | set k c => exact small_put h k (good_small hl.2)
  | undef k => exact small_put h k (fun _ _ e => by cases e)
  | flag k v =>
    simp only [Event.apply]
    split
    · refine small_put h k (d := some (0, v)) (fun n v e => ?_)
      cases e
      omega
    · exact h
  | lookup k => exact h
  | lookupSpaced k => exact h

theorem step_spec {g G T b op e} (h : Rel g G T b) (hS : Small T) (hs : Says op e) (hl : e.Legal T)
    (hb : b + op.cost < 4294967296) :
    ∃ g' G', step g op = some ((e.apply T).1, g') ∧ Rel g' G' (e.apply T).2 (b + op.cost) := by
  unfold Op.cost at hb ⊢
  cases hs with
  | @define a k c hd =>
    have hv : (Op.define a c).value = c.elim [] Prod.snd := by cases c <;> rfl
    rw [hv] at hb ⊢
    obtain ⟨g', G', e, r⟩ := define_spec h hd (name_not_kw hl.1) c hl.2 hb
    exact ⟨g', G', by simp only [step, e, Option.map_some]; rfl, r⟩
  | @set a k c hd =>
    have hv : (Op.set a c).value = c.elim [] Prod.snd := by cases c <;> rfl
    rw [hv] at hb ⊢
    obtain ⟨g', G', e, r⟩ := set_directive_spec h hd (name_not_kw hl.1) c hl.2 hb
    exact ⟨g', G', by simp only [step, e, Option.map_some]; rfl, r⟩
  | undef hd =>
    simp only [Op.key] at hb ⊢
    obtain ⟨g', G', e, r⟩ := undef_spec h hd (name_not_kw hl.1) hl.2 (by omega)
    exact ⟨g', G', by simp only [step, e, Option.map_some]; rfl, r.mono (by omega)⟩
  | @flag a k v hd =>
    simp only [Op.key, Op.value] at hb ⊢
    obtain ⟨g', G', e, r⟩ := flag_spec h hd (name_not_kw hl.1) v hl.2 (by omega)
    refine ⟨g', G', ?_, ?_⟩
    · simp only [step, e, Option.map_some, Event.apply]
      split <;> simp_all
    · simp only [Event.apply]
      split
      · rename_i hT; rw [if_pos hT] at r; exact r.mono (by omega)
      · rename_i hT; rw [if_neg hT] at r; exact r.mono (by omega)
  | lookup hd =>
    simp only [Op.key] at hb ⊢
    obtain ⟨g', e, r⟩ := lookup_spec h hS hd (by omega)
    exact ⟨g', G, by simp only [step, e]; rfl, r.mono (by omega)⟩
  | lookupSpaced hd =>
    simp only [Op.key] at hb ⊢
    obtain ⟨g', e, r⟩ := spaced_spec h hd (by omega)
    exact ⟨g', G, by simp only [step, e]; rfl, r.mono (by omega)⟩

theorem run_spec {g G T b} {ops : List Op} {evs : List Event} (h : Rel g G T b) (hS : Small T)
    (hs : Tells ops evs) (hl : Legal T evs)
    (hb : b + (ops.map Op.cost).sum < 4294967296) :
    ∃ g', run g ops = some (meaning T evs, g') := by
  induction hs generalizing g G T b with
  | nil => exact ⟨g, rfl⟩
  | @cons op e ops evs h1 h2 ih =>
    simp only [List.map_cons, List.sum_cons] at hb
    obtain ⟨g', G', e1, r1⟩ := step_spec h hS h1 hl.1 (by omega)
    obtain ⟨g'', e2⟩ := ih r1 (small_apply hS hl.1) hl.2 (by omega)
    exact ⟨g'', by simp only [run, e1, e2, Option.map_some, meaning]⟩

theorem exec_of {ops g l g'} (e : storageCreate = some g) (h : run g ops = some (l, g')) : exec ops = some l := by
  unfold exec
  rw [e, Option.bind_some, h]
  rfl

end RuC.Storage
