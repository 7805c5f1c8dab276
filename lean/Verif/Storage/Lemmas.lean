import Verif.Storage.Parts

/-! The invariant of the storage and its calls. -/

namespace RuC.Storage
open RuC

/-- The text spells a directive. -/
def isKw (k : List Nat) : Bool := keywordTable.any fun p => p.1 == k

/-- What the containers hold. -/
structure Ghost where
  K : Nat → Option (List Nat)
  A : Map.Table
  held : Int → Option Nat
  B : Hash.Table
  R : List Hash.Rec
  L : List (List Nat)

/-- The cell `s` says the value `v`. -/
def Val (L : List (List Nat)) (s : Int) (v : List Nat) : Prop :=
  (v = [] ∧ s = ITEM_MAX) ∨ (v ≠ [] ∧ ∃ x : Nat, s = (x : Int) ∧ L[x]? = some v)

/-- The name has the definition `t`. -/
def Live (G : Ghost) (k : List Nat) : Option (Nat × List Nat) → Prop
  | none => ∀ i v, G.A k = some (i, v) → G.B (i : Int) = none
  | some (n, v) => ∃ i mv j s, G.A k = some (i, mv) ∧ G.B (i : Int) = some (j, [s, (n : Int)]) ∧ Val G.L s v

/-- The storage `g` holds the macros `T`; `b` bounds its sizes. -/
structure Rel (g : Stg) (G : Ghost) (T : Macros) (b : Nat) : Prop where
  inv : Map.Inv g.as G.K
  abs : Map.Abs g.as G.K G.A
  rep : Hash.Rep ⟨g.hs, G.held⟩ G.B G.R
  vec : Strings.Inv g.vec G.L true
  kw : ∀ p ∈ keywordTable, ∃ i : Nat, G.A p.1 = some (i, p.2)
  plain : ∀ k i v, G.A k = some (i, v) → isKw k = false → kwIsCorrect v = false
  cell : ∀ i p, G.B i = some p → ∃ (n : Nat) (k : List Nat) (mv : Int), i = (n : Int) ∧
    G.A k = some (n, mv) ∧ isKw k = false
  live : ∀ k, isKw k = false → Live G k (T k)
  uniq : ∀ i i' j j' s n n', G.B i = some (j, [s, n]) → G.B i' = some (j', [s, n']) → s ≠ ITEM_MAX → i = i'
  sizeM : g.as.keysSize + g.as.values.length ≤ b
  sizeH : 256 + Hash.total G.R ≤ b
  sizeV : g.vec.size ≤ b
  countV : g.vec.count ≤ b

/-- The name `k` is defined, its index is `j`. -/
def At (G : Ghost) (k : List Nat) (j : Nat) : Prop :=
  ∃ (i : Nat) (mv : Int) (vs : List Int), G.A k = some (i, mv) ∧ G.B (i : Int) = some (j, vs)

theorem natCast_ne_itemMax {n b : Nat} (h : n ≤ b) (hb : b < 4294967296) : (n : Int) ≠ ITEM_MAX := by
  unfold ITEM_MAX; omega

theorem Rel.idx {g G T b} (h : Rel g G T b) (hb : b < 4294967296) {k i v} (hA : G.A k = some (i, v)) :
    i ≤ b := by
  have hs := h.sizeM
  obtain ⟨_, _, _, _, _, hl⟩ := used_ref h.inv h.abs hA (by omega)
  omega

theorem Rel.kwB {g G T b} (h : Rel g G T b) {k} (hk : isKw k = true) {i v} (hA : G.A k = some (i, v)) :
    G.B (i : Int) = none := by
  cases e : G.B (i : Int) with
  | none => rfl
  | some p =>
    obtain ⟨n, k', mv, e1, e2, e3⟩ := h.cell _ _ e
    have : i = n := by omega
    subst this
    have := abs_distinct h.abs hA e2
    subst this
    rw [hk] at e3
    cases e3

theorem Rel.at {g G T b} (h : Rel g G T b) {k n v} (hk : isKw k = false) (hT : T k = some (n, v)) :
    ∃ j, At G k j := by
  have := h.live k hk
  rw [hT] at this
  obtain ⟨i, mv, j, s, h1, h2, _⟩ := this
  exact ⟨j, i, mv, _, h1, h2⟩

theorem Rel.at_def {g G T b} (h : Rel g G T b) {k j} (hk : isKw k = false) (ha : At G k j) :
    ∃ n v i mv s, T k = some (n, v) ∧ G.A k = some (i, mv) ∧ G.B (i : Int) = some (j, [s, (n : Int)]) ∧
      Val G.L s v := by
  obtain ⟨i, mv, vs, h1, h2⟩ := ha
  have hl := h.live k hk
  cases hT : T k with
  | none =>
    rw [hT] at hl
    rw [hl i mv h1] at h2
    cases h2
  | some p =>
    obtain ⟨n, v⟩ := p
    rw [hT] at hl
    obtain ⟨i', mv', j', s, g1, g2, g3⟩ := hl
    rw [h1] at g1
    cases g1
    rw [h2] at g2
    cases g2
    exact ⟨n, v, i, mv, s, rfl, h1, h2, g3⟩

/-- The value of a macro in the map does not matter as long as it is no keyword. -/
theorem Rel.setMap {g G T b} (h : Rel g G T b) (hb : b < 4294967296) {k i w} (hA : G.A k = some (i, w))
    (hk : isKw k = false) {v : Int} (hv : kwIsCorrect v = false) :
    Rel { g with as := (Map.setByIndex g.as i v).2 } { G with A := G.A.upd k (i, v) } T b := by
  have hs := h.sizeM
  obtain ⟨m1, m2, m3, m4⟩ := mapSetAt_spec v h.inv h.abs hA (by omega)
  have hidx : ∀ k' j u, G.A k' = some (j, u) → ∃ u', (G.A.upd k (i, v)) k' = some (j, u') := by
    intro k' j u hu
    unfold Map.Table.upd
    by_cases e : k' = k
    · subst e; rw [hA] at hu; cases hu; exact ⟨v, by simp⟩
    · exact ⟨u, by simp [e, hu]⟩
  have hidx' : ∀ k' j u, (G.A.upd k (i, v)) k' = some (j, u) → ∃ u', G.A k' = some (j, u') := by
    intro k' j u hu
    unfold Map.Table.upd at hu
    by_cases e : k' = k
    · subst e; simp only [if_true] at hu; cases hu; exact ⟨w, hA⟩
    · simp only [if_neg e] at hu; exact ⟨u, hu⟩
  have hkwne : ∀ p ∈ keywordTable, p.1 ≠ k := by
    intro p hp e
    have : isKw k = true := by
      unfold isKw; rw [List.any_eq_true]; exact ⟨p, hp, by simp [e]⟩
    rw [hk] at this; cases this
  refine ⟨m1, m2, h.rep, h.vec, ?_, ?_, ?_, ?_, h.uniq, ?_, h.sizeH, h.sizeV, h.countV⟩
  · intro p hp
    obtain ⟨n, hn⟩ := h.kw p hp
    refine ⟨n, ?_⟩
    simp only [Map.Table.upd, if_neg (hkwne p hp), hn]
  · intro k' j u hu hk'
    unfold Map.Table.upd at hu
    by_cases e : k' = k
    · subst e; simp only [if_true] at hu; cases hu; exact hv
    · simp only [if_neg e] at hu; exact h.plain k' j u hu hk'
  · intro j p hj
    obtain ⟨n, k', mv, e1, e2, e3⟩ := h.cell j p hj
    obtain ⟨u', hu'⟩ := hidx k' n mv e2
    exact ⟨n, k', u', e1, hu', e3⟩
  · intro k' hk'
    have hl := h.live k' hk'
    cases hT : T k' with
    | none =>
      rw [hT] at hl
      intro j u hu
      obtain ⟨u', hu'⟩ := hidx' k' j u hu
      exact hl j u' hu'
    | some p =>
      obtain ⟨n, x⟩ := p
      rw [hT] at hl
      obtain ⟨j, mv, q, s, g1, g2, g3⟩ := hl
      obtain ⟨u', hu'⟩ := hidx k' j mv g1
      exact ⟨j, u', q, s, hu', g2, g3⟩
  · simp only; rw [m3, m4]; exact hs

/-- The map may be replaced by one with the same contents. -/
theorem Rel.sameMap {g G T b} (h : Rel g G T b) {m : Map.Map} (h1 : Map.Inv m G.K) (h2 : Map.Abs m G.K G.A)
    (h3 : m.keysSize = g.as.keysSize) (h4 : m.values = g.as.values) : Rel { g with as := m } G T b :=
  ⟨h1, h2, h.rep, h.vec, h.kw, h.plain, h.cell, h.live, h.uniq, by simp only; rw [h3, h4]; exact h.sizeM,
    h.sizeH, h.sizeV, h.countV⟩

theorem Rel.mono {g G T b b'} (h : Rel g G T b) (hb : b ≤ b') : Rel g G T b' :=
  ⟨h.inv, h.abs, h.rep, h.vec, h.kw, h.plain, h.cell, h.live, h.uniq, Nat.le_trans h.sizeM hb,
    Nat.le_trans h.sizeH hb, Nat.le_trans h.sizeV hb, Nat.le_trans h.countV hb⟩

/-- A new key in the map, not yet a macro. -/
theorem Rel.newKey {g G T b} (h : Rel g G T b) {k} (hk : isKw k = false) (hA : G.A k = none)
    {n : Nat} {m : Map.Map} (hf : Map.Free G.A n) (h1 : Map.Inv m (Map.setKey G.K n k))
    (h2 : Map.Abs m (Map.setKey G.K n k) (G.A.upd k (n, ITEM_MAX))) {c : Nat}
    (h3 : m.keysSize + m.values.length ≤ b + c) :
    Rel { g with as := m } { G with K := Map.setKey G.K n k, A := G.A.upd k (n, ITEM_MAX) } T (b + c) := by
  have hBn : G.B (n : Int) = none := by
    cases e : G.B (n : Int) with
    | none => rfl
    | some p =>
      obtain ⟨n', k', mv, e1, e2, e3⟩ := h.cell _ _ e
      exact absurd (by omega) (hf k' n' mv e2)
  have hold : ∀ k' p, G.A k' = some p → (G.A.upd k (n, ITEM_MAX)) k' = some p := by
    intro k' p hp
    have : k' ≠ k := by rintro rfl; rw [hA] at hp; cases hp
    simp only [Map.Table.upd, if_neg this, hp]
  have h' := h.mono (b' := b + c) (by omega)
  refine ⟨h1, h2, h.rep, h.vec, ?_, ?_, ?_, ?_, h.uniq, h3, h'.sizeH, h'.sizeV, h'.countV⟩
  · intro p hp
    obtain ⟨i, hi⟩ := h.kw p hp
    exact ⟨i, hold _ _ hi⟩
  · intro k' j u hu hk'
    simp only [Map.Table.upd] at hu
    by_cases e : k' = k
    · rw [if_pos e] at hu; cases hu
      unfold ITEM_MAX; decide
    · rw [if_neg e] at hu; exact h.plain k' j u hu hk'
  · intro j p hj
    obtain ⟨x, k', mv, e1, e2, e3⟩ := h.cell j p hj
    exact ⟨x, k', mv, e1, hold _ _ e2, e3⟩
  · intro k' hk'
    have hl := h.live k' hk'
    cases hT : T k' with
    | none =>
      rw [hT] at hl
      intro j u hu
      simp only [Map.Table.upd] at hu
      by_cases e : k' = k
      · rw [if_pos e] at hu; cases hu; exact hBn
      · rw [if_neg e] at hu; exact hl j u hu
    | some p =>
      obtain ⟨x, y⟩ := p
      rw [hT] at hl
      obtain ⟨j, mv, q, s, g1, g2, g3⟩ := hl
      exact ⟨j, mv, q, s, hold _ _ g1, g2, g3⟩

/-- Change of one record of the hash table and of the strings. -/
theorem Rel.setCell {g G T b} (h : Rel g G T b) {k i mv} (hA : G.A k = some (i, mv)) (hk : isKw k = false)
    {c : Option (Nat × List Int)} {d : Option (Nat × List Nat)} {hs : List Int} {held R vec L}
    (hrep : Hash.Rep ⟨hs, held⟩ (Hash.upd G.B (i : Int) c) R) (hvec : Strings.Inv vec L true)
    (hlive : Live { G with held := held, B := Hash.upd G.B (i : Int) c, R := R, L := L } k d)
    (hL : ∀ (k' : List Nat) (x : Nat) (v : List Nat), k' ≠ k → isKw k' = false → (∃ i' mv' j n, G.A k' = some (i', mv') ∧
      G.B (i' : Int) = some (j, [(x : Int), n])) → G.L[x]? = some v → L[x]? = some v)
    (hu : ∀ i' j j' s n n', i' ≠ (i : Int) → G.B i' = some (j, [s, n]) → c = some (j', [s, n']) → s = ITEM_MAX)
    {b' : Nat} (hb : b ≤ b') (h1 : 256 + Hash.total R ≤ b') (h2 : vec.size ≤ b') (h3 : vec.count ≤ b') :
    Rel { g with hs := hs, vec := vec } { G with held := held, B := Hash.upd G.B (i : Int) c, R := R, L := L }
      (T.put k d) b' := by
  have hupd : ∀ i', i' ≠ (i : Int) → Hash.upd G.B (i : Int) c i' = G.B i' := by
    intro i' e; simp [Hash.upd, e]
  refine ⟨h.inv, h.abs, hrep, hvec, h.kw, h.plain, ?_, ?_, ?_, Nat.le_trans h.sizeM hb, h1, h2, h3⟩
  · intro j p hj
    by_cases e : j = (i : Int)
    · exact ⟨i, k, mv, e, hA, hk⟩
    · replace hj : Hash.upd G.B (i : Int) c j = some p := hj
      rw [hupd j e] at hj; exact h.cell j p hj
  · intro k' hk'
    by_cases e : k' = k
    · subst e; simp only [Macros.put, if_true]; exact hlive
    · have hl := h.live k' hk'
      simp only [Macros.put, if_neg e]
      have hne : ∀ j u, G.A k' = some (j, u) → (j : Int) ≠ (i : Int) := by
        intro j u hu' e2
        have : j = i := by omega
        subst this
        exact e (abs_distinct h.abs hu' hA)
      cases hT : T k' with
      | none =>
        rw [hT] at hl
        intro j u hju
        simp only
        rw [hupd _ (hne j u hju)]
        exact hl j u hju
      | some p =>
        obtain ⟨x, y⟩ := p
        rw [hT] at hl
        obtain ⟨j, mv', q, s, g1, g2, g3⟩ := hl
        refine ⟨j, mv', q, s, g1, ?_, ?_⟩
        · simp only; rw [hupd _ (hne j mv' g1)]; exact g2
        · rcases g3 with g3 | ⟨g3, z, e1, e2⟩
          · exact .inl g3
          · subst e1
            exact .inr ⟨g3, z, rfl, hL k' z y e hk' ⟨j, mv', q, _, g1, g2⟩ e2⟩
  · intro i1 i2 j j' s n n' e1 e2 hs'
    simp only at e1 e2
    by_cases h1' : i1 = (i : Int) <;> by_cases h2' : i2 = (i : Int)
    · rw [h1', h2']
    · rw [h1'] at e1
      rw [hupd _ h2'] at e2
      simp only [Hash.upd, if_true] at e1
      exact absurd (hu i2 j' j s n' n h2' e2 e1) hs'
    · rw [h2'] at e2
      rw [hupd _ h1'] at e1
      simp only [Hash.upd, if_true] at e2
      exact absurd (hu i1 j j' s n n' h1' e1 e2) hs'
    · rw [hupd _ h1'] at e1
      rw [hupd _ h2'] at e2
      exact h.uniq i1 i2 j j' s n n' e1 e2 hs'

/-! ## The calls -/

theorem toItem_max : toItem SIZE_MAX = -1 := by
  unfold toItem SIZE_MAX; rfl

theorem kwIsCorrect_big {n : Nat} (h1 : 256 ≤ n) (h2 : n < 4294967296) : kwIsCorrect (n : Int) = false := by
  unfold kwIsCorrect
  have : (n : Int) % 4294967296 = n := by omega
  rw [this]
  simp only [Bool.and_eq_false_iff, decide_eq_false_iff_not]
  omega

theorem put_eq_self {T : Macros} {k d} (h : T k = d) : T.put k d = T := by
  funext k'
  unfold Macros.put
  by_cases e : k' = k
  · rw [if_pos e, e, h]
  · rw [if_neg e]

theorem put_put (T : Macros) (k d d') : (T.put k d).put k d' = T.put k d' := by
  funext k'
  unfold Macros.put
  by_cases e : k' = k <;> simp [e]

/-- `storage_add` of a name that is not defined. -/
theorem add_fresh {g G T b a k} (h : Rel g G T b) (hd : Map.Denotes a k) (hk : isKw k = false)
    (hT : T k = none) (hb : b + (4 * a.size + 20) < 4294967296) :
    ∃ j g' G', storageAdd g a = some (j, g') ∧ j ≠ SIZE_MAX ∧ At G' k j ∧
      Rel g' G' (T.put k (some (0, []))) (b + (4 * a.size + 20)) ∧ G'.L = G.L := by
  have hsm := h.sizeM
  -- the key
  obtain ⟨i, mv, m, G1, e1, hA1, r1, hB1, hL1⟩ : ∃ (i : Nat) (mv : Int) (m : Map.Map) (G1 : Ghost),
      mapReserve g.as a = some (i, m) ∧ G1.A k = some (i, mv) ∧
      Rel { g with as := m } G1 T (b + (4 * a.size + 9)) ∧ G1.B (i : Int) = none ∧ G1.L = G.L := by
    rcases mapAdd_spec ITEM_MAX h.inv h.abs hd (by omega) with
      ⟨i, w, m', hA, e, i1, a1, s1, v1⟩ | ⟨hA, n, m', hf, hn, e, i1, a1, z, _⟩
    · rw [if_pos rfl] at e
      have hl := h.live k hk
      rw [hT] at hl
      exact ⟨i, w, m', G, e, hA, (h.sameMap i1 a1 s1 v1).mono (by omega), hl i w hA, rfl⟩
    · have r := h.newKey hk hA hf i1 a1 (c := 4 * a.size + 9) (by omega)
      have hl := r.live k hk
      rw [hT] at hl
      have hA' : (G.A.upd k (n, ITEM_MAX)) k = some (n, ITEM_MAX) := by simp [Map.Table.upd]
      exact ⟨n, ITEM_MAX, m', _, e, hA', r, hl n _ hA', rfl⟩
  -- the record
  have hib := r1.idx (by omega) hA1
  have hiM := natCast_ne_itemMax hib (by omega)
  have hsH := r1.sizeH
  obtain ⟨j, hs, held, R, e2, hj, rep, tt⟩ := hashAdd_new 2 r1.rep hiM hB1 (by omega)
  have hBj : (Hash.upd G1.B (i : Int) (some (j, List.replicate 2 0))) (i : Int) = some (j, [0, 0]) := by
    simp [Hash.upd]
  have hlj := live_index rep hBj
  obtain ⟨R1, rep1, t1⟩ := hashSetAt 0 ITEM_MAX rep hiM hBj (by simp) (by omega)
  have hB1' : (Hash.upd (Hash.upd G1.B (i : Int) (some (j, List.replicate 2 0))) (i : Int)
      (some (j, [0, 0].set 0 ITEM_MAX))) (i : Int) = some (j, [ITEM_MAX, 0]) := by simp [Hash.upd]
  obtain ⟨R2, rep2, t2⟩ := hashSetAt 1 0 rep1 hiM hB1' (by simp) (by omega)
  have hupd : Hash.upd (Hash.upd (Hash.upd G1.B (i : Int) (some (j, List.replicate 2 0))) (i : Int)
      (some (j, [0, 0].set 0 ITEM_MAX))) (i : Int) (some (j, [ITEM_MAX, 0].set 1 0)) =
      Hash.upd G1.B (i : Int) (some (j, [ITEM_MAX, 0])) := by
    funext x
    unfold Hash.upd
    by_cases e : x = (i : Int) <;> simp [e]
  rw [hupd] at rep2
  have hkwj : kwIsCorrect ((j : Nat) : Int) = false := kwIsCorrect_big hlj.1 (by omega)
  have hji : toItem j = (j : Int) := toItem_of_lt (by omega)
  have rr := r1.setCell hA1 hk (d := some (0, [])) rep2 r1.vec
    ⟨i, mv, j, ITEM_MAX, hA1, by simp [Hash.upd], .inl ⟨rfl, rfl⟩⟩
    (fun _ _ _ _ _ _ hv => hv)
    (fun _ _ _ _ _ _ _ _ hc => by cases hc; rfl)
    (b' := b + (4 * a.size + 20)) (by omega) (by omega) (Nat.le_trans r1.sizeV (by omega))
    (Nat.le_trans r1.countV (by omega))
  have rr2 := rr.setMap (by omega) hA1 hk hkwj
  refine ⟨j, _, _, ?_, hj, ?_, rr2, hL1⟩
  · simp only [storageAdd, e1, toItem_of_lt (show i < 9223372036854775808 by omega), e2, hji]
  · exact ⟨i, j, [ITEM_MAX, 0], by simp [Map.Table.upd], by simp [Hash.upd]⟩

/-- `storage_add` of a defined name: nothing observable changes. -/
theorem add_taken {g G T b a k} (h : Rel g G T b) (hd : Map.Denotes a k) (hk : isKw k = false) {p}
    (hT : T k = some p) (hb : b + (4 * a.size + 20) < 4294967296) :
    ∃ g' G', storageAdd g a = some (SIZE_MAX, g') ∧ Rel g' G' T (b + (4 * a.size + 20)) ∧ G'.L = G.L := by
  have hsm := h.sizeM
  have hl := h.live k hk
  obtain ⟨n, v⟩ := p
  rw [hT] at hl
  obtain ⟨i, mv, j, s, hA, hB, hV⟩ := hl
  rcases mapAdd_spec ITEM_MAX h.inv h.abs hd (by omega) with
    ⟨i', w, m', hA', e, i1, a1, s1, v1⟩ | ⟨hA', _⟩
  · rw [if_pos rfl] at e
    rw [hA] at hA'
    cases hA'
    have r := h.sameMap i1 a1 s1 v1
    have hib := h.idx (by omega) hA
    have hiM := natCast_ne_itemMax hib (by omega)
    have hsH := h.sizeH
    obtain ⟨hs, held, R, e2, rep, tt⟩ := hashAdd_present 2 h.rep hiM hB (by omega)
    have r2 : Rel { g with as := m', hs := hs } { G with held := held, R := R } T (b + (4 * a.size + 20)) :=
      ⟨r.inv, r.abs, rep, r.vec, r.kw, r.plain, r.cell, r.live, r.uniq, Nat.le_trans r.sizeM (by omega),
        by simp only; omega, Nat.le_trans r.sizeV (by omega), Nat.le_trans r.countV (by omega)⟩
    have r3 := r2.setMap (by omega) hA hk (v := -1) (by decide)
    refine ⟨_, _, ?_, r3, rfl⟩
    simp only [storageAdd, mapReserve, e, toItem_of_lt (show i < 9223372036854775808 by omega), e2, toItem_max,
      setAt_max]
  · rw [hA] at hA'; cases hA'

/-- What a search answers. -/
theorem search_spec {g G T b a k} (h : Rel g G T b) (hd : Map.Denotes a k)
    (hb : b + (4 * a.size + 9) < 4294967296) :
    ∃ r m, storageSearch g a = some (r, { g with as := m }) ∧ Rel { g with as := m } G T b ∧
      ((∃ p ∈ keywordTable, p.1 = k ∧ r = toSize p.2) ∨
       (isKw k = false ∧ (∃ d, T k = some d) ∧ At G k r ∧ 256 ≤ r ∧ r < 4294967296) ∨
       (isKw k = false ∧ T k = none ∧ r = SIZE_MAX)) := by
  have hsm := h.sizeM
  obtain ⟨n, m, e1, i1, a1, s1, v1, hc⟩ := mapIndex_spec h.inv h.abs hd (by omega)
  have r := h.sameMap i1 a1 s1 v1
  rcases hc with ⟨w, hA⟩ | ⟨hA, rfl⟩
  · have hg := mapGetAt_spec r.inv r.abs hA (Nat.lt_of_le_of_lt (Nat.le_trans (Nat.le_add_right _ _) r.sizeM) (by omega))
    have hib := h.idx (by omega) hA
    have hiM := natCast_ne_itemMax hib (by omega)
    by_cases hk : isKw k = true
    · obtain ⟨p, hp, he⟩ := List.any_eq_true.1 hk
      have he : p.1 = k := by simpa using he
      obtain ⟨i, hi⟩ := h.kw p hp
      rw [he, hA] at hi
      have hw : w = p.2 := by cases hi; rfl
      have hcor : kwIsCorrect p.2 = true := by
        have : ∀ p ∈ keywordTable, kwIsCorrect p.2 = true := by decide
        exact this p hp
      refine ⟨toSize p.2, m, ?_, r, .inl ⟨p, hp, he, rfl⟩⟩
      simp only [storageSearch, e1, hg, hw, hcor, if_true]
    · have hk : isKw k = false := by simpa using hk
      have hw := h.plain k n w hA hk
      have hres : ∀ q, Hash.getIndex g.hs (n : Int) = some q →
          storageSearch g a = some (q, { g with as := m }) := by
        intro q hq
        simp only [storageSearch, e1, hg, hw, Bool.false_eq_true, if_false,
          toItem_of_lt (show n < 9223372036854775808 by omega), hq, Option.map_some]
      cases hB : G.B (n : Int) with
      | none =>
        refine ⟨SIZE_MAX, m, hres _ (h.rep.absent hiM hB), r, .inr (.inr ⟨hk, ?_, rfl⟩)⟩
        cases hT : T k with
        | none => rfl
        | some p =>
          obtain ⟨x, y⟩ := p
          have hl := h.live k hk
          rw [hT] at hl
          obtain ⟨i, mv, j, s, hA', hB', _⟩ := hl
          rw [hA] at hA'; cases hA'
          rw [hB] at hB'; cases hB'
      | some p =>
        obtain ⟨j, vs⟩ := p
        have hlj := live_index h.rep hB
        have hsH := h.sizeH
        refine ⟨j, m, hres _ (Hash.rep_observe h.rep hB).1, r, .inr (.inl ⟨hk, ?_, ⟨n, w, vs, hA, hB⟩,
          hlj.1, by omega⟩)⟩
        cases hT : T k with
        | some d => exact ⟨d, rfl⟩
        | none =>
          have hl := h.live k hk
          rw [hT] at hl
          rw [hl n w hA] at hB; cases hB
  · have hk : isKw k = false := by
      cases hk : isKw k with
      | false => rfl
      | true =>
        obtain ⟨p, hp, he⟩ := List.any_eq_true.1 hk
        have he : p.1 = k := by simpa using he
        obtain ⟨i, hi⟩ := h.kw p hp
        rw [he, hA] at hi; cases hi
    have hg := mapGetAt_max (m := m) (by rw [v1]; omega)
    have hB : G.B (-1) = none := by
      cases e : G.B (-1) with
      | none => rfl
      | some p => obtain ⟨n, _, _, e1, _⟩ := h.cell _ _ e; omega
    have habs := h.rep.absent (by unfold ITEM_MAX; omega) hB
    have hkm : kwIsCorrect ITEM_MAX = false := by unfold ITEM_MAX; decide
    refine ⟨SIZE_MAX, m, ?_, r, .inr (.inr ⟨hk, ?_, rfl⟩)⟩
    · simp only [storageSearch, e1, hg, hkm, Bool.false_eq_true, if_false, toItem_max]
      rw [habs]; rfl
    · cases hT : T k with
      | none => rfl
      | some p =>
        obtain ⟨x, y⟩ := p
        have hl := h.live k hk
        rw [hT] at hl
        obtain ⟨i, mv, j, s, hA', _⟩ := hl
        rw [hA] at hA'; cases hA'

/-- The cells of a live macro. -/
theorem cells_of_at {g G T b k j} (h : Rel g G T b) (hk : isKw k = false) (ha : At G k j) :
    ∃ n v i mv s, T k = some (n, v) ∧ G.A k = some (i, mv) ∧ G.B (i : Int) = some (j, [s, (n : Int)]) ∧
      Val G.L s v ∧ Hash.getAt g.hs j 0 = s ∧ Hash.getAt g.hs j 1 = (n : Int) ∧ Hash.getKey g.hs j = (i : Int) := by
  obtain ⟨n, v, i, mv, s, h1, h2, h3, h4⟩ := h.at_def hk ha
  obtain ⟨_, _, _, o4, _, o6⟩ := Hash.rep_observe h.rep h3
  exact ⟨n, v, i, mv, s, h1, h2, h3, h4, by rw [o6]; rfl, by rw [o6]; rfl, o4⟩

/-- `storage_set_args_by_index` on a live macro. -/
theorem setArgs_spec {g G T b k j} (h : Rel g G T b) (hk : isKw k = false) (ha : At G k j)
    (hb : b < 4294967296) (n : Nat) (hn : n < 4294967296) :
    ∃ G' n0 v, T k = some (n0, v) ∧ Rel (storageSetArgs g j n) G' (T.put k (some (n, v))) b ∧ At G' k j ∧
      G'.L = G.L := by
  obtain ⟨n0, v, i, mv, s, hT, hA, hB, hV, _⟩ := cells_of_at h hk ha
  have hib := h.idx hb hA
  have hiM := natCast_ne_itemMax hib hb
  have hsH := h.sizeH
  obtain ⟨R', rep, tt⟩ := hashSetAt 1 (n : Int) h.rep hiM hB (by simp) (by omega)
  have hset : [s, (n0 : Int)].set 1 (n : Int) = [s, (n : Int)] := rfl
  rw [hset] at rep
  have rr := h.setCell hA hk (d := some (n, v)) rep h.vec
    ⟨i, mv, j, s, hA, by simp [Hash.upd], hV⟩ (fun _ _ _ _ _ _ hv => hv)
    (fun i' j1 j2 s1 n1 n2 hne hB' hc => by
      simp only [Option.some.injEq, Prod.mk.injEq, List.cons.injEq, and_true] at hc
      obtain ⟨_, e0, _⟩ := hc
      subst e0
      by_cases e : s = ITEM_MAX
      · exact e
      · exact absurd (h.uniq i' (i : Int) j1 j s n1 n0 hB' hB e) hne)
    (Nat.le_refl b) (by omega) h.sizeV h.countV
  have hs : storageSetArgs g j n = { g with hs := (Hash.setAt g.hs j 1 (n : Int)).2, vec := g.vec } := by
    unfold storageSetArgs
    rw [toItem_of_lt (by omega)]
  rw [hs]
  exact ⟨_, n0, v, hT, rr, ⟨i, mv, [s, (n : Int)], hA, by simp [Hash.upd]⟩, rfl⟩

/-- The strings after dropping the value of a live macro, if it was the last one: other values stay. -/
theorem dropLast_spec {g G T b k j} (h : Rel g G T b) (hk : isKw k = false) (ha : At G k j)
    (hb : b < 4294967296) :
    ∃ vec L, dropLast g j = some vec ∧ Strings.Inv vec L true ∧ vec.size ≤ b ∧ vec.count ≤ b ∧
      (∀ (k' : List Nat) (x : Nat) (v : List Nat), k' ≠ k → isKw k' = false →
        (∃ i' mv' j n, G.A k' = some (i', mv') ∧ G.B (i' : Int) = some (j, [(x : Int), n])) →
        G.L[x]? = some v → L[x]? = some v) ∧
      (∀ n, T k = some (n, []) → L = G.L ∧ vec = g.vec) ∧
      (∀ (k' : List Nat) (x : Nat) (v : List Nat), k' ≠ k → isKw k' = false →
        (∃ i' mv' j n, G.A k' = some (i', mv') ∧ G.B (i' : Int) = some (j, [(x : Int), n])) →
        G.L[x]? = some v → x < L.length) := by
  obtain ⟨n0, v, i, mv, s, hT, hA, hB, hV, hg, _⟩ := cells_of_at h hk ha
  have hsz := h.sizeV
  have hct := h.countV
  have hcl := h.vec.count
  have hsize : toItem (Strings.stringsSize g.vec) = (G.L.length : Int) := by
    unfold Strings.stringsSize
    rw [toItem_of_lt (by omega), hcl]
  unfold dropLast
  rw [hg, hsize]
  by_cases hlast : s = (G.L.length : Int) - 1
  · rw [if_pos hlast]
    obtain ⟨t, vec, e, inv', z1, z2⟩ := strRemove h.vec (by omega) (by omega)
    have key : ∀ (k' : List Nat) (x : Nat) (v' : List Nat), k' ≠ k → isKw k' = false →
        (∃ i' mv' j n, G.A k' = some (i', mv') ∧ G.B (i' : Int) = some (j, [(x : Int), n])) →
        G.L[x]? = some v' → x < G.L.length - 1 := by
      intro k' x v' hne hk' ⟨i', mv', j', n', hA', hB'⟩ hx
      have hlt : x < G.L.length := (List.getElem?_eq_some_iff.1 hx).1
      by_cases hxs : (x : Int) = s
      · exfalso
        subst hxs
        have hxM : (x : Int) ≠ ITEM_MAX := natCast_ne_itemMax (Nat.le_of_lt hlt) (by omega)
        have := h.uniq _ _ _ _ _ _ _ hB' hB hxM
        have : i' = i := by omega
        subst this
        exact hne (abs_distinct h.abs hA' hA)
      · omega
    refine ⟨vec, G.L.dropLast, by rw [e]; rfl, inv', by omega, by omega, ?_, ?_, ?_⟩
    · intro k' x v' hne hk' hex hx
      have := key k' x v' hne hk' hex hx
      rw [List.getElem?_dropLast, if_pos this]
      exact hx
    · intro n hn
      rw [hT] at hn
      cases hn
      rcases hV with ⟨_, hV⟩ | ⟨hV, _⟩
      · exfalso
        rw [hV] at hlast
        unfold ITEM_MAX at hlast
        omega
      · exact absurd rfl hV
    · intro k' x v' hne hk' hex hx
      have := key k' x v' hne hk' hex hx
      rw [List.length_dropLast]
      exact this
  · rw [if_neg hlast]
    refine ⟨g.vec, G.L, rfl, h.vec, hsz, hct, fun _ _ _ _ _ _ hx => hx, fun _ _ => ⟨rfl, rfl⟩,
      fun k' x v' _ _ _ hx => (List.getElem?_eq_some_iff.1 hx).1⟩

/-- `storage_set_by_index` on a live macro. -/
theorem set_spec {g G T b k j} (h : Rel g G T b) (hk : isKw k = false) (ha : At G k j) (v : List Nat)
    (hb : b + (4 * v.length + 9) < 4294967296) (h0 : 0 ∉ v) {n v0} (hT : T k = some (n, v0))
    (hemp : v = [] → v0 = []) :
    ∃ g' G', storageSet g j v = some (j, g') ∧ Rel g' G' (T.put k (some (n, v))) (b + (4 * v.length + 9)) ∧
      (v0 = [] → v ≠ [] → G'.L = G.L ++ [v]) := by
  obtain ⟨n', v0', i, mv, s, hT', hA, hB, hV, hg0, _⟩ := cells_of_at h hk ha
  rw [hT] at hT'
  cases hT'
  obtain ⟨vec, L, e1, inv1, z1, z2, keep, same, below⟩ := dropLast_spec h hk ha (by omega)
  have hib := h.idx (by omega) hA
  have hiM := natCast_ne_itemMax hib (by omega)
  have hsH := h.sizeH
  by_cases hv : v = []
  · subst hv
    have hv0 := hemp rfl
    subst hv0
    obtain ⟨rfl, rfl⟩ := same n hT
    refine ⟨g, G, ?_, ?_, fun _ h => absurd rfl h⟩
    · simp only [storageSet, e1, strAdd_empty, ne_eq, not_true_eq_false, if_false]
    · rw [put_eq_self hT]; exact h.mono (by omega)
  · obtain ⟨vec2, e2, inv2, z3, z4⟩ := strAdd v inv1 h0 hv (by omega) (by omega)
    have hLc := inv1.count
    have hlen : toItem L.length = (L.length : Int) := toItem_of_lt (by omega)
    obtain ⟨R', rep, tt⟩ := hashSetAt 0 (L.length : Int) h.rep hiM hB (by simp) (by omega)
    have hset : [s, (n : Int)].set 0 (L.length : Int) = [(L.length : Int), (n : Int)] := rfl
    rw [hset] at rep
    have rr := h.setCell hA hk (d := some (n, v)) rep inv2
      ⟨i, mv, j, (L.length : Int), hA, by simp [Hash.upd], .inr ⟨hv, L.length, rfl, by simp⟩⟩
      (fun k' x v' hne hk' hex hx => by
        have h1 := keep k' x v' hne hk' hex hx
        have h2 := (List.getElem?_eq_some_iff.1 h1).1
        rw [List.getElem?_append_left h2]; exact h1)
      (fun i' j1 j2 s1 n1 n2 hne hB' hc => by
        cases hc
        exfalso
        obtain ⟨x, k', mv', rfl, hA', hk'⟩ := h.cell _ _ hB'
        have hkk : k' ≠ k := by
          rintro rfl
          rw [hA] at hA'
          cases hA'
          exact hne rfl
        -- the other macro has that string
        obtain ⟨n3, v3, i3, mv3, s3, hT3, hA3, hB3, hV3, _⟩ := cells_of_at h hk' ⟨x, mv', _, hA', hB'⟩
        rw [hA'] at hA3
        cases hA3
        rw [hB'] at hB3
        simp only [Option.some.injEq, Prod.mk.injEq, List.cons.injEq, and_true] at hB3
        obtain ⟨_, rfl, rfl⟩ := hB3
        rcases hV3 with ⟨_, hV3⟩ | ⟨_, y, hy, hV3⟩
        · have : L.length ≤ b := by omega
          exact natCast_ne_itemMax this (by omega) hV3
        · have := below k' y v3 hkk hk' ⟨x, mv', _, _, hA', by rw [← hy]; exact hB'⟩ hV3
          omega)
      (b' := b + (4 * v.length + 9)) (by omega) (by omega) (by omega) (by omega)
    refine ⟨_, _, ?_, rr, fun h0 _ => ?_⟩
    rotate_left
    · subst h0
      rw [(same n hT).1]
    have hne : L.length ≠ SIZE_MAX := by unfold SIZE_MAX; omega
    simp only [storageSet, e1, e2, ne_eq, hne, not_false_eq_true, if_true, hlen]

/-- `storage_remove_by_index` on a live macro. -/
theorem remove_spec {g G T b k j} (h : Rel g G T b) (hk : isKw k = false) (ha : At G k j)
    (hb : b < 4294967296) :
    ∃ g' G', storageRemove g j = some g' ∧ Rel g' G' (T.put k none) b := by
  obtain ⟨n, v, i, mv, s, hT, hA, hB, hV, hg0, hg1, hgk⟩ := cells_of_at h hk ha
  obtain ⟨vec, L, e1, inv1, z1, z2, keep, same, below⟩ := dropLast_spec h hk ha (by omega)
  have hib := h.idx (by omega) hA
  have hiM := natCast_ne_itemMax hib (by omega)
  have hsH := h.sizeH
  obtain ⟨held, R', rep, tt⟩ := hashRemoveAt h.rep hiM hB (by omega)
  have rr := h.setCell hA hk (d := none) rep inv1
    (fun i' v' hA' => by
      have hA'' : G.A k = some (i', v') := hA'
      rw [hA] at hA''
      cases hA''
      simp [Hash.upd])
    keep (fun _ _ _ _ _ _ _ _ hc => by cases hc) (Nat.le_refl b) (by omega) z1 z2
  have rr2 := rr.setMap hb hA hk (v := ITEM_MAX) (by unfold ITEM_MAX; decide)
  refine ⟨_, _, ?_, rr2⟩
  simp only [storageRemove, e1, hgk, toSize_natCast (show i < 18446744073709551616 by omega)]

end RuC.Storage
