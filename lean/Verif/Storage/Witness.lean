import Verif.Storage.Refine

/-! What the storage does where the histories of C41 are left. -/

namespace RuC.Storage
open RuC

theorem run_cons {g op r g1 ops l g'} (h : step g op = some (r, g1)) (h2 : run g1 ops = some (l, g')) :
    run g (op :: ops) = some (r :: l, g') := by
  simp only [run, h, h2, Option.map_some]

theorem step_define {g a c g'} (h : parseDefine g a c = some g') : step g (.define a c) = some (.done, g') := by
  simp only [step, h, Option.map_some]

theorem step_undef {g a g'} (h : parseUndef g a = some g') : step g (.undef a) = some (.done, g') := by
  simp only [step, h, Option.map_some]

/-- A first definition appends its value. -/
theorem define_fresh {g G T b a k} (h : Rel g G T b) (hd : Map.Denotes a k) (hk : isKw k = false) (n : Nat)
    (v : List Nat) (hn : n < 4294967296) (h0 : 0 ∉ v) (hv : v ≠ []) (hT : T k = none)
    (hb : b + (12 * a.size + 4 * v.length + 80) < 4294967296) :
    ∃ g' G', parseDefine g a (some (n, v)) = some g' ∧
      Rel g' G' (T.put k (some (n, v))) (b + (12 * a.size + 4 * v.length + 80)) ∧ G'.L = G.L ++ [v] := by
  obtain ⟨j, g1, G1, e1, hj, a1, r1, l1⟩ := add_fresh h hd hk hT (by omega)
  obtain ⟨G2, n0, v0, hT2, r2, a2, l2⟩ := setArgs_spec r1 hk a1 (by omega) n hn
  simp only [Macros.put, if_true, Option.some.injEq, Prod.mk.injEq] at hT2
  obtain ⟨_, rfl⟩ := hT2
  obtain ⟨g3, G3, e3, r3, l3⟩ := set_spec r2 hk a2 v (by omega) h0 (n := n) (v0 := []) (by simp [Macros.put])
    (fun _ => rfl)
  rw [put_put, put_put] at r3
  exact ⟨g3, G3, by simp only [parseDefine, e1, if_neg hj, parseContext, e3, Option.map_some], r3.mono (by omega),
    by rw [l3 rfl hv, l2, l1]⟩

/-- An empty redefinition of a macro whose value is not the last string changes nothing but the number
of parameters. -/
theorem define_empty {g G T b a k} (h : Rel g G T b) (hd : Map.Denotes a k) (hk : isKw k = false) (n n0 : Nat)
    (v0 : List Nat) (hn : n < 4294967296) (hT : T k = some (n0, v0)) (hv : v0 ≠ [])
    (hlast : ∀ L, G.L ≠ L ++ [v0])
    (hb : b + (12 * a.size + 80) < 4294967296) :
    ∃ g' G', parseDefine g a (some (n, [])) = some g' ∧
      Rel g' G' (T.put k (some (n, v0))) (b + (12 * a.size + 80)) := by
  obtain ⟨g1, G1, e1, r1, l1⟩ := add_taken h hd hk hT (by omega)
  obtain ⟨j, m, e2, r2, hr⟩ := search_spec r1 hd (by omega)
  rcases hr with ⟨q, hq, hqk, _⟩ | ⟨_, _, a2, h256, _⟩ | ⟨_, hT', _⟩
  · exfalso
    have : isKw k = true := by
      unfold isKw; rw [List.any_eq_true]; exact ⟨q, hq, by simp [hqk]⟩
    rw [hk] at this; cases this
  · obtain ⟨G3, n3, v3, hT3, r3, a3, l3⟩ := setArgs_spec r2 hk a2 (by omega) n hn
    rw [hT] at hT3
    cases hT3
    obtain ⟨n4, v4, i, mv, s, hT4, hA, hB, hV, g0, _⟩ := cells_of_at r3 hk a3
    simp only [Macros.put, if_true, Option.some.injEq, Prod.mk.injEq] at hT4
    obtain ⟨rfl, rfl⟩ := hT4
    have hcl := r3.vec.count
    have hct := r3.countV
    have hdl : dropLast (storageSetArgs { g1 with as := m } j n) j =
        some (storageSetArgs { g1 with as := m } j n).vec := by
      unfold dropLast
      apply if_neg
      rw [g0]
      unfold Strings.stringsSize
      rw [toItem_of_lt (Nat.lt_of_le_of_lt hct (by omega)), hcl]
      intro hs
      rcases hV with ⟨hV, _⟩ | ⟨_, x, rfl, hx⟩
      · exact hv hV
      · have hlt := (List.getElem?_eq_some_iff.1 hx).1
        have hx' : x = G3.L.length - 1 := by omega
        subst hx'
        refine hlast G3.L.dropLast ?_
        rw [← l1, ← l3]
        have hne : G3.L ≠ [] := by intro e; rw [e] at hlt; simp at hlt
        rw [← List.getLast?_eq_getElem?, List.getLast?_eq_some_getLast hne] at hx
        simp only [Option.some.injEq] at hx
        rw [← hx, List.dropLast_concat_getLast]
    refine ⟨_, G3, ?_, r3.mono (by omega)⟩
    simp only [parseDefine, e1, if_true, e2, parseContext, storageSet, hdl, strAdd_empty, ne_eq, not_true_eq_false,
      if_false, Option.map_some]
  · rw [hT] at hT'; cases hT'

/-- Sample names. -/
def nameA : List Nat := [65]
def nameB : List Nat := [66]
def nameNope : List Nat := [78, 79, 80, 69]
def nameAWh : List Nat := [65, 87, 104]
def hashDefine : List Nat := [35, 100, 101, 102, 105, 110, 101]

/-- `#define A 1`, `#define B 2`, `#define A`: the old value of A stays. -/
theorem empty_keeps_old :
    exec [.define (.utf8 (nameA ++ [0])) (some (0, [49])), .define (.utf8 (nameB ++ [0])) (some (0, [50])),
      .define (.utf8 (nameA ++ [0])) (some (0, [])), .lookup (.utf8 (nameA ++ [0]))] =
    some [.done, .done, .done, .found 0 (some [49])] := by
  have dA : Map.Denotes (.utf8 (nameA ++ [0])) nameA := .utf8 _ (by decide)
  have dB : Map.Denotes (.utf8 (nameB ++ [0])) nameB := .utf8 _ (by decide)
  have lA : isKw nameA = false := by decide +kernel
  have lB : isKw nameB = false := by decide +kernel
  have sA : (Map.KeyArg.utf8 (nameA ++ [0])).size = 2 := rfl
  have sB : (Map.KeyArg.utf8 (nameB ++ [0])).size = 2 := rfl
  obtain ⟨g, G, e, r, _, _, _, hL, _⟩ := create_spec
  obtain ⟨g1, G1, e1, r1, l1⟩ := define_fresh r dA lA 0 [49] (by decide) (by decide) (by decide) rfl (by
    rw [sA]; decide)
  obtain ⟨g2, G2, e2, r2, l2⟩ := define_fresh r1 dB lB 0 [50] (by decide) (by decide) (by decide) (by decide) (by
    rw [sA, sB]; decide)
  obtain ⟨g3, G3, e3, r3⟩ := define_empty r2 dA lA 0 0 [49] (by decide) (by decide) (by decide) (by
    intro L
    rw [l2, l1, hL]
    intro h
    have := congrArg List.getLast? h
    simp at this) (by rw [sA, sB]; decide)
  obtain ⟨g4, e4, _⟩ := lookup_spec r3 (by
    refine small_put (small_put (small_put (fun _ _ _ h => by cases h) _ ?_) _ ?_) _ ?_ <;>
      (intro n v h; cases h; decide)) dA (by rw [sA, sB]; decide)
  have ha : answer ((Macros.put (Macros.put (fun _ => none) nameA (some (0, [49]))) nameB (some (0, [50]))).put nameA
      (some (0, [49]))) nameA = .found 0 (some [49]) := by
    simp only [answer, directive_none lA]
    decide
  rw [ha] at e4
  exact exec_of e (run_cons (step_define e1) (run_cons (step_define e2) (run_cons (step_define e3) (run_cons e4 rfl))))

/-! ## Removal of what is not defined -/

/-- The table after the first macro with the key 0. -/
def wHs : List Int :=
  (Hash.setAt (Hash.setAt (Hash.setAt (Hash.setAt ((Hash.hashAdd Hash.hashCreate 0 2).getD (0, [])).2 256 0
    ITEM_MAX).2 256 1 0).2 256 1 0).2 256 0 0).2

/-- The map keeps `#define` at 256 and leaves 0 free. -/
theorem lay_facts : (lay ([], 256) (keywordTable.map Prod.fst)).1.lookup 0 = none ∧
    (lay ([], 256) (keywordTable.map Prod.fst)).1.lookup 256 = some hashDefine := by decide +kernel

theorem undef_unknown :
    exec [.define (.utf8 (nameAWh ++ [0])) (some (0, [49])), .lookup (.utf8 (hashDefine ++ [0])),
      .undef (.utf8 (nameNope ++ [0])), .lookup (.utf8 (hashDefine ++ [0]))] =
    some [.done, .keyword 4, .done, .absent] := by
  have dA : Map.Denotes (.utf8 (nameAWh ++ [0])) nameAWh := .utf8 _ (by decide)
  have dN : Map.Denotes (.utf8 (nameNope ++ [0])) nameNope := .utf8 _ (by decide)
  have dD : Map.Denotes (.utf8 (hashDefine ++ [0])) hashDefine := .utf8 _ (by decide)
  have lA : isKw nameAWh = false := by decide +kernel
  have lN : isKw nameNope = false := by decide +kernel
  have sA : (Map.KeyArg.utf8 (nameAWh ++ [0])).size = 4 := rfl
  have sN : (Map.KeyArg.utf8 (nameNope ++ [0])).size = 5 := rfl
  have sD : (Map.KeyArg.utf8 (hashDefine ++ [0])).size = 8 := rfl
  have hm : (hashDefine, (4 : Int)) ∈ keywordTable := by decide +kernel
  obtain ⟨g, G, e, r, hK, hlen, hhs, hL, hA⟩ := create_spec
  have hsz := r.sizeM
  obtain ⟨f1, f2⟩ := lay_facts
  -- the definition
  rcases mapAdd_spec ITEM_MAX r.inv r.abs dA (by rw [sA]; omega) with
    ⟨i, w, m', hA', _⟩ | ⟨_, n, m1, hf, hn, e1, i1, a1, z1, pl⟩
  · rw [hA _ lA] at hA'; cases hA'
  have h0 : Map.keyHash nameAWh = 0 := by decide
  have hn0 : n = 0 := by
    rcases pl with ⟨_, p, _⟩ | ⟨p, _⟩
    · rw [p, h0]
    · rw [h0, hK, f1] at p; exact absurd rfl p
  subst hn0
  rw [sA] at z1
  obtain ⟨iD, hD⟩ := r.kw _ hm
  have hiD : iD = 256 := by
    obtain ⟨_, w, _, _, q⟩ := Map.present_some r.inv r.abs ((hK 256).trans f2)
    have := hD.symm.trans q
    simp only [Option.some.injEq, Prod.mk.injEq] at this
    exact this.1
  subst hiD
  have hA1 : (G.A.upd nameAWh (0, ITEM_MAX)) nameAWh = some (0, ITEM_MAX) := by simp [Map.Table.upd]
  have hN : nameNope ≠ nameAWh := by decide
  have hDA : hashDefine ≠ nameAWh := by decide
  obtain ⟨i2, a2, s2, v2⟩ := mapSetAt_spec (toItem 256) i1 a1 hA1 (by omega)
  have hvec : g.vec.size ≤ 8000 ∧ g.vec.count ≤ 8000 := ⟨r.sizeV, r.countV⟩
  have hcl := r.vec.count
  rw [hL] at hcl
  obtain ⟨vec, e3, inv3, z3, z4⟩ := strAdd [49] r.vec (by decide) (by decide)
    (by simp only [List.length_singleton]; omega) (by omega)
  -- the table
  have t0 : toItem 0 = 0 := toItem_of_lt (by decide)
  obtain ⟨hs1, t1⟩ : ∃ hs1, Hash.hashAdd Hash.hashCreate 0 2 = some (256, hs1) ∧
      Hash.getAt (Hash.setAt (Hash.setAt (Hash.setAt hs1 256 0 ITEM_MAX).2 256 1 0).2 256 1 0).2 256 0 = ITEM_MAX ∧
      wHs = (Hash.setAt (Hash.setAt (Hash.setAt (Hash.setAt hs1 256 0 ITEM_MAX).2 256 1 0).2 256 1 0).2 256 0 0).2 :=
    ⟨((Hash.hashAdd Hash.hashCreate 0 2).getD (0, [])).2, by decide +kernel, by decide +kernel, rfl⟩
  obtain ⟨t1, t2, t3⟩ := t1
  have t4 : Hash.getKey wHs SIZE_MAX = 256 := by decide +kernel
  have t5 : Hash.getIndex wHs (-1) = some SIZE_MAX := by decide +kernel
  have t6 : Hash.removeAt wHs SIZE_MAX = (-1, wHs) := by decide +kernel
  have t7 : Hash.getIndex wHs 256 = some SIZE_MAX := by decide +kernel
  have t8 : Hash.getAt wHs SIZE_MAX 0 = ITEM_MAX := by decide +kernel
  have h256 : (256 : Nat) ≠ SIZE_MAX := by decide +kernel
  have hd1 : ∀ as, dropLast { g with as := as, hs := (Hash.setAt (Hash.setAt (Hash.setAt hs1 256 0 ITEM_MAX).2 256 1 0).2 256 1 0).2 } 256 = some g.vec := by
    intro as
    unfold dropLast
    apply if_neg
    simp only [t2]
    unfold Strings.stringsSize
    rw [hcl, List.length_nil, t0]
    decide +kernel
  have e2 : parseDefine g (.utf8 (nameAWh ++ [0])) (some (0, [49])) =
      some ⟨(Map.setByIndex m1 0 (toItem 256)).2, wHs, vec⟩ := by
    have hl0 : G.L.length = 0 := by rw [hL]; rfl
    have h0m : (0 : Nat) ≠ SIZE_MAX := by decide +kernel
    simp only [parseDefine, storageAdd, mapReserve, e1, t0, hhs, t1, if_neg h256, parseContext, storageSetArgs,
      storageSet, hd1, e3, hl0, Option.map_some, ne_eq, h0m, not_false_eq_true, if_true, t3]
  -- the map after the definition
  generalize hmm : (Map.setByIndex m1 0 (toItem 256)).2 = m2 at *
  have hz2 : m2.keysSize + m2.values.length ≤ 9000 := by omega
  have k1 : (Map.Table.upd (Map.Table.upd G.A nameAWh (0, ITEM_MAX)) nameAWh (0, toItem 256)) nameNope = none := by
    simp only [Map.Table.upd, if_neg hN]; exact hA _ lN
  have k2 : (Map.Table.upd (Map.Table.upd G.A nameAWh (0, ITEM_MAX)) nameAWh (0, toItem 256)) hashDefine =
      some (256, 4) := by
    simp only [Map.Table.upd, if_neg hDA]; exact hD
  -- the first lookup
  obtain ⟨x, m3, e4, i3, a3, s3, v3, hx⟩ := mapIndex_spec i2 a2 dD (by rw [sD]; omega)
  have hx' : x = 256 := by
    rcases hx with ⟨w, hx⟩ | ⟨hx, _⟩
    · have := k2.symm.trans hx
      simp only [Option.some.injEq, Prod.mk.injEq] at this
      exact this.1.symm
    · exact absurd (k2.symm.trans hx) (by simp)
  subst hx'
  have e5 := mapGetAt_spec i3 a3 k2 (by omega)
  have c4 : kwIsCorrect 4 = true := by decide
  have c4' : toSize 4 = 4 := toSize_natCast (n := 4) (by decide)
  have n4 : (4 : Nat) ≠ SIZE_MAX := by decide +kernel
  have e6 : lookup ⟨m2, wHs, vec⟩ (.utf8 (hashDefine ++ [0])) = some (.keyword 4, ⟨m3, wHs, vec⟩) := by
    simp only [lookup, storageSearch, e4, e5, c4, if_true, c4', if_neg n4]
    rfl
  -- the removal
  have hz3 : m3.keysSize + m3.values.length ≤ 9000 := by rw [s3, v3]; exact hz2
  obtain ⟨y, m4, e7, i4, a4, s4, v4, hy⟩ := mapIndex_spec i3 a3 dN (by rw [sN]; omega)
  have hy' : y = SIZE_MAX := by
    rcases hy with ⟨w, hy⟩ | ⟨_, hy⟩
    · exact absurd (k1.symm.trans hy) (by simp)
    · exact hy
  subst hy'
  have hz4 : m4.keysSize + m4.values.length ≤ 9000 := by rw [s4, v4]; exact hz3
  have e8 := mapGetAt_max (m := m4) (by omega)
  have cI : kwIsCorrect ITEM_MAX = false := by decide +kernel
  have tM : toItem SIZE_MAX = -1 := toItem_max
  have c256 : toSize 256 = 256 := toSize_natCast (n := 256) (by decide)
  have hd2 : dropLast ⟨m4, wHs, vec⟩ SIZE_MAX = some vec := by
    have hc := inv3.count
    rw [hL, List.nil_append, List.length_singleton] at hc
    unfold dropLast
    apply if_neg
    simp only [t8]
    unfold Strings.stringsSize
    rw [hc]
    decide +kernel
  have e9 : parseUndef ⟨m3, wHs, vec⟩ (.utf8 (nameNope ++ [0])) =
      some ⟨(Map.setByIndex m4 256 ITEM_MAX).2, wHs, vec⟩ := by
    simp only [parseUndef, storageSearch, e7, e8, cI, tM, t5, Option.map_some, Bool.false_eq_true, if_false,
      storageRemove, hd2, t4, c256, t6]
  -- the second lookup
  obtain ⟨i5, a5, s5, v5⟩ := mapSetAt_spec ITEM_MAX i4 a4 k2 (by omega)
  have k3 : (Map.Table.upd (Map.Table.upd (Map.Table.upd G.A nameAWh (0, ITEM_MAX)) nameAWh (0, toItem 256))
      hashDefine (256, ITEM_MAX)) hashDefine = some (256, ITEM_MAX) := by simp [Map.Table.upd]
  obtain ⟨z, m6, e10, i6, a6, s6, v6, hz⟩ := mapIndex_spec i5 a5 dD (by rw [sD]; omega)
  have hz' : z = 256 := by
    rcases hz with ⟨w, hz⟩ | ⟨hz, _⟩
    · have := k3.symm.trans hz
      simp only [Option.some.injEq, Prod.mk.injEq] at this
      exact this.1.symm
    · exact absurd (k3.symm.trans hz) (by simp)
  subst hz'
  have e11 := mapGetAt_spec i6 a6 k3 (by omega)
  have t256 : toItem 256 = 256 := toItem_of_lt (by decide)
  have e12 : lookup ⟨(Map.setByIndex m4 256 ITEM_MAX).2, wHs, vec⟩ (.utf8 (hashDefine ++ [0])) =
      some (.absent, ⟨m6, wHs, vec⟩) := by
    simp only [lookup, storageSearch, e10, e11, cI, t256, t7, Option.map_some, Bool.false_eq_true, if_false, if_true]
  exact exec_of e (run_cons (step_define e2) (run_cons e6 (run_cons (step_undef e9) (run_cons e12 rfl))))

end RuC.Storage
