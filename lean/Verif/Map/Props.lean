import Verif.Map.Refine

/-!
# Properties C07, C08: maps from names

C07  names are interned: one index per key, the text can be read back;
C08  lookup answers the last value written.

A key is a C string, a `char32_t` string or the identifier at the front of an input; its text is
non-empty and made of code points that `utf8_to_string` writes as UTF-8 (`Denotes`).  Every
allocator answer is allowed.  A history must stay below 2^60 octets and records.
-/

namespace RuC.Map
open RuC Utf8

/-! ### The abstract map -/

theorem maximal_prefix {p : Nat → Bool} {ks ks' t t' : List Nat} (h : ks ++ t = ks' ++ t')
    (hk : ∀ x ∈ ks, p x = true) (hk' : ∀ x ∈ ks', p x = true)
    (ht : ∀ x, t.head? = some x → p x = false) (ht' : ∀ x, t'.head? = some x → p x = false) :
    ks = ks' := by
  induction ks generalizing ks' with
  | nil =>
    cases ks' with
    | nil => rfl
    | cons y ks' =>
      have h1 := hk' y (by simp)
      have h2 := ht y (by rw [List.nil_append] at h; rw [h]; rfl)
      rw [h1] at h2; cases h2
  | cons x ks ih =>
    cases ks' with
    | nil =>
      have h1 := hk x (by simp)
      have h2 := ht' x (by rw [List.nil_append] at h; rw [← h]; rfl)
      rw [h1] at h2; cases h2
    | cons y ks' =>
      simp only [List.cons_append, List.cons.injEq] at h
      rw [h.1, ih h.2 (fun z hz => hk z (by simp [hz])) (fun z hz => hk' z (by simp [hz]))]

/-- A key argument says one text only. -/
theorem denotes_unique {a : KeyArg} {k k' : List Nat} (h : Denotes a k) (h' : Denotes a k') : k = k' := by
  generalize ha : a = b at h'
  cases h with
  | str ks hv =>
    cases h' with
    | str ks' hv' =>
      simp only [KeyArg.str.injEq, List.append_cancel_right_eq] at ha
      exact octets_inj hv.2 hv'.2 ha
    | utf8 => cases ha
    | io => cases ha
  | utf8 ks hv =>
    cases h' with
    | str => cases ha
    | utf8 ks' hv' => simpa using ha
    | io => cases ha
  | io c ks t hc hk ht =>
    cases h' with
    | str => cases ha
    | utf8 => cases ha
    | io c' ks' t' hc' hk' ht' =>
      simp only [KeyArg.io.injEq, List.cons_append, List.cons.injEq] at ha
      rw [ha.1, maximal_prefix (p := fun x => isLetter x || isDigit x) ha.2]
      · simpa using hk
      · simpa using hk'
      · simpa using ht
      · simpa using ht'

/-- The index of a key never changes. -/
theorem tstep_keeps_index {A A' : Table} {op : Op} {r : Res} (h : TStep A op r A') {k : List Nat} {i : Nat} {v : Int}
    (hA : A k = some (i, v)) : ∃ v', A' k = some (i, v') := by
  cases h with
  | reserveNew a k' ok okv j hd h hi hf =>
    refine ⟨v, ?_⟩
    have : k ≠ k' := by rintro rfl; rw [h] at hA; cases hA
    simp [Table.upd, this, hA]
  | addNew a k' w ok okv j hd h hi hf =>
    refine ⟨v, ?_⟩
    have : k ≠ k' := by rintro rfl; rw [h] at hA; cases hA
    simp [Table.upd, this, hA]
  | set a k' w ok j u hd h =>
    by_cases hk : k = k'
    · subst hk
      rw [hA] at h
      cases h
      exact ⟨w, by simp [Table.upd]⟩
    · exact ⟨v, by simp [Table.upd, hk, hA]⟩
  | setAt k' j w u h =>
    by_cases hk : k = k'
    · subst hk
      rw [hA] at h
      cases h
      exact ⟨w, by simp [Table.upd]⟩
    · exact ⟨v, by simp [Table.upd, hk, hA]⟩
  | _ => exact ⟨v, hA⟩

/-- Different keys keep different indices. -/
theorem tstep_distinct {A A' : Table} {op : Op} {r : Res} (h : TStep A op r A') (hd : A.Distinct) : A'.Distinct := by
  have hupd : ∀ k i w, (∀ k' v, A k' = some (i, v) → k' = k) → (A.upd k (i, w)).Distinct := by
    intro k i w hk k1 k2 j v1 v2 h1 h2
    unfold Table.upd at h1 h2
    by_cases e1 : k1 = k <;> by_cases e2 : k2 = k
    · rw [e1, e2]
    · rw [if_pos e1] at h1
      rw [if_neg e2] at h2
      cases h1
      exact absurd (hk _ _ h2) e2
    · rw [if_neg e1] at h1
      rw [if_pos e2] at h2
      cases h2
      exact absurd (hk _ _ h1) e1
    · rw [if_neg e1] at h1
      rw [if_neg e2] at h2
      exact hd _ _ _ _ _ h1 h2
  cases h with
  | reserveNew a k' ok okv j hd h hi hf => exact hupd _ _ _ (fun k' v e => absurd rfl (hf k' j v e))
  | addNew a k' w ok okv j hd h hi hf => exact hupd _ _ _ (fun k' v e => absurd rfl (hf k' j v e))
  | set a k' w ok j u hd' h => exact hupd _ _ _ (fun k1 v e => hd _ _ _ _ _ e h)
  | setAt k' j w u h => exact hupd _ _ _ (fun k1 v e => hd _ _ _ _ _ e h)
  | _ => exact hd

/-- A call that does not write the key leaves its value. -/
theorem tstep_other {A A' : Table} {op : Op} {r : Res} (h : TStep A op r A') {k : List Nat} {i : Nat} {v : Int}
    (hA : A k = some (i, v)) (hw : ¬ op.Writes k i) : A' k = some (i, v) := by
  cases h with
  | reserveNew a k' ok okv j hd h hi hf =>
    have : k ≠ k' := by rintro rfl; rw [h] at hA; cases hA
    simp [Table.upd, this, hA]
  | addNew a k' w ok okv j hd h hi hf =>
    have : k ≠ k' := by rintro rfl; rw [h] at hA; cases hA
    simp [Table.upd, this, hA]
  | set a k' w ok j u hd h =>
    have : k ≠ k' := by rintro rfl; exact hw (.inl ⟨a, w, ok, rfl, hd⟩)
    simp [Table.upd, this, hA]
  | setAt k' j w u h =>
    have : k ≠ k' := by
      rintro rfl
      rw [hA] at h
      cases h
      exact hw (.inr ⟨w, rfl⟩)
    simp [Table.upd, this, hA]
  | _ => exact hA

theorem trun_keeps_index {A A' : Table} {ops : List Op} {rs : List Res} (h : TRun A ops rs A') {k : List Nat} {i : Nat} {v : Int}
    (hA : A k = some (i, v)) : ∃ v', A' k = some (i, v') := by
  induction h generalizing v with
  | nil => exact ⟨v, hA⟩
  | cons h t ih =>
    obtain ⟨v', e⟩ := tstep_keeps_index h hA
    exact ih e

theorem trun_distinct {A A' : Table} {ops : List Op} {rs : List Res} (h : TRun A ops rs A') (hd : A.Distinct) : A'.Distinct := by
  induction h with
  | nil => exact hd
  | cons h t ih => exact ih (tstep_distinct h hd)

theorem trun_other {A A' : Table} {ops : List Op} {rs : List Res} (h : TRun A ops rs A') {k : List Nat} {i : Nat} {v : Int}
    (hA : A k = some (i, v)) (hw : ∀ op ∈ ops, ¬ op.Writes k i) : A' k = some (i, v) := by
  induction h with
  | nil => exact hA
  | cons h t ih =>
    exact ih (tstep_other h hA (hw _ (by simp))) (fun o ho => hw o (by simp [ho]))

/-- The abstract map leaves no answer open but the index of a new key, as long as the allocator does
not refuse. -/
theorem table_answers_determined {A A' A'' : Table} {op : Op} {r r' : Res} (hd : A.Distinct)
    (h : TStep A op r A') (h' : TStep A op r' A'') (hg : op.Granted) (hn : ¬ op.Inserts A) :
    r = r' ∧ A' = A'' := by
  cases h <;> cases h' <;> simp only [Op.Granted, Bool.false_eq_true] at hg
  all_goals first
    | exact ⟨rfl, rfl⟩
    | (exfalso; grind)
    | (exfalso; rename_i h1 h2 _ _ _ _; grind [denotes_unique])
    | (exfalso; grind [denotes_unique, Op.Inserts])
    | (exfalso; grind [Free])
    | grind [denotes_unique, Table.Distinct, Op.Inserts, Free]

/-! ### The theorems about the code -/

/-- **C07**, **C08**.  Any history of calls on a fresh map ends, every call answers what the
abstract map answers, no two keys share an index, and in the final map every key is found under its
index, with its value and its text. -/
theorem map_refines_table (alloc : Nat) (ops : List Op) (hv : ∀ op ∈ ops, op.Valid)
    (ha : alloc < 1125899906842624) (hc : 256 + (ops.map Op.cost).sum < 1152921504606846976) :
    ∃ rs m A, run (mapCreate alloc) ops = some (rs, m) ∧ TRun (fun _ => none) ops rs A ∧ A.Distinct ∧
      ∀ k i v, A k = some (i, v) →
        getByIndex m i = some v ∧ mapToString m i = some (some (octets k)) := by
  obtain ⟨rs, m, K, A, e1, e2, e3, e4, e5⟩ := run_refines (inv_create ha) abs_create hv
    (by simp only [mapCreate, List.length_replicate]; omega)
  have hdist : A.Distinct := trun_distinct e2 (by intro k k' i v v' h; cases h)
  refine ⟨rs, m, A, e1, e2, hdist, ?_⟩
  intro k i v hA
  simp only [mapCreate, List.length_replicate] at e5
  obtain ⟨r1, _, _, _, f1, f2, _, _, _⟩ := step_refines (op := .getAt i) e3 e4
    (by intro a h; cases h) (by simp only [Op.cost, Op.key?]; omega)
  obtain ⟨r2, _, _, _, g1, g2, _, _, _⟩ := step_refines (op := .text i) e3 e4
    (by intro a h; cases h) (by simp only [Op.cost, Op.key?]; omega)
  constructor
  · cases f2 with
    | getAt k' _ w h =>
      have := hdist _ _ _ _ _ hA h
      subst this
      rw [hA] at h
      cases h
      simp only [step, Option.map_eq_some_iff, Prod.mk.injEq, Res.item.injEq] at f1
      obtain ⟨_, f1, rfl, _⟩ := f1
      exact f1
    | getAtFree _ h => exact absurd rfl (h k i v hA)
  · cases g2 with
    | text k' _ w h =>
      have := hdist _ _ _ _ _ hA h
      subst this
      simp only [step, Option.map_eq_some_iff, Prod.mk.injEq, Res.str.injEq] at g1
      obtain ⟨_, g1, rfl, _⟩ := g1
      exact g1
    | textFree _ h => exact absurd rfl (h k i v hA)

/-- "ab" and "ba" share a bucket. -/
example : (run (mapCreate 0) [.reserve (.str [97, 98, 0]) true true, .add (.utf8 [98, 97, 0]) 5 true true,
      .set (.str [97, 98, 0]) 7 true, .get (.utf8 [97, 98, 0]) true, .get (.io [98, 97, 32]) true,
      .reserve (.str [98, 97, 0]) true true, .text 195, .text 256]).map Prod.fst =
    some [.idx 195, .idx 256, .idx 195, .item 7, .item 5, .idx 256, .str (some [97, 98]), .str (some [98, 97])] := by
  decide +kernel

example : Op.Valid (.reserve (.str [97, 98, 0]) true true) ∧ Op.Valid (.get (.io [98, 97, 32]) true) := by
  constructor
  · intro a h
    cases h
    exact ⟨[97, 98], Denotes.str [97, 98] (by decide)⟩
  · intro a h
    cases h
    exact ⟨[98, 97], Denotes.io 98 [97] [32] (by decide) (by decide) (by decide)⟩

/-- **C07**, on the map itself: once a key was given an index, after any further calls reserving a
key answers that very index if it is the same key and another index if it is not, and the text at the
index is the key. -/
theorem map_interns (alloc : Nat) (ops₁ ops₂ : List Op) (a a' : KeyArg) (k k' : List Nat) (ok okv : Bool)
    (hv : ∀ op ∈ ops₁ ++ ops₂, op.Valid) (ha : alloc < 1125899906842624)
    (hd : Denotes a k) (hd' : Denotes a' k')
    (hc : 256 + ((ops₁ ++ Op.reserve a ok okv :: ops₂ ++ [Op.reserve a' true true]).map Op.cost).sum <
      1152921504606846976)
    (rs₁ rs₂ m₁ m₂ m₃ i) (h₁ : run (mapCreate alloc) ops₁ = some (rs₁, m₁))
    (h₂ : step m₁ (.reserve a ok okv) = some (.idx i, m₂)) (hi : i ≠ SIZE_MAX)
    (h₃ : run m₂ ops₂ = some (rs₂, m₃)) :
    mapToString m₃ i = some (some (octets k)) ∧
      ∃ j m₄, step m₃ (.reserve a' true true) = some (.idx j, m₄) ∧ (j = i ↔ k' = k) ∧
        mapToString m₄ j = some (some (octets k')) ∧ mapToString m₄ i = some (some (octets k)) := by
  simp only [List.map_append, List.map_cons, List.sum_append, List.sum_cons, List.map_nil,
    List.sum_nil] at hc
  obtain ⟨_, _, K1, A1, e1, t1, i1, a1, s1⟩ := run_refines (inv_create ha) abs_create
    (fun o h => hv o (List.mem_append_left _ h)) (by simp only [mapCreate, List.length_replicate]; omega)
  rw [h₁] at e1; cases e1
  simp only [mapCreate, List.length_replicate] at s1
  obtain ⟨_, _, K2, A2, e2, t2, i2, a2, s2⟩ := step_refines (op := .reserve a ok okv) i1 a1
    (by intro b hb; cases hb; exact ⟨k, hd⟩) (by omega)
  rw [h₂] at e2; cases e2
  obtain ⟨_, _, K3, A3, e3, t3, i3, a3, s3⟩ := run_refines i2 a2
    (fun o h => hv o (List.mem_append_right _ h)) (by omega)
  rw [h₃] at e3; cases e3
  have hdist1 : A1.Distinct := trun_distinct t1 (by intro k k' i v v' h; cases h)
  have hdist2 : A2.Distinct := tstep_distinct t2 hdist1
  have hdist3 : A3.Distinct := trun_distinct t3 hdist2
  have hA2 : ∃ v, A2 k = some (i, v) := by
    cases t2 with
    | reserveNew _ k1 _ _ _ hd1 h _ hf =>
      rw [denotes_unique hd hd1]
      exact ⟨ITEM_MAX, by simp [Table.upd]⟩
    | reserveOld _ k1 _ _ _ v hd1 h =>
      rw [denotes_unique hd hd1]
      exact ⟨v, h⟩
    | reserveRefused => exact absurd rfl hi
  obtain ⟨v2, hA2⟩ := hA2
  obtain ⟨v3, hA3⟩ := trun_keeps_index t3 hA2
  have textAt : ∀ {m K A k i v}, Inv m K → Abs m K A → A k = some (i, v) →
      m.keysSize < 1152921504606846976 → mapToString m i = some (some (octets k)) := by
    intro m K A k i v hI hA hk hs
    obtain ⟨hK, r, hr1, hr2⟩ := (hA k i v).1 hk
    obtain ⟨hval, r', u1, u2, u3, _⟩ := hI.used i k hK
    rw [hr1] at u1
    cases u1
    have hne : r.ref ≠ SIZE_MAX := by unfold SIZE_MAX; omega
    have := hI.size
    simp [mapToString, hr1, hne, readStr_spec (octets_zero hval.2) u3 (fuel := m.keys.length + 1) (by omega)]
  obtain ⟨r4, m4, K4, A4, e4, t4, i4, a4, s4⟩ := step_refines (op := .reserve a' true true) i3 a3
    (by intro b hb; cases hb; exact ⟨k', hd'⟩) (by omega)
  have hdist4 : A4.Distinct := tstep_distinct t4 hdist3
  refine ⟨textAt i3 a3 hA3 (by omega), ?_⟩
  obtain ⟨v4, hA4⟩ := tstep_keeps_index t4 hA3
  have hj : ∃ j v, r4 = .idx j ∧ A4 k' = some (j, v) := by
    cases t4 with
    | reserveNew _ k1 _ _ j hd1 h _ hf =>
      rw [denotes_unique hd' hd1]
      exact ⟨j, ITEM_MAX, rfl, by simp [Table.upd]⟩
    | reserveOld _ k1 _ _ j v hd1 h =>
      rw [denotes_unique hd' hd1]
      exact ⟨j, v, rfl, h⟩
    | reserveRefused _ _ _ h => simp at h
  obtain ⟨j, v5, rfl, hA5⟩ := hj
  refine ⟨j, m4, e4, ⟨?_, ?_⟩, textAt i4 a4 hA5 (by omega), textAt i4 a4 hA4 (by omega)⟩
  · rintro rfl
    exact hdist4 _ _ _ _ _ hA5 hA4
  · rintro rfl
    rw [hA4] at hA5
    cases hA5
    rfl

/-- **C08**, on the map itself: the value a key was given is what reading it by key or by index
answers, after any further calls that do not write this key. -/
theorem map_last_value (alloc : Nat) (ops₁ ops₂ : List Op) (op : Op) (a a' : KeyArg) (k : List Nat) (v : Int)
    (hop : (∃ ok, op = .set a v ok) ∨ (∃ ok okv, v ≠ ITEM_MAX ∧ op = .add a v ok okv))
    (hv : ∀ op ∈ ops₁ ++ ops₂, op.Valid) (ha : alloc < 1125899906842624)
    (hd : Denotes a k) (hd' : Denotes a' k)
    (hc : 256 + ((ops₁ ++ op :: ops₂ ++ [Op.get a' true]).map Op.cost).sum < 1152921504606846976)
    (rs₁ rs₂ m₁ m₂ m₃ i) (h₁ : run (mapCreate alloc) ops₁ = some (rs₁, m₁))
    (h₂ : step m₁ op = some (.idx i, m₂)) (hi : i ≠ SIZE_MAX)
    (h₃ : run m₂ ops₂ = some (rs₂, m₃)) (hw : ∀ op ∈ ops₂, ¬ op.Writes k i) :
    getByIndex m₃ i = some v ∧ ∃ m₄, step m₃ (.get a' true) = some (.item v, m₄) := by
  simp only [List.map_append, List.map_cons, List.sum_append, List.sum_cons, List.map_nil,
    List.sum_nil] at hc
  obtain ⟨_, _, K1, A1, e1, t1, i1, a1, s1⟩ := run_refines (inv_create ha) abs_create
    (fun o h => hv o (List.mem_append_left _ h)) (by simp only [mapCreate, List.length_replicate]; omega)
  rw [h₁] at e1; cases e1
  simp only [mapCreate, List.length_replicate] at s1
  obtain ⟨_, _, K2, A2, e2, t2, i2, a2, s2⟩ := step_refines (op := op) i1 a1
    (by
      intro b hb
      rcases hop with ⟨ok, rfl⟩ | ⟨ok, okv, _, rfl⟩ <;> · cases hb; exact ⟨k, hd⟩) (by omega)
  rw [h₂] at e2; cases e2
  obtain ⟨_, _, K3, A3, e3, t3, i3, a3, s3⟩ := run_refines i2 a2
    (fun o h => hv o (List.mem_append_right _ h)) (by omega)
  rw [h₃] at e3; cases e3
  have hA2 : A2 k = some (i, v) := by
    rcases hop with ⟨ok, rfl⟩ | ⟨ok, okv, hv', rfl⟩
    · cases t2 with
      | set _ k1 _ _ _ w hd1 h =>
        rw [denotes_unique hd hd1]
        simp [Table.upd]
      | setAbsent => exact absurd rfl hi
      | setRefused => exact absurd rfl hi
    · generalize hr : Res.idx i = r at t2
      cases t2 with
      | addNew _ k1 _ _ _ j hd1 h _ hf =>
        cases hr
        rw [denotes_unique hd hd1]
        simp [Table.upd]
      | addOld =>
        rw [if_neg hv'] at hr
        cases hr
        exact absurd rfl hi
      | addRefused => cases hr; exact absurd rfl hi
  have hA3 := trun_other t3 hA2 hw
  obtain ⟨hK, r, hr1, hr2⟩ := (a3 k i v).1 hA3
  constructor
  · obtain ⟨hval, r', u1, u2, u3, _⟩ := i3.used i k hK
    rw [hr1] at u1
    cases u1
    have hne : r.ref ≠ SIZE_MAX := by unfold SIZE_MAX; omega
    simp [getByIndex, hr1, hne, hr2]
  · obtain ⟨r4, m4, K4, A4, e4, t4, i4, a4, s4⟩ := step_refines (op := .get a' true) i3 a3
      (by intro b hb; cases hb; exact ⟨k, hd'⟩) (by omega)
    refine ⟨m4, ?_⟩
    cases t4 with
    | get _ k1 _ _ w hd1 h =>
      have := denotes_unique hd' hd1
      subst this
      rw [hA3] at h
      cases h
      exact e4
    | getAbsent _ k1 _ hd1 h =>
      have := denotes_unique hd' hd1
      subst this
      rw [hA3] at h
      cases h

example : (((run (mapCreate 0) [.reserve (.utf8 [0x416, 0]) true true]).bind fun p =>
      (step p.2 (.set (.str [0xD0, 0x96, 0]) 9 true)).bind fun q =>
        (run q.2 [.add (.utf8 [0x415, 1, 0]) 3 true true, .set (.utf8 [0x415, 1, 0]) 4 true]).map fun s =>
          (q.1, getByIndex s.2 22, getByIndex s.2 256))) = some (.idx 22, some 9, some 4) := by
  decide +kernel

/-! ### Limits: what the code does outside the stated domain -/

/-- A key that is not well-formed UTF-8 makes the search run past its end: the octet FF is read as
the code point U+FF, which takes two octets in the key block. -/
theorem map_ill_formed_key_overreads :
    step (mapCreate 0) (.reserve (.str [0xFF, 0]) true true) = none := by
  decide +kernel

/-- Two different `char32_t` keys can share an index when `utf8_to_string` cannot write one of them
(see `utf8_to_string_exact`): U+21000 is stored with the octets of U+1000. -/
theorem map_unwritable_keys_collide :
    (run (mapCreate 0) [.reserve (.utf8 [0x21000, 0]) true true, .reserve (.utf8 [0x1000, 0]) true true]).map
      Prod.fst = some [.idx 0, .idx 0] := by
  decide +kernel

end RuC.Map
