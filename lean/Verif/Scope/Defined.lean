import Verif.Scope.Inv

/-! Which functions are kept as declared without a body, and whether `main` is known. -/

namespace RuC.Scope
open RuC RuC.Scope.Spec

theorem fill_predef {s s' : Sx} {last repr : Nat} {kind type : Int} {size : Nat} {fd : Int} (h : identFill s last repr kind type size fd = some s')
    (ht : 2 ≤ kind → kind < 1000 → type < 1000) :
    s'.predef = if 2 ≤ kind ∧ kind < 1000 then if fd = 2 then s.predef ++ [toItem repr] else strike s.predef repr else s.predef := by
  unfold identFill at h
  simp only at h
  split at h
  · simp only [Option.map_eq_some_iff] at h
    obtain ⟨d, _, rfl⟩ := h
    rw [if_neg (by omega)]
  · split at h
    · unfold getStatic at h
      simp only [Option.map_eq_some_iff] at h
      obtain ⟨r, ⟨d, _, rfl⟩, rfl⟩ := h
      rename_i hk
      have hno : ¬(2 ≤ kind ∧ kind < 1000) := by omega
      rw [if_neg hno]
      simp only
      split <;> rfl
    · split at h
      · simp only [Option.some.injEq] at h
        subst h
        rw [if_neg (by omega)]
      · split at h
        · simp only [Option.some.injEq] at h
          subst h
          rw [if_neg (by omega)]
        · rw [if_pos (show type < 1000 from ht (by omega) (by omega))] at h
          rw [if_pos (by omega)]
          split at h
          · simp only [Option.map_eq_some_iff] at h
            obtain ⟨r, _, rfl⟩ := h
            rw [if_pos (by assumption)]
          · simp only [Option.some.injEq] at h
            subst h
            rw [if_neg (by assumption)]

/-- What an accepted declaration does to the functions without a body and to `main`. -/
theorem add_defined {s s' : Sx} {repr : Nat} {kind type : Int} {size : Nat} {fd : Int} {a : Nat} (h : identAdd s repr kind type size fd = some (a, s'))
    (ha : a < 18446744073709551614) (ht : 2 ≤ kind → kind < 1000 → type < 1000) :
    s'.predef = (if 2 ≤ kind ∧ kind < 1000 then if fd = 2 then s.predef ++ [toItem repr] else strike s.predef repr else s.predef) ∧
    s'.refMain = if getRef s.refs repr = 0 then s.ids.length else s.refMain := by
  unfold identAdd at h
  split at h
  · simp only [Option.some.injEq, Prod.mk.injEq] at h
    have := h.1
    unfold SIZE_MAX at this
    omega
  · split at h
    · cases h
    · simp only [Option.some.injEq, Prod.mk.injEq] at h
      have := h.1
      unfold SIZE_MAX at this
      omega
    · simp only [Option.map_eq_some_iff, Prod.mk.injEq] at h
      obtain ⟨u, hf, rfl, rfl⟩ := h
      exact ⟨fill_predef (s := identOpen s repr) hf ht, (fill_ok (ids := s.ids) rfl hf).2.2.1⟩

/-- The other calls change neither. -/
theorem step_defined {m m' : Sx × List Open} {op : Op} {a : Nat} (h : step m op = some (a, m')) (hn : ∀ r, ¬Declares r op) :
    m'.1.predef = m.1.predef ∧ m'.1.refMain = m.1.refMain := by
  cases op with
  | decl r k t n f => exact absurd ⟨k, t, n, f, rfl⟩ (hn r)
  | enter =>
    simp only [step, Option.some.injEq, Prod.mk.injEq] at h
    obtain ⟨rfl, rfl⟩ := h
    exact ⟨rfl, rfl⟩
  | exit =>
    simp only [step] at h
    split at h
    · simp only [Option.map_eq_some_iff, Prod.mk.injEq] at h
      obtain ⟨t, ht, rfl, rfl⟩ := h
      unfold blockExit at ht
      split at ht
      · simp only [Option.some.injEq] at ht
        subst ht
        exact ⟨rfl, rfl⟩
      · simp only [Option.map_eq_some_iff] at ht
        obtain ⟨_, _, rfl⟩ := ht
        exact ⟨rfl, rfl⟩
    · cases h
  | funcEnter =>
    simp only [step] at h
    split at h
    · simp only [Option.some.injEq, Prod.mk.injEq] at h
      obtain ⟨rfl, rfl⟩ := h
      exact ⟨rfl, rfl⟩
    · cases h
  | funcExit =>
    simp only [step] at h
    split at h
    · simp only [Option.map_eq_some_iff, Prod.mk.injEq] at h
      obtain ⟨t, ht, rfl, rfl⟩ := h
      unfold funcExit at ht
      simp only [Option.map_eq_some_iff] at ht
      obtain ⟨_, _, rfl⟩ := ht
      exact ⟨rfl, rfl⟩
    · cases h

theorem pending_nil (r : Nat) : ¬Pending [] r := by
  rintro ⟨b, o, a, h, _⟩
  cases b <;> cases h

theorem pending_snoc (ops : List Op) (op : Op) (r : Nat) : Pending (ops ++ [op]) r ↔ Prototypes r op ∨ Pending ops r ∧ ¬Defines r op := by
  constructor
  · rintro ⟨b, o, a, h, hp, ha⟩
    rcases List.eq_nil_or_concat a with rfl | ⟨a', x, rfl⟩
    · have := List.append_inj' (show ops ++ [op] = b ++ [o] from h) rfl
      simp only [List.cons.injEq, and_true] at this
      rw [this.2]
      exact Or.inl hp
    · have := List.append_inj' (show ops ++ [op] = (b ++ o :: a') ++ [x] by simpa using h) rfl
      simp only [List.cons.injEq, and_true] at this
      obtain ⟨rfl, rfl⟩ := this
      exact Or.inr ⟨⟨b, o, a', rfl, hp, fun y hy => ha y (by simp [hy])⟩, ha op (by simp)⟩
  · rintro (hp | ⟨⟨b, o, a, rfl, hp, ha⟩, hd⟩)
    · exact ⟨ops, op, [], rfl, hp, fun _ h => by cases h⟩
    · refine ⟨b, o, a ++ [op], by simp, hp, fun y hy => ?_⟩
      rw [List.mem_append, List.mem_singleton] at hy
      rcases hy with hy | rfl
      · exact ha y hy
      · exact hd

/-- What is kept after a run: the functions declared without a body and not defined since, and where `main` is. -/
structure Kept (s0 s : Sx) (ops : List Op) : Prop where
  all : ∀ x ∈ s.predef, x = 0 ∨ ∃ r : Nat, x = r ∧ 0 < r ∧ r < 9223372036854775808
  predef : ∀ r : Nat, 0 < r → ((r : Int) ∈ s.predef ↔ Pending ops r)
  main : s.refMain = 0 ↔ ∀ r, (∃ op ∈ ops, Declares r op) → getRef s0.refs r ≠ 0

theorem allProper_mem {base : Nat → Int} {names : Nat} (ops : List Op) : ∀ {d}, AllProper base names d ops → ∀ op ∈ ops, ∃ d, Proper base names d op := by
  induction ops with
  | nil => intro d _ op h; cases h
  | cons o ops ih =>
    intro d h op hm
    rw [List.mem_cons] at hm
    rcases hm with rfl | hm
    · exact ⟨d, h.1⟩
    · exact ih h.2 op hm

theorem allProper_prefix {base : Nat → Int} {names : Nat} (ops : List Op) (op : Op) {d} (h : AllProper base names d (ops ++ [op])) : AllProper base names d ops :=
  (allProper_append _ _ h).1

theorem kept_run {s0 : Sx} (hs : Start s0) (hn : s0.refs.length < 9223372036854775808) (h0 : s0.predef = []) (h1 : s0.refMain = 0) (n : Nat) :
    ∀ {ops : List Op} {as : List Nat} {m : Sx × List Open}, ops.length = n → AllProper (getRef s0.refs) s0.refs.length 0 ops → run (s0, []) ops = some (as, m) → Accepted as →
    s0.ids.length + 4 * total ops < 4611686018427387904 →
    (∀ r k t n fd, .decl r k t n fd ∈ ops → 2 ≤ k → k < 1000 → t < 1000) → Kept s0 m.1 ops := by
  induction n with
  | zero =>
    intro ops as m hlen _ h _ _ _
    obtain rfl := List.eq_nil_of_length_eq_zero hlen
    simp only [run, Option.some.injEq, Prod.mk.injEq] at h
    obtain ⟨rfl, rfl⟩ := h
    refine ⟨?_, ?_, ?_⟩
    · simp only [h0]; intro x hx; cases hx
    · intro r _
      simp only [h0, List.not_mem_nil, false_iff]
      exact pending_nil r
    · simp only [h1, true_iff]
      rintro r ⟨op, h, _⟩
      cases h
  | succ n ih =>
    intro ops as m hlen hp h ha hb hf
    rcases List.eq_nil_or_concat ops with rfl | ⟨ops, op, rfl⟩
    · cases hlen
    rw [List.concat_eq_append] at *
    obtain ⟨m1, xs, ys, g1, g2, rfl⟩ := run_split h
    obtain ⟨a, m2, zs, g3, g4, rfl⟩ := run_cons g2
    simp only [run, Option.some.injEq, Prod.mk.injEq] at g4
    obtain ⟨rfl, rfl⟩ := g4
    have hp1 := allProper_prefix _ _ hp
    have hb1 : s0.ids.length + 4 * total ops < 4611686018427387904 := by
      simp only [total, List.map_append, List.sum_append] at hb ⊢
      omega
    have ha1 : Accepted xs := fun b hb => ha b (by simp [hb])
    have hk := ih (by simpa using hlen) hp1 g1 ha1 hb1 (fun r k t n fd hm => hf r k t n fd (by simp [hm]))
    obtain ⟨_, recs, hi⟩ := inv_run hs hn ops (m := (s0, [])) (inv_start hs) hp1 g1 ha1 (by rw [Nat.zero_add]; exact hb1)
    obtain ⟨d, hpo⟩ := allProper_mem _ hp op (by simp)
    have hne : m1.1.ids.length ≠ 0 := by
      rw [hi.ids]
      obtain ⟨k, hk⟩ := hs.cells
      simp [hk]
    have hz : ∀ r, getRef m1.1.refs r = 0 ↔ getRef s0.refs r = 0 := by
      intro r
      rw [hi.refs r]
      rcases denote_cases (base := getRef s0.refs) (e := (ops.zip xs).foldl envStep [[]]) (r := r) with h | ⟨hne, x, hx, _, h⟩
      · rw [h]
      · have := hi.bound x hx
        obtain ⟨k, hk⟩ := hs.cells
        rw [h]
        constructor
        · intro h; omega
        · intro h; exact absurd h hne
    by_cases hd : ∃ r, Declares r op
    · obtain ⟨r, k, t, sz, fd, rfl⟩ := hd
      obtain ⟨q0, q1, _, _, _⟩ := hpo
      have ha2 : a < 18446744073709551614 := ha a (by simp)
      simp only [step, Option.map_eq_some_iff, Prod.mk.injEq] at g3
      obtain ⟨⟨b, s'⟩, g3, rfl, rfl⟩ := g3
      obtain ⟨e1, e2⟩ := add_defined g3 ha2 (hf r k t sz fd (by simp))
      have hit : toItem r = (r : Int) := toItem_of_lt (by omega)
      refine ⟨?_, ?_, ?_⟩
      · intro x hx
        simp only at hx
        rw [e1] at hx
        split at hx
        · split at hx
          · rw [List.mem_append, List.mem_singleton] at hx
            rcases hx with hx | rfl
            · exact hk.all x hx
            · exact Or.inr ⟨r, hit, q0, by omega⟩
          · unfold strike at hx
            obtain ⟨y, hy, rfl⟩ := List.mem_map.1 hx
            split
            · exact Or.inl rfl
            · exact hk.all y hy
        · exact hk.all x hx
      · intro r' hr'
        rw [pending_snoc, ← hk.predef r' hr']
        simp only
        rw [e1]
        split
        · rename_i hkk
          split
          · rename_i hfd
            subst hfd
            rw [List.mem_append, List.mem_singleton, hit]
            constructor
            · rintro (h | h)
              · by_cases e : r' = r
                · subst e; exact Or.inl ⟨k, t, sz, rfl, hkk⟩
                · refine Or.inr ⟨h, ?_⟩
                  rintro ⟨_, _, _, _, h, h2, _⟩
                  simp only [Op.decl.injEq] at h
                  omega
              · obtain rfl : r' = r := by omega
                exact Or.inl ⟨k, t, sz, rfl, hkk⟩
            · rintro (⟨_, _, _, h, _⟩ | ⟨h, _⟩)
              · simp only [Op.decl.injEq] at h
                exact Or.inr (by omega)
              · exact Or.inl h
          · rename_i hfd
            unfold strike
            rw [List.mem_map]
            constructor
            · rintro ⟨y, hy, h⟩
              split at h
              · omega
              · rename_i hne'
                subst h
                refine Or.inr ⟨hy, ?_⟩
                rintro ⟨_, _, _, _, h, _⟩
                simp only [Op.decl.injEq] at h
                rcases hk.all _ hy with h0 | ⟨q, h1, h2, h3⟩
                · omega
                · exact hne' (by rw [toSize_natCast (by omega)]; omega)
            · rintro (⟨_, _, _, h, _⟩ | ⟨h, hnd⟩)
              · simp only [Op.decl.injEq] at h
                omega
              · refine ⟨r', h, ?_⟩
                rw [if_neg]
                intro he
                rcases hk.all _ h with h0 | ⟨q, h1, h2, h3⟩
                · omega
                · rw [toSize_natCast (by omega)] at he
                  subst he
                  exact hnd ⟨k, t, sz, fd, rfl, hfd, hkk⟩
        · rename_i hkk
          constructor
          · intro h
            refine Or.inr ⟨h, ?_⟩
            rintro ⟨_, _, _, _, h, _, h2⟩
            simp only [Op.decl.injEq] at h
            omega
          · rintro (⟨_, _, _, h, h2⟩ | ⟨h, _⟩)
            · simp only [Op.decl.injEq] at h
              omega
            · exact h
      · simp only
        rw [e2]
        split
        · rename_i hr0
          simp only [hne, false_iff]
          intro hall
          exact hall r ⟨_, List.mem_append_right _ List.mem_cons_self, k, t, sz, fd, rfl⟩ ((hz r).1 hr0)
        · rename_i hr0
          rw [hk.main]
          constructor
          · rintro h r' ⟨op, hop, hdc⟩
            rw [List.mem_append, List.mem_singleton] at hop
            rcases hop with hop | rfl
            · exact h r' ⟨op, hop, hdc⟩
            · obtain ⟨_, _, _, _, hdc⟩ := hdc
              simp only [Op.decl.injEq] at hdc
              obtain ⟨rfl, _⟩ := hdc
              intro e
              exact hr0 ((hz r).2 e)
          · rintro h r' ⟨op, hop, hdc⟩
            exact h r' ⟨op, List.mem_append_left _ hop, hdc⟩
    · have hd' : ∀ r, ¬Declares r op := fun r h => hd ⟨r, h⟩
      obtain ⟨e1, e2⟩ := step_defined g3 hd'
      refine ⟨?_, ?_, ?_⟩
      · rw [e1]; exact hk.all
      · intro r hr
        rw [e1, pending_snoc, hk.predef r hr]
        constructor
        · intro h
          refine Or.inr ⟨h, ?_⟩
          rintro ⟨k, t, sz, fd, rfl, _⟩
          exact hd' r ⟨k, t, sz, fd, rfl⟩
        · rintro (⟨k, t, sz, rfl, _⟩ | ⟨h, _⟩)
          · exact absurd ⟨k, t, sz, 2, rfl⟩ (hd' r)
          · exact h
      · rw [e2, hk.main]
        constructor
        · rintro h r' ⟨o, hop, hdc⟩
          rw [List.mem_append, List.mem_singleton] at hop
          rcases hop with hop | rfl
          · exact h r' ⟨o, hop, hdc⟩
          · exact absurd hdc (hd' r')
        · rintro h r' ⟨o, hop, hdc⟩
          exact h r' ⟨o, List.mem_append_left _ hop, hdc⟩

end RuC.Scope
