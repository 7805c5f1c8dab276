import Verif.Checks.Init

/-! The types of a history of requests have all their parts before them. -/

namespace RuC.Checks

open RuC RuC.Types RuC.Types.Spec RuC.Expr RuC.Builder RuC.Builder.Spec RuC.Checks.Spec

variable {F : Type}

/-- What a request does to the table. -/
def Grown2 (tb tb' : Table) (t : Int) : Prop :=
  (tb'.cells = tb.cells ∧ tb'.start = toSize (toItem tb.start)) ∨
  ((∃ rest, tb'.cells = tb.cells ++ toItem tb.start :: rest) ∧ tb'.start = tb.cells.length ∧ t = toItem tb.cells.length + 1)

theorem typeAdd_grown2 {body : List Int} {tb tb' : Table} {t : Int} (h : typeAdd tb body = some (t, tb')) : Grown2 tb tb' t := by
  unfold typeAdd at h
  simp only at h
  split at h
  · cases h
  · cases h; exact Or.inr ⟨⟨_, rfl⟩, rfl, rfl⟩
  · cases h
    refine Or.inl ⟨by simp, ?_⟩
    simp [RuC.Types.get]

theorem build_grown2 {h : List (Req × Int)} {rs : List (Nat × List Int)} {r : Req} {tb tb' : Table} {t : Int} (hi : Inv h tb rs)
    (hlen : tb.cells.length < 2305843009213693952) (hb : build tb r = some (t, tb')) : Grown2 tb tb' t := by
  cases r with
  | pointer => exact typeAdd_grown2 hb
  | array => exact typeAdd_grown2 hb
  | const => exact typeAdd_grown2 hb
  | function =>
    simp only [build, typeFunction] at hb
    split at hb
    · exact typeAdd_grown2 hb
    · cases hb
  | struct =>
    simp only [build, typeStructure] at hb
    split at hb
    · split at hb
      · cases hb
      · exact typeAdd_grown2 hb
    · cases hb
  | enum fs =>
    simp only [build, typeEnum] at hb
    have hadd := add_enum hi.lay hi.start (by omega)
    rw [hadd] at hb
    have es : (startOf rs : Int) = toItem tb.start := by
      rw [hi.start, toItem_of_lt]
      cases hr : rs with
      | nil => simp [startOf]
      | cons q qs =>
        have := (lay_stored hi.lay q (by rw [hr]; exact List.mem_cons_self)).2.1
        simp only [startOf]; omega
    have el : ((tb.cells.length : Int) + 1) = toItem tb.cells.length + 1 := by rw [toItem_of_lt (by omega)]
    simp only at hb
    unfold enumAddFields at hb
    split at hb
    · cases hb
    · cases hb; exact Or.inr ⟨⟨[TYPE_ENUM], by simp [es]⟩, rfl, el⟩
    · cases hb; exact Or.inr ⟨⟨TYPE_ENUM :: fs, by simp [es]⟩, rfl, el⟩

/-- The records are determined by the cells and the place of the newest. -/
theorem lay_unique {cells : List Int} {rs : List (Nat × List Int)} (h : Lay cells rs) : ∀ {cells' rs'}, Lay cells' rs' → cells = cells' → startOf rs = startOf rs' → rs = rs' := by
  induction h with
  | nil =>
    intro cells' rs' h' e s
    cases h' with
    | nil => rfl
    | add h hs =>
      exfalso
      have hl := congrArg List.length e
      simp only [List.length_cons, List.length_nil, List.length_append] at hl
      have := lay_length h
      omega
  | @add cells rs body h hs _ ih =>
    intro cells' rs' h' e s
    cases h' with
    | nil =>
      exfalso
      have hl := congrArg List.length e
      simp only [List.length_cons, List.length_nil, List.length_append] at hl
      have := lay_length h
      omega
    | @add cells2 rs2 body2 h2 hs2 =>
      simp only [startOf] at s
      obtain ⟨e1, e2⟩ := List.append_inj e s
      injection e2 with e2 e3
      subst e1 e3
      rw [ih h2 rfl (by omega)]

/-- Every record is that of a request. -/
def Covered (h : List (Req × Int)) (rs : List (Nat × List Int)) : Prop := ∀ q ∈ rs, ∃ x ∈ h, x.2 = (q.1 : Int) + 1

theorem run_covered {a b : Int} {h : List (Req × Int)} {tb : Table} (hr : Run a b h tb) (hlen : tb.cells.length < 2305843009213693952) :
    ∀ {rs}, Inv h tb rs → Covered h rs := by
  induction hr with
  | init =>
    intro rs hi
    have h0 := inv_init a b
    rw [lay_unique hi.lay h0.lay rfl (by rw [← hi.start, h0.start])]
    intro q hq
    simp only [List.mem_singleton] at hq
    subst hq
    exact ⟨_, List.mem_singleton.2 rfl, rfl⟩
  | @step h tb r t tb' hr ha hb ih =>
    intro rs' hi'
    have hl := run_short hr ha hb hlen
    obtain ⟨rs, hi⟩ := run_inv hr hl
    have start : toSize (toItem tb.start) = tb.start ∧ toItem tb.start = (startOf rs : Int) := by
      have : startOf rs < 2305843009213693952 := by
        cases hq : rs with
        | nil => simp [startOf]
        | cons q qs =>
          have := (lay_stored hi.lay q (by rw [hq]; exact List.mem_cons_self)).2.1
          simp only [startOf]; omega
      rw [hi.start, toItem_of_lt (by omega), toSize_natCast (by omega)]
      exact ⟨rfl, rfl⟩
    have cov := ih hl hi
    rcases build_grown2 hi hl hb with ⟨g1, g2⟩ | ⟨⟨rest, g1⟩, g2, g3⟩
    · have : rs' = rs := lay_unique hi'.lay hi.lay g1 (by rw [← hi'.start, g2, start.1, hi.start])
      subst this
      intro q hq
      obtain ⟨x, hx, e⟩ := cov q hq
      exact ⟨x, List.mem_cons_of_mem _ hx, e⟩
    · have key : ∀ {cells2 rs2}, Lay cells2 rs2 → cells2 = tb.cells ++ (startOf rs : Int) :: rest → startOf rs2 = tb.cells.length →
          Covered ((r, t) :: h) rs2 := by
        intro cells2 rs2 l e s
        cases l with
        | nil =>
          exfalso
          have hl := congrArg List.length e
          simp only [List.length_cons, List.length_nil, List.length_append] at hl
          have := lay_length hi.lay
          omega
        | @add cells3 rs3 body h3 hs3 =>
          simp only [startOf] at s
          obtain ⟨e1, e2⟩ := List.append_inj e s
          injection e2 with e2 e3
          subst e1
          have : rs3 = rs := lay_unique h3 hi.lay rfl (by omega)
          subst this
          intro q hq
          rcases List.mem_cons.1 hq with rfl | hq
          · refine ⟨_, List.mem_cons_self, ?_⟩
            rw [g3, toItem_of_lt (by omega)]
          · obtain ⟨x, hx, e⟩ := cov q hq
            exact ⟨x, List.mem_cons_of_mem _ hx, e⟩
      exact key hi'.lay (by rw [g1, start.2]) (by rw [← hi'.start, g2])

/-! ## Longer tables -/

theorem constOf_mono {cells ext : List Int} {t u : Int} : ConstOf cells t u → ConstOf (cells ++ ext) t u
  | ⟨n, e, h0, h1, h2⟩ => ⟨n, e, h0, getElem?_mono h1, getElem?_mono h2⟩

theorem arrayOf_mono {cells ext : List Int} {t u : Int} : ArrayOf cells t u → ArrayOf (cells ++ ext) t u
  | ⟨n, e, h0, h1, h2⟩ => ⟨n, e, h0, getElem?_mono h1, getElem?_mono h2⟩

theorem fields_mono {cells ext : List Int} {t : Int} {ms : List (Int × Int)} : Fields cells t ms → Fields (cells ++ ext) t ms
  | ⟨n, e, h0, h1, h2, h3⟩ => ⟨n, e, h0, getElem?_mono h1, getElem?_mono h2, fun i m hm => ⟨getElem?_mono (h3 i m hm).1, getElem?_mono (h3 i m hm).2⟩⟩

theorem signature_mono {cells ext : List Int} {t r : Int} {ps : List Int} : Signature cells t r ps → Signature (cells ++ ext) t r ps
  | ⟨n, e, h0, h1, h2, h3, h4⟩ => ⟨n, e, h0, getElem?_mono h1, getElem?_mono h2, getElem?_mono h3, fun i m hm => getElem?_mono (h4 i m hm)⟩

/-- The number of a type of the table is not positive or is that of a cell. -/
theorem full_cell {cells : List Int} {t : Int} (h : Full cells t) : t ≤ 0 ∨ ∃ n : Nat, ∃ c, t = n ∧ cells[n]? = some c := by
  cases h with
  | basic h => exact Or.inl h
  | leaf _ h =>
    rcases h with h | h | h <;> exact Or.inr ⟨_, _, rfl, h⟩
  | const h => obtain ⟨n, e, -, h, -⟩ := h; exact Or.inr ⟨n, _, e, h⟩
  | array h => obtain ⟨n, e, -, h, -⟩ := h; exact Or.inr ⟨n, _, e, h⟩
  | struct h => obtain ⟨n, e, -, h, -⟩ := h; exact Or.inr ⟨n, _, e, h⟩

theorem full_mono {cells ext : List Int} {t : Int} (h : Full cells t) : Full (cells ++ ext) t := by
  induction h with
  | basic h d => exact .basic h (den_mono d)
  | leaf h k d => exact .leaf h (by rcases k with k | k | k <;> simp [getElem?_mono k]) (den_mono d)
  | @const t u h hlt hn hu ih =>
    refine .const (constOf_mono h) hlt ?_ ih
    rintro ⟨v, n, e, h0, h1, h2⟩
    rcases full_cell hu with h3 | ⟨m, c, e', h3⟩
    · omega
    · have : n = m := by omega
      subst this
      have h4 := getElem?_mono (ext := ext) h3
      rw [h1] at h4
      cases h4
      apply hn
      cases hu with
      | basic h => omega
      | leaf _ hk =>
        rw [Int.ofNat.inj e'] at hk
        rcases hk with hk | hk | hk <;> (rw [h3] at hk; exact absurd (Option.some.inj hk) (by decide))
      | const h => exact ⟨_, h⟩
      | array h =>
        obtain ⟨m, e2, -, h, -⟩ := h
        have : n = m := by omega
        subst this
        rw [h3] at h; exact absurd (Option.some.inj h) (by decide)
      | struct h =>
        obtain ⟨m, e2, -, h, -⟩ := h
        have : n = m := by omega
        subst this
        rw [h3] at h; exact absurd (Option.some.inj h) (by decide)
  | array h hlt hu ih => exact .array (arrayOf_mono h) hlt ih
  | struct h hlt _ ih => exact .struct (fields_mono h) hlt ih

/-! ## The records of a history -/

theorem flat_get (ms : List (Int × Int)) (i : Nat) (m : Int × Int) (h : ms[i]? = some m) :
    (ms.flatMap fun m => [m.1, m.2])[2 * i]? = some m.1 ∧ (ms.flatMap fun m => [m.1, m.2])[2 * i + 1]? = some m.2 := by
  induction ms generalizing i with
  | nil => cases h
  | cons x ms ih =>
    cases i with
    | zero => cases h; exact ⟨rfl, rfl⟩
    | succ i =>
      have := ih i h
      simp only [List.flatMap_cons]
      exact this

theorem flat_length (ms : List (Int × Int)) : (ms.flatMap fun m => [m.1, m.2]).length = 2 * ms.length := by
  induction ms with
  | nil => rfl
  | cons x ms ih => simp only [List.flatMap_cons, List.length_append, List.length_cons, List.length_nil, ih]; omega

/-- What the table says of a request. -/
def Entry (cells : List Int) : Req → Int → Prop
  | .pointer u, t => ∃ n : Nat, t = n ∧ 0 < n ∧ cells[n]? = some TYPE_POINTER ∧ cells[n + 1]? = some u
  | .array u, t => ArrayOf cells t u
  | .const u, t => ConstOf cells t u
  | .function u ps, t => Signature cells t u ps
  | .struct ms, t => Fields cells t ms
  | .enum _, t => ∃ n : Nat, t = n ∧ 0 < n ∧ cells[n]? = some TYPE_ENUM

theorem inv_entry {h : List (Req × Int)} {tb : Table} {rs : List (Nat × List Int)} (hi : Inv h tb rs) {r : Req} {t : Int} (hx : (r, t) ∈ h) : Entry tb.cells r t := by
  obtain ⟨q, hq, e, he⟩ := hi.recs _ hx
  simp only at e he
  have hs := (lay_stored hi.lay q hq).2
  have e' : t = ((q.1 + 1 : Nat) : Int) := by omega
  cases r with
  | pointer u =>
    simp only [Enc] at he
    rw [he] at hs
    exact ⟨_, e', by omega, stored_cell (i := 0) hs rfl, stored_cell (i := 1) hs rfl⟩
  | array u =>
    simp only [Enc] at he
    rw [he] at hs
    exact ⟨_, e', by omega, stored_cell (i := 0) hs rfl, stored_cell (i := 1) hs rfl⟩
  | const u =>
    simp only [Enc] at he
    rw [he] at hs
    exact ⟨_, e', by omega, stored_cell (i := 0) hs rfl, stored_cell (i := 1) hs rfl⟩
  | function u ps =>
    simp only [Enc] at he
    rw [he] at hs
    refine ⟨_, e', by omega, stored_cell (i := 0) hs rfl, stored_cell (i := 1) hs rfl, stored_cell (i := 2) hs rfl, fun i p hp => ?_⟩
    have := stored_cell (i := i + 3) hs (by simpa using hp)
    rw [show q.1 + 1 + 3 + i = q.1 + 1 + (i + 3) from by omega]
    exact this
  | struct ms =>
    obtain ⟨n, -, he⟩ := he
    rw [he] at hs
    refine ⟨_, e', by omega, stored_cell (i := 0) hs rfl, ?_, fun i m hm => ?_⟩
    · have := stored_cell (i := 2) hs rfl
      rw [flat_length] at this
      rw [this]
      simp
    · obtain ⟨f1, f2⟩ := flat_get ms i m hm
      have g1 := stored_cell (i := 2 * i + 3) hs (by simpa using f1)
      have g2 := stored_cell (i := 2 * i + 1 + 3) hs (by simpa using f2)
      rw [show q.1 + 1 + 3 + 2 * i = q.1 + 1 + (2 * i + 3) from by omega, show q.1 + 1 + 4 + 2 * i = q.1 + 1 + (2 * i + 1 + 3) from by omega]
      exact ⟨g1, g2⟩
  | enum fs =>
    simp only [Enc] at he
    rw [he] at hs
    exact ⟨_, e', by omega, stored_cell (i := 0) hs rfl⟩

/-- The histories of the compiler: built-in types are those of the language, and `const` is not applied to a
`const` type. -/
structure Proper (h : List (Req × Int)) : Prop where
  builtin : ∀ x ∈ h, ∀ t ∈ mentioned x.1, t ≤ 0 → t ∈ [-9, -8, -7, -6, -4, -3, -2, -1, 0]
  single : ∀ u t, (.const u, t) ∈ h → ∀ v, (.const v, u) ∉ h

theorem run_entry {a b : Int} {h : List (Req × Int)} {tb : Table} (hr : Run a b h tb) (hlen : tb.cells.length < 2305843009213693952) {r : Req} {t : Int}
    (hx : (r, t) ∈ h) : Entry tb.cells r t := by
  obtain ⟨rs, hi⟩ := run_inv hr hlen
  exact inv_entry hi hx

/-- The types of a history have their parts before them. -/
theorem run_full {a b : Int} {h : List (Req × Int)} {tb : Table} (hr : Run a b h tb) (hlen : tb.cells.length < 2305843009213693952) (hp : Proper h) :
    ∀ x ∈ h, Full tb.cells x.2 := by
  induction hr with
  | init =>
    intro x hx
    have hx' := hx
    rw [List.mem_singleton] at hx'
    subst hx'
    have := run_entry (.init (a := a) (b := b)) hlen hx
    refine .struct this ?_ ?_
    · intro m hm
      simp only [List.mem_cons, List.not_mem_nil, or_false] at hm
      rcases hm with rfl | rfl <;> (simp only; omega)
    · intro m hm
      simp only [List.mem_cons, List.not_mem_nil, or_false] at hm
      rcases hm with rfl | rfl <;> exact .basic (by simp only; omega) .int
  | @step h tb r t tb' hr ha hb ih =>
    have hl := run_short hr ha hb hlen
    have hr' := Run.step hr ha hb
    obtain ⟨rs, hi⟩ := run_inv hr hl
    obtain ⟨rs', hi'⟩ := run_inv hr' hlen
    have ih := ih hl ⟨fun x hx => hp.builtin x (List.mem_cons_of_mem _ hx), fun u t hu v hv => hp.single u t (List.mem_cons_of_mem _ hu) v (List.mem_cons_of_mem _ hv)⟩
    have hpre : ∃ ext, tb'.cells = tb.cells ++ ext := by
      rcases build_grown hi hl hb with ⟨g, -⟩ | ⟨rest, g⟩
      · exact ⟨[], by rw [g]; simp⟩
      · exact ⟨_, g⟩
    obtain ⟨ext, hext⟩ := hpre
    have old : ∀ x ∈ h, Full tb'.cells x.2 := fun x hx => hext ▸ full_mono (ih x hx)
    have small : ∀ x ∈ h, x.2 < (tb.cells.length : Int) + 1 := by
      intro x hx
      obtain ⟨q, hq, e, -⟩ := hi.recs _ hx
      have := (lay_stored hi.lay q hq).2.1
      omega
    have builtin : ∀ u ∈ mentioned r, u ≤ 0 → Full tb'.cells u := by
      intro u hu h0
      have := hp.builtin _ List.mem_cons_self u hu h0
      simp only [List.mem_cons, List.not_mem_nil, or_false] at this
      rcases this with rfl | rfl | rfl | rfl | rfl | rfl | rfl | rfl | rfl <;> exact .basic (by decide) (by constructor)
    intro x hx
    rcases List.mem_cons.1 hx with hx | hx
    case inr => exact old x hx
    subst hx
    by_cases hold : (r, t) ∈ h
    · exact old _ hold
    have new : t = (tb.cells.length : Int) + 1 := by
      rcases build_grown2 hi hl hb with ⟨g1, g2⟩ | ⟨-, -, g⟩
      · exfalso
        have start : toSize (toItem tb.start) = tb.start := by
          have : startOf rs < 2305843009213693952 := by
            cases hq : rs with
            | nil => simp [startOf]
            | cons q qs =>
              have := (lay_stored hi.lay q (by rw [hq]; exact List.mem_cons_self)).2.1
              simp only [startOf]; omega
          rw [hi.start, toItem_of_lt (by omega), toSize_natCast (by omega)]
        have : rs' = rs := lay_unique hi'.lay hi.lay g1 (by rw [← hi'.start, g2, start, hi.start])
        subst this
        obtain ⟨q, hq, e, -⟩ := hi'.recs _ List.mem_cons_self
        obtain ⟨y, hy, e2⟩ := run_covered hr hl hi q hq
        have := ((List.pairwise_cons.1 hi'.pairs).1 y hy).1 (by simp only at e ⊢; omega)
        apply hold
        have e3 : y = (r, t) := Prod.ext this.1.symm (by simp only at e ⊢; omega)
        rw [← e3]; exact hy
      · rw [g, toItem_of_lt (by omega)]
    have part : ∀ u ∈ mentioned r, u < t ∧ Full tb'.cells u := by
      intro u hu
      rcases ha.known u hu with h0 | ⟨q, hq⟩
      · exact ⟨by omega, builtin u hu h0⟩
      · have := small _ hq
        exact ⟨by simp only at this; omega, old _ hq⟩
    have entry := run_entry hr' hlen List.mem_cons_self
    simp only at entry ⊢
    obtain ⟨T, d⟩ := run_den hr' hlen hp.builtin _ List.mem_cons_self
    simp only at d
    cases r with
    | pointer u =>
      obtain ⟨n, e, h0, h1, -⟩ := entry
      rw [e] at d ⊢
      exact .leaf h0 (Or.inl h1) d
    | function u ps =>
      obtain ⟨n, e, h0, h1, -⟩ := entry
      rw [e] at d ⊢
      exact .leaf h0 (Or.inr (Or.inl h1)) d
    | enum fs =>
      obtain ⟨n, e, h0, h1⟩ := entry
      rw [e] at d ⊢
      exact .leaf h0 (Or.inr (Or.inr h1)) d
    | array u =>
      have := part u (by simp [mentioned])
      exact .array entry this.1 this.2
    | struct ms =>
      refine .struct entry (fun m hm => ?_) (fun m hm => ?_)
      · exact (part m.1 (by simp only [mentioned]; exact List.mem_map_of_mem hm)).1
      · exact (part m.1 (by simp only [mentioned]; exact List.mem_map_of_mem hm)).2
    | const u =>
      have := part u (by simp [mentioned])
      refine .const entry this.1 ?_ this.2
      rintro ⟨v, n, e, h0, h1, h2⟩
      rcases ha.known u (by simp [mentioned]) with h3 | ⟨q, hq⟩
      · omega
      · have hq' : (q, u) ∈ (Req.const u, t) :: h := List.mem_cons_of_mem _ hq
        have ent := run_entry hr' hlen hq'
        have clash : ∀ {m : Nat} {c : Int}, u = m → tb'.cells[m]? = some c → c = TYPE_CONST := by
          intro m c e2 h
          have : m = n := by omega
          subst this
          rw [h1] at h
          exact (Option.some.inj h).symm
        cases q with
        | const w => exact hp.single u t List.mem_cons_self w hq'
        | pointer => obtain ⟨m, e2, -, h, -⟩ := ent; exact absurd (clash e2 h) (by decide)
        | function => obtain ⟨m, e2, -, h, -⟩ := ent; exact absurd (clash e2 h) (by decide)
        | enum => obtain ⟨m, e2, -, h⟩ := ent; exact absurd (clash e2 h) (by decide)
        | array => obtain ⟨m, e2, -, h, -⟩ := ent; exact absurd (clash e2 h) (by decide)
        | struct => obtain ⟨m, e2, -, h, -⟩ := ent; exact absurd (clash e2 h) (by decide)

end RuC.Checks
