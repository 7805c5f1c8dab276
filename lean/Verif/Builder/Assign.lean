import Verif.Builder.Typing

/-! The checks of assignments, and the literals made by the folding. -/

namespace RuC.Builder

open RuC RuC.Types RuC.Expr RuC.Builder.Spec

variable {F : Type}

section
variable {cells : List Int} (hlen : cells.length < 4611686018427387904)
include hlen

/-- `const` in the table and the cell behind it. -/
theorem constOf_iff {t : Int} {T : Ty} (h : Den cells t T) (u : Int) : ConstOf cells t u ↔ (isConst cells t ∧ unqualified cells t = u) := by
  constructor
  · rintro ⟨n, rfl, h0, h1, h2⟩
    have g := get_some h1 hlen
    have hc : isConst cells n := ⟨by omega, by rw [g.2.1, g.2.2]⟩
    refine ⟨hc, ?_⟩
    unfold unqualified
    rw [if_pos hc, get_some_succ h2 hlen]
  · rintro ⟨hc, hu⟩
    obtain ⟨U, rfl⟩ := (isConst_iff hlen h).1 hc
    cases h
    case const n v h0 h1 h2 h3 h4 =>
    refine ⟨n, rfl, h0, h1, ?_⟩
    unfold unqualified at hu
    rw [if_pos hc, get_some_succ h2 hlen] at hu
    rw [h2, hu]

theorem once_iff {t : Int} {T : Ty} (h : Den cells t T) (u : Int) : Once cells t u ↔ unqual cells t = u := by
  unfold Once unqual
  by_cases hc : isConst cells t
  · rw [if_pos hc, constOf_iff hlen h]
    constructor
    · rintro (k | k)
      · exact k.2
      · exact absurd ((constOf_iff hlen h _).2 ⟨hc, rfl⟩) (k.1 _)
    · exact fun k => Or.inl ⟨hc, k⟩
  · rw [if_neg hc]
    constructor
    · rintro (k | k)
      · exact absurd ((constOf_iff hlen h _).1 k).1 hc
      · exact k.2.symm
    · intro k
      exact Or.inr ⟨fun v k => hc ((constOf_iff hlen h _).1 k).1, k.symm⟩

theorem once_den {t : Int} {T : Ty} (h : Den cells t T) : Den cells (unqual cells t) T.once := by
  unfold unqual
  by_cases hc : isConst cells t
  · rw [if_pos hc]
    obtain ⟨U, rfl⟩ := (isConst_iff hlen h).1 hc
    cases h
    case const n v h0 h1 h2 h3 h4 =>
    unfold unqualified
    rw [if_pos hc, get_some_succ h2 hlen]
    exact h4
  · rw [if_neg hc]
    have : T.once = T := by
      cases T <;> try rfl
      exact absurd ((isConst_iff hlen h).2 ⟨_, rfl⟩) hc
    rw [this]; exact h

theorem elem_const {t v q : Int} {T : Ty} (h : Den cells t T) (hc : ConstOf cells t v) : Elem cells t q ↔ Elem cells v q := by
  constructor
  · intro k
    cases k with
    | here h0 h1 h2 =>
      obtain ⟨m, e, g0, g1, g2⟩ := hc
      have : m = _ := Int.ofNat.inj e.symm
      subst this
      rw [h1] at g1
      exact absurd (Option.some.inj g1) (by decide)
    | behind h1 h2 =>
      have e1 := ((constOf_iff hlen h _).1 hc).2
      have e2 := ((constOf_iff hlen h _).1 h1).2
      rw [← e1, e2]; exact h2
  · exact fun k => .behind hc k

theorem strip_elem : ∀ (fuel : Nat) {t t' : Int} {T : Ty}, Den cells t T → strip cells fuel t = some t' → ∀ q, Elem cells t q ↔ Elem cells t' q := by
  intro fuel
  induction fuel with
  | zero => intro t t' T h e; cases e
  | succ fuel ih =>
    intro t t' T h e q
    rw [strip.eq_def] at e
    simp only at e
    by_cases hc : isConst cells t
    · rw [if_pos hc] at e
      have hco := (constOf_iff hlen h _).2 ⟨hc, rfl⟩
      have d := once_den hlen h
      unfold unqual at d
      rw [if_pos hc] at d
      rw [elem_const hlen h hco]
      exact ih d e q
    · rw [if_neg hc] at e
      cases e
      exact Iff.rfl

/-- The element of a pointer, from its tree. -/
theorem element_den {t : Int} {T : Ty} (h : Den cells t T) (hp : T.Pointer) :
    ∃ p P, pointerElement cells t = some p ∧ Den cells p P ∧ ∀ q, Elem cells t q ↔ q = p := by
  obtain ⟨t', e, d, k⟩ := behind_den hlen h
  obtain ⟨P, hP⟩ := hp
  rw [hP] at d
  have hs := strip_elem hlen _ h e
  cases d
  case pointer n u h0 h1 h2 h3 =>
  refine ⟨u, P, ?_, h3, ?_⟩
  · unfold pointerElement
    rw [e, Option.map_some, if_pos, get_some_succ h2 hlen]
    have g := get_some h1 hlen
    exact ⟨by omega, by rw [g.2.1, g.2.2]⟩
  · intro q
    rw [hs q]
    constructor
    · intro el
      generalize hn : (n : Int) = m at el
      cases el with
      | here g0 g1 g2 =>
        have := Int.ofNat.inj hn
        subst this
        rw [h2] at g2
        exact (Option.some.inj g2).symm
      | behind g1 g2 =>
        obtain ⟨m', e', g0', g1', -⟩ := g1
        subst hn
        have := Int.ofNat.inj e'
        subst this
        rw [h1] at g1'
        exact absurd (Option.some.inj g1') (by decide)
    · rintro rfl
      exact .here h0 h1 h2

end

theorem bare_once (T : Ty) : T.once.bare = T.bare := by cases T <;> rfl

theorem integral_once (T : Ty) : T.once.Integral ↔ T.Integral := by unfold Ty.Integral; rw [bare_once]

theorem pointer_once (T : Ty) : T.once.Pointer ↔ T.Pointer := by unfold Ty.Pointer; rw [bare_once]

theorem elem_once {cells : List Int} (hlen : cells.length < 4611686018427387904) {t : Int} {T : Ty} (h : Den cells t T) (q : Int) :
    Elem cells (unqual cells t) q ↔ Elem cells t q := by
  unfold unqual
  by_cases hc : isConst cells t
  · rw [if_pos hc]; exact (elem_const hlen h ((constOf_iff hlen h _).2 ⟨hc, rfl⟩)).symm
  · rw [if_neg hc]

theorem pointer_not_integral {T : Ty} (h : T.Pointer) : ¬T.Integral := by
  obtain ⟨_, h⟩ := h
  unfold Ty.Integral
  rw [h]
  rintro (h | h | ⟨_, h⟩ | ⟨_, h⟩) <;> cases h

theorem elem_pointer {cells : List Int} (hlen : cells.length < 4611686018427387904) {t q : Int} (el : Elem cells t q) : ∀ {T : Ty}, Den cells t T → T.Pointer := by
  induction el with
  | here h0 h1 h2 =>
    intro T d
    have := (hasClass_den hlen d TYPE_POINTER).1 (by have g := get_some h1 hlen; exact ⟨by omega, by rw [g.2.1, g.2.2]⟩)
    cases T <;> first | exact ⟨_, rfl⟩ | exact this.elim | (simp only [classIs] at this; exact absurd this (by decide))
  | behind h1 h2 ih =>
    intro T d
    have k := (constOf_iff hlen d _).1 h1
    have d' := once_den hlen d
    unfold unqual at d'
    rw [if_pos k.1, k.2] at d'
    exact (pointer_once T).1 (ih d')

/-- Every plain value may be put in a place exactly when it fits. -/
theorem plain_fits (D : Doubles F) {cells : List Int} (hlen : cells.length < 4611686018427387904) (hc : Clean cells) {e : Int} {r : Ex F} {E R : Ty}
    (de : Den cells e E) (dr : Den cells r.type R) (hr : Literal cells r) (ne : ¬isConst cells e) :
    (Fitting cells e r.type E R ∧ ∃ r', checkPlain D cells e r = .ok r') ∨ (¬Fitting cells e r.type E R ∧ checkPlain D cells e r = .bad) := by
  have da := once_den hlen dr
  obtain ⟨b1, e1, i1⟩ := says_floating hlen de
  obtain ⟨b2, e2, i2⟩ := says_integer hlen hc da
  obtain ⟨b3, e3, i3⟩ := says_enum hlen de
  obtain ⟨b4, e4, i4⟩ := says_integer hlen hc de
  obtain ⟨b5, e5, i5⟩ := says_enum hlen da
  obtain ⟨b6, e6, i6⟩ := says_pointer hlen de
  obtain ⟨b7, e7, i7⟩ := says_pointer hlen da
  have i8 := enumField_den hlen hc da
  have i9 := (builtin_den da).2.2.2.2
  rw [integral_once] at i2
  rw [pointer_once] at i7
  have eE : E.bare = E := by
    cases E <;> try rfl
    exact absurd ((isConst_iff hlen de).2 ⟨_, rfl⟩) ne
  have onceE : ∀ u, Once cells e u ↔ u = e := by
    intro u
    rw [once_iff hlen de]
    unfold unqual
    rw [if_neg ne]
    exact eq_comm
  have same : (∃ u, Once cells e u ∧ Once cells r.type u) ↔ e = unqual cells r.type := by
    constructor
    · rintro ⟨u, k1, k2⟩
      rw [onceE] at k1
      rw [once_iff hlen dr] at k2
      rw [k2, k1]
    · intro k
      exact ⟨e, (onceE e).2 rfl, (once_iff hlen dr _).2 k.symm⟩
  unfold checkPlain
  simp only [bind_eq, pure_eq, e1, e2, e3, e4, e5, e6, e7, ask, Out.bind]
  by_cases h1 : (b1 && b2) = true
  · rw [if_pos h1]
    rw [Bool.and_eq_true, i1, i2] at h1
    refine Or.inl ⟨Or.inl h1, ?_⟩
    have : e = TYPE_FLOATING := (builtin_den de).2.2.2.1.2 (eE ▸ h1.1)
    subst this
    obtain ⟨r', k, -⟩ := cast_float D hr
    exact ⟨r', k⟩
  rw [if_neg h1]
  rw [Bool.and_eq_true, i1, i2] at h1
  by_cases h2 : (b3 && isEnumField cells (unqual cells r.type)) = true
  · rw [if_pos h2]
    rw [Bool.and_eq_true, i3, i8] at h2
    refine Or.inl ⟨Or.inr (Or.inl ⟨?_, ?_⟩), r, rfl⟩
    · exact Or.inr (Or.inr (Or.inl h2.1))
    · rw [← integral_once]
      obtain ⟨_, k⟩ := h2.2
      rw [k]; exact Or.inr (Or.inr (Or.inr ⟨_, rfl⟩))
  rw [if_neg h2]
  by_cases h3 : (b4 && (b5 || isEnumField cells (unqual cells r.type))) = true
  · rw [if_pos h3]
    rw [Bool.and_eq_true, Bool.or_eq_true, i4, i5, i8] at h3
    refine Or.inl ⟨Or.inr (Or.inl ⟨h3.1, ?_⟩), r, rfl⟩
    rw [← integral_once]
    rcases h3.2 with ⟨_, k⟩ | ⟨_, k⟩
    · exact Or.inr (Or.inr (Or.inl ⟨_, k⟩))
    · rw [k]; exact Or.inr (Or.inr (Or.inr ⟨_, rfl⟩))
  rw [if_neg h3]
  by_cases h4 : (b4 && b2) = true
  · rw [if_pos h4]
    rw [Bool.and_eq_true, i4, i2] at h4
    exact Or.inl ⟨Or.inr (Or.inl h4), r, rfl⟩
  rw [if_neg h4]
  rw [Bool.and_eq_true, i4, i2] at h4
  by_cases h5 : (b6 && isNull (unqual cells r.type)) = true
  · rw [if_pos h5]
    rw [Bool.and_eq_true, i6, isNull, decide_eq_true_iff, i9] at h5
    exact Or.inl ⟨Or.inr (Or.inr (Or.inl h5)), r, rfl⟩
  rw [if_neg h5]
  rw [Bool.and_eq_true, i6, isNull, decide_eq_true_iff, i9] at h5
  by_cases h6 : (b6 && b7) = true
  · rw [if_pos h6]
    rw [Bool.and_eq_true, i6, i7] at h6
    obtain ⟨p, P, q1, q2, q3⟩ := element_den hlen de h6.1
    obtain ⟨p', P', q1', q2', q3'⟩ := element_den hlen da ((pointer_once R).2 h6.2)
    rw [q1, q1']
    simp only
    have fit4 : (∃ p u, Elem cells e p ∧ ConstOf cells p u ∧ Elem cells r.type u) ↔ (isConst cells p ∧ p' = unqualified cells p) := by
      constructor
      · rintro ⟨x, u, k1, k2, k3⟩
        rw [q3] at k1
        subst k1
        rw [constOf_iff hlen q2] at k2
        rw [← elem_once hlen dr, q3'] at k3
        exact ⟨k2.1, by rw [k2.2, k3]⟩
      · rintro ⟨k1, k2⟩
        exact ⟨p, unqualified cells p, (q3 p).2 rfl, (constOf_iff hlen q2 _).2 ⟨k1, rfl⟩, by rw [← elem_once hlen dr, q3', k2]⟩
    have fit : Fitting cells e r.type E R ↔ ((isConst cells p ∧ p' = unqualified cells p) ∨ e = unqual cells r.type) := by
      unfold Fitting
      rw [fit4, same]
      constructor
      · rintro (k | k | k | k)
        · exact absurd k h1
        · exact absurd k h4
        · exact absurd k h5
        · exact k
      · exact fun k => Or.inr (Or.inr (Or.inr k))
    by_cases g1 : (!decide (isConst cells p) && decide (isConst cells p')) = true
    · rw [if_pos g1]
      refine Or.inr ⟨?_, rfl⟩
      rw [fit]
      rw [Bool.and_eq_true, Bool.not_eq_true', decide_eq_false_iff_not, decide_eq_true_iff] at g1
      rintro (k | k)
      · exact g1.1 k.1
      · rw [← k, q1] at q1'
        have := Option.some.inj q1'
        subst this
        exact g1.1 g1.2
    rw [if_neg g1]
    by_cases g2 : (decide (isConst cells p) && decide (p' = unqualified cells p)) = true
    · rw [if_pos g2]
      rw [Bool.and_eq_true, decide_eq_true_iff, decide_eq_true_iff] at g2
      exact Or.inl ⟨fit.2 (Or.inl g2), r, rfl⟩
    rw [if_neg g2]
    rw [Bool.and_eq_true, decide_eq_true_iff, decide_eq_true_iff] at g2
    by_cases g3 : e = unqual cells r.type
    · rw [if_pos g3]
      exact Or.inl ⟨fit.2 (Or.inr g3), r, rfl⟩
    · rw [if_neg g3]
      refine Or.inr ⟨?_, rfl⟩
      rw [fit]
      rintro (k | k)
      · exact g2 k
      · exact g3 k
  rw [if_neg h6]
  rw [Bool.and_eq_true, i6, i7] at h6
  have fit : Fitting cells e r.type E R ↔ e = unqual cells r.type := by
    unfold Fitting
    rw [same]
    constructor
    · rintro (k | k | k | ⟨p, u, k1, k2, k3⟩ | k)
      · exact absurd k h1
      · exact absurd k h4
      · exact absurd k h5
      · exact absurd ⟨elem_pointer hlen k1 de, elem_pointer hlen k3 dr⟩ h6
      · exact k
    · exact fun k => Or.inr (Or.inr (Or.inr (Or.inr k)))
  by_cases g : e = unqual cells r.type
  · rw [if_pos g]; exact Or.inl ⟨fit.2 g, r, rfl⟩
  · rw [if_neg g]; exact Or.inr ⟨fun k => g (fit.1 k), rfl⟩

/-- The rule for assignments. -/
theorem judge_assign (D : Doubles F) {cells : List Int} (hlen : cells.length < 4611686018427387904) (hc : Clean cells) (l r : Ex F) {L R : Ty}
    (dl : Den cells l.type L) (dr : Den cells r.type R) (hr : Literal cells r) (hi : r.isInit = false) (op : Binary) (ha : isAssignment op = true) :
    (buildBinary D cells l r op = .bad ∧ ¬(l.lvalue = true ∧ (∀ U, L ≠ .const U) ∧ Fitting cells l.type r.type L R ∧ OperandRule op L R)) ∨
    (l.lvalue = true ∧ (∀ U, L ≠ .const U) ∧ Fitting cells l.type r.type L R ∧ OperandRule op L R ∧
      ∃ r', buildBinary D cells l r op = .ok (.assign l.type op l r')) := by
  unfold buildBinary
  rw [ha, if_pos rfl]
  by_cases hlv : l.lvalue = false
  · rw [if_pos hlv]
    exact Or.inl ⟨rfl, fun k => by rw [hlv] at k; exact absurd k.1 (by decide)⟩
  rw [if_neg hlv]
  have hlv : l.lvalue = true := by simpa using hlv
  have step : checkAssign D cells false l.type r = if isConst cells l.type ∧ false = false then .bad else checkPlain D cells (unqual cells l.type) r := by
    cases r <;> first | rfl | (cases hi; done) | (rw [checkAssign.eq_def])
  rw [step]
  by_cases hk : isConst cells l.type
  · rw [if_pos ⟨hk, rfl⟩]
    obtain ⟨U, hU⟩ := (isConst_iff hlen dl).1 hk
    exact Or.inl ⟨rfl, fun k => k.2.1 U hU⟩
  rw [if_neg (fun k => hk k.1)]
  have hU : ∀ U, L ≠ .const U := fun U k => hk ((isConst_iff hlen dl).2 ⟨U, k⟩)
  have hu : unqual cells l.type = l.type := by unfold unqual; rw [if_neg hk]
  rw [hu]
  rcases plain_fits D hlen hc dl dr hr hk with ⟨f, r', e⟩ | ⟨f, e⟩
  · rw [e]
    simp only [Out.bind]
    unfold buildBinaryCase
    obtain ⟨b1, e1, i1⟩ := says_integer hlen hc dl
    obtain ⟨b2, e2, i2⟩ := says_integer hlen hc dr
    obtain ⟨b3, e3, i3⟩ := says_arithmetic hlen hc dl
    obtain ⟨b4, e4, i4⟩ := says_arithmetic hlen hc dr
    have arith : ∀ {b b' : Bool}, (!b || !b') = true ↔ ¬(b = true ∧ b' = true) := by decide
    cases hg : group op <;> simp only [bind_eq, pure_eq, e1, e2, e3, e4, ask, Out.bind]
    case assign =>
      refine Or.inr ⟨hlv, hU, f, ?_, r', rfl⟩
      cases op <;> first | (cases hg; done) | trivial
    case integralAssign =>
      have ho : OperandRule op L R ↔ (L.Integral ∧ R.Integral) := by cases op <;> first | (cases hg; done) | exact Iff.rfl
      rw [ho]
      by_cases h : (!b1 || !b2) = true
      · rw [if_pos h]
        rw [arith, i1, i2] at h
        exact Or.inl ⟨rfl, fun k => h k.2.2.2⟩
      · rw [if_neg h]
        rw [arith, i1, i2] at h
        exact Or.inr ⟨hlv, hU, f, Classical.not_not.1 h, r', rfl⟩
    case arithmeticAssign =>
      have ho : OperandRule op L R ↔ (L.Arithmetic ∧ R.Arithmetic) := by cases op <;> first | (cases hg; done) | exact Iff.rfl
      rw [ho]
      by_cases h : (!b3 || !b4) = true
      · rw [if_pos h]
        rw [arith, i3, i4] at h
        exact Or.inl ⟨rfl, fun k => h k.2.2.2⟩
      · rw [if_neg h]
        rw [arith, i3, i4] at h
        exact Or.inr ⟨hlv, hU, f, Classical.not_not.1 h, r', rfl⟩
    all_goals cases op <;> first | (cases hg; done) | (cases ha; done)
  · rw [e]
    exact Or.inl ⟨rfl, fun k => f k.2.2.1⟩

end RuC.Builder
