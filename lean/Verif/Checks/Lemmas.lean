import Verif.Checks.Spec
import Verif.Builder.Trees

/-! Reading the records of the table, and the checks of initialisers. -/

namespace RuC.Checks

open RuC RuC.Types RuC.Expr RuC.Builder RuC.Builder.Spec RuC.Checks.Spec

variable {F : Type}

theorem takes_plain {cells : List Int} {decl : Bool} {t : Int} {e : Ex F} (hi : e.isInit = false) :
    Takes cells decl t e ↔ (Constant cells t → decl = true) ∧ ∃ T E, Den cells t T ∧ Den cells e.type E ∧ Fitting cells t e.type T E := by
  constructor
  · intro h
    cases h with
    | plain _ h1 h2 h3 h4 => exact ⟨h1, _, _, h2, h3, h4⟩
    | struct => cases hi
    | array => cases hi
  · rintro ⟨h1, T, E, h2, h3, h4⟩
    exact .plain hi h1 h2 h3 h4

/-- A number stands for one tree. -/
theorem den_unique {cells : List Int} {t : Int} {T : Ty} (h : Den cells t T) : ∀ {t' : Int} {T' : Ty}, t = t' → Den cells t' T' → T = T' := by
  have cls : ∀ {n m : Nat} {a b : Int}, (n : Int) = (m : Int) → cells[n]? = some a → cells[m]? = some b → a = b := by
    intro n m a b e h1 h2
    have := Int.ofNat.inj e
    subst this
    rw [h1] at h2
    exact Option.some.inj h2
  have clsn : ∀ {n m : Nat} {a b : Int}, -(n : Int) = -(m : Int) → cells[n]? = some a → cells[m]? = some b → a = b := by
    intro n m a b e h1 h2
    exact cls (by omega) h1 h2
  induction h with
  | array h0 h1 h2 h3 ih =>
    intro t' T' e h'
    cases h' with
    | array k0 k1 k2 k3 =>
      have e' := Int.ofNat.inj e
      subst e'
      rw [h2] at k2
      cases k2
      rw [ih rfl k3]
    | struct k0 _ k1 => exact absurd (cls e h1 k1) (by decide)
    | function k0 k1 => exact absurd (cls e h1 k1) (by decide)
    | enum k0 k1 => exact absurd (cls e h1 k1) (by decide)
    | pointer k0 k1 => exact absurd (cls e h1 k1) (by decide)
    | const k0 k1 => exact absurd (cls e h1 k1) (by decide)
    | _ => omega
  | pointer h0 h1 h2 h3 ih =>
    intro t' T' e h'
    cases h' with
    | pointer k0 k1 k2 k3 =>
      have e' := Int.ofNat.inj e
      subst e'
      rw [h2] at k2
      cases k2
      rw [ih rfl k3]
    | struct k0 _ k1 => exact absurd (cls e h1 k1) (by decide)
    | function k0 k1 => exact absurd (cls e h1 k1) (by decide)
    | enum k0 k1 => exact absurd (cls e h1 k1) (by decide)
    | array k0 k1 => exact absurd (cls e h1 k1) (by decide)
    | const k0 k1 => exact absurd (cls e h1 k1) (by decide)
    | _ => omega
  | const h0 h1 h2 _ h3 ih =>
    intro t' T' e h'
    cases h' with
    | const k0 k1 k2 _ k3 =>
      have e' := Int.ofNat.inj e
      subst e'
      rw [h2] at k2
      cases k2
      rw [ih rfl k3]
    | struct k0 _ k1 => exact absurd (cls e h1 k1) (by decide)
    | function k0 k1 => exact absurd (cls e h1 k1) (by decide)
    | enum k0 k1 => exact absurd (cls e h1 k1) (by decide)
    | array k0 k1 => exact absurd (cls e h1 k1) (by decide)
    | pointer k0 k1 => exact absurd (cls e h1 k1) (by decide)
    | _ => omega
  | struct h0 _ h1 =>
    intro t' T' e h'
    cases h' with
    | struct k0 _ k1 => rw [e]
    | function k0 k1 => exact absurd (cls e h1 k1) (by decide)
    | enum k0 k1 => exact absurd (cls e h1 k1) (by decide)
    | array k0 k1 => exact absurd (cls e h1 k1) (by decide)
    | pointer k0 k1 => exact absurd (cls e h1 k1) (by decide)
    | const k0 k1 => exact absurd (cls e h1 k1) (by decide)
    | _ => omega
  | function h0 h1 =>
    intro t' T' e h'
    cases h' with
    | function k0 k1 => rw [e]
    | struct k0 _ k1 => exact absurd (cls e h1 k1) (by decide)
    | enum k0 k1 => exact absurd (cls e h1 k1) (by decide)
    | array k0 k1 => exact absurd (cls e h1 k1) (by decide)
    | pointer k0 k1 => exact absurd (cls e h1 k1) (by decide)
    | const k0 k1 => exact absurd (cls e h1 k1) (by decide)
    | _ => omega
  | enum h0 h1 =>
    intro t' T' e h'
    cases h' with
    | enum k0 k1 => rw [e]
    | struct k0 _ k1 => exact absurd (cls e h1 k1) (by decide)
    | function k0 k1 => exact absurd (cls e h1 k1) (by decide)
    | array k0 k1 => exact absurd (cls e h1 k1) (by decide)
    | pointer k0 k1 => exact absurd (cls e h1 k1) (by decide)
    | const k0 k1 => exact absurd (cls e h1 k1) (by decide)
    | _ => omega
  | field h0 h1 =>
    intro t' T' e h'
    cases h' with
    | field k0 k1 => congr 1; omega
    | _ => omega
  | _ =>
    intro t' T' e h'
    cases h' <;> first | rfl | omega

section
variable {cells : List Int} (hlen : cells.length < 4611686018427387904)
include hlen

theorem full_den {t : Int} (h : Full cells t) : ∃ T, Den cells t T := by
  induction h with
  | basic _ d => exact ⟨_, d⟩
  | leaf _ _ d => exact ⟨_, d⟩
  | const hc hlt _ _ ih =>
    obtain ⟨n, rfl, h0, h1, h2⟩ := hc
    obtain ⟨T, d⟩ := ih
    exact ⟨_, .const h0 h1 h2 hlt d⟩
  | array ha _ _ ih =>
    obtain ⟨n, rfl, h0, h1, h2⟩ := ha
    obtain ⟨T, d⟩ := ih
    exact ⟨_, .array h0 h1 h2 d⟩
  | struct hf =>
    obtain ⟨n, rfl, h0, h1, h2, h3⟩ := hf
    exact ⟨_, .struct h0 (List.getElem?_eq_some_iff.1 h1).1 h1⟩

/-- What a place without its outermost `const` is. -/
theorem full_once {t : Int} (h : Full cells t) : Full cells (unqual cells t) ∧ ¬isConst cells (unqual cells t) := by
  obtain ⟨T, d⟩ := full_den hlen h
  unfold unqual
  by_cases hc : isConst cells t
  · rw [if_pos hc]
    have hco := (constOf_iff hlen d _).2 ⟨hc, rfl⟩
    have key : ∀ {u}, ConstOf cells t u → Full cells u → ¬Constant cells u → Full cells (unqualified cells t) ∧ ¬isConst cells (unqualified cells t) := by
      intro u hu hf hn
      rw [((constOf_iff hlen d _).1 hu).2]
      obtain ⟨U, d'⟩ := full_den hlen hf
      exact ⟨hf, fun k => hn ⟨_, (constOf_iff hlen d' _).2 ⟨k, rfl⟩⟩⟩
    obtain ⟨n, e, h0, h1, h2⟩ := hco
    cases h with
    | basic k => omega
    | leaf _ k _ =>
      have e := Int.ofNat.inj e
      subst e
      rw [h1] at k
      rcases k with k | k | k <;> exact absurd (Option.some.inj k) (by decide)
    | const k1 k2 k3 k4 => exact key k1 k4 k3
    | array k =>
      obtain ⟨m, e', g0, g1, g2⟩ := k
      have : m = n := by omega
      subst this
      rw [h1] at g1
      exact absurd (Option.some.inj g1) (by decide)
    | struct k =>
      obtain ⟨m, e', g0, g1, g2⟩ := k
      have : m = n := by omega
      subst this
      rw [h1] at g1
      exact absurd (Option.some.inj g1) (by decide)
  · rw [if_neg hc]; exact ⟨h, hc⟩

theorem constant_iff {t : Int} {T : Ty} (d : Den cells t T) : Constant cells t ↔ isConst cells t :=
  ⟨fun ⟨_, h⟩ => ((constOf_iff hlen d _).1 h).1, fun h => ⟨_, (constOf_iff hlen d _).2 ⟨h, rfl⟩⟩⟩

/-- Fitting in a `const` place is fitting in the place without `const`. -/
theorem fitting_once {t a : Int} {T A : Ty} (d : Den cells t T) (hn : ¬isConst cells (unqual cells t)) :
    Fitting cells (unqual cells t) a T.once A ↔ Fitting cells t a T A := by
  have h1 : T.once.bare = T.bare := bare_once T
  have o : ∀ u, Once cells (unqual cells t) u ↔ Once cells t u := by
    intro u
    rw [once_iff hlen (once_den hlen d), once_iff hlen d]
    show (if isConst cells (unqual cells t) then unqualified cells (unqual cells t) else unqual cells t) = u ↔ _
    rw [if_neg hn]
  unfold Fitting
  simp only [h1, integral_once, pointer_once, o, elem_once hlen d]

theorem plain_shape (D : Doubles F) (hc : Clean cells) {t : Int} {e e' : Ex F} {T E : Ty} (d : Den cells t T) (de : Den cells e.type E) (hl : Literal cells e)
    (hn : ¬isConst cells t) (h : checkPlain D cells t e = .ok e') :
    (e' = e ∧ ¬(T.bare = .float ∧ E.Integral)) ∨ (T.bare = .float ∧ E.Integral ∧ e'.type = TYPE_FLOATING) := by
  obtain ⟨b1, e1, i1⟩ := says_floating hlen d
  obtain ⟨b2, e2, i2⟩ := says_integer hlen hc (once_den hlen de)
  rw [integral_once] at i2
  unfold checkPlain at h
  simp only [bind_eq, pure_eq, e1, e2, ask] at h
  simp only [Out.bind] at h
  by_cases k : (b1 && b2) = true
  · rw [if_pos k] at h
    rw [Bool.and_eq_true, i1, i2] at k
    have : t = TYPE_FLOATING := by
      refine (builtin_den d).2.2.2.1.2 ?_
      have : T.bare = T := by
        cases T <;> try rfl
        exact absurd ((isConst_iff hlen d).2 ⟨_, rfl⟩) hn
      rw [← this]; exact k.1
    subst this
    obtain ⟨r, k1, k2, -⟩ := cast_float D hl
    rw [k1] at h
    cases h
    exact Or.inr ⟨k.1, k.2, k2⟩
  · rw [if_neg k] at h
    rw [Bool.and_eq_true, i1, i2] at k
    refine Or.inl ⟨?_, k⟩
    obtain ⟨b3, e3, -⟩ := says_enum hlen d
    obtain ⟨b4, e4, -⟩ := says_integer hlen hc d
    obtain ⟨b5, e5, -⟩ := says_enum hlen (once_den hlen de)
    obtain ⟨b6, e6, i6⟩ := says_pointer hlen d
    obtain ⟨b7, e7, i7⟩ := says_pointer hlen (once_den hlen de)
    simp only [e3, e4, e5, e6, e7] at h
    split at h
    · cases h; rfl
    split at h
    · cases h; rfl
    split at h
    · cases h; rfl
    split at h
    · cases h; rfl
    split at h
    · rename_i hp
      rw [Bool.and_eq_true, i6, i7] at hp
      obtain ⟨p, P, q1, -, -⟩ := element_den hlen d hp.1
      obtain ⟨p', P', q1', -, -⟩ := element_den hlen (once_den hlen de) hp.2
      rw [q1, q1'] at h
      simp only at h
      split at h
      · cases h
      split at h
      · cases h; rfl
      split at h
      · cases h; rfl
      · cases h
    split at h
    · cases h; rfl
    · cases h

/-- Reading an array without `const`. -/
theorem array_read {t u : Int} (h : ArrayOf cells t u) : ¬isConst cells t ∧ isArray cells t = some true ∧ arrayElement cells t = some u ∧ isStructure cells t = some false := by
  obtain ⟨n, rfl, h0, h1, h2⟩ := h
  have g := get_some h1 hlen
  have nc : ¬isConst cells n := by
    rintro ⟨-, k⟩
    rw [g.2.1, g.2.2] at k
    exact absurd k (by decide)
  have ha : hasClass cells n TYPE_ARRAY := ⟨by omega, by rw [g.2.1, g.2.2]⟩
  have hs : ¬hasClass cells n TYPE_STRUCTURE := by
    rintro ⟨-, k⟩
    rw [g.2.1, g.2.2] at k
    exact absurd k (by decide)
  refine ⟨nc, ?_, ?_, ?_⟩
  · unfold isArray; rw [behind_plain nc, Option.map_some, decide_eq_true ha]
  · unfold arrayElement; rw [behind_plain nc, Option.map_some, if_pos ha, get_some_succ h2 hlen]
  · unfold isStructure; rw [behind_plain nc, Option.map_some, decide_eq_false hs]

/-- Reading a structure without `const`. -/
theorem struct_read {t : Int} {ms : List (Int × Int)} (h : Fields cells t ms) : ¬isConst cells t ∧ isStructure cells t = some true ∧
    memberAmount cells t = some ms.length ∧ (∀ (i : Nat) m, ms[i]? = some m → memberType cells t i = some m.1 ∧ memberName cells t i = some (toSize m.2)) := by
  obtain ⟨n, rfl, h0, h1, h2, h3⟩ := h
  have g := get_some h1 hlen
  have g2 := get_some h2 hlen
  have nc : ¬isConst cells n := by
    rintro ⟨-, k⟩
    rw [g.2.1, g.2.2] at k
    exact absurd k (by decide)
  have hs : hasClass cells n TYPE_STRUCTURE := ⟨by omega, by rw [g.2.1, g.2.2]⟩
  have hms : 2 * ms.length < 18446744073709551616 := by
    cases hm : ms with
    | nil => simp
    | cons m0 ms0 =>
      have hl := h3 (ms.length - 1) (ms[ms.length - 1]'(by rw [hm]; simp)) (by rw [List.getElem?_eq_getElem])
      have := (List.getElem?_eq_some_iff.1 hl.1).1
      rw [hm] at this
      simp only [List.length_cons] at this ⊢
      omega
  refine ⟨nc, ?_, ?_, fun i m hm => ?_⟩
  · unfold isStructure; rw [behind_plain nc, Option.map_some, decide_eq_true hs]
  · unfold memberAmount
    rw [behind_plain nc, Option.map_some, if_pos hs, g.2.1, usz_of_lt (by omega), g2.2.2]
    have : toSize (2 * (ms.length : Int)) = 2 * ms.length := by
      have := toSize_natCast (n := 2 * ms.length) hms
      rw [← this]; congr 1
    rw [this]
    congr 1
    omega
  · obtain ⟨k1, k2⟩ := h3 i m hm
    have g3 := get_some k1 hlen
    have g4 := get_some k2 hlen
    constructor
    · unfold memberType
      rw [behind_plain nc, Option.map_some, if_pos hs, g.2.1, usz_of_lt (by omega), g3.2.2]
    · unfold memberName
      rw [behind_plain nc, Option.map_some, if_pos hs, g.2.1, usz_of_lt (by omega), g4.2.2]

/-- One record has one class. -/
theorem array_not_struct {t u : Int} {ms : List (Int × Int)} (h : ArrayOf cells t u) (k : Fields cells t ms) : False := by
  have h1 := (array_read hlen h).2.2.2
  have h2 := (struct_read hlen k).2.1
  rw [h1] at h2
  cases h2

theorem array_unique {t u v : Int} (h : ArrayOf cells t u) (k : ArrayOf cells t v) : u = v := by
  have h1 := (array_read hlen h).2.2.1
  have h2 := (array_read hlen k).2.2.1
  rw [h1] at h2
  exact Option.some.inj h2

theorem fields_length {t : Int} {ms ns : List (Int × Int)} (h : Fields cells t ms) (k : Fields cells t ns) : ms.length = ns.length := by
  have h1 := (struct_read hlen h).2.2.1
  have h2 := (struct_read hlen k).2.2.1
  rw [h1] at h2
  exact Option.some.inj h2

theorem fields_unique {t : Int} {ms ns : List (Int × Int)} (h : Fields cells t ms) (k : Fields cells t ns) : ms = ns := by
  have hl := fields_length hlen h k
  obtain ⟨n, rfl, -, -, -, h3⟩ := h
  obtain ⟨n', e, -, -, -, k3⟩ := k
  have e := Int.ofNat.inj e
  subst e
  refine List.ext_getElem? fun i => ?_
  by_cases hi : i < ms.length
  · have h1 := h3 i _ (List.getElem?_eq_getElem hi)
    have h2 := k3 i _ (List.getElem?_eq_getElem (hl ▸ hi))
    rw [h1.1, h1.2] at h2
    rw [List.getElem?_eq_getElem hi, List.getElem?_eq_getElem (hl ▸ hi)]
    exact congrArg some (Prod.ext (Option.some.inj h2.1) (Option.some.inj h2.2))
  · rw [List.getElem?_eq_none (by omega), List.getElem?_eq_none (by omega)]

end

end RuC.Checks
