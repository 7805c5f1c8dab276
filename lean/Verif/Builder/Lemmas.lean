import Verif.Builder.Spec

/-! Lemmas on types as trees and on the values of operators. -/

namespace RuC.Builder

open RuC RuC.Types RuC.Expr RuC.Builder.Spec

theorem get_some {cells : List Int} {n : Nat} {x : Int} (h : cells[n]? = some x) (hlen : cells.length < 4611686018427387904) :
    n < cells.length ∧ toSize (n : Int) = n ∧ get cells n = x := by
  have hn : n < cells.length := (List.getElem?_eq_some_iff.1 h).1
  refine ⟨hn, toSize_natCast (by omega), ?_⟩
  unfold RuC.Types.get
  rw [List.getD_eq_getElem?_getD, h]; rfl

theorem get_some_succ {cells : List Int} {n : Nat} {x : Int} (h : cells[n + 1]? = some x) (hlen : cells.length < 4611686018427387904) :
    get cells (usz (toSize (n : Int) + 1)) = x := by
  have h1 := get_some h hlen
  have hn : n < cells.length := by omega
  rw [toSize_natCast (by omega), usz_of_lt (by omega), h1.2.2]

/-- Every number with a tree is no `const` exactly when the tree is not. -/
theorem isConst_iff {cells : List Int} (hlen : cells.length < 4611686018427387904) {t : Int} {T : Ty} (h : Den cells t T) :
    isConst cells t ↔ ∃ U, T = .const U := by
  unfold isConst
  cases h
  case const n u U h0 h1 h2 h3 h4 =>
    have := get_some h1 hlen
    rw [this.2.1, this.2.2]
    exact ⟨fun _ => ⟨U, rfl⟩, fun _ => ⟨by omega, rfl⟩⟩
  case struct n h0 h1 h2 =>
    have := get_some h2 hlen
    rw [this.2.1, this.2.2]
    exact ⟨fun h => absurd h.2 (by decide), fun ⟨_, h⟩ => nomatch h⟩
  case function n h0 h2 | enum n h0 h2 | array n _ _ h0 h2 _ _ | pointer n _ _ h0 h2 _ _ =>
    have := get_some h2 hlen
    rw [this.2.1, this.2.2]
    exact ⟨fun h => absurd h.2 (by decide), fun ⟨_, h⟩ => nomatch h⟩
  all_goals exact ⟨fun h => by omega, fun ⟨_, h⟩ => nomatch h⟩

theorem strip_den {cells : List Int} (hlen : cells.length < 4611686018427387904) : ∀ (fuel : Nat) {t : Int} {T : Ty}, Den cells t T →
    t ≤ fuel → ∃ t', strip cells (fuel + 1) t = some t' ∧ Den cells t' T.bare ∧ ¬isConst cells t' := by
  intro fuel
  induction fuel with
  | zero =>
    intro t T h hf
    have hc : ¬isConst cells t := fun hc => by have := hc.1; omega
    refine ⟨t, ?_, ?_, hc⟩
    · rw [strip.eq_def]; simp only; rw [if_neg hc]
    · have : T.bare = T := by
        cases T <;> try rfl
        exact absurd ((isConst_iff hlen h).2 ⟨_, rfl⟩) hc
      rw [this]; exact h
  | succ fuel ih =>
    intro t T h hf
    by_cases hc : isConst cells t
    · obtain ⟨U, rfl⟩ := (isConst_iff hlen h).1 hc
      cases h
      case const n u h0 h1 h2 h3 h4 =>
      obtain ⟨t', e, d, k⟩ := ih h4 (by omega)
      refine ⟨t', ?_, d, k⟩
      rw [strip.eq_def]; simp only; rw [if_pos hc]
      unfold unqualified
      rw [if_pos hc, get_some_succ h2 hlen, e]
    · refine ⟨t, ?_, ?_, hc⟩
      · rw [strip.eq_def]; simp only; rw [if_neg hc]
      · have : T.bare = T := by
          cases T <;> try rfl
          exact absurd ((isConst_iff hlen h).2 ⟨_, rfl⟩) hc
        rw [this]; exact h

theorem behind_den {cells : List Int} (hlen : cells.length < 4611686018427387904) {t : Int} {T : Ty} (h : Den cells t T) :
    ∃ t', behind cells t = some t' ∧ Den cells t' T.bare ∧ ¬isConst cells t' := by
  unfold behind
  have : t ≤ (cells.length : Int) := by
    cases h
    case struct n h0 h1 h2 => omega
    case function n h0 h2 | enum n h0 h2 | array n _ _ h0 h2 _ _ | pointer n _ _ h0 h2 _ _ | const n _ _ h0 h2 _ _ _ =>
      have := (List.getElem?_eq_some_iff.1 h2).1
      omega
    all_goals omega
  exact strip_den hlen cells.length h this

/-- The class a tree has in the table. -/
def classIs (T : Ty) (c : Int) : Prop :=
  match T with
  | .struct _ => c = TYPE_STRUCTURE
  | .function _ => c = TYPE_FUNCTION
  | .enum _ => c = TYPE_ENUM
  | .array _ => c = TYPE_ARRAY
  | .pointer _ => c = TYPE_POINTER
  | .const _ => c = TYPE_CONST
  | _ => False

/-- The class tested of a number, from its tree. -/
theorem hasClass_den {cells : List Int} (hlen : cells.length < 4611686018427387904) {t : Int} {T : Ty} (h : Den cells t T) (c : Int) :
    hasClass cells t c ↔ classIs T c := by
  unfold hasClass
  cases h
  case struct n h0 h1 h2 =>
    have := get_some h2 hlen
    rw [this.2.1, this.2.2]
    exact ⟨fun h => h.2.symm, fun h => ⟨by omega, h.symm⟩⟩
  case function n h0 h2 | enum n h0 h2 | array n _ _ h0 h2 _ _ | pointer n _ _ h0 h2 _ _ | const n _ _ h0 h2 _ _ _ =>
    have := get_some h2 hlen
    rw [this.2.1, this.2.2]
    exact ⟨fun h => h.2.symm, fun h => ⟨by omega, h.symm⟩⟩
  all_goals exact ⟨fun h => by omega, fun h => h.elim⟩

theorem enumField_den {cells : List Int} (hlen : cells.length < 4611686018427387904) (hc : Clean cells) {t : Int} {T : Ty} (h : Den cells t T) :
    isEnumField cells t = true ↔ ∃ r, T = .field r := by
  unfold isEnumField
  rw [decide_eq_true_iff]
  have key : ∀ k : Nat, 1 ≤ k → k ≤ 9 → get cells (toSize (k : Int)) ≠ TYPE_ENUM := by
    intro k h1 h9 he
    rw [toSize_natCast (by omega)] at he
    unfold RuC.Types.get at he
    rw [List.getD_eq_getElem?_getD] at he
    cases hk : cells[k]? with
    | none => rw [hk] at he; revert he; show (ITEM_MAX : Int) ≠ TYPE_ENUM; unfold ITEM_MAX TYPE_ENUM; decide
    | some x => rw [hk] at he; exact hc k h1 h9 (by rw [hk]; exact congrArg some he)
  cases h
  case field n h0 h2 =>
    have := get_some h2 hlen
    rw [Int.neg_neg, this.2.1, this.2.2]
    exact ⟨fun _ => ⟨_, rfl⟩, fun _ => ⟨by omega, rfl⟩⟩
  case vararg => exact ⟨fun h => absurd h.2 (key 9 (by omega) (by omega)), fun ⟨_, h⟩ => nomatch h⟩
  case null => exact ⟨fun h => absurd h.2 (key 8 (by omega) (by omega)), fun ⟨_, h⟩ => nomatch h⟩
  case file => exact ⟨fun h => absurd h.2 (key 7 (by omega) (by omega)), fun ⟨_, h⟩ => nomatch h⟩
  case void => exact ⟨fun h => absurd h.2 (key 6 (by omega) (by omega)), fun ⟨_, h⟩ => nomatch h⟩
  case bool => exact ⟨fun h => absurd h.2 (key 4 (by omega) (by omega)), fun ⟨_, h⟩ => nomatch h⟩
  case float => exact ⟨fun h => absurd h.2 (key 3 (by omega) (by omega)), fun ⟨_, h⟩ => nomatch h⟩
  case char => exact ⟨fun h => absurd h.2 (key 2 (by omega) (by omega)), fun ⟨_, h⟩ => nomatch h⟩
  case int => exact ⟨fun h => absurd h.2 (key 1 (by omega) (by omega)), fun ⟨_, h⟩ => nomatch h⟩
  all_goals exact ⟨fun h => by omega, fun ⟨_, h⟩ => nomatch h⟩

/-- Built-in types are recognised by their numbers. -/
theorem builtin_den {cells : List Int} {t : Int} {T : Ty} (h : Den cells t T) :
    (t = TYPE_CHARACTER ↔ T = .char) ∧ (t = TYPE_INTEGER ↔ T = .int) ∧ (t = TYPE_BOOLEAN ↔ T = .bool) ∧
    (t = TYPE_FLOATING ↔ T = .float) ∧ (t = TYPE_NULL_POINTER ↔ T = .null) := by
  unfold TYPE_CHARACTER TYPE_INTEGER TYPE_BOOLEAN TYPE_FLOATING TYPE_NULL_POINTER
  cases h <;> simp <;> omega

/-- What the query answers, in the form used below. -/
def Says (q : Option Bool) (p : Prop) : Prop := ∃ b, q = some b ∧ (b = true ↔ p)

section
variable {cells : List Int} (hlen : cells.length < 4611686018427387904) (hc : Clean cells) {t : Int} {T : Ty} (h : Den cells t T)
include hlen h

theorem says_floating : Says (isFloating cells t) (T.bare = .float) := by
  obtain ⟨t', e, d, k⟩ := behind_den hlen h
  refine ⟨_, by unfold isFloating; rw [e]; rfl, ?_⟩
  rw [decide_eq_true_iff]
  exact (builtin_den d).2.2.2.1

theorem says_boolean : Says (isBoolean cells t) (T.bare = .bool) := by
  obtain ⟨t', e, d, k⟩ := behind_den hlen h
  refine ⟨_, by unfold isBoolean; rw [e]; rfl, ?_⟩
  rw [decide_eq_true_iff]
  exact (builtin_den d).2.2.1

theorem says_pointer : Says (isPointer cells t) T.Pointer := by
  obtain ⟨t', e, d, k⟩ := behind_den hlen h
  refine ⟨_, by unfold isPointer; rw [e]; rfl, ?_⟩
  rw [decide_eq_true_iff, hasClass_den hlen d]
  unfold Ty.Pointer
  cases hb : T.bare <;> simp [classIs] <;> decide

theorem says_array : Says (isArray cells t) (∃ E, T.bare = .array E) := by
  obtain ⟨t', e, d, k⟩ := behind_den hlen h
  refine ⟨_, by unfold isArray; rw [e]; rfl, ?_⟩
  rw [decide_eq_true_iff, hasClass_den hlen d]
  cases hb : T.bare <;> simp [classIs] <;> decide

theorem says_enum : Says (isEnum cells t) (∃ r, T.bare = .enum r) := by
  obtain ⟨t', e, d, k⟩ := behind_den hlen h
  refine ⟨_, by unfold isEnum; rw [e]; rfl, ?_⟩
  rw [decide_eq_true_iff, hasClass_den hlen d]
  cases hb : T.bare <;> simp [classIs] <;> decide

include hc

theorem says_integer : Says (isInteger cells t) T.Integral := by
  obtain ⟨t', e, d, k⟩ := behind_den hlen h
  refine ⟨_, by unfold isInteger; rw [e]; rfl, ?_⟩
  rw [Bool.or_eq_true, decide_eq_true_iff, hasClass_den hlen d, enumField_den hlen hc d, (builtin_den d).1, (builtin_den d).2.1]
  unfold Ty.Integral
  cases hb : T.bare <;> simp [classIs] <;> decide

theorem says_arithmetic : Says (isArithmetic cells t) T.Arithmetic := by
  obtain ⟨b, e, i⟩ := says_integer hlen hc h
  obtain ⟨b', e', i'⟩ := says_floating hlen h
  refine ⟨_, by unfold isArithmetic; rw [e, e']; rfl, ?_⟩
  rw [Bool.or_eq_true, i, i']; rfl

theorem says_scalar : Says (isScalar cells t) T.Scalar := by
  obtain ⟨b, e, i⟩ := says_integer hlen hc h
  obtain ⟨b', e', i'⟩ := says_boolean hlen h
  obtain ⟨b2, e2, i2⟩ := says_pointer hlen h
  refine ⟨_, by unfold isScalar; rw [e, e', e2]; rfl, ?_⟩
  rw [Bool.or_eq_true, Bool.or_eq_true, Bool.or_eq_true, i, i', i2, isNull, decide_eq_true_iff, (builtin_den h).2.2.2.2]
  unfold Ty.Scalar
  constructor
  · rintro (((h | h) | h) | h) <;> simp [h]
  · rintro (h | h | h | h) <;> simp [h]

end

end RuC.Builder
