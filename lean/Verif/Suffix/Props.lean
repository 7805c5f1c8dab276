import Verif.Suffix.Model
import Verif.Suffix.Spec

/-!
# Suffixes of integers: the theorems
-/

namespace RuC.Suffix.Props
open RuC.Suffix RuC.Suffix.Spec

theorem long_le {x : List Nat} (h : Long false x) : 1 ≤ x.length ∧ x.length ≤ 2 := by cases h <;> simp

theorem suffix_le {s : List Nat} (h : Suffix false s) : 1 ≤ s.length ∧ s.length ≤ 3 := by
  cases h with
  | u => simp
  | l h => have := long_le h; omega
  | ul _ h => have := long_le h; simp; omega
  | lu h _ => have := long_le h; simp; omega

theorem suffix1 (a : Nat) : Suffix false [a] ↔ IsU a ∨ IsL a := by
  constructor
  · intro h
    generalize e : [a] = s at h
    cases h with
    | u h => cases e; exact .inl h
    | l h => cases h <;> cases e; exact .inr ‹_›
    | ul _ h => cases h <;> cases e
    | lu h _ => cases h <;> cases e
  · rintro (h | h)
    · exact .u h
    · exact .l (.one h)

theorem suffix2 (a b : Nat) : Suffix false [a, b] ↔ (IsU a ∧ IsL b) ∨ (IsL a ∧ IsL b) ∨ (IsL a ∧ IsU b) := by
  constructor
  · intro h
    generalize e : [a, b] = s at h
    cases h with
    | u h => cases e
    | l h => cases h <;> cases e; exact .inr (.inl ⟨‹_›, ‹_›⟩)
    | ul _ h => cases h <;> cases e; exact .inl ⟨‹_›, ‹_›⟩
    | lu h _ => cases h <;> cases e; exact .inr (.inr ⟨‹_›, ‹_›⟩)
  · rintro (⟨h, g⟩ | ⟨h, g⟩ | ⟨h, g⟩)
    · exact .ul h (.one g)
    · exact .l (.two h g (by simp))
    · exact .lu (.one h) g

theorem suffix3 (a b c : Nat) : Suffix false [a, b, c] ↔ (IsU a ∧ IsL b ∧ IsL c) ∨ (IsL a ∧ IsL b ∧ IsU c) := by
  constructor
  · intro h
    generalize e : [a, b, c] = s at h
    cases h with
    | u h => cases e
    | l h => cases h <;> cases e
    | ul _ h => cases h <;> cases e; exact .inl ⟨‹_›, ‹_›, ‹_›⟩
    | lu h _ => cases h <;> cases e; exact .inr ⟨‹_›, ‹_›, ‹_›⟩
  · rintro (⟨h, g, k⟩ | ⟨h, g, k⟩)
    · exact .ul h (.two g k (by simp))
    · exact .lu (.two h g (by simp)) k

theorem five (a : Nat) : a = 85 ∨ a = 117 ∨ a = 76 ∨ a = 108 ∨ (a ≠ 85 ∧ a ≠ 117 ∧ a ≠ 76 ∧ a ≠ 108) := by omega

theorem same_any {s : List Nat} (h : Suffix true s) : Suffix false s := by
  have hl : ∀ {x}, Long true x → Long false x := by
    intro x h; cases h with
    | one h => exact .one h
    | two h g _ => exact .two h g (by simp)
  cases h with
  | u h => exact .u h
  | l h => exact .l (hl h)
  | ul h g => exact .ul h (hl g)
  | lu h g => exact .lu (hl h) g

/-- C102: for every spelling, nothing behind its closing zero is read, and it is accepted exactly when it is a suffix of the grammar, with `ll` in any case. -/
theorem C102_suffixes (s : List Nat) : ∃ r, parseSuffix s = some r ∧ (r = true ↔ Suffix false s) := by
  match s with
  | [] => exact ⟨false, by decide, by simp; intro h; have := suffix_le h; simp at this⟩
  | [a] =>
    rw [suffix1]
    unfold IsU IsL
    rcases five a with rfl | rfl | rfl | rfl | ⟨h1, h2, h3, h4⟩
    all_goals simp [parseSuffix, at?, orElse, andThen, either, *]
  | [a, b] =>
    rw [suffix2]
    unfold IsU IsL
    rcases five a with rfl | rfl | rfl | rfl | ⟨h1, h2, h3, h4⟩
    all_goals rcases five b with rfl | rfl | rfl | rfl | ⟨g1, g2, g3, g4⟩
    all_goals simp [parseSuffix, at?, orElse, andThen, either, *]
  | [a, b, c] =>
    rw [suffix3]
    unfold IsU IsL
    rcases five a with rfl | rfl | rfl | rfl | ⟨h1, h2, h3, h4⟩
    all_goals rcases five b with rfl | rfl | rfl | rfl | ⟨g1, g2, g3, g4⟩
    all_goals rcases five c with rfl | rfl | rfl | rfl | ⟨k1, k2, k3, k4⟩
    all_goals simp [parseSuffix, at?, orElse, andThen, either, *]
  | a :: b :: c :: d :: t =>
    refine ⟨false, by simp [parseSuffix], ?_⟩
    simp
    intro h
    have := suffix_le h
    simp at this

/-- C102: every suffix of C is accepted. -/
theorem C102_c_accepted (s : List Nat) (h : Suffix true s) : parseSuffix s = some true := by
  obtain ⟨r, h1, h2⟩ := C102_suffixes s
  rw [h1, h2.mpr (same_any h)]

/-- The bytes of a spelling without letters outside ASCII. -/
def bytes (s : String) : List Nat := s.toList.map Char.toNat

example : Suffix true (bytes "uLL") ∧ parseSuffix (bytes "uLL") = some true ∧ parseSuffix (bytes "lul") = some false := by
  refine ⟨.ul (.inl (by decide)) (.two (.inr (by decide)) (.inr (by decide)) (by decide)), by decide +kernel, by decide +kernel⟩

/-- What is not so: `uLl` is accepted, which is no suffix of C. -/
theorem C102_mixed_case : parseSuffix (bytes "uLl") = some true ∧ ¬ Suffix true (bytes "uLl") := by
  refine ⟨by decide +kernel, ?_⟩
  intro h
  generalize e : bytes "uLl" = s at h
  have e' : [117, 76, 108] = s := by rw [← e]; decide +kernel
  clear e
  cases h with
  | u h => cases e'
  | l h => cases h <;> cases e'
  | ul _ h => cases h <;> cases e'; rename_i hs; exact absurd (hs rfl) (by decide)
  | lu h g => cases h <;> cases e'; exact absurd g (by unfold IsU; decide)

end RuC.Suffix.Props
