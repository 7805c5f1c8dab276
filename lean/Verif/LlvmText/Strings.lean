import Verif.LlvmText.Words

/-! Helper lemmas: the strings of the text. -/

namespace RuC.LlvmText
open RuC RuC.Locator RuC.Listing

theorem skip_self (p : String) (r : List Nat) : skip p (codes p ++ r) = some r := by
  unfold skip
  rw [show chars p = codes p from rfl, if_pos, List.drop_left]
  rw [List.isPrefixOf_iff_prefix]
  exact List.prefix_append _ _

theorem takeWhile_all {p : Nat → Bool} {a r : List Nat} (ha : ∀ c ∈ a, p c = true) (hr : ∀ c, r.head? = some c → p c = false) :
    (a ++ r).takeWhile p = a ∧ (a ++ r).dropWhile p = r := by
  induction a with
  | nil =>
    cases r with
    | nil => exact ⟨rfl, rfl⟩
    | cons c r =>
      have := hr c rfl
      simp [List.takeWhile, List.dropWhile, this]
  | cons c a ih =>
    have hc := ha c (by simp)
    have := ih fun x hx => ha x (by simp [hx])
    simp only [List.cons_append, List.takeWhile, List.dropWhile, hc, this, and_self]

theorem number_self (n : Nat) {r : List Nat} (hr : ∀ c, r.head? = some c → ¬ (48 ≤ c ∧ c ≤ 57)) : number (showNat n ++ r) = some (n, r) := by
  have h := takeWhile_all (p := fun c => decide (48 ≤ c ∧ c ≤ 57)) (a := showNat n) (r := r)
    (fun c hc => by simpa using (showNat_digits n).2 c hc) (fun c hc => by simpa using hr c hc)
  unfold number
  rw [h.1, h.2, numeral_showNat]
  rfl

theorem charText_safe {c : Nat} (h : c ≠ 34) : ∀ x ∈ charText c, x ≠ 34 := by
  intro x hx
  unfold charText at hx
  split at hx
  · rw [show codes "\\0A" = [92, 48, 65] by decide] at hx
    simp only [List.mem_cons, List.not_mem_nil, or_false] at hx
    omega
  · simp only [List.mem_singleton] at hx
    omega

theorem unescape_char {c : Nat} (h : c ≠ 92) (r : List Nat) : unescape (charText c ++ r) = c :: unescape r := by
  unfold charText
  by_cases hc : c = 10
  · rw [if_pos hc, show codes "\\0A" = [92, 48, 65] by decide, hc]
    simp only [List.cons_append, List.nil_append]
    rw [unescape]
    · rfl
    · decide
  · rw [if_neg hc]
    simp only [List.cons_append, List.nil_append]
    rw [unescape]
    · intro q e
      exact absurd e h
    · intro a b q e
      exact absurd e h

theorem unescape_text {s : List Nat} (h : ∀ c ∈ s, c ≠ 92) (r : List Nat) : unescape (s.flatMap charText ++ r) = s ++ unescape r := by
  induction s with
  | nil => rfl
  | cons c s ih =>
    rw [List.flatMap_cons, List.append_assoc, unescape_char (h c (by simp)), ih fun x hx => h x (by simp [hx])]
    rfl

theorem readString_text {i : Nat} {s : List Nat} (h : ∀ c ∈ s, c ≠ 34 ∧ c ≠ 92) (r : List Nat) :
    readString (stringText i s ++ r) = some ((i, s.length + 1, s ++ [0]), r) := by
  have e1 : codes "\\00\", align 1\n" = [92, 48, 48] ++ codes "\", align 1\n" := by decide
  have hq := takeWhile_all (p := fun c => decide (c ≠ 34)) (a := s.flatMap charText ++ [92, 48, 48]) (r := codes "\", align 1\n" ++ r)
    (by
      intro c hc
      rcases List.mem_append.1 hc with hc | hc
      · obtain ⟨x, hx, hm⟩ := List.mem_flatMap.1 hc
        simpa using charText_safe (h x hx).1 c hm
      · simp only [List.mem_cons, List.not_mem_nil, or_false] at hc
        simp only [decide_eq_true_eq]
        omega)
    (by
      intro c hc
      rw [show codes "\", align 1\n" = 34 :: codes ", align 1\n" by decide] at hc
      simp only [List.cons_append, List.head?_cons, Option.some.injEq] at hc
      simp [← hc])
  unfold readString stringText
  simp only [List.append_assoc]
  simp only [Option.bind_eq_bind]
  rw [skip_self, Option.bind_some, number_self, Option.bind_some]
  · rw [skip_self, Option.bind_some, number_self, Option.bind_some]
    · simp only
      rw [skip_self, Option.bind_some, e1]
      simp only [List.append_assoc] at hq ⊢
      rw [hq.1, hq.2, skip_self, unescape_text fun c hc => (h c hc).2]
      rfl
    · intro c hc
      rw [show codes " x i8] c\"" = 32 :: codes "x i8] c\"" by decide] at hc
      simp only [List.cons_append, List.head?_cons, Option.some.injEq] at hc
      omega
  · intro c hc
    rw [show codes " = private unnamed_addr constant [" = 32 :: codes "= private unnamed_addr constant [" by decide] at hc
    simp only [List.cons_append, List.head?_cons, Option.some.injEq] at hc
    omega

theorem stringText_head (i : Nat) (s r : List Nat) : stringText i s ++ r ≠ chars " \n" := by
  intro e
  have h : (stringText i s ++ r).head? = some 64 := by
    unfold stringText
    rw [c_str]
    rfl
  rw [e] at h
  exact absurd h (by decide)

theorem readStrings_text : ∀ (l : List (List Nat)) (i n : Nat), (∀ s ∈ l, ∀ c ∈ s, c ≠ 34 ∧ c ≠ 92) → l.length < n →
    readStrings n (stringsFrom i l) = some ((l.zipIdx i).map fun x => (x.2, x.1.length + 1, x.1 ++ [0]))
  | [], i, n + 1, _, _ => by
    unfold readStrings stringsFrom
    rw [if_pos (show codes " \n" = chars " \n" from rfl)]
    rfl
  | s :: l, i, n + 1, h, hn => by
    have ih := readStrings_text l (i + 1) n (fun x hx => h x (by simp [hx])) (by simp only [List.length_cons] at hn; omega)
    unfold readStrings
    rw [stringsFrom, if_neg (stringText_head _ _ _), readString_text (h s (by simp)), Option.bind_eq_bind, Option.bind_some]
    simp only
    rw [ih]
    rfl

end RuC.LlvmText
