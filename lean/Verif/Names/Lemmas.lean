import Verif.Names.Model
import Verif.Names.Spec
import Verif.Utf8.Lemmas

/-! Helper lemmas on the transliteration of names. -/

namespace RuC.Names
open RuC RuC.Utf8

theorem select_none {t : List (Nat × List Nat)} {d : List Nat} {x : Nat} (h : x ∉ t.map Prod.fst) :
    select t d x = d := by
  induction t with
  | nil => rfl
  | cons p t ih =>
    simp only [List.map_cons, List.mem_cons, not_or] at h
    unfold select
    rw [if_neg h.1]
    exact ih h.2

theorem lookup_none {t : List (Nat × List Nat)} {x : Nat} (h : x ∉ t.map Prod.fst) : t.lookup x = none := by
  induction t with
  | nil => rfl
  | cons p t ih =>
    simp only [List.map_cons, List.mem_cons, not_or] at h
    have hb : (x == p.1) = false := by simpa using h.1
    obtain ⟨a, b⟩ := p
    simp only [List.lookup]
    rw [show (x == a) = false from hb]
    exact ih h.2

instance (c : Nat) : Decidable (Russian c) := by unfold Russian; infer_instance
instance (c : Nat) : Decidable (Plain c) := by unfold Plain Latin Digit; infer_instance
instance (c : Nat) : Decidable (Soft c) := by unfold Soft; infer_instance
instance (c : Nat) : Decidable (PlainFirst c) := by unfold PlainFirst Latin; infer_instance
instance (c : Nat) : Decidable (Distinct c) := by unfold Distinct; infer_instance
instance (c : Nat) : Decidable (Digit c) := by unfold Digit; infer_instance

theorem table_russian : ∀ x ∈ translitTable.map Prod.fst, Russian x := by decide +kernel
theorem alphabet_russian : ∀ x ∈ ((codes alphabet).zip (latin.map codes)).map Prod.fst, Russian x := by
  decide +kernel
theorem capitals_russian : ∀ x ∈ ((codes capitals).zip (latin.map codes)).map Prod.fst, Russian x := by
  decide +kernel

/-- All Russian letters. -/
def letters : List Nat := 0x401 :: 0x451 :: (List.range 64).map (0x410 + ·)

theorem mem_letters {c : Nat} (h : Russian c) : c ∈ letters := by
  unfold Russian at h
  unfold letters
  simp only [List.mem_cons, List.mem_map, List.mem_range]
  rcases h with h | h | h
  · exact .inr (.inr ⟨c - 0x410, by omega, by omega⟩)
  · exact .inl h
  · exact .inr (.inl h)

theorem letters_spelled : ∀ c ∈ letters, charTranslit c = spelled c := by decide +kernel
theorem letters_plain : ∀ c ∈ letters, (∀ x ∈ spelled c, Plain x ∧ x < 128) ∧ (spelled c).length ≤ 4 := by
  decide +kernel
theorem letters_first : ∀ c ∈ letters, ¬ Soft c → ∃ x, (spelled c).head? = some x ∧ PlainFirst x := by
  have h : ∀ c ∈ letters, ¬ Soft c → (match (spelled c).head? with | some x => decide (PlainFirst x) | none => false) = true := by
    decide +kernel
  intro c hc hs
  have := h c hc hs
  cases e : (spelled c).head? with
  | none => rw [e] at this; exact absurd this (by decide)
  | some x => rw [e] at this; exact ⟨x, rfl, by simpa using this⟩

theorem not_russian {c : Nat} (h : ¬ Russian c) : spelled c = [c] ∧ charTranslit c = toStr c := by
  constructor
  · unfold spelled russian
    rw [lookup_none (fun m => h (alphabet_russian c m)), lookup_none (fun m => h (capitals_russian c m))]
    rfl
  · exact select_none fun m => h (table_russian c m)

theorem encode_ascii {l : List Nat} (h : ∀ x ∈ l, x < 128) : l.flatMap encode = l := by
  induction l with
  | nil => rfl
  | cons a l ih =>
    have ha := h a (by simp)
    rw [List.flatMap_cons, ih (fun x hx => h x (by simp [hx]))]
    unfold encode
    rw [if_pos ha]
    rfl

theorem charTranslit_spec {c : Nat} (h : Good c) : charTranslit c = (spelled c).flatMap encode := by
  by_cases hr : Russian c
  · have hm := mem_letters hr
    rw [encode_ascii fun x hx => ((letters_plain c hm).1 x hx).2]
    exact letters_spelled c hm
  · rw [(not_russian hr).1, (not_russian hr).2, toStr_good' h]
    simp

theorem loop_spec (ks : List Nat) (hk : ∀ c ∈ ks, c ≠ 0 ∧ Good c) :
    ∀ n, (ks.flatMap encode).length < n →
      translitLoop n (ks.flatMap encode ++ [0]) = some ((ks.flatMap spelled).flatMap encode) := by
  induction ks with
  | nil =>
    intro n hn
    cases n with
    | zero => simp at hn
    | succ n => rfl
  | cons c ks ih =>
    intro n hn
    have hc := hk c (by simp)
    have hlt : c < 0x200000 := by have := hc.2; unfold Good at this; omega
    obtain ⟨a, s, e1, e2, e3⟩ := symbolSize_encode' hlt
    have ha : a ≠ 0 := fun h => hc.1 (e3.1 h)
    have hcv := convert_encode' hlt (ks.flatMap encode ++ [0])
    cases n with
    | zero => simp at hn
    | succ n =>
      have hd : (encode c ++ (ks.flatMap encode ++ [0])).drop (symbolSize a) = ks.flatMap encode ++ [0] := by
        rw [e2]; exact List.drop_left
      rw [List.flatMap_cons, List.length_append] at hn
      have hlen : 0 < (encode c).length := by rw [e1]; simp
      have hi := ih (fun x hx => hk x (by simp [hx])) n (by omega)
      rw [List.flatMap_cons, List.append_assoc]
      rw [e1] at hcv hd ⊢
      simp only [List.cons_append] at hcv hd ⊢
      unfold translitLoop
      rw [if_neg ha, hcv]
      simp only
      rw [hd, hi, charTranslit_spec hc.2]
      simp

theorem transliterate_spec {ks : List Nat} (hk : ∀ c ∈ ks, c ≠ 0 ∧ Good c) :
    transliterate (ks.flatMap encode ++ [0]) = some ((ks.flatMap spelled).flatMap encode) :=
  loop_spec ks hk _ (by simp; omega)

theorem char_good {c : Nat} (h : Plain c ∨ Russian c) : c ≠ 0 ∧ Good c := by
  unfold Plain Latin Digit Russian at h
  unfold Good
  omega

theorem first_plain {c : Nat} (h : PlainFirst c) : Plain c := by
  unfold PlainFirst Latin at h; unfold Plain Latin Digit; omega

theorem char_plain {c : Nat} (h : Plain c ∨ Russian c) :
    (∀ x ∈ spelled c, Plain x ∧ x < 128) ∧ (spelled c).length ≤ 4 := by
  by_cases hr : Russian c
  · exact letters_plain c (mem_letters hr)
  · rw [(not_russian hr).1]
    have hp : Plain c := h.resolve_right hr
    refine ⟨?_, by simp⟩
    intro x hx
    rw [List.mem_singleton.1 hx]
    refine ⟨hp, ?_⟩
    unfold Plain Latin Digit at hp
    omega

theorem identifier_chars {ks : List Nat} (h : Identifier ks) : ∀ c ∈ ks, Plain c ∨ Russian c := by
  cases ks with
  | nil => exact absurd h id
  | cons c s =>
    intro x hx
    rcases List.mem_cons.1 hx with rfl | hx
    · exact h.1.imp first_plain id
    · exact h.2 x hx

theorem length_spelled {ks : List Nat} (h : ∀ c ∈ ks, Plain c ∨ Russian c) :
    (ks.flatMap spelled).length ≤ 4 * ks.length := by
  induction ks with
  | nil => simp
  | cons c s ih =>
    have h1 := (char_plain (h c (by simp))).2
    have h2 := ih fun x hx => h x (by simp [hx])
    rw [List.flatMap_cons, List.length_append, List.length_cons]
    omega

theorem plain_spelled {ks : List Nat} (h : ∀ c ∈ ks, Plain c ∨ Russian c) :
    ∀ x ∈ ks.flatMap spelled, Plain x ∧ x < 128 := by
  intro x hx
  obtain ⟨c, hc, hx⟩ := List.mem_flatMap.1 hx
  exact (char_plain (h c hc)).1 x hx

/-! ## Reading back -/

/-- The characters of names that are told apart. -/
def chars : List Nat :=
  codes "абвгдежзиклмнопрстуфхчшыАБВГДЕЖЗИКЛМНОПРСТУФХЧШЫ" ++ 95 :: (List.range 10).map (48 + ·)

/-- The character that is spelled so. -/
def back (s : List Nat) : Nat := (chars.find? fun c => spelled c == s).getD 0

/-- Read the characters back from a spelled name. -/
def readBack : List Nat → List Nat
  | [] => []
  | [x] => [back [x]]
  | x :: y :: s => if y = 104 then back [x, y] :: readBack s else back [x] :: readBack (y :: s)

theorem chars_shape : ∀ c ∈ chars, (∃ x, spelled c = [x] ∧ x ≠ 104 ∧ back [x] = c) ∨
    (∃ x, spelled c = [x, 104] ∧ x ≠ 104 ∧ back [x, 104] = c) := by
  have h : ∀ c ∈ chars, (match spelled c with
      | [x] => decide (x ≠ 104 ∧ back [x] = c)
      | [x, y] => decide (y = 104 ∧ x ≠ 104 ∧ back [x, y] = c)
      | _ => false) = true := by decide +kernel
  intro c hc
  have := h c hc
  split at this
  · rename_i x e
    exact .inl ⟨x, e, by simpa using this⟩
  · rename_i x y e
    have h' : y = 104 ∧ x ≠ 104 ∧ back [x, y] = c := by simpa using this
    obtain ⟨rfl, h2, h3⟩ := h'
    exact .inr ⟨x, e, h2, h3⟩
  · exact absurd this (by decide)

theorem readBack_spelled (ks : List Nat) (h : ∀ c ∈ ks, c ∈ chars) :
    readBack (ks.flatMap spelled) = ks ∧ (ks.flatMap spelled).head? ≠ some 104 := by
  induction ks with
  | nil => exact ⟨rfl, by simp⟩
  | cons c ks ih =>
    obtain ⟨i1, i2⟩ := ih fun x hx => h x (by simp [hx])
    rcases chars_shape c (h c (by simp)) with ⟨x, e, hx, hb⟩ | ⟨x, e, hx, hb⟩
    · rw [List.flatMap_cons, e]
      refine ⟨?_, by simpa using hx⟩
      cases hl : ks.flatMap spelled with
      | nil =>
        rw [hl] at i1
        simp only [List.cons_append, List.nil_append, readBack, hb]
        rw [← i1]
        rfl
      | cons y s =>
        rw [hl] at i1 i2
        simp only [List.cons_append, List.nil_append, readBack]
        rw [if_neg (by simpa using i2), hb, i1]
    · rw [List.flatMap_cons, e]
      refine ⟨?_, by simpa using hx⟩
      simp only [List.cons_append, List.nil_append, readBack, if_true]
      rw [hb, i1]

theorem distinct_chars {c : Nat} (h : Distinct c ∨ Digit c ∨ c = 95) : c ∈ chars := by
  unfold chars
  rw [List.mem_append, List.mem_cons, List.mem_map]
  rcases h with h | h | h
  · exact .inl h
  · unfold Digit at h
    exact .inr (.inr ⟨c - 48, List.mem_range.2 (by omega), by omega⟩)
  · exact .inr (.inl h)

theorem chars_char : ∀ c ∈ chars, Plain c ∨ Russian c := by decide +kernel

end RuC.Names
