import Verif.Names.Lemmas

/-! Properties of the names of functions in the LLVM text (C90, C91). -/

namespace RuC.Names.Props
open RuC RuC.Utf8 RuC.Names

/-- A sample name, `площадь_2`. -/
def area : List Nat := codes "площадь_2"

/-- C90: a text is spelled letter by letter as the passport transliteration says; other characters are
kept. -/
theorem C90_letter_by_letter (ks : List Nat) (hk : ∀ c ∈ ks, c ≠ 0 ∧ Good c) :
    transliterate (ks.flatMap encode ++ [0]) = some ((ks.flatMap spelled).flatMap encode) :=
  transliterate_spec hk

example : transliterate (area.flatMap encode ++ [0]) = some (codes "ploshchad_2") := by
  rw [C90_letter_by_letter area (by decide +kernel)]
  decide +kernel

/-- C90: the name printed for a function of the user is its identifier spelled in Latin letters, digits
and underscores, if the identifier has at most 1023 characters. -/
theorem C90_name_in_latin (ks : List Nat) (funcRef : Nat) (hu : BEGIN_USER_FUNC ≤ funcRef) (h : Identifier ks)
    (hl : ks.length ≤ 1023) :
    funcNameToIo funcRef (ks.flatMap encode ++ [0]) = some (ks.flatMap spelled) ∧
      ∀ x ∈ ks.flatMap spelled, Plain x := by
  have hc := identifier_chars h
  have hp := plain_spelled hc
  refine ⟨?_, fun x hx => (hp x hx).1⟩
  unfold funcNameToIo
  rw [if_neg (by omega), C90_letter_by_letter ks fun c m => char_good (hc c m), encode_ascii fun x hx => (hp x hx).2]
  simp only
  have := length_spelled hc
  rw [if_pos (by unfold MAX_NAME; omega)]

example : funcNameToIo 200 (area.flatMap encode ++ [0]) = some (codes "ploshchad_2") := by
  have h : Identifier area := ⟨by decide +kernel, by decide +kernel⟩
  rw [(C90_name_in_latin area 200 (by decide) h (by decide +kernel)).1]
  decide +kernel

/-- C90: such a name is a legal name: it begins with a letter or an underscore, if the identifier does
not begin with a soft sign. -/
theorem C90_legal_first (c : Nat) (ks : List Nat) (h : Identifier (c :: ks)) (hs : ¬ Soft c) :
    ∃ x, ((c :: ks).flatMap spelled).head? = some x ∧ PlainFirst x := by
  have key : ∃ x, (spelled c).head? = some x ∧ PlainFirst x := by
    by_cases hr : Russian c
    · exact letters_first c (mem_letters hr) hs
    · rw [(not_russian hr).1]
      exact ⟨c, rfl, h.1.resolve_right hr⟩
  obtain ⟨x, e, hx⟩ := key
  refine ⟨x, ?_, hx⟩
  rw [List.flatMap_cons]
  cases hl : spelled c with
  | nil => rw [hl] at e; cases e
  | cons y s => rw [hl] at e; exact e

example : ∃ x, (area.flatMap spelled).head? = some x ∧ PlainFirst x :=
  C90_legal_first 0x43F (area.drop 1) ⟨by decide +kernel, by decide +kernel⟩ (by decide)

/-- C90: an identifier without Russian letters is printed unchanged. -/
theorem C90_latin_kept (ks : List Nat) (h : ∀ c ∈ ks, ¬ Russian c) : ks.flatMap spelled = ks := by
  induction ks with
  | nil => rfl
  | cons c s ih =>
    rw [List.flatMap_cons, (not_russian (h c (by simp))).1, ih fun x hx => h x (by simp [hx])]
    rfl

example : (codes "main_2").flatMap spelled = codes "main_2" := C90_latin_kept _ (by decide +kernel)

/-- C90: the names of functions of the library are printed as they are. -/
theorem C90_library_kept (ks : List Nat) (funcRef : Nat) (hu : funcRef < BEGIN_USER_FUNC) (h : ∀ b ∈ ks, b ≠ 0) :
    funcNameToIo funcRef (ks ++ [0]) = some ks := by
  unfold funcNameToIo
  rw [if_pos hu]
  congr 1
  induction ks with
  | nil => rfl
  | cons b s ih =>
    have hb := h b (by simp)
    simp only [List.cons_append, List.takeWhile]
    rw [show decide (b ≠ 0) = true by simpa using hb]
    simp only
    rw [ih fun x hx => h x (by simp [hx])]

example : funcNameToIo 80 (codes "printf" ++ [0]) = some (codes "printf") :=
  C90_library_kept _ 80 (by decide) (by decide +kernel)

/-- Outside these names: the function `ь` gets the empty name and `ь1` the name `1`. -/
theorem C90_soft_sign_witness :
    funcNameToIo 200 ([0x44C].flatMap encode ++ [0]) = some [] ∧
      funcNameToIo 200 ([0x44C, 49].flatMap encode ++ [0]) = some [49] ∧
      Identifier [0x44C] ∧ Identifier [0x44C, 49] := by
  refine ⟨by decide +kernel, by decide +kernel, ⟨by decide, by decide⟩, ⟨by decide, by decide⟩⟩

/-- Outside these names: an identifier of letters `щ`, longer than 1023, is written behind the end of the
array. -/
theorem C90_long_name_witness (n : Nat) (hn : 1023 < n) (funcRef : Nat) (hu : BEGIN_USER_FUNC ≤ funcRef) :
    funcNameToIo funcRef ((List.replicate n 0x449).flatMap encode ++ [0]) = none := by
  have hlen : ∀ m, ((List.replicate m 0x449).flatMap spelled).length = 4 * m := by
    intro m
    induction m with
    | zero => rfl
    | succ m ih =>
      rw [List.replicate_succ, List.flatMap_cons, List.length_append, ih,
        show (spelled 0x449).length = 4 by decide +kernel]
      omega
  have hc : ∀ c ∈ List.replicate n 0x449, Plain c ∨ Russian c := by
    intro c hc
    rw [List.eq_of_mem_replicate hc]
    exact .inr (by decide)
  have hp := plain_spelled hc
  unfold funcNameToIo
  rw [if_neg (by omega), C90_letter_by_letter _ fun c m => char_good (hc c m), encode_ascii fun x hx => (hp x hx).2]
  simp only
  rw [if_neg (by rw [hlen]; unfold MAX_NAME; omega)]

example : funcNameToIo 170 ((List.replicate 1024 0x449).flatMap encode ++ [0]) = none :=
  C90_long_name_witness 1024 (by decide) 170 (by decide)

/-- C91, the part that holds: two functions whose names are written with digits, underscores and the
Russian letters other than `ё`, `й`, `ц`, `щ`, `ъ`, `ь`, `э`, `ю`, `я` keep different names. -/
theorem C91_names_apart_partial (ks ls : List Nat) (r1 r2 : Nat) (hu1 : BEGIN_USER_FUNC ≤ r1)
    (hu2 : BEGIN_USER_FUNC ≤ r2) (hk : ∀ c ∈ ks, Distinct c ∨ Digit c ∨ c = 95)
    (hl : ∀ c ∈ ls, Distinct c ∨ Digit c ∨ c = 95) (n1 : ks.length ≤ 1023) (n2 : ls.length ≤ 1023) :
    funcNameToIo r1 (ks.flatMap encode ++ [0]) = funcNameToIo r2 (ls.flatMap encode ++ [0]) ↔ ks = ls := by
  have print : ∀ (ms : List Nat) (r : Nat), BEGIN_USER_FUNC ≤ r → (∀ c ∈ ms, Distinct c ∨ Digit c ∨ c = 95) →
      ms.length ≤ 1023 → funcNameToIo r (ms.flatMap encode ++ [0]) = some (ms.flatMap spelled) := by
    intro ms r hr hm n
    have hc : ∀ c ∈ ms, Plain c ∨ Russian c := fun c m => chars_char c (distinct_chars (hm c m))
    have hp := plain_spelled hc
    unfold funcNameToIo
    rw [if_neg (by omega), C90_letter_by_letter ms fun c m => char_good (hc c m), encode_ascii fun x hx => (hp x hx).2]
    simp only
    have := length_spelled hc
    rw [if_pos (by unfold MAX_NAME; omega)]
  rw [print ks r1 hu1 hk n1, print ls r2 hu2 hl n2]
  constructor
  · intro e
    have e := Option.some.inj e
    rw [← (readBack_spelled ks fun c m => distinct_chars (hk c m)).1, e,
      (readBack_spelled ls fun c m => distinct_chars (hl c m)).1]
  · rintro rfl
    rfl

example : funcNameToIo 170 ((codes "шаг_1").flatMap encode ++ [0]) ≠
    funcNameToIo 190 ((codes "шахта").flatMap encode ++ [0]) := by
  intro e
  have := (C91_names_apart_partial (codes "шаг_1") (codes "шахта") 170 190 (by decide) (by decide)
    (by decide +kernel) (by decide +kernel) (by decide +kernel) (by decide +kernel)).1 e
  exact absurd this (by decide +kernel)

/-- C91, identifiers without Russian letters keep different names too. -/
theorem C91_latin_apart_partial (ks ls : List Nat) (r1 r2 : Nat) (hu1 : BEGIN_USER_FUNC ≤ r1)
    (hu2 : BEGIN_USER_FUNC ≤ r2) (hk : Identifier ks) (hl : Identifier ls) (n1 : ks.length ≤ 1023)
    (n2 : ls.length ≤ 1023) (k1 : ∀ c ∈ ks, ¬ Russian c) (l1 : ∀ c ∈ ls, ¬ Russian c) :
    funcNameToIo r1 (ks.flatMap encode ++ [0]) = funcNameToIo r2 (ls.flatMap encode ++ [0]) ↔ ks = ls := by
  rw [(C90_name_in_latin ks r1 hu1 hk n1).1, (C90_name_in_latin ls r2 hu2 hl n2).1, C90_latin_kept ks k1,
    C90_latin_kept ls l1, Option.some.injEq]

example : funcNameToIo 170 ((codes "f1").flatMap encode ++ [0]) ≠
    funcNameToIo 190 ((codes "f2").flatMap encode ++ [0]) := by
  intro e
  have := (C91_latin_apart_partial (codes "f1") (codes "f2") 170 190 (by decide) (by decide)
    ⟨by decide +kernel, by decide +kernel⟩ ⟨by decide +kernel, by decide +kernel⟩ (by decide +kernel) (by decide +kernel)
    (by decide +kernel) (by decide +kernel)).1 e
  exact absurd this (by decide +kernel)

/-- C91 fails: `мой` and `мои`, `щит` and `шчит`, `ель` and `ел`, `цель` and `тсель`, `сума` and `suma`,
`объём` and `обиеем` get the same name. -/
theorem C91_same_name_witness :
    [("мой", "мои"), ("щит", "шчит"), ("ель", "ел"), ("цель", "тсель"), ("сума", "suma"), ("объём", "обиеем")].all
      (fun p => decide (p.1 ≠ p.2) && decide (funcNameToIo 170 ((codes p.1).flatMap encode ++ [0]) =
        funcNameToIo 190 ((codes p.2).flatMap encode ++ [0])) &&
        (funcNameToIo 170 ((codes p.1).flatMap encode ++ [0])).isSome) = true := by
  decide +kernel

end RuC.Names.Props
