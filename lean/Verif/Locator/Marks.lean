import Verif.Locator.Lemmas

namespace RuC.Locator
open RuC RuC.Utf8 RuC.Io

/-! ## Numbers -/

def IsDigits (ds : List Nat) : Prop := ds ≠ [] ∧ ∀ d ∈ ds, 48 ≤ d ∧ d ≤ 57

theorem digitsOf_digits : ∀ (fuel n : Nat), IsDigits (digitsOf fuel n) := by
  intro fuel
  induction fuel with
  | zero =>
    intro n
    refine ⟨by simp [digitsOf], ?_⟩
    simp [digitsOf]
    omega
  | succ fuel ih =>
    intro n
    rw [digitsOf]
    split
    · refine ⟨by simp, ?_⟩
      simp
      omega
    · refine ⟨by simp, ?_⟩
      intro d hd
      rcases List.mem_append.1 hd with h | h
      · exact (ih _).2 d h
      · simp at h
        omega

theorem decimal_append (a : List Nat) (d : Nat) : decimal (a ++ [d]) = 10 * decimal a + (d - 48) := by
  simp [decimal]

theorem decimal_digitsOf : ∀ (fuel n : Nat), n ≤ fuel → decimal (digitsOf fuel n) = n := by
  intro fuel
  induction fuel with
  | zero =>
    intro n h
    have : n = 0 := by omega
    subst this
    rfl
  | succ fuel ih =>
    intro n h
    rw [digitsOf]
    split
    · simp [decimal]
    · rw [decimal_append, ih _ (by omega)]
      omega

theorem showLoop_eq : ∀ (fuel n : Nat) (acc : List Nat), n ≤ fuel → showLoop (fuel + 1) n acc = digitsOf fuel n ++ acc := by
  intro fuel
  induction fuel with
  | zero =>
    intro n acc h
    have : n = 0 := by omega
    subst this
    rfl
  | succ fuel ih =>
    intro n acc h
    rw [showLoop, digitsOf]
    split
    · rfl
    · rw [ih _ _ (by omega)]
      simp

theorem showNat_eq (n : Nat) : showNat n = digitsOf n n := by
  unfold showNat
  rw [showLoop_eq n n [] (Nat.le_refl n)]
  simp

/-- Nothing, or something that is no digit in front. -/
def NoDigit (s : List Nat) : Prop := ∀ b t, s = b :: t → ¬ (48 ≤ b ∧ b ≤ 57)

theorem digits_spec {ds s : List Nat} (h : ∀ d ∈ ds, 48 ≤ d ∧ d ≤ 57) (hs : NoDigit s) : digits (ds ++ s) = ds := by
  unfold digits
  induction ds with
  | nil =>
    cases s with
    | nil => rfl
    | cons b t =>
      have := hs b t rfl
      rw [List.nil_append, List.takeWhile_cons, if_neg (by simpa using this)]
  | cons d ds ih =>
    have := h d (by simp)
    rw [List.cons_append, List.takeWhile_cons, if_pos (by simpa using this), ih fun d hd => h d (by simp [hd])]

theorem unsigned_spec {ds s : List Nat} (h : IsDigits ds) (hs : NoDigit s) (hn : decimal ds ≤ 4611686018427387904) :
    unsigned false (ds ++ s) = some (decimal ds, s) := by
  unfold unsigned
  rw [digits_spec h.2 hs, if_neg h.1]
  have : ¬ decimal ds > SIZE_MAX := by unfold SIZE_MAX; omega
  simp [this]

theorem scanSize_spec {ds s : List Nat} (h : IsDigits ds) (hs : NoDigit s) (hn : decimal ds ≤ 4611686018427387904) :
    scanSize (ds ++ s) = some (decimal ds, s) := by
  unfold scanSize
  have hu := unsigned_spec h hs hn
  cases ds with
  | nil => exact absurd rfl h.1
  | cons d ds =>
    have hd := h.2 d (by simp)
    have hsp : isSpace d = false := by
      unfold isSpace
      simp
      omega
    rw [List.cons_append, List.dropWhile_cons, if_neg (by simp [hsp])]
    have e1 : d ≠ 45 := by omega
    have e2 : d ≠ 43 := by omega
    split
    · rename_i he
      simp at he
      exact absurd he.1 e1
    · rename_i he
      simp at he
      exact absurd he.1 e2
    · exact hu

theorem scanSize_number {n : Nat} {s : List Nat} (hs : NoDigit s) (hn : n < 4611686018427387904) : scanSize (digitsOf n n ++ s) = some (n, s) := by
  have h := decimal_digitsOf n n (Nat.le_refl n)
  rw [scanSize_spec (digitsOf_digits n n) hs (by omega), h]

/-! ## Comparing -/

theorem markCompare_prefix (s : List Nat) : markCompare PREFIX ([35, 108, 105, 110, 101, 32] ++ s) = (true, s) := by
  simp [markCompare, PREFIX, compareLoop, octet]

theorem markCompare_comment (s : List Nat) : markCompare COMMENT ([47, 47, 32] ++ s) = (true, s) := by
  simp [markCompare, COMMENT, compareLoop, octet]

theorem markCompare_no {s : List Nat} (h : ¬ [35, 108, 105, 110, 101, 32] <+: s) : (markCompare PREFIX s).1 = false := by
  match s, h with
  | [], _ => rfl
  | [a], _ =>
    simp only [markCompare, PREFIX, compareLoop, octet]
    by_cases h1 : a = 35 <;> simp [h1]
  | [a, b], _ =>
    simp only [markCompare, PREFIX, compareLoop, octet]
    by_cases h1 : a = 35 <;> by_cases h2 : b = 108 <;> simp [h1, h2]
  | [a, b, c], _ =>
    simp only [markCompare, PREFIX, compareLoop, octet]
    by_cases h1 : a = 35 <;> by_cases h2 : b = 108 <;> by_cases h3 : c = 105 <;> simp [h1, h2, h3]
  | [a, b, c, d], _ =>
    simp only [markCompare, PREFIX, compareLoop, octet]
    by_cases h1 : a = 35 <;> by_cases h2 : b = 108 <;> by_cases h3 : c = 105 <;> by_cases h4 : d = 110 <;> simp [h1, h2, h3, h4]
  | [a, b, c, d, e], _ =>
    simp only [markCompare, PREFIX, compareLoop, octet]
    by_cases h1 : a = 35 <;> by_cases h2 : b = 108 <;> by_cases h3 : c = 105 <;> by_cases h4 : d = 110 <;> by_cases h5 : e = 101 <;>
      simp [h1, h2, h3, h4, h5]
  | a :: b :: c :: d :: e :: f :: s, h =>
    simp only [List.cons_prefix_cons, List.nil_prefix, and_true, not_and] at h
    simp only [markCompare, PREFIX, compareLoop, octet]
    by_cases h1 : a = 35 <;> by_cases h2 : b = 108 <;> by_cases h3 : c = 105 <;> by_cases h4 : d = 110 <;> by_cases h5 : e = 101 <;>
      simp [h1, h2, h3, h4, h5]
    have := h h1.symm h2.symm h3.symm h4.symm h5.symm
    omega

theorem markRecognize_no {n line : Nat} {s : List Nat} (h : ¬ [35, 108, 105, 110, 101, 32] <+: s) : markRecognize n line s = none := by
  unfold markRecognize
  simp only [markCompare_no h]
  rfl

theorem markRecognize_yes (n line : Nat) {s t : List Nat} {k : Nat} (h : scanSize s = some (k, t)) :
    markRecognize n line ([35, 108, 105, 110, 101, 32] ++ s) = some (markRest n k t) := by
  unfold markRecognize
  rw [markCompare_prefix]
  simp only [h]
  rfl

/-! ## The rest of a mark -/

/-- The octets behind a line. -/
def Ends (s : List Nat) : Prop := s = [] ∨ ∃ t, s = 10 :: t

theorem Ends.noDigit {s : List Nat} (h : Ends s) : NoDigit s := by
  rintro b t rfl
  rcases h with h | ⟨u, h⟩
  · cases h
  · cases h
    omega

theorem noDigit_cons {b : Nat} {s : List Nat} (h : ¬ (48 ≤ b ∧ b ≤ 57)) : NoDigit (b :: s) := by
  rintro c t he
  cases he
  exact h

theorem toQuote_spec {os : List Nat} (h : ∀ b ∈ os, b ≠ 34) : ∀ (ch : Nat) (s : List Nat), toQuote ch (os ++ 34 :: s) = (34, s) := by
  induction os with
  | nil =>
    intro ch s
    simp [toQuote]
  | cons b os ih =>
    intro ch s
    rw [List.cons_append, toQuote, if_neg (h b (by simp))]
    exact ih (fun b hb => h b (by simp [hb])) _ _

theorem encodeAll_no34 {cs : List Nat} (h : ∀ c ∈ cs, c ≠ 34) : ∀ b ∈ encodeAll cs, b ≠ 34 := by
  intro b hb
  obtain ⟨c, hc, hb⟩ := List.mem_flatMap.1 hb
  by_cases h1 : c < 128
  · rw [encode_ascii h1] at hb
    simp at hb
    have := h c hc
    omega
  · have := encode_high (by omega) b hb
    omega

theorem markRest_end {n k : Nat} {s : List Nat} (h : Ends s) : markRest n k s = ⟨k, SIZE_MAX, SIZE_MAX⟩ := by
  unfold markRest
  rcases h with rfl | ⟨t, rfl⟩ <;> simp [octet]

theorem markRest_usual {n k : Nat} {p s : List Nat} (hp : ∀ b ∈ p, b ≠ 34) (h : Ends s) :
    markRest n k ([32, 34] ++ p ++ [34] ++ s) = ⟨k, n - (p ++ [34] ++ s).length, SIZE_MAX⟩ := by
  have e : [32, 34] ++ p ++ [34] ++ s = 32 :: 34 :: (p ++ 34 :: s) := by simp
  rw [e]
  unfold markRest
  simp only [octet, toQuote_spec hp]
  rw [if_neg (by simp)]
  rcases h with rfl | ⟨t, rfl⟩ <;> simp [octet]

theorem markRest_begin {n k : Nat} {p s : List Nat} (hp : ∀ b ∈ p, b ≠ 34) :
    markRest n k ([32, 34] ++ p ++ [34, 32, 47, 47, 32] ++ s) = ⟨k, n - (p ++ [34, 32, 47, 47, 32] ++ s).length, n - s.length⟩ := by
  have e : [32, 34] ++ p ++ [34, 32, 47, 47, 32] ++ s = 32 :: 34 :: (p ++ 34 :: (32 :: ([47, 47, 32] ++ s))) := by simp
  rw [e]
  unfold markRest
  simp only [octet, toQuote_spec hp, markCompare_comment]
  rw [if_neg (by simp)]
  simp

/-! ## Lines -/

theorem chars_inner {l : Line} (h : l.Valid) : ∀ c ∈ l.chars, Inner c := by
  have hm : ∀ c ∈ [35, 108, 105, 110, 101, 32], Inner c := by decide
  have hd : ∀ n, ∀ c ∈ digitsOf n n, Inner c := by
    intro n c hc
    have := (digitsOf_digits n n).2 c hc
    exact ⟨by omega, by omega, by omega⟩
  have h1 : ∀ c ∈ [32, 34], Inner c := by decide
  have h2 : ∀ c ∈ [34], Inner c := by decide
  have h3 : ∀ c ∈ [34, 32, 47, 47, 32], Inner c := by decide
  intro c hc
  cases l with
  | code cs => exact h.1 c hc
  | usual n p =>
    simp only [Line.chars, List.mem_append] at hc
    rcases hc with (((hc | hc) | hc) | hc) | hc
    · exact hm c hc
    · exact hd n c hc
    · exact h1 c hc
    · exact (h.2.1 c hc).1
    · exact h2 c hc
  | begin n p cs =>
    simp only [Line.chars, List.mem_append] at hc
    rcases hc with ((((hc | hc) | hc) | hc) | hc) | hc
    · exact hm c hc
    · exact hd n c hc
    · exact h1 c hc
    · exact (h.2.1 c hc).1
    · exact h3 c hc
    · exact h.2.2.2 c hc
  | «end» n =>
    simp only [Line.chars, List.mem_append] at hc
    rcases hc with hc | hc
    · exact hm c hc
    · exact hd n c hc

/-- ASCII characters in front of octets are characters in front. -/
theorem prefix_octets {as : List Nat} (ha : ∀ a ∈ as, a < 128 ∧ a ≠ 10) : ∀ {cs s : List Nat}, Ends s → as <+: encodeAll cs ++ s → as <+: cs := by
  induction as with
  | nil => intro cs s _ _; exact List.nil_prefix
  | cons a as ih =>
    intro cs s hs h
    have h1 := ha a (by simp)
    cases cs with
    | nil =>
      exfalso
      rcases hs with rfl | ⟨t, rfl⟩
      · simp [encodeAll] at h
      · simp [encodeAll] at h
        omega
    | cons c cs =>
      rw [encodeAll_cons] at h
      by_cases hc : c < 128
      · rw [encode_ascii hc] at h
        simp only [List.cons_append, List.nil_append, List.cons_prefix_cons] at h ⊢
        exact ⟨h.1, ih (fun a h => ha a (by simp [h])) hs h.2⟩
      · exfalso
        have hh := encode_high (c := c) (by omega)
        cases he : encode c with
        | nil => exact encode_ne_nil c he
        | cons b bs =>
          rw [he] at h hh
          have := hh b (by simp)
          simp only [List.cons_append, List.cons_prefix_cons] at h
          omega

/-- The mark that is recognised at the beginning of a line; `m` is how many octets are behind the line. -/
def found (start : Nat) : Line → Option Mark
  | .code _ => none
  | .usual n _ => some ⟨n, start + (6 + (digitsOf n n).length + 2), SIZE_MAX⟩
  | .begin n p _ => some ⟨n, start + (6 + (digitsOf n n).length + 2), start + (6 + (digitsOf n n).length + 2) + (encodeAll p).length + 5⟩
  | .end n => some ⟨n, SIZE_MAX, SIZE_MAX⟩

theorem encode_prefix : encodeAll [35, 108, 105, 110, 101, 32] = [35, 108, 105, 110, 101, 32] := encodeAll_ascii (by decide)

theorem encode_digits (n : Nat) : encodeAll (digitsOf n n) = digitsOf n n :=
  encodeAll_ascii fun c hc => by have := (digitsOf_digits n n).2 c hc; omega

theorem recognize_line {l : Line} (h : l.Valid) {s : List Nat} (hs : Ends s) (total line start : Nat)
    (ht : total = start + (encodeAll l.chars ++ s).length) : markRecognize total line (encodeAll l.chars ++ s) = found start l := by
  cases l with
  | code cs =>
    refine markRecognize_no ?_
    intro hp
    exact h.2 (prefix_octets (by decide) hs hp)
  | usual n p =>
    have e : encodeAll (Line.usual n p).chars ++ s = [35, 108, 105, 110, 101, 32] ++ (digitsOf n n ++ ([32, 34] ++ encodeAll p ++ [34] ++ s)) := by
      simp only [Line.chars, encodeAll_append, encode_prefix, encode_digits, encodeAll_ascii (cs := [32, 34]) (by decide),
        encodeAll_ascii (cs := [34]) (by decide), List.append_assoc]
    rw [e] at ht ⊢
    have hn : NoDigit ([32, 34] ++ encodeAll p ++ [34] ++ s) := by
      intro b t he
      simp at he
      omega
    rw [markRecognize_yes _ _ (scanSize_number hn h.1), markRest_usual (encodeAll_no34 fun c hc => (h.2.1 c hc).2.2) hs]
    simp only [found]
    congr 2
    simp only [List.length_append, List.length_cons, List.length_nil] at ht ⊢
    omega
  | begin n p cs =>
    have e : encodeAll (Line.begin n p cs).chars ++ s =
        [35, 108, 105, 110, 101, 32] ++ (digitsOf n n ++ ([32, 34] ++ encodeAll p ++ [34, 32, 47, 47, 32] ++ (encodeAll cs ++ s))) := by
      simp only [Line.chars, encodeAll_append, encode_prefix, encode_digits, encodeAll_ascii (cs := [32, 34]) (by decide),
        encodeAll_ascii (cs := [34, 32, 47, 47, 32]) (by decide), List.append_assoc]
    rw [e] at ht ⊢
    have hn : NoDigit ([32, 34] ++ encodeAll p ++ [34, 32, 47, 47, 32] ++ (encodeAll cs ++ s)) := by
      intro b t he
      simp at he
      omega
    rw [markRecognize_yes _ _ (scanSize_number hn h.1), markRest_begin (encodeAll_no34 fun c hc => (h.2.1 c hc).2.2)]
    simp only [found]
    congr 2
    · simp only [List.length_append, List.length_cons, List.length_nil] at ht ⊢
      omega
    · simp only [List.length_append, List.length_cons, List.length_nil] at ht ⊢
      omega
  | «end» n =>
    have e : encodeAll (Line.end n).chars ++ s = [35, 108, 105, 110, 101, 32] ++ (digitsOf n n ++ s) := by
      simp only [Line.chars, encodeAll_append, encode_prefix, encode_digits, List.append_assoc]
    rw [e, markRecognize_yes _ _ (scanSize_number hs.noDigit h), markRest_end hs]
    rfl

end RuC.Locator
