import Verif.Logger.Spec
import Verif.Locator.Lemmas

namespace RuC.Logger
open RuC RuC.Utf8 RuC.Io RuC.Locator

theorem isWord_iff (c : Nat) : isWord c = true ↔ InWord c := by
  simp only [isWord, isLetter, isRussian, isDigit, InWord, Bool.or_eq_true, Bool.and_eq_true, decide_eq_true_eq, beq_iff_eq]
  omega

theorem isWord_false {c : Nat} (h : ¬ InWord c) : isWord c = false := by
  cases hc : isWord c with
  | false => rfl
  | true => exact absurd ((isWord_iff c).1 hc) h

theorem length_encodeAll (cs : List Nat) : cs.length ≤ (encodeAll cs).length := by
  induction cs with
  | nil => simp
  | cons c cs ih =>
    have := List.length_pos_iff.2 (encode_ne_nil c)
    rw [encodeAll_cons]
    simp only [List.length_append, List.length_cons]
    omega

theorem convert_at {u pre post : List Nat} {c : Nat} (hu : u = pre ++ c :: post) (hc : c < 0x200000) :
    convert ((encodeAll u).drop (encodeAll pre).length) = some c := by
  rw [hu, encodeAll_append, List.drop_left, encodeAll_cons]
  exact utf8_convert_encode hc _

theorem octet_at {u pre post : List Nat} {c : Nat} (hu : u = pre ++ c :: post) (hc : c < 0x200000) :
    symbolSize ((encodeAll u).getD (encodeAll pre).length 0) = (encode c).length ∧ ((encodeAll u).getD (encodeAll pre).length 0 = 9 ↔ c = 9) := by
  obtain ⟨b, s, h1, h2, _⟩ := symbolSize_encode' hc
  have hb : (encodeAll u).getD (encodeAll pre).length 0 = b := by
    rw [hu, encodeAll_append, encodeAll_cons, h1]; simp
  rw [hb]
  refine ⟨h2, ?_⟩
  by_cases hlow : c < 128
  · rw [encode_ascii hlow] at h1
    simp only [List.cons.injEq] at h1
    omega
  · have := encode_high (by omega : 128 ≤ c) b (by rw [h1]; simp)
    omega

theorem size_at {u pre post : List Nat} {c : Nat} (hu : u = pre ++ c :: post) (hc : c < 0x200000) :
    symbolSize ((encodeAll u).getD (encodeAll pre).length 0) = (encode c).length := (octet_at hu hc).1

theorem first_at {u pre post : List Nat} {c : Nat} (hu : u = pre ++ c :: post) (hc : c < 0x200000) {i : Nat} (hi : i < (encode c).length) :
    toFirstByte (encodeAll u) ((encodeAll pre).length + i) = some (encodeAll pre).length := by
  rw [hu, encodeAll_append, encodeAll_cons, ← List.append_assoc]
  exact toFirstByte_encode hc _ _ _ hi

theorem first_before {u pre post : List Nat} {c : Nat} (hu : u = pre ++ c :: post) (hc : c < 0x200000) :
    toFirstByte (encodeAll u) ((encodeAll (pre ++ [c])).length - 1) = some (encodeAll pre).length := by
  have hp := List.length_pos_iff.2 (encode_ne_nil c)
  have : (encodeAll (pre ++ [c])).length - 1 = (encodeAll pre).length + ((encode c).length - 1) := by
    rw [encodeAll_append, encodeAll_cons, encodeAll_nil]
    simp only [List.length_append, List.length_nil]
    omega
  rw [this]
  exact first_at hu hc (by omega)

theorem encodeAll_pos {pre : List Nat} {c : Nat} : (encodeAll (pre ++ [c])).length ≠ 0 := by
  have := length_encodeAll (pre ++ [c])
  simp only [List.length_append, List.length_cons, List.length_nil] at this
  omega

/-- Going back over a word. -/
theorem literalLoop_spec {u : List Nat} (hv : ∀ x ∈ u, x < 0x200000) : ∀ (n : Nat) {fuel i : Nat} {pre post : List Nat} {c : Nat},
    pre.length = n → n < fuel → u = pre ++ c :: post →
    (¬ InWord c → literalLoop (encodeAll u) fuel i (encodeAll pre).length = some i) ∧
    (InWord c → ∃ before mid, pre = before ++ mid ∧ (∀ x ∈ mid, InWord x) ∧ (∀ s x, before = s ++ [x] → ¬ InWord x) ∧
      literalLoop (encodeAll u) fuel i (encodeAll pre).length = some (encodeAll before).length) := by
  intro n
  induction n with
  | zero =>
    intro fuel i pre post c hn hf hu
    obtain ⟨fuel, rfl⟩ : ∃ k, fuel = k + 1 := ⟨fuel - 1, by omega⟩
    have hc : c < 0x200000 := hv c (by rw [hu]; simp)
    have hp : pre = [] := List.length_eq_zero_iff.1 hn
    refine ⟨fun h => ?_, fun h => ?_⟩
    · rw [literalLoop, convert_at hu hc]
      simp [isWord_false h]
    · refine ⟨[], [], by simp [hp], by simp, by simp, ?_⟩
      rw [literalLoop, convert_at hu hc]
      simp [(isWord_iff c).2 h, hp, encodeAll_nil]
  | succ n ih =>
    intro fuel i pre post c hn hf hu
    obtain ⟨fuel, rfl⟩ : ∃ k, fuel = k + 1 := ⟨fuel - 1, by omega⟩
    have hc : c < 0x200000 := hv c (by rw [hu]; simp)
    refine ⟨fun h => ?_, fun h => ?_⟩
    · rw [literalLoop, convert_at hu hc]
      simp [isWord_false h]
    · have hne : pre ≠ [] := by intro h0; rw [h0] at hn; simp at hn
      obtain ⟨p, d, rfl⟩ : ∃ p d, pre = p ++ [d] := ⟨pre.dropLast, pre.getLast hne, (List.dropLast_concat_getLast hne).symm⟩
      have hu' : u = p ++ d :: (c :: post) := by rw [hu]; simp
      have hd : d < 0x200000 := hv d (by rw [hu']; simp)
      have hstep : ∀ i, literalLoop (encodeAll u) (fuel + 1) i (encodeAll (p ++ [d])).length =
          literalLoop (encodeAll u) fuel (encodeAll (p ++ [d])).length (encodeAll p).length := by
        intro i
        rw [literalLoop, convert_at hu hc]
        simp only
        rw [if_pos ((isWord_iff c).2 h), if_neg encodeAll_pos, first_before hu' hd]
      obtain ⟨h1, h2⟩ := ih (fuel := fuel) (i := (encodeAll (p ++ [d])).length) (pre := p) (post := c :: post) (c := d)
        (by simpa using hn) (by omega) hu'
      by_cases hw : InWord d
      · obtain ⟨before, mid, e1, e2, e3, e4⟩ := h2 hw
        refine ⟨before, mid ++ [d], by rw [e1]; simp, ?_, e3, by rw [hstep, e4]⟩
        intro x hx
        rcases List.mem_append.1 hx with hx | hx
        · exact e2 x hx
        · rw [List.mem_singleton.1 hx]; exact hw
      · refine ⟨p ++ [d], [], by simp, by simp, ?_, by rw [hstep, h1 hw]⟩
        intro s x hs
        have := List.append_inj' hs rfl
        simp only [List.cons.injEq, and_true] at this
        rw [← this.2]; exact hw

theorem literal_spec {u a b : List Nat} {c i : Nat} (hv : ∀ x ∈ u, x < 0x200000) (hu : u = a ++ c :: b) (hi : i < (encode c).length) :
    ∃ before mid, a = before ++ mid ∧ literal (encodeAll u) ((encodeAll a).length + i) = some (encodeAll before).length ∧
      (¬ InWord c → mid = []) ∧ (InWord c → (∀ x ∈ mid, InWord x) ∧ ∀ s x, before = s ++ [x] → ¬ InWord x) := by
  have hc : c < 0x200000 := hv c (by rw [hu]; simp)
  have hl := length_encodeAll a
  obtain ⟨h1, h2⟩ := literalLoop_spec hv a.length (fuel := (encodeAll a).length + 1) (i := (encodeAll a).length) rfl (by omega) hu
  have hlit : literal (encodeAll u) ((encodeAll a).length + i) =
      literalLoop (encodeAll u) ((encodeAll a).length + 1) (encodeAll a).length (encodeAll a).length := by
    rw [literal, first_at hu hc hi]
  by_cases hw : InWord c
  · obtain ⟨before, mid, e1, e2, e3, e4⟩ := h2 hw
    exact ⟨before, mid, e1, by rw [hlit, e4], fun h => absurd hw h, fun _ => ⟨e2, e3⟩⟩
  · exact ⟨a, [], by simp, by rw [hlit, h1 hw], fun _ => rfl, fun h => absurd h hw⟩

/-- Counting the characters of a word. -/
theorem lengthLoop_spec {u : List Nat} (hv : ∀ x ∈ u, x < 0x200000) {size : Nat} : ∀ (word : List Nat) {pre after more : List Nat} {fuel j : Nat},
    word.length < fuel → u = pre ++ word ++ after ++ more → size = (encodeAll (pre ++ word ++ after)).length → (∀ x ∈ word, InWord x) →
    (∀ x s, after = x :: s → ¬ InWord x) → lengthLoop (encodeAll u) size fuel (encodeAll pre).length j = some (j + word.length) := by
  intro word
  induction word with
  | nil =>
    intro pre after more fuel j hf hu hs _ ha
    obtain ⟨fuel, rfl⟩ : ∃ k, fuel = k + 1 := ⟨fuel - 1, by simp at hf; omega⟩
    rw [lengthLoop]
    cases after with
    | nil => rw [if_neg (by rw [hs]; simp)]; rfl
    | cons x s =>
      have hx : x < 0x200000 := hv x (by rw [hu]; simp)
      rw [convert_at (c := x) (post := s ++ more) (by rw [hu]; simp) hx]
      by_cases h : (encodeAll pre).length < size
      · rw [if_pos h]; simp [isWord_false (ha x s rfl)]
      · rw [if_neg h]; rfl
  | cons c word ih =>
    intro pre after more fuel j hf hu hs hw ha
    obtain ⟨fuel, rfl⟩ : ∃ k, fuel = k + 1 := ⟨fuel - 1, by simp at hf; omega⟩
    have hc : c < 0x200000 := hv c (by rw [hu]; simp)
    have hu' : u = pre ++ c :: (word ++ after ++ more) := by rw [hu]; simp
    have hpos := List.length_pos_iff.2 (encode_ne_nil c)
    have hlt : (encodeAll pre).length < size := by
      rw [hs]
      simp only [encodeAll_append, encodeAll_cons, List.length_append]
      omega
    rw [lengthLoop, if_pos hlt, convert_at hu' hc]
    simp only
    rw [if_pos ((isWord_iff c).2 (hw c (by simp))), size_at hu' hc]
    have := ih (pre := pre ++ [c]) (after := after) (more := more) (fuel := fuel) (j := j + 1) (by simp at hf; omega) (by rw [hu]; simp)
      (by rw [hs]; simp) (fun x hx => hw x (by simp [hx])) ha
    rw [show (encodeAll pre).length + (encode c).length = (encodeAll (pre ++ [c])).length by
      rw [encodeAll_append, encodeAll_cons, encodeAll_nil]; simp, this]
    simp; omega

/-- Blanks below the characters in front. -/
theorem blankLoop_spec {u : List Nat} (hv : ∀ x ∈ u, x < 0x200000) {ch : Nat} : ∀ (before : List Nat) {pre more : List Nat} {fuel : Nat},
    before.length ≤ fuel → u = pre ++ before ++ more → ch = (encodeAll (pre ++ before)).length →
    blankLoop (encodeAll u) ch fuel (encodeAll pre).length = before.map (fun c => if c = 9 then 9 else 32) := by
  intro before
  induction before with
  | nil =>
    intro pre more fuel _ _ hch
    cases fuel with
    | zero => rfl
    | succ fuel => rw [blankLoop, if_neg (by rw [hch]; simp)]; rfl
  | cons c before ih =>
    intro pre more fuel hf hu hch
    obtain ⟨fuel, rfl⟩ : ∃ k, fuel = k + 1 := ⟨fuel - 1, by simp at hf; omega⟩
    have hc : c < 0x200000 := hv c (by rw [hu]; simp)
    have hu' : u = pre ++ c :: (before ++ more) := by rw [hu]; simp
    have hpos := List.length_pos_iff.2 (encode_ne_nil c)
    have hlt : (encodeAll pre).length < ch := by
      rw [hch]
      simp only [encodeAll_append, encodeAll_cons, List.length_append]
      omega
    rw [blankLoop, if_pos hlt, size_at hu' hc]
    have := ih (pre := pre ++ [c]) (more := more) (fuel := fuel) (by simp at hf; omega) (by rw [hu]; simp) (by rw [hch]; simp)
    rw [show (encodeAll pre).length + (encode c).length = (encodeAll (pre ++ [c])).length by
      rw [encodeAll_append, encodeAll_cons, encodeAll_nil]; simp, this]
    simp only [(octet_at hu' hc).2, List.map_cons]

theorem takeWhile_line {cs ts : List Nat} (hc : ∀ c ∈ cs, Inner c) (ht : Behind ts) :
    (encodeAll (cs ++ ts)).takeWhile (· ≠ 10) = encodeAll cs := by
  rw [encodeAll_append]
  have h10 := encodeAll_no10 hc
  rw [List.takeWhile_append_of_pos (by intro x hx; simpa using h10 x hx)]
  rcases ht.2 with rfl | ⟨more, rfl⟩
  · simp [encodeAll_nil]
  · simp [encodeAll_cons, encode_ascii (show 10 < 128 by decide)]

theorem text_valid {cs ts : List Nat} (hc : ∀ c ∈ cs, Inner c) (ht : Behind ts) : ∀ x ∈ cs ++ ts ++ [0], x < 0x200000 := by
  intro x hx
  simp only [List.mem_append, List.mem_singleton] at hx
  rcases hx with (hx | hx) | hx
  · exact (hc x hx).1
  · exact (ht.1 x hx).1
  · omega

theorem text_zero (cs ts : List Nat) : encodeAll (cs ++ ts) ++ [0] = encodeAll (cs ++ ts ++ [0]) := by
  rw [encodeAll_append (cs ++ ts), encodeAll_cons, encodeAll_nil, encode_ascii (by decide)]; simp

theorem takeWhile_all (b : List Nat) : ∀ x ∈ b.takeWhile isWord, InWord x := by
  induction b with
  | nil => simp
  | cons y b ih =>
    intro x hx
    cases hy : isWord y with
    | false => simp [hy] at hx
    | true =>
      simp only [List.takeWhile_cons, hy, if_true, List.mem_cons] at hx
      rcases hx with rfl | hx
      · exact (isWord_iff _).1 hy
      · exact ih x hx

theorem dropWhile_first (b : List Nat) : ∀ x s, b.dropWhile isWord = x :: s → ¬ InWord x := by
  induction b with
  | nil => simp
  | cons y b ih =>
    intro x s hx
    cases hy : isWord y with
    | false =>
      simp only [List.dropWhile_cons, hy, Bool.false_eq_true, if_false, List.cons.injEq] at hx
      intro hw
      rw [← hx.1, ← isWord_iff, hy] at hw
      exact absurd hw (by decide)
    | true =>
      simp only [List.dropWhile_cons, hy, if_true] at hx
      exact ih x s hx

/-- The position is in the line: the word there is marked. -/
theorem splice_marks (msg : List Nat) {a b ts : List Nat} {c i : Nat} (hc : ∀ x ∈ a ++ c :: b, Inner x) (ht : Behind ts) (hi : i < (encode c).length) :
    ∃ before word after, Marked a c b before word after ∧
      splice msg (encodeAll (a ++ c :: b ++ ts)) ((encodeAll a).length + i) =
        fit (msg ++ [10] ++ encodeAll (a ++ c :: b) ++ [10] ++ marks before word) := by
  have hv := text_valid hc ht
  have hpos := List.length_pos_iff.2 (encode_ne_nil c)
  obtain ⟨before, mid, h1, h2, h3, h4⟩ := literal_spec (a := a) (b := b ++ ts ++ [0]) hv (by simp) hi
  have hblank := blankLoop_spec hv before (pre := []) (more := mid ++ c :: b ++ ts ++ [0]) (ch := (encodeAll before).length)
    (fuel := (encodeAll before).length) (length_encodeAll _) (by rw [h1]; simp) (by simp)
  rw [encodeAll_nil, List.length_nil] at hblank
  have hlt : (encodeAll before).length < (encodeAll (a ++ c :: b)).length := by
    rw [h1]
    simp only [encodeAll_append, encodeAll_cons, List.length_append]
    omega
  by_cases hw : InWord c
  · refine ⟨before, mid ++ c :: b.takeWhile isWord, b.dropWhile isWord, ⟨?_, ?_, fun h => absurd hw h, fun _ => ?_, fun _ => (h4 hw).2, fun _ => dropWhile_first b⟩, ?_⟩
    · rw [h1]; simp [List.takeWhile_append_dropWhile]
    · rw [h1]; simp
    · intro x hx
      simp only [List.mem_append, List.mem_cons] at hx
      rcases hx with hx | rfl | hx
      · exact (h4 hw).1 x hx
      · exact hw
      · exact takeWhile_all b x hx
    · have hword : ∀ x ∈ mid ++ c :: b.takeWhile isWord, InWord x := by
        intro x hx
        simp only [List.mem_append, List.mem_cons] at hx
        rcases hx with hx | rfl | hx
        · exact (h4 hw).1 x hx
        · exact hw
        · exact takeWhile_all b x hx
      have hall : a ++ c :: b = before ++ (mid ++ c :: b.takeWhile isWord) ++ b.dropWhile isWord := by
        rw [h1]; simp [List.takeWhile_append_dropWhile]
      have hsz : (mid ++ c :: b.takeWhile isWord).length < (encodeAll (a ++ c :: b)).length + 1 := by
        have := length_encodeAll (a ++ c :: b)
        rw [hall] at this ⊢
        simp only [List.length_append] at this ⊢
        omega
      have hlen := lengthLoop_spec hv (size := (encodeAll (a ++ c :: b)).length) (mid ++ c :: b.takeWhile isWord) (pre := before)
        (after := b.dropWhile isWord) (more := ts ++ [0]) (fuel := (encodeAll (a ++ c :: b)).length + 1) (j := (encodeAll before).length) hsz
        (by rw [hall]; simp) (by rw [← hall]) hword (dropWhile_first b)
      have hlen' : length (encodeAll (a ++ c :: b ++ ts ++ [0])) (encodeAll (a ++ c :: b)).length (encodeAll before).length =
          some ((mid.length + (b.takeWhile isWord).length) + 1) := by
        rw [length, hlen, Option.map_some, if_neg (by omega), if_neg (by simp)]
        simp; omega
      rw [splice, text_zero, h2, takeWhile_line hc ht]
      simp only
      rw [hlen']
      simp only
      rw [hblank]
      simp [marks]
  · obtain rfl := h3 hw
    rw [List.append_nil] at h1
    subst h1
    refine ⟨a, [c], b, ⟨by simp, by simp, fun _ => rfl, fun h => absurd h hw, fun h => absurd h hw, fun h => absurd h hw⟩, ?_⟩
    have hlen := lengthLoop_spec hv (size := (encodeAll (a ++ c :: b)).length) [] (pre := a)
      (after := c :: b) (more := ts ++ [0]) (fuel := (encodeAll (a ++ c :: b)).length + 1) (j := (encodeAll a).length) (by simp)
      (by simp) (by simp) (by simp) (by intro x s h; simp only [List.cons.injEq] at h; rw [← h.1]; exact hw)
    have hlen' : length (encodeAll (a ++ c :: b ++ ts ++ [0])) (encodeAll (a ++ c :: b)).length (encodeAll a).length = some (0 + 1) := by
      rw [length, hlen, Option.map_some, if_neg (by omega), if_pos (by simp)]
    rw [splice, text_zero, h2, takeWhile_line hc ht]
    simp only
    rw [hlen']
    simp only
    rw [hblank]
    simp [marks]

/-- The position is behind the line: nothing is marked. -/
theorem splice_plain (msg : List Nat) {cs ts a b : List Nat} {c i : Nat} (hc : ∀ x ∈ cs, Inner x) (ht : Behind ts)
    (he : ts ++ [0] = a ++ c :: b) (hi : i < (encode c).length) :
    splice msg (encodeAll (cs ++ ts)) ((encodeAll (cs ++ a)).length + i) = fit (msg ++ [10] ++ encodeAll cs) := by
  have hv := text_valid hc ht
  obtain ⟨before, mid, h1, h2, h3, h4⟩ := literal_spec (a := cs ++ a) (b := b) hv (by rw [List.append_assoc, he]; simp) hi
  have hn10 : ¬ InWord 10 := by decide
  have hn0 : ¬ InWord 0 := by decide
  have hle : ∃ r, before = cs ++ r := by
    by_cases hw : InWord c
    · -- the word does not reach over the end of the line
      obtain ⟨g1, g2⟩ := h4 hw
      cases a with
      | nil =>
        exfalso
        rcases ht.2 with rfl | ⟨more, rfl⟩
        · simp only [List.nil_append, List.cons.injEq] at he; rw [← he.1] at hw; exact hn0 hw
        · simp only [List.nil_append, List.cons_append, List.cons.injEq] at he; rw [← he.1] at hw; exact hn10 hw
      | cons x a =>
        have hx : ¬ InWord x := by
          rcases ht.2 with rfl | ⟨more, rfl⟩
          · simp only [List.nil_append, List.cons_append, List.cons.injEq] at he; rw [← he.1]; exact hn0
          · simp only [List.cons_append, List.cons.injEq] at he; rw [← he.1]; exact hn10
        by_cases hl : cs.length ≤ before.length
        · refine ⟨before.drop cs.length, ?_⟩
          have : cs = before.take cs.length := by
            have := congrArg (List.take cs.length) h1
            rw [List.take_left, List.take_append_of_le_length hl] at this
            exact this
          conv => lhs; rw [← List.take_append_drop cs.length before, ← this]
        · exfalso
          have hm : x ∈ mid := by
            have := congrArg (List.drop before.length) h1
            rw [List.drop_left, List.drop_append_of_le_length (by omega)] at this
            rw [← this]; simp
          exact hx (g1 x hm)
    · obtain rfl := h3 hw
      exact ⟨a, by simpa using h1.symm⟩
  obtain ⟨r, hr⟩ := hle
  have hge : (encodeAll before).length ≥ (encodeAll cs).length := by
    rw [hr, encodeAll_append, List.length_append]; omega
  have hlen' : length (encodeAll (cs ++ ts ++ [0])) (encodeAll cs).length (encodeAll before).length = some 0 := by
    rw [length, lengthLoop, if_neg (by omega), Option.map_some, if_pos hge]
  rw [splice, text_zero, h2, takeWhile_line hc ht]
  simp only
  rw [hlen']

end RuC.Logger
