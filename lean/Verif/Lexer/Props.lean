import Verif.Lexer.Punct

/-!
# C22 to C25, C49, C50: lexing
-/

namespace RuC.Lexer
open RuC RuC.Utf8

/-! ## C22 -/

/-- A longest punctuator: `>>=` in `>>=x`. -/
example : LongestPunct (codes ">>=x") .greaterGreaterEqual (codes "x") ∧ ¬ StartsComment (codes ">>=x") ∧
    ¬ StartsFraction (codes ">>=x") :=
  ⟨⟨">>=", by decide, by decide, by decide⟩, by simp [StartsComment, codes, List.cons_prefix_cons],
    by simp [StartsFraction, codes, List.cons_prefix_cons]⟩

/-! ## C23 -/

/-- C23, first half.  A call of `lex` that returns leaves a part of the text at its end; it answers the end
of file only when nothing is left and otherwise takes at least one character. -/
theorem lex_progress (refs : List Nat → Int) {s : List Nat} {t : Tok} {es : List Err} {r : List Nat}
    (h : lex refs s = .tok t es r) : r <:+ s ∧ (t = .eof → r = []) ∧ (t ≠ .eof → r.length < s.length) := by
  have := lexLoop_progress (refs := refs) (s.length + 1) s
  rw [← lex, h] at this
  exact this

/-- C23, second half.  For a text that ends with a line end (not written `\` line end) and in which no more
than eighteen decimal digits stand in a row, every call of `lex` returns, and lexing again and again
reaches the end of file after no more tokens than the text has characters.  Missing: a string literal that
is not closed before the end of the text (`unclosed_string_never`); longer exponents
(`long_exponent_undefined`). -/
theorem lexing_terminates_partial (refs : List Nat → Int) {s : List Nat} (h : EndsLine s) (hn : ShortNumbers s) :
    (∃ t es r, lex refs s = .tok t es r) ∧ ∃ ts, Lexes refs s ts ∧ ts.length ≤ s.length := by
  refine ⟨lexLoop_defined _ s (by omega) h hn, ?_⟩
  suffices ∀ (n : Nat) (s : List Nat), s.length ≤ n → EndsLine s → ShortNumbers s → ∃ ts, Lexes refs s ts ∧ ts.length ≤ s.length from
    this s.length s (Nat.le_refl _) h hn
  intro n
  induction n with
  | zero =>
    intro s hs _ _
    obtain rfl : s = [] := by simpa using hs
    exact ⟨[], .eof (es := []) rfl, by simp⟩
  | succ n ih =>
    intro s hs h hn
    obtain ⟨t, es, r, e⟩ : ∃ t es r, lex refs s = .tok t es r := lexLoop_defined _ s (by omega) h hn
    obtain ⟨h1, h2, h3⟩ := lex_progress refs e
    by_cases ht : t = .eof
    · have hr := h2 ht
      subst ht hr
      exact ⟨[], .eof e, by simp⟩
    · have hr := h3 ht
      obtain ⟨ts, h4, h5⟩ := ih r (by omega) (endsLine_suffix h1 h) (shortNumbers_suffix h1 hn)
      exact ⟨t :: ts, .tok e ht h4, by simp only [List.length_cons]; omega⟩

/-- Whatever the digits, a text that ends with a line end never keeps the lexer from returning for ever. -/
theorem lexing_never_hangs_partial (refs : List Nat → Int) {s : List Nat} (h : EndsLine s) : lex refs s ≠ .never :=
  lexLoop_not_never _ s (by omega) h

example : EndsLine (codes "int a = 1;\n") ∧ ShortNumbers (codes "x1\n") := by
  refine ⟨.inr (.inr ⟨codes "int a = 1", 59, by decide, by decide⟩), ?_⟩
  intro ds h _
  have := h.length_le
  have e : (codes "x1\n").length = 3 := by decide
  omega

/-- The code does not have the second half in full: the lexer never returns from a string literal that
is not closed before the end of the text. -/
theorem unclosed_string_never : ∀ refs s, (∀ c ∈ s, c ≠ 34 ∧ c ≠ 10 ∧ c ≠ 92) → lex refs (34 :: s) = .never := by
  intro refs s h
  have hb : stringBody s = none := by
    induction s with
    | nil => rfl
    | cons c s ih =>
      have hc := h c (by simp)
      rw [stringBody.eq_def]
      simp only
      rw [if_neg (by omega), if_neg (by omega), ih fun x hx => h x (by simp [hx])]
      rfl
  rw [lex_eq, skipWs_quote]
  simp only
  rw [if_neg (by decide), if_neg (by decide), if_pos trivial, lexString, stringLoop.eq_def]
  simp only
  rw [hb]

/-- Nor is every literal defined: an exponent of 2^63 overflows. -/
theorem long_exponent_undefined (refs : List Nat → Int) : lex refs (codes "1e9223372036854775808\n") = .undef := by
  rw [show codes "1e9223372036854775808\n" = 49 :: codes "e9223372036854775808\n" by decide, lex_digit _ _ (by decide)]
  decide +kernel

/-! ## C24 -/

/-- How far decimal integers go: a number is an integer token of its value when it is less than 10 * 2^60, and
otherwise a floating token. -/
theorem decimal_literal_exact (refs : List Nat → Int) {ds rest : List Nat} {n : Nat} (hne : ds ≠ []) (hn : numeral 10 ds = some n)
    (hr : Follows rest) :
    lex refs (ds ++ rest) = .tok (if n < 11529215046068469760 then .int n else .float) [] rest := by
  have hpow : ∀ {v n : Nat} {ds : List Nat}, numeralFrom 10 (some v) ds = some n → (false = false → ∀ c ∈ ds, isPower c = false) :=
    fun h _ c hc => isDigit_not_power (numeralFrom_digits h c hc)
  have fin : ∀ {w : Nat} (_ : n < 1152921504606846976 * 10 → w = n),
      Outcome.tok (if decide (n < 1152921504606846976 * 10) = true then .int w else .float) [] rest =
        .tok (if n < 11529215046068469760 then .int n else .float) [] rest := by
    intro w hw
    by_cases h : n < 1152921504606846976 * 10
    · rw [hw h, if_pos (by simpa using h), if_pos (by omega)]
    · rw [if_neg (by simpa using h), if_neg (by omega)]
  cases ds with
  | nil => exact absurd rfl hne
  | cons c ds =>
    have hn' : numeralFrom 10 (some 0) (c :: ds) = some n := hn
    have hdig := numeralFrom_digits hn' c (by simp)
    rw [List.cons_append, lex_digit refs _ hdig]
    by_cases h48 : c = 48
    · subst h48
      have hm : modifier (48 :: (ds ++ rest)) = (10, false, ds ++ rest) := by
        have hx : ∀ x, (ds ++ rest).head? = some x → isDigit x = true ∨ isLetter x = false := by
          intro x hx
          cases ds with
          | nil => exact .inr (hr x hx).1
          | cons y ds => injection hx with hx; subst hx; exact .inl (numeralFrom_digits hn' y (by simp))
        cases hds : ds ++ rest with
        | nil => rfl
        | cons x xs =>
          have hx := hx x (by rw [hds]; rfl)
          have : ¬ (x = 120 ∨ x = 88) ∧ ¬ (x = 100 ∨ x = 68) ∧ ¬ (x = 111 ∨ x = 79) ∧ ¬ (x = 98 ∨ x = 66) := by
            rcases hx with hx | hx
            · simp [isDigit] at hx; omega
            · simp [isLetter] at hx; omega
          rw [modifier, if_neg this.1, if_neg this.2.1, if_neg this.2.2.1, if_neg this.2.2.2]
      obtain ⟨d, h1, h2, h3⟩ := numeralFrom_cons hn'
      rw [digitValue_48] at h1
      injection h1 with h1
      subst h1
      obtain ⟨w, hw, hwn⟩ := literal_exact (m := false) (by omega) (by omega) h3 (hpow h3) hr
      rw [lexNumeric, hm]
      simp only
      rw [hw]
      simp only
      rw [follows_fraction hr]
      exact fin hwn
    · have hm : modifier (c :: (ds ++ rest)) = (10, false, c :: (ds ++ rest)) := by
        rw [modifier]
        · intro d t e; injection e; contradiction
        · intro e; injection e; contradiction
      obtain ⟨w, hw, hwn⟩ := literal_exact (m := false) (by omega) (by omega) hn' (hpow hn') hr
      rw [lexNumeric, hm]
      simp only
      rw [List.cons_append] at hw
      rw [hw]
      simp only
      rw [follows_fraction hr]
      exact fin hwn

/-- C24.  Decimal digits that stand for no more than 2^63 - 1, followed by neither a letter, a digit nor
a period, are an integer token of that value, and what follows them is left. -/
theorem decimal_literal (refs : List Nat → Int) {ds rest : List Nat} {n : Nat} (hne : ds ≠ []) (hn : numeral 10 ds = some n)
    (hlt : n < 9223372036854775808) (hr : Follows rest) : lex refs (ds ++ rest) = .tok (.int n) [] rest := by
  rw [decimal_literal_exact refs hne hn hr, if_pos (by omega)]

/-- How far the integers of each base go: a number is an integer token of its value when it is less than
2^60 times its base, and otherwise a floating token. -/
theorem prefixed_literal_exact (refs : List Nat → Int) {p : String} {base : Nat} (hp : (p, base) ∈ basePrefixes)
    {ds rest : List Nat} {n : Nat} (hn : numeral base ds = some n) (hr : Follows rest) :
    lex refs (codes p ++ ds ++ rest) = .tok (if n < 1152921504606846976 * base then .int n else .float) [] rest := by
  have hn' : numeralFrom base (some 0) ds = some n := hn
  have hm : ∀ e ∈ basePrefixes, ∃ x, codes e.1 = [48, x] ∧ (∀ s, modifier (48 :: x :: s) = (e.2, true, s)) ∧ 2 ≤ e.2 ∧ e.2 ≤ 16 := by
    intro e he
    simp only [basePrefixes, List.mem_cons, List.not_mem_nil, or_false] at he
    rcases he with rfl | rfl | rfl | rfl | rfl | rfl | rfl | rfl <;>
      exact ⟨_, rfl, fun s => rfl, by decide, by decide⟩
  obtain ⟨x, h1, h2, h3, h4⟩ := hm _ hp
  simp only at h1 h2 h3 h4
  obtain ⟨w, hw, hwn⟩ := literal_exact (m := true) h3 h4 hn' (by simp) hr
  rw [h1]
  simp only [List.cons_append, List.nil_append]
  rw [lex_digit refs _ (by decide), lexNumeric, h2]
  simp only
  rw [hw]
  simp only
  rw [follows_fraction hr]
  by_cases h : n < 1152921504606846976 * base
  · rw [hwn h, if_pos (by simpa using h), if_pos h]
  · rw [if_neg (by simpa using h), if_neg h]

/-- C24.  The same for a base written by its prefix, for every base but two. -/
theorem prefixed_literal (refs : List Nat → Int) {p : String} {base : Nat} (hp : (p, base) ∈ basePrefixes) (hb : base ≠ 2)
    {ds rest : List Nat} {n : Nat} (hn : numeral base ds = some n)
    (hlt : n < 9223372036854775808) (hr : Follows rest) : lex refs (codes p ++ ds ++ rest) = .tok (.int n) [] rest := by
  have hb8 : ∀ e ∈ basePrefixes, e.2 ≠ 2 → 8 ≤ e.2 := by decide
  have := hb8 _ hp hb
  simp only at this
  rw [prefixed_literal_exact refs hp hn hr, if_pos (by omega)]

/-- A binary number that fits 64 bits can come out as a floating literal: 2^61. -/
theorem binary_literal_float (refs : List Nat → Int) :
    numeral 2 (49 :: List.replicate 61 48) = some 2305843009213693952 ∧
    lex refs (codes "0b" ++ (49 :: List.replicate 61 48)) = .tok .float [] [] := by
  have h : numeral 2 (49 :: List.replicate 61 48) = some 2305843009213693952 := by decide +kernel
  refine ⟨h, ?_⟩
  have := prefixed_literal_exact refs (p := "0b") (base := 2) (by decide) h (rest := []) (by intro c hc; cases hc)
  rw [List.append_nil] at this
  rw [this, if_neg (by omega)]

example : numeral 16 (codes "fF") = some 255 ∧ numeral 8 (codes "17") = some 15 ∧ numeral 10 (codes "9223372036854775807") = some 9223372036854775807 ∧
    Follows (codes ";") := by
  refine ⟨by decide, by decide, by decide +kernel, ?_⟩
  intro c hc
  have : c = 59 := by injection hc with hc; exact hc.symm
  subst this; decide

/-! ## C25 -/

/-- C25.  A line comment ends at the first line end or at the end of the text, and the text from there on is
lexed as if the comment were absent. -/
theorem line_comment_skipped (refs : List Nat → Int) {body rest : List Nat} (hb : 10 ∉ body)
    (hr : rest = [] ∨ rest.head? = some 10) : lex refs (codes "//" ++ body ++ rest) = lex refs rest := by
  rw [show codes "//" = [47, 47] by decide]
  simp only [List.cons_append, List.nil_append]
  rw [lex_slash_slash]
  have := skipLine_line (b := 47 :: body) (r := rest) (by simpa using hb) hr
  rw [List.cons_append] at this
  rw [this]

/-- C25.  A block comment whose first `*/` (the asterisk of the opening counted in) is the written one is
skipped exactly, provided that the asterisk of the opening and the body together end with an even number of asterisks.
Missing: bodies that start with `/` (`slash_star_slash_closes`) and bodies that end with an odd number of
asterisks before the closing one, the empty body among them (`block_comment_missed`). -/
theorem block_comment_skipped_partial (refs : List Nat → Int) {body rest : List Nat}
    (hb : ¬ codes "*/" <:+: codes "*" ++ body ++ codes "*") (hs : endStars (codes "*" ++ body) % 2 = 0) :
    lex refs (codes "/*" ++ body ++ codes "*/" ++ rest) = lex refs rest := by
  have h := skipBlock_first (42 :: body).length (42 :: body) rest (Nat.le_refl _) hb
  have hs' : endStars (42 :: body) % 2 = 0 := hs
  rw [if_pos hs'] at h
  have e : codes "/*" ++ body ++ codes "*/" ++ rest = 47 :: 42 :: (body ++ 42 :: 47 :: rest) := by
    rw [show codes "/*" = [47, 42] by decide, show codes "*/" = [42, 47] by decide]; simp
  rw [List.cons_append] at h
  rw [e, lex_slash_star, h, after_nil]

example : ¬ codes "*/" <:+: codes "*" ++ codes " a / b * c " ++ codes "*" ∧ endStars (codes "*" ++ codes " a / b * c ") % 2 = 0 := by
  decide +kernel

/-- The code does not have C25 in full: with an odd number of asterisks there the closing `*/` is missed and the
comment goes on into the rest. -/
theorem block_comment_missed (refs : List Nat → Int) {body rest : List Nat}
    (hb : ¬ codes "*/" <:+: codes "*" ++ body ++ codes "*") (hs : endStars (codes "*" ++ body) % 2 = 1) :
    lex refs (codes "/*" ++ body ++ codes "*/" ++ rest) = (lex refs (skipBlockComment rest).1).after (skipBlockComment rest).2 := by
  have h := skipBlock_first (42 :: body).length (42 :: body) rest (Nat.le_refl _) hb
  have hs' : endStars (42 :: body) % 2 = 1 := hs
  rw [if_neg (by omega)] at h
  have e : codes "/*" ++ body ++ codes "*/" ++ rest = 47 :: 42 :: (body ++ 42 :: 47 :: rest) := by
    rw [show codes "/*" = [47, 42] by decide, show codes "*/" = [42, 47] by decide]; simp
  rw [List.cons_append] at h
  rw [e, lex_slash_star, h]

/-- In particular an empty comment `/**/` does not end: the text after it is lost. -/
theorem empty_comment_missed (refs : List Nat → Int) :
    lex refs (codes "/**/ a;") = .tok .eof [.unterminatedBlockComment] [] := by
  have := block_comment_missed refs (body := []) (rest := codes " a;") (by decide +kernel) (by decide +kernel)
  rw [show codes "/**/ a;" = codes "/*" ++ [] ++ codes "*/" ++ codes " a;" by decide, this,
    show skipBlockComment (codes " a;") = ([], [.unterminatedBlockComment]) by decide]
  rfl

/-- And `/*/` is taken for a whole comment. -/
theorem slash_star_slash_closes (refs : List Nat → Int) (rest : List Nat) : lex refs (codes "/*/" ++ rest) = lex refs rest := by
  rw [show codes "/*/" = [47, 42, 47] by decide]
  simp only [List.cons_append, List.nil_append]
  rw [lex_slash_star, skipBlockComment.eq_def]
  simp [after_nil]

/-! ## Blank space -/

/-- Blank space before a token does not matter. -/
theorem blanks_skipped (refs : List Nat → Int) {ws s : List Nat} (h : ∀ c ∈ ws, Blank c) : lex refs (ws ++ s) = lex refs s := by
  rw [lex_eq refs (ws ++ s), skipWs_append h, ← lex_eq]

/-! ## C49: words -/

/-- C49.  A word is read to its end: after a letter or `#` come letters and digits as long as there are any.
It is an identifier of that name unless its reference is negative, and then the keyword of that kind; the
word of a line directive hides the rest of its line. -/
theorem word_read (refs : List Nat → Int) {c : Nat} {w rest : List Nat} (hc : isLetter c = true ∨ c = 35)
    (hw : ∀ x ∈ w, isLetter x = true ∨ isDigit x = true)
    (hr : ∀ x, rest.head? = some x → isLetter x = false ∧ isDigit x = false) :
    (refs (c :: w) ≥ 0 → lex refs (c :: w ++ rest) = .tok (.ident (c :: w)) [] rest) ∧
    (refs (c :: w) < 0 → refs (c :: w) ≠ TK_LINE → lex refs (c :: w ++ rest) = .tok (.keyword (refs (c :: w))) [] rest) ∧
    (refs (c :: w) = TK_LINE → lex refs (c :: w ++ rest) = lex refs (skipLineComment rest)) := by
  obtain ⟨h1, h2, h3, h4, h5, h6, h7⟩ := letter_class hc
  have key : lex refs (c :: w ++ rest) =
      match lexWord refs c (w ++ rest) with
      | (.keyword k, s) => if k = TK_LINE then lex refs (skipLineComment s) else .tok (.keyword k) [] s
      | (t, s) => .tok t [] s := by
    rw [List.cons_append, lex_eq, skipWhitespace, if_neg h1]
    simp only
    rw [if_neg (by simp [h2]), if_neg h3, if_neg h4, if_neg (by omega), if_neg (by omega), if_neg (by omega), h7]
    simp only
    rw [if_pos hc]
    rfl
  rw [key]
  simp only [lexWord, wordTail_word hw hr]
  refine ⟨fun h => ?_, fun h hl => ?_, fun h => ?_⟩
  · rw [if_pos h]
  · rw [if_neg (by omega)]
    simp only
    rw [if_neg hl]
  · have : refs (c :: w) < 0 := by rw [h]; decide
    rw [if_neg (by omega)]
    simp only
    rw [if_pos h]

/-- C49.  Both names of every keyword, as they are and in upper case, have the kind of the keyword, and no name
belongs to two keywords. -/
theorem keywords_known : ∀ k ∈ keywordList, ∀ name ∈ [k.1, k.2.1, k.1.map toUpper, k.2.1.map toUpper],
    initialRefs name = k.2.2 ∧ ∀ k' ∈ keywordList, name ∈ [k'.1, k'.2.1, k'.1.map toUpper, k'.2.1.map toUpper] → k' = k := by
  decide +kernel

/-- C49.  Every other name is an identifier. -/
theorem other_names_free (name : List Nat) (h : ∀ k ∈ keywordList, name ∉ [k.1, k.2.1, k.1.map toUpper, k.2.1.map toUpper]) :
    initialRefs name ≥ 0 := by
  rw [initialRefs]
  split
  · next e he =>
    have hm := List.mem_of_find?_eq_some he
    have hp := List.find?_some he
    obtain ⟨k, hk, hek⟩ := List.mem_flatMap.1 hm
    have hn : e.1 = name := by simpa using hp
    have := h k hk
    simp only [addKeyword, List.mem_cons, List.not_mem_nil, or_false] at hek this
    rw [← hn] at this
    rcases hek with rfl | rfl | rfl | rfl <;> simp at this
  · decide

/-! ## C50: string and character literals -/

/-- C50.  String literals one after another with only blank space between them are one string token: the
characters they contain, escape sequences replaced by what they mean, without any error.  The blank space
after them is taken too. -/
theorem string_literal_read (refs : List Nat → Int) {t cs rest : List Nat} (h : Literals t cs)
    (hr : (skipWhitespace rest).head? ≠ some 34) : lex refs (t ++ rest) = .tok (.string cs) [] (skipWhitespace rest) := by
  obtain ⟨t', rfl⟩ := literals_head h
  rw [List.cons_append, lex_eq, skipWs_quote]
  simp only
  rw [if_neg (by decide), if_neg (by decide), if_pos trivial, lexString]
  have := stringLoop_literals h hr ((34 :: (t' ++ rest)).length + 1) [] (by simp; omega)
  rw [List.cons_append, List.nil_append] at this
  exact this

/-- C50.  Every text is the content of some literal. -/
theorem string_literal_exists (cs : List Nat) : ∃ t, Body t cs := by
  induction cs with
  | nil => exact ⟨[], .nil⟩
  | cons c cs ih =>
    obtain ⟨t, h⟩ := ih
    have : ∃ u, Elem u c := by
      by_cases hc : c ∈ codes "\"\\\n"
      · rw [show codes "\"\\\n" = [34, 92, 10] by decide] at hc
        simp only [List.mem_cons, List.not_mem_nil, or_false] at hc
        rcases hc with rfl | rfl | rfl
        · exact ⟨_, .escape ("\\\"", 34) (by decide)⟩
        · exact ⟨_, .escape ("\\\\", 92) (by decide)⟩
        · exact ⟨_, .escape ("\\n", 10) (by decide)⟩
      · exact ⟨_, .plain c hc⟩
    obtain ⟨u, hu⟩ := this
    exact ⟨_, .cons hu h⟩

example : Literals (codes "\"a\\n\" \"b\"") (codes "a\nb") := by
  have h1 : Body (codes "a\\n") (codes "a\n") :=
    .cons (.plain 97 (by decide)) (.cons (.escape ("\\n", 10) (by decide)) .nil)
  have h2 : Body (codes "b") (codes "b") := .cons (.plain 98 (by decide)) .nil
  exact .more h1 (ws := [32]) (by decide) (.one h2 (ws := []) (by simp))

/-- C50.  A character literal of one element is a token of its value. -/
theorem char_literal_read (refs : List Nat → Int) {t rest : List Nat} {c : Nat} (h : Elem t c) (hq : t ≠ [39]) :
    lex refs (39 :: t ++ 39 :: rest) = .tok (.char c) [] rest := by
  rw [List.cons_append, lex_eq, show ∀ s, skipWhitespace (39 :: s) = 39 :: s from fun s => by rw [skipWhitespace]; simp]
  simp only
  rw [if_neg (by decide), if_pos trivial]
  cases h with
  | plain _ h =>
    have h92 : c ≠ 92 := by
      rw [show codes "\"\\\n" = [34, 92, 10] by decide] at h
      simp at h; omega
    have h39 : c ≠ 39 := fun e => hq (by rw [e])
    simp [lexChar, nextElem, h39, h92]
  | escape e h =>
    obtain ⟨d, e1, e2⟩ := escape_spec e h
    rw [e1]
    simp [lexChar, nextElem, e2]

end RuC.Lexer
