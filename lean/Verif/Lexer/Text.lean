import Verif.Lexer.Lemmas

/-!
# Lemmas about comments, numbers and literals
-/

namespace RuC.Lexer
open RuC RuC.Utf8

/-! ## Comments -/

theorem lex_slash_slash (refs : List Nat → Int) (s : List Nat) :
    lex refs (47 :: 47 :: s) = lex refs (skipLineComment (47 :: s)) := by
  rw [lex_eq]
  simp [skipWhitespace, isDigit]

theorem lex_slash_star (refs : List Nat → Int) (s : List Nat) :
    lex refs (47 :: 42 :: s) = (lex refs (skipBlockComment (42 :: s)).1).after (skipBlockComment (42 :: s)).2 := by
  rw [lex_eq]
  simp [skipWhitespace, isDigit]

theorem after_nil (o : Outcome) : o.after [] = o := by cases o <;> simp [Outcome.after]

theorem skipLine_line {b r : List Nat} (hb : 10 ∉ b) (hr : r = [] ∨ r.head? = some 10) : skipLineComment (b ++ r) = r := by
  induction b with
  | nil =>
    cases r with
    | nil => rfl
    | cons c r =>
      simp at hr
      subst hr
      rfl
  | cons c b ih =>
    simp at hb
    rw [List.cons_append, skipLineComment, if_pos (by omega)]
    exact ih hb.2

theorem endStars_cons_ne {c : Nat} (s : List Nat) (h : c ≠ 42) : endStars (c :: s) = endStars s := by
  rw [endStars, endStars, List.reverse_cons, List.takeWhile_append]
  split
  · next e => simp at e; simp [h, e]
  · rfl

theorem endStars_star (s : List Nat) :
    endStars (42 :: s) = if endStars s = s.length then s.length + 1 else endStars s := by
  rw [endStars, endStars, List.reverse_cons, List.takeWhile_append]
  simp only [List.length_reverse]
  split <;> simp

theorem endStars_le (s : List Nat) : endStars s ≤ s.length := by
  have := (List.takeWhile_prefix (l := s.reverse) (fun x => decide (x = 42))).length_le
  simpa [endStars] using this

/-- The comment loop over a text up to the first `*/`: it stops there when the text before it ends with an
even number of asterisks and runs over it otherwise. -/
theorem skipBlock_first : ∀ (n : Nat) (b r : List Nat), b.length ≤ n → ¬ [42, 47] <:+: b ++ [42] →
    skipBlockComment (b ++ 42 :: 47 :: r) = if endStars b % 2 = 0 then (r, []) else skipBlockComment r := by
  intro n
  induction n with
  | zero =>
    intro b r h _
    obtain rfl : b = [] := by simpa using h
    simp [skipBlockComment, endStars]
  | succ n ih =>
    intro b r h hb
    cases b with
    | nil => simp [skipBlockComment, endStars]
    | cons c b =>
      simp only [List.length_cons] at h
      have hb1 : ¬ [42, 47] <:+: b ++ [42] := fun e => hb (e.trans (List.suffix_cons c (b ++ [42])).isInfix)
      rw [List.cons_append, skipBlockComment.eq_def]
      simp only
      by_cases hc : c = 42
      · subst hc
        rw [if_pos rfl]
        cases b with
        | nil =>
          simp only [List.nil_append]
          rw [if_neg (by omega), if_neg (by simp [endStars]), skipBlockComment.eq_def]
          simp
        | cons d b =>
          simp only [List.length_cons] at h
          have hd : d ≠ 47 := by
            intro e
            subst e
            exact hb ⟨[], b ++ [42], rfl⟩
          have hb2 : ¬ [42, 47] <:+: b ++ [42] := fun e => hb1 (e.trans (List.suffix_cons d (b ++ [42])).isInfix)
          simp only [List.cons_append]
          rw [if_neg hd, ih b r (by omega) hb2]
          have hp : endStars (42 :: d :: b) % 2 = endStars b % 2 := by
            have hle := endStars_le b
            rw [endStars_star]
            by_cases hd2 : d = 42
            · subst hd2
              rw [endStars_star]
              simp only [List.length_cons]
              split
              · simp; omega
              · rw [if_neg (by omega)]
            · rw [endStars_cons_ne _ hd2, if_neg (by simp; omega)]
          rw [hp]
      · rw [if_neg hc, ih b r (by omega) hb1, endStars_cons_ne _ hc]

/-! ## Numbers -/

theorem digitValue_spec {c d : Nat} (h : digitValue c = some d) :
    isHexaDigit c = true ∧ toNumber c = d ∧ d < 16 := by
  have hc : c < 128 := by
    apply Decidable.byContradiction
    intro hc
    have hne : ∀ x ∈ (codes "0123456789abcdef").zip (List.range 16) ++ (codes "ABCDEF").zip [10, 11, 12, 13, 14, 15], x.1 < 128 := by decide
    rw [digitValue] at h
    obtain ⟨l1, l2, e, _⟩ := List.lookup_eq_some_iff.1 h
    have := hne (c, d) (by rw [e]; simp)
    exact hc this
  have : ∀ c < 128, ∀ d ∈ digitValue c, isHexaDigit c = true ∧ toNumber c = d ∧ d < 16 := by
    decide +kernel
  exact this c hc d h

/-- The reading of a numeral from a value on. -/
theorem numeral_none (base : Nat) (ds : List Nat) :
    ds.foldl (fun (v : Option Nat) c => do
      let v ← v
      let d ← digitValue c
      if d < base then some (v * base + d) else none) none = none := by
  induction ds with
  | nil => rfl
  | cons c ds ih => exact ih

/-- The value of digits read after the value `v`. -/
def numeralFrom (base : Nat) (v : Option Nat) (ds : List Nat) : Option Nat :=
  ds.foldl (fun (v : Option Nat) c => do
      let v ← v
      let d ← digitValue c
      if d < base then some (v * base + d) else none) v

theorem numeralFrom_cons {base v n c : Nat} {ds : List Nat} (h : numeralFrom base (some v) (c :: ds) = some n) :
    ∃ d, digitValue c = some d ∧ d < base ∧ numeralFrom base (some (v * base + d)) ds = some n := by
  rw [numeralFrom, List.foldl_cons] at h
  cases hd : digitValue c with
  | none =>
    simp only [hd, Option.bind_eq_bind, Option.bind_some, Option.bind_none] at h
    exact absurd ((numeral_none base ds).symm.trans h) (by simp)
  | some d =>
    simp only [hd, Option.bind_eq_bind, Option.bind_some] at h
    by_cases hlt : d < base
    · rw [if_pos hlt] at h; exact ⟨d, rfl, hlt, h⟩
    · rw [if_neg hlt] at h
      exact absurd ((numeral_none base ds).symm.trans h) (by simp)

theorem numeralFrom_ge {base n : Nat} (hb : 0 < base) : ∀ {ds : List Nat} {v : Nat}, numeralFrom base (some v) ds = some n → v ≤ n := by
  intro ds
  induction ds with
  | nil => intro v h; simp [numeralFrom] at h; omega
  | cons c ds ih =>
    intro v h
    obtain ⟨d, _, _, h⟩ := numeralFrom_cons h
    have := ih h
    have := Nat.le_mul_of_pos_right v hb
    omega

/-- The number that stands before the last digit stays below 2^60. -/
theorem numeralFrom_prefix {base n : Nat} (hb : 0 < base) {ds : List Nat} {v c : Nat}
    (h : numeralFrom base (some v) (c :: ds) = some n) : v ≤ n / base := by
  obtain ⟨d, _, hd, h⟩ := numeralFrom_cons h
  have := numeralFrom_ge hb h
  rw [Nat.le_div_iff_mul_le hb]
  omega

/-- A character that ends a number. -/
def Ends (m : Bool) (rest : List Nat) : Prop :=
  ∀ c, rest.head? = some c → isHexaDigit c = false ∨ (m = false ∧ isPower c = true)

theorem digits_end {base : Nat} {m : Bool} {rest : List Nat} (h : Ends m rest) (v : Nat) (i : Bool) :
    digits base m rest v i = .done v i rest := by
  cases rest with
  | nil => rfl
  | cons c rest =>
    rw [digits]
    rcases h c rfl with h | h
    · rw [if_pos h]
    · split
      · rfl
      · simp

/-- The loop reads a numeral exactly as long as the value before the last digit is below 2^60. -/
theorem digits_exact {base : Nat} {m : Bool} (hb : 2 ≤ base) (hb' : base ≤ 16) {rest : List Nat} (hr : Ends m rest) {n : Nat} :
    ∀ {ds : List Nat} {v : Nat}, numeralFrom base (some v) ds = some n → n / base < 1152921504606846976 →
      (m = false → ∀ c ∈ ds, isPower c = false) → v < 18446744073709551616 →
      digits base m (ds ++ rest) v true = .done n true rest := by
  intro ds
  induction ds with
  | nil =>
    intro v h _ _ _
    simp [numeralFrom] at h
    subst h
    exact digits_end hr v true
  | cons c ds ih =>
    intro v h hn hp hv
    have hv' := numeralFrom_prefix (by omega) h
    obtain ⟨d, hd, hlt, h⟩ := numeralFrom_cons h
    obtain ⟨h1, h2, h3⟩ := digitValue_spec hd
    have hmul : v * base ≤ v * 16 := Nat.mul_le_mul_left v hb'
    rw [List.cons_append, digits, if_neg (by simp [h1]), if_neg, if_neg (by omega), if_neg (by omega), if_pos rfl, h2,
      Nat.mod_eq_of_lt (by omega)]
    · exact ih h hn (fun hm c hc => hp hm c (by simp [hc])) (by omega)
    · intro e
      have := hp e.1 c (by simp)
      rw [this] at e
      exact absurd e.2 (by decide)

/-- Once too large, a number is no integer any more. -/
theorem digits_float {base : Nat} {m : Bool} {rest : List Nat} (hr : Ends m rest) {n : Nat} :
    ∀ {ds : List Nat} {w v : Nat}, numeralFrom base (some w) ds = some n → (m = false → ∀ c ∈ ds, isPower c = false) →
      digits base m (ds ++ rest) v false = .done v false rest := by
  intro ds
  induction ds with
  | nil => intro w v h _; exact digits_end hr v false
  | cons c ds ih =>
    intro w v h hp
    obtain ⟨d, hd, hlt, h⟩ := numeralFrom_cons h
    obtain ⟨h1, h2, h3⟩ := digitValue_spec hd
    have hrec := ih (v := v) h (fun hm c hc => hp hm c (by simp [hc]))
    rw [List.cons_append, digits, if_neg (by simp [h1]), if_neg, if_neg (by omega), if_neg (by decide : ¬ (false = true))]
    · split <;> exact hrec
    · intro e
      have := hp e.1 c (by simp)
      rw [this] at e
      exact absurd e.2 (by decide)

theorem digits_too_large {base : Nat} {m : Bool} (hb : 2 ≤ base) (hb' : base ≤ 16) {rest : List Nat} (hr : Ends m rest) {n : Nat} :
    ∀ {ds : List Nat} {v : Nat}, numeralFrom base (some v) ds = some n → ds ≠ [] → 1152921504606846976 ≤ n / base →
      (m = false → ∀ c ∈ ds, isPower c = false) → v < 18446744073709551616 →
      ∃ w, digits base m (ds ++ rest) v true = .done w false rest := by
  intro ds
  induction ds with
  | nil => intro v h hne; exact absurd rfl hne
  | cons c ds ih =>
    intro v h _ hn hp hv
    obtain ⟨d, hd, hlt, h⟩ := numeralFrom_cons h
    obtain ⟨h1, h2, h3⟩ := digitValue_spec hd
    have hp' : m = false → ∀ c ∈ ds, isPower c = false := fun hm c hc => hp hm c (by simp [hc])
    have hmul : v * base ≤ v * 16 := Nat.mul_le_mul_left v hb'
    have hne : ¬ (m = false ∧ isPower c = true) := by
      intro e
      have := hp e.1 c (by simp)
      rw [this] at e
      exact absurd e.2 (by decide)
    rw [List.cons_append, digits, if_neg (by simp [h1]), if_neg hne, if_neg (by omega)]
    by_cases hbig : v ≥ 1152921504606846976
    · rw [if_pos (.inr (.inr hbig))]
      exact ⟨v, digits_float hr h hp'⟩
    · rw [if_neg (by omega), if_pos rfl, h2, Nat.mod_eq_of_lt (by omega)]
      by_cases he : ds = []
      · subst he
        simp [numeralFrom] at h
        have hdiv : (v * base + d) / base = v := by
          rw [Nat.add_comm, Nat.add_mul_div_right _ _ (by omega), Nat.div_eq_of_lt hlt, Nat.zero_add]
        rw [h] at hdiv
        omega
      · exact ih h he hn hp' (by omega)

/-- After the digits of an integer. -/
theorem fraction_end {m i : Bool} {v : Nat} {rest : List Nat}
    (h : ∀ c, rest.head? = some c → c ≠ 46 ∧ isPower c = false ∨ m = true) :
    fraction m i v rest = .tok (if i then .int v else .float) [] rest := by
  cases rest with
  | nil => rfl
  | cons c rest =>
    have hc := h c rfl
    rw [fraction.eq_def]
    simp only
    rw [if_neg (by rcases hc with hc | hc <;> simp_all), exponent.eq_def]
    simp only
    rw [if_neg (by rcases hc with hc | hc <;> simp_all)]

/-! ## String literals -/

theorem escape_spec : ∀ e ∈ escapes, ∃ d, codes e.1 = [92, d] ∧ escape d = (e.2, []) := by
  have : ∀ e ∈ escapes, codes e.1 = [92, (codes e.1).getD 1 0] ∧ escape ((codes e.1).getD 1 0) = (e.2, []) := by decide
  exact fun e he => ⟨_, this e he⟩

theorem stringBody_body {t cs : List Nat} (h : Body t cs) (r : List Nat) : stringBody (t ++ 34 :: r) = some (cs, [], 34 :: r) := by
  induction h with
  | nil => rw [List.nil_append, stringBody.eq_def]; simp
  | @cons t c ts cs h _ ih =>
    cases h with
    | plain _ h =>
      have hc : c ≠ 34 ∧ c ≠ 92 ∧ c ≠ 10 := by
        have e : codes "\"\\\n" = [34, 92, 10] := by decide
        rw [e] at h; simpa using h
      rw [List.append_assoc, List.singleton_append, stringBody.eq_def]
      simp only
      rw [if_neg (by omega), if_neg (by omega), ih]
      rfl
    | escape e h =>
      obtain ⟨d, e1, e2⟩ := escape_spec e h
      rw [e1, List.append_assoc]
      simp only [List.cons_append, List.nil_append]
      rw [stringBody.eq_def]
      simp only
      rw [if_neg (by omega), if_pos trivial, ih, e2]
      rfl

theorem blank_iff {c : Nat} : Blank c ↔ (c = 10 ∨ c = 13 ∨ c = 9 ∨ c = 32) := by
  have e : codes " \t\r\n" = [32, 9, 13, 10] := by decide
  rw [Blank, e]; simp; omega

theorem skipWs_append {ws : List Nat} (h : ∀ c ∈ ws, Blank c) (r : List Nat) : skipWhitespace (ws ++ r) = skipWhitespace r := by
  induction ws with
  | nil => rfl
  | cons c ws ih =>
    rw [List.cons_append, skipWhitespace, if_pos (blank_iff.1 (h c (by simp)))]
    exact ih fun x hx => h x (by simp [hx])

theorem literals_head {t cs : List Nat} (h : Literals t cs) : ∃ t', t = 34 :: t' := by
  cases h <;> exact ⟨_, rfl⟩

theorem skipWs_quote (s : List Nat) : skipWhitespace (34 :: s) = 34 :: s := by rw [skipWhitespace]; simp

theorem stringLoop_quote (n : Nat) {t cs : List Nat} (h : Body t cs) (r acc : List Nat) (es : List Err) :
    stringLoop (n + 1) (34 :: t ++ 34 :: r) acc es = stringLoop n (skipWhitespace r) (acc ++ cs) es := by
  rw [stringLoop.eq_def]
  simp only [List.cons_append]
  rw [stringBody_body h r]
  simp

theorem stringLoop_stop (n : Nat) {r : List Nat} (h : r.head? ≠ some 34) (acc : List Nat) (es : List Err) :
    stringLoop (n + 1) r acc es = .tok (.string acc) es r := by
  rw [stringLoop.eq_def]
  simp only
  split
  · simp at h
  · rfl

theorem stringLoop_literals {t cs : List Nat} (h : Literals t cs) {r : List Nat} (hr : (skipWhitespace r).head? ≠ some 34) :
    ∀ (n : Nat) (acc : List Nat), t.length < n →
      stringLoop n (t ++ r) acc [] = .tok (.string (acc ++ cs)) [] (skipWhitespace r) := by
  induction h with
  | @one t cs ws h hw =>
    intro n acc hn
    obtain ⟨n, rfl⟩ : ∃ k, n = k + 2 := ⟨n - 2, by simp at hn; omega⟩
    have e : 34 :: t ++ 34 :: ws ++ r = 34 :: t ++ 34 :: (ws ++ r) := by simp
    rw [e, stringLoop_quote (n + 1) h, skipWs_append hw, stringLoop_stop n hr]
  | @more t cs ws ts ds h hw h' ih =>
    intro n acc hn
    obtain ⟨n, rfl⟩ : ∃ k, n = k + 1 := ⟨n - 1, by simp at hn; omega⟩
    have e : 34 :: t ++ 34 :: ws ++ ts ++ r = 34 :: t ++ 34 :: (ws ++ (ts ++ r)) := by simp
    rw [e, stringLoop_quote n h, skipWs_append hw]
    obtain ⟨t', e'⟩ := literals_head h'
    have e2 : skipWhitespace (ts ++ r) = ts ++ r := by rw [e', List.cons_append, skipWs_quote]
    rw [e2, ih n (acc ++ cs) (by simp at hn; omega), List.append_assoc]

/-! ## Words -/

theorem wordTail_word {w r : List Nat} (h : ∀ c ∈ w, isLetter c = true ∨ isDigit c = true)
    (hr : ∀ c, r.head? = some c → isLetter c = false ∧ isDigit c = false) : wordTail (w ++ r) = (w, r) := by
  induction w with
  | nil =>
    cases r with
    | nil => rfl
    | cons c r =>
      have := hr c rfl
      rw [List.nil_append, wordTail, if_neg (by simp [this])]
  | cons c w ih =>
    rw [List.cons_append, wordTail, if_pos (by simpa using h c (by simp)), ih fun x hx => h x (by simp [hx])]

theorem letter_class {c : Nat} (h : isLetter c = true ∨ c = 35) :
    ¬ (c = 10 ∨ c = 13 ∨ c = 9 ∨ c = 32) ∧ isDigit c = false ∧ c ≠ 39 ∧ c ≠ 34 ∧ c ≠ 46 ∧ c ≠ 47 ∧
      ∀ s, lexPunct c s = none := by
  have hlt : isLetter c = true → c = 95 ∨ (65 ≤ c ∧ c ≤ 90) ∨ (97 ≤ c ∧ c ≤ 122) ∨ 1024 < c := by
    intro h; simp [isLetter, isRussian] at h; omega
  have hc : c = 35 ∨ c = 95 ∨ (65 ≤ c ∧ c ≤ 90) ∨ (97 ≤ c ∧ c ≤ 122) ∨ 1024 < c := by
    rcases h with h | h
    · exact .inr (hlt h)
    · exact .inl h
  refine ⟨by omega, by simp [isDigit]; omega, by omega, by omega, by omega, by omega, ?_⟩
  intro s
  rw [lexPunct] <;> omega

/-! ## Numbers in `lex` -/

theorem lex_digit (refs : List Nat → Int) {c : Nat} (s : List Nat) (h : isDigit c = true) :
    lex refs (c :: s) = lexNumeric (c :: s) := by
  have hc : ¬ (c = 10 ∨ c = 13 ∨ c = 9 ∨ c = 32) := by simp [isDigit] at h; omega
  rw [lex_eq, skipWhitespace, if_neg hc]
  simp only
  rw [if_pos h]

theorem follows_ends {m : Bool} {rest : List Nat} (h : Follows rest) : Ends m rest := by
  intro c hc
  obtain ⟨h1, h2, _⟩ := h c hc
  refine .inl ?_
  simp [isLetter] at h1
  simp [isHexaDigit, h2]
  omega

theorem follows_fraction {m i : Bool} {v : Nat} {rest : List Nat} (h : Follows rest) :
    fraction m i v rest = .tok (if i then .int v else .float) [] rest := by
  refine fraction_end fun c hc => .inl ?_
  obtain ⟨h1, h2, h3⟩ := h c hc
  refine ⟨h3, ?_⟩
  cases hp : isPower c with
  | false => rfl
  | true =>
    simp [isPower] at hp
    have : isLetter c = true := by rcases hp with ((rfl | rfl) | rfl) | rfl <;> decide
    rw [this] at h1
    cases h1

theorem digitValue_digit {c d : Nat} (h : digitValue c = some d) (hd : d < 10) : isDigit c = true ∧ (d = 0 → c = 48) := by
  have hc : c < 128 := by
    have := (digitValue_spec h).1
    simp [isHexaDigit, isDigit] at this
    omega
  have : ∀ c < 128, ∀ d ∈ digitValue c, d < 10 → isDigit c = true ∧ (d = 0 → c = 48) := by decide +kernel
  exact this c hc d h hd

theorem digitValue_48 : digitValue 48 = some 0 := by decide

theorem numeralFrom_digits {v n : Nat} : ∀ {ds : List Nat}, numeralFrom 10 (some v) ds = some n → ∀ c ∈ ds, isDigit c = true := by
  intro ds
  induction ds generalizing v with
  | nil => intro _ c hc; simp at hc
  | cons c ds ih =>
    intro h x hx
    obtain ⟨d, h1, h2, h3⟩ := numeralFrom_cons h
    rcases List.mem_cons.1 hx with rfl | hx
    · exact (digitValue_digit h1 h2).1
    · exact ih h3 x hx

/-- What the digit loop and the rest of `lex_numeric_literal` make of a numeral. -/
theorem literal_exact {base : Nat} {m : Bool} (hb : 2 ≤ base) (hb' : base ≤ 16) {ds rest : List Nat} {n : Nat}
    (hn : numeralFrom base (some 0) ds = some n) (hp : m = false → ∀ c ∈ ds, isPower c = false) (hr : Follows rest) :
    ∃ w, digits base m (ds ++ rest) 0 true = .done w (decide (n < 1152921504606846976 * base)) rest ∧
      (n < 1152921504606846976 * base → w = n) := by
  by_cases hlt : n < 1152921504606846976 * base
  · refine ⟨n, ?_, fun _ => rfl⟩
    rw [decide_eq_true hlt]
    exact digits_exact hb hb' (follows_ends hr) hn (by rw [Nat.div_lt_iff_lt_mul (by omega)]; exact hlt) hp (by omega)
  · have hge : 1152921504606846976 ≤ n / base := by rw [Nat.le_div_iff_mul_le (by omega)]; omega
    have hne : ds ≠ [] := by
      intro e
      subst e
      simp [numeralFrom] at hn
      have : 1152921504606846976 * base ≥ 1152921504606846976 := by omega
      omega
    obtain ⟨w, hw⟩ := digits_too_large hb hb' (follows_ends (m := m) hr) hn hne hge hp (by omega)
    exact ⟨w, by rw [decide_eq_false hlt]; exact hw, fun h => absurd h hlt⟩

end RuC.Lexer
