import Verif.Lexer.Spec

/-!
# Lemmas about the lexer
-/

namespace RuC.Lexer
open RuC RuC.Utf8

/-! ## The skipping functions -/

theorem skipWs_suffix (s : List Nat) : skipWhitespace s <:+ s := by
  induction s with
  | nil => simp [skipWhitespace]
  | cons c s ih =>
    rw [skipWhitespace]
    split
    · exact ih.trans (List.suffix_cons _ _)
    · exact List.suffix_refl _

theorem skipLine_suffix (s : List Nat) : skipLineComment s <:+ s := by
  induction s with
  | nil => simp [skipLineComment]
  | cons c s ih =>
    rw [skipLineComment]
    split
    · exact ih.trans (List.suffix_cons _ _)
    · exact List.suffix_refl _

theorem skipBlock_suffix : ∀ (n : Nat) (s : List Nat), s.length ≤ n → (skipBlockComment s).1 <:+ s := by
  intro n
  induction n with
  | zero => intro s h; obtain rfl : s = [] := by simpa using h
            simp [skipBlockComment]
  | succ n ih =>
    intro s h
    cases s with
    | nil => simp [skipBlockComment]
    | cons c s =>
      simp only [List.length_cons] at h
      rw [skipBlockComment.eq_def]
      simp only
      split
      · cases s with
        | nil => exact List.nil_suffix
        | cons d s =>
          simp only [List.length_cons] at h
          simp only
          split
          · exact ⟨[c, d], rfl⟩
          · exact (ih s (by omega)).trans ⟨[c, d], rfl⟩
      · exact (ih s (by omega)).trans (List.suffix_cons _ _)

theorem wordTail_suffix (s : List Nat) : (wordTail s).2 <:+ s := by
  induction s with
  | nil => simp [wordTail]
  | cons c s ih =>
    rw [wordTail]
    split
    · exact ih.trans (List.suffix_cons _ _)
    · exact List.suffix_refl _

theorem skipHexa_suffix (s : List Nat) : skipHexa s <:+ s := by
  induction s with
  | nil => simp [skipHexa]
  | cons c s ih =>
    rw [skipHexa]
    split
    · exact ih.trans (List.suffix_cons _ _)
    · exact List.suffix_refl _

theorem skipDigits_suffix (s : List Nat) : skipDigits s <:+ s := by
  induction s with
  | nil => simp [skipDigits]
  | cons c s ih =>
    rw [skipDigits]
    split
    · exact ih.trans (List.suffix_cons _ _)
    · exact List.suffix_refl _

theorem skipExponent_suffix (s : List Nat) : skipExponent s <:+ s := by
  induction s with
  | nil => simp [skipExponent]
  | cons c s ih =>
    rw [skipExponent]
    split
    · exact ih.trans (List.suffix_cons _ _)
    · exact List.suffix_refl _

/-! ## What an outcome leaves -/

/-- A call that returns leaves a part of the text `s` that satisfies `p`, and no end of file. -/
def Outcome.Leaves (p : List Nat → Prop) : Outcome → Prop
  | .tok t _ r => t ≠ .eof ∧ p r
  | _ => True

theorem Outcome.Leaves.mono {p q : List Nat → Prop} {o : Outcome} (h : o.Leaves p) (hpq : ∀ r, p r → q r) : o.Leaves q := by
  cases o <;> simp_all [Outcome.Leaves]

theorem suffix_tail {α} (s : List α) : s.tail <:+ s := List.tail_suffix s

theorem exponent_leaves (m i : Bool) (v : Nat) (s : List Nat) : (exponent m i v s).Leaves (· <:+ s) := by
  cases s with
  | nil => simp [exponent, Outcome.Leaves]; cases i <;> simp
  | cons c s =>
    rw [exponent]
    simp only
    have hs : (if s.head? = some 45 ∨ s.head? = some 43 then s.tail else s) <:+ c :: s := by
      split
      · exact (suffix_tail s).trans (List.suffix_cons _ _)
      · exact List.suffix_cons _ _
    generalize (if s.head? = some 45 ∨ s.head? = some 43 then s.tail else s) = t at hs
    split
    · split
      · split
        · trivial
        · refine ⟨?_, (skipDigits_suffix _).trans hs⟩
          split <;> simp
      · exact ⟨by simp, (skipExponent_suffix _).trans hs⟩
    · refine ⟨?_, List.suffix_refl _⟩
      split <;> simp

theorem fraction_leaves (m i : Bool) (v : Nat) (s : List Nat) : (fraction m i v s).Leaves (· <:+ s) := by
  cases s with
  | nil => exact exponent_leaves m i v []
  | cons c s =>
    rw [fraction.eq_def]
    simp only
    split
    · exact (exponent_leaves _ _ _ _).mono fun r h => h.trans ((skipDigits_suffix s).trans (List.suffix_cons _ _))
    · exact exponent_leaves _ _ _ _

/-- The rest after the digits. -/
def Digits.rest : Digits → List Nat
  | .bad _ r => r
  | .done _ _ r => r

theorem digits_suffix (b : Nat) (m : Bool) (s : List Nat) (v : Nat) (i : Bool) : (digits b m s v i).rest <:+ s := by
  induction s generalizing v i with
  | nil => exact List.suffix_refl _
  | cons c s ih =>
    rw [digits]
    repeat' split
    all_goals first
      | exact List.suffix_refl _
      | exact skipHexa_suffix _
      | exact (ih _ _).trans (List.suffix_cons _ _)

theorem lexNumeric_leaves_of {b : Nat} {m : Bool} {s t : List Nat} (hm : modifier s = (b, m, t)) :
    (lexNumeric s).Leaves (· <:+ t) := by
  have h := digits_suffix b m t 0 true
  rw [lexNumeric, hm]
  simp only
  cases hd : digits b m t 0 true with
  | bad v r => rw [hd] at h; exact ⟨by simp, h⟩
  | done v i r => rw [hd] at h; exact (fraction_leaves _ _ _ _).mono fun _ h' => h'.trans h

theorem isDigit_hexa {c : Nat} (h : isDigit c = true) : isHexaDigit c = true := by simp [isHexaDigit, h]

theorem isDigit_not_power {c : Nat} (h : isDigit c = true) : isPower c = false := by
  simp [isDigit] at h; simp [isPower]; omega

/-- A number takes at least its first character. -/
theorem lexNumeric_leaves {c : Nat} {s : List Nat} (h : isDigit c = true ∨ c = 46) : (lexNumeric (c :: s)).Leaves (· <:+ s) := by
  by_cases h48 : c = 48
  · subst h48
    cases s with
    | nil => exact lexNumeric_leaves_of (b := 10) (m := false) rfl
    | cons d s =>
      have hm : ∃ b m t, modifier (48 :: d :: s) = (b, m, t) ∧ t <:+ d :: s := by
        rw [modifier]
        repeat' split
        all_goals exact ⟨_, _, _, rfl, by first | exact List.suffix_refl _ | exact List.suffix_cons _ _⟩
      obtain ⟨b, m, t, e, ht⟩ := hm
      exact (lexNumeric_leaves_of e).mono fun _ h' => h'.trans ht
  · have hm : modifier (c :: s) = (10, false, c :: s) := by
      rw [modifier]
      · intro d t e; injection e; contradiction
      · intro e; injection e; contradiction
    rcases h with h | h
    · -- the first digit is taken by the loop
      have hn : toNumber c < 10 := by
        rw [toNumber, if_pos h]; simp [isDigit] at h; omega
      have hd : digits 10 false (c :: s) 0 true = digits 10 false s ((0 * 10 + toNumber c) % 18446744073709551616) true := by
        rw [digits, if_neg (by simp [isDigit_hexa h]), if_neg (by simp [isDigit_not_power h]), if_neg (by omega),
          if_neg (by omega), if_pos rfl]
      have h' := digits_suffix 10 false s ((0 * 10 + toNumber c) % 18446744073709551616) true
      rw [lexNumeric, hm]
      simp only
      rw [hd]
      cases he : digits 10 false s ((0 * 10 + toNumber c) % 18446744073709551616) true with
      | bad v r => rw [he] at h'; exact ⟨by simp, h'⟩
      | done v i r => rw [he] at h'; exact (fraction_leaves _ _ _ _).mono fun _ h'' => h''.trans h'
    · subst h
      rw [lexNumeric, hm]
      simp only
      rw [digits, if_pos (by decide)]
      simp only
      rw [fraction]
      simp only
      rw [if_pos (by simp)]
      exact (exponent_leaves _ _ _ _).mono fun _ h => h.trans (skipDigits_suffix _)

theorem nextElem_suffix (s : List Nat) : (nextElem s).2.2 <:+ s := by
  cases s with
  | nil => exact List.suffix_refl _
  | cons c s =>
    rw [nextElem.eq_def]
    simp only
    split
    · cases s with
      | nil => exact List.nil_suffix
      | cons d s => exact List.suffix_cons _ _
    · exact List.suffix_refl _

theorem lexChar_leaves (s : List Nat) : (lexChar s).Leaves (· <:+ s) := by
  rw [lexChar]
  split
  · exact ⟨by simp, suffix_tail _⟩
  · simp only
    have h : (nextElem s).2.2.tail <:+ s := (suffix_tail _).trans (nextElem_suffix s)
    split
    · next e => rw [e] at h; exact ⟨by simp, (List.suffix_cons _ _).trans h⟩
    · exact ⟨by simp, h⟩

theorem stringBody_suffix : ∀ (n : Nat) (s : List Nat), s.length ≤ n → ∀ r, stringBody s = some r → r.2.2 <:+ s := by
  intro n
  induction n with
  | zero =>
    intro s h r hr
    obtain rfl : s = [] := by simpa using h
    simp [stringBody] at hr
  | succ n ih =>
    intro s h r hr
    cases s with
    | nil => simp [stringBody] at hr
    | cons c s =>
      simp only [List.length_cons] at h
      rw [stringBody.eq_def] at hr
      simp only at hr
      split at hr
      · injection hr with hr; subst hr; exact List.suffix_refl _
      · split at hr
        · cases s with
          | nil => simp at hr
          | cons d s =>
            simp only [List.length_cons] at h
            simp only [Option.map_eq_some_iff] at hr
            obtain ⟨a, ha, e⟩ := hr
            subst e
            exact (ih s (by omega) a ha).trans ⟨[c, d], rfl⟩
        · simp only [Option.map_eq_some_iff] at hr
          obtain ⟨a, ha, e⟩ := hr
          subst e
          exact (ih s (by omega) a ha).trans (List.suffix_cons _ _)

theorem stringLoop_leaves : ∀ (n : Nat) (s acc : List Nat) (es : List Err), (stringLoop n s acc es).Leaves (· <:+ s) := by
  intro n
  induction n with
  | zero => intros; trivial
  | succ n ih =>
    intro s acc es
    rw [stringLoop.eq_def]
    simp only
    split
    · next s =>
      have hs := fun r => stringBody_suffix s.length s (Nat.le_refl _) r
      split
      · trivial
      · next cs es' r e =>
        have := hs _ e
        refine (ih _ _ _).mono fun _ h => h.trans ((skipWs_suffix _).trans ?_)
        exact (List.suffix_cons _ _).trans (this.trans (List.suffix_cons _ _))
      · next cs es' r _ e =>
        have := hs _ e
        refine (ih _ _ _).mono fun _ h => h.trans ((skipWs_suffix _).trans ?_)
        exact this.trans (List.suffix_cons _ _)
    · exact ⟨by simp, List.suffix_refl _⟩

/-- A string literal takes at least its opening quote. -/
theorem lexString_leaves (s : List Nat) : (lexString (34 :: s)).Leaves (· <:+ s) := by
  rw [lexString]
  generalize (34 :: s).length = n
  rw [stringLoop.eq_def]
  simp only
  have hs := fun r => stringBody_suffix s.length s (Nat.le_refl _) r
  split
  · trivial
  · next cs es' r e =>
    have := hs _ e
    refine (stringLoop_leaves _ _ _ _).mono fun _ h => h.trans ((skipWs_suffix _).trans ?_)
    exact (List.suffix_cons _ _).trans this
  · next cs es' r _ e =>
    have := hs _ e
    exact (stringLoop_leaves _ _ _ _).mono fun _ h => h.trans ((skipWs_suffix _).trans this)

theorem lexPunct_suffix {c : Nat} {s : List Nat} {k : Punct} {r : List Nat} (h : lexPunct c s = some (k, r)) : r <:+ s := by
  unfold lexPunct at h
  repeat' split at h
  all_goals first
    | (injection h with h; injection h with _ h; subst h; exact List.suffix_refl _)
    | (injection h with h; injection h with _ h; subst h; exact suffix_tail _)
    | (injection h with h; injection h with _ h; subst h; exact (suffix_tail _).trans (suffix_tail _))
    | cases h

/-! ## The loop of `lex` -/

theorem lexLoop_succ (refs : List Nat → Int) (n : Nat) (s : List Nat) : lexLoop refs (n + 1) s =
    match skipWhitespace s with
    | [] => .tok .eof [] []
    | c :: s =>
      if isDigit c then lexNumeric (c :: s)
      else if c = 39 then lexChar s
      else if c = 34 then lexString (c :: s)
      else if c = 46 ∧ (s.head?.map isDigit).getD false then lexNumeric (c :: s)
      else if c = 47 ∧ s.head? = some 47 then lexLoop refs n (skipLineComment s)
      else if c = 47 ∧ s.head? = some 42 then
        (lexLoop refs n (skipBlockComment s).1).after (skipBlockComment s).2
      else
        match lexPunct c s with
        | some (k, s) => .tok (.punct k) [] s
        | none =>
          if isLetter c ∨ c = 35 then
            match lexWord refs c s with
            | (.keyword k, s) => if k = TK_LINE then lexLoop refs n (skipLineComment s) else .tok (.keyword k) [] s
            | (t, s) => .tok t [] s
          else (lexLoop refs n s).after [.badCharacter] := rfl

theorem suffix_len {a b : List Nat} (h : a <:+ b) : a.length ≤ b.length := h.length_le

theorem skipBlock_suffix' (s : List Nat) : (skipBlockComment s).1 <:+ s := skipBlock_suffix s.length s (Nat.le_refl _)

theorem lexLoop_fuel {refs : List Nat → Int} : ∀ (n : Nat) (s : List Nat) (m : Nat), s.length < n → s.length < m →
    lexLoop refs n s = lexLoop refs m s := by
  intro n
  induction n with
  | zero => intro s m h; omega
  | succ n ih =>
    intro s m hn hm
    obtain ⟨m, rfl⟩ : ∃ k, m = k + 1 := ⟨m - 1, by omega⟩
    rw [lexLoop_succ, lexLoop_succ]
    have hs := suffix_len (skipWs_suffix s)
    cases he : skipWhitespace s with
    | nil => rfl
    | cons c t =>
      rw [he] at hs
      simp only [List.length_cons] at hs
      have h1 := suffix_len (skipLine_suffix t)
      have h2 := suffix_len (skipBlock_suffix' t)
      have h3 := suffix_len (skipLine_suffix (wordTail t).2)
      have h4 := suffix_len (wordTail_suffix t)
      simp only [lexWord]
      rw [ih t m (by omega) (by omega), ih (skipLineComment t) m (by omega) (by omega),
        ih (skipBlockComment t).1 m (by omega) (by omega)]
      by_cases hr : refs (c :: (wordTail t).1) ≥ 0
      · simp only [if_pos hr]
      · simp only [if_neg hr]
        rw [ih (skipLineComment (wordTail t).2) m (by omega) (by omega)]

theorem lexLoop_lex {refs : List Nat → Int} {n : Nat} {s : List Nat} (h : s.length < n) : lexLoop refs n s = lex refs s :=
  lexLoop_fuel n s _ h (by omega)

/-- `lex` without fuel. -/
theorem lex_eq (refs : List Nat → Int) (s : List Nat) : lex refs s =
    match skipWhitespace s with
    | [] => .tok .eof [] []
    | c :: s =>
      if isDigit c then lexNumeric (c :: s)
      else if c = 39 then lexChar s
      else if c = 34 then lexString (c :: s)
      else if c = 46 ∧ (s.head?.map isDigit).getD false then lexNumeric (c :: s)
      else if c = 47 ∧ s.head? = some 47 then lex refs (skipLineComment s)
      else if c = 47 ∧ s.head? = some 42 then
        (lex refs (skipBlockComment s).1).after (skipBlockComment s).2
      else
        match lexPunct c s with
        | some (k, s) => .tok (.punct k) [] s
        | none =>
          if isLetter c ∨ c = 35 then
            match lexWord refs c s with
            | (.keyword k, s) => if k = TK_LINE then lex refs (skipLineComment s) else .tok (.keyword k) [] s
            | (t, s) => .tok t [] s
          else (lex refs s).after [.badCharacter] := by
  rw [lex, lexLoop_succ]
  have hs := suffix_len (skipWs_suffix s)
  cases he : skipWhitespace s with
  | nil => rfl
  | cons c t =>
    rw [he] at hs
    simp only [List.length_cons] at hs
    have h1 := suffix_len (skipLine_suffix t)
    have h2 := suffix_len (skipBlock_suffix' t)
    have h3 := suffix_len (skipLine_suffix (wordTail t).2)
    have h4 := suffix_len (wordTail_suffix t)
    simp only [lexWord]
    rw [lexLoop_lex (s := t) (by omega), lexLoop_lex (s := skipLineComment t) (by omega),
      lexLoop_lex (s := (skipBlockComment t).1) (by omega)]
    by_cases hr : refs (c :: (wordTail t).1) ≥ 0
    · simp only [if_pos hr]
    · simp only [if_neg hr]
      rw [lexLoop_lex (s := skipLineComment (wordTail t).2) (by omega)]

/-- The text left by a call of `lex`. -/
def Outcome.Progress (s : List Nat) : Outcome → Prop
  | .tok t _ r => r <:+ s ∧ (t = .eof → r = []) ∧ (t ≠ .eof → r.length < s.length)
  | _ => True

theorem Outcome.Leaves.progress {o : Outcome} {c : Nat} {t s : List Nat} (h : o.Leaves (· <:+ t)) (hs : c :: t <:+ s) :
    o.Progress s := by
  cases o with
  | tok t' es r =>
    obtain ⟨h1, h2⟩ := h
    have := suffix_len h2
    have := suffix_len hs
    simp only [List.length_cons] at this
    exact ⟨h2.trans ((List.suffix_cons _ _).trans hs), fun e => absurd e h1, fun _ => by omega⟩
  | _ => trivial

theorem Outcome.Progress.up {o : Outcome} {t s : List Nat} (h : o.Progress t) (hs : t <:+ s) : o.Progress s := by
  cases o with
  | tok t' es r =>
    obtain ⟨h1, h2, h3⟩ := h
    have := suffix_len hs
    exact ⟨h1.trans hs, h2, fun e => by have := h3 e; omega⟩
  | _ => trivial

theorem Outcome.Progress.after {o : Outcome} {s : List Nat} {es : List Err} (h : o.Progress s) : (o.after es).Progress s := by
  cases o with
  | tok t' es r => exact h
  | _ => trivial

theorem lexLoop_progress {refs : List Nat → Int} : ∀ (n : Nat) (s : List Nat), (lexLoop refs n s).Progress s := by
  intro n
  induction n with
  | zero => intro s; trivial
  | succ n ih =>
    intro s
    rw [lexLoop_succ]
    have hs := skipWs_suffix s
    cases he : skipWhitespace s with
    | nil => exact ⟨List.nil_suffix, fun _ => rfl, fun h => absurd rfl h⟩
    | cons c t =>
      rw [he] at hs
      have ht : t <:+ s := (List.suffix_cons _ _).trans hs
      simp only
      split
      · next h => exact (lexNumeric_leaves (.inl h)).progress hs
      split
      · exact (lexChar_leaves t).progress hs
      split
      · next h => subst h; exact (lexString_leaves t).progress hs
      split
      · next h => exact (lexNumeric_leaves (.inr h.1)).progress hs
      split
      · exact (ih _).up ((skipLine_suffix _).trans ht)
      split
      · exact ((ih _).up ((skipBlock_suffix' _).trans ht)).after
      split
      · next k r e =>
        have h : (Outcome.tok (.punct k) [] r).Leaves (· <:+ t) := ⟨by simp, lexPunct_suffix e⟩
        exact h.progress hs
      · split
        · have hw := wordTail_suffix t
          simp only [lexWord]
          split
          · next k r e =>
            injection e with e1 e2
            subst e2
            split
            · exact (ih _).up ((skipLine_suffix _).trans (hw.trans ht))
            · have h : (Outcome.tok (.keyword k) [] (wordTail t).2).Leaves (· <:+ t) := ⟨by simp, hw⟩
              exact h.progress hs
          · next t' r _ e =>
            injection e with e1 e2
            subst e2
            have h : (Outcome.tok t' [] (wordTail t).2).Leaves (· <:+ t) := by
              refine ⟨?_, hw⟩
              rw [← e1]; split <;> simp
            exact h.progress hs
        · exact ((ih _).up ht).after

/-! ## Returning -/

theorem endsLine_cons {c : Nat} {s : List Nat} (h : EndsLine (c :: s)) : EndsLine s ∧ (s = [] → c = 10) := by
  rcases h with h | h | ⟨p, x, h, hx⟩
  · cases h
  · injection h with h1 h2; exact ⟨.inl h2, fun _ => h1⟩
  · cases p with
    | nil => injection h with h1 h2; subst h2; exact ⟨.inr (.inl rfl), fun h => by cases h⟩
    | cons y p => injection h with h1 h2; subst h2
                  refine ⟨.inr (.inr ⟨p, x, rfl, hx⟩), fun h => ?_⟩
                  simp at h

theorem endsLine_suffix {r s : List Nat} (hs : r <:+ s) (h : EndsLine s) : EndsLine r := by
  obtain ⟨p, rfl⟩ := hs
  induction p with
  | nil => exact h
  | cons c p ih => exact ih (endsLine_cons h).1

theorem endsLine_backslash {s : List Nat} {d : Nat} (h : EndsLine (92 :: d :: s)) : s ≠ [] := by
  intro e
  subst e
  rcases h with h | h | ⟨p, x, h, hx⟩
  · cases h
  · cases h
  · have h' := congrArg List.length h
    simp at h'
    have : p = [] := by simpa using h'
    subst this
    injection h with h _
    exact hx h.symm

theorem stringBody_returns : ∀ (n : Nat) (s : List Nat), s.length ≤ n → s ≠ [] → EndsLine s → stringBody s ≠ none := by
  intro n
  induction n with
  | zero => intro s h hne; exact absurd (by simpa using h) hne
  | succ n ih =>
    intro s h hne he
    cases s with
    | nil => exact absurd rfl hne
    | cons c s =>
      simp only [List.length_cons] at h
      rw [stringBody.eq_def]
      simp only
      split
      · simp
      · next hc =>
        have h1 := endsLine_cons he
        have hs : s ≠ [] := fun e => hc (.inr (h1.2 e))
        split
        · next h92 =>
          subst h92
          cases s with
          | nil => exact absurd rfl hs
          | cons d s =>
            simp only [List.length_cons] at h
            simp only [ne_eq, Option.map_eq_none_iff]
            exact ih s (by omega) (endsLine_backslash he) (endsLine_cons h1.1).1
        · simp only [ne_eq, Option.map_eq_none_iff]
          exact ih s (by omega) hs h1.1

theorem stringLoop_returns : ∀ (n : Nat) (s acc : List Nat) (es : List Err), s.length < n → EndsLine s →
    ∃ t es' r, stringLoop n s acc es = .tok t es' r := by
  intro n
  induction n with
  | zero => intro s acc es h; omega
  | succ n ih =>
    intro s acc es h he
    rw [stringLoop.eq_def]
    simp only
    split
    · next s =>
      simp only [List.length_cons] at h
      have h1 := endsLine_cons he
      have hs : s ≠ [] := fun e => by have := h1.2 e; omega
      have h2 := stringBody_returns s.length s (Nat.le_refl _) hs h1.1
      have h3 := fun r => stringBody_suffix s.length s (Nat.le_refl _) r
      split
      · next e => exact absurd e h2
      · next cs es' r e =>
        have h3 := h3 _ e
        have h4 := (skipWs_suffix r).trans ((List.suffix_cons 34 r).trans h3)
        exact ih _ _ _ (by have := suffix_len h4; omega) (endsLine_suffix h4 h1.1)
      · next cs es' r _ e =>
        have h3 := h3 _ e
        have h4 := (skipWs_suffix r).trans h3
        exact ih _ _ _ (by have := suffix_len h4; omega) (endsLine_suffix h4 h1.1)
    · exact ⟨_, _, _, rfl⟩

theorem shortNumbers_suffix {r s : List Nat} (hs : r <:+ s) (h : ShortNumbers s) : ShortNumbers r :=
  fun ds hd hc => h ds (hd.trans hs.isInfix) hc

theorem power_lt : ∀ (s : List Nat) (p : Nat), power s p < (p + 1) * 10 ^ (s.takeWhile isDigit).length := by
  intro s
  induction s with
  | nil => intro p; simp [power]
  | cons c s ih =>
    intro p
    rw [power, List.takeWhile_cons (a := c)]
    split
    · next h =>
      have hn : toNumber c < 10 := by rw [toNumber, if_pos h]; simp [isDigit] at h; omega
      refine Nat.lt_of_lt_of_le (ih _) ?_
      rw [List.length_cons, Nat.pow_succ, Nat.mul_comm (10 ^ _) 10, ← Nat.mul_assoc]
      exact Nat.mul_le_mul_right _ (by omega)
    · simp

theorem power_short {s : List Nat} (h : ShortNumbers s) : power s 0 < 9223372036854775808 := by
  have h1 := power_lt s 0
  have h2 := h (s.takeWhile isDigit) (List.takeWhile_prefix _).isInfix (fun c hc => by
    have := List.all_takeWhile (p := isDigit) (l := s)
    exact List.all_eq_true.1 this c hc)
  have h3 : 10 ^ (s.takeWhile isDigit).length ≤ 10 ^ 18 := Nat.pow_le_pow_right (by omega) h2
  omega

theorem exponent_defined {m i : Bool} {v : Nat} {s : List Nat} (h : ShortNumbers s) : ∃ t es r, exponent m i v s = .tok t es r := by
  cases s with
  | nil => exact ⟨_, _, _, rfl⟩
  | cons c s =>
    rw [exponent]
    simp only
    have hs : (if s.head? = some 45 ∨ s.head? = some 43 then s.tail else s) <:+ c :: s := by
      split
      · exact (suffix_tail s).trans (List.suffix_cons _ _)
      · exact List.suffix_cons _ _
    generalize (if s.head? = some 45 ∨ s.head? = some 43 then s.tail else s) = t at hs
    split
    · split
      · rw [if_neg (by have := power_short (shortNumbers_suffix hs h); omega)]
        exact ⟨_, _, _, rfl⟩
      · exact ⟨_, _, _, rfl⟩
    · exact ⟨_, _, _, rfl⟩

theorem fraction_defined {m i : Bool} {v : Nat} {s : List Nat} (h : ShortNumbers s) : ∃ t es r, fraction m i v s = .tok t es r := by
  cases s with
  | nil => exact exponent_defined (m := m) (i := i) (v := v) h
  | cons c s =>
    rw [fraction.eq_def]
    simp only
    split
    · exact exponent_defined (shortNumbers_suffix ((skipDigits_suffix s).trans (List.suffix_cons _ _)) h)
    · exact exponent_defined h

theorem modifier_suffix (s : List Nat) : (modifier s).2.2 <:+ s := by
  unfold modifier
  split
  · next c s =>
    repeat' split
    all_goals first | exact ⟨[48, c], rfl⟩ | exact List.suffix_cons _ _
  · exact List.nil_suffix
  · exact List.suffix_refl _

theorem lexNumeric_defined {s : List Nat} (h : ShortNumbers s) : ∃ t es r, lexNumeric s = .tok t es r := by
  have hm := modifier_suffix s
  rw [lexNumeric]
  generalize modifier s = q at hm
  obtain ⟨b, m, t⟩ := q
  simp only at hm ⊢
  have hd := digits_suffix b m t 0 true
  cases he : digits b m t 0 true with
  | bad v r => exact ⟨_, _, _, rfl⟩
  | done v i r => rw [he] at hd; exact fraction_defined (shortNumbers_suffix (hd.trans hm) h)

theorem exponent_not_never {m i : Bool} {v : Nat} {s : List Nat} : exponent m i v s ≠ .never := by
  cases s with
  | nil => simp [exponent]
  | cons c s =>
    rw [exponent]
    simp only
    generalize (if s.head? = some 45 ∨ s.head? = some 43 then s.tail else s) = t
    repeat' split
    all_goals simp

theorem fraction_not_never {m i : Bool} {v : Nat} {s : List Nat} : fraction m i v s ≠ .never := by
  cases s with
  | nil => exact exponent_not_never (m := m) (i := i) (v := v) (s := [])
  | cons c s =>
    rw [fraction.eq_def]
    simp only
    split <;> exact exponent_not_never

theorem lexNumeric_not_never {s : List Nat} : lexNumeric s ≠ .never := by
  rw [lexNumeric]
  obtain ⟨b, m, t⟩ := modifier s
  simp only
  split
  · simp
  · exact fraction_not_never

theorem lexChar_defined (s : List Nat) : ∃ t es r, lexChar s = .tok t es r := by
  rw [lexChar]
  split
  · exact ⟨_, _, _, rfl⟩
  · simp only
    split <;> exact ⟨_, _, _, rfl⟩

theorem after_not_never {o : Outcome} {es : List Err} (h : o ≠ .never) : o.after es ≠ .never := by
  cases o <;> simp_all [Outcome.after]

theorem after_defined {o : Outcome} {es : List Err} (h : ∃ t es r, o = .tok t es r) : ∃ t es' r, o.after es = .tok t es' r := by
  obtain ⟨t, es, r, rfl⟩ := h; exact ⟨_, _, _, rfl⟩

theorem lexLoop_not_never {refs : List Nat → Int} : ∀ (n : Nat) (s : List Nat), s.length < n → EndsLine s →
    lexLoop refs n s ≠ .never := by
  intro n
  induction n with
  | zero => intro s h; omega
  | succ n ih =>
    intro s h hl
    rw [lexLoop_succ]
    have hs := skipWs_suffix s
    cases he : skipWhitespace s with
    | nil => simp
    | cons c t =>
      rw [he] at hs
      have ht : t <:+ s := (List.suffix_cons _ _).trans hs
      have hlen := suffix_len hs
      simp only [List.length_cons] at hlen
      have key : ∀ r, r <:+ t → lexLoop refs n r ≠ .never := fun r hr =>
        ih r (by have := suffix_len hr; omega) (endsLine_suffix (hr.trans ht) hl)
      simp only
      split
      · exact lexNumeric_not_never
      split
      · obtain ⟨_, _, _, e⟩ := lexChar_defined t; rw [e]; simp
      split
      · obtain ⟨_, _, _, e⟩ := stringLoop_returns ((c :: t).length + 1) (c :: t) [] [] (by omega) (endsLine_suffix hs hl)
        rw [lexString, e]; simp
      split
      · exact lexNumeric_not_never
      split
      · exact key _ (skipLine_suffix _)
      split
      · exact after_not_never (key _ (skipBlock_suffix' _))
      split
      · simp
      split
      · have hw := wordTail_suffix t
        simp only [lexWord]
        split
        · next k r e =>
          injection e with e1 e2
          subst e2
          split
          · exact key _ ((skipLine_suffix _).trans hw)
          · simp
        · simp
      · exact after_not_never (key _ (List.suffix_refl _))

theorem lexLoop_defined {refs : List Nat → Int} : ∀ (n : Nat) (s : List Nat), s.length < n → EndsLine s → ShortNumbers s →
    ∃ t es r, lexLoop refs n s = .tok t es r := by
  intro n
  induction n with
  | zero => intro s h; omega
  | succ n ih =>
    intro s h hl hn
    rw [lexLoop_succ]
    have hs := skipWs_suffix s
    cases he : skipWhitespace s with
    | nil => exact ⟨_, _, _, rfl⟩
    | cons c t =>
      rw [he] at hs
      have ht : t <:+ s := (List.suffix_cons _ _).trans hs
      have hlen := suffix_len hs
      simp only [List.length_cons] at hlen
      have key : ∀ r, r <:+ t → ∃ t es r', lexLoop refs n r = .tok t es r' := fun r hr =>
        ih r (by have := suffix_len hr; omega) (endsLine_suffix (hr.trans ht) hl) (shortNumbers_suffix (hr.trans ht) hn)
      simp only
      split
      · exact lexNumeric_defined (shortNumbers_suffix hs hn)
      split
      · exact lexChar_defined t
      split
      · exact stringLoop_returns ((c :: t).length + 1) (c :: t) [] [] (by omega) (endsLine_suffix hs hl)
      split
      · exact lexNumeric_defined (shortNumbers_suffix hs hn)
      split
      · exact key _ (skipLine_suffix _)
      split
      · exact after_defined (key _ (skipBlock_suffix' _))
      split
      · exact ⟨_, _, _, rfl⟩
      split
      · have hw := wordTail_suffix t
        simp only [lexWord]
        split
        · next k r e =>
          injection e with e1 e2
          subst e2
          split
          · exact key _ ((skipLine_suffix _).trans hw)
          · exact ⟨_, _, _, rfl⟩
        · exact ⟨_, _, _, rfl⟩
      · exact after_defined (key _ (List.suffix_refl _))

end RuC.Lexer
