import Verif.Skip.Spec

/-!
# Error recovery (C27)
-/

namespace RuC.Skip.Props
open RuC RuC.Lexer RuC.Expr RuC.Skip RuC.Skip.Spec

theorem has_testBit (tokens i : Nat) : hasTokenSet tokens (2 ^ i) = tokens.testBit i := by
  unfold hasTokenSet
  cases h : tokens.testBit i with
  | true =>
    simp only [bne_iff_ne, ne_eq]
    intro e
    have := congrArg (fun n => n.testBit i) e
    simp [h] at this
  | false =>
    simp only [bne_eq_false_iff_eq]
    apply Nat.eq_of_testBit_eq
    intro j
    rw [Nat.testBit_and, Nat.zero_testBit, Nat.testBit_two_pow]
    by_cases e : i = j
    · subst e; simp [h]
    · simp [e]

/-- The tests of the loop are the tests for the requested set. -/
theorem requested_iff {tokens : Nat} {q : Punct} : Requested tokens (.punct q) ↔ ∃ b, (q, b) ∈ bits ∧ hasTokenSet tokens b = true := by
  constructor
  · rintro ⟨q', i, h, e, hb⟩
    cases e
    exact ⟨2 ^ i, h, by rw [has_testBit]; exact hb⟩
  · rintro ⟨b, h, hb⟩
    have : ∃ i, b = 2 ^ i := by
      simp only [bits, List.mem_cons, Prod.mk.injEq, List.not_mem_nil, or_false] at h
      rcases h with h | h | h | h | h
      · exact ⟨0, h.2⟩
      · exact ⟨1, h.2⟩
      · exact ⟨2, h.2⟩
      · exact ⟨4, h.2⟩
      · exact ⟨5, h.2⟩
    obtain ⟨i, rfl⟩ := this
    exact ⟨q, i, h, rfl, by rw [← has_testBit]; exact hb⟩

theorem req_rSquare {n : Nat} : Requested n (.punct .rSquare) ↔ hasTokenSet n TK_R_SQUARE = true := by
  rw [requested_iff]; simp [bits, TK_R_SQUARE]

theorem req_rParen {n : Nat} : Requested n (.punct .rParen) ↔ hasTokenSet n TK_R_PAREN = true := by
  rw [requested_iff]; simp [bits, TK_R_PAREN]

theorem req_rBrace {n : Nat} : Requested n (.punct .rBrace) ↔ hasTokenSet n TK_R_BRACE = true := by
  rw [requested_iff]; simp [bits, TK_R_BRACE]

theorem req_colon {n : Nat} : Requested n (.punct .colon) ↔ hasTokenSet n TK_COLON = true := by
  rw [requested_iff]; simp [bits, TK_COLON]

theorem req_semicolon {n : Nat} : Requested n (.punct .semicolon) ↔ hasTokenSet n TK_SEMICOLON = true := by
  rw [requested_iff]; simp [bits, TK_SEMICOLON]

theorem cur_tail {s : List Tok} {t : Tok} (h : cur s = t) (ht : t ≠ .eof) : s = t :: s.tail ∧ s.tail.length + 1 = s.length := by
  cases s with
  | nil => exact absurd h.symm ht
  | cons a s => exact ⟨by rw [← h]; rfl, by simp⟩

/-- Enough fuel gives a suffix that starts with a requested token or is at the end. -/
theorem skipLoop_spec (n : Nat) : ∀ tokens s, s.length + 1 ≤ n →
    ∃ l r, skipLoop n tokens s = some r ∧ s = l ++ r ∧ (cur r = .eof ∨ Requested tokens (cur r)) := by
  induction n with
  | zero => intro _ _ h; omega
  | succ n ih =>
    intro tokens s hn
    have skip1 : ∀ t, cur s = t → t ≠ .eof → ∃ l r, skipLoop n tokens s.tail = some r ∧ s = l ++ r ∧ (cur r = .eof ∨ Requested tokens (cur r)) := by
      intro t ht he
      obtain ⟨h1, h2⟩ := cur_tail ht he
      obtain ⟨l, r, e1, e2, e3⟩ := ih tokens s.tail (by omega)
      exact ⟨t :: l, r, e1, by rw [h1, e2]; rfl, e3⟩
    have group : ∀ t b, cur s = t → t ≠ .eof → ∃ l r, (skipLoop n b s.tail).bind (skipLoop n tokens) = some r ∧ s = l ++ r ∧ (cur r = .eof ∨ Requested tokens (cur r)) := by
      intro t b ht he
      obtain ⟨h1, h2⟩ := cur_tail ht he
      obtain ⟨l, r, e1, e2, e3⟩ := ih b s.tail (by omega)
      have hl : r.length ≤ s.tail.length := by rw [e2]; simp
      obtain ⟨l', r', f1, f2, f3⟩ := ih tokens r (by omega)
      exact ⟨t :: l ++ l', r', by rw [e1]; exact f1, by rw [h1, e2, f2]; simp, f3⟩
    have stop : ∀ t b, cur s = t → t ≠ .eof → (Requested tokens t ↔ hasTokenSet tokens b = true) →
        ∃ l r, (if hasTokenSet tokens b then some s else skipLoop n tokens s.tail) = some r ∧ s = l ++ r ∧ (cur r = .eof ∨ Requested tokens (cur r)) := by
      intro t b ht he hb
      split
      · next h => exact ⟨[], s, rfl, rfl, Or.inr (by rw [ht]; exact hb.2 h)⟩
      · exact skip1 t ht he
    rw [skipLoop]
    split
    case h_1 h => exact ⟨[], s, rfl, rfl, Or.inl h⟩
    case h_2 h => exact group _ _ h (by intro e; cases e)
    case h_3 h => exact group _ _ h (by intro e; cases e)
    case h_4 h => exact group _ _ h (by intro e; cases e)
    case h_5 h => exact group _ _ h (by intro e; cases e)
    case h_6 h => exact stop _ _ h (by intro e; cases e) req_rParen
    case h_7 h => exact stop _ _ h (by intro e; cases e) req_rSquare
    case h_8 h => exact stop _ _ h (by intro e; cases e) req_rBrace
    case h_9 h => exact stop _ _ h (by intro e; cases e) req_colon
    case h_10 h => exact stop _ _ h (by intro e; cases e) req_semicolon
    case h_11 h _ _ _ _ _ _ _ _ _ => exact skip1 _ rfl h

/-- C27: `skip_until` comes to an end; it only drops tokens from the front, and stops at the end of the
input or at a token of the requested set. -/
theorem skip_stops (tokens : Nat) (s : List Tok) :
    ∃ l r, skipUntil tokens s = some r ∧ s = l ++ r ∧ (cur r = .eof ∨ Requested tokens (cur r)) :=
  skipLoop_spec _ tokens s (Nat.le_refl _)

theorem skipLoop_mono (n : Nat) : ∀ tokens s r, skipLoop n tokens s = some r → skipLoop (n + 1) tokens s = some r := by
  induction n with
  | zero => intro _ _ _ h; simp [skipLoop] at h
  | succ n ih =>
    intro tokens s r h
    have group : ∀ b, (skipLoop n b s.tail).bind (skipLoop n tokens) = some r → (skipLoop (n + 1) b s.tail).bind (skipLoop (n + 1) tokens) = some r := by
      intro b h
      rw [Option.bind_eq_some_iff] at h ⊢
      obtain ⟨x, h1, h2⟩ := h
      exact ⟨x, ih _ _ _ h1, ih _ _ _ h2⟩
    have stop : ∀ b, (if hasTokenSet tokens b then some s else skipLoop n tokens s.tail) = some r →
        (if hasTokenSet tokens b then some s else skipLoop (n + 1) tokens s.tail) = some r := by
      intro b h
      split
      · next e => rw [if_pos e] at h; exact h
      · next e => rw [if_neg e] at h; exact ih _ _ _ h
    rw [skipLoop] at h ⊢
    split at h
    case h_1 e => exact h
    case h_2 e => exact group _ h
    case h_3 e => exact group _ h
    case h_4 e => exact group _ h
    case h_5 e => exact group _ h
    case h_6 e => exact stop _ h
    case h_7 e => exact stop _ h
    case h_8 e => exact stop _ h
    case h_9 e => exact stop _ h
    case h_10 e => exact stop _ h
    case h_11 => exact ih _ _ _ h

theorem skipLoop_le {n m : Nat} (h : n ≤ m) {tokens : Nat} {s r : List Tok} (e : skipLoop n tokens s = some r) : skipLoop m tokens s = some r := by
  induction h with
  | refl => exact e
  | step _ ih => exact skipLoop_mono _ _ _ _ ih

/-- The fuel does not matter once it is enough. -/
theorem skipUntil_of {n : Nat} {tokens : Nat} {s r : List Tok} (e : skipLoop n tokens s = some r) : skipUntil tokens s = some r := by
  obtain ⟨l, r', h, _⟩ := skip_stops tokens s
  have h1 := skipLoop_le (Nat.le_max_left n (s.length + 1)) e
  have h2 := skipLoop_le (Nat.le_max_right n (s.length + 1)) h
  rw [h1] at h2
  cases h2
  exact h

/-- The loop goes on behind a token that neither opens a bracket nor is requested. -/
theorem skip_single {n tokens : Nat} {t : Tok} {s r : List Tok} (he : t ≠ .eof) (hr : ¬Requested tokens t)
    (ho : ∀ o c b, Bracket o c b → t ≠ .punct o) (h : skipLoop n tokens s = some r) : skipLoop (n + 1) tokens (t :: s) = some r := by
  rw [skipLoop]
  have hc : cur (t :: s) = t := rfl
  rw [hc]
  split
  case h_1 => exact absurd rfl he
  case h_2 => exact absurd rfl (ho _ _ _ .paren)
  case h_3 => exact absurd rfl (ho _ _ _ .square)
  case h_4 => exact absurd rfl (ho _ _ _ .brace)
  case h_5 => exact absurd rfl (ho _ _ _ .question)
  case h_6 => rw [req_rParen] at hr; rw [if_neg hr]; exact h
  case h_7 => rw [req_rSquare] at hr; rw [if_neg hr]; exact h
  case h_8 => rw [req_rBrace] at hr; rw [if_neg hr]; exact h
  case h_9 => rw [req_colon] at hr; rw [if_neg hr]; exact h
  case h_10 => rw [req_semicolon] at hr; rw [if_neg hr]; exact h
  case h_11 => exact h

theorem skip_group {n tokens b : Nat} {o c : Punct} {s u r : List Tok} (hb : Bracket o c b)
    (h1 : skipLoop n b s = some u) (h2 : skipLoop n tokens u = some r) : skipLoop (n + 1) tokens (.punct o :: s) = some r := by
  rw [skipLoop]
  have hc : cur (.punct o :: s) = .punct o := rfl
  rw [hc]
  cases hb <;> (simp only [List.tail_cons, TK_R_PAREN, TK_R_SQUARE, TK_R_BRACE, TK_COLON]; rw [h1]; exact h2)

theorem skip_stop {tokens : Nat} {s : List Tok} (h : cur s = .eof ∨ Requested tokens (cur s)) : skipLoop 1 tokens s = some s := by
  rcases h with h | h
  · rw [skipLoop, h]
  · obtain ⟨q, i, hq, e, hb⟩ := h
    rw [skipLoop, e]
    have hr : Requested tokens (.punct q) := ⟨q, i, hq, rfl, hb⟩
    simp only [bits, List.mem_cons, Prod.mk.injEq, List.not_mem_nil, or_false] at hq
    rcases hq with ⟨rfl, _⟩ | ⟨rfl, _⟩ | ⟨rfl, _⟩ | ⟨rfl, _⟩ | ⟨rfl, _⟩
    · rw [req_rSquare] at hr; simp [hr]
    · rw [req_rParen] at hr; simp [hr]
    · rw [req_rBrace] at hr; simp [hr]
    · rw [req_colon] at hr; simp [hr]
    · rw [req_semicolon] at hr; simp [hr]

theorem bracket_requested {o c : Punct} {b : Nat} (h : Bracket o c b) : Requested b (.punct c) := by
  cases h
  · rw [req_rParen]; decide
  · rw [req_rSquare]; decide
  · rw [req_rBrace]; decide
  · rw [req_colon]; decide

theorem free_skip {set : Nat} {l : List Tok} (h : Free set l) : ∀ rest, cur rest = .eof ∨ Requested set (cur rest) → ∃ n, skipLoop n set (l ++ rest) = some rest := by
  induction h with
  | nil => exact fun rest hr => ⟨1, skip_stop hr⟩
  | single he hq ho _ ih =>
    intro rest hr
    obtain ⟨n, hn⟩ := ih rest hr
    exact ⟨n + 1, skip_single he hq ho hn⟩
  | @group set o c b body l hb hc hbody hl ih1 ih2 =>
    intro rest hr
    obtain ⟨n, hn⟩ := ih1 (.punct c :: (l ++ rest)) (Or.inr (bracket_requested hb))
    obtain ⟨m, hm⟩ := ih2 rest hr
    have hs : skipLoop (m + 1) set (.punct c :: (l ++ rest)) = some rest :=
      skip_single (by intro e; cases e) hc (by intro o' c' b' h' e; cases hb <;> cases e <;> cases h') hm
    refine ⟨max n (m + 1) + 1, ?_⟩
    have := skip_group hb (skipLoop_le (Nat.le_max_left n (m + 1)) hn) (skipLoop_le (Nat.le_max_right n (m + 1)) hs)
    simpa using this

/-- C27, for brackets that are not closed by a requested token and do not stand directly inside brackets
of their own kind: `skip_until` skips everything before the first requested token outside brackets. -/
theorem skip_brackets_partial (tokens : Nat) (l rest : List Tok) (h : Free tokens l) (hr : cur rest = .eof ∨ Requested tokens (cur rest)) :
    skipUntil tokens (l ++ rest) = some rest := by
  obtain ⟨n, hn⟩ := free_skip h rest hr
  exact skipUntil_of hn

/-! ## Cases -/

-- `f [ ( ; ) ] ;` up to a semicolon
example : Free TK_SEMICOLON [.ident [102], .punct .lSquare, .punct .lParen, .punct .semicolon, .punct .rParen, .punct .rSquare] := by
  have inner : Free 1 [.punct .lParen, .punct .semicolon, .punct .rParen] := by
    refine Free.group .paren (body := [.punct .semicolon]) (l := []) ?_ ?_ .nil
    · rw [req_rParen]; decide
    · refine .single (by intro e; cases e) ?_ (by intro o c b h e; cases h <;> cases e) .nil
      rw [req_semicolon]; decide
  refine .single (by intro e; cases e) (by rintro ⟨q, i, _, e, _⟩; cases e) (by intro o c b h e; cases e) ?_
  refine Free.group .square (body := [.punct .lParen, .punct .semicolon, .punct .rParen]) (l := []) ?_ inner .nil
  rw [req_rSquare]; decide

example : skipUntil TK_SEMICOLON [.ident [102], .punct .lSquare, .punct .lParen, .punct .semicolon, .punct .rParen, .punct .rSquare, .punct .semicolon] =
    some [.punct .semicolon] := by decide

/-- The code does not do what C27 says: brackets directly inside brackets of their own kind are not
counted, so in `( ( ) ; ) ;` the semicolon inside the brackets stops the search. -/
theorem nested_brackets_stop_early :
    skipUntil TK_SEMICOLON [.punct .lParen, .punct .lParen, .punct .rParen, .punct .semicolon, .punct .rParen, .punct .semicolon, .int 1] =
      some [.punct .semicolon, .punct .rParen, .punct .semicolon, .int 1] := by decide

/-- The code does not do what C27 says: the closing bracket of brackets opened after the start stops the
search for a closing bracket. -/
theorem own_bracket_stops :
    skipUntil (TK_R_PAREN ||| TK_SEMICOLON) [.punct .lParen, .punct .rParen, .punct .rParen, .punct .semicolon] =
      some [.punct .rParen, .punct .rParen, .punct .semicolon] := by decide

/-- A comma in the requested set is never found. -/
theorem comma_never_stops (tokens : Nat) (s : List Tok) : ∀ r, skipUntil tokens s = some r → cur r ≠ .punct .comma := by
  intro r h e
  obtain ⟨l, r', h', _, hc⟩ := skip_stops tokens s
  rw [h] at h'
  cases h'
  rcases hc with hc | ⟨q, i, hq, hc, _⟩
  · rw [e] at hc; cases hc
  · rw [e] at hc
    cases hc
    simp [bits] at hq

end RuC.Skip.Props
