import Verif.Expr.Plain

/-!
# Parsing of expressions (C26)
-/

namespace RuC.Expr.Props
open RuC RuC.Lexer RuC.Expr RuC.Expr.Spec

theorem ends_expression (s : List Tok) : parseExpression s ≠ .loop :=
  ((fuel_enough (fuelFor s)).2.2.2.2.2.2.1 s (by unfold fuelFor; omega)).ends

theorem ends_initializer (s : List Tok) : parseInitializer s ≠ .loop :=
  ((fuel_enough (fuelFor s)).2.2.2.2.2.2.2 s (by unfold fuelFor; omega)).ends

theorem ends_assignment (s : List Tok) : parseAssignment s ≠ .loop :=
  ((fuel_enough (fuelFor s)).2.2.2.2.2.1 s (by unfold fuelFor; omega)).ends

theorem ends_constant (s : List Tok) : parseConstant s ≠ .loop := by
  have h := (fuel_enough (fuelFor s)).2.2.2.1 s (by unfold fuelFor; omega)
  exact (Res.good_bind h fun x t ht => ((fuel_enough (fuelFor s)).2.2.2.2.1 x 3 t (by omega) (by unfold fuelFor; omega)).good_mono ht).ends

/-- C26: the parser always comes to an end, with a tree or a reported error. -/
theorem parsing_ends (s : List Tok) :
    parseExpression s ≠ .loop ∧ parseAssignment s ≠ .loop ∧ parseConstant s ≠ .loop ∧ parseInitializer s ≠ .loop :=
  ⟨ends_expression s, ends_assignment s, ends_constant s, ends_initializer s⟩

/-- C26: an expression of the grammar is parsed into its tree, up to a token that does not go on with it. -/
theorem expression_complete (l rest : List Tok) (e : Exp) (h : G (.level false 1) l [e]) (hp : NoPostfix rest) (ho : NoOperator 1 rest) :
    parseExpression (l ++ rest) = .ok e rest :=
  ev_result (ev_expression (claim h) hp ((noOperator_iff (by omega)).1 ho)) (mono_expression _) (by intro h; cases h) (ends_expression _)

/-- C26: whatever is parsed without an error is an expression of the grammar, and no operator follows. -/
theorem expression_sound (s rest : List Tok) (e : Exp) (h : parseExpression s = .ok e rest) :
    ∃ l, s = l ++ rest ∧ G (.level false 1) l [e] ∧ NoOperator 1 rest := by
  obtain ⟨l, h1, h2, h3⟩ := (sound _).2.2.2.2.2.2.1 _ _ _ h
  exact ⟨l, h1, h3, (noOperator_iff (by omega)).2 h2⟩

/-- C26: the grammar gives a sequence of tokens at most one tree. -/
theorem expression_unique (l : List Tok) (e e' : Exp) (h : G (.level false 1) l [e]) (h' : G (.level false 1) l [e']) : e = e' := by
  have h1 := expression_complete l [] e h (by simp [NoPostfix]) (by simp [NoOperator])
  have h2 := expression_complete l [] e' h' (by simp [NoPostfix]) (by simp [NoOperator])
  rw [h1] at h2
  injection h2

/-- C26: the same for an assignment expression (an initializer or argument without braces). -/
theorem assignment_complete (l rest : List Tok) (e : Exp) (h : G (.level false 2) l [e]) (hp : NoPostfix rest) (ho : NoOperator 2 rest) :
    parseAssignment (l ++ rest) = .ok e rest := by
  have hq := (noOperator_iff (by omega)).1 ho
  refine ev_result (f := fun n => assignment n (l ++ rest)) (ev_succ ?_) (mono_assignment _) (by intro h; cases h) (ends_assignment _)
  refine ev_congr ((claim h e rest rfl hp (Or.inl hq)).1 2 _ (by omega) (by omega) (ev_rhs_stop hq)) fun n => ?_
  rw [assignment]
  unfold climb
  rw [if_neg (by simp)]

theorem assignment_sound (s rest : List Tok) (e : Exp) (h : parseAssignment s = .ok e rest) :
    ∃ l, s = l ++ rest ∧ G (.level false 2) l [e] ∧ NoOperator 2 rest := by
  obtain ⟨l, h1, h2, h3⟩ := (sound _).2.2.2.2.2.1 _ _ _ h
  exact ⟨l, h1, h3, (noOperator_iff (by omega)).2 h2⟩

/-- C26: a constant expression has no assignment and no comma outside brackets. -/
theorem constant_complete (l rest : List Tok) (e : Exp) (h : G (.level false 3) l [e]) (hp : NoPostfix rest) (ho : NoOperator 3 rest) :
    parseConstant (l ++ rest) = .ok e rest := by
  have hq := (noOperator_iff (by omega)).1 ho
  have hm : Mono fun n => (unary n (l ++ rest)).bind fun l t => rhs n l 3 t :=
    fun n => Res.le_bind (mono_unary _ n) fun _ _ => mono_rhs _ _ _ n
  refine ev_result (f := fun n => (unary n (l ++ rest)).bind fun l t => rhs n l 3 t) ?_ hm (by intro h; cases h) (ends_constant _)
  refine ev_congr ((claim h e rest rfl hp (Or.inl hq)).1 3 _ (by omega) (by omega) (ev_rhs_stop hq)) fun n => ?_
  unfold climb
  rw [if_neg (by simp)]

theorem constant_sound (s rest : List Tok) (e : Exp) (h : parseConstant s = .ok e rest) :
    ∃ l, s = l ++ rest ∧ G (.level false 3) l [e] ∧ NoOperator 3 rest := by
  obtain ⟨x, u, hx, h⟩ := bind_ok h
  obtain ⟨l, h1, hg⟩ := (sound _).2.2.2.1 _ _ _ hx
  obtain ⟨l', h2, hp, hl'⟩ := (sound _).2.2.2.2.1 _ _ _ _ _ (by omega) (by omega) h
  have := prec_le (cur u)
  exact ⟨l ++ l', by rw [h1, h2]; simp, hl' false l 14 (by omega) (by omega) (Or.inl (by omega)) (.operand hg), (noOperator_iff (by omega)).2 hp⟩

/-- C26: the same for an initializer. -/
theorem initializer_complete (l rest : List Tok) (e : Exp) (h : G .initializer l [e]) (hp : NoPostfix rest) (ho : NoOperator 2 rest) :
    parseInitializer (l ++ rest) = .ok e rest :=
  ev_result (claim h e rest rfl hp ((noOperator_iff (by omega)).1 ho)) (mono_initializer _) (by intro h; cases h) (ends_initializer _)

theorem initializer_sound (s rest : List Tok) (e : Exp) (h : parseInitializer s = .ok e rest) : ∃ l, s = l ++ rest ∧ G .initializer l [e] := by
  obtain ⟨l, h1, h2, _⟩ := (sound _).2.2.2.2.2.2.2 _ _ _ h
  exact ⟨l, h1, h2⟩

/-- C26: a sequence of names and binary operators is parsed into the one tree with these tokens in this
order in which tighter operators stand below looser ones and operators of one level are grouped to the
left, assignments to the right. -/
theorem operator_sequence (first : List Nat) (more : List (Punct × List Nat)) (rest : List Tok)
    (hq : ∀ a ∈ more, ∃ p op, IsBinary p a.1 op) (hp : NoPostfix rest) (ho : NoOperator 1 rest) :
    ∃ k e, Plain k (sequence first more) e ∧ parseExpression (sequence first more ++ rest) = .ok e rest ∧
      ∀ k' e', Plain k' (sequence first more) e' → e' = e := by
  obtain ⟨k, e, h⟩ := plain_exists first more.length more rfl hq
  have hg : ∀ k e, Plain k (sequence first more) e → G (.level false 1) (sequence first more) [e] := fun k e h =>
    loosen (plain_grammar h false) (by omega) (plain_level h).2 (plain_level h).1
  exact ⟨k, e, h, expression_complete _ rest e (hg k e h) hp ho, fun k' e' h' => expression_unique _ _ _ (hg k' e' h') (hg k e h)⟩

/-! ## Cases -/

private def a : Tok := .ident [97]
private def b : Tok := .ident [98]
private def c : Tok := .ident [99]
private def d : Tok := .ident [100]
private def ea : Exp := .ident [97]
private def eb : Exp := .ident [98]
private def ec : Exp := .ident [99]
private def ed : Exp := .ident [100]

-- `a = b = c - d - a ; ...`
private theorem case_chain : parseExpression [a, .punct .equal, b, .punct .equal, c, .punct .minus, d, .punct .minus, a, .punct .semicolon] =
    .ok (.binary .assign ea (.binary .assign eb (.binary .sub (.binary .sub ec ed) ea))) [.punct .semicolon] := rfl

-- `a ? b : c ? *d++ : (a, b)[-1]`
private theorem case_ternary : parseExpression [a, .punct .question, b, .punct .colon, c, .punct .question, .punct .star, d, .punct .plusPlus,
      .punct .colon, .punct .lParen, a, .punct .comma, b, .punct .rParen, .punct .lSquare, .punct .minus, .int 1, .punct .rSquare] =
    .ok (.ternary ea eb (.ternary ec (.unary .indirection (.unary .postInc ed))
      (.subscript (.binary .comma ea eb) (.unary .minus (.int 1))))) [] := rfl

-- the hypotheses of the theorems are met
example : ∃ l e, G (.level false 1) l [e] ∧ l.length = 9 ∧ NoPostfix [.punct .semicolon] ∧ NoOperator 1 [.punct .semicolon] := by
  obtain ⟨l, h1, h2, h3⟩ := expression_sound _ _ _ case_chain
  refine ⟨l, _, h2, ?_, noPostfix_iff.2 (by simp [IsPostfixStart]), h3⟩
  have := congrArg List.length h1
  simp at this
  omega

example : IsBinary 12 .plus .add := ⟨by omega, _, rfl, by simp⟩

-- `f(a, {b, c}) = {d} + 1`: braces where an operand stands on the right, or as an argument
example : parseExpression [a, .punct .lParen, a, .punct .comma, .punct .lBrace, b, .punct .comma, c, .punct .rBrace, .punct .rParen,
      .punct .equal, .punct .lBrace, d, .punct .rBrace, .punct .plus, .int 1] =
    .ok (.binary .assign (.call ea [ea, .init [eb, ec]]) (.binary .add (.init [ed]) (.int 1))) [] := rfl

-- errors
example : parseExpression [a, .punct .plus] = .error := rfl
example : parseExpression [.punct .lParen, a, .punct .semicolon] = .error := rfl

-- `a + b = c` and `a ? b : c = d` are taken as assignments to what stands on the left
example : parseExpression [a, .punct .question, b, .punct .colon, c, .punct .equal, d] = .ok (.binary .assign (.ternary ea eb ec) ed) [] := rfl

end RuC.Expr.Props
