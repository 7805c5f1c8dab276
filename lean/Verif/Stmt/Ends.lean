import Verif.Stmt.Complete

/-! The statement parser comes to an end. -/

namespace RuC.Stmt
open RuC RuC.Lexer RuC.Expr RuC.Expr.Spec RuC.Expr.Props RuC.Stmt.Spec

theorem ends_bind {α β : Type} {a : Res α} {f : α → List Tok → Res β} (h : a ≠ .loop) (hf : ∀ x t, a = .ok x t → f x t ≠ .loop) : a.bind f ≠ .loop := by
  cases a with
  | ok x t => exact hf x t rfl
  | error => intro e; cases e
  | loop => exact absurd rfl h

theorem ends_ite {α : Type} {p : Prop} [Decidable p] {a b : Res α} (h₁ : p → a ≠ .loop) (h₂ : ¬p → b ≠ .loop) : (if p then a else b) ≠ .loop := by
  split
  · next h => exact h₁ h
  · next h => exact h₂ h

theorem ends_ok {α : Type} {x : α} {t : List Tok} : (Res.ok x t) ≠ .loop := by intro e; cases e

theorem ends_error {α : Type} : (Res.error : Res α) ≠ .loop := by intro e; cases e

theorem ends_expect {α : Type} {x : α} {t : Tok} {s : List Tok} : expect t x s ≠ .loop := by
  unfold expect
  exact ends_ite (fun _ => ends_ok) fun _ => ends_error

theorem tail_le (s : List Tok) : s.tail.length ≤ s.length := by simp

theorem tail_lt {s : List Tok} {t : Tok} (h : cur s = t) (ht : t ≠ .eof) : s.tail.length < s.length := by
  have := congrArg List.length (cur_eq h ht)
  simp only [List.length_cons] at this
  omega

theorem expression_le {s r : List Tok} {e : Exp} (h : parseExpression s = .ok e r) : r.length ≤ s.length := by
  obtain ⟨l, rfl, _⟩ := expression_sound _ _ _ h
  simp

theorem constant_le {s r : List Tok} {e : Exp} (h : parseConstant s = .ok e r) : r.length ≤ s.length := by
  obtain ⟨l, rfl, _⟩ := constant_sound _ _ _ h
  simp

theorem condition_le {s r : List Tok} {e : Exp} (h : condition s = .ok e r) : r.length ≤ s.length := by
  obtain ⟨l, rfl, _⟩ := condition_sound h
  simp
  omega

theorem ends_condition (s : List Tok) : condition s ≠ .loop := by
  unfold condition
  exact ends_ite (fun _ => ends_bind (ends_expression _) fun _ _ _ => ends_expect) fun _ => ends_error

theorem ends_typeSpec (names : Names) (s : List Tok) : typeSpec names s ≠ .loop := by
  induction s with
  | nil => intro e; cases e
  | cons t s ih =>
    unfold typeSpec
    cases t with
    | keyword k =>
      simp only
      iterate 6 refine ends_ite (fun _ => ends_ok) fun _ => ?_
      refine ends_ite (fun _ => ?_) fun _ => ?_
      · exact ends_bind ih fun _ _ _ => ends_ite (fun _ => ends_error) fun _ => ends_ok
      · refine ends_ite (fun _ => ?_) fun _ => ends_error
        unfold tagSpec
        split
        · exact ends_ite (fun _ => ends_error) fun _ => ends_ite (fun _ => ends_ok) fun _ => ends_error
        · exact ends_error
    | ident n => exact ends_ite (fun _ => ends_ok) fun _ => ends_error
    | _ => exact ends_error

theorem ends_bounds (n : Nat) : ∀ s, s.length < n → bounds n s ≠ .loop := by
  induction n with
  | zero => intro s h; omega
  | succ n ih =>
    intro s h
    rw [bounds]
    refine ends_ite (fun hc => ?_) fun _ => ends_ok
    have := tail_lt hc punct_ne_eof
    have h2 := tail_le s.tail
    refine ends_ite (fun _ => ends_bind (ih _ (by omega)) fun _ _ _ => ends_ok) fun _ => ?_
    refine ends_bind (ends_expression _) fun x t he => ?_
    have := expression_le he
    have := tail_le t
    exact ends_ite (fun _ => ends_bind (ih _ (by omega)) fun _ _ _ => ends_ok) fun _ => ends_error

theorem ends_declarator (s : List Tok) : declarator s ≠ .loop := by
  unfold declarator
  simp only
  split
  · unfold declaratorEnd
    refine ends_bind (ends_bounds _ _ (by omega)) fun _ _ _ => ?_
    exact ends_ite (fun _ => ends_bind (ends_initializer _) fun _ _ _ => ends_ok) fun _ => ends_ok
  · exact ends_error

theorem ends_declarators (n : Nat) : ∀ s, s.length < n → declarators n s ≠ .loop := by
  induction n with
  | zero => intro s h; omega
  | succ n ih =>
    intro s h
    rw [declarators]
    refine ends_bind (ends_declarator s) fun d t hd => ?_
    refine ends_ite (fun hc => ?_) fun _ => ends_ok
    have := tail_lt hc punct_ne_eof
    obtain ⟨l, rfl, _⟩ := declarator_sound hd
    simp only [List.length_append] at h
    exact ends_bind (ih _ (by omega)) fun _ _ _ => ends_ok

theorem ends_declaration (names : Names) (s : List Tok) : declaration names s ≠ .loop := by
  unfold declaration
  refine ends_bind (ends_typeSpec names s) fun t s _ => ?_
  refine ends_ite (fun _ => ends_ok) fun _ => ?_
  exact ends_bind (ends_declarators _ _ (by omega)) fun _ _ _ => ends_expect

theorem ends_forInit (names : Names) (s : List Tok) : forInit names s ≠ .loop := by
  unfold forInit
  refine ends_ite (fun _ => ends_ok) fun _ => ends_ite (fun _ => ?_) fun _ => ?_
  · exact ends_bind (ends_declaration _ _) fun _ _ _ => ends_ok
  · exact ends_bind (ends_expression _) fun _ _ _ => ends_expect

theorem ends_forCond (s : List Tok) : forCond s ≠ .loop := by
  unfold forCond
  exact ends_ite (fun _ => ends_ok) fun _ => ends_bind (ends_expression _) fun _ _ _ => ends_expect

theorem ends_forIncr (s : List Tok) : forIncr s ≠ .loop := by
  unfold forIncr
  exact ends_ite (fun _ => ends_ok) fun _ => ends_bind (ends_expression _) fun _ _ _ => ends_expect

theorem ends_exprStmt (s : List Tok) : ((parseExpression s).bind fun e s => expect (.punct .semicolon) (Stmt.expr e) s) ≠ .loop :=
  ends_bind (ends_expression _) fun _ _ _ => ends_expect

theorem statement_lt {names : Names} {n : Nat} {flags : Flags} {s r : List Tok} {st : Stmt} (h : statement names n flags s = .ok st r) : r.length < s.length := by
  obtain ⟨o, l, rfl, hs, _⟩ := (stmt_sound names n).1 _ _ _ _ h
  obtain ⟨t, l', rfl, _⟩ := s_first hs _ _ _ rfl
  simp
  omega

theorem declaration_lt {names : Names} {s r : List Tok} {d : Ty × List Declarator} (h : declaration names s = .ok d r) : r.length < s.length := by
  obtain ⟨l, rfl, hd⟩ := declaration_sound h
  obtain ⟨t, l', rfl, _⟩ := decl_first hd
  simp
  omega

theorem stmt_ends (names : Names) (n : Nat) : (∀ flags s, 2 * s.length < n → statement names n flags s ≠ .loop) ∧
    (∀ flags s, 2 * s.length + 1 < n → items names n flags s ≠ .loop) := by
  induction n with
  | zero => exact ⟨fun _ _ h => by omega, fun _ _ h => by omega⟩
  | succ n ih =>
    obtain ⟨i1, i2⟩ := ih
    refine ⟨?_, ?_⟩
    · intro flags s h
      rw [statement]
      split
      · next hc =>
        have := tail_lt hc punct_ne_eof
        exact ends_bind (i2 _ _ (by omega)) fun _ _ _ => ends_expect
      · exact ends_ok
      · next k hc =>
        have h1 := tail_lt hc keyword_ne_eof
        have h2 := tail_le s.tail
        refine ends_ite (fun _ => ?_) fun _ => ?_
        · refine ends_ite (fun _ => ends_error) fun _ => ?_
          refine ends_bind (ends_constant _) fun e t he => ?_
          have := constant_le he
          have := tail_le t
          exact ends_ite (fun _ => ends_bind (i1 _ _ (by omega)) fun _ _ _ => ends_ok) fun _ => ends_error
        refine ends_ite (fun _ => ?_) fun _ => ?_
        · refine ends_ite (fun _ => ends_error) fun _ => ?_
          exact ends_ite (fun _ => ends_bind (i1 _ _ (by omega)) fun _ _ _ => ends_ok) fun _ => ends_error
        refine ends_ite (fun _ => ?_) fun _ => ?_
        · refine ends_bind (ends_condition _) fun e t he => ?_
          have := condition_le he
          refine ends_bind (i1 _ _ (by omega)) fun x u hx => ?_
          have := statement_lt hx
          have := tail_le u
          exact ends_ite (fun _ => ends_bind (i1 _ _ (by omega)) fun _ _ _ => ends_ok) fun _ => ends_ok
        refine ends_ite (fun _ => ?_) fun _ => ?_
        · refine ends_bind (ends_condition _) fun e t he => ?_
          have := condition_le he
          exact ends_bind (i1 _ _ (by omega)) fun x u hx => ends_ok
        refine ends_ite (fun _ => ?_) fun _ => ?_
        · refine ends_bind (ends_condition _) fun e t he => ?_
          have := condition_le he
          exact ends_bind (i1 _ _ (by omega)) fun x u hx => ends_ok
        refine ends_ite (fun _ => ?_) fun _ => ?_
        · refine ends_bind (i1 _ _ (by omega)) fun x u hx => ?_
          refine ends_ite (fun _ => ?_) fun _ => ends_error
          exact ends_bind (ends_condition _) fun _ _ _ => ends_expect
        refine ends_ite (fun _ => ?_) fun _ => ?_
        · refine ends_ite (fun _ => ?_) fun _ => ends_error
          refine ends_bind (ends_forInit _ _) fun i t hi => ?_
          refine ends_bind (ends_forCond _) fun c u hc => ?_
          refine ends_bind (ends_forIncr _) fun m v hm => ?_
          have e1 : t.length ≤ s.tail.tail.length := by
            obtain ⟨l, e, _⟩ := forInit_sound hi
            rw [e]; simp
          have e2 : u.length ≤ t.length := by
            obtain ⟨l, e, _⟩ := forCond_sound hc
            rw [e]; simp; omega
          have e3 : v.length ≤ u.length := by
            obtain ⟨l, e, _⟩ := forIncr_sound hm
            rw [e]; simp; omega
          exact ends_bind (i1 _ _ (by omega)) fun _ _ _ => ends_ok
        refine ends_ite (fun _ => ends_ite (fun _ => ends_error) fun _ => ends_expect) fun _ => ?_
        refine ends_ite (fun _ => ends_ite (fun _ => ends_error) fun _ => ends_expect) fun _ => ?_
        refine ends_ite (fun _ => ?_) fun _ => ends_exprStmt _
        exact ends_ite (fun _ => ends_ok) fun _ => ends_bind (ends_expression _) fun _ _ _ => ends_expect
      · exact ends_exprStmt _
    · intro flags s h
      rw [items]
      refine ends_ite (fun _ => ends_ok) fun _ => ?_
      refine ends_bind (ends_ite (fun _ => ends_bind (ends_declaration _ _) fun _ _ _ => ends_ok) fun _ => i1 _ _ (by omega)) fun x t hx => ?_
      have : t.length < s.length := by
        split at hx
        · obtain ⟨d, u, hd, hx⟩ := bind_ok hx
          cases hx
          exact declaration_lt hd
        · exact statement_lt hx
      exact ends_bind (i2 _ _ (by omega)) fun _ _ _ => ends_ok

/-- Jumps in a statement of the grammar are well placed. -/
theorem s_placed {names : Names} {nt : Stmt.Spec.Nt} {l : List Tok} {ss : List Stmt} (h : S names nt l ss) : ∀ w c,
    (nt = .items w c ∨ ∃ o, nt = .stmt w c o) → AllPlaced w c ss := by
  have one : ∀ {w c s}, AllPlaced w c [s] → Placed w c s := fun h => by cases h; assumption
  induction h with
  | null => intro w c h; exact .cons .null .nil
  | expr => intro w c h; exact .cons .expr .nil
  | return_ => intro w c h; exact .cons .return_ .nil
  | continue_ => rintro w c (h | ⟨o, h⟩) <;> cases h; exact .cons .continue_ .nil
  | breakLoop => rintro w c (h | ⟨o, h⟩) <;> cases h; exact .cons (.break_ (Or.inl rfl)) .nil
  | breakSwitch => rintro w c (h | ⟨o, h⟩) <;> cases h; exact .cons (.break_ (Or.inr rfl)) .nil
  | compound _ ih => rintro w c (h | ⟨o, h⟩) <;> cases h; exact .cons (.compound (ih _ _ (Or.inl rfl))) .nil
  | if_ _ _ ih => rintro w c (h | ⟨o, h⟩) <;> cases h; exact .cons (.if_ (one (ih _ _ (Or.inr ⟨_, rfl⟩)))) .nil
  | ifElse _ _ _ ih ih' =>
    rintro w c (h | ⟨o, h⟩) <;> cases h
    exact .cons (.ifElse (one (ih _ _ (Or.inr ⟨_, rfl⟩))) (one (ih' _ _ (Or.inr ⟨_, rfl⟩)))) .nil
  | switch _ _ ih => rintro w c (h | ⟨o, h⟩) <;> cases h; exact .cons (.switch (one (ih _ _ (Or.inr ⟨_, rfl⟩)))) .nil
  | while_ _ _ ih => rintro w c (h | ⟨o, h⟩) <;> cases h; exact .cons (.while_ (one (ih _ _ (Or.inr ⟨_, rfl⟩)))) .nil
  | do_ _ _ ih => rintro w c (h | ⟨o, h⟩) <;> cases h; exact .cons (.do_ (one (ih _ _ (Or.inr ⟨_, rfl⟩)))) .nil
  | for_ _ _ _ _ ih => rintro w c (h | ⟨o, h⟩) <;> cases h; exact .cons (.for_ (one (ih _ _ (Or.inr ⟨_, rfl⟩)))) .nil
  | case _ _ ih => rintro w c (h | ⟨o, h⟩) <;> cases h; exact .cons (.case (one (ih _ _ (Or.inr ⟨_, rfl⟩)))) .nil
  | default _ ih => rintro w c (h | ⟨o, h⟩) <;> cases h; exact .cons (.default (one (ih _ _ (Or.inr ⟨_, rfl⟩)))) .nil
  | nil => intro w c h; exact .nil
  | decl _ _ ih => rintro w c (h | ⟨o, h⟩) <;> cases h; exact .cons .decl (ih _ _ (Or.inl rfl))
  | stmt _ _ _ ih ih' => rintro w c (h | ⟨o, h⟩) <;> cases h; exact .cons (one (ih _ _ (Or.inr ⟨_, rfl⟩))) (ih' _ _ (Or.inl rfl))

end RuC.Stmt
