import Verif.Stmt.Sound

/-! Whatever the grammar derives is accepted by the statement parser. -/

namespace RuC.Stmt
open RuC RuC.Lexer RuC.Expr RuC.Expr.Spec RuC.Expr.Props RuC.Stmt.Spec

/-! ## First tokens -/

/-- A token an expression or an initializer can begin with. -/
def FirstTok (t : Tok) : Prop := (∃ e, IsAtom t e) ∨ t = .punct .lParen ∨ (∃ op, IsPrefix t op) ∨ t = .punct .lBrace

theorem firstTok {n : Expr.Spec.Nt} {l : List Tok} {es : List Exp} (h : G n l es) : ∃ t l', l = t :: l' ∧ FirstTok t := by
  induction h with
  | atom h => exact ⟨_, _, rfl, Or.inl ⟨_, h⟩⟩
  | paren => exact ⟨_, _, rfl, Or.inr (Or.inl rfl)⟩
  | prefixed h => exact ⟨_, _, rfl, Or.inr (Or.inr (Or.inl ⟨_, h⟩))⟩
  | initBraces | braces => exact ⟨_, _, rfl, Or.inr (Or.inr (Or.inr rfl))⟩
  | ofPrimary _ ih | ofPostfix _ ih | tighter _ _ _ ih | initExpr _ ih | one _ ih | operand _ ih => exact ih
  | subscript _ _ ih _ | callNone _ ih | call _ _ ih _ | period _ ih | arrow _ ih | postInc _ ih | postDec _ ih | left _ _ _ _ ih _ | assign _ _ _ ih _ | ternary _ _ _ ih _ _ | more _ _ ih _ =>
    obtain ⟨t, l', rfl, h⟩ := ih
    exact ⟨_, _, rfl, h⟩

theorem e_first {l : List Tok} {e : Exp} (h : E l e) : ∃ t l', l = t :: l' ∧ FirstTok t ∧ t ≠ .punct .lBrace := by
  obtain ⟨t, l', rfl, ht⟩ := firstTok h
  obtain ⟨t', l'', he, hs⟩ := first h
  cases he
  exact ⟨_, _, rfl, ht, hs.2.2.2 (Or.inr ⟨1, rfl⟩)⟩

theorem firstTok_notPunct {q : Punct} (hq : q ∈ [Punct.semicolon, .rParen, .rSquare, .colon, .rBrace, .comma, .equal]) : ¬FirstTok (.punct q) := by
  rintro (⟨e, h⟩ | h | ⟨op, h⟩ | h)
  · cases h
  · cases h; simp at hq
  · cases h <;> simp at hq
  · cases h; simp at hq

theorem firstTok_ne_eof : ¬FirstTok .eof := by
  rintro (⟨e, h⟩ | h | ⟨op, h⟩ | h) <;> cases h

/-- The keywords a statement that is not an expression begins with, and `else`. -/
def stmtKeywords : List Int := [TK_ELSE, TK_CASE, TK_DEFAULT, TK_IF, TK_SWITCH, TK_WHILE, TK_DO, TK_FOR, TK_CONTINUE, TK_BREAK, TK_RETURN]

theorem firstTok_keyword {k : Int} (h : FirstTok (.keyword k)) : k ∉ stmtKeywords := by
  rcases h with ⟨e, h⟩ | h | ⟨op, h⟩ | h
  · cases h <;> decide
  · cases h
  · cases h <;> decide
  · cases h

/-! ## Expressions -/

theorem follow_punct {q : Punct} {r : List Tok} {p : Nat} (hp : 1 ≤ p) (hq : q ∈ [Punct.semicolon, .rParen, .rSquare, .colon]) :
    NoPostfix (.punct q :: r) ∧ NoOperator p (.punct q :: r) := by
  rw [noPostfix_iff, noOperator_iff hp, cur_cons]
  simp only [List.mem_cons, List.not_mem_nil, or_false] at hq
  rcases hq with rfl | rfl | rfl | rfl <;> exact ⟨by simp [IsPostfixStart], by simp [prec]; omega⟩

theorem expr_complete {q : Punct} {l r : List Tok} {e : Exp} (h : E l e) (hq : q ∈ [Punct.semicolon, .rParen, .rSquare, .colon]) :
    parseExpression (l ++ .punct q :: r) = .ok e (.punct q :: r) :=
  expression_complete _ _ _ h (follow_punct (Nat.le_refl 1) hq).1 (follow_punct (Nat.le_refl 1) hq).2

theorem condition_complete {l r : List Tok} {e : Exp} (h : E l e) : condition (.punct .lParen :: (l ++ .punct .rParen :: r)) = .ok e r := by
  unfold condition
  rw [cur_cons, if_pos rfl, List.tail_cons, expr_complete h (by simp)]
  simp only [Res.bind, expect, cur_cons, if_true, List.tail_cons]

/-! ## Declarations -/

theorem typeSpec_complete {names : Names} {l : List Tok} {t : Ty} (h : T names l t) (r : List Tok) (hr : cur r ≠ .punct .lBrace) :
    typeSpec names (l ++ r) = .ok t r := by
  induction h with
  | @const l t _ hc ih =>
    rw [List.cons_append, typeSpec, if_neg (by decide), if_neg (by decide), if_neg (by decide), if_neg (by decide), if_neg (by decide), if_neg (by decide),
      if_pos (by decide), ih]
    simp only [Res.bind]
    rw [if_neg]
    cases t <;> simp [Ty.isConst] at hc ⊢
  | struct hd =>
    simp only [List.cons_append, List.nil_append]
    rw [typeSpec, if_neg (by decide), if_neg (by decide), if_neg (by decide), if_neg (by decide), if_neg (by decide), if_neg (by decide), if_neg (by decide),
      if_pos (by decide)]
    unfold tagSpec
    simp only [cur_cons]
    rw [List.tail_cons, if_neg hr, if_pos hd]
  | enum hd =>
    simp only [List.cons_append, List.nil_append]
    rw [typeSpec, if_neg (by decide), if_neg (by decide), if_neg (by decide), if_neg (by decide), if_neg (by decide), if_neg (by decide), if_neg (by decide),
      if_pos (by decide)]
    unfold tagSpec
    simp only [cur_cons]
    rw [List.tail_cons, if_neg hr, if_pos hd]
  | name hd ht =>
    simp only [List.cons_append, List.nil_append, typeSpec, hd, ht, Bool.and_self, if_true]
  | _ => rfl

theorem bounds_complete {l : List Tok} {bs : List (Option Exp)} (h : B l bs) : ∀ (r : List Tok) (n : Nat), cur r ≠ .punct .lSquare → l.length < n →
    bounds n (l ++ r) = .ok bs r := by
  induction h with
  | nil =>
    intro r n hr hn
    obtain ⟨n, rfl⟩ : ∃ m, n = m + 1 := ⟨n - 1, by omega⟩
    rw [List.nil_append, bounds, if_neg hr]
  | empty _ ih =>
    intro r n hr hn
    obtain ⟨n, rfl⟩ : ∃ m, n = m + 1 := ⟨n - 1, by omega⟩
    simp only [List.length_cons] at hn
    simp only [List.cons_append, bounds, cur_cons, if_true, List.tail_cons]
    rw [ih r n hr (by omega)]
    rfl
  | @bound l₁ l₂ e bs he _ ih =>
    intro r n hr hn
    obtain ⟨n, rfl⟩ : ∃ m, n = m + 1 := ⟨n - 1, by omega⟩
    simp only [List.length_cons, List.length_append] at hn
    obtain ⟨t, l', hl, ht, _⟩ := e_first he
    have hne : cur (l₁ ++ .punct .rSquare :: (l₂ ++ r)) ≠ .punct .rSquare := by
      rw [hl, List.cons_append, cur_cons]
      rintro rfl
      exact firstTok_notPunct (by simp) ht
    simp only [List.cons_append, List.append_assoc, bounds, cur_cons, if_true, List.tail_cons]
    rw [if_neg hne, expr_complete he (by simp)]
    simp only [Res.bind, cur_cons, if_true, List.tail_cons]
    rw [ih r n hr (by omega)]

theorem declaratorEnd_complete {l : List Tok} {bs : List (Option Exp)} {name : List Nat} {star const : Bool} (h : B l bs) (r : List Tok) (hr : cur r ≠ .punct .lSquare)
    (he : cur r ≠ .punct .equal) : declaratorEnd name star const (l ++ r) = .ok ⟨name, star, const, bs, none⟩ r := by
  unfold declaratorEnd
  rw [bounds_complete h r _ hr (by simp; omega)]
  simp only [Res.bind]
  rw [if_neg he]

theorem declaratorEnd_init {l l' : List Tok} {bs : List (Option Exp)} {e : Exp} {name : List Nat} {star const : Bool} (h : B l bs) (hg : G .initializer l' [e]) (r : List Tok)
    (hp : NoPostfix r) (ho : NoOperator 2 r) : declaratorEnd name star const (l ++ .punct .equal :: (l' ++ r)) = .ok ⟨name, star, const, bs, some e⟩ r := by
  unfold declaratorEnd
  rw [bounds_complete h _ _ (by simp) (by simp; omega)]
  simp only [Res.bind, cur_cons, if_true, List.tail_cons]
  rw [initializer_complete _ _ _ hg hp ho]

theorem declarator_stars {l : List Tok} {star const : Bool} (h : Stars l star const) (name : List Nat) (r : List Tok) :
    declarator (l ++ .ident name :: r) = declaratorEnd name star const r := by
  cases h <;> simp [declarator, TK_CONST]

theorem declarator_complete {l : List Tok} {d : Declarator} (h : D l d) (r : List Tok) (hr : cur r = .punct .comma ∨ cur r = .punct .semicolon) :
    declarator (l ++ r) = .ok d r := by
  have hs : cur r ≠ .punct .lSquare := by rcases hr with h | h <;> rw [h] <;> simp
  cases h with
  | plain hst hb =>
    rw [List.append_assoc, List.cons_append, declarator_stars hst]
    exact declaratorEnd_complete hb r hs (by rcases hr with h | h <;> rw [h] <;> simp)
  | init hst hb hg =>
    simp only [List.append_assoc, List.cons_append]
    rw [declarator_stars hst]
    refine declaratorEnd_init hb hg r ?_ ?_
    · rw [noPostfix_iff]
      rcases hr with h | h <;> rw [h] <;> simp [IsPostfixStart]
    · rw [noOperator_iff (by omega)]
      rcases hr with h | h <;> rw [h] <;> simp [prec]

theorem declarators_complete {l : List Tok} {ds : List Declarator} (h : Ds l ds) (r : List Tok) (hr : cur r = .punct .semicolon) :
    ∀ n, l.length < n → declarators n (l ++ r) = .ok ds r := by
  induction h with
  | one hd =>
    intro n hn
    obtain ⟨n, rfl⟩ : ∃ m, n = m + 1 := ⟨n - 1, by omega⟩
    rw [declarators, declarator_complete hd r (Or.inr hr)]
    simp only [Res.bind, hr]
    rw [if_neg (by simp)]
  | more hd _ ih =>
    intro n hn
    obtain ⟨n, rfl⟩ : ∃ m, n = m + 1 := ⟨n - 1, by omega⟩
    simp only [List.length_append, List.length_cons] at hn
    rw [List.append_assoc, List.cons_append, declarators, declarator_complete hd _ (Or.inl rfl)]
    simp only [Res.bind, cur_cons, if_true, List.tail_cons]
    rw [ih n (by omega)]

theorem d_first {l : List Tok} {d : Declarator} (h : D l d) : ∃ t l', l = t :: l' ∧ (t = .punct .star ∨ ∃ n, t = .ident n) := by
  cases h with
  | plain h _ | init h _ _ =>
    cases h with
    | none => exact ⟨_, _, rfl, Or.inr ⟨_, rfl⟩⟩
    | star | starConst => exact ⟨_, _, rfl, Or.inl rfl⟩

theorem ds_first {l : List Tok} {ds : List Declarator} (h : Ds l ds) : ∃ t l', l = t :: l' ∧ (t = .punct .star ∨ ∃ n, t = .ident n) := by
  cases h with
  | one h => exact d_first h
  | more h _ =>
    obtain ⟨t, l', rfl, ht⟩ := d_first h
    exact ⟨_, _, rfl, ht⟩

theorem declaration_complete {names : Names} {l : List Tok} {t : Ty} {ds : List Declarator} (h : Decl names l t ds) (r : List Tok) :
    declaration names (l ++ r) = .ok (t, ds) r := by
  cases h with
  | none ht =>
    unfold declaration
    rw [List.append_assoc, typeSpec_complete ht _ (by simp)]
    simp only [Res.bind, List.cons_append, List.nil_append, cur_cons, if_true, List.tail_cons]
  | some ht hds =>
    unfold declaration
    obtain ⟨a, l', hl, ha⟩ := ds_first hds
    rw [List.append_assoc, List.append_assoc, typeSpec_complete ht _ (by rw [hl]; rcases ha with rfl | ⟨n, rfl⟩ <;> simp)]
    simp only [Res.bind]
    rw [if_neg (by rw [hl]; rcases ha with rfl | ⟨n, rfl⟩ <;> simp)]
    rw [declarators_complete hds _ (by simp) _ (by simp; omega)]
    simp only [expect, List.cons_append, List.nil_append, cur_cons, if_true, List.tail_cons]

theorem t_first {names : Names} {l : List Tok} {t : Ty} (h : T names l t) : ∃ a l', l = a :: l' ∧ BeginsDecl names a := by
  cases h with
  | name hd ht => exact ⟨_, _, rfl, Or.inr ⟨_, rfl, hd, ht⟩⟩
  | _ => exact ⟨_, _, rfl, Or.inl ⟨_, by decide, rfl⟩⟩

theorem decl_first {names : Names} {l : List Tok} {t : Ty} {ds : List Declarator} (h : Decl names l t ds) : ∃ a l', l = a :: l' ∧ BeginsDecl names a := by
  cases h with
  | none ht | some ht _ =>
    obtain ⟨a, l', rfl, ha⟩ := t_first ht
    exact ⟨_, _, rfl, ha⟩

theorem decl_notPunct {names : Names} {q : Punct} : ¬BeginsDecl names (.punct q) := by
  rintro (⟨k, _, h⟩ | ⟨n, h, _⟩) <;> cases h

theorem decl_ne_eof {names : Names} : ¬BeginsDecl names .eof := by
  rintro (⟨k, _, h⟩ | ⟨n, h, _⟩) <;> cases h

/-! ## The parts of a `for` -/

theorem forInit_complete {names : Names} {l : List Tok} {i : ForInit} (h : Init names l i) (r : List Tok) : forInit names (l ++ r) = .ok i r := by
  unfold forInit
  cases h with
  | none => simp
  | decl hd =>
    obtain ⟨a, l', hl, ha⟩ := decl_first hd
    rw [if_neg, if_pos, declaration_complete hd]
    · rfl
    · rw [hl, List.cons_append, cur_cons]
      exact (decl_iff _ _).2 ha
    · rw [hl, List.cons_append, cur_cons]
      rintro rfl
      exact decl_notPunct ha
  | expr he hb =>
    obtain ⟨a, l', hl, ha, _⟩ := e_first he
    rw [if_neg, if_neg, List.append_assoc, List.cons_append, expr_complete he (by simp)]
    · simp [Res.bind, expect]
    · rw [hl, List.cons_append, List.cons_append, cur_cons, decl_iff]
      exact hb a (by rw [hl]; simp)
    · rw [hl, List.cons_append, List.cons_append, cur_cons]
      rintro rfl
      exact firstTok_notPunct (by simp) ha

theorem forCond_complete {l : List Tok} {e : Option Exp} (h : Opt l e) (r : List Tok) : forCond (l ++ .punct .semicolon :: r) = .ok e r := by
  unfold forCond
  cases h with
  | none => simp
  | some he =>
    obtain ⟨a, l', hl, ha, _⟩ := e_first he
    rw [if_neg, expr_complete he (by simp)]
    · simp [Res.bind, expect]
    · rw [hl, List.cons_append, cur_cons]
      rintro rfl
      exact firstTok_notPunct (by simp) ha

theorem forIncr_complete {l : List Tok} {e : Option Exp} (h : Opt l e) (r : List Tok) : forIncr (l ++ .punct .rParen :: r) = .ok e r := by
  unfold forIncr
  cases h with
  | none => simp
  | some he =>
    obtain ⟨a, l', hl, ha, _⟩ := e_first he
    rw [if_neg, expr_complete he (by simp)]
    · simp [Res.bind, expect]
    · rw [hl, List.cons_append, cur_cons]
      rintro rfl
      exact firstTok_notPunct (by simp) ha

/-! ## Statements -/

theorem s_first {names : Names} {nt : Stmt.Spec.Nt} {l : List Tok} {ss : List Stmt} (h : S names nt l ss) : ∀ w c o, nt = .stmt w c o →
    ∃ t l', l = t :: l' ∧ t ≠ .punct .rBrace ∧ t ≠ .eof ∧ t ≠ .keyword TK_ELSE := by
  intro w c o hn
  cases h <;> try cases hn
  case expr he =>
    obtain ⟨a, l', rfl, ha, _⟩ := e_first he
    refine ⟨_, _, rfl, ?_, ?_, ?_⟩
    · rintro rfl
      exact firstTok_notPunct (by simp) ha
    · rintro rfl
      exact firstTok_ne_eof ha
    · rintro rfl
      exact firstTok_keyword ha (by decide)
  all_goals exact ⟨_, _, rfl, by simp, by simp, by simp [TK_ELSE]⟩

theorem items_first {names : Names} {w c : Bool} {l : List Tok} {ss : List Stmt} (h : S names (.items w c) l ss) (r : List Tok) (hr : cur r ≠ .keyword TK_ELSE) :
    cur (l ++ r) ≠ .keyword TK_ELSE := by
  cases h with
  | nil => exact hr
  | decl hd _ =>
    obtain ⟨a, l', rfl, ha⟩ := decl_first hd
    rw [List.cons_append, List.cons_append, cur_cons]
    rintro rfl
    rcases ha with ⟨k, hk, he⟩ | ⟨n, hn, _⟩
    · cases he
      exact absurd hk (by decide)
    · cases hn
  | stmt hs _ _ =>
    obtain ⟨a, l', rfl, _, _, ha⟩ := s_first hs _ _ _ rfl
    rw [List.cons_append, List.cons_append, cur_cons]
    exact ha

theorem statement_expr (names : Names) (n : Nat) (flags : Flags) (t : Tok) (s : List Tok) (h : FirstTok t) (hb : t ≠ .punct .lBrace) :
    statement names (n + 1) flags (t :: s) = (parseExpression (t :: s)).bind fun e s => expect (.punct .semicolon) (.expr e) s := by
  rw [statement]
  simp only [cur_cons]
  split
  · exact absurd rfl hb
  · exact absurd h (firstTok_notPunct (by simp))
  · next k =>
    have := firstTok_keyword h
    simp only [stmtKeywords, List.mem_cons, List.not_mem_nil, or_false, not_or] at this
    obtain ⟨_, h1, h2, h3, h4, h5, h6, h7, h8, h9, h10⟩ := this
    rw [if_neg h1, if_neg h2, if_neg h3, if_neg h4, if_neg h5, if_neg h6, if_neg h7, if_neg h8, if_neg h9, if_neg h10]
  · rfl

/-- What completeness says of a nonterminal. -/
def Claim (names : Names) : Stmt.Spec.Nt → List Tok → List Stmt → Prop
  | .stmt w c o, l, ss => ∀ st r n, ss = [st] → (o = true → cur r ≠ .keyword TK_ELSE) → 2 * l.length ≤ n →
      statement names n ⟨w, c⟩ (l ++ r) = .ok st r
  | .items w c, l, ss => ∀ r n, cur r = .punct .rBrace ∨ cur r = .eof → 2 * l.length < n → items names n ⟨w, c⟩ (l ++ r) = .ok ss r

theorem fuel_succ {n k : Nat} (h : k < n) : ∃ m, n = m + 1 := ⟨n - 1, by omega⟩

theorem stmt_claim {names : Names} {nt : Stmt.Spec.Nt} {l : List Tok} {ss : List Stmt} (h : S names nt l ss) : Claim names nt l ss := by
  induction h with
  | null =>
    rintro st r n hst ho hn
    cases hst
    simp only [List.length_cons, List.length_nil] at hn
    obtain ⟨n, rfl⟩ := fuel_succ (k := 0) (n := n) (by omega)
    simp [statement]
  | expr he =>
    rintro st r n hst ho hn
    cases hst
    simp only [List.length_append, List.length_cons] at hn
    obtain ⟨n, rfl⟩ := fuel_succ (k := 0) (n := n) (by omega)
    obtain ⟨a, l', hl, ha, hb⟩ := e_first he
    rw [hl, List.cons_append, List.cons_append, statement_expr _ _ _ _ _ ha hb, ← List.cons_append, ← List.cons_append, ← hl, List.append_assoc, List.cons_append,
      expr_complete he (by simp)]
    simp [Res.bind, expect]
  | compound _ ih =>
    rintro st r n hst ho hn
    cases hst
    simp only [List.length_append, List.length_cons, List.length_nil] at hn
    obtain ⟨n, rfl⟩ := fuel_succ (k := 0) (n := n) (by omega)
    simp only [List.cons_append, List.append_assoc, List.nil_append, statement, cur_cons, List.tail_cons]
    rw [ih (.punct .rBrace :: r) n (Or.inl rfl) (by omega)]
    simp [Res.bind, expect]
  | if_ he _ ih =>
    rintro st r n hst ho hn
    cases hst
    simp only [List.length_append, List.length_cons] at hn
    obtain ⟨n, rfl⟩ := fuel_succ (k := 0) (n := n) (by omega)
    simp only [List.cons_append, List.append_assoc, statement, cur_cons, List.tail_cons]
    rw [if_neg (by decide), if_neg (by decide), if_pos (by decide), condition_complete he]
    simp only [Res.bind]
    rw [ih _ r n rfl (fun _ => ho rfl) (by omega)]
    simp only
    rw [if_neg (ho rfl)]
  | ifElse he _ _ ih ih' =>
    rintro st r n hst ho hn
    cases hst
    simp only [List.length_append, List.length_cons] at hn
    obtain ⟨n, rfl⟩ := fuel_succ (k := 0) (n := n) (by omega)
    simp only [List.cons_append, List.append_assoc, statement, cur_cons, List.tail_cons]
    rw [if_neg (by decide), if_neg (by decide), if_pos (by decide), condition_complete he]
    simp only [Res.bind]
    rw [ih _ _ n rfl (by simp) (by omega)]
    simp only
    rw [if_pos (by rfl), List.tail_cons, ih' _ r n rfl ho (by omega)]
  | switch he _ ih =>
    rintro st r n hst ho hn
    cases hst
    simp only [List.length_append, List.length_cons] at hn
    obtain ⟨n, rfl⟩ := fuel_succ (k := 0) (n := n) (by omega)
    simp only [List.cons_append, List.append_assoc, statement, cur_cons, List.tail_cons]
    rw [if_neg (by decide), if_neg (by decide), if_neg (by decide), if_pos (by decide), condition_complete he]
    simp only [Res.bind]
    rw [ih _ r n rfl ho (by omega)]
  | while_ he _ ih =>
    rintro st r n hst ho hn
    cases hst
    simp only [List.length_append, List.length_cons] at hn
    obtain ⟨n, rfl⟩ := fuel_succ (k := 0) (n := n) (by omega)
    simp only [List.cons_append, List.append_assoc, statement, cur_cons, List.tail_cons]
    rw [if_neg (by decide), if_neg (by decide), if_neg (by decide), if_neg (by decide), if_pos (by decide), condition_complete he]
    simp only [Res.bind]
    rw [ih _ r n rfl ho (by omega)]
  | do_ _ he ih =>
    rintro st r n hst ho hn
    cases hst
    simp only [List.length_append, List.length_cons] at hn
    obtain ⟨n, rfl⟩ := fuel_succ (k := 0) (n := n) (by omega)
    simp only [List.cons_append, List.append_assoc, statement, cur_cons, List.tail_cons, List.nil_append]
    rw [if_neg (by decide), if_neg (by decide), if_neg (by decide), if_neg (by decide), if_neg (by decide), if_pos (by decide),
      ih _ _ n rfl (by simp [TK_ELSE]) (by omega)]
    simp only [Res.bind]
    rw [if_pos (by rfl), List.tail_cons, condition_complete he]
    simp [expect]
  | for_ hi hc hn' _ ih =>
    rintro st r n hst ho hn
    cases hst
    simp only [List.length_append, List.length_cons] at hn
    obtain ⟨n, rfl⟩ := fuel_succ (k := 0) (n := n) (by omega)
    simp only [List.cons_append, List.append_assoc, statement, cur_cons, List.tail_cons]
    rw [if_neg (by decide), if_neg (by decide), if_neg (by decide), if_neg (by decide), if_neg (by decide), if_neg (by decide), if_pos (by decide), if_pos (by trivial),
      forInit_complete hi]
    simp only [Res.bind]
    rw [forCond_complete hc]
    simp only
    rw [forIncr_complete hn']
    simp only
    rw [ih _ r n rfl ho (by omega)]
  | continue_ =>
    rintro st r n hst ho hn
    cases hst
    simp only [List.length_cons] at hn
    obtain ⟨n, rfl⟩ := fuel_succ (k := 0) (n := n) (by omega)
    simp only [List.cons_append, List.nil_append, statement, cur_cons, List.tail_cons]
    rw [if_neg (by decide), if_neg (by decide), if_neg (by decide), if_neg (by decide), if_neg (by decide), if_neg (by decide), if_neg (by decide), if_pos (by decide),
      if_neg (by decide)]
    simp [expect]
  | breakLoop =>
    rintro st r n hst ho hn
    cases hst
    simp only [List.length_cons] at hn
    obtain ⟨n, rfl⟩ := fuel_succ (k := 0) (n := n) (by omega)
    simp only [List.cons_append, List.nil_append, statement, cur_cons, List.tail_cons]
    rw [if_neg (by decide), if_neg (by decide), if_neg (by decide), if_neg (by decide), if_neg (by decide), if_neg (by decide), if_neg (by decide), if_neg (by decide),
      if_pos (by decide), if_neg (by simp)]
    simp [expect]
  | breakSwitch =>
    rintro st r n hst ho hn
    cases hst
    simp only [List.length_cons] at hn
    obtain ⟨n, rfl⟩ := fuel_succ (k := 0) (n := n) (by omega)
    simp only [List.cons_append, List.nil_append, statement, cur_cons, List.tail_cons]
    rw [if_neg (by decide), if_neg (by decide), if_neg (by decide), if_neg (by decide), if_neg (by decide), if_neg (by decide), if_neg (by decide), if_neg (by decide),
      if_pos (by decide), if_neg (by simp)]
    simp [expect]
  | return_ he =>
    rintro st r n hst ho hn
    cases hst
    simp only [List.length_append, List.length_cons] at hn
    obtain ⟨n, rfl⟩ := fuel_succ (k := 0) (n := n) (by omega)
    simp only [List.cons_append, List.append_assoc, List.nil_append, statement, cur_cons, List.tail_cons]
    rw [if_neg (by decide), if_neg (by decide), if_neg (by decide), if_neg (by decide), if_neg (by decide), if_neg (by decide), if_neg (by decide), if_neg (by decide),
      if_neg (by decide), if_pos (by decide)]
    cases he with
    | none => simp
    | some he =>
      obtain ⟨a, l', hl, ha, _⟩ := e_first he
      rw [if_neg, expr_complete he (by simp)]
      · simp [Res.bind, expect]
      · rw [hl, List.cons_append, cur_cons]
        rintro rfl
        exact firstTok_notPunct (by simp) ha
  | case he _ ih =>
    rintro st r n hst ho hn
    cases hst
    simp only [List.length_append, List.length_cons] at hn
    obtain ⟨n, rfl⟩ := fuel_succ (k := 0) (n := n) (by omega)
    simp only [List.cons_append, List.append_assoc, statement, cur_cons, List.tail_cons]
    rw [if_pos (by decide), if_neg (by simp), constant_complete _ _ _ he (follow_punct (p := 3) (by omega) (by simp)).1 (follow_punct (by omega) (by simp)).2]
    simp only [Res.bind, cur_cons, if_true, List.tail_cons]
    rw [ih _ r n rfl ho (by omega)]
  | default _ ih =>
    rintro st r n hst ho hn
    cases hst
    simp only [List.length_cons] at hn
    obtain ⟨n, rfl⟩ := fuel_succ (k := 0) (n := n) (by omega)
    simp only [List.cons_append, statement, cur_cons, List.tail_cons]
    rw [if_neg (by decide), if_pos (by decide), if_neg (by simp), if_pos (by trivial), ih _ r n rfl ho (by omega)]
    rfl
  | nil =>
    intro r n hr hn
    obtain ⟨n, rfl⟩ := fuel_succ hn
    rw [List.nil_append, items, if_pos hr]
  | @decl w c l₁ l₂ t ds ss hd _ ih =>
    intro r n hr hn
    obtain ⟨n, rfl⟩ := fuel_succ hn
    obtain ⟨a, l', hl, ha⟩ := decl_first hd
    simp only [List.length_append] at hn
    have hlen := congrArg List.length hl
    simp only [List.length_cons] at hlen
    have hcur : ∀ r, cur (l₁ ++ r) = a := fun r => by rw [hl, List.cons_append, cur_cons]
    rw [List.append_assoc, items, hcur, if_neg, if_pos ((decl_iff _ _).2 ha), declaration_complete hd]
    · simp only [Res.bind]
      rw [ih r n hr (by omega)]
    · rintro (rfl | rfl)
      · exact decl_notPunct ha
      · exact decl_ne_eof ha
  | @stmt w c o l₁ l₂ s ss hs hb hit ih ih' =>
    intro r n hr hn
    obtain ⟨n, rfl⟩ := fuel_succ hn
    obtain ⟨a, l', hl, ha, ha', _⟩ := s_first hs _ _ _ rfl
    simp only [List.length_append] at hn
    have hlen := congrArg List.length hl
    simp only [List.length_cons] at hlen
    have hcur : ∀ r, cur (l₁ ++ r) = a := fun r => by rw [hl, List.cons_append, cur_cons]
    rw [List.append_assoc, items, hcur, if_neg (by rintro (h | h) <;> contradiction), if_neg, ih _ _ n rfl _ (by omega)]
    · simp only [Res.bind]
      rw [ih' r n hr (by omega)]
    · intro _
      exact items_first hit r (by rcases hr with h | h <;> rw [h] <;> simp)
    · rw [decl_iff]
      exact hb a (by rw [hl]; simp)

end RuC.Stmt
