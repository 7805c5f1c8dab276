import Verif.Stmt.Spec
import Verif.Expr.Props

/-! Whatever the statement parser accepts is derived by the grammar. -/

namespace RuC.Stmt
open RuC RuC.Lexer RuC.Expr RuC.Expr.Spec RuC.Expr.Props RuC.Stmt.Spec

theorem expect_ok {α : Type} {t : Tok} {a b : α} {s r : List Tok} (ht : t ≠ .eof) (h : expect t a s = .ok b r) : s = t :: r ∧ a = b := by
  unfold expect at h
  obtain ⟨hc, h⟩ := ite_ok h
  cases h
  exact ⟨cur_eq hc ht, rfl⟩

theorem keyword_ne_eof {k : Int} : (.keyword k : Tok) ≠ .eof := by intro h; cases h

theorem punct_ne_eof {q : Punct} : (.punct q : Tok) ≠ .eof := by intro h; cases h

theorem condition_sound {s r : List Tok} {e : Exp} (h : condition s = .ok e r) : ∃ l, s = .punct .lParen :: l ++ .punct .rParen :: r ∧ E l e := by
  unfold condition at h
  obtain ⟨hc, h⟩ := ite_ok h
  obtain ⟨x, u, hx, h⟩ := bind_ok h
  obtain ⟨hu, he⟩ := expect_ok punct_ne_eof h
  subst he
  obtain ⟨l, hl, hg, _⟩ := expression_sound _ _ _ hx
  refine ⟨l, ?_, hg⟩
  rw [cur_eq hc punct_ne_eof, hl, hu]
  simp

theorem decl_iff (names : Names) (t : Tok) : isDeclSpec names t = true ↔ BeginsDecl names t := by
  unfold BeginsDecl
  cases t with
  | keyword k =>
    simp only [isDeclSpec, decide_eq_true_eq, typeKeywords, List.mem_cons, List.not_mem_nil, or_false, Tok.keyword.injEq, reduceCtorEq, false_and, exists_false]
    simp only [TK_VOID, TK_BOOL, TK_CHAR, TK_INT, TK_LONG, TK_FLOAT, TK_DOUBLE, TK_STRUCT, TK_ENUM, TK_FILE, TK_TYPEDEF, TK_CONST]
    constructor
    · intro h
      exact ⟨k, h, rfl⟩
    · rintro ⟨k', h, rfl⟩
      exact h
  | ident n =>
    simp [isDeclSpec, typeKeywords]
  | _ => simp [isDeclSpec, typeKeywords]

theorem tagSpec_sound {names : Names} {s r : List Tok} {t : Ty} (h : tagSpec names s = .ok t r) :
    ∃ n, s = .ident n :: r ∧ names.isDeclared n = true ∧ t = .named n ∧ cur r ≠ .punct .lBrace := by
  unfold tagSpec at h
  split at h
  · next n hc =>
    have hs := cur_eq hc (by intro h; cases h)
    split at h
    · cases h
    · next hb =>
      obtain ⟨hd, h⟩ := ite_ok h
      cases h
      exact ⟨n, hs, hd, rfl, hb⟩
  · cases h

theorem typeSpec_sound {names : Names} {s r : List Tok} {t : Ty} (h : typeSpec names s = .ok t r) : ∃ l, s = l ++ r ∧ T names l t := by
  induction s generalizing t r with
  | nil => cases h
  | cons a s ih =>
    unfold typeSpec at h
    cases a with
    | keyword k =>
      simp only at h
      by_cases h1 : k = TK_VOID
      · rw [if_pos h1] at h; subst h1; cases h; exact ⟨[_], rfl, .void⟩
      rw [if_neg h1] at h
      by_cases h2 : k = TK_BOOL
      · rw [if_pos h2] at h; subst h2; cases h; exact ⟨[_], rfl, .bool⟩
      rw [if_neg h2] at h
      by_cases h3 : k = TK_CHAR
      · rw [if_pos h3] at h; subst h3; cases h; exact ⟨[_], rfl, .char⟩
      rw [if_neg h3] at h
      by_cases h4 : k = TK_INT ∨ k = TK_LONG
      · rw [if_pos h4] at h
        cases h
        rcases h4 with rfl | rfl
        · exact ⟨[_], rfl, .int⟩
        · exact ⟨[_], rfl, .long⟩
      rw [if_neg h4] at h
      by_cases h5 : k = TK_FLOAT ∨ k = TK_DOUBLE
      · rw [if_pos h5] at h
        cases h
        rcases h5 with rfl | rfl
        · exact ⟨[_], rfl, .float⟩
        · exact ⟨[_], rfl, .double⟩
      rw [if_neg h5] at h
      by_cases h6 : k = TK_FILE
      · rw [if_pos h6] at h; subst h6; cases h; exact ⟨[_], rfl, .file⟩
      rw [if_neg h6] at h
      by_cases h7 : k = TK_CONST
      · rw [if_pos h7] at h
        subst h7
        replace h := bind_ok h
        obtain ⟨u, v, hu, h⟩ := h
        obtain ⟨l, rfl, hl⟩ := ih hu
        split at h
        · cases h
        · next hc =>
          cases h
          refine ⟨_ :: l, rfl, .const hl ?_⟩
          rintro w rfl
          exact hc rfl
      rw [if_neg h7] at h
      by_cases h8 : k = TK_STRUCT ∨ k = TK_ENUM
      · rw [if_pos h8] at h
        obtain ⟨n, rfl, hd, rfl, _⟩ := tagSpec_sound h
        rcases h8 with rfl | rfl
        · exact ⟨[_, _], rfl, .struct hd⟩
        · exact ⟨[_, _], rfl, .enum hd⟩
      rw [if_neg h8] at h
      cases h
    | ident n =>
      simp only at h
      obtain ⟨hd, h⟩ := ite_ok h
      cases h
      rw [Bool.and_eq_true] at hd
      exact ⟨[_], rfl, .name hd.1 hd.2⟩
    | _ => cases h

theorem bounds_sound (n : Nat) : ∀ s bs r, bounds n s = .ok bs r → ∃ l, s = l ++ r ∧ B l bs ∧ cur r ≠ .punct .lSquare := by
  induction n with
  | zero => intro s bs r h; cases h
  | succ n ih =>
    intro s bs r h
    rw [bounds] at h
    split at h
    · next hc =>
      have hs := cur_eq hc punct_ne_eof
      split at h
      · next hc' =>
        have hs' := cur_eq hc' punct_ne_eof
        obtain ⟨x, u, hx, h⟩ := bind_ok h
        cases h
        obtain ⟨l, hl, hb, hr⟩ := ih _ _ _ hx
        exact ⟨_, by rw [hs, hs', hl]; rfl, .empty hb, hr⟩
      · obtain ⟨x, u, hx, h⟩ := bind_ok h
        obtain ⟨hu, h⟩ := ite_ok h
        have hu := cur_eq hu punct_ne_eof
        obtain ⟨y, v, hy, h⟩ := bind_ok h
        cases h
        obtain ⟨l, hl, hg, _⟩ := expression_sound _ _ _ hx
        obtain ⟨l', hl', hb, hr⟩ := ih _ _ _ hy
        exact ⟨.punct .lSquare :: l ++ .punct .rSquare :: l', by rw [hs, hl, hu, hl']; simp, .bound hg hb, hr⟩
    · next hc =>
      cases h
      exact ⟨[], rfl, .nil, hc⟩

theorem declaratorEnd_sound {name : List Nat} {star const : Bool} {s r l₁ : List Tok} {d : Declarator} (hs : Stars l₁ star const)
    (h : declaratorEnd name star const s = .ok d r) : ∃ l, s = l ++ r ∧ D (l₁ ++ .ident name :: l) d := by
  unfold declaratorEnd at h
  obtain ⟨bs, u, hbs, h⟩ := bind_ok h
  obtain ⟨l, hl, hb, _⟩ := bounds_sound _ _ _ _ hbs
  split at h
  · next hc =>
    have hu := cur_eq hc punct_ne_eof
    obtain ⟨e, v, he, h⟩ := bind_ok h
    cases h
    obtain ⟨l', hl', hg⟩ := initializer_sound _ _ _ he
    refine ⟨l ++ .punct .equal :: l', by rw [hl, hu, hl']; simp, ?_⟩
    have := D.init (n := name) hs hb hg
    simpa using this
  · cases h
    exact ⟨l, hl, .plain hs hb⟩

theorem declarator_sound {s r : List Tok} {d : Declarator} (h : declarator s = .ok d r) : ∃ l, s = l ++ r ∧ D l d := by
  unfold declarator at h
  by_cases h1 : cur s = .punct .star
  · have hs := cur_eq h1 punct_ne_eof
    by_cases h2 : cur s.tail = .keyword TK_CONST
    · have hs' := cur_eq h2 keyword_ne_eof
      simp only [h1, decide_true, if_true, h2, Bool.and_self] at h
      split at h
      · next n hc =>
        have hn := cur_eq hc (by intro h; cases h)
        obtain ⟨l, hl, hd⟩ := declaratorEnd_sound .starConst h
        exact ⟨_, by rw [hs, hs', hn, hl]; rfl, hd⟩
      · cases h
    · simp only [h1, decide_true, if_true, h2, decide_false, Bool.and_false, Bool.false_eq_true, if_false] at h
      split at h
      · next n hc =>
        have hn := cur_eq hc (by intro h; cases h)
        obtain ⟨l, hl, hd⟩ := declaratorEnd_sound .star h
        exact ⟨_, by rw [hs, hn, hl]; rfl, hd⟩
      · cases h
  · simp only [h1, decide_false, Bool.false_eq_true, if_false, Bool.false_and] at h
    split at h
    · next n hc =>
      have hn := cur_eq hc (by intro h; cases h)
      obtain ⟨l, hl, hd⟩ := declaratorEnd_sound .none h
      exact ⟨_, by rw [hn, hl]; rfl, hd⟩
    · cases h

theorem declarators_sound (n : Nat) : ∀ s ds r, declarators n s = .ok ds r → ∃ l, s = l ++ r ∧ Ds l ds := by
  induction n with
  | zero => intro s ds r h; cases h
  | succ n ih =>
    intro s ds r h
    rw [declarators] at h
    obtain ⟨d, u, hd, h⟩ := bind_ok h
    replace hd := declarator_sound hd
    obtain ⟨l, hl, hd⟩ := hd
    split at h
    · next hc =>
      have hu := cur_eq hc punct_ne_eof
      obtain ⟨x, v, hx, h⟩ := bind_ok h
      cases h
      obtain ⟨l', hl', hds⟩ := ih _ _ _ hx
      exact ⟨l ++ .punct .comma :: l', by rw [hl, hu, hl']; simp, .more hd hds⟩
    · cases h
      exact ⟨l, hl, .one hd⟩

theorem declaration_sound {names : Names} {s r : List Tok} {d : Ty × List Declarator} (h : declaration names s = .ok d r) :
    ∃ l, s = l ++ r ∧ Decl names l d.1 d.2 := by
  unfold declaration at h
  obtain ⟨t, u, ht, h⟩ := bind_ok h
  obtain ⟨l, hl, ht⟩ := typeSpec_sound ht
  split at h
  · next hc =>
    have hu := cur_eq hc punct_ne_eof
    cases h
    exact ⟨l ++ [.punct .semicolon], by rw [hl, hu]; simp, .none ht⟩
  · obtain ⟨ds, v, hds, h⟩ := bind_ok h
    obtain ⟨hv, he⟩ := expect_ok punct_ne_eof h
    subst he
    obtain ⟨l', hl', hds⟩ := declarators_sound _ _ _ _ hds
    exact ⟨l ++ l' ++ [.punct .semicolon], by rw [hl, hl', hv]; simp, .some ht hds⟩

theorem head_cur {l r : List Tok} : ∀ t ∈ l.head?, cur (l ++ r) = t := by
  cases l with
  | nil => simp
  | cons a l => simp

theorem forInit_sound {names : Names} {s r : List Tok} {i : ForInit} (h : forInit names s = .ok i r) : ∃ l, s = l ++ r ∧ Init names l i := by
  unfold forInit at h
  split at h
  · next hc =>
    have hs := cur_eq hc punct_ne_eof
    cases h
    exact ⟨[_], hs, .none⟩
  · split at h
    · obtain ⟨d, u, hd, h⟩ := bind_ok h
      cases h
      obtain ⟨l, hl, hd⟩ := declaration_sound hd
      exact ⟨l, hl, .decl hd⟩
    · next hc =>
      obtain ⟨e, u, he, h⟩ := bind_ok h
      obtain ⟨hu, hi⟩ := expect_ok punct_ne_eof h
      subst hi
      obtain ⟨l, hl, hg, _⟩ := expression_sound _ _ _ he
      refine ⟨l ++ [.punct .semicolon], by rw [hl, hu]; simp, .expr hg ?_⟩
      intro t ht hb
      apply hc
      rw [hl, head_cur t ht]
      exact (decl_iff names t).2 hb

theorem forCond_sound {s r : List Tok} {e : Option Exp} (h : forCond s = .ok e r) : ∃ l, s = l ++ .punct .semicolon :: r ∧ Opt l e := by
  unfold forCond at h
  split at h
  · next hc =>
    have hs := cur_eq hc punct_ne_eof
    cases h
    exact ⟨[], hs, .none⟩
  · obtain ⟨e, u, he, h⟩ := bind_ok h
    obtain ⟨hu, hi⟩ := expect_ok punct_ne_eof h
    subst hi
    obtain ⟨l, hl, hg, _⟩ := expression_sound _ _ _ he
    exact ⟨l, by rw [hl, hu], .some hg⟩

theorem forIncr_sound {s r : List Tok} {e : Option Exp} (h : forIncr s = .ok e r) : ∃ l, s = l ++ .punct .rParen :: r ∧ Opt l e := by
  unfold forIncr at h
  split at h
  · next hc =>
    have hs := cur_eq hc punct_ne_eof
    cases h
    exact ⟨[], hs, .none⟩
  · obtain ⟨e, u, he, h⟩ := bind_ok h
    obtain ⟨hu, hi⟩ := expect_ok punct_ne_eof h
    subst hi
    obtain ⟨l, hl, hg, _⟩ := expression_sound _ _ _ he
    exact ⟨l, by rw [hl, hu], .some hg⟩

theorem exprStmt_sound {names : Names} {w c : Bool} {s r : List Tok} {st : Stmt}
    (h : ((parseExpression s).bind fun e s => expect (.punct .semicolon) (Stmt.expr e) s) = .ok st r) :
    ∃ o l, s = l ++ r ∧ S names (.stmt w c o) l [st] ∧ (o = true → cur r ≠ .keyword TK_ELSE) := by
  obtain ⟨e, u, he, h⟩ := bind_ok h
  obtain ⟨hu, hi⟩ := expect_ok punct_ne_eof h
  subst hi
  obtain ⟨l, hl, hg, _⟩ := expression_sound _ _ _ he
  exact ⟨false, l ++ [.punct .semicolon], by rw [hl, hu]; simp, .expr hg, by simp⟩

theorem stmt_sound (names : Names) (n : Nat) :
    (∀ flags s st r, statement names n flags s = .ok st r →
      ∃ o l, s = l ++ r ∧ S names (.stmt flags.inLoop flags.inSwitch o) l [st] ∧ (o = true → cur r ≠ .keyword TK_ELSE)) ∧
    (∀ flags s ss r, items names n flags s = .ok ss r → ∃ l, s = l ++ r ∧ S names (.items flags.inLoop flags.inSwitch) l ss) := by
  induction n with
  | zero => exact ⟨(fun _ _ _ _ h => by cases h), (fun _ _ _ _ h => by cases h)⟩
  | succ n ih =>
    obtain ⟨i1, i2⟩ := ih
    refine ⟨?_, ?_⟩
    · intro flags s st r h
      rw [statement] at h
      split at h
      · next hc =>
        have hs := cur_eq hc punct_ne_eof
        obtain ⟨ss, u, hss, h⟩ := bind_ok h
        obtain ⟨hu, he⟩ := expect_ok punct_ne_eof h
        subst he
        obtain ⟨l, hl, hg⟩ := i2 _ _ _ _ hss
        exact ⟨false, .punct .lBrace :: l ++ [.punct .rBrace], by rw [hs, hl, hu]; simp, .compound hg, by simp⟩
      · next hc =>
        have hs := cur_eq hc punct_ne_eof
        cases h
        exact ⟨false, [_], hs, .null, by simp⟩
      · next k hc =>
        have hs := cur_eq hc keyword_ne_eof
        by_cases h1 : k = TK_CASE
        · rw [if_pos h1] at h
          subst h1
          split at h
          · cases h
          next hf =>
          have hf : flags.inSwitch = true := by simpa using hf
          obtain ⟨e, u, he, h⟩ := bind_ok h
          obtain ⟨hu, h⟩ := ite_ok h
          have hu := cur_eq hu punct_ne_eof
          obtain ⟨b, v, hb, h⟩ := bind_ok h
          cases h
          obtain ⟨l, hl, hg, _⟩ := constant_sound _ _ _ he
          obtain ⟨o, l', hl', hg', ho⟩ := i1 _ _ _ _ hb
          rw [hf] at hg' ⊢
          exact ⟨o, _, by rw [hs, hl, hu, hl']; simp [TK_CASE], .case hg hg', ho⟩
        rw [if_neg h1] at h
        by_cases h2 : k = TK_DEFAULT
        · rw [if_pos h2] at h
          subst h2
          split at h
          · cases h
          next hf =>
          have hf : flags.inSwitch = true := by simpa using hf
          obtain ⟨hu, h⟩ := ite_ok h
          have hu := cur_eq hu punct_ne_eof
          obtain ⟨b, v, hb, h⟩ := bind_ok h
          cases h
          obtain ⟨o, l', hl', hg', ho⟩ := i1 _ _ _ _ hb
          rw [hf] at hg' ⊢
          exact ⟨o, _, by rw [hs, hu, hl']; rfl, .default hg', ho⟩
        rw [if_neg h2] at h
        by_cases h3 : k = TK_IF
        · rw [if_pos h3] at h
          subst h3
          obtain ⟨c, u, hcond, h⟩ := bind_ok h
          obtain ⟨t, v, ht, h⟩ := bind_ok h
          obtain ⟨l₁, hl₁, hg₁⟩ := condition_sound hcond
          obtain ⟨o, l₂, hl₂, hg₂, ho⟩ := i1 _ _ _ _ ht
          split at h
          · next hels =>
            have hv := cur_eq hels keyword_ne_eof
            obtain ⟨e, w, he, h⟩ := bind_ok h
            cases h
            obtain ⟨o', l₃, hl₃, hg₃, ho'⟩ := i1 _ _ _ _ he
            have : o = false := by
              cases o
              · rfl
              · exact absurd hels (ho rfl)
            subst this
            exact ⟨o', _, by rw [hs, hl₁, hl₂, hv, hl₃]; simp [TK_IF, TK_ELSE], .ifElse hg₁ hg₂ hg₃, ho'⟩
          · next hels =>
            cases h
            exact ⟨true, _, by rw [hs, hl₁, hl₂]; simp [TK_IF], .if_ hg₁ hg₂, fun _ => hels⟩
        rw [if_neg h3] at h
        by_cases h4 : k = TK_SWITCH
        · rw [if_pos h4] at h
          subst h4
          obtain ⟨c, u, hcond, h⟩ := bind_ok h
          obtain ⟨t, v, ht, h⟩ := bind_ok h
          cases h
          obtain ⟨l₁, hl₁, hg₁⟩ := condition_sound hcond
          obtain ⟨o, l₂, hl₂, hg₂, ho⟩ := i1 _ _ _ _ ht
          exact ⟨o, _, by rw [hs, hl₁, hl₂]; simp [TK_SWITCH], .switch hg₁ hg₂, ho⟩
        rw [if_neg h4] at h
        by_cases h5 : k = TK_WHILE
        · rw [if_pos h5] at h
          subst h5
          obtain ⟨c, u, hcond, h⟩ := bind_ok h
          obtain ⟨t, v, ht, h⟩ := bind_ok h
          cases h
          obtain ⟨l₁, hl₁, hg₁⟩ := condition_sound hcond
          obtain ⟨o, l₂, hl₂, hg₂, ho⟩ := i1 _ _ _ _ ht
          exact ⟨o, _, by rw [hs, hl₁, hl₂]; simp [TK_WHILE], .while_ hg₁ hg₂, ho⟩
        rw [if_neg h5] at h
        by_cases h6 : k = TK_DO
        · rw [if_pos h6] at h
          subst h6
          obtain ⟨t, v, ht, h⟩ := bind_ok h
          obtain ⟨hv, h⟩ := ite_ok h
          have hv := cur_eq hv keyword_ne_eof
          obtain ⟨c, u, hcond, h⟩ := bind_ok h
          obtain ⟨hu, he⟩ := expect_ok punct_ne_eof h
          subst he
          obtain ⟨l₂, hl₂, hg₂⟩ := condition_sound hcond
          obtain ⟨o, l₁, hl₁, hg₁, ho⟩ := i1 _ _ _ _ ht
          exact ⟨false, _, by rw [hs, hl₁, hv, hl₂, hu]; simp [TK_DO, TK_WHILE], .do_ hg₁ hg₂, by simp⟩
        rw [if_neg h6] at h
        by_cases h7 : k = TK_FOR
        · rw [if_pos h7] at h
          subst h7
          obtain ⟨hp, h⟩ := ite_ok h
          have hp := cur_eq hp punct_ne_eof
          obtain ⟨i, u₁, hi, h⟩ := bind_ok h
          obtain ⟨c, u₂, hcond, h⟩ := bind_ok h
          obtain ⟨m, u₃, hm, h⟩ := bind_ok h
          obtain ⟨b, u₄, hb, h⟩ := bind_ok h
          cases h
          obtain ⟨l₁, hl₁, hg₁⟩ := forInit_sound hi
          obtain ⟨l₂, hl₂, hg₂⟩ := forCond_sound hcond
          obtain ⟨l₃, hl₃, hg₃⟩ := forIncr_sound hm
          obtain ⟨o, l₄, hl₄, hg₄, ho⟩ := i1 _ _ _ _ hb
          exact ⟨o, _, by rw [hs, hp, hl₁, hl₂, hl₃, hl₄]; simp [TK_FOR], .for_ hg₁ hg₂ hg₃ hg₄, ho⟩
        rw [if_neg h7] at h
        by_cases h8 : k = TK_CONTINUE
        · rw [if_pos h8] at h
          subst h8
          split at h
          · cases h
          next hf =>
          have hf : flags.inLoop = true := by simpa using hf
          obtain ⟨hu, he⟩ := expect_ok punct_ne_eof h
          subst he
          rw [hf]
          exact ⟨false, _, by rw [hs, hu]; rfl, .continue_, by simp⟩
        rw [if_neg h8] at h
        by_cases h9 : k = TK_BREAK
        · rw [if_pos h9] at h
          subst h9
          split at h
          · cases h
          next hf =>
          have hf : flags.inLoop = true ∨ flags.inSwitch = true := by
            cases h1 : flags.inLoop <;> cases h2 : flags.inSwitch <;> simp [h1, h2] at hf ⊢
          obtain ⟨hu, he⟩ := expect_ok punct_ne_eof h
          subst he
          rcases hf with hf | hf
          · rw [hf]
            exact ⟨false, _, by rw [hs, hu]; rfl, .breakLoop, by simp⟩
          · rw [hf]
            exact ⟨false, _, by rw [hs, hu]; rfl, .breakSwitch, by simp⟩
        rw [if_neg h9] at h
        by_cases h10 : k = TK_RETURN
        · rw [if_pos h10] at h
          subst h10
          split at h
          · next hu =>
            have hu := cur_eq hu punct_ne_eof
            cases h
            exact ⟨false, _, by rw [hs, hu]; rfl, .return_ .none, by simp⟩
          · obtain ⟨e, u, he, h⟩ := bind_ok h
            obtain ⟨hu, hi⟩ := expect_ok punct_ne_eof h
            subst hi
            obtain ⟨l, hl, hg, _⟩ := expression_sound _ _ _ he
            exact ⟨false, _, by rw [hs, hl, hu]; simp [TK_RETURN], .return_ (.some hg), by simp⟩
        rw [if_neg h10] at h
        exact exprStmt_sound h
      · exact exprStmt_sound h
    · intro flags s ss r h
      rw [items] at h
      split at h
      · cases h
        exact ⟨[], rfl, .nil⟩
      · obtain ⟨st, u, hst, h⟩ := bind_ok h
        obtain ⟨x, v, hx, h⟩ := bind_ok h
        cases h
        obtain ⟨l', hl', hg'⟩ := i2 _ _ _ _ hx
        split at hst
        · obtain ⟨d, w, hd, hst⟩ := bind_ok hst
          cases hst
          obtain ⟨l, hl, hd⟩ := declaration_sound hd
          exact ⟨l ++ l', by rw [hl, hl']; simp, .decl hd hg'⟩
        · next hc =>
          obtain ⟨o, l, hl, hg, _⟩ := i1 _ _ _ _ hst
          refine ⟨l ++ l', by rw [hl, hl']; simp, .stmt hg ?_ hg'⟩
          intro t ht hb
          apply hc
          rw [hl, head_cur t ht]
          exact (decl_iff names t).2 hb

end RuC.Stmt
