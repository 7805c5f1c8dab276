import Verif.Expr.Complete

/-! Whatever is parsed without an error is derived by the grammar. -/

namespace RuC.Expr
open RuC RuC.Lexer RuC.Expr.Spec

theorem bind_ok {α β : Type} {a : Res α} {f : α → List Tok → Res β} {y : β} {t : List Tok} (h : a.bind f = .ok y t) :
    ∃ x u, a = .ok x u ∧ f x u = .ok y t := by
  cases a with
  | ok x u => exact ⟨x, u, rfl, h⟩
  | error => cases h
  | loop => cases h

theorem ite_ok {α : Type} {p : Prop} [Decidable p] {a : Res α} {y : α} {t : List Tok} (h : (if p then a else .error) = .ok y t) :
    p ∧ a = .ok y t := by
  split at h
  · next hp => exact ⟨hp, h⟩
  · cases h

theorem cur_eq {s : List Tok} {t : Tok} (h : cur s = t) (ht : t ≠ .eof) : s = t :: s.tail := by
  cases s with
  | nil => exact absurd h.symm ht
  | cons a s => simp at h; rw [h]; rfl

/-- A tighter expression is an expression of each looser level. -/
theorem loosen {b : Bool} {p k : Nat} {l : List Tok} {e : Exp} (h : G (.level b k) l [e]) (h1 : 1 ≤ p) (hk : k ≤ 14) (hp : p ≤ k) : G (.level b p) l [e] := by
  obtain ⟨d, rfl⟩ : ∃ d, k = p + d := ⟨k - p, by omega⟩
  clear hp
  induction d with
  | zero => exact h
  | succ d ih => exact ih (.tighter (by omega) (by omega) h) (by omega)

theorem atom_of {k : Int} {e : Exp} {s t : List Tok}
    (h : (if k = TK_NULL then Res.ok Exp.null s else if k = TK_TRUE then .ok (.bool true) s else if k = TK_FALSE then .ok (.bool false) s else .error) = .ok e t) :
    IsAtom (.keyword k) e ∧ s = t := by
  split at h
  · next hk => subst hk; cases h; exact ⟨.null, rfl⟩
  · split at h
    · next hk => subst hk; cases h; exact ⟨.true, rfl⟩
    · split at h
      · next hk => subst hk; cases h; exact ⟨.false, rfl⟩
      · cases h

/-- The part of `rhs` that reads an operand. -/
theorem operand_sound {n k : Nat} {s t : List Tok} {e : Exp} (hk : 1 ≤ k) (hk' : k ≤ 13)
    (hi : ∀ s e t, initializer n s = .ok e t → cur s = .punct .lBrace → ∃ l, s = l ++ t ∧ G (.level true 14) l [e])
    (hu : ∀ s e t, unary n s = .ok e t → ∃ l, s = l ++ t ∧ G .unary l [e])
    (hr : ∀ e m s e' t, 1 ≤ m → m ≤ 14 → rhs n e m s = .ok e' t → ∃ l, s = l ++ t ∧ prec (cur t) < m ∧
        ∀ b l₀ k, m ≤ k → k ≤ 14 → Closed k (prec (cur s)) → G (.level b k) l₀ [e] → G (.level b m) (l₀ ++ l) [e'])
    (h : operand (initializer n) (unary n) (rhs n) k s = .ok e t) :
    ∃ l, s = l ++ t ∧ prec (cur t) < (if k = 3 ∨ k = 2 then k else k + 1) ∧ G (.level true (if k = 3 ∨ k = 2 then k else k + 1)) l [e] := by
  unfold operand at h
  replace h := bind_ok h; obtain ⟨x, u, hx, h⟩ := h
  have : ∃ l, s = l ++ u ∧ G (.level true 14) l [x] := by
    split at hx
    · next hb => exact hi _ _ _ hx hb
    · obtain ⟨l, e1, e2⟩ := hu _ _ _ hx
      exact ⟨l, e1, .operand e2⟩
  obtain ⟨l, rfl, hg⟩ := this
  generalize hm : (if k = 3 ∨ k = 2 then k else k + 1) = m at h ⊢
  have hm1 : 1 ≤ m := by rw [← hm]; split <;> omega
  have hm2 : m ≤ 14 := by rw [← hm]; split <;> omega
  split at h
  · obtain ⟨l', rfl, hp, hl⟩ := hr _ _ _ _ _ hm1 hm2 h
    refine ⟨l ++ l', by simp, hp, hl true l 14 hm2 (Nat.le_refl _) ?_ hg⟩
    have := prec_le (cur (l' ++ t))
    exact Or.inl (by omega)
  · next hc =>
    cases h
    refine ⟨l, rfl, ?_, loosen hg hm1 (Nat.le_refl _) hm2⟩
    rw [← hm]
    split <;> omega

theorem sound (n : Nat) :
    (∀ s e t, primary n s = .ok e t → ∃ l, s = l ++ t ∧ G .primary l [e]) ∧
    (∀ s es t, initializerList n s = .ok es t → ∃ l, s = l ++ t ∧ G .initializerList l es) ∧
    (∀ e s e' t, postfixLoop n e s = .ok e' t → ∃ l, s = l ++ t ∧ ∀ l₀, G .postfix l₀ [e] → G .postfix (l₀ ++ l) [e']) ∧
    (∀ s e t, unary n s = .ok e t → ∃ l, s = l ++ t ∧ G .unary l [e]) ∧
    (∀ e m s e' t, 1 ≤ m → m ≤ 14 → rhs n e m s = .ok e' t → ∃ l, s = l ++ t ∧ prec (cur t) < m ∧
        ∀ b l₀ k, m ≤ k → k ≤ 14 → Closed k (prec (cur s)) → G (.level b k) l₀ [e] → G (.level b m) (l₀ ++ l) [e']) ∧
    (∀ s e t, assignment n s = .ok e t → ∃ l, s = l ++ t ∧ prec (cur t) < 2 ∧ G (.level false 2) l [e]) ∧
    (∀ s e t, expression n s = .ok e t → ∃ l, s = l ++ t ∧ prec (cur t) < 1 ∧ G (.level false 1) l [e]) ∧
    (∀ s e t, initializer n s = .ok e t → ∃ l, s = l ++ t ∧ G .initializer l [e] ∧ (cur s = .punct .lBrace → G (.level true 14) l [e])) := by
  induction n with
  | zero =>
    refine ⟨?_, ?_, ?_, ?_, ?_, ?_, ?_, ?_⟩ <;> intros <;> simp_all [primary, initializerList, postfixLoop, unary, rhs, assignment, expression, initializer]
  | succ n ih =>
    obtain ⟨i1, i2, i3, i4, i5, i6, i7, i8⟩ := ih
    refine ⟨?_, ?_, ?_, ?_, ?_, ?_, ?_, ?_⟩
    · intro s e t h
      rw [primary] at h
      split at h
      case h_7 hc =>
        have hs := cur_eq hc (by intro h; cases h)
        replace h := bind_ok h; obtain ⟨x, u, hx, h⟩ := h
        replace h := ite_ok h; obtain ⟨hu, h⟩ := h
        cases h
        obtain ⟨l, hl, hp, hg⟩ := i7 _ _ _ hx
        have hu := cur_eq hu (by intro h; cases h)
        refine ⟨.punct .lParen :: l ++ [.punct .rParen], ?_, .paren hg⟩
        rw [hs, hl]
        conv => lhs; rw [hu]
        simp
      case h_6 k hc =>
        have hs := cur_eq hc (by intro h; cases h)
        obtain ⟨ha, ht⟩ := atom_of h
        refine ⟨[.keyword k], ?_, .atom ha⟩
        rw [hs, ht]; rfl
      all_goals first
        | (cases h; done)
        | (next hc =>
            have hs := cur_eq hc (by intro h; cases h)
            cases h
            exact ⟨[_], hs, .atom (by constructor)⟩)
    · intro s es t h
      rw [initializerList] at h
      replace h := bind_ok h; obtain ⟨x, u, hx, h⟩ := h
      obtain ⟨l, rfl, hg, _⟩ := i8 _ _ _ hx
      split at h
      · next hc =>
        have hu := cur_eq hc (by intro h; cases h)
        replace h := bind_ok h; obtain ⟨y, v, hy, h⟩ := h
        cases h
        obtain ⟨l', hl', hg'⟩ := i2 _ _ _ hy
        refine ⟨l ++ .punct .comma :: l', ?_, .more hg hg'⟩
        rw [hu, hl']; simp
      · cases h
        exact ⟨l, rfl, .one hg⟩
    · intro e s e' t h
      rw [postfixLoop] at h
      split at h
      case h_1 hc =>
        have hs := cur_eq hc (by intro h; cases h)
        replace h := bind_ok h; obtain ⟨x, u, hx, h⟩ := h
        replace h := ite_ok h; obtain ⟨hu, h⟩ := h
        have hu := cur_eq hu (by intro h; cases h)
        obtain ⟨l, hl, hp, hg⟩ := i7 _ _ _ hx
        obtain ⟨l', hl', hg'⟩ := i3 _ _ _ _ h
        refine ⟨.punct .lSquare :: l ++ [.punct .rSquare] ++ l', ?_, fun l₀ h₀ => ?_⟩
        · rw [hs, hl, hu, hl']; simp
        · have := hg' _ (.subscript h₀ hg)
          simpa using this
      case h_2 hc =>
        have hs := cur_eq hc (by intro h; cases h)
        split at h
        · next hc' =>
          have hs' := cur_eq hc' (by intro h; cases h)
          obtain ⟨l', hl', hg'⟩ := i3 _ _ _ _ h
          refine ⟨.punct .lParen :: .punct .rParen :: l', ?_, fun l₀ h₀ => ?_⟩
          · rw [hs, hs', hl']; simp
          · have := hg' _ (.callNone h₀)
            simpa using this
        · replace h := bind_ok h; obtain ⟨x, u, hx, h⟩ := h
          replace h := ite_ok h; obtain ⟨hu, h⟩ := h
          have hu := cur_eq hu (by intro h; cases h)
          obtain ⟨l, hl, hg⟩ := i2 _ _ _ hx
          obtain ⟨l', hl', hg'⟩ := i3 _ _ _ _ h
          refine ⟨.punct .lParen :: l ++ [.punct .rParen] ++ l', ?_, fun l₀ h₀ => ?_⟩
          · rw [hs, hl, hu, hl']; simp
          · have := hg' _ (.call h₀ hg)
            simpa using this
      case h_3 hc =>
        have hs := cur_eq hc (by intro h; cases h)
        split at h
        · next name hc' =>
          have hs' := cur_eq hc' (by intro h; cases h)
          obtain ⟨l', hl', hg'⟩ := i3 _ _ _ _ h
          refine ⟨.punct .period :: .ident name :: l', ?_, fun l₀ h₀ => ?_⟩
          · rw [hs, hs', hl']; simp
          · have := hg' _ (.period h₀)
            simpa using this
        · cases h
      case h_4 hc =>
        have hs := cur_eq hc (by intro h; cases h)
        split at h
        · next name hc' =>
          have hs' := cur_eq hc' (by intro h; cases h)
          obtain ⟨l', hl', hg'⟩ := i3 _ _ _ _ h
          refine ⟨.punct .arrow :: .ident name :: l', ?_, fun l₀ h₀ => ?_⟩
          · rw [hs, hs', hl']; simp
          · have := hg' _ (.arrow h₀)
            simpa using this
        · cases h
      case h_5 hc =>
        have hs := cur_eq hc (by intro h; cases h)
        obtain ⟨l', hl', hg'⟩ := i3 _ _ _ _ h
        refine ⟨.punct .plusPlus :: l', ?_, fun l₀ h₀ => ?_⟩
        · rw [hs, hl']; simp
        · have := hg' _ (.postInc h₀)
          simpa using this
      case h_6 hc =>
        have hs := cur_eq hc (by intro h; cases h)
        obtain ⟨l', hl', hg'⟩ := i3 _ _ _ _ h
        refine ⟨.punct .minusMinus :: l', ?_, fun l₀ h₀ => ?_⟩
        · rw [hs, hl']; simp
        · have := hg' _ (.postDec h₀)
          simpa using this
      · cases h
        exact ⟨[], rfl, fun l₀ h₀ => by simpa using h₀⟩
    · intro s e t h
      rw [unary] at h
      split at h
      · next op hop =>
        have hs : s = cur s :: s.tail := cur_eq rfl (by intro h; rw [h] at hop; simp [prefixOp] at hop)
        replace h := bind_ok h; obtain ⟨x, u, hx, h⟩ := h
        cases h
        obtain ⟨l, hl, hg⟩ := i4 _ _ _ hx
        refine ⟨cur s :: l, ?_, .prefixed (prefix_table.1 hop) hg⟩
        conv => lhs; rw [hs, hl]
        rfl
      · replace h := bind_ok h; obtain ⟨x, u, hx, h⟩ := h
        obtain ⟨l, rfl, hg⟩ := i1 _ _ _ hx
        obtain ⟨l', rfl, hg'⟩ := i3 _ _ _ _ h
        exact ⟨l ++ l', by simp, .ofPostfix (hg' _ (.ofPrimary hg))⟩
    · intro e m s e' t hm hm' h
      rw [rhs] at h
      split at h
      · next hge =>
        have hq1 : 1 ≤ prec (cur s) := by omega
        have hq2 := prec_le (cur s)
        have hs : s = cur s :: s.tail := cur_eq rfl (by intro h; rw [h] at hq1; simp [prec] at hq1)
        have hop : ∀ u x v, operand (initializer n) (unary n) (rhs n) (prec (cur s)) u = .ok x v → _ :=
          fun u x v => operand_sound hq1 hq2 (fun s e t h hc => by
            obtain ⟨l, h1, _, h2⟩ := i8 _ _ _ h
            exact ⟨l, h1, h2 hc⟩) i4 i5
        split at h
        · next h3 =>
          replace h := bind_ok h; obtain ⟨y, u, hy, h⟩ := h
          obtain ⟨l, hl, hpu, hg⟩ := hop _ _ _ hy
          obtain ⟨l', rfl, hpt, hl'⟩ := i5 _ _ _ _ _ hm hm' h
          obtain ⟨q, hq, hb⟩ := table_binary hq1 h3
          refine ⟨cur s :: l ++ l', ?_, hpt, ?_⟩
          · conv => lhs; rw [hs, hl]
            simp
          · intro b l₀ k hmk hk hc h₀
            by_cases h2 : prec (cur s) = 2
            · rw [h2] at hb hg hpu hge
              simp only [or_true, if_true] at hg hpu
              have hx : G (.level b 3) l₀ [e] := loosen h₀ (by omega) hk (by rcases hc with hc | hc <;> omega)
              have := hl' b _ 2 (by omega) (by omega) (Or.inl hpu) (.assign hb hx hg)
              rw [hq]
              simpa using this
            · rw [if_neg (by omega)] at hg hpu
              have hx : G (.level b (prec (cur s))) l₀ [e] := loosen h₀ (by omega) hk (by rcases hc with hc | hc <;> omega)
              have := hl' b _ (prec (cur s)) hge (by omega) (by
                by_cases e : prec (cur (l' ++ t)) = prec (cur s)
                · exact Or.inr ⟨e, h2, h3⟩
                · exact Or.inl (by omega)) (.left hb h2 hx hg)
              rw [hq]
              simpa using this
        · next h3 =>
          have h3 : prec (cur s) = 3 := by omega
          replace h := bind_ok h; obtain ⟨y, u, hy, h⟩ := h
          replace h := ite_ok h; obtain ⟨hu, h⟩ := h
          have hu := cur_eq hu (by intro h; cases h)
          replace h := bind_ok h; obtain ⟨z, v, hz, h⟩ := h
          obtain ⟨l₂, hl₂, hg₂, _⟩ := i8 _ _ _ hy
          obtain ⟨l₃, hl₃, hpu, hg₃⟩ := hop _ _ _ hz
          rw [if_pos (Or.inl h3)] at hpu hg₃
          rw [h3] at hpu hg₃ hge
          obtain ⟨l', rfl, hpt, hl'⟩ := i5 _ _ _ _ _ hm hm' h
          have hq := prec_three.1 h3
          refine ⟨.punct .question :: l₂ ++ .punct .colon :: l₃ ++ l', ?_, hpt, ?_⟩
          · conv => lhs; rw [hs, hl₂, hu, hl₃, hq]
            simp
          · intro b l₀ k hmk hk hc h₀
            have hx : G (.level b 4) l₀ [e] := loosen h₀ (by omega) hk (by rcases hc with hc | hc <;> omega)
            have := hl' b _ 3 hge (by omega) (Or.inl hpu) (.ternary hx hg₂ hg₃)
            simpa using this
      · next hlt =>
        cases h
        exact ⟨[], rfl, by omega, fun b l₀ k hmk hk _ h₀ => by simpa using loosen h₀ hm hk hmk⟩
    · intro s e t h
      rw [assignment] at h
      replace h := bind_ok h; obtain ⟨x, u, hx, h⟩ := h
      obtain ⟨l, rfl, hg⟩ := i4 _ _ _ hx
      obtain ⟨l', rfl, hp, hl'⟩ := i5 _ _ _ _ _ (by omega) (by omega) h
      have := prec_le (cur (l' ++ t))
      exact ⟨l ++ l', by simp, hp, hl' false l 14 (by omega) (by omega) (Or.inl (by omega)) (.operand hg)⟩
    · intro s e t h
      rw [expression] at h
      replace h := bind_ok h; obtain ⟨x, u, hx, h⟩ := h
      obtain ⟨l, rfl, hp, hg⟩ := i6 _ _ _ hx
      obtain ⟨l', rfl, hp', hl'⟩ := i5 _ _ _ _ _ (by omega) (by omega) h
      exact ⟨l ++ l', by simp, hp', hl' false l 2 (by omega) (by omega) (Or.inl hp) hg⟩
    · intro s e t h
      rw [initializer] at h
      split at h
      · next hc =>
        have hs := cur_eq hc (by intro h; cases h)
        split at h
        · cases h
        · replace h := bind_ok h; obtain ⟨x, u, hx, h⟩ := h
          replace h := ite_ok h; obtain ⟨hu, h⟩ := h
          have hu := cur_eq hu (by intro h; cases h)
          obtain ⟨l, hl, hg⟩ := i2 _ _ _ hx
          cases h
          refine ⟨.punct .lBrace :: l ++ [.punct .rBrace], ?_, .initBraces hg, fun _ => .braces hg⟩
          rw [hs, hl]
          conv => lhs; rw [hu]
          simp
      · next hc =>
        obtain ⟨l, hl, hp, hg⟩ := i6 _ _ _ h
        exact ⟨l, hl, .initExpr hg, fun h => absurd h hc⟩

end RuC.Expr
