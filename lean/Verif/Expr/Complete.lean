import Verif.Expr.Lemmas

/-! Everything the grammar derives is parsed. -/

namespace RuC.Expr
open RuC RuC.Lexer RuC.Expr.Spec

/-! ## The tables -/

theorem binary_table {p : Nat} {q : Punct} {op : Binary} (h : IsBinary p q op) :
    prec (.punct q) = p ∧ toBinary (.punct q) = op := by
  obtain ⟨h1, row, hr, hm⟩ := h
  have hp : p - 1 < levels.length := (List.getElem?_eq_some_iff.1 hr).1
  have hp : p < 14 := by simp only [levels, List.length_cons, List.length_nil] at hp; omega
  have all : ∀ p ∈ List.range 14, 1 ≤ p → ∀ x ∈ (levels[p - 1]?).getD [], prec (.punct x.1) = p ∧ toBinary (.punct x.1) = x.2 := by decide
  exact all p (List.mem_range.2 hp) h1 (q, op) (by rw [hr]; exact hm)

theorem table_binary {t : Tok} (h1 : 1 ≤ prec t) (h3 : prec t ≠ 3) : ∃ q, t = .punct q ∧ IsBinary (prec t) q (toBinary t) := by
  cases t with
  | punct q =>
    refine ⟨q, rfl, ?_⟩
    cases q <;> first
      | (exfalso; simp [prec] at h1; done)
      | (exfalso; simp [prec] at h3; done)
      | exact ⟨by simp [prec], _, rfl, by simp [toBinary]⟩
  | _ => simp [prec] at h1

theorem prec_three {t : Tok} : prec t = 3 ↔ t = .punct .question := by
  constructor
  · intro h
    cases t with
    | punct q => cases q <;> simp [prec] at h <;> rfl
    | _ => simp [prec] at h
  · rintro rfl
    rfl

theorem prec_le (t : Tok) : prec t ≤ 13 := by
  cases t with
  | punct q => cases q <;> simp [prec]
  | _ => simp [prec]

theorem binary_le {p : Nat} {q : Punct} {op : Binary} (h : IsBinary p q op) : 1 ≤ p ∧ p ≤ 13 ∧ p ≠ 3 := by
  refine ⟨h.1, ?_, ?_⟩
  · rw [← (binary_table h).1]; exact prec_le _
  · intro e
    subst e
    obtain ⟨_, row, hr, hm⟩ := h
    simp [levels] at hr
    subst hr
    simp at hm

theorem prefix_table {t : Tok} {op : Unary} : prefixOp t = some op ↔ IsPrefix t op := by
  constructor
  · intro h
    cases t with
    | punct q => cases q <;> simp [prefixOp] at h <;> subst h <;> constructor
    | keyword k =>
      simp only [prefixOp] at h
      by_cases e : k = TK_ABS
      · rw [if_pos e] at h; subst e; cases h; exact .abs
      · rw [if_neg e] at h
        by_cases e : k = TK_UPB
        · rw [if_pos e] at h; subst e; cases h; exact .upb
        · rw [if_neg e] at h; cases h
    | _ => simp [prefixOp] at h
  · intro h
    cases h <;> rfl

@[simp] theorem cur_cons {l : List Tok} {t : Tok} : cur (t :: l) = t := rfl

theorem noOperator_iff {p : Nat} {rest : List Tok} (hp : 1 ≤ p) : NoOperator p rest ↔ prec (cur rest) < p := by
  unfold NoOperator
  cases rest with
  | nil => simp [cur, prec]; omega
  | cons t rest =>
    simp only [List.head?_cons, Option.mem_def, Option.some.injEq, forall_eq', cur, List.headD_cons]
    constructor
    · rintro ⟨h1, h2⟩
      by_cases h3 : prec t = 3
      · rw [h3]; exact h2 (prec_three.1 h3)
      · by_cases h0 : 1 ≤ prec t
        · obtain ⟨q, hq, hb⟩ := table_binary h0 h3
          exact h1 _ _ _ hb hq
        · omega
    · intro h
      refine ⟨?_, ?_⟩
      · rintro k q op hb rfl
        rw [(binary_table hb).1] at h
        exact h
      · rintro rfl
        exact h

theorem noPostfix_iff {rest : List Tok} : NoPostfix rest ↔ ¬IsPostfixStart (cur rest) := by
  unfold NoPostfix
  cases rest with
  | nil => simp [cur, IsPostfixStart]
  | cons t rest => simp

/-! ## Results that are there with enough fuel -/

/-- The result for all fuel from some amount on. -/
def Ev {α : Type} (f : Nat → Res α) (r : Res α) : Prop := ∃ N, ∀ n, N ≤ n → f n = r

theorem ev_const {α : Type} (r : Res α) : Ev (fun _ => r) r := ⟨0, fun _ _ => rfl⟩

theorem ev_bind {α β : Type} {f : Nat → Res α} {g : Nat → α → List Tok → Res β} {x : α} {t : List Tok} {r : Res β}
    (h : Ev f (.ok x t)) (hg : Ev (fun n => g n x t) r) : Ev (fun n => (f n).bind (g n)) r := by
  obtain ⟨N, hN⟩ := h
  obtain ⟨M, hM⟩ := hg
  refine ⟨N + M, fun n hn => ?_⟩
  simp only
  rw [hN n (by omega)]
  exact hM n (by omega)

theorem ev_succ {α : Type} {f : Nat → Res α} {r : Res α} (h : Ev (fun n => f (n + 1)) r) : Ev f r := by
  obtain ⟨N, hN⟩ := h
  refine ⟨N + 1, fun n hn => ?_⟩
  obtain ⟨m, rfl⟩ : ∃ m, n = m + 1 := ⟨n - 1, by omega⟩
  exact hN m (by omega)

theorem ev_congr {α : Type} {f g : Nat → Res α} {r : Res α} (h : Ev g r) (e : ∀ n, f n = g n) : Ev f r := by
  obtain ⟨N, hN⟩ := h
  exact ⟨N, fun n hn => (e n).trans (hN n hn)⟩

/-- A result that is there with enough fuel is the result for any fuel that is enough. -/
theorem ev_result {α : Type} {f : Nat → Res α} {r : Res α} {n : Nat} (h : Ev f r) (hm : Mono f) (hr : r ≠ .loop) (hn : f n ≠ .loop) : f n = r := by
  obtain ⟨N, hN⟩ := h
  have := hm.agree hn (m := N) (by rw [hN N (Nat.le_refl _)]; exact hr)
  rw [this, hN N (Nat.le_refl _)]

/-! ## First tokens -/

/-- What the first token of a nonterminal is not. -/
def Start (n : Nt) (t : Tok) : Prop :=
  t ≠ .punct .rBrace ∧ t ≠ .punct .rParen ∧
  (n = .primary ∨ n = .postfix → prefixOp t = none ∧ t ≠ .punct .lBrace) ∧
  (n = .unary ∨ (∃ p, n = .level false p) → t ≠ .punct .lBrace)

theorem first {n : Nt} {l : List Tok} {es : List Exp} (h : G n l es) : ∃ t l', l = t :: l' ∧ Start n t := by
  induction h with
  | atom h => exact ⟨_, _, rfl, by cases h <;> simp [Start, prefixOp, TK_ABS, TK_UPB]⟩
  | paren => exact ⟨_, _, rfl, by simp [Start, prefixOp]⟩
  | ofPrimary _ ih | ofPostfix _ ih | tighter _ _ _ ih | initExpr _ ih | one _ ih =>
    obtain ⟨t, l', rfl, h⟩ := ih
    exact ⟨_, _, rfl, by simp [Start] at *; grind⟩
  | operand _ ih =>
    obtain ⟨t, l', rfl, h⟩ := ih
    exact ⟨_, _, rfl, by simp [Start] at *; grind⟩
  | subscript _ _ ih _ | callNone _ ih | call _ _ ih _ | period _ ih | arrow _ ih | postInc _ ih | postDec _ ih | left _ _ _ _ ih _ | assign _ _ _ ih _ | ternary _ _ _ ih _ _ | more _ _ ih _ =>
    obtain ⟨t, l', rfl, h⟩ := ih
    exact ⟨_, _, rfl, by simp [Start] at *; grind⟩
  | prefixed h _ _ => exact ⟨_, _, rfl, by cases h <;> simp [Start]⟩
  | braces => exact ⟨_, _, rfl, by simp [Start]⟩
  | initBraces => exact ⟨_, _, rfl, by simp [Start]⟩

/-! ## Parsing what the grammar derives -/

/-- The start of an operand and the rest of its expression. -/
def climb (n : Nat) (b : Bool) (m : Nat) (s : List Tok) : Res Exp :=
  (if b ∧ cur s = .punct .lBrace then initializer n s else unary n s).bind fun e t => rhs n e m t

/-- An operator of level `q` behind an expression of level `p` takes the expression as it is. -/
def Closed (p q : Nat) : Prop := q < p ∨ (q = p ∧ p ≠ 2 ∧ p ≠ 3)

/-- What parsing does with a nonterminal. -/
def Claim : Nt → List Tok → List Exp → Prop
  | .primary, l, es => ∀ e rest, es = [e] → Ev (fun n => primary n (l ++ rest)) (.ok e rest)
  | .postfix, l, es => ∀ e rest r, es = [e] → Ev (fun n => postfixLoop n e rest) r →
      Ev (fun n => (primary n (l ++ rest)).bind fun e t => postfixLoop n e t) r
  | .unary, l, es => ∀ e rest, es = [e] → NoPostfix rest → Ev (fun n => unary n (l ++ rest)) (.ok e rest)
  | .level b p, l, es => ∀ e rest, es = [e] → NoPostfix rest → Closed p (prec (cur rest)) →
      (∀ m r, 1 ≤ m → m ≤ p → Ev (fun n => rhs n e m rest) r → Ev (fun n => climb n b m (l ++ rest)) r) ∧
      (b = false → p = 1 → ∀ r, Ev (fun n => rhs n e 1 rest) r → Ev (fun n => expression n (l ++ rest)) r)
  | .initializer, l, es => ∀ e rest, es = [e] → NoPostfix rest → prec (cur rest) < 2 → Ev (fun n => initializer n (l ++ rest)) (.ok e rest)
  | .initializerList, l, es => ∀ rest, NoPostfix rest → prec (cur rest) < 1 → Ev (fun n => initializerList n (l ++ rest)) (.ok es rest)

theorem ev_rhs_stop {e : Exp} {m : Nat} {s : List Tok} (h : prec (cur s) < m) : Ev (fun n => rhs n e m s) (.ok e s) := by
  apply ev_succ
  refine ev_congr (ev_const _) fun n => ?_
  rw [rhs]
  rw [if_neg (by omega)]

/-- The operand of an operator is parsed as `climb` does. -/
theorem operand_climb (n k : Nat) (s : List Tok) (hk : 1 ≤ k) (e : Exp) (t : List Tok) (h : climb n true (if k = 3 ∨ k = 2 then k else k + 1) s = .ok e t) :
    operand (initializer n) (unary n) (rhs n) k s = .ok e t := by
  unfold operand
  unfold climb at h
  simp only [true_and] at h
  generalize (if cur s = .punct .lBrace then initializer n s else unary n s) = a at h
  cases a with
  | error => cases h
  | loop => cases h
  | ok x u =>
    simp only [Res.bind] at h ⊢
    split
    · exact h
    · next hc =>
      cases n with
      | zero => rw [rhs] at h; cases h
      | succ n =>
        rw [rhs] at h
        rw [if_neg (by split <;> omega)] at h
        exact h

/-- One round of the loop over a binary operator. -/
theorem ev_rhs_binary {x y : Exp} {m p : Nat} {q : Punct} {op : Binary} {l rest : List Tok} {r : Res Exp}
    (hb : IsBinary p q op) (hm : m ≤ p)
    (hy : Ev (fun n => climb n true (if p = 3 ∨ p = 2 then p else p + 1) (l ++ rest)) (.ok y rest))
    (hr : Ev (fun n => rhs n (.binary op x y) m rest) r) : Ev (fun n => rhs n x m (.punct q :: (l ++ rest))) r := by
  obtain ⟨t1, t2⟩ := binary_table hb
  obtain ⟨b1, b2, b3⟩ := binary_le hb
  apply ev_succ
  obtain ⟨N, hN⟩ := hy
  obtain ⟨M, hM⟩ := hr
  refine ⟨N + M, fun n hn => ?_⟩
  simp only
  rw [rhs]
  simp only [cur_cons, List.tail_cons, t1, t2]
  rw [if_pos hm, if_pos b3, operand_climb n p (l ++ rest) b1 y rest (hN n (by omega))]
  exact hM n (by omega)

/-- One round of the loop over a conditional operator. -/
theorem ev_rhs_ternary {x y z : Exp} {m : Nat} {l₂ l₃ rest : List Tok} {r : Res Exp}
    (hm : m ≤ 3)
    (hy : Ev (fun n => initializer n (l₂ ++ .punct .colon :: (l₃ ++ rest))) (.ok y (.punct .colon :: (l₃ ++ rest))))
    (hz : Ev (fun n => climb n true 3 (l₃ ++ rest)) (.ok z rest))
    (hr : Ev (fun n => rhs n (.ternary x y z) m rest) r) :
    Ev (fun n => rhs n x m (.punct .question :: (l₂ ++ .punct .colon :: (l₃ ++ rest)))) r := by
  apply ev_succ
  obtain ⟨N, hN⟩ := hz
  obtain ⟨M, hM⟩ := hr
  obtain ⟨K, hK⟩ := hy
  refine ⟨N + M + K, fun n hn => ?_⟩
  simp only
  rw [rhs]
  simp only [cur_cons, List.tail_cons, show prec (.punct .question) = 3 from rfl]
  have hK := hK n (by omega)
  simp only at hK
  rw [if_pos hm, if_neg (by omega), hK]
  simp only [Res.bind, cur_cons, List.tail_cons, if_true]
  rw [operand_climb n 3 (l₃ ++ rest) (by omega) z rest (by simpa using hN n (by omega))]
  exact hM n (by omega)

theorem ev_initBraces {l rest : List Tok} {es : List Exp} (hf : ∃ t l', l = t :: l' ∧ t ≠ .punct .rBrace)
    (h : Ev (fun n => initializerList n (l ++ (.punct .rBrace :: rest))) (.ok es (.punct .rBrace :: rest))) :
    Ev (fun n => initializer n (.punct .lBrace :: l ++ [.punct .rBrace] ++ rest)) (.ok (.init es) rest) := by
  apply ev_succ
  obtain ⟨t, l', rfl, ht⟩ := hf
  refine ev_congr (ev_bind h (g := fun _ es s => if cur s = .punct .rBrace then .ok (.init es) s.tail else .error) (ev_const _)) fun n => ?_
  rw [initializer]
  rw [if_pos (by rfl), if_neg (by exact ht)]
  simp

theorem noPostfix_punct {q : Punct} {s : List Tok} (h : ¬IsPostfixStart (.punct q)) : NoPostfix (.punct q :: s) :=
  noPostfix_iff.2 h

theorem ev_expression {l rest : List Tok} {e : Exp} (h : Claim (.level false 1) l [e]) (hp : NoPostfix rest) (hq : prec (cur rest) < 1) :
    Ev (fun n => expression n (l ++ rest)) (.ok e rest) :=
  (h e rest rfl hp (Or.inl hq)).2 rfl rfl _ (ev_rhs_stop hq)

theorem isBinary_notPostfix {p : Nat} {q : Punct} {op : Binary} (h : IsBinary p q op) : ¬IsPostfixStart (.punct q) := by
  have h1 := (binary_table h).1
  have h2 := (binary_le h).1
  intro h3
  rcases h3 with e | e | e | e | e | e <;> cases e <;> simp [prec] at h1 <;> omega

theorem claim {nt : Nt} {l : List Tok} {es : List Exp} (h : G nt l es) : Claim nt l es := by
  induction h with
  | atom h =>
    intro e rest he
    apply ev_succ
    refine ev_congr (ev_const _) fun n => ?_
    rw [primary]
    cases h <;> cases he <;> rfl
  | paren h ih =>
    intro e rest he
    cases he
    apply ev_succ
    have := ev_expression ih (rest := .punct .rParen :: rest) (noPostfix_punct (by simp [IsPostfixStart])) (by simp [prec])
    refine ev_congr (ev_bind this (g := fun _ e s => if cur s = .punct .rParen then .ok e s.tail else .error) (ev_const _)) fun n => ?_
    rw [primary]
    simp
  | ofPrimary h ih =>
    intro e rest r he hr
    exact ev_bind (ih e rest he) hr
  | @subscript l₁ l₂ a i h₁ h₂ ih₁ ih₂ =>
    intro e rest r he hr
    cases he
    have e2 := ev_expression ih₂ (rest := .punct .rSquare :: rest) (noPostfix_punct (by simp [IsPostfixStart])) (by simp [prec])
    have := ih₁ a (.punct .lSquare :: (l₂ ++ .punct .rSquare :: rest)) r rfl (by
      apply ev_succ
      refine ev_congr (ev_bind e2 (g := fun n i s => if cur s = .punct .rSquare then postfixLoop n (.subscript a i) s.tail else .error) hr) fun n => ?_
      rw [postfixLoop]
      simp)
    simpa using this
  | @callNone l f h ih =>
    intro e rest r he hr
    cases he
    have := ih f (.punct .lParen :: .punct .rParen :: rest) r rfl (by
      apply ev_succ
      refine ev_congr hr fun n => ?_
      rw [postfixLoop]
      simp)
    simpa using this
  | @call l₁ l₂ f es h₁ h₂ ih₁ ih₂ =>
    intro e rest r he hr
    cases he
    have e2 := ih₂ (.punct .rParen :: rest) (noPostfix_punct (by simp [IsPostfixStart])) (by simp [prec])
    obtain ⟨t, l', hl, hs⟩ := first h₂
    have := ih₁ f (.punct .lParen :: (l₂ ++ .punct .rParen :: rest)) r rfl (by
      apply ev_succ
      refine ev_congr (ev_bind e2 (g := fun n i s => if cur s = .punct .rParen then postfixLoop n (.call f i) s.tail else .error) hr) fun n => ?_
      rw [postfixLoop]
      subst hl
      simp [hs.2.1])
    simpa using this
  | @period l e n h ih =>
    intro e' rest r he hr
    cases he
    have := ih e (.punct .period :: .ident n :: rest) r rfl (by
      apply ev_succ
      refine ev_congr hr fun n => ?_
      rw [postfixLoop]
      simp)
    simpa using this
  | @arrow l e n h ih =>
    intro e' rest r he hr
    cases he
    have := ih e (.punct .arrow :: .ident n :: rest) r rfl (by
      apply ev_succ
      refine ev_congr hr fun n => ?_
      rw [postfixLoop]
      simp)
    simpa using this
  | @postInc l e h ih =>
    intro e' rest r he hr
    cases he
    have := ih e (.punct .plusPlus :: rest) r rfl (by
      apply ev_succ
      refine ev_congr hr fun n => ?_
      rw [postfixLoop]
      simp)
    simpa using this
  | @postDec l e h ih =>
    intro e' rest r he hr
    cases he
    have := ih e (.punct .minusMinus :: rest) r rfl (by
      apply ev_succ
      refine ev_congr hr fun n => ?_
      rw [postfixLoop]
      simp)
    simpa using this
  | @ofPostfix l e h ih =>
    intro e' rest he hp
    cases he
    obtain ⟨t, l', hl, hs⟩ := first h
    apply ev_succ
    refine ev_congr (ih e rest (.ok e rest) rfl ?_) fun n => ?_
    · apply ev_succ
      refine ev_congr (ev_const _) fun n => ?_
      rw [noPostfix_iff] at hp
      rw [postfixLoop]
      simp only [IsPostfixStart, not_or] at hp
      split <;> first
        | rfl
        | (next h => simp [h] at hp)
    · rw [unary]
      subst hl
      simp only [cur_cons, List.cons_append, (hs.2.2.1 (Or.inr rfl)).1]
  | @prefixed t l op e hop h ih =>
    intro e' rest he hp
    cases he
    apply ev_succ
    refine ev_congr (ev_bind (ih e rest rfl hp) (g := fun n e s => .ok (.unary op e) s) (ev_const _)) fun n => ?_
    rw [unary]
    simp only [cur_cons, List.cons_append, prefix_table.2 hop, List.tail_cons]
  | @operand b l e h ih =>
    intro e' rest he hp _
    cases he
    obtain ⟨t, l', hl, hs⟩ := first h
    refine ⟨fun m r _ _ hr => ?_, (fun _ h => by omega)⟩
    refine ev_congr (ev_bind (ih e rest rfl hp) (g := fun n e t => rhs n e m t) hr) fun n => ?_
    unfold climb
    rw [if_neg]
    subst hl
    rintro ⟨_, h⟩
    exact hs.2.2.2 (Or.inl rfl) h
  | @braces l es h ih =>
    intro e' rest he hp _
    cases he
    refine ⟨fun m r _ _ hr => ?_, (fun h => by cases h)⟩
    obtain ⟨t, l', hl, hs⟩ := first h
    have := ev_initBraces ⟨t, l', hl, hs.1⟩ (ih (.punct .rBrace :: rest) (noPostfix_punct (by simp [IsPostfixStart])) (by simp [prec]))
    refine ev_congr (ev_bind this (g := fun n e t => rhs n e m t) hr) fun n => ?_
    unfold climb
    rw [if_pos ⟨rfl, rfl⟩]
  | @tighter b p l e h1 h14 h ih =>
    intro e' rest he hp hc
    cases he
    have hc' : prec (cur rest) ≤ p := by rcases hc with hc | hc <;> omega
    obtain ⟨i1, i2⟩ := ih e rest rfl hp (Or.inl (by omega))
    refine ⟨fun m r hm hmp hr => i1 m r hm (by omega) hr, ?_⟩
    intro hb hp1 r hr
    subst hb; subst hp1
    apply ev_succ
    have hf : ∃ t l', l = t :: l' ∧ t ≠ .punct .lBrace := by
      obtain ⟨t, l', hl, hs⟩ := first h
      exact ⟨t, l', hl, hs.2.2.2 (Or.inr ⟨_, rfl⟩)⟩
    have ha : Ev (fun n => assignment n (l ++ rest)) (.ok e rest) := by
      apply ev_succ
      refine ev_congr (i1 2 (.ok e rest) (by omega) (by omega) (ev_rhs_stop (by omega))) fun n => ?_
      rw [assignment]
      unfold climb
      rw [if_neg (by simp)]
    refine ev_congr (ev_bind ha (g := fun n e s => rhs n e 1 s) hr) fun n => ?_
    rw [expression]
  | @left b p q op l₁ l₂ x y hb h2 h₁ h₂ ih₁ ih₂ =>
    intro e' rest he hp hc
    cases he
    obtain ⟨b1, b2, b3⟩ := binary_le hb
    have hq := (binary_table hb).1
    have hc' : prec (cur rest) ≤ p := by rcases hc with hc | hc <;> omega
    have hy := (ih₂ y rest rfl hp (Or.inl (by omega))).1 (p + 1) (.ok y rest) (by omega) (by omega) (ev_rhs_stop (by omega))
    have hx := ih₁ x (.punct q :: (l₂ ++ rest)) rfl (noPostfix_punct (isBinary_notPostfix hb)) (Or.inr ⟨hq, h2, b3⟩)
    have hif : (if p = 3 ∨ p = 2 then p else p + 1) = p + 1 := if_neg (by omega)
    refine ⟨fun m r hm hmp hr => ?_, fun hbf hp1 r hr => ?_⟩
    · have := hx.1 m r hm hmp (ev_rhs_binary hb hmp (by rw [hif]; exact hy) hr)
      simpa using this
    · have := hx.2 hbf hp1 r (ev_rhs_binary hb (by omega) (by rw [hif]; exact hy) hr)
      simpa using this
  | @assign b q op l₁ l₂ x y hb h₁ h₂ ih₁ ih₂ =>
    intro e' rest he hp hc
    cases he
    have hq := (binary_table hb).1
    have hc' : prec (cur rest) < 2 := by rcases hc with hc | hc <;> omega
    have hy := (ih₂ y rest rfl hp (Or.inl (by omega))).1 2 (.ok y rest) (by omega) (by omega) (ev_rhs_stop (by omega))
    have hx := ih₁ x (.punct q :: (l₂ ++ rest)) rfl (noPostfix_punct (isBinary_notPostfix hb)) (Or.inl (by simp only [cur_cons]; omega))
    refine ⟨fun m r hm hmp hr => ?_, (fun _ h => by omega)⟩
    have := hx.1 m r hm (by omega) (ev_rhs_binary hb hmp hy hr)
    simpa using this
  | @ternary b l₁ l₂ l₃ x y z h₁ h₂ h₃ ih₁ ih₂ ih₃ =>
    intro e' rest he hp hc
    cases he
    have hc' : prec (cur rest) < 3 := by rcases hc with hc | hc <;> omega
    have hy := ih₂ y (.punct .colon :: (l₃ ++ rest)) rfl (noPostfix_punct (by simp [IsPostfixStart])) (by simp [prec])
    have hz := (ih₃ z rest rfl hp (Or.inl hc')).1 3 (.ok z rest) (by omega) (by omega) (ev_rhs_stop (by omega))
    have hx := ih₁ x (.punct .question :: (l₂ ++ .punct .colon :: (l₃ ++ rest))) rfl (noPostfix_punct (by simp [IsPostfixStart])) (Or.inl (by simp [prec]))
    refine ⟨fun m r hm hmp hr => ?_, (fun _ h => by omega)⟩
    have := hx.1 m r hm (by omega) (ev_rhs_ternary hmp hy hz hr)
    simpa using this
  | @initBraces l es h ih =>
    intro e' rest he hp _
    cases he
    obtain ⟨t, l', hl, hs⟩ := first h
    exact ev_initBraces ⟨t, l', hl, hs.1⟩ (ih (.punct .rBrace :: rest) (noPostfix_punct (by simp [IsPostfixStart])) (by simp [prec]))
  | @initExpr l e h ih =>
    intro e' rest he hp hq
    cases he
    obtain ⟨t, l', hl, hs⟩ := first h
    apply ev_succ
    refine ev_congr (g := fun n => assignment n (l ++ rest)) ?_ fun n => ?_
    · apply ev_succ
      refine ev_congr ((ih e rest rfl hp (Or.inl hq)).1 2 _ (by omega) (by omega) (ev_rhs_stop hq)) fun n => ?_
      rw [assignment]
      unfold climb
      rw [if_neg (by simp)]
    · rw [initializer, if_neg]
      subst hl
      exact hs.2.2.2 (Or.inr ⟨_, rfl⟩)
  | @one l e h ih =>
    intro rest hp hq
    apply ev_succ
    refine ev_congr (ev_bind (ih e rest rfl hp (by omega)) (g := fun n e s => if cur s = .punct .comma then (initializerList n s.tail).bind fun es s => .ok (e :: es) s
      else .ok [e] s) ?_) fun n => ?_
    · refine ev_congr (ev_const _) fun n => ?_
      rw [if_neg]
      intro e
      rw [e] at hq
      simp [prec] at hq
    · rw [initializerList]
  | @more l₁ l₂ e es h₁ h₂ ih₁ ih₂ =>
    intro rest hp hq
    apply ev_succ
    refine ev_congr (ev_bind (ih₁ e (.punct .comma :: (l₂ ++ rest)) rfl (noPostfix_punct (by simp [IsPostfixStart])) (by simp [prec])) (g := fun n e s => if cur s = .punct .comma then (initializerList n s.tail).bind fun es s => .ok (e :: es) s
      else .ok [e] s) ?_) fun n => ?_
    · refine ev_congr (ev_bind (ih₂ rest hp hq) (g := fun _ es s => .ok (e :: es) s) (ev_const _)) fun n => ?_
      simp only [cur_cons, if_true, List.tail_cons]
    · rw [initializerList]
      simp

end RuC.Expr
