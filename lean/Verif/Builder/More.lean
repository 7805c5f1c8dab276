import Verif.Builder.Assign

/-! Unary operators, the conditional operator, the values of folded literals, and the trees of a history of types. -/

namespace RuC.Builder

open RuC RuC.Types RuC.Expr RuC.Builder.Spec

variable {F : Type}

/-! ## Unary operators -/

theorem foldUnary_cases (D : Doubles F) {cells : List Int} (hlen : cells.length < 4611686018427387904) {e : Ex F} {T : Ty}
    (d : Den cells e.type T) (he : Literal cells e) (type : Int) (op : Unary)
    (hop : ((op = .minus ∨ op = .abs) ∧ T.Arithmetic ∧ type = e.type) ∨ (op = .not ∧ T.Integral ∧ type = TYPE_INTEGER) ∨
      (op = .logNot ∧ T.Scalar ∧ type = TYPE_BOOLEAN) ∨ (op = .upb ∧ (∃ E, T.bare = .array E) ∧ type = TYPE_INTEGER)) :
    foldUnary D cells type op e ≠ .bad ∧ ∀ e', foldUnary D cells type op e = .ok e' → UType cells op T e.type e'.type := by
  have plain : ∀ x : Ex F, x.type = type → (.ok x : Out (Ex F)) ≠ .bad ∧ ∀ e', (.ok x : Out (Ex F)) = .ok e' → UType cells op T e.type e'.type := by
    intro x hx
    refine ⟨nofun, ?_⟩
    rintro _ ⟨⟩
    rw [hx]
    rcases hop with ⟨rfl | rfl, -, rfl⟩ | ⟨rfl, -, rfl⟩ | ⟨rfl, -, rfl⟩ | ⟨rfl, -, rfl⟩ <;> simp [UType]
  have int : ∀ y : Int, T.Integral → op ≠ .logNot → op ≠ .upb → ((c64 y).bind fun y => .ok (intLit y) : Out (Ex F)) ≠ .bad ∧
      ∀ e', ((c64 y).bind fun y => .ok (intLit y) : Out (Ex F)) = .ok e' → UType cells op T e.type e'.type := by
    intro y hT h1 h2
    by_cases k : Fits y
    · rw [c64_ok k]
      refine ⟨nofun, ?_⟩
      rintro _ ⟨⟩
      rcases hop with ⟨rfl | rfl, -, -⟩ | ⟨rfl, -, -⟩ | ⟨rfl, -, -⟩ | ⟨rfl, -, -⟩
      · exact Or.inr ⟨hT, rfl⟩
      · exact Or.inr ⟨hT, rfl⟩
      · rfl
      · exact absurd rfl h1
      · exact absurd rfl h2
    · rw [c64_ub k]; exact ⟨nofun, nofun⟩
  unfold foldUnary
  split
  case h_2 => exact plain _ rfl
  case h_1 t v =>
  simp only [Ex.type] at d hop
  cases v with
  | null b =>
    simp only [Literal] at he
    subst he
    have hT : T = .null := (builtin_den d).2.2.2.2.1 rfl
    subst hT
    have : op = .logNot ∧ type = TYPE_BOOLEAN := by
      rcases hop with ⟨-, h | h, -⟩ | ⟨-, h, -⟩ | ⟨h, -, h'⟩ | ⟨-, ⟨_, h⟩, -⟩
      · rcases h with h | h | ⟨_, h⟩ | ⟨_, h⟩ <;> cases h
      · cases h
      · rcases h with h | h | ⟨_, h⟩ | ⟨_, h⟩ <;> cases h
      · exact ⟨h, h'⟩
      · cases h
    have ec : typeClass cells TYPE_NULL_POINTER = TYPE_NULL_POINTER := rfl
    simp only [ec, if_pos]
    exact plain _ this.2.symm
  | dbl x =>
    simp only [Literal] at he
    subst he
    have hT : T = .float := (builtin_den d).2.2.2.1.1 rfl
    subst hT
    have ec : typeClass cells TYPE_FLOATING = TYPE_FLOATING := rfl
    simp only [ec]
    rw [if_neg (by decide), if_neg (by decide), if_neg (by decide), if_pos trivial]
    rcases hop with ⟨h, -, h'⟩ | ⟨-, h, -⟩ | ⟨-, h, -⟩ | ⟨-, ⟨_, h⟩, -⟩
    · rcases h with rfl | rfl <;> exact plain _ h'.symm
    · rcases h with h | h | ⟨_, h⟩ | ⟨_, h⟩ <;> cases h
    · rcases h with h | h | ⟨_, h⟩ | h
      · cases h
      · rcases h with h | h | ⟨_, h⟩ | ⟨_, h⟩ <;> cases h
      · cases h
      · cases h
    · cases h
  | cell x =>
    have intT : T.Integral → op ≠ .upb → typeClass cells t = TYPE_ENUM ∨ typeClass cells t = TYPE_INTEGER → _ := fun hT hu hcl => by
      have : foldUnary D cells type op (.lit t (.cell x)) ≠ .bad ∧ ∀ e', foldUnary D cells type op (.lit t (.cell x)) = .ok e' → UType cells op T t e'.type := by
        unfold foldUnary
        simp only
        rw [if_neg (by rcases hcl with h | h <;> rw [h] <;> decide), if_neg (by rcases hcl with h | h <;> rw [h] <;> decide), if_pos hcl]
        simp only [Val.integer, Out.bind]
        rcases hop with ⟨rfl | rfl, -, -⟩ | ⟨rfl, -, h⟩ | ⟨rfl, -, h⟩ | ⟨rfl, -, -⟩
        · exact int _ hT (by decide) (by decide)
        · simp only
          split
          · refine ⟨nofun, ?_⟩
            rintro _ ⟨⟩
            exact Or.inr ⟨hT, rfl⟩
          · exact int _ hT (by decide) (by decide)
        · exact plain _ h.symm
        · exact plain _ h.symm
        · exact absurd rfl hu
      exact this
    unfold foldUnary at intT
    simp only at intT
    rcases class_literal hlen he with ⟨h, h'⟩ | ⟨h, h'⟩ | ⟨h, h'⟩ | ⟨h, n, h', h0, h1⟩ | h
    · have hT : T = .int := (builtin_den d).2.1.1 h'
      refine intT (hT ▸ Or.inr (Or.inl rfl)) ?_ (Or.inr h)
      rintro rfl
      rcases hop with ⟨h | h, -⟩ | ⟨h, -⟩ | ⟨h, -⟩ | ⟨-, ⟨_, h⟩, -⟩ <;> first | (cases h; done) | (rw [hT] at h; cases h)
    · rw [h, if_neg (by decide), if_neg (by decide), if_neg (by decide), if_neg (by decide)]
      exact plain _ rfl
    · have hT : T = .bool := (builtin_den d).2.2.1.1 h'
      have : op = .logNot ∧ type = TYPE_BOOLEAN := by
        subst hT
        rcases hop with ⟨-, h | h, -⟩ | ⟨-, h, -⟩ | ⟨h, -, h'⟩ | ⟨-, ⟨_, h⟩, -⟩
        · rcases h with h | h | ⟨_, h⟩ | ⟨_, h⟩ <;> cases h
        · cases h
        · rcases h with h | h | ⟨_, h⟩ | ⟨_, h⟩ <;> cases h
        · exact ⟨h, h'⟩
        · cases h
      rw [h, if_neg (by decide), if_pos rfl]
      exact plain _ this.2.symm
    · have hcl := (hasClass_den hlen d TYPE_ENUM).1 (by have g := get_some h1 hlen; rw [h']; exact ⟨by omega, by rw [g.2.1, g.2.2]⟩)
      have hT : ∃ m, T = .enum m := by
        cases T <;> first | exact ⟨_, rfl⟩ | exact hcl.elim | (simp only [classIs] at hcl; exact absurd hcl (by decide))
      obtain ⟨m, rfl⟩ := hT
      refine intT (Or.inr (Or.inr (Or.inl ⟨_, rfl⟩))) ?_ (Or.inl h)
      rintro rfl
      rcases hop with ⟨h | h, -⟩ | ⟨h, -⟩ | ⟨h, -⟩ | ⟨-, ⟨_, h⟩, -⟩ <;> cases h
    · rw [h, if_neg (by decide), if_neg (by decide), if_neg (by decide), if_neg (by decide)]
      exact plain _ rfl

theorem bind_not_bad {α β : Type} {o : Out α} {f : α → Out β} (h : o ≠ .bad) (hf : ∀ a, f a ≠ .bad) : o.bind f ≠ .bad := by
  cases o with
  | ub => nofun
  | bad => exact absurd rfl h
  | ok a => exact hf a

/-- The rule for unary operators other than `&`. -/
theorem judge_unary (D : Doubles F) (tb : Table) (hlen : tb.cells.length < 4611686018427387904) (hc : Clean tb.cells) (e : Ex F) {T : Ty}
    (d : Den tb.cells e.type T) (he : Literal tb.cells e) (op : Unary) (hop : op ≠ .address) :
    (buildUnary D tb e op = .bad ↔ ¬URule op e.lvalue T) ∧
    ∀ e' tb', buildUnary D tb e op = .ok (e', tb') → tb' = tb ∧ UType tb.cells op T e.type e'.type := by
  obtain ⟨b1, e1, i1⟩ := says_integer hlen hc d
  obtain ⟨b2, e2, i2⟩ := says_arithmetic hlen hc d
  obtain ⟨b3, e3, i3⟩ := says_scalar hlen hc d
  obtain ⟨b4, e4, i4⟩ := says_pointer hlen d
  obtain ⟨b5, e5, i5⟩ := says_array hlen d
  have folded : ∀ {b : Bool} {P : Prop} (type : Int), (b = true ↔ P) →
      (P → foldUnary D tb.cells type op e ≠ .bad ∧ ∀ e', foldUnary D tb.cells type op e = .ok e' → UType tb.cells op T e.type e'.type) → URule op e.lvalue T = P →
      ((if b = false then (.bad : Out (Ex F × Table)) else (foldUnary D tb.cells type op e).bind fun x => .ok (x, tb)) = .bad ↔ ¬URule op e.lvalue T) ∧
      ∀ e' tb', (if b = false then (.bad : Out (Ex F × Table)) else (foldUnary D tb.cells type op e).bind fun x => .ok (x, tb)) = .ok (e', tb') →
        tb' = tb ∧ UType tb.cells op T e.type e'.type := by
    intro b P type hb hp hr
    cases b with
    | false =>
      rw [if_pos rfl, hr]
      exact ⟨⟨fun _ k => absurd (hb.2 k) (by decide), fun _ => rfl⟩, nofun⟩
    | true =>
      rw [if_neg (by decide), hr]
      have hP := hb.1 rfl
      obtain ⟨k1, k2⟩ := hp hP
      refine ⟨⟨fun k => absurd k (bind_not_bad k1 fun _ => nofun), fun k => absurd hP k⟩, ?_⟩
      intro e' tb' k
      cases hf : foldUnary D tb.cells type op e with
      | ub => rw [hf] at k; cases k
      | bad => rw [hf] at k; cases k
      | ok x =>
        rw [hf] at k
        cases k
        exact ⟨rfl, k2 _ hf⟩
  have inc : (op = .postInc ∨ op = .postDec ∨ op = .preInc ∨ op = .preDec) → (buildUnary D tb e op = .bad ↔ ¬URule op e.lvalue T) ∧
      ∀ e' tb', buildUnary D tb e op = .ok (e', tb') → tb' = tb ∧ UType tb.cells op T e.type e'.type := by
    intro h
    have hb : buildUnary D tb e op = if e.lvalue = false then .bad else if b2 = false then .bad else .ok (.unary e.type false op e, tb) := by
      rcases h with rfl | rfl | rfl | rfl <;>
      · unfold buildUnary
        simp only [bind_eq, pure_eq, e2, ask, Out.bind]
    have hr : URule op e.lvalue T ↔ e.lvalue = true ∧ b2 = true := by
      rw [i2]
      rcases h with rfl | rfl | rfl | rfl <;> exact Iff.rfl
    rw [hb, hr]
    cases hl : e.lvalue with
    | false => simp
    | true =>
      cases b2 with
      | false => simp
      | true =>
        simp only [Bool.true_eq_false, if_false]
        refine ⟨by simp, ?_⟩
        rintro e' tb' ⟨⟩
        refine ⟨rfl, ?_⟩
        rcases h with rfl | rfl | rfl | rfl <;> rfl
  cases op with
  | postInc => exact inc (by simp)
  | postDec => exact inc (by simp)
  | preInc => exact inc (by simp)
  | preDec => exact inc (by simp)
  | address => exact absurd rfl hop
  | indirection =>
    unfold buildUnary
    simp only [bind_eq, pure_eq, e4, ask, Out.bind]
    cases b4 with
    | false =>
      rw [if_pos rfl]
      exact ⟨⟨fun _ k => absurd (i4.2 k) (by decide), fun _ => rfl⟩, nofun⟩
    | true =>
      rw [if_neg (by decide)]
      obtain ⟨p, P, k1, k2, k3⟩ := element_den hlen d (i4.1 rfl)
      rw [k1]
      refine ⟨⟨nofun, fun k => absurd (i4.1 rfl) k⟩, ?_⟩
      rintro e' tb' ⟨⟩
      exact ⟨rfl, (k3 p).2 rfl⟩
  | abs =>
    unfold buildUnary
    simp only [bind_eq, pure_eq, e2, ask, Out.bind]
    exact folded e.type i2 (fun h => foldUnary_cases D hlen d he _ _ (Or.inl ⟨Or.inr rfl, h, rfl⟩)) rfl
  | minus =>
    unfold buildUnary
    simp only [bind_eq, pure_eq, e2, ask, Out.bind]
    exact folded e.type i2 (fun h => foldUnary_cases D hlen d he _ _ (Or.inl ⟨Or.inl rfl, h, rfl⟩)) rfl
  | not =>
    unfold buildUnary
    simp only [bind_eq, pure_eq, e1, ask, Out.bind]
    exact folded TYPE_INTEGER i1 (fun h => foldUnary_cases D hlen d he _ _ (Or.inr (Or.inl ⟨rfl, h, rfl⟩))) rfl
  | logNot =>
    unfold buildUnary
    simp only [bind_eq, pure_eq, e3, ask, Out.bind]
    exact folded TYPE_BOOLEAN i3 (fun h => foldUnary_cases D hlen d he _ _ (Or.inr (Or.inr (Or.inl ⟨rfl, h, rfl⟩)))) rfl
  | upb =>
    unfold buildUnary
    simp only [bind_eq, pure_eq, e5, ask, Out.bind]
    exact folded TYPE_INTEGER i5 (fun h => foldUnary_cases D hlen d he _ _ (Or.inr (Or.inr (Or.inr ⟨rfl, h, rfl⟩)))) rfl

/-! ## The conditional operator -/

/-- The rule for the conditional operator. -/
theorem judge_ternary (D : Doubles F) {cells : List Int} (hlen : cells.length < 4611686018427387904) (hc : Clean cells) (c l r : Ex F) {C L R : Ty}
    (dc : Den cells c.type C) (dl : Den cells l.type L) (dr : Den cells r.type R) (hl : Literal cells l) (hr : Literal cells r) :
    Judged (buildTernary D cells c l r) l.type r.type fun res => l.isInit = false ∧ r.isInit = false ∧ C.Scalar ∧ TRule L R (l.type = r.type) res := by
  obtain ⟨b1, e1, i1⟩ := says_scalar hlen hc dc
  obtain ⟨b3, e3, i3⟩ := says_arithmetic hlen hc dl
  obtain ⟨b4, e4, i4⟩ := says_arithmetic hlen hc dr
  obtain ⟨b7, e7, i7⟩ := says_pointer hlen dl
  obtain ⟨b8, e8, i8⟩ := says_pointer hlen dr
  have n1 := (builtin_den dl).2.2.2.2
  have n2 := (builtin_den dr).2.2.2.2
  unfold buildTernary
  simp only [bind_eq, pure_eq, e1, e3, e4, e7, e8, ask, Out.bind]
  by_cases h0 : (l.isInit || r.isInit) = true
  · rw [if_pos h0]
    refine judged_bad fun res k => ?_
    rw [k.1, k.2.1] at h0
    exact absurd h0 (by decide)
  rw [if_neg h0]
  have hi : l.isInit = false ∧ r.isInit = false := by simpa using h0
  by_cases h1 : b1 = false
  · rw [if_pos h1]
    exact judged_bad fun res k => by rw [i1.2 k.2.2.1] at h1; exact absurd h1 (by decide)
  rw [if_neg h1]
  have hs : C.Scalar := i1.1 (by simpa using h1)
  by_cases h2 : (b3 && b4) = true
  · rw [if_pos h2]
    rw [Bool.and_eq_true, i3, i4] at h2
    rcases conversions D hlen dl dr hl hr h2.1 h2.2 with ⟨hn, l', r', ec, tl, tr, kl, kr⟩ | ⟨h3, h4, ec⟩ <;> rw [ec]
    · refine judged_ok .float ⟨hi.1, hi.2, hs, Or.inl ⟨h2.1, h2.2, Or.inr ⟨hn, rfl⟩⟩⟩ ⟨nofun, ?_⟩
      rintro _ ⟨⟩; rfl
    · refine judged_ok .int ⟨hi.1, hi.2, hs, Or.inl ⟨h2.1, h2.2, Or.inl ⟨h3, h4, rfl⟩⟩⟩ ⟨nofun, ?_⟩
      rintro _ ⟨⟩; rfl
  rw [if_neg h2]
  rw [Bool.and_eq_true, i3, i4] at h2
  by_cases h3 : (b7 && isNull r.type) = true
  · rw [if_pos h3]
    rw [Bool.and_eq_true, i7, isNull, decide_eq_true_iff, n2] at h3
    refine judged_ok .left ⟨hi.1, hi.2, hs, Or.inr ⟨h2, Or.inl ⟨h3.1, h3.2, rfl⟩⟩⟩ ⟨nofun, ?_⟩
    rintro _ ⟨⟩; rfl
  rw [if_neg h3]
  rw [Bool.and_eq_true, i7, isNull, decide_eq_true_iff, n2] at h3
  by_cases h4 : (isNull l.type && b8 || decide (l.type = r.type)) = true
  · rw [if_pos h4]
    rw [Bool.or_eq_true, Bool.and_eq_true, i8, isNull, decide_eq_true_iff, n1, decide_eq_true_iff] at h4
    refine judged_ok .right ⟨hi.1, hi.2, hs, Or.inr ⟨h2, Or.inr ⟨h4, rfl⟩⟩⟩ ⟨nofun, ?_⟩
    rintro _ ⟨⟩; rfl
  · rw [if_neg h4]
    rw [Bool.or_eq_true, Bool.and_eq_true, i8, isNull, decide_eq_true_iff, n1, decide_eq_true_iff] at h4
    refine judged_bad ?_
    rintro res ⟨-, -, -, k | ⟨-, k | k⟩⟩
    · exact h2 ⟨k.1, k.2.1⟩
    · exact h3 ⟨k.1, k.2.1⟩
    · exact h4 k.1

/-! ## The values of folded literals -/

theorem standsFor_literal {cells : List Int} {e : Ex F} {a : Int} (h : standsFor cells e a) : Literal cells e := by
  unfold standsFor at h
  unfold Literal
  split at h
  · exact h.1
  · rcases h.2.2 with h | h | ⟨h, -⟩ | h <;> simp [h]
  · exact h.elim

/-- The tree of the type of a literal. -/
theorem standsFor_den {cells : List Int} {e : Ex F} {a : Int} (h : standsFor cells e a) : ∃ T, Den cells e.type T ∧ T.bare ≠ .float := by
  unfold standsFor at h
  split at h
  · simp only [Ex.type]; rw [h.1]; exact ⟨_, .null, nofun⟩
  · simp only [Ex.type]
    rcases h.2.2 with h | h | ⟨h, -⟩ | ⟨n, h, h0, h1⟩ <;> rw [h]
    · exact ⟨_, .int, nofun⟩
    · exact ⟨_, .char, nofun⟩
    · exact ⟨_, .bool, nofun⟩
    · exact ⟨_, .enum h0 h1, nofun⟩
  · exact h.elim

/-- Not the literal `NULL`. -/
def NotNull : Ex F → Prop
  | .lit _ (.null _) => False
  | _ => True

/-- Folding of literals that are not `NULL` on the right. -/
theorem foldBinary_value (D : Doubles F) {cells : List Int} (hlen : cells.length < 4611686018427387904) {l r : Ex F} {a b : Int}
    (hl : standsFor cells l a) (hr : standsFor cells r b) (nr : NotNull r) (type : Int) (op : Binary) (ha : isAssignment op = false) (hc : op ≠ .comma) :
    (∀ t v, foldBinary D cells type l r op = .ok (.lit t v) → ∃ x, v = .cell x ∧ t = foldType op ∧ Value op a b x) ∧
    (foldBinary D cells type l r op = .ub → ∀ x, ¬Value op a b x) := by
  unfold foldBinary
  split
  case h_2 => exact ⟨nofun, nofun⟩
  case h_1 t v t' w =>
  cases w with
  | null b => exact nr.elim
  | dbl x => simp only [standsFor] at hr
  | cell y =>
  have hb : y = b := hr.1
  subst hb
  simp only
  cases v with
  | null b =>
    have e : t = TYPE_NULL_POINTER := hl.1
    subst e
    have ec : typeClass cells TYPE_NULL_POINTER = TYPE_NULL_POINTER := rfl
    rw [ec, if_neg (by decide), if_neg (by decide)]
    exact ⟨nofun, nofun⟩
  | dbl x => simp only [standsFor] at hl
  | cell x =>
    have ha' : x = a := hl.1
    subst ha'
    split
    · simp only [Val.integer, Out.bind]
      rcases foldInt_folded (F := F) op ha hc x y with ⟨z, hz, e⟩ | ⟨e, hz⟩ <;> rw [e]
      · refine ⟨?_, nofun⟩
        rintro t v ⟨⟩
        exact ⟨z, rfl, rfl, hz⟩
      · exact ⟨nofun, fun _ => hz⟩
    · split
      · rename_i h
        rcases class_literal hlen (standsFor_literal hl) with h' | h' | h' | h' | h' <;>
          first | (rw [h] at h'; exact absurd h'.1 (by decide)) | (rw [h] at h'; exact absurd h' (by decide))
      · exact ⟨nofun, nofun⟩

/-- Without floating operands and assignments, the answer is a refusal, a fold, or a comma. -/
theorem binary_shape (D : Doubles F) {cells : List Int} (hlen : cells.length < 4611686018427387904) (hc : Clean cells) {l r : Ex F} {L R : Ty}
    (dl : Den cells l.type L) (dr : Den cells r.type R) (nl : L.bare ≠ .float) (nr : R.bare ≠ .float) (hl : Literal cells l) (hr : Literal cells r)
    (op : Binary) (ha : isAssignment op = false) :
    buildBinary D cells l r op = .bad ∨ (op ≠ .comma ∧ ∃ type, buildBinary D cells l r op = foldBinary D cells type l r op) ∨
    (op = .comma ∧ buildBinary D cells l r op = .ok (.binary r.type op l r)) := by
  unfold buildBinary
  rw [ha, if_neg (by decide)]
  unfold buildBinaryCase
  obtain ⟨b1, e1, i1⟩ := says_integer hlen hc dl
  obtain ⟨b2, e2, i2⟩ := says_integer hlen hc dr
  obtain ⟨b3, e3, i3⟩ := says_arithmetic hlen hc dl
  obtain ⟨b4, e4, i4⟩ := says_arithmetic hlen hc dr
  obtain ⟨b5, e5, i5⟩ := says_scalar hlen hc dl
  obtain ⟨b6, e6, i6⟩ := says_scalar hlen hc dr
  obtain ⟨b7, e7, i7⟩ := says_pointer hlen dl
  obtain ⟨b8, e8, i8⟩ := says_pointer hlen dr
  have conv : b3 = true → b4 = true → usualConversions D cells l r = .ok (TYPE_INTEGER, l, r) := by
    intro h3 h4
    rcases conversions D hlen dl dr hl hr (i3.1 h3) (i4.1 h4) with ⟨hn, -⟩ | ⟨-, -, h⟩
    · exact absurd ⟨(i3.1 h3).resolve_right nl, (i4.1 h4).resolve_right nr⟩ hn
    · exact h
  have arith : ∀ {b b' : Bool}, (!b || !b') = true ↔ ¬(b = true ∧ b' = true) := by decide
  cases hg : group op <;> simp only [bind_eq, pure_eq, e1, e2, e3, e4, e5, e6, e7, e8, ask, Out.bind]
  case integral =>
    split
    · exact Or.inl rfl
    · exact Or.inr (Or.inl ⟨(by rintro rfl; cases hg), _, rfl⟩)
  case arithmetic =>
    split
    · exact Or.inl rfl
    · rename_i h
      rw [arith] at h
      have h := Classical.not_not.1 h
      rw [conv h.1 h.2]
      exact Or.inr (Or.inl ⟨(by rintro rfl; cases hg), _, rfl⟩)
  case relational =>
    split
    · exact Or.inl rfl
    · rename_i h
      rw [arith] at h
      have h := Classical.not_not.1 h
      rw [conv h.1 h.2]
      exact Or.inr (Or.inl ⟨(by rintro rfl; cases hg), _, rfl⟩)
  case equality =>
    split
    · rename_i h
      rw [Bool.and_eq_true] at h
      rw [conv h.1 h.2]
      exact Or.inr (Or.inl ⟨(by rintro rfl; cases hg), _, rfl⟩)
    · split
      · exact Or.inr (Or.inl ⟨(by rintro rfl; cases hg), _, rfl⟩)
      · exact Or.inl rfl
  case logical =>
    split
    · exact Or.inl rfl
    · exact Or.inr (Or.inl ⟨(by rintro rfl; cases hg), _, rfl⟩)
  case comma =>
    have : op = .comma := by cases op <;> first | (cases hg; done) | rfl
    subst this
    exact Or.inr (Or.inr ⟨rfl, trivial⟩)
  all_goals cases op <;> first | (cases hg; done) | (cases ha; done)

/-- An integer literal or an enumerator. -/
def Countable (cells : List Int) : Ex F → Prop
  | .lit t (.cell _) => t = TYPE_INTEGER ∨ Enumeration cells t
  | _ => False

theorem countable_integral {cells : List Int} {e : Ex F} (h : Countable cells e) : ∃ T, Den cells e.type T ∧ T.Integral := by
  unfold Countable at h
  split at h
  · simp only [Ex.type]
    rcases h with h | ⟨n, h, h0, h1⟩ <;> rw [h]
    · exact ⟨_, .int, Or.inr (Or.inl rfl)⟩
    · exact ⟨_, .enum h0 h1, Or.inr (Or.inr (Or.inl ⟨_, rfl⟩))⟩
  · exact h.elim

/-- Integer literals and enumerators are always folded. -/
theorem foldBinary_always (D : Doubles F) {cells : List Int} (hlen : cells.length < 4611686018427387904) {l r : Ex F} {a b : Int}
    (hl : standsFor cells l a) (hr : standsFor cells r b) (cl : Countable cells l) (cr : Countable cells r) (type : Int) (op : Binary) :
    foldBinary D cells type l r op = foldInt op a b := by
  unfold Countable at cl cr
  split at cl <;> split at cr <;> first | exact cl.elim | exact cr.elim | skip
  rename_i t x _ t' y
  have ha : x = a := hl.1
  have hb : y = b := hr.1
  subst ha hb
  unfold foldBinary
  simp only
  rw [if_pos]
  · rfl
  · rcases cl with rfl | ⟨n, rfl, h0, h1⟩
    · exact Or.inr (Or.inl rfl)
    · exact Or.inl (class_pos hlen h0 h1)

theorem foldUnary_always (D : Doubles F) {cells : List Int} (hlen : cells.length < 4611686018427387904) {e : Ex F} {a : Int}
    (he : standsFor cells e a) (ce : Countable cells e) (type : Int) (op : Unary) : foldUnary D cells type op e = foldIntU op a := by
  unfold Countable at ce
  split at ce <;> first | exact ce.elim | skip
  rename_i t x
  have ha : x = a := he.1
  subst ha
  unfold foldUnary
  simp only
  have hcl : typeClass cells t = TYPE_ENUM ∨ typeClass cells t = TYPE_INTEGER := by
    rcases ce with rfl | ⟨n, rfl, h0, h1⟩
    · exact Or.inr rfl
    · exact Or.inl (class_pos hlen h0 h1)
  rw [if_neg (by rcases hcl with h | h <;> rw [h] <;> decide), if_neg (by rcases hcl with h | h <;> rw [h] <;> decide), if_pos hcl]
  rfl

/-- Folding of a unary operator on a literal. -/
theorem foldUnary_value (D : Doubles F) {cells : List Int} (hlen : cells.length < 4611686018427387904) {e : Ex F} {a : Int}
    (he : standsFor cells e a) (type : Int) (op : Unary) (hop : op = .minus ∨ op = .not ∨ op = .logNot ∨ op = .abs)
    (hs : op ≠ .logNot → ∃ T, Den cells e.type T ∧ T.Arithmetic) :
    (∀ t v, foldUnary D cells type op e = .ok (.lit t v) → ∃ x, v = .cell x ∧ t = (if op = .logNot then TYPE_BOOLEAN else TYPE_INTEGER) ∧ UValue op a x) ∧
    (foldUnary D cells type op e = .ub → ∀ x, ¬UValue op a x) := by
  unfold standsFor at he
  split at he
  · rename_i t b v
    obtain ⟨rfl, rfl⟩ := he
    have hl : op = .logNot := by
      apply Classical.byContradiction
      intro h
      obtain ⟨T, d, k⟩ := hs h
      have := (builtin_den d).2.2.2.2.1 rfl
      subst this
      rcases k with (k | k | ⟨_, k⟩ | ⟨_, k⟩) | k <;> cases k
    subst hl
    refine ⟨?_, nofun⟩
    rintro t v ⟨⟩
    exact ⟨1, rfl, rfl, Or.inl ⟨rfl, rfl⟩⟩
  · rename_i t x
    obtain ⟨rfl, hf, ht⟩ := he
    by_cases hb : t = TYPE_BOOLEAN
    · subst hb
      have hl : op = .logNot := by
        apply Classical.byContradiction
        intro h
        obtain ⟨T, d, k⟩ := hs h
        have := (builtin_den d).2.2.1.1 rfl
        subst this
        rcases k with (k | k | ⟨_, k⟩ | ⟨_, k⟩) | k <;> cases k
      subst hl
      have := foldIntU_folded (F := F) .logNot (by simp) x hf
      rcases this with ⟨z, hz, k⟩ | ⟨k, hz⟩
      · have k' : foldUnary D cells type .logNot (.lit TYPE_BOOLEAN (.cell x)) = .ok (.lit TYPE_BOOLEAN (.cell z)) := k
        rw [k']
        refine ⟨?_, nofun⟩
        rintro t v ⟨⟩
        exact ⟨z, rfl, rfl, hz⟩
      · cases k
    · by_cases hch : t = TYPE_CHARACTER
      · subst hch
        have : foldUnary D cells type op (.lit TYPE_CHARACTER (.cell x)) = .ok (.unary type false op (.lit TYPE_CHARACTER (.cell x))) := rfl
        rw [this]
        exact ⟨nofun, nofun⟩
      · have hce : Countable cells (.lit t (.cell x) : Ex F) := by
          rcases ht with h | h | h | h
          · exact Or.inl h
          · exact absurd h hch
          · exact absurd h.1 hb
          · exact Or.inr h
        rw [foldUnary_always D hlen (a := x) (show standsFor cells (.lit t (.cell x) : Ex F) x from ⟨rfl, hf, ht⟩) hce]
        rcases foldIntU_folded (F := F) op hop x hf with ⟨z, hz, k⟩ | ⟨k, hz⟩ <;> rw [k]
        · refine ⟨?_, nofun⟩
          rintro t v ⟨⟩
          refine ⟨z, rfl, ?_, hz⟩
          simp only [decide_eq_true_eq]
        · exact ⟨nofun, fun _ => hz⟩
  · exact he.elim

end RuC.Builder
