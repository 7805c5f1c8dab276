import Verif.Builder.Trees

/-! Properties of the building of operator expressions (C33, C34). -/

namespace RuC.Builder.Props

open RuC RuC.Types RuC.Types.Spec RuC.Expr RuC.Builder RuC.Builder.Spec

variable {F : Type}

/-! ## C33: the folding of literals -/

/-- C33, binary operators (partial: the right operand is not the literal `NULL`).  When the builder answers a
literal, it is the value of the operator; and it runs into undefined behaviour only where the operator has no
value. -/
theorem folded_binary_value_partial (D : Doubles F) {cells : List Int} (hlen : cells.length < 4611686018427387904) (hc : Clean cells) {l r : Ex F} {a b : Int}
    (hl : standsFor cells l a) (hr : standsFor cells r b) (nr : ∀ t p, r ≠ .lit t (.null p)) (op : Binary) :
    (∀ t v, buildBinary D cells l r op = .ok (.lit t v) →
      ∃ x, v = .cell x ∧ Value op a b x ∧ (∀ y, Value op a b y → y = x) ∧ t = (if isTruth op then TYPE_BOOLEAN else TYPE_INTEGER)) ∧
    (buildBinary D cells l r op = .ub → ∀ x, ¬Value op a b x) := by
  have nn : NotNull r := by
    unfold NotNull
    split
    · exact nr _ _ rfl
    · trivial
  obtain ⟨L, dl, fl⟩ := standsFor_den hl
  obtain ⟨R, dr, fr⟩ := standsFor_den hr
  cases ha : isAssignment op with
  | true =>
    have lv : l.lvalue = false := by
      unfold standsFor at hl
      split at hl
      · rfl
      · rfl
      · exact hl.elim
    have : buildBinary D cells l r op = .bad := by unfold buildBinary; rw [if_pos ha, if_pos lv]
    rw [this]
    exact ⟨nofun, nofun⟩
  | false =>
    rcases binary_shape D hlen hc dl dr fl fr (standsFor_literal hl) (standsFor_literal hr) op ha with h | ⟨ho, type, h⟩ | ⟨-, h⟩
    · rw [h]; exact ⟨nofun, nofun⟩
    · obtain ⟨k1, k2⟩ := foldBinary_value D hlen hl hr nn type op ha ho
      rw [h]
      refine ⟨fun t v e => ?_, k2⟩
      obtain ⟨x, hx, ht, hv⟩ := k1 t v e
      exact ⟨x, hx, hv, fun y hy => value_unique op a b y x hy hv, ht⟩
    · rw [h]; exact ⟨nofun, nofun⟩

/-- C33: two integers or enumerators are always folded: the answer is the literal of the value, whenever there is one. -/
theorem integers_are_folded (D : Doubles F) {cells : List Int} (hlen : cells.length < 4611686018427387904) (hc : Clean cells) {lt rt a b : Int}
    (ha : Fits a) (hb : Fits b) (hl : lt = TYPE_INTEGER ∨ Enumeration cells lt) (hr : rt = TYPE_INTEGER ∨ Enumeration cells rt) (op : Binary)
    (hop : isAssignment op = false) (hco : op ≠ .comma) (x : Int) :
    buildBinary D cells (.lit lt (.cell a)) (.lit rt (.cell b)) op = .ok (.lit (if isTruth op then TYPE_BOOLEAN else TYPE_INTEGER) (.cell x)) ↔ Value op a b x := by
  have sl : standsFor cells (.lit lt (.cell a) : Ex F) a := ⟨rfl, ha, hl.elim Or.inl fun h => Or.inr (Or.inr (Or.inr h))⟩
  have sr : standsFor cells (.lit rt (.cell b) : Ex F) b := ⟨rfl, hb, hr.elim Or.inl fun h => Or.inr (Or.inr (Or.inr h))⟩
  have cl : Countable cells (.lit lt (.cell a) : Ex F) := hl
  have cr : Countable cells (.lit rt (.cell b) : Ex F) := hr
  obtain ⟨L, dl, il⟩ := countable_integral cl
  obtain ⟨R, dr, ir⟩ := countable_integral cr
  have hj := judge_binary D hlen hc _ _ dl dr (standsFor_literal sl) (standsFor_literal sr) op hop
  have hrule : ∃ res, Rule op L R (lt = rt) res := by
    cases op <;> first
      | (cases hop; done)
      | exact absurd rfl hco
      | exact ⟨.int, il, ir, rfl⟩
      | exact ⟨.int, Or.inl il, Or.inl ir, Or.inl ⟨il, ir, rfl⟩⟩
      | exact ⟨.bool, Or.inl il, Or.inl ir, rfl⟩
      | exact ⟨.bool, Or.inl ⟨Or.inl il, Or.inl ir⟩, rfl⟩
      | exact ⟨.bool, Or.inr (Or.inl il), Or.inr (Or.inl ir), rfl⟩
  rcases binary_shape D hlen hc dl dr (integral_not_float il) (integral_not_float ir) (standsFor_literal sl) (standsFor_literal sr) op hop with h | ⟨-, type, h⟩ | ⟨h, -⟩
  · exact absurd hrule (hj.1.1 h)
  · rw [h, foldBinary_always D hlen sl sr cl cr]
    rcases foldInt_folded (F := F) op hop hco a b with ⟨z, hz, e⟩ | ⟨e, hz⟩ <;> rw [e]
    · constructor
      · intro k
        injection k with k
        injection k with _ k
        injection k with k
        exact k ▸ hz
      · intro k
        rw [value_unique op a b x z k hz]
    · exact ⟨nofun, fun k => absurd k (hz x)⟩
  · exact absurd h hco

/-- C33, unary operators. -/
theorem folded_unary_value (D : Doubles F) (tb : Table) (hlen : tb.cells.length < 4611686018427387904) (hc : Clean tb.cells) {e : Ex F} {a : Int}
    (he : standsFor tb.cells e a) (op : Unary) (hop : op = .minus ∨ op = .not ∨ op = .logNot ∨ op = .abs) :
    (∀ t v tb', buildUnary D tb e op = .ok (.lit t v, tb') →
      ∃ x, v = .cell x ∧ UValue op a x ∧ (∀ y, UValue op a y → y = x) ∧ t = (if op = .logNot then TYPE_BOOLEAN else TYPE_INTEGER)) ∧
    (buildUnary D tb e op = .ub → ∀ x, ¬UValue op a x) := by
  obtain ⟨T, d, -⟩ := standsFor_den he
  have step : ∀ {b : Bool} (type : Int), (b = true → op ≠ .logNot → T.Arithmetic) →
      (∀ t v tb', (if b = false then (.bad : Out (Ex F × Table)) else (foldUnary D tb.cells type op e).bind fun x => .ok (x, tb)) = .ok (.lit t v, tb') →
        ∃ x, v = .cell x ∧ UValue op a x ∧ (∀ y, UValue op a y → y = x) ∧ t = (if op = .logNot then TYPE_BOOLEAN else TYPE_INTEGER)) ∧
      ((if b = false then (.bad : Out (Ex F × Table)) else (foldUnary D tb.cells type op e).bind fun x => .ok (x, tb)) = .ub → ∀ x, ¬UValue op a x) := by
    intro b type hs
    cases b with
    | false => rw [if_pos rfl]; exact ⟨nofun, nofun⟩
    | true =>
      rw [if_neg (by decide)]
      obtain ⟨k1, k2⟩ := foldUnary_value D hlen he type op hop fun h => ⟨T, d, hs rfl h⟩
      cases hf : foldUnary D tb.cells type op e with
      | bad => exact ⟨nofun, nofun⟩
      | ub => exact ⟨nofun, fun _ => k2 hf⟩
      | ok y =>
        refine ⟨?_, nofun⟩
        rintro t v tb' ⟨⟩
        obtain ⟨x, hx, ht, hv⟩ := k1 t v hf
        exact ⟨x, hx, hv, fun y hy => uvalue_unique op a y x hy hv, ht⟩
  obtain ⟨b1, e1, i1⟩ := says_integer hlen hc d
  obtain ⟨b2, e2, i2⟩ := says_arithmetic hlen hc d
  obtain ⟨b3, e3, i3⟩ := says_scalar hlen hc d
  rcases hop with rfl | rfl | rfl | rfl <;> unfold buildUnary <;> simp only [bind_eq, pure_eq, e1, e2, e3, ask, Out.bind]
  · exact step _ fun h _ => i2.1 h
  · exact step _ fun h _ => Or.inl (i1.1 h)
  · exact step _ fun _ h => absurd rfl h
  · exact step _ fun h _ => i2.1 h

/-- C33 violated: `1 && NULL` is folded to a literal that depends on where in the source the word `NULL` is:
true whenever it is not at the very beginning. -/
theorem null_operand_folded (D : Doubles F) (p : Int) (hp : p ≠ 0) :
    buildBinary D [] (.lit TYPE_INTEGER (.cell 1)) (.lit TYPE_NULL_POINTER (.null p)) .logAnd = .ok (.lit TYPE_BOOLEAN (.cell 1)) ∧
    standsFor [] (.lit TYPE_NULL_POINTER (.null p) : Ex F) 0 ∧ ¬Value .logAnd 1 0 1 := by
  refine ⟨?_, ⟨rfl, rfl⟩, ?_⟩
  · have : buildBinary D [] (.lit TYPE_INTEGER (.cell 1)) (.lit TYPE_NULL_POINTER (.null p)) .logAnd = .ok (boolLit (decide ((1 : Int) ≠ 0 ∧ p ≠ 0))) := by
      have h1 : isScalar [] TYPE_INTEGER = some true := by decide +kernel
      have h2 : isScalar [] TYPE_NULL_POINTER = some true := by decide +kernel
      unfold buildBinary buildBinaryCase
      simp only [isAssignment, group, Ex.type, h1, h2, ask, bind_eq, Out.bind]
      rfl
    rw [this, decide_eq_true (by exact ⟨by decide, hp⟩)]
    rfl
  · rintro (⟨⟨-, h⟩, -⟩ | ⟨-, h⟩)
    · exact h rfl
    · cases h

/-! ## C34: the checks of types -/

/-- C34, binary operators other than assignments: refused exactly when no rule applies to the types, and the
result has the type the rule gives. -/
theorem binary_types (D : Doubles F) {cells : List Int} (hlen : cells.length < 4611686018427387904) (hc : Clean cells) (l r : Ex F) {L R : Ty}
    (dl : Den cells l.type L) (dr : Den cells r.type R) (hl : Literal cells l) (hr : Literal cells r) (op : Binary) (ha : isAssignment op = false) :
    (buildBinary D cells l r op = .bad ↔ ¬∃ res, Rule op L R (l.type = r.type) res) ∧
    ∀ e, buildBinary D cells l r op = .ok e → ∃ res, Rule op L R (l.type = r.type) res ∧ e.type = res.type l.type r.type :=
  judge_binary D hlen hc l r dl dr hl hr op ha

/-- C34, assignments (the right side is not a list of initialisers): accepted exactly when the left side is a
place that is not `const`, the value fits in it, and the operands suit the operator; the type is that of the
left side. -/
theorem assignment_types_partial (D : Doubles F) {cells : List Int} (hlen : cells.length < 4611686018427387904) (hc : Clean cells) (l r : Ex F) {L R : Ty}
    (dl : Den cells l.type L) (dr : Den cells r.type R) (hr : Literal cells r) (hi : r.isInit = false) (op : Binary) (ha : isAssignment op = true) :
    (buildBinary D cells l r op = .bad ↔ ¬(l.lvalue = true ∧ (∀ U, L ≠ .const U) ∧ Fitting cells l.type r.type L R ∧ OperandRule op L R)) ∧
    (buildBinary D cells l r op ≠ .bad → ∃ e, buildBinary D cells l r op = .ok e ∧ e.type = l.type ∧ e.lvalue = false) := by
  rcases judge_assign D hlen hc l r dl dr hr hi op ha with ⟨e, n⟩ | ⟨h1, h2, h3, h4, r', e⟩ <;> rw [e]
  · exact ⟨⟨fun _ => n, fun _ => rfl⟩, fun k => absurd rfl k⟩
  · exact ⟨⟨nofun, fun k => absurd ⟨h1, h2, h3, h4⟩ k⟩, fun _ => ⟨_, rfl, rfl, rfl⟩⟩

/-- C34, unary operators other than `&`. -/
theorem unary_types (D : Doubles F) (tb : Table) (hlen : tb.cells.length < 4611686018427387904) (hc : Clean tb.cells) (e : Ex F) {T : Ty}
    (d : Den tb.cells e.type T) (he : Literal tb.cells e) (op : Unary) (hop : op ≠ .address) :
    (buildUnary D tb e op = .bad ↔ ¬URule op e.lvalue T) ∧
    ∀ e' tb', buildUnary D tb e op = .ok (e', tb') → tb' = tb ∧ UType tb.cells op T e.type e'.type :=
  judge_unary D tb hlen hc e d he op hop

/-- C34, taking an address, with the table of any history of types: only places have one, and the type of the
result is a pointer to the type of the operand. -/
theorem address_type (D : Doubles F) {a b : Int} {h : List (Req × Int)} {tb : Table} (hr : Run a b h tb) (hlen : tb.cells.length < 2305843009213693000) (e : Ex F)
    (hk : e.type ≤ 0 ∨ ∃ q, (q, e.type) ∈ h) :
    (buildUnary D tb e .address = .bad ↔ e.lvalue = false) ∧
    (e.lvalue = true → ∃ e' tb', buildUnary D tb e .address = .ok (e', tb') ∧ tb.cells <+: tb'.cells ∧ pointerElement tb'.cells e'.type = some e.type) := by
  have hb : buildUnary D tb e .address = if e.lvalue = false then .bad else (ask (typePointer tb e.type)).bind fun p => .ok (.unary p.1 false .address e, p.2) := rfl
  have hall : Allowed h (.pointer e.type) := ⟨by simpa [mentioned] using hk, nofun, nofun, nofun, nofun⟩
  obtain ⟨rs, hi⟩ := run_inv hr (by omega)
  obtain ⟨t, tb', hbd, hpre, _⟩ := inv_step hi hall (by omega)
  have hbd' : typePointer tb e.type = some (t, tb') := hbd
  rw [hb]
  cases hl : e.lvalue with
  | false => exact ⟨⟨fun _ => rfl, fun _ => rfl⟩, nofun⟩
  | true =>
    rw [if_neg (by decide), hbd']
    refine ⟨⟨nofun, nofun⟩, fun _ => ⟨_, _, rfl, hpre, ?_⟩⟩
    have hlen' : tb'.cells.length < 2305843009213693952 := by
      have : tb'.cells.length ≤ tb.cells.length + 3 := by
        unfold typePointer typeAdd at hbd'
        simp only at hbd'
        split at hbd'
        · cases hbd'
        · cases hbd'; simp
        · cases hbd'; simp
      omega
    have := RuC.Types.Props.types_read_back_partial (.step hr hall hbd) hlen' (r := .pointer e.type) (t := t) List.mem_cons_self
    cases this with
    | pointer h1 h2 h3 => exact h1

/-- C34, the conditional operator. -/
theorem ternary_types (D : Doubles F) {cells : List Int} (hlen : cells.length < 4611686018427387904) (hc : Clean cells) (c l r : Ex F) {C L R : Ty}
    (dc : Den cells c.type C) (dl : Den cells l.type L) (dr : Den cells r.type R) (hl : Literal cells l) (hr : Literal cells r) :
    (buildTernary D cells c l r = .bad ↔ ¬(l.isInit = false ∧ r.isInit = false ∧ C.Scalar ∧ ∃ res, TRule L R (l.type = r.type) res)) ∧
    ∀ e, buildTernary D cells c l r = .ok e → ∃ res, TRule L R (l.type = r.type) res ∧ e.type = res.type l.type r.type := by
  obtain ⟨h1, h2⟩ := judge_ternary D hlen hc c l r dc dl dr hl hr
  refine ⟨h1.trans (not_congr ⟨fun ⟨res, a, b, c, d⟩ => ⟨a, b, c, res, d⟩, fun ⟨a, b, c, res, d⟩ => ⟨res, a, b, c, d⟩⟩), fun e he => ?_⟩
  obtain ⟨res, k, t⟩ := h2 e he
  exact ⟨res, k.2.2.2, t⟩

/-- The hypotheses above hold of the tables of the compiler: after any history of requests for types every
type of it stands for a tree, and the beginning of the table is clean. -/
theorem histories_have_trees {a b : Int} {h : List (Req × Int)} {tb : Table} (hr : Run a b h tb) (hlen : tb.cells.length < 2305843009213693952)
    (ha : a ≠ TYPE_ENUM) (hb : b ≠ TYPE_ENUM)
    (hm : ∀ x ∈ h, ∀ t ∈ mentioned x.1, t ≤ 0 → t ∈ [-9, -8, -7, -6, -4, -3, -2, -1, 0]) :
    Clean tb.cells ∧ ∀ x ∈ h, ∃ T, Den tb.cells x.2 T :=
  ⟨run_clean hr hlen ha hb, run_den hr hlen hm⟩

/-- A deviation: a variable of a `const` type may be incremented. -/
theorem const_increment (D : Doubles F) : ∃ (tb : Table) (t : Int), build (initTable 40 41) (.const TYPE_INTEGER) = some (t, tb) ∧
    buildUnary D tb (.ident t 0) .postInc = .ok (.unary t false .postInc (.ident t 0), tb) := by
  refine ⟨⟨[0, 0, 1002, 2, 4, -1, 40, -1, 41, 1, 1006, -1], 9⟩, 10, by decide +kernel, ?_⟩
  have h : isArithmetic [0, 0, 1002, 2, 4, -1, 40, -1, 41, 1, 1006, -1] 10 = some true := by decide +kernel
  unfold buildUnary
  simp only [Ex.type, Ex.lvalue, h, ask, bind_eq, Out.bind, pure_eq]
  rfl

/-! ## Concrete cases -/

/-- Doubles for the cases below: integers. -/
def sample : Doubles Int := ⟨id, (- ·), (· * ·), (· / ·), (· + ·), (· - ·), fun a b => decide (a < b), fun a b => decide (a ≤ b), fun a b => decide (a = b), 0⟩

theorem clean_sample : Clean [0, 0, 1002, 2, 4, -1, 40, -1, 41, 1, 1004, -1] := by
  intro k h1 h9
  rcases (by omega : k = 1 ∨ k = 2 ∨ k = 3 ∨ k = 4 ∨ k = 5 ∨ k = 6 ∨ k = 7 ∨ k = 8 ∨ k = 9) with rfl | rfl | rfl | rfl | rfl | rfl | rfl | rfl | rfl <;> decide

theorem clean_nil : Clean [] := by intro k _ _; simp

/-- `-7 / 2` is folded to -3. -/
example : buildBinary sample [] (.lit TYPE_INTEGER (.cell (-7))) (.lit TYPE_INTEGER (.cell 2)) .div = .ok (.lit TYPE_INTEGER (.cell (-3))) :=
  (integers_are_folded sample (by decide) clean_nil (by unfold Fits; omega) (by unfold Fits; omega) (Or.inl rfl) (Or.inl rfl) .div rfl (by decide) (-3)).2
    ⟨-1, ⟨by decide, by decide, by omega⟩, by unfold Fits; omega⟩

/-- `5 / 0` has no value, and the compiler divides by zero. -/
example : (∀ x, ¬Value .div 5 0 x) ∧ (buildBinary sample [] (.lit TYPE_INTEGER (.cell 5)) (.lit TYPE_INTEGER (.cell 0)) .div) = .ub := by
  refine ⟨?_, by rfl⟩
  rintro x ⟨r, ⟨-, h, -⟩, -⟩
  simp at h

/-- A pointer to `int` may be compared with `NULL`, but not with an integer. -/
example : (∃ e, buildBinary sample [0, 0, 1002, 2, 4, -1, 40, -1, 41, 1, 1004, -1] (.ident 10 0) (.lit TYPE_NULL_POINTER (.null 3)) .eq = .ok e) ∧
    buildBinary sample [0, 0, 1002, 2, 4, -1, 40, -1, 41, 1, 1004, -1] (.ident 10 0) (.ident TYPE_INTEGER 1) .eq = .bad := by
  have dp : Den [0, 0, 1002, 2, 4, -1, 40, -1, 41, 1, 1004, -1] 10 (.pointer .int) := Den.pointer (n := 10) (by omega) rfl rfl .int
  have h1 : isPointer [0, 0, 1002, 2, 4, -1, 40, -1, 41, 1, 1004, -1] 10 = some true := by decide +kernel
  have h2 : isArithmetic [0, 0, 1002, 2, 4, -1, 40, -1, 41, 1, 1004, -1] 10 = some false := by decide +kernel
  have h3 : isArithmetic [0, 0, 1002, 2, 4, -1, 40, -1, 41, 1, 1004, -1] TYPE_NULL_POINTER = some false := by decide +kernel
  have h4 : isPointer [0, 0, 1002, 2, 4, -1, 40, -1, 41, 1, 1004, -1] TYPE_NULL_POINTER = some false := by decide +kernel
  refine ⟨⟨.binary TYPE_BOOLEAN .eq (.ident 10 0) (.lit TYPE_NULL_POINTER (.null 3)), ?_⟩, ?_⟩
  · unfold buildBinary buildBinaryCase
    simp only [isAssignment, group, Ex.type, h1, h2, h3, h4, ask, bind_eq, Out.bind]
    rfl
  refine (binary_types sample (by decide) clean_sample (.ident 10 0) (.ident TYPE_INTEGER 1) dp .int trivial trivial .eq rfl).1.2 ?_
  rintro ⟨res, (⟨h, -⟩ | ⟨-, h⟩ | ⟨h, -⟩ | h), -⟩
  · rcases h with (h | h | ⟨_, h⟩ | ⟨_, h⟩) | h <;> cases h
  · cases h
  · cases h
  · cases h

/-- Assigning an integer to a floating variable is accepted. -/
example : buildBinary sample [] (.ident TYPE_FLOATING 0) (.lit TYPE_INTEGER (.cell 2)) .assign ≠ .bad := by
  intro h
  exact (assignment_types_partial sample (by decide) clean_nil (.ident TYPE_FLOATING 0) (.lit TYPE_INTEGER (.cell 2)) .float .int (show Literal [] (.lit TYPE_INTEGER (.cell 2) : Ex Int) from Or.inl rfl) rfl .assign rfl).1.1 h
    ⟨rfl, nofun, Or.inl ⟨rfl, Or.inr (Or.inl rfl)⟩, trivial⟩

end RuC.Builder.Props
