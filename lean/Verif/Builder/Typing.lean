import Verif.Builder.Values

/-! The checks of types and the folding, put together. -/

namespace RuC.Builder

open RuC RuC.Types RuC.Expr RuC.Builder.Spec

variable {F : Type}

theorem ask_says {α : Type} {q : Option Bool} {p : Prop} (h : Says q p) (f : Bool → Out α) :
    (p → (ask q).bind f = f true) ∧ (¬p → (ask q).bind f = f false) := by
  obtain ⟨b, e, i⟩ := h
  subst e
  refine ⟨fun hp => ?_, fun hp => ?_⟩
  · rw [i.2 hp]; rfl
  · cases b
    · rfl
    · exact absurd (i.1 rfl) hp

theorem bind_eq {α β : Type} (o : Out α) (f : α → Out β) : (o >>= f) = o.bind f := rfl
theorem pure_eq {α : Type} (a : α) : (pure a : Out α) = .ok a := rfl

/-- The class of a positive number. -/
theorem class_pos {cells : List Int} (hlen : cells.length < 4611686018427387904) {n : Nat} {c : Int} (h0 : 0 < n) (h : cells[n]? = some c) :
    typeClass cells n = c := by
  have := get_some h hlen
  unfold typeClass
  rw [if_pos (by omega), this.2.1, this.2.2]

/-- The class of a literal. -/
theorem class_literal {cells : List Int} (hlen : cells.length < 4611686018427387904) {t : Int} {x : Int} (h : Literal cells (.lit t (.cell x) : Ex F)) :
    (typeClass cells t = TYPE_INTEGER ∧ t = TYPE_INTEGER) ∨ (typeClass cells t = TYPE_CHARACTER ∧ t = TYPE_CHARACTER) ∨
    (typeClass cells t = TYPE_BOOLEAN ∧ t = TYPE_BOOLEAN) ∨ (typeClass cells t = TYPE_ENUM ∧ Enumeration cells t) ∨ typeClass cells t = TYPE_ARRAY := by
  simp only [Literal] at h
  rcases h with h | h | h | ⟨n, h, h0, h1⟩ | ⟨n, h, h0, h1⟩
  · left; subst h; exact ⟨rfl, rfl⟩
  · right; left; subst h; exact ⟨rfl, rfl⟩
  · right; right; left; subst h; exact ⟨rfl, rfl⟩
  · right; right; right; left; rw [h]; exact ⟨class_pos hlen h0 h1, n, rfl, h0, h1⟩
  · right; right; right; right; subst h; exact class_pos hlen h0 h1

/-- Not a floating literal. -/
def NotDbl : Ex F → Prop
  | .lit _ (.dbl _) => False
  | _ => True

/-- The type a fold gives its result. -/
def foldType (op : Binary) : Int := if isTruth op then TYPE_BOOLEAN else TYPE_INTEGER

theorem foldInt_cases (op : Binary) (ha : isAssignment op = false) (hc : op ≠ .comma) (a b : Int) :
    (foldInt op a b : Out (Ex F)) ≠ .bad ∧ ∀ e, (foldInt op a b : Out (Ex F)) = .ok e → e.type = foldType op := by
  rcases foldInt_folded (F := F) op ha hc a b with ⟨x, -, e⟩ | ⟨e, -⟩ <;> rw [e]
  · refine ⟨nofun, ?_⟩
    rintro _ ⟨⟩
    rfl
  · exact ⟨nofun, nofun⟩

theorem foldBinary_int (D : Doubles F) {cells : List Int} (hlen : cells.length < 4611686018427387904) (op : Binary)
    (ha : isAssignment op = false) (hc : op ≠ .comma) (l r : Ex F) (hl : Literal cells l) (nl : NotDbl l) (nr : NotDbl r) :
    foldBinary D cells (foldType op) l r op ≠ .bad ∧ ∀ e, foldBinary D cells (foldType op) l r op = .ok e → e.type = foldType op := by
  have plain : ∀ l r : Ex F, (.ok (.binary (foldType op) op l r) : Out (Ex F)) ≠ .bad ∧ ∀ e, (.ok (.binary (foldType op) op l r) : Out (Ex F)) = .ok e → e.type = foldType op := by
    intro l r
    refine ⟨nofun, ?_⟩
    rintro _ ⟨⟩
    rfl
  unfold foldBinary
  split
  case h_2 => exact plain _ _
  case h_1 t v t' w =>
    simp only
    split
    · cases v <;> cases w <;> first | exact nl.elim | exact nr.elim | exact foldInt_cases op ha hc _ _
    · split
      · cases v with
        | null b =>
          simp only [Literal] at hl
          subst hl
          rename_i h
          exact absurd (show TYPE_NULL_POINTER = TYPE_FLOATING from h) (by decide)
        | cell x =>
          rename_i h
          rcases class_literal hlen hl with h' | h' | h' | h' | h' <;> first | rw [h] at h'; exact absurd h'.1 (by decide) | (rw [h] at h'; exact absurd h' (by decide))
        | dbl x => exact nl.elim
      · exact plain _ _

/-- The operators on floating values. -/
def floatOp : Binary → Bool
  | .mul | .div | .add | .sub | .lt | .gt | .le | .ge | .eq | .ne => true
  | _ => false

/-- The type of a floating fold. -/
def floatType (op : Binary) : Int := if isTruth op then TYPE_BOOLEAN else TYPE_FLOATING

theorem foldBinary_float (D : Doubles F) {cells : List Int} (op : Binary) (ho : floatOp op = true) (l r : Ex F)
    (hl : l.type = TYPE_FLOATING) (hl' : Literal cells l) (hr : r.type = TYPE_FLOATING) (hr' : Literal cells r) :
    ∃ e, foldBinary D cells (floatType op) l r op = .ok e ∧ e.type = floatType op := by
  unfold foldBinary
  split
  case h_2 => exact ⟨_, rfl, rfl⟩
  case h_1 t v t' w =>
    simp only [Ex.type] at hl hr
    subst hl hr
    have ec : typeClass cells TYPE_FLOATING = TYPE_FLOATING := rfl
    simp only
    rw [ec, if_neg (by decide), if_pos rfl]
    have cellNo : ∀ x, ¬Literal cells (.lit TYPE_FLOATING (.cell x) : Ex F) := by
      intro x h
      simp only [Literal] at h
      rcases h with h | h | h | ⟨n, h, h0, -⟩ | ⟨n, h, h0, -⟩ <;> revert h <;> unfold TYPE_FLOATING <;> first | decide | omega
    cases v with
    | null b => simp only [Literal] at hl'; exact absurd hl' (by decide)
    | cell x => exact absurd hl' (cellNo x)
    | dbl x =>
      cases w with
      | null b => simp only [Literal] at hr'; exact absurd hr' (by decide)
      | cell x => exact absurd hr' (cellNo x)
      | dbl y => cases op <;> first | exact ⟨_, rfl, rfl⟩ | cases ho

theorem cast_float (D : Doubles F) {cells : List Int} {e : Ex F} (h : Literal cells e) :
    ∃ e', buildCast D TYPE_FLOATING e = .ok e' ∧ e'.type = TYPE_FLOATING ∧ Literal cells e' := by
  unfold buildCast
  by_cases k : TYPE_FLOATING = e.type
  · rw [if_neg (by simpa using k)]
    exact ⟨e, rfl, k.symm, h⟩
  · rw [if_pos k]
    split
    · exact ⟨_, rfl, rfl, rfl⟩
    · exact ⟨_, rfl, rfl, rfl⟩
    · exact absurd h.symm k
    · exact ⟨_, rfl, rfl, trivial⟩

theorem float_not_integral {T : Ty} (h : T.bare = .float) : ¬T.Integral := by
  unfold Ty.Integral
  rw [h]
  rintro (h | h | ⟨_, h⟩ | ⟨_, h⟩) <;> cases h

/-- The conversions of operands that are numbers. -/
theorem conversions (D : Doubles F) {cells : List Int} (hlen : cells.length < 4611686018427387904) {l r : Ex F} {L R : Ty}
    (dl : Den cells l.type L) (dr : Den cells r.type R) (hl : Literal cells l) (hr : Literal cells r) (al : L.Arithmetic) (ar : R.Arithmetic) :
    (¬(L.Integral ∧ R.Integral) ∧ ∃ l' r', usualConversions D cells l r = .ok (TYPE_FLOATING, l', r') ∧ l'.type = TYPE_FLOATING ∧ r'.type = TYPE_FLOATING ∧ Literal cells l' ∧ Literal cells r') ∨
    (L.Integral ∧ R.Integral ∧ usualConversions D cells l r = .ok (TYPE_INTEGER, l, r)) := by
  obtain ⟨bl, el, il⟩ := says_floating hlen dl
  obtain ⟨br, er, ir⟩ := says_floating hlen dr
  unfold usualConversions
  rw [el, er]
  simp only [bind_eq, ask, Out.bind, pure_eq]
  obtain ⟨l', cl, tl, kl⟩ := cast_float D hl
  obtain ⟨r', cr, tr, kr⟩ := cast_float D hr
  by_cases hf : (bl || br) = true
  · rw [if_pos hf, cl, cr]
    refine Or.inl ⟨?_, l', r', rfl, tl, tr, kl, kr⟩
    rintro ⟨h1, h2⟩
    rw [Bool.or_eq_true] at hf
    rcases hf with h | h
    · exact float_not_integral (il.1 h) h1
    · exact float_not_integral (ir.1 h) h2
  · rw [if_neg hf]
    rw [Bool.or_eq_true] at hf
    refine Or.inr ⟨?_, ?_, rfl⟩
    · exact al.resolve_right fun h => hf (Or.inl (il.2 h))
    · exact ar.resolve_right fun h => hf (Or.inr (ir.2 h))

/-- A floating literal has the type of floating numbers. -/
theorem notDbl {cells : List Int} {e : Ex F} {T : Ty} (d : Den cells e.type T) (h : Literal cells e) (hT : T.bare ≠ .float) : NotDbl e := by
  unfold NotDbl
  split
  · rename_i t x
    simp only [Literal] at h
    simp only [Ex.type] at d
    have := ((builtin_den d).2.2.2.1).1 h
    subst this
    exact hT rfl
  · trivial

theorem integral_not_float {T : Ty} (h : T.Integral) : T.bare ≠ .float := fun k => float_not_integral k h

theorem scalar_not_float {T : Ty} (h : T.Scalar) : T.bare ≠ .float := by
  rcases h with h | h | ⟨_, h⟩ | h
  · rw [h]; nofun
  · exact integral_not_float h
  · rw [h]; nofun
  · rw [h]; nofun

/-- What is asked of the answer: refused exactly when no rule applies, and the type the rule gives. -/
def Judged (o : Out (Ex F)) (l r : Int) (rule : Result → Prop) : Prop :=
  (o = .bad ↔ ¬∃ res, rule res) ∧ ∀ e, o = .ok e → ∃ res, rule res ∧ e.type = res.type l r

theorem judged_bad {l r : Int} {rule : Result → Prop} (h : ∀ res, ¬rule res) : Judged (.bad : Out (Ex F)) l r rule :=
  ⟨⟨fun _ ⟨res, k⟩ => h res k, fun _ => rfl⟩, nofun⟩

theorem judged_ok {o : Out (Ex F)} {l r : Int} {rule : Result → Prop} (res : Result) (h : rule res)
    (k : o ≠ .bad ∧ ∀ e, o = .ok e → e.type = res.type l r) : Judged o l r rule :=
  ⟨⟨fun e => absurd e k.1, fun n => absurd ⟨res, h⟩ n⟩, fun e he => ⟨res, h, k.2 e he⟩⟩

theorem judge_binary (D : Doubles F) {cells : List Int} (hlen : cells.length < 4611686018427387904) (hc : Clean cells) (l r : Ex F) {L R : Ty}
    (dl : Den cells l.type L) (dr : Den cells r.type R) (hl : Literal cells l) (hr : Literal cells r) (op : Binary) (ha : isAssignment op = false) :
    Judged (buildBinary D cells l r op) l.type r.type (Rule op L R (l.type = r.type)) := by
  unfold buildBinary
  rw [ha, if_neg (by decide)]
  unfold buildBinaryCase
  have fInt : ∀ res, res.type l.type r.type = foldType op → op ≠ .comma → L.bare ≠ .float → R.bare ≠ .float →
      Rule op L R (l.type = r.type) res → Judged (foldBinary D cells (foldType op) l r op) l.type r.type (Rule op L R (l.type = r.type)) := by
    intro res ht ho nl nr rule
    refine judged_ok res rule ?_
    rw [ht]
    exact foldBinary_int D hlen op ha ho l r hl (notDbl dl hl nl) (notDbl dr hr nr)
  have fFloat : ∀ res l' r', res.type l.type r.type = floatType op → floatOp op = true → l'.type = TYPE_FLOATING → Literal cells l' →
      r'.type = TYPE_FLOATING → Literal cells r' →
      Rule op L R (l.type = r.type) res → Judged (foldBinary D cells (floatType op) l' r' op) l.type r.type (Rule op L R (l.type = r.type)) := by
    intro res l' r' ht ho tl kl tr kr rule
    refine judged_ok res rule ?_
    obtain ⟨e, he, te⟩ := foldBinary_float D op ho l' r' tl kl tr kr
    rw [he, ht, ← te]
    exact ⟨nofun, by rintro _ ⟨⟩; rfl⟩
  obtain ⟨b1, e1, i1⟩ := says_integer hlen hc dl
  obtain ⟨b2, e2, i2⟩ := says_integer hlen hc dr
  obtain ⟨b3, e3, i3⟩ := says_arithmetic hlen hc dl
  obtain ⟨b4, e4, i4⟩ := says_arithmetic hlen hc dr
  obtain ⟨b5, e5, i5⟩ := says_scalar hlen hc dl
  obtain ⟨b6, e6, i6⟩ := says_scalar hlen hc dr
  obtain ⟨b7, e7, i7⟩ := says_pointer hlen dl
  obtain ⟨b8, e8, i8⟩ := says_pointer hlen dr
  have arith : ∀ {b b' : Bool}, (!b || !b') = true ↔ ¬(b = true ∧ b' = true) := by decide
  cases hg : group op <;> simp only [bind_eq, pure_eq, e1, e2, e3, e4, e5, e6, e7, e8, ask, Out.bind]
  case integral =>
    by_cases h : (!b1 || !b2) = true
    · rw [if_pos h]
      refine judged_bad fun res k => ?_
      rw [arith, i1, i2] at h
      cases op <;> first | (cases hg; done) | exact h ⟨k.1, k.2.1⟩
    · rw [if_neg h]
      rw [arith, i1, i2] at h
      have h := Classical.not_not.1 h
      have ht : foldType op = TYPE_INTEGER := by cases op <;> first | (cases hg; done) | rfl
      rw [← ht]
      refine fInt .int ht.symm ?_ (integral_not_float h.1) (integral_not_float h.2) ?_
      · rintro rfl; cases hg
      · cases op <;> first | (cases hg; done) | exact ⟨h.1, h.2, rfl⟩
  case arithmetic =>
    by_cases h : (!b3 || !b4) = true
    · rw [if_pos h]
      refine judged_bad fun res k => ?_
      rw [arith, i3, i4] at h
      cases op <;> first | (cases hg; done) | exact h ⟨k.1, k.2.1⟩
    · rw [if_neg h]
      rw [arith, i3, i4] at h
      have h := Classical.not_not.1 h
      rcases conversions D hlen dl dr hl hr h.1 h.2 with ⟨hn, l', r', ec, tl, tr, kl, kr⟩ | ⟨h1, h2, ec⟩ <;> rw [ec] <;> simp only
      · have ht : floatType op = TYPE_FLOATING := by cases op <;> first | (cases hg; done) | rfl
        rw [← ht]
        refine fFloat .float l' r' ht.symm ?_ tl kl tr kr ?_
        · cases op <;> first | (cases hg; done) | rfl
        · cases op <;> first | (cases hg; done) | exact ⟨h.1, h.2, Or.inr ⟨hn, rfl⟩⟩
      · have ht : foldType op = TYPE_INTEGER := by cases op <;> first | (cases hg; done) | rfl
        rw [← ht]
        refine fInt .int ht.symm ?_ (integral_not_float h1) (integral_not_float h2) ?_
        · rintro rfl; cases hg
        · cases op <;> first | (cases hg; done) | exact ⟨h.1, h.2, Or.inl ⟨h1, h2, rfl⟩⟩
  case relational =>
    by_cases h : (!b3 || !b4) = true
    · rw [if_pos h]
      refine judged_bad fun res k => ?_
      rw [arith, i3, i4] at h
      cases op <;> first | (cases hg; done) | exact h ⟨k.1, k.2.1⟩
    · rw [if_neg h]
      rw [arith, i3, i4] at h
      have h := Classical.not_not.1 h
      rcases conversions D hlen dl dr hl hr h.1 h.2 with ⟨hn, l', r', ec, tl, tr, kl, kr⟩ | ⟨h1, h2, ec⟩ <;> rw [ec] <;> simp only
      · have ht : floatType op = TYPE_BOOLEAN := by cases op <;> first | (cases hg; done) | rfl
        rw [← ht]
        refine fFloat .bool l' r' ht.symm ?_ tl kl tr kr ?_
        · cases op <;> first | (cases hg; done) | rfl
        · cases op <;> first | (cases hg; done) | exact ⟨h.1, h.2, rfl⟩
      · have ht : foldType op = TYPE_BOOLEAN := by cases op <;> first | (cases hg; done) | rfl
        rw [← ht]
        refine fInt .bool ht.symm ?_ (integral_not_float h1) (integral_not_float h2) ?_
        · rintro rfl; cases hg
        · cases op <;> first | (cases hg; done) | exact ⟨h.1, h.2, rfl⟩
  case equality =>
    have ht : foldType op = TYPE_BOOLEAN := by cases op <;> first | (cases hg; done) | rfl
    have ht' : floatType op = TYPE_BOOLEAN := by cases op <;> first | (cases hg; done) | rfl
    have rule : ∀ res, Rule op L R (l.type = r.type) res ↔
        (((L.Arithmetic ∧ R.Arithmetic) ∨ (L.Pointer ∧ R = .null) ∨ (L = .null ∧ R.Pointer) ∨ l.type = r.type) ∧ res = .bool) := by
      intro res
      cases op <;> first | (cases hg; done) | exact Iff.rfl
    by_cases h : (b3 && b4) = true
    · rw [if_pos h]
      rw [Bool.and_eq_true, i3, i4] at h
      rcases conversions D hlen dl dr hl hr h.1 h.2 with ⟨hn, l', r', ec, tl, tr, kl, kr⟩ | ⟨h1, h2, ec⟩ <;> rw [ec] <;> simp only
      · rw [← ht']
        refine fFloat .bool l' r' ht'.symm ?_ tl kl tr kr ((rule _).2 ⟨Or.inl h, rfl⟩)
        cases op <;> first | (cases hg; done) | rfl
      · rw [← ht]
        refine fInt .bool ht.symm ?_ (integral_not_float h1) (integral_not_float h2) ((rule _).2 ⟨Or.inl h, rfl⟩)
        rintro rfl; cases hg
    · rw [if_neg h]
      rw [Bool.and_eq_true, i3, i4] at h
      have hcond : ((b7 && isNull r.type || isNull l.type && b8 || decide (l.type = r.type)) = true) ↔
          ((L.Pointer ∧ R = .null) ∨ (L = .null ∧ R.Pointer) ∨ l.type = r.type) := by
        rw [Bool.or_eq_true, Bool.or_eq_true, Bool.and_eq_true, Bool.and_eq_true, i7, i8, isNull, isNull, decide_eq_true_iff, decide_eq_true_iff,
          decide_eq_true_iff, (builtin_den dl).2.2.2.2, (builtin_den dr).2.2.2.2, or_assoc]
      by_cases hk : (b7 && isNull r.type || isNull l.type && b8 || decide (l.type = r.type)) = true
      · rw [if_pos hk]
        rw [hcond] at hk
        rw [← ht]
        have hop : op ≠ .comma := by rintro rfl; cases hg
        have nf : L.bare ≠ .float ∧ R.bare ≠ .float := by
          rcases hk with ⟨⟨_, k1⟩, k2⟩ | ⟨k1, ⟨_, k2⟩⟩ | k
          · rw [k1, k2]; exact ⟨nofun, nofun⟩
          · rw [k1, k2]; exact ⟨nofun, nofun⟩
          · rw [k] at dl
            obtain ⟨b, q, i⟩ := says_floating hlen dl
            obtain ⟨b', q', i'⟩ := says_floating hlen dr
            have : b = b' := by rw [q] at q'; exact Option.some.inj q'
            subst this
            have e : L.bare = .float ↔ R.bare = .float := i.symm.trans i'
            refine ⟨fun k => h ⟨Or.inr k, Or.inr (e.1 k)⟩, fun k => h ⟨Or.inr (e.2 k), Or.inr k⟩⟩
        exact fInt .bool ht.symm hop nf.1 nf.2 ((rule _).2 ⟨Or.inr hk, rfl⟩)
      · rw [if_neg hk]
        rw [hcond] at hk
        refine judged_bad fun res k => ?_
        rcases ((rule _).1 k).1 with k | k
        · exact h k
        · exact hk k
  case logical =>
    by_cases h : (!b5 || !b6) = true
    · rw [if_pos h]
      refine judged_bad fun res k => ?_
      rw [arith, i5, i6] at h
      cases op <;> first | (cases hg; done) | exact h ⟨k.1, k.2.1⟩
    · rw [if_neg h]
      rw [arith, i5, i6] at h
      have h := Classical.not_not.1 h
      have ht : foldType op = TYPE_BOOLEAN := by cases op <;> first | (cases hg; done) | rfl
      rw [← ht]
      refine fInt .bool ht.symm ?_ (scalar_not_float h.1) (scalar_not_float h.2) ?_
      · rintro rfl; cases hg
      · cases op <;> first | (cases hg; done) | exact ⟨h.1, h.2, rfl⟩
  case comma =>
    have : op = .comma := by cases op <;> first | (cases hg; done) | rfl
    subst this
    refine judged_ok .right rfl ⟨nofun, ?_⟩
    rintro _ ⟨⟩
    rfl
  all_goals cases op <;> first | (cases hg; done) | (cases ha; done)

end RuC.Builder
