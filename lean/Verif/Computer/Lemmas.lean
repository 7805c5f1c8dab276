import Verif.Builder.Values
import Verif.Computer.Spec

/-! Helper lemmas for the computer. -/

namespace RuC.Computer
open RuC.Builder RuC.Builder.Spec RuC.Types Spec

/-! Sequencing. -/

theorem bind_assoc {α β γ : Type} (o : Out α) (f : α → Out β) (g : β → Out γ) :
    (o.bind f).bind g = o.bind fun a => (f a).bind g := by cases o <;> rfl

theorem bind_ok {α : Type} (o : Out α) : o.bind Out.ok = o := by cases o <;> rfl

theorem ok_bind {α β : Type} (a : α) (f : α → Out β) : (Out.ok a).bind f = f a := rfl

theorem run_append (a b : List Input) (st : St) : run (a ++ b) st = (run a st).bind (run b) := by
  induction a generalizing st with
  | nil => rfl
  | cons x xs ih =>
    cases x <;> simp only [List.cons_append, run]
    · rw [bind_assoc]; congr 1; funext s; exact ih s
    · split
      · exact ih _
      · rw [bind_assoc]; congr 1; funext s; exact ih s
    · rw [bind_assoc]; congr 1; funext s; exact ih s

/-! The operators, on numbers. -/

/-- An operator of two operands as the computer computes it. -/
def opOut (op : Op) (a b : Int) : Out Int := (selectThree op.tk [b, a]).bind fun nums => .ok (popNum nums).1

/-- An operator of one operand as the computer computes it. -/
def preOut (op : Pre) (a : Int) : Out Int :=
  match op with
  | .compl => .ok (-a - 1)
  | .not => .ok (if a ≠ 0 then 1 else 0)
  | .minus => c64 (-a)
  | .plus => .ok a

theorem select_op (op : Op) (a b : Int) (N : List Int) : selectThree op.tk (b :: a :: N) = (opOut op a b).bind fun v => .ok (v :: N) := by
  unfold opOut
  cases op <;> simp only [Op.tk, selectThree, popNum, ok_bind, bind_assoc] <;> rfl

/-- What the expression gives when every operator is computed. -/
def strict : E → Out Int
  | .num v => .ok v
  | .name => .ok 0
  | .paren e => strict e
  | .pre op e => (strict e).bind (preOut op)
  | .bin op l r => (strict l).bind fun a => (strict r).bind fun b => opOut op a b

theorem opOut_fold (op : Op) (a b : Int) :
    (foldInt op.binary a b : Out (Ex Unit)) =
      (opOut op a b).bind fun v => .ok (.lit (if isTruth op.binary then TYPE_BOOLEAN else TYPE_INTEGER) (.cell v)) := by
  unfold opOut
  cases op
  case mul => show _ = (((c64 _).bind _).bind _).bind _; rw [bind_assoc, bind_assoc]; rfl
  case div => show _ = (((cDiv _ _).bind _).bind _).bind _; rw [bind_assoc, bind_assoc]; rfl
  case rem => show _ = (((cRem _ _).bind _).bind _).bind _; rw [bind_assoc, bind_assoc]; rfl
  case add => show _ = (((c64 _).bind _).bind _).bind _; rw [bind_assoc, bind_assoc]; rfl
  case sub => show _ = (((c64 _).bind _).bind _).bind _; rw [bind_assoc, bind_assoc]; rfl
  case shl => show _ = (((cShl _ _).bind _).bind _).bind _; rw [bind_assoc, bind_assoc]; rfl
  case shr => show _ = (((cShr _ _).bind _).bind _).bind _; rw [bind_assoc, bind_assoc]; rfl
  case and => rfl
  case xor => rfl
  case or => rfl
  all_goals
    refine congrArg (fun x => Out.ok (Ex.lit TYPE_BOOLEAN (Val.cell x))) ?_
    simp only [popNum, decide_eq_true_eq]
    rfl

/-- The computer gives the value of an operator, or there is none. -/
theorem opOut_spec (op : Op) (a b : Int) :
    (∃ v, opOut op a b = .ok v ∧ Value op.binary a b v) ∨ (opOut op a b = .ub ∧ ∀ v, ¬Value op.binary a b v) := by
  have h := foldInt_folded (F := Unit) op.binary (by cases op <;> rfl) (by cases op <;> exact fun h => by cases h) a b
  rw [opOut_fold] at h
  rcases h with ⟨x, hx, e⟩ | ⟨e, hx⟩
  · left
    cases o : opOut op a b <;> rw [o] at e <;> simp only [Out.bind] at e <;> try (cases e; done)
    injection e with e; injection e with _ e; injection e with e
    subst e
    exact ⟨_, rfl, hx⟩
  · right
    refine ⟨?_, hx⟩
    cases o : opOut op a b <;> rw [o] at e <;> simp only [Out.bind] at e <;> first | rfl | (cases e; done)

theorem preOut_spec (op : Pre) (hop : op ≠ .not) (a : Int) (h : Fits a) :
    (∃ v, preOut op a = .ok v ∧ op.Value a v) ∨ (preOut op a = .ub ∧ ∀ v, ¬op.Value a v) := by
  cases op
  · left
    refine ⟨_, rfl, ?_, fun i _ => bit_not a i⟩
    rw [fits_iff] at h ⊢; omega
  · exact absurd rfl hop
  · simp only [preOut, Pre.Value, UValue]
    by_cases k : Fits (-a)
    · left; exact ⟨-a, c64_ok k, by omega, k⟩
    · right; refine ⟨c64_ub k, ?_⟩
      rintro v ⟨e, f⟩
      exact k (by rwa [show -a = v by omega])
  · left; exact ⟨a, rfl, rfl⟩

theorem truth_fits {p : Prop} {v : Int} (h : Truth p v) : Fits v := by
  rcases h with ⟨-, rfl⟩ | ⟨-, rfl⟩ <;> rw [fits_iff] <;> omega

theorem value_fits {op : Op} {a b v : Int} (ha : Fits a) (hb : Fits b) (h : Value op.binary a b v) : Fits v := by
  cases op <;> simp only [Op.binary, Value] at h <;> try first | exact truth_fits h | exact h.1 | exact h.2
  · obtain ⟨r, -, h⟩ := h; exact h
  · obtain ⟨q, ⟨-, h, -⟩, -⟩ := h
    rw [fits_iff] at hb ⊢
    omega
  · obtain ⟨-, n, -, -, -, h⟩ := h; exact h
  · obtain ⟨n, -, -, h1, h2⟩ := h
    rw [fits_iff] at ha ⊢
    have hp : (1 : Int) ≤ 2 ^ n := Int.pow_pos (by decide)
    generalize (2 : Int) ^ n = p at hp h1 h2
    constructor
    · apply Int.not_lt.1; intro k
      have : (v + 1) * p ≤ (v + 1) * 1 := Int.mul_le_mul_of_nonpos_left (by omega) hp
      omega
    · apply Int.not_lt.1; intro k
      have : v * 1 ≤ v * p := Int.mul_le_mul_of_nonneg_left hp (by omega)
      omega

theorem pre_fits {op : Pre} {a v : Int} (ha : Fits a) (h : op.Value a v) : Fits v := by
  cases op <;> simp only [Pre.Value, UValue] at h
  · exact h.1
  · exact truth_fits h
  · exact h.2
  · exact h ▸ ha

theorem preValue_unique {op : Pre} {a v w : Int} (h : op.Value a v) (h' : op.Value a w) : v = w := by
  cases op
  · exact uvalue_unique .not _ _ _ h h'
  · exact uvalue_unique .logNot _ _ _ h h'
  · exact uvalue_unique .minus _ _ _ h h'
  · exact h.trans h'.symm

theorem means_fits {e : E} {v : Int} (h : Means e v) : Fits v := by
  induction h with
  | num h => exact h
  | name => rw [fits_iff]; omega
  | paren _ ih => exact ih
  | pre _ k ih => exact pre_fits ih k
  | bin _ _ k ihl ihr => exact value_fits ihl ihr k
  | andShort => rw [fits_iff]; omega
  | orShort => rw [fits_iff]; omega

theorem means_unique {e : E} {v w : Int} (h : Means e v) (h' : Means e w) : v = w := by
  induction h generalizing w with
  | num _ => cases h'; rfl
  | name => cases h'; rfl
  | paren _ ih => cases h' with | paren h => exact ih h
  | pre _ k ih =>
    cases h' with
    | pre g kk => have := ih g; subst this; exact preValue_unique k kk
  | bin _ _ k ihl ihr =>
    cases h' with
    | bin g1 g2 kk =>
      have e1 := ihl g1
      have e2 := ihr g2
      subst e1 e2
      exact value_unique _ _ _ _ _ k kk
    | andShort g =>
      have e1 := ihl g
      subst e1
      rcases k with ⟨⟨k, -⟩, -⟩ | ⟨-, k⟩
      · exact absurd rfl k
      · exact k
    | orShort g hn =>
      have e1 := ihl g
      subst e1
      rcases k with ⟨-, k⟩ | ⟨k, -⟩
      · exact k
      · exact absurd (Or.inl hn) k
  | andShort _ ih =>
    cases h' with
    | bin g1 g2 kk =>
      have e1 := ih g1
      subst e1
      rcases kk with ⟨⟨k, -⟩, -⟩ | ⟨-, k⟩
      · exact absurd rfl k
      · exact k.symm
    | andShort _ => rfl
  | orShort _ hn ih =>
    cases h' with
    | bin g1 g2 kk =>
      have e1 := ih g1
      subst e1
      rcases kk with ⟨-, k⟩ | ⟨k, -⟩
      · exact k.symm
      · exact absurd (Or.inl hn) k
    | orShort _ _ => rfl

/-- Without `!`, computing every operator gives the value, or some part has none. -/
theorem strict_spec (e : E) (hp : e.Plain) (hw : ∀ v, .num v ∈ e.write → Fits v) :
    (∃ v, strict e = .ok v ∧ e.Defined ∧ Means e v) ∨ (strict e = .ub ∧ ¬e.Defined) := by
  induction e with
  | num v =>
    have h : Fits v := hw v (by simp [E.write])
    exact Or.inl ⟨v, rfl, h, .num h⟩
  | name => exact Or.inl ⟨0, rfl, trivial, .name⟩
  | paren e ih =>
    rcases ih hp (fun v h => hw v (by simp [E.write, h])) with ⟨v, h1, h2, h3⟩ | ⟨h1, h2⟩
    · exact Or.inl ⟨v, h1, h2, .paren h3⟩
    · exact Or.inr ⟨h1, h2⟩
  | pre op e ih =>
    rcases ih hp.2.2 (fun v h => hw v (by simp [E.write, h])) with ⟨a, h1, h2, h3⟩ | ⟨h1, h2⟩
    · simp only [strict, h1, ok_bind, E.Defined]
      rcases preOut_spec op hp.1 a (means_fits h3) with ⟨v, g1, g2⟩ | ⟨g1, g2⟩
      · exact Or.inl ⟨v, g1, ⟨h2, v, .pre h3 g2⟩, .pre h3 g2⟩
      · refine Or.inr ⟨g1, ?_⟩
        rintro ⟨-, v, m⟩
        cases m with
        | pre m k =>
          have := means_unique m h3
          subst this
          exact g2 _ k
    · refine Or.inr ⟨by simp only [strict, h1]; rfl, ?_⟩
      rintro ⟨h, -⟩; exact h2 h
  | bin op l r ihl ihr =>
    rcases ihl hp.1 (fun v h => hw v (by simp [E.write, h])) with ⟨a, h1, h2, h3⟩ | ⟨h1, h2⟩
    · rcases ihr hp.2 (fun v h => hw v (by simp [E.write, h])) with ⟨b, g1, g2, g3⟩ | ⟨g1, g2⟩
      · simp only [strict, h1, g1, ok_bind, E.Defined]
        rcases opOut_spec op a b with ⟨v, k1, k2⟩ | ⟨k1, k2⟩
        · exact Or.inl ⟨v, k1, ⟨h2, g2, v, .bin h3 g3 k2⟩, .bin h3 g3 k2⟩
        · refine Or.inr ⟨k1, ?_⟩
          rintro ⟨-, -, v, m⟩
          cases m with
          | bin m1 m2 k =>
            have e1 := means_unique m1 h3
            have e2 := means_unique m2 g3
            subst e1 e2
            exact k2 _ k
          | andShort m =>
            have e1 := means_unique m h3
            subst e1
            exact k2 0 (Or.inr ⟨fun h => h.1 rfl, rfl⟩)
          | orShort m hn =>
            have e1 := means_unique m h3
            subst e1
            exact k2 1 (Or.inl ⟨Or.inl hn, rfl⟩)
      · refine Or.inr ⟨by simp only [strict, h1, g1]; rfl, ?_⟩
        rintro ⟨-, h, -⟩; exact g2 h
    · refine Or.inr ⟨by simp only [strict, h1]; rfl, ?_⟩
      rintro ⟨h, -⟩; exact h2 h

/-! The stacks. -/

/-- Something of this level may be read over these operators: they are weaker. -/
def Under : List Tk → Nat → Prop
  | [], _ => True
  | t :: _, n => t = .lBound ∨ ∃ op : Op, t = op.tk ∧ n < op.level

theorem Under.mono {O : List Tk} {n m : Nat} (h : Under O n) (hm : m ≤ n) : Under O m := by
  cases O with
  | nil => trivial
  | cons t O =>
    rcases h with h | ⟨op, h, k⟩
    · exact Or.inl h
    · exact Or.inr ⟨op, h, by omega⟩

theorem level_pos (op : Op) : 3 ≤ op.level := by cases op <;> decide

theorem compare_gt (a b : Op) (h : a.level < b.level) : comparePriority a.tk b.tk > 0 := by
  revert h; cases a <;> cases b <;> decide

theorem compare_eq (a b : Op) (h : a.level = b.level) : comparePriority a.tk b.tk = 0 := by
  revert h; cases a <;> cases b <;> decide

theorem compare_lt (a b : Op) (h : b.level < a.level) : comparePriority a.tk b.tk = -1 := by
  revert h; cases a <;> cases b <;> decide

theorem tk_ne (op : Op) : op.tk ≠ .rBound ∧ op.tk ≠ .lBound ∧ op.tk ≠ .compl ∧ op.tk ≠ .not ∧ op.tk ≠ .uNeg ∧ op.tk ≠ .uPlus := by
  cases op <;> decide

/-- An operator over weaker ones is pushed. -/
theorem pushOver_under (op : Op) (err : Bool) (O : List Tk) (N : List Int) (h : Under O op.level) :
    pushOver op.tk err O N = .ok ⟨N, op.tk :: O, false, err⟩ := by
  cases O with
  | nil => rw [pushOver, if_neg (tk_ne op).1]
  | cons t O =>
    rw [pushOver, if_neg (fun k => (tk_ne op).1 k.2)]
    rcases h with rfl | ⟨o, rfl, h⟩
    · have : comparePriority .lBound op.tk = -1 := by cases op <;> rfl
      rw [this]; rfl
    · rw [compare_lt o op h]; rfl

/-- What comes after something of this level cannot see whether the operators in it are computed already. -/
def Good {α : Type} (n : Nat) (err : Bool) (k : St → Out α) : Prop :=
  ∀ (op : Op) (a b : Int) (N : List Int) (O : List Tk), op.level ≤ n → Under O op.level →
    k ⟨b :: a :: N, op.tk :: O, true, err⟩ = (opOut op a b).bind fun v => k ⟨v :: N, O, true, err⟩

theorem Good.mono {α : Type} {n m : Nat} {err : Bool} {k : St → Out α} (h : Good n err k) (hm : m ≤ n) : Good m err k :=
  fun op a b N O ho => h op a b N O (by omega)

theorem good_push {α : Type} (t : Op) (err : Bool) (f : St → Out α) : Good t.level err fun st => (pushToken t.tk st).bind f := by
  intro op a b N O ho hu
  have hn : ∀ (x : List Int) (y : List Tk), pushToken t.tk ⟨x, y, true, err⟩ = pushOver t.tk err y x := by
    intro x y
    unfold pushToken
    rw [if_neg (by simp), if_neg]
    obtain ⟨-, a, b, c, -⟩ := tk_ne t
    rintro (h | h | h) <;> contradiction
  simp only [hn]
  rw [pushOver, if_neg (fun k => (tk_ne t).1 k.2), select_op]
  by_cases hl : op.level < t.level
  · rw [if_pos (compare_gt op t hl)]
    simp only [bind_assoc, ok_bind]
  · have he : op.level = t.level := by omega
    rw [compare_eq op t he, if_neg (by decide), if_pos rfl]
    simp only [bind_assoc, ok_bind]
    congr 1; funext v
    rw [pushOver_under t err O _ (he ▸ hu), ok_bind]

theorem good_close {α : Type} (n : Nat) (err : Bool) (f : St → Out α) : Good n err fun st => (pushToken .rBound st).bind f := by
  intro op a b N O _ _
  have hn : ∀ (x : List Int) (y : List Tk), pushToken .rBound ⟨x, y, true, err⟩ = pushOver .rBound err y x := by
    intro x y
    unfold pushToken
    rw [if_neg (by simp), if_neg (by decide)]
  simp only [hn]
  rw [pushOver, if_neg (fun k => (tk_ne op).2.1 k.1), select_op, if_pos]
  · simp only [bind_assoc, ok_bind]
  · cases op <;> decide

theorem good_end (n : Nat) : Good n false fun st => (popResult st).bind fun v => if st.err then .bad else .ok v := by
  intro op a b N O _ _
  simp only [popResult]
  rw [if_neg (by simp), if_neg (by simp), drain, if_neg (tk_ne op).2.1, select_op]
  simp only [bind_assoc, ok_bind]
  rfl

/-! Operators of one operand. -/

/-- How an operator of one operand is kept on the stack. -/
def stacked : Pre → Tk
  | .compl => .compl | .not => .not | .minus => .uNeg | .plus => .uPlus

theorem push_pre (op : Pre) (N : List Int) (O : List Tk) (err : Bool) :
    pushToken op.tk ⟨N, O, false, err⟩ = .ok ⟨N, stacked op :: O, false, err⟩ := by
  cases op <;> rfl

theorem apply_pre (op : Pre) (err : Bool) (N : List Int) (O : List Tk) (v : Int) :
    applyUnary err N (stacked op :: O) v = (preOut op v).bind fun w => applyUnary err N O w := by
  cases op <;> rfl

theorem apply_none (err : Bool) (N : List Int) (O : List Tk) (n : Nat) (h : Under O n) (v : Int) :
    applyUnary err N O v = .ok ⟨v :: N, O, true, err⟩ := by
  cases O with
  | nil => rfl
  | cons t O =>
    rcases h with rfl | ⟨op, rfl, -⟩
    · rfl
    · cases op <;> rfl

/-- A number with operators before it, over any stack. -/
theorem run_prefixed (e : E) (hw : e.Wf) (hp : e.Plain) (hl : e.level ≤ 1) (hn : e.isParen = false) (N : List Int) (O : List Tk) (err : Bool) :
    run e.write ⟨N, O, false, err⟩ = (strict e).bind fun v => applyUnary err N O v := by
  induction e generalizing O with
  | num v => simp only [E.write, run, constNumber, strict, ok_bind, Bool.false_eq_true, if_false]; exact bind_ok _
  | name => simp only [E.write, run, constNumber, strict, ok_bind, Bool.false_eq_true, if_false]; exact bind_ok _
  | paren e _ => simp [E.isParen] at hn
  | bin op l r _ _ => have := level_pos op; simp only [E.level] at hl; omega
  | pre op e ih =>
    simp only [E.write, run, push_pre, ok_bind]
    rw [ih hw.1 hp.2.2 hw.2 hp.2.1]
    simp only [strict, bind_assoc]
    congr 1; funext v
    exact apply_pre op err N O v

/-- Reading an expression has the effect of reading its value, for what comes after. -/
theorem run_write {α : Type} (e : E) (hw : e.Wf) (hp : e.Plain) (N : List Int) (O : List Tk) (err : Bool) (k : St → Out α)
    (hu : Under O e.level) (hk : Good e.level err k) :
    (run e.write ⟨N, O, false, err⟩).bind k = (strict e).bind fun v => k ⟨v :: N, O, true, err⟩ := by
  induction e generalizing N O α with
  | num v =>
    rw [run_prefixed _ hw hp (by simp [E.level]) rfl, bind_assoc]
    simp only [apply_none err N O _ hu, ok_bind]
  | name =>
    rw [run_prefixed _ hw hp (by simp [E.level]) rfl, bind_assoc]
    simp only [apply_none err N O _ hu, ok_bind]
  | pre op e _ =>
    rw [run_prefixed _ hw hp (by simp [E.level]) rfl, bind_assoc]
    simp only [apply_none err N O _ hu, ok_bind]
  | paren e ih =>
    have h1 : pushToken .lBound ⟨N, O, false, err⟩ = .ok ⟨N, .lBound :: O, false, err⟩ := rfl
    simp only [E.write, run, h1, ok_bind, run_append, bind_assoc]
    rw [ih hw hp N (.lBound :: O) _ (Or.inl rfl) (good_close _ err _)]
    simp only [strict]
    congr 1
  | bin op l r ihl ihr =>
    obtain ⟨w1, w2, w3, w4⟩ := hw
    simp only [E.write, run, run_append, bind_assoc]
    rw [ihl w1 hp.1 N O _ (hu.mono w3) ((good_push op err _).mono w3)]
    simp only [strict, bind_assoc]
    congr 1; funext a
    have h1 : pushToken op.tk ⟨a :: N, O, true, err⟩ = .ok ⟨a :: N, op.tk :: O, false, err⟩ := by
      unfold pushToken
      obtain ⟨-, x, y, z, -⟩ := tk_ne op
      rw [if_neg (by simp), if_neg (by rintro (h | h | h) <;> contradiction)]
      exact pushOver_under op err O _ hu
    rw [h1, ok_bind]
    rw [ihr w2 hp.2 (a :: N) (op.tk :: O) _ (Or.inr ⟨op, rfl, w4⟩) (hk.mono (Nat.le_of_lt w4))]
    congr 1; funext b
    exact hk op a b N O (Nat.le_refl _) hu

theorem evaluate_write (e : E) (hw : e.Wf) (hp : e.Plain) : evaluate e.write = strict e := by
  unfold evaluate St.new
  rw [run_write e hw hp [] [] false _ trivial (good_end _)]
  simp only [popResult, drain, popNum]
  cases strict e <;> rfl

end RuC.Computer
