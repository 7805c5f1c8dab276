import Verif.Computer.Lemmas

/-! What the computer accepts is an expression. -/

namespace RuC.Computer
open RuC.Builder Spec

/-- The number of parentheses open. -/
def depth : List Tk → Nat
  | [] => 0
  | t :: ts => (if t = .lBound then 1 else 0) + depth ts

/-- What may come in a state: the number of open parentheses, and whether an operand was just read. -/
inductive Scan : Nat → Bool → List Input → Prop
  | done : Scan 0 true []
  | num {d v r} : Scan d true r → Scan d false (.num v :: r)
  | name {d r} : Scan d true r → Scan d false (.name :: r)
  | opened {d r} : Scan (d + 1) false r → Scan d false (.op .lBound :: r)
  | pre {d r} (op : Pre) : Scan d false r → Scan d false (.op op.tk :: r)
  | closed {d r} : Scan d true r → Scan (d + 1) true (.op .rBound :: r)
  | bin {d r} (op : Op) : Scan d false r → Scan d true (.op op.tk :: r)

theorem applyUnary_depth {err : Bool} {N : List Int} {O : List Tk} {v : Int} {st : St} (h : applyUnary err N O v = .ok st) :
    depth st.ops = depth O ∧ st.was = true ∧ st.err = err := by
  fun_induction applyUnary err N O v with
  | case1 ops v ih => have := ih h; simp [depth, this]
  | case2 ops v ih => have := ih h; simp [depth, this]
  | case3 ops v ih =>
    cases c : c64 (-v) <;> rw [c] at h <;> simp only [Out.bind] at h <;> try (cases h; done)
    have := ih _ h
    simp [depth, this]
  | case4 ops v ih => have := ih h; simp [depth, this]
  | case5 => cases h; exact ⟨rfl, rfl, rfl⟩

theorem pushOver_close {err : Bool} {O : List Tk} {N : List Int} {st : St} (h : pushOver .rBound err O N = .ok st) :
    depth O = depth st.ops + 1 ∧ st.was = true ∧ st.err = err := by
  induction O generalizing N with
  | nil => simp [pushOver] at h
  | cons p O ih =>
    rw [pushOver] at h
    by_cases hp : p = .lBound
    · rw [if_pos ⟨hp, rfl⟩] at h
      cases h
      simp only [depth, hp, if_true]
      exact ⟨by omega, trivial, trivial⟩
    · have : comparePriority p .rBound > 0 := by cases p <;> decide
      rw [if_neg (fun k => hp k.1), if_pos this] at h
      cases c : selectThree p N <;> rw [c] at h <;> simp only [Out.bind] at h <;> try (cases h; done)
      have := ih h
      simp only [depth, hp, if_false]
      exact ⟨by omega, this.2⟩

theorem pushOver_bin {tk : Tk} (h1 : tk ≠ .rBound) (h2 : tk ≠ .lBound) {err : Bool} {O : List Tk} {N : List Int} {st : St} (h : pushOver tk err O N = .ok st) :
    depth st.ops = depth O ∧ st.was = false ∧ st.err = err := by
  induction O generalizing N with
  | nil =>
    rw [pushOver, if_neg h1] at h
    cases h
    exact ⟨by simp [depth, h2], rfl, rfl⟩
  | cons p O ih =>
    rw [pushOver, if_neg (fun k => h1 k.2)] at h
    split at h
    case isTrue hc =>
      have hp : p ≠ .lBound := by
        rintro rfl
        revert hc
        rw [comparePriority, if_neg h1]
        decide
      cases c : selectThree p N <;> rw [c] at h <;> simp only [Out.bind] at h <;> try (cases h; done)
      have := ih h
      simp only [depth, hp, if_false]
      exact ⟨by omega, this.2⟩
    case isFalse hc =>
      split at h
      case isTrue hc =>
        have hp : p ≠ .lBound := by
          rintro rfl
          revert hc
          rw [comparePriority, if_neg h1]
          decide
        cases c : selectThree p N <;> rw [c] at h <;> simp only [Out.bind] at h <;> try (cases h; done)
        cases h
        simp [depth, hp, h2]
      case isFalse =>
        cases h
        simp [depth, h2]

theorem drain_depth {O : List Tk} {N : List Int} {v : Int} (h : drain O N = .ok v) : depth O = 0 := by
  induction O generalizing N with
  | nil => rfl
  | cons p O ih =>
    rw [drain] at h
    by_cases hp : p = .lBound
    · rw [if_pos hp] at h; cases h
    · rw [if_neg hp] at h
      cases c : selectThree p N <;> rw [c] at h <;> simp only [Out.bind] at h <;> try (cases h; done)
      simp only [depth, hp, if_false, ih h]

/-- An error reported is never forgotten. -/
theorem run_err {inp : List Input} {st st' : St} (h : run inp st = .ok st') (he : st.err = true) : st'.err = true := by
  induction inp generalizing st with
  | nil => cases h; exact he
  | cons x r ih =>
    cases x with
    | num v =>
      simp only [run, constNumber] at h
      by_cases hw : st.was = true
      · rw [if_pos hw] at h; cases h
      · rw [if_neg hw] at h
        cases c : applyUnary st.err st.nums st.ops v <;> rw [c] at h <;> simp only [Out.bind] at h <;> try (cases h; done)
        exact ih h ((applyUnary_depth c).2.2.trans he)
    | name =>
      simp only [run, constNumber] at h
      by_cases hw : st.was = true
      · rw [if_pos hw] at h; exact ih h rfl
      · rw [if_neg hw, if_neg hw] at h
        cases c : applyUnary st.err st.nums st.ops 0 <;> rw [c] at h <;> simp only [Out.bind] at h <;> try (cases h; done)
        exact ih h ((applyUnary_depth c).2.2.trans he)
    | op t =>
      simp only [run] at h
      cases c : pushToken t st <;> rw [c] at h <;> simp only [Out.bind] at h <;> try (cases h; done)
      refine ih h ?_
      unfold pushToken at c
      split at c
      · cases t <;> simp only [tokenWithout] at c <;> first | (cases c; done) | (cases c; exact he)
      · split at c
        · cases c
        · rename_i h3
          by_cases hr : t = .rBound
          · subst hr; exact (pushOver_close c).2.2.trans he
          · exact (pushOver_bin hr (fun k => h3 (Or.inr (Or.inr k))) c).2.2.trans he

/-- What is accepted can be scanned. -/
theorem run_scan {inp : List Input} {st st' : St} {v : Int} (hin : ∀ t, .op t ∈ inp → t ≠ .uNeg ∧ t ≠ .uPlus)
    (h : run inp st = .ok st') (hv : popResult st' = .ok v) (he : st'.err = false) : Scan (depth st.ops) st.was inp := by
  induction inp generalizing st with
  | nil =>
    cases h
    unfold popResult at hv
    split at hv
    · cases hv
    · split at hv
      · cases hv
      · rename_i hw
        rw [drain_depth hv, show st'.was = true by simpa using hw]
        exact .done
  | cons x r ih =>
    have hin' : ∀ t, .op t ∈ r → t ≠ .uNeg ∧ t ≠ .uPlus := fun t ht => hin t (List.mem_cons_of_mem _ ht)
    cases x with
    | num v =>
      simp only [run, constNumber] at h
      by_cases hw : st.was = true
      · rw [if_pos hw] at h; cases h
      · rw [if_neg hw] at h
        cases c : applyUnary st.err st.nums st.ops v <;> rw [c] at h <;> simp only [Out.bind] at h <;> try (cases h; done)
        have := ih hin' h
        rw [(applyUnary_depth c).1, (applyUnary_depth c).2.1] at this
        rw [show st.was = false by simpa using hw]
        exact .num this
    | name =>
      simp only [run, constNumber] at h
      by_cases hw : st.was = true
      · rw [if_pos hw] at h
        have := run_err h rfl
        rw [this] at he; cases he
      · rw [if_neg hw, if_neg hw] at h
        cases c : applyUnary st.err st.nums st.ops 0 <;> rw [c] at h <;> simp only [Out.bind] at h <;> try (cases h; done)
        have := ih hin' h
        rw [(applyUnary_depth c).1, (applyUnary_depth c).2.1] at this
        rw [show st.was = false by simpa using hw]
        exact .name this
    | op t =>
      simp only [run] at h
      cases c : pushToken t st <;> rw [c] at h <;> simp only [Out.bind] at h <;> try (cases h; done)
      have hs := ih hin' h
      unfold pushToken at c
      split at c
      case isTrue hw =>
        rw [hw]
        cases t <;> simp only [tokenWithout] at c <;> try (cases c; done)
        all_goals
          cases c
          simp only [depth, hw, reduceCtorEq, if_false, if_true, Nat.zero_add] at hs
        · rw [Nat.add_comm] at hs; exact .opened hs
        · exact .pre .compl hs
        · exact .pre .not hs
        · exact .pre .plus hs
        · exact .pre .minus hs
      case isFalse hw =>
        rw [show st.was = true by simpa using hw]
        split at c
        · cases c
        · rename_i h3
          by_cases hr : t = .rBound
          · subst hr
            have k := pushOver_close c
            rw [k.2.1] at hs
            rw [k.1]
            exact .closed hs
          · have k := pushOver_bin hr (fun k => h3 (Or.inr (Or.inr k))) c
            rw [k.1, k.2.1] at hs
            have hu := hin t (List.mem_cons_self ..)
            cases t
            case lBound => exact absurd (Or.inr (Or.inr rfl)) h3
            case rBound => exact absurd rfl hr
            case compl => exact absurd (Or.inl rfl) h3
            case not => exact absurd (Or.inr (Or.inl rfl)) h3
            case uNeg => exact absurd rfl hu.1
            case uPlus => exact absurd rfl hu.2
            case mult => exact .bin .mul hs
            case div => exact .bin .div hs
            case mod => exact .bin .rem hs
            case add => exact .bin .add hs
            case sub => exact .bin .sub hs
            case lShift => exact .bin .shl hs
            case rShift => exact .bin .shr hs
            case less => exact .bin .lt hs
            case greater => exact .bin .gt hs
            case lessEq => exact .bin .le hs
            case greaterEq => exact .bin .ge hs
            case eq => exact .bin .eq hs
            case notEq => exact .bin .ne hs
            case bitAnd => exact .bin .and hs
            case xor => exact .bin .xor hs
            case bitOr => exact .bin .or hs
            case and => exact .bin .logAnd hs
            case or => exact .bin .logOr hs

/-! From scanning to trees. -/

/-- An operand and an operator before an expression. -/
theorem insert_left (o : E) (ho : o.Wf) (hl : o.level ≤ 1) (op : Op) (e : E) (he : e.Wf) :
    ∃ e', E.Wf e' ∧ e'.level ≤ max op.level e.level ∧ e'.write = o.write ++ .op op.tk :: e.write := by
  have base : ∀ e : E, e.Wf → e.level < op.level → ∃ e', E.Wf e' ∧ e'.level ≤ max op.level e.level ∧ e'.write = o.write ++ .op op.tk :: e.write :=
    fun e he hlt => ⟨.bin op o e, ⟨ho, he, by have := level_pos op; omega, hlt⟩, Nat.le_max_left _ _, rfl⟩
  have hp := level_pos op
  induction e with
  | num v => exact base _ he (by simp only [E.level]; omega)
  | name => exact base _ he (by simp only [E.level]; omega)
  | paren e _ => exact base _ he (by simp only [E.level]; omega)
  | pre q e _ => exact base _ he (by simp only [E.level]; omega)
  | bin q l r ihl _ =>
    by_cases hq : op.level ≤ q.level
    · obtain ⟨w1, w2, w3, w4⟩ := he
      obtain ⟨e', h1, h2, h3⟩ := ihl w1
      refine ⟨.bin q e' r, ⟨h1, w2, ?_, w4⟩, Nat.le_max_right _ _, ?_⟩
      · exact Nat.le_trans h2 (Nat.max_le.2 ⟨hq, w3⟩)
      · simp only [E.write, h3, List.append_assoc, List.cons_append]
    · exact base _ he (by simp only [E.level]; omega)

theorem pre_tk (op : Pre) : op.tk ≠ .lBound ∧ op.tk ≠ .rBound := by cases op <;> decide

/-- An operand, and an expression up to the parenthesis that ends it. -/
theorem scan_tree (n : Nat) : ∀ inp : List Input, inp.length ≤ n →
    (∀ d, Scan d false inp → ∃ o r, E.Wf o ∧ o.level ≤ 1 ∧ inp = o.write ++ r ∧ Scan d true r ∧ r.length < inp.length) ∧
    (∀ d, Scan (d + 1) false inp → ∃ e r, E.Wf e ∧ inp = e.write ++ .op .rBound :: r ∧ Scan d true r ∧ r.length < inp.length) := by
  induction n with
  | zero =>
    intro inp h
    have : inp = [] := List.length_eq_zero_iff.1 (by omega)
    subst this
    exact ⟨fun d h => (by cases h), fun d h => (by cases h)⟩
  | succ n ih =>
    intro inp hlen
    have first : ∀ d, Scan d false inp → ∃ o r, E.Wf o ∧ o.level ≤ 1 ∧ inp = o.write ++ r ∧ Scan d true r ∧ r.length < inp.length := by
      intro d h
      cases h with
      | @num _ v r h => exact ⟨.num v, r, trivial, Nat.zero_le _, rfl, h, by simp⟩
      | @name _ r h => exact ⟨.name, r, trivial, Nat.zero_le _, rfl, h, by simp⟩
      | @opened _ r h =>
        simp only [List.length_cons] at hlen
        obtain ⟨e, r', h1, h2, h3, h4⟩ := (ih r (by omega)).2 d h
        refine ⟨.paren e, r', h1, Nat.zero_le _, ?_, h3, by simp only [List.length_cons]; omega⟩
        simp only [E.write, h2, List.cons_append, List.append_assoc, List.nil_append]
      | @pre _ r op h =>
        simp only [List.length_cons] at hlen
        obtain ⟨o, r', h1, h2, h3, h4, h5⟩ := (ih r (by omega)).1 d h
        exact ⟨.pre op o, r', ⟨h1, h2⟩, Nat.le_refl _, by simp only [E.write, h3, List.cons_append], h4, by simp only [List.length_cons]; omega⟩
    refine ⟨first, ?_⟩
    intro d h
    obtain ⟨o, r, h1, h2, h3, h4, h5⟩ := first (d + 1) h
    cases h4 with
    | @closed _ r' h => exact ⟨o, r', h1, h3, h, by simp only [List.length_cons] at h5; omega⟩
    | @bin _ r' op h =>
      simp only [List.length_cons] at h5
      obtain ⟨e, r'', g1, g2, g3, g4⟩ := (ih r' (by omega)).2 d h
      obtain ⟨e', k1, -, k3⟩ := insert_left o h1 h2 op e g1
      refine ⟨e', r'', k1, ?_, g3, by omega⟩
      rw [h3, k3, g2, List.append_assoc, List.cons_append]

theorem scan_whole (n : Nat) : ∀ inp : List Input, inp.length ≤ n → Scan 0 false inp → ∃ e, E.Wf e ∧ inp = e.write := by
  induction n with
  | zero =>
    intro inp h s
    have : inp = [] := List.length_eq_zero_iff.1 (by omega)
    subst this
    cases s
  | succ n ih =>
    intro inp hlen s
    obtain ⟨o, r, h1, h2, h3, h4, h5⟩ := (scan_tree inp.length inp (Nat.le_refl _)).1 0 s
    cases h4 with
    | done => exact ⟨o, h1, by rw [h3, List.append_nil]⟩
    | @bin _ r' op h =>
      simp only [List.length_cons] at h5
      obtain ⟨e, g1, g2⟩ := ih r' (by omega) h
      obtain ⟨e', k1, -, k3⟩ := insert_left o h1 h2 op e g1
      exact ⟨e', k1, by rw [h3, k3, g2]⟩

end RuC.Computer
