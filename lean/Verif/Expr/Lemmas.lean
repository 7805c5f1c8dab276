import Verif.Expr.Spec

/-! Lemmas about the expression parser: more fuel changes nothing, and there is always enough. -/

namespace RuC.Expr
open RuC RuC.Lexer

/-- The same result, unless the first one ran out of fuel. -/
def Res.le {α : Type} (a b : Res α) : Prop := a = .loop ∨ a = b

theorem Res.le_refl {α : Type} (a : Res α) : a.le a := Or.inr rfl

theorem Res.le_bind {α β : Type} {a b : Res α} {f g : α → List Tok → Res β} (h : a.le b) (hf : ∀ x s, (f x s).le (g x s)) :
    (a.bind f).le (b.bind g) := by
  rcases h with h | h
  · subst h; exact Or.inl rfl
  · subst h
    cases a with
    | ok x s => exact hf x s
    | error => exact Or.inr rfl
    | loop => exact Or.inr rfl

theorem Res.le_ite {α : Type} {p : Prop} [Decidable p] {a b c d : Res α} (h₁ : a.le c) (h₂ : b.le d) :
    (if p then a else b).le (if p then c else d) := by
  split <;> assumption

/-- More fuel changes nothing. -/
theorem mono_step (n : Nat) :
    (∀ s, (primary n s).le (primary (n + 1) s)) ∧
    (∀ s, (initializerList n s).le (initializerList (n + 1) s)) ∧
    (∀ e s, (postfixLoop n e s).le (postfixLoop (n + 1) e s)) ∧
    (∀ s, (unary n s).le (unary (n + 1) s)) ∧
    (∀ e m s, (rhs n e m s).le (rhs (n + 1) e m s)) ∧
    (∀ s, (assignment n s).le (assignment (n + 1) s)) ∧
    (∀ s, (expression n s).le (expression (n + 1) s)) ∧
    (∀ s, (initializer n s).le (initializer (n + 1) s)) := by
  induction n with
  | zero =>
    refine ⟨?_, ?_, ?_, ?_, ?_, ?_, ?_, ?_⟩ <;> intros <;> exact Or.inl (by simp [primary, initializerList, postfixLoop, unary, rhs, assignment, expression, initializer])
  | succ n ih =>
    obtain ⟨i1, i2, i3, i4, i5, i6, i7, i8⟩ := ih
    refine ⟨?_, ?_, ?_, ?_, ?_, ?_, ?_, ?_⟩
    · intro s
      rw [primary, primary]
      split <;> first
        | exact Res.le_refl _
        | exact Res.le_bind (i7 _) fun _ _ => Res.le_refl _
    · intro s
      rw [initializerList, initializerList]
      exact Res.le_bind (i8 _) fun e s => Res.le_ite (Res.le_bind (i2 _) fun _ _ => Res.le_refl _) (Res.le_refl _)
    · intro e s
      rw [postfixLoop, postfixLoop]
      split
      · exact Res.le_bind (i7 _) fun _ _ => Res.le_ite (i3 _ _) (Res.le_refl _)
      · exact Res.le_ite (i3 _ _) (Res.le_bind (i2 _) fun _ _ => Res.le_ite (i3 _ _) (Res.le_refl _))
      · split
        · exact i3 _ _
        · exact Res.le_refl _
      · split
        · exact i3 _ _
        · exact Res.le_refl _
      · exact i3 _ _
      · exact i3 _ _
      · exact Res.le_refl _
    · intro s
      rw [unary, unary]
      split
      · exact Res.le_bind (i4 _) fun _ _ => Res.le_refl _
      · exact Res.le_bind (i1 _) fun _ _ => i3 _ _
    · intro e m s
      rw [rhs, rhs]
      have op : ∀ k s', Res.le (operand (initializer n) (unary n) (rhs n) k s') (operand (initializer (n + 1)) (unary (n + 1)) (rhs (n + 1)) k s') :=
        fun k s' => Res.le_bind (Res.le_ite (i8 _) (i4 _)) fun _ _ => Res.le_ite (i5 _ _ _) (Res.le_refl _)
      refine Res.le_ite (Res.le_ite (Res.le_bind (op _ _) fun _ _ => i5 _ _ _) (Res.le_bind (i8 _) fun _ _ => Res.le_ite (Res.le_bind (op _ _) fun _ _ => i5 _ _ _) (Res.le_refl _))) (Res.le_refl _)
    · intro s
      rw [assignment, assignment]
      exact Res.le_bind (i4 _) fun _ _ => i5 _ _ _
    · intro s
      rw [expression, expression]
      exact Res.le_bind (i6 _) fun _ _ => i5 _ _ _
    · intro s
      rw [initializer, initializer]
      exact Res.le_ite (Res.le_ite (Res.le_refl _) (Res.le_bind (i2 _) fun _ _ => Res.le_refl _)) (i6 _)

/-- A function of the fuel whose result stays once it is there. -/
def Mono {α : Type} (f : Nat → Res α) : Prop := ∀ n, (f n).le (f (n + 1))

theorem Mono.le {α : Type} {f : Nat → Res α} (h : Mono f) {n m : Nat} (hnm : n ≤ m) : (f n).le (f m) := by
  induction hnm with
  | refl => exact Res.le_refl _
  | step _ ih =>
    rcases ih with ih | ih
    · exact Or.inl ih
    · rw [ih]; exact h _

/-- The results for two amounts of fuel agree when both are there. -/
theorem Mono.agree {α : Type} {f : Nat → Res α} (h : Mono f) {n m : Nat} (hn : f n ≠ .loop) (hm : f m ≠ .loop) : f n = f m := by
  rcases Nat.le_total n m with l | l
  · rcases h.le l with e | e
    · exact absurd e hn
    · exact e
  · rcases h.le l with e | e
    · exact absurd e hm
    · exact e.symm

theorem mono_primary (s) : Mono fun n => primary n s := fun n => (mono_step n).1 s
theorem mono_initializerList (s) : Mono fun n => initializerList n s := fun n => (mono_step n).2.1 s
theorem mono_postfixLoop (e s) : Mono fun n => postfixLoop n e s := fun n => (mono_step n).2.2.1 e s
theorem mono_unary (s) : Mono fun n => unary n s := fun n => (mono_step n).2.2.2.1 s
theorem mono_rhs (e m s) : Mono fun n => rhs n e m s := fun n => (mono_step n).2.2.2.2.1 e m s
theorem mono_assignment (s) : Mono fun n => assignment n s := fun n => (mono_step n).2.2.2.2.2.1 s
theorem mono_expression (s) : Mono fun n => expression n s := fun n => (mono_step n).2.2.2.2.2.2.1 s
theorem mono_initializer (s) : Mono fun n => initializer n s := fun n => (mono_step n).2.2.2.2.2.2.2 s

/-! ## The fuel is enough -/

/-- Not out of fuel, and what is left is not longer than `k`. -/
structure Res.good {α : Type} (a : Res α) (k : Nat) : Prop where
  ends : a ≠ .loop
  shorter : ∀ x t, a = .ok x t → t.length ≤ k

theorem Res.good_ok {α : Type} {x : α} {t : List Tok} {k : Nat} (h : t.length ≤ k) : (Res.ok x t).good k :=
  ⟨(by intro e; cases e), fun _ _ e => by cases e; exact h⟩

theorem Res.good_error {α : Type} {k : Nat} : (Res.error : Res α).good k := ⟨(by intro e; cases e), fun _ _ e => by cases e⟩

theorem Res.good_bind {α β : Type} {a : Res α} {f : α → List Tok → Res β} {j k : Nat} (h : a.good j) (hf : ∀ x t, t.length ≤ j → (f x t).good k) :
    (a.bind f).good k := by
  cases a with
  | ok x t => exact hf x t (h.2 x t rfl)
  | error => exact Res.good_error
  | loop => exact absurd rfl h.1

theorem Res.good_ite {α : Type} {p : Prop} [Decidable p] {a b : Res α} {k : Nat} (h₁ : p → a.good k) (h₂ : ¬p → b.good k) :
    (if p then a else b).good k := by
  split
  · next h => exact h₁ h
  · next h => exact h₂ h

theorem Res.good.good_mono {α : Type} {a : Res α} {j k : Nat} (h : a.good j) (hjk : j ≤ k) : a.good k :=
  ⟨h.1, fun x t e => Nat.le_trans (h.2 x t e) hjk⟩

theorem cur_ne_eof {s : List Tok} (h : cur s ≠ .eof) : s.tail.length + 1 = s.length := by
  cases s with
  | nil => exact absurd rfl h
  | cons a s => simp

theorem prec_ne_eof {s : List Tok} (h : 1 ≤ prec (cur s)) : s.tail.length + 1 = s.length := by
  apply cur_ne_eof
  intro e
  rw [e] at h
  simp [prec] at h

theorem fuel_enough (n : Nat) :
    (∀ s, 8 * s.length + 1 ≤ n → (primary n s).good s.length ∧ (primary n s).good (s.length - 1)) ∧
    (∀ s, 8 * s.length + 5 ≤ n → (initializerList n s).good s.length) ∧
    (∀ e s, 8 * s.length + 1 ≤ n → (postfixLoop n e s).good s.length) ∧
    (∀ s, 8 * s.length + 2 ≤ n → (unary n s).good s.length) ∧
    (∀ e m s, 1 ≤ m → 8 * s.length + 1 ≤ n → (rhs n e m s).good s.length) ∧
    (∀ s, 8 * s.length + 3 ≤ n → (assignment n s).good s.length) ∧
    (∀ s, 8 * s.length + 4 ≤ n → (expression n s).good s.length) ∧
    (∀ s, 8 * s.length + 4 ≤ n → (initializer n s).good s.length) := by
  induction n with
  | zero => refine ⟨?_, ?_, ?_, ?_, ?_, ?_, ?_, ?_⟩ <;> intros <;> omega
  | succ n ih =>
    obtain ⟨i1, i2, i3, i4, i5, i6, i7, i8⟩ := ih
    refine ⟨?_, ?_, ?_, ?_, ?_, ?_, ?_, ?_⟩
    · intro s hn
      have key : (primary (n + 1) s).good (s.length - 1) := by
        rw [primary]
        have ht : s.tail.length = s.length - 1 := by simp
        split
        case h_7 e =>
          have := cur_ne_eof (s := s) (by rw [e]; intro h; cases h)
          refine Res.good_bind (i7 s.tail (by omega)) fun x t ht => Res.good_ite (fun _ => Res.good_ok ?_) (fun _ => Res.good_error)
          simp; omega
        all_goals first
          | exact Res.good_ok (by omega)
          | exact Res.good_error
          | exact Res.good_ite (fun _ => Res.good_ok (by omega)) fun _ => Res.good_ite (fun _ => Res.good_ok (by omega)) fun _ => Res.good_ite (fun _ => Res.good_ok (by omega)) fun _ => Res.good_error
      exact ⟨key.good_mono (by omega), key⟩
    · intro s hn
      rw [initializerList]
      refine Res.good_bind (i8 s (by omega)) fun x t ht => Res.good_ite (fun e => ?_) (fun _ => Res.good_ok ht)
      have := cur_ne_eof (s := t) (by rw [e]; intro h; cases h)
      exact Res.good_bind (i2 t.tail (by omega)) fun x u hu => Res.good_ok (by omega)
    · intro e s hn
      rw [postfixLoop]
      split
      case h_1 hc =>
        have := cur_ne_eof (s := s) (by rw [hc]; intro h; cases h)
        refine Res.good_bind (i7 s.tail (by omega)) fun x t ht => Res.good_ite (fun e => ?_) (fun _ => Res.good_error)
        have := cur_ne_eof (s := t) (by rw [e]; intro h; cases h)
        exact (i3 _ t.tail (by omega)).good_mono (by omega)
      case h_2 hc =>
        have := cur_ne_eof (s := s) (by rw [hc]; intro h; cases h)
        refine Res.good_ite (fun e => ?_) (fun _ => ?_)
        · have := cur_ne_eof (s := s.tail) (by rw [e]; intro h; cases h)
          exact (i3 _ s.tail.tail (by omega)).good_mono (by omega)
        · refine Res.good_bind (i2 s.tail (by omega)) fun x t ht => Res.good_ite (fun e => ?_) (fun _ => Res.good_error)
          have := cur_ne_eof (s := t) (by rw [e]; intro h; cases h)
          exact (i3 _ t.tail (by omega)).good_mono (by omega)
      case h_3 hc =>
        have := cur_ne_eof (s := s) (by rw [hc]; intro h; cases h)
        split
        · next e =>
          have := cur_ne_eof (s := s.tail) (by rw [e]; intro h; cases h)
          exact (i3 _ s.tail.tail (by omega)).good_mono (by omega)
        · exact Res.good_error
      case h_4 hc =>
        have := cur_ne_eof (s := s) (by rw [hc]; intro h; cases h)
        split
        · next e =>
          have := cur_ne_eof (s := s.tail) (by rw [e]; intro h; cases h)
          exact (i3 _ s.tail.tail (by omega)).good_mono (by omega)
        · exact Res.good_error
      case h_5 hc =>
        have := cur_ne_eof (s := s) (by rw [hc]; intro h; cases h)
        exact (i3 _ s.tail (by omega)).good_mono (by omega)
      case h_6 hc =>
        have := cur_ne_eof (s := s) (by rw [hc]; intro h; cases h)
        exact (i3 _ s.tail (by omega)).good_mono (by omega)
      · exact Res.good_ok (Nat.le_refl _)
    · intro s hn
      rw [unary]
      split
      · next e =>
        have := cur_ne_eof (s := s) (by intro h; rw [h] at e; simp [prefixOp] at e)
        exact Res.good_bind (i4 s.tail (by omega)) fun x t ht => Res.good_ok (by omega)
      · exact Res.good_bind (i1 s (by omega)).1 fun x t ht => (i3 x t (by omega)).good_mono ht
    · intro e m s hm hn
      rw [rhs]
      refine Res.good_ite (fun hp => ?_) (fun _ => Res.good_ok (Nat.le_refl _))
      have hs := prec_ne_eof (s := s) (by omega)
      have op : ∀ s', s'.length ≤ s.length - 1 → Res.good (operand (initializer n) (unary n) (rhs n) (prec (cur s)) s') (s.length - 1) := by
        intro s' hs'
        refine Res.good_bind (j := s.length - 1) (Res.good_ite (fun _ => (i8 s' (by omega)).good_mono hs') (fun _ => (i4 s' (by omega)).good_mono hs')) fun x t ht => ?_
        refine Res.good_ite (fun _ => ?_) (fun _ => Res.good_ok ht)
        refine (i5 _ _ t ?_ (by omega)).good_mono ht
        split <;> omega
      refine Res.good_ite (fun _ => ?_) (fun _ => ?_)
      · exact Res.good_bind (op _ (by omega)) fun x t ht => (i5 _ _ t hm (by omega)).good_mono (by omega)
      · refine Res.good_bind (i8 s.tail (by omega)) fun x t ht => Res.good_ite (fun e => ?_) (fun _ => Res.good_error)
        have := cur_ne_eof (s := t) (by rw [e]; intro h; cases h)
        exact Res.good_bind (op _ (by omega)) fun x t ht => (i5 _ _ t hm (by omega)).good_mono (by omega)
    · intro s hn
      rw [assignment]
      exact Res.good_bind (i4 s (by omega)) fun x t ht => (i5 _ _ t (by omega) (by omega)).good_mono ht
    · intro s hn
      rw [expression]
      exact Res.good_bind (i6 s (by omega)) fun x t ht => (i5 _ _ t (by omega) (by omega)).good_mono ht
    · intro s hn
      rw [initializer]
      refine Res.good_ite (fun e => ?_) (fun _ => i6 s (by omega))
      have hs := cur_ne_eof (s := s) (by rw [e]; intro h; cases h)
      refine Res.good_ite (fun _ => Res.good_error) (fun _ => ?_)
      refine Res.good_bind (i2 s.tail (by omega)) fun x t ht => Res.good_ite (fun _ => Res.good_ok ?_) (fun _ => Res.good_error)
      simp; omega

end RuC.Expr
