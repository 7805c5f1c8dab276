import Verif.Cond.Lemmas

/-! What every single line keeps, a run keeps. -/

namespace RuC.Cond
variable {σ X O : Type} {w : World σ X O} {R : σ → σ → Prop}

/-- Single lines change what they work on only along `R`. -/
structure Along (w : World σ X O) (R : σ → σ → Prop) : Prop where
  refl : ∀ a, R a a
  trans : ∀ {a b c}, R a b → R b c → R a c
  act : ∀ x st, R st.env (w.act x st).env
  cond : ∀ x st, R st.env (w.cond x st).2.env
  name : ∀ x st, R st.env (w.name x st).2.env
  head : ∀ x st, R st.env (w.macroHead x st).2.env
  defs : ∀ x ls st, R st.env (w.defMacro x ls st).env

theorem error_env (k : ErrKind) (x : X) (st : St σ O) : (w.error k x st).env = st.env := by
  unfold World.error; split <;> rfl

theorem reset_env (mac wa : Bool) (st : St σ O) : (reset mac wa st).env = st.env := by
  unfold reset; split <;> rfl

theorem skip_env (mac : Bool) (n : Nat) :
    (∀ wa b (ls : List (Line X)) (st : St σ O) r, skip w mac n wa b ls st = some r → r.2.env = st.env) ∧
    (∀ k x (ls : List (Line X)) (st : St σ O) r, nest w mac n k x ls st = some r → r.2.env = st.env) := by
  induction n with
  | zero => constructor <;> intros <;> rename_i h <;> cases h
  | succ n ih =>
    constructor
    · intro wa b ls st r h
      cases ls with
      | nil =>
        obtain rfl : (none, st) = r := by simpa [skip] using h
        rfl
      | cons l ls =>
        cases l with
        | plain x => exact (ih.1 _ _ _ _ _ h).trans (reset_env _ _ _)
        | mark k x =>
          simp only [skip] at h
          split at h
          · split at h
            · obtain rfl : (some (k, x, ls), reset mac wa st) = r := by simpa using h
              exact reset_env _ _ _
            · rw [ih.1 _ _ _ _ _ h, error_env, reset_env]
          · split at h
            · cases e : nest w mac n k x ls (reset mac wa st) with
              | none => rw [e] at h; cases h
              | some p =>
                rw [e] at h
                rw [ih.1 _ _ _ _ _ h, reset_env, ih.2 _ _ _ _ _ e, reset_env]
            · rw [ih.1 _ _ _ _ _ h, reset_env]
    · intro k x ls st r h
      simp only [nest] at h
      cases e : skip w mac n st.err k ls st with
      | none => rw [e] at h; cases h
      | some p =>
        rw [e] at h
        have h1 := ih.1 _ _ _ _ _ e
        obtain ⟨e', st'⟩ := p
        cases e' with
        | none =>
          obtain rfl : ([], w.error .unterminated x st') = r := by simpa using h
          exact (error_env _ _ _).trans h1
        | some q =>
          obtain ⟨k', x', ls'⟩ := q
          simp only at h
          split at h
          · exact (ih.2 _ _ _ _ _ h).trans h1
          · obtain rfl : (ls', st') = r := by simpa using h
            exact h1

theorem drain_env (n : Nat) : ∀ (e : End X) (st : St σ O) r, drain w n e st = some r → r.2.env = st.env := by
  induction n with
  | zero => intro _ _ _ h; cases h
  | succ n ih =>
    intro e st r h
    cases e with
    | none =>
      obtain rfl : (none, st) = r := by simpa [drain] using h
      rfl
    | some q =>
      obtain ⟨k, x, ls⟩ := q
      simp only [drain] at h
      split at h
      · obtain rfl : (some (k, x, ls), st) = r := by simpa using h
        rfl
      · cases e1 : skip w false n st.err k ls st with
        | none => rw [e1] at h; cases h
        | some p =>
          rw [e1] at h
          exact (ih _ _ _ h).trans ((skip_env false n).1 _ _ _ _ _ e1)

theorem finish_env (x : X) (e : End X) (st : St σ O) : (finish w x e st).2.env = st.env := by
  cases e with
  | none => exact error_env _ _ _
  | some q =>
    obtain ⟨k, x', ls⟩ := q
    cases k <;> first | rfl | exact error_env _ _ _

/-- The functions on blocks keep to `R`. -/
structure Keeps (w : World σ X O) (R : σ → σ → Prop) (n : Nat) : Prop where
  block : ∀ b (ls : List (Line X)) (st : St σ O) r, block w n b ls st = some r → R st.env r.2.env
  blockOpen : ∀ k x (ls : List (Line X)) (st : St σ O) r, blockOpen w n k x ls st = some r → R st.env r.2.env
  elifs : ∀ x (ls : List (Line X)) (st : St σ O) r, elifs w n x ls st = some r → R st.env r.2.env
  ifdefs : ∀ k b x (ls : List (Line X)) (st : St σ O) r, ifdefs w n k b x ls st = some r → R st.env r.2.env
  ifdefHead : ∀ k b x (ls : List (Line X)) (st : St σ O) r, ifdefHead w n k b x ls st = some r →
    R st.env r.2.env
  loop : ∀ i was x (ls : List (Line X)) (st : St σ O) r, loop w n i was x ls st = some r → R st.env r.2.env

theorem next_env (hw : Along w R) {n : Nat} (ih : Keeps w R n) {p : End X × St σ O} {r}
    (h : (match (some p : Option (End X × St σ O)) with
      | none => none
      | some (some (.elif, x', ls'), st) => elifs w n x' ls' st
      | some (some (.els, _, ls'), st) => block w n .els ls' st
      | some (e, st) => some (e, st)) = some r) : R p.2.env r.2.env := by
  obtain ⟨e, st⟩ := p
  cases e with
  | none =>
    obtain rfl : (none, st) = r := by simpa using h
    exact hw.refl _
  | some q =>
    obtain ⟨k, x, ls⟩ := q
    cases k
    case elif => exact ih.elifs _ _ _ _ h
    case els => exact ih.block _ _ _ _ h
    all_goals
      simp only [Option.some.injEq] at h
      subst h
      exact hw.refl _

theorem keeps_all (hw : Along w R) (n : Nat) : Keeps w R n := by
  induction n with
  | zero =>
    exact ⟨fun _ _ _ _ h => (by cases h), fun _ _ _ _ _ h => (by cases h), fun _ _ _ _ h => (by cases h),
      fun _ _ _ _ _ _ h => (by cases h), fun _ _ _ _ _ _ h => (by cases h),
      fun _ _ _ _ _ _ h => (by cases h)⟩
  | succ n ih =>
    constructor
    · intro b ls st r h
      cases ls with
      | nil =>
        obtain rfl : (none, st) = r := by simpa [block] using h
        exact hw.refl _
      | cons l ls =>
        cases l with
        | plain x => exact hw.trans (hw.act x st) (ih.block _ _ _ _ h)
        | mark k x =>
          simp only [block] at h
          split at h
          · split at h
            · obtain rfl : (some (k, x, ls), st) = r := by simpa using h
              exact hw.refl _
            · have := ih.block _ _ _ _ h
              rw [error_env] at this
              exact this
          · cases e : blockOpen w n k x ls st with
            | none => rw [e] at h; cases h
            | some p =>
              rw [e] at h
              exact hw.trans (ih.blockOpen _ _ _ _ _ e) (ih.block _ _ _ _ h)
    · intro k x ls st r h
      cases k
      case ifk =>
        simp only [RuC.Cond.blockOpen] at h
        cases e : elifs w n x ls st with
        | none => rw [e] at h; cases h
        | some p =>
          rw [e] at h
          simp only [Option.some.injEq] at h
          subst h
          rw [finish_env]
          exact ih.elifs _ _ _ _ e
      case whil =>
        simp only [RuC.Cond.blockOpen] at h
        have hc := hw.cond x st
        split at h
        · unfold whileSkip at h
          cases e : skip w false n (w.cond x st).2.err .whil ls (w.cond x st).2 with
          | none => rw [e] at h; cases h
          | some p =>
            rw [e] at h
            have h1 := (skip_env false n).1 _ _ _ _ _ e
            rw [← h1] at hc
            obtain ⟨e', st'⟩ := p
            cases e' with
            | none =>
              obtain rfl : ([], w.error .unterminated x st') = r := by simpa using h
              simp only [error_env]
              exact hc
            | some q =>
              obtain ⟨k', x', ls'⟩ := q
              obtain rfl : (ls', st') = r := by simpa using h
              exact hc
        · have h1 := ih.loop _ _ _ _ _ _ h
          exact hw.trans hc h1
      case «macro» =>
        simp only [RuC.Cond.blockOpen] at h
        unfold parseMacro at h
        have hc := hw.head x st
        cases e : skip w (w.macroHead x st).1 n (w.macroHead x st).2.err .macro ls (w.macroHead x st).2 with
        | none => rw [e] at h; cases h
        | some p =>
          rw [e] at h
          have h1 := (skip_env _ n).1 _ _ _ _ _ e
          rw [← h1] at hc
          obtain ⟨e', st'⟩ := p
          cases e' with
          | none =>
            obtain rfl : ([], w.defMacro x ls (w.error .unterminated x st')) = r := by simpa using h
            refine hw.trans hc ?_
            have := hw.defs x ls (w.error .unterminated x st')
            rw [error_env] at this
            exact this
          | some q =>
            obtain ⟨k', x', ls'⟩ := q
            obtain rfl : (ls', w.defMacro x (ls.take (ls.length - ls'.length - 1)) st') = r := by
              simpa using h
            exact hw.trans hc (hw.defs _ _ _)
      case ifdef => exact ih.ifdefs _ _ _ _ _ _ h
      case ifndef => exact ih.ifdefs _ _ _ _ _ _ h
      all_goals
        simp only [RuC.Cond.blockOpen, Option.some.injEq] at h
        subst h
        exact hw.refl _
    · intro x ls st r h
      simp only [RuC.Cond.elifs] at h
      have hc := hw.cond x st
      split at h
      · cases e : block w n .elif ls (w.cond x st).2 with
        | none => rw [e] at h; cases h
        | some p =>
          rw [e] at h
          rw [drain_env n _ _ _ h]
          exact hw.trans hc (ih.block _ _ _ _ e)
      · cases e : skip w false n (w.cond x st).2.err .elif ls (w.cond x st).2 with
        | none => rw [e] at h; cases h
        | some p =>
          rw [e] at h
          rw [← (skip_env false n).1 _ _ _ _ _ e] at hc
          exact hw.trans hc (next_env hw ih h)
    · intro k b x ls st r h
      simp only [RuC.Cond.ifdefs] at h
      cases e : ifdefHead w n k b x ls st with
      | none => rw [e] at h; cases h
      | some p =>
        rw [e] at h
        simp only at h
        cases e2 : drain w n p.1 p.2 with
        | none => rw [e2] at h; cases h
        | some q =>
          rw [e2] at h
          simp only [Option.some.injEq] at h
          subst h
          rw [finish_env, drain_env n _ _ _ e2]
          exact ih.ifdefHead _ _ _ _ _ _ e
    · intro k b x ls st r h
      simp only [RuC.Cond.ifdefHead] at h
      have hc := hw.name x st
      split at h
      · simp only [Option.some.injEq] at h
        subst h
        exact hc
      · split at h
        · exact hw.trans hc (ih.block _ _ _ _ h)
        · cases e : skip w false n (w.name x st).2.err k ls (w.name x st).2 with
          | none => rw [e] at h; cases h
          | some p =>
            rw [e] at h
            rw [← (skip_env false n).1 _ _ _ _ _ e] at hc
            exact hw.trans hc (next_env hw ih h)
    · intro i was x ls st r h
      simp only [RuC.Cond.loop] at h
      cases e : block w n .whil ls st with
      | none => rw [e] at h; cases h
      | some p =>
        rw [e] at h
        have h1 := ih.block _ _ _ _ e
        obtain ⟨e', st'⟩ := p
        cases e' with
        | none =>
          obtain rfl : ([], w.error .unterminated x st') = r := by simpa using h
          simp only [error_env]
          exact h1
        | some q =>
          obtain ⟨k', x', ls'⟩ := q
          simp only at h h1
          have hc := hw.cond x st'
          split at h
          · obtain rfl : (ls', w.error .iterationMax x st') = r := by simpa using h
            simp only [error_env]
            exact h1
          · split at h
            · obtain rfl : (ls', st') = r := by simpa using h
              exact h1
            · split at h
              · simp only [Option.some.injEq] at h
                subst h
                exact hw.trans h1 hc
              · exact hw.trans h1 (hw.trans hc (ih.loop _ _ _ _ _ _ h))

theorem preprocess_keeps (hw : Along w R) {n : Nat} {ls : List (Line X)} {st st' : St σ O}
    (h : preprocess w n ls st = some st') : R st.env st'.env := by
  unfold preprocess at h
  obtain ⟨r, hr, h2⟩ := Option.map_eq_some_iff.mp h
  rw [← h2]
  exact (keeps_all hw n).block _ _ _ _ hr

end RuC.Cond
