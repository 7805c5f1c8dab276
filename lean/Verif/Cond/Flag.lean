import Verif.Cond.Silent

/-! The error flag: never lost as a whole, and set by every block that does not end. -/

namespace RuC.Cond
variable {σ X O : Type} {w : World σ X O} {m : O → Bool}

theorem Sticky.error (hw : Sticky w m) {k : ErrKind} (hk : k ≠ .unterminated ∧ k ≠ .iterationMax) (x : X)
    (st : St σ O) : told m (w.error k x st) = told m st := by
  unfold World.error told
  split
  · rfl
  · rw [List.filter_append, List.length_append]
    simp [hw.rep, hk.1, hk.2]

theorem nextErr_ne (b k : Kw) : nextErr b k ≠ .unterminated ∧ nextErr b k ≠ .iterationMax := by
  unfold nextErr; split <;> exact ⟨by decide, by decide⟩

theorem reset_err {mac wa : Bool} {st : St σ O} (h1 : wa = true) (h2 : st.err = true) :
    (reset mac wa st).err = true := by
  unfold reset; split
  · exact h2
  · exact h1

theorem skip_flag (hw : Sticky w m) (mac : Bool) (n : Nat) :
    (∀ wa b (ls : List (Line X)) (st : St σ O) r, skip w mac n wa b ls st = some r →
      (wa = true → st.err = true → r.2.err = true) ∧ (r.1 ≠ none → told m r.2 = told m st)) ∧
    (∀ k x (ls : List (Line X)) (st : St σ O) r, nest w mac n k x ls st = some r →
      (st.err = true → r.2.err = true) ∧ (r.1 = [] ∨ told m r.2 = told m st)) := by
  induction n with
  | zero => constructor <;> intros <;> rename_i h <;> cases h
  | succ n ih =>
    constructor
    · intro wa b ls st r h
      cases ls with
      | nil =>
        obtain rfl : (none, st) = r := by simpa [skip] using h
        exact ⟨fun _ h => h, fun h => absurd rfl h⟩
      | cons l ls =>
        cases l with
        | plain x =>
          obtain ⟨h1, h2⟩ := ih.1 _ _ _ _ _ h
          rw [told_reset] at h2
          exact ⟨fun a b => h1 a (reset_err a b), h2⟩
        | mark k x =>
          simp only [skip] at h
          split at h
          · split at h
            · obtain rfl : (some (k, x, ls), reset mac wa st) = r := by simpa using h
              exact ⟨fun a b => reset_err a b, fun _ => told_reset _ _ _⟩
            · obtain ⟨h1, h2⟩ := ih.1 _ _ _ _ _ h
              rw [hw.error (nextErr_ne b k), told_reset] at h2
              exact ⟨fun a b => h1 a (error_err _ _ _), h2⟩
          · split at h
            · cases e : nest w mac n k x ls (reset mac wa st) with
              | none => rw [e] at h; cases h
              | some p =>
                rw [e] at h
                simp only at h
                obtain ⟨h1, h2⟩ := ih.2 _ _ _ _ _ e
                obtain ⟨h3, h4⟩ := ih.1 _ _ _ _ _ h
                rw [told_reset] at h2 h4
                refine ⟨fun a b => h3 a (reset_err a (h1 (reset_err a b))), fun hr => ?_⟩
                rcases h2 with h2 | h2
                · rw [h2] at h
                  cases n with
                  | zero => cases h
                  | succ n =>
                    simp only [skip, Option.some.injEq] at h
                    subst h
                    exact absurd rfl hr
                · exact (h4 hr).trans h2
            · obtain ⟨h1, h2⟩ := ih.1 _ _ _ _ _ h
              rw [told_reset] at h2
              exact ⟨fun a b => h1 a (reset_err a b), h2⟩
    · intro k x ls st r h
      simp only [nest] at h
      cases e : skip w mac n st.err k ls st with
      | none => rw [e] at h; cases h
      | some p =>
        rw [e] at h
        obtain ⟨h1, h2⟩ := ih.1 _ _ _ _ _ e
        obtain ⟨e', st'⟩ := p
        cases e' with
        | none =>
          obtain rfl : ([], w.error .unterminated x st') = r := by simpa using h
          exact ⟨fun _ => error_err _ _ _, .inl rfl⟩
        | some q =>
          obtain ⟨k', x', ls'⟩ := q
          simp only at h
          have h3 := h2 (by simp)
          split at h
          · obtain ⟨h4, h5⟩ := ih.2 _ _ _ _ _ h
            exact ⟨fun a => h4 (h1 a a), h5.imp id fun h => h.trans h3⟩
          · obtain rfl : (ls', st') = r := by simpa using h
            exact ⟨fun a => h1 a a, .inr h3⟩

theorem drain_flag (hw : Sticky w m) (n : Nat) : ∀ (e : End X) (st : St σ O) r, drain w n e st = some r →
    (st.err = true → r.2.err = true) ∧ (r.1 ≠ none → told m r.2 = told m st) := by
  induction n with
  | zero => intro _ _ _ h; cases h
  | succ n ih =>
    intro e st r h
    cases e with
    | none =>
      obtain rfl : (none, st) = r := by simpa [drain] using h
      exact ⟨id, fun h => absurd rfl h⟩
    | some q =>
      obtain ⟨k, x, ls⟩ := q
      simp only [drain] at h
      split at h
      · obtain rfl : (some (k, x, ls), st) = r := by simpa using h
        exact ⟨id, fun _ => rfl⟩
      · cases e1 : skip w false n st.err k ls st with
        | none => rw [e1] at h; cases h
        | some p =>
          rw [e1] at h
          simp only at h
          obtain ⟨h1, h2⟩ := (skip_flag hw false n).1 _ _ _ _ _ e1
          obtain ⟨h3, h4⟩ := ih _ _ _ h
          refine ⟨fun a => h3 (h1 a a), fun hr => ?_⟩
          have hp : p.1 ≠ none := by
            intro hp
            rw [hp] at h
            cases n with
            | zero => cases h
            | succ n =>
              simp only [drain, Option.some.injEq] at h
              subst h
              exact hr rfl
          exact (h4 hr).trans (h2 hp)

theorem finish_flag (x : X) (e : End X) (st : St σ O) :
    (st.err = true → (finish w x e st).2.err = true) ∧
    ((finish w x e st).2.err = false → e ≠ none ∧ (finish w x e st).2 = st) := by
  cases e with
  | none =>
    exact ⟨fun _ => error_err _ _ _, fun h => absurd h (by simp only [finish]; rw [error_err]; decide)⟩
  | some q =>
    obtain ⟨k, x', ls⟩ := q
    cases k <;> simp only [finish] <;>
      first
      | exact ⟨id, fun _ => ⟨Option.some_ne_none _, trivial⟩⟩
      | exact ⟨id, fun _ => ⟨Option.some_ne_none _, rfl⟩⟩
      | exact ⟨id, fun _ => Option.some_ne_none _⟩
      | exact ⟨id, fun _ => trivial⟩
      | (refine ⟨fun _ => error_err _ _ _, fun h => absurd h ?_⟩; rw [error_err]; decide)

/-- The error flag after the functions on blocks. -/
structure Flags (w : World σ X O) (m : O → Bool) (n : Nat) : Prop where
  block : ∀ b (ls : List (Line X)) (st : St σ O) r, block w n b ls st = some r →
    (st.err = true → r.2.err = true) ∧ (r.2.err = false → told m r.2 = told m st)
  blockOpen : ∀ k x (ls : List (Line X)) (st : St σ O) r, blockOpen w n k x ls st = some r →
    (st.err = true → r.2.err = true) ∧ (r.2.err = false → told m r.2 = told m st)
  elifs : ∀ x (ls : List (Line X)) (st : St σ O) r, elifs w n x ls st = some r →
    (st.err = true → r.2.err = true) ∧ (r.1 ≠ none → r.2.err = false → told m r.2 = told m st)
  ifdefs : ∀ k b x (ls : List (Line X)) (st : St σ O) r, ifdefs w n k b x ls st = some r →
    (st.err = true → r.2.err = true) ∧ (r.2.err = false → told m r.2 = told m st)
  ifdefHead : ∀ k b x (ls : List (Line X)) (st : St σ O) r, ifdefHead w n k b x ls st = some r →
    (st.err = true → r.2.err = true) ∧ (r.1 ≠ none → r.2.err = false → told m r.2 = told m st)
  loop : ∀ i was x (ls : List (Line X)) (st : St σ O) r, loop w n i was x ls st = some r →
    (was = true → r.2.err = true) ∧ (st.err = true → r.2.err = true) ∧
    (r.2.err = false → told m r.2 = told m st)

theorem err_false {a b : Bool} (h : a = true → b = true) (hb : b = false) : a = false := by
  cases a
  · rfl
  · rw [h rfl] at hb; cases hb

theorem next_flag {n : Nat} (ih : Flags w m n) {s : St σ O} {p : End X × St σ O} {r}
    (hs : (s.err = true → p.2.err = true) ∧ (p.1 ≠ none → p.2.err = false → told m p.2 = told m s))
    (h : (match (some p : Option (End X × St σ O)) with
      | none => none
      | some (some (.elif, x', ls'), st) => elifs w n x' ls' st
      | some (some (.els, _, ls'), st) => block w n .els ls' st
      | some (e, st) => some (e, st)) = some r) :
    (s.err = true → r.2.err = true) ∧ (r.1 ≠ none → r.2.err = false → told m r.2 = told m s) := by
  obtain ⟨e, st⟩ := p
  cases e with
  | none =>
    obtain rfl : (none, st) = r := by simpa using h
    exact ⟨hs.1, fun h => absurd rfl h⟩
  | some q =>
    obtain ⟨k, x, ls⟩ := q
    have h2 := hs.2 (by simp)
    cases k
    case elif =>
      obtain ⟨h3, h4⟩ := ih.elifs _ _ _ _ h
      exact ⟨fun a => h3 (hs.1 a), fun a b => (h4 a b).trans (h2 (err_false h3 b))⟩
    case els =>
      obtain ⟨h3, h4⟩ := ih.block _ _ _ _ h
      exact ⟨fun a => h3 (hs.1 a), fun _ b => (h4 b).trans (h2 (err_false h3 b))⟩
    all_goals
      simp only [Option.some.injEq] at h
      subst h
      exact ⟨hs.1, fun _ b => h2 b⟩

theorem flags_all (hw : Sticky w m) (n : Nat) : Flags w m n := by
  induction n with
  | zero =>
    exact ⟨fun _ _ _ _ h => (by cases h), fun _ _ _ _ _ h => (by cases h), fun _ _ _ _ h => (by cases h),
      fun _ _ _ _ _ _ h => (by cases h), fun _ _ _ _ _ _ h => (by cases h),
      fun _ _ _ _ _ _ h => (by cases h)⟩
  | succ n ih =>
    constructor
    · intro b ls st r h
      cases ls with
      | nil =>
        obtain rfl : (none, st) = r := by simpa [block] using h
        exact ⟨id, fun _ => rfl⟩
      | cons l ls =>
        cases l with
        | plain x =>
          obtain ⟨h1, h2⟩ := ih.block _ _ _ _ h
          exact ⟨fun a => h1 ((hw.act x st).2 a), fun a => (h2 a).trans ((hw.act x st).1 (err_false h1 a))⟩
        | mark k x =>
          simp only [block] at h
          split at h
          · split at h
            · obtain rfl : (some (k, x, ls), st) = r := by simpa using h
              exact ⟨id, fun _ => rfl⟩
            · obtain ⟨h1, h2⟩ := ih.block _ _ _ _ h
              rw [hw.error (nextErr_ne b k)] at h2
              exact ⟨fun _ => h1 (error_err _ _ _), h2⟩
          · cases e : blockOpen w n k x ls st with
            | none => rw [e] at h; cases h
            | some p =>
              rw [e] at h
              obtain ⟨h1, h2⟩ := ih.blockOpen _ _ _ _ _ e
              obtain ⟨h3, h4⟩ := ih.block _ _ _ _ h
              exact ⟨fun a => h3 (h1 a), fun a => (h4 a).trans (h2 (err_false h3 a))⟩
    · intro k x ls st r h
      cases k
      case ifk =>
        simp only [RuC.Cond.blockOpen] at h
        cases e : elifs w n x ls st with
        | none => rw [e] at h; cases h
        | some p =>
          rw [e] at h
          obtain ⟨h1, h2⟩ := ih.elifs _ _ _ _ e
          obtain ⟨h3, h4⟩ := finish_flag (w := w) x p.1 p.2
          simp only [Option.some.injEq] at h
          subst h
          refine ⟨fun a => h3 (h1 a), fun a => ?_⟩
          obtain ⟨h5, h6⟩ := h4 a
          rw [h6]
          exact h2 h5 (err_false h3 a)
      case whil =>
        simp only [RuC.Cond.blockOpen] at h
        obtain ⟨c1, c2⟩ := hw.cond x st
        split at h
        · unfold whileSkip at h
          cases e : skip w false n (w.cond x st).2.err .whil ls (w.cond x st).2 with
          | none => rw [e] at h; cases h
          | some p =>
            rw [e] at h
            obtain ⟨h1, h2⟩ := (skip_flag hw false n).1 _ _ _ _ _ e
            obtain ⟨e', st'⟩ := p
            cases e' with
            | none =>
              obtain rfl : ([], w.error .unterminated x st') = r := by simpa using h
              exact ⟨fun _ => error_err _ _ _, fun a => absurd a (by simp only; rw [error_err]; decide)⟩
            | some q =>
              obtain ⟨k', x', ls'⟩ := q
              obtain rfl : (ls', st') = r := by simpa using h
              exact ⟨fun a => h1 (c2 a) (c2 a), fun b => (h2 (by simp)).trans (c1 (err_false (fun a => h1 a a) b))⟩
        · obtain ⟨h1, _, h2⟩ := ih.loop _ _ _ _ _ _ h
          exact ⟨fun a => h1 (c2 a), fun a => (h2 a).trans (c1 (err_false h1 a))⟩
      case «macro» =>
        simp only [RuC.Cond.blockOpen] at h
        unfold parseMacro at h
        obtain ⟨c1, c2⟩ := hw.head x st
        cases e : skip w (w.macroHead x st).1 n (w.macroHead x st).2.err .macro ls (w.macroHead x st).2 with
        | none => rw [e] at h; cases h
        | some p =>
          rw [e] at h
          obtain ⟨h1, h2⟩ := (skip_flag hw _ n).1 _ _ _ _ _ e
          obtain ⟨e', st'⟩ := p
          cases e' with
          | none =>
            obtain rfl : ([], w.defMacro x ls (w.error .unterminated x st')) = r := by simpa using h
            have := (hw.defs x ls (w.error .unterminated x st')).2 (error_err _ _ _)
            exact ⟨fun _ => this, fun a => absurd a (by simp only; rw [this]; decide)⟩
          | some q =>
            obtain ⟨k', x', ls'⟩ := q
            obtain rfl : (ls', w.defMacro x (ls.take (ls.length - ls'.length - 1)) st') = r := by
              simpa using h
            obtain ⟨d1, d2⟩ := hw.defs x (ls.take (ls.length - ls'.length - 1)) st'
            exact ⟨fun a => d2 (h1 (c2 a) (c2 a)), fun b => (d1 b).trans ((h2 (by simp)).trans
              (c1 (err_false (fun a => h1 a a) (err_false d2 b))))⟩
      case ifdef => exact ih.ifdefs _ _ _ _ _ _ h
      case ifndef => exact ih.ifdefs _ _ _ _ _ _ h
      all_goals
        simp only [RuC.Cond.blockOpen, Option.some.injEq] at h
        subst h
        exact ⟨id, fun _ => rfl⟩
    · intro x ls st r h
      simp only [RuC.Cond.elifs] at h
      obtain ⟨c1, c2⟩ := hw.cond x st
      split at h
      · cases e : block w n .elif ls (w.cond x st).2 with
        | none => rw [e] at h; cases h
        | some p =>
          rw [e] at h
          obtain ⟨h1, h2⟩ := ih.block _ _ _ _ e
          obtain ⟨h3, h4⟩ := drain_flag hw n _ _ _ h
          exact ⟨fun a => h3 (h1 (c2 a)), fun a b =>
            (h4 a).trans ((h2 (err_false h3 b)).trans (c1 (err_false h1 (err_false h3 b))))⟩
      · cases e : skip w false n (w.cond x st).2.err .elif ls (w.cond x st).2 with
        | none => rw [e] at h; cases h
        | some p =>
          rw [e] at h
          obtain ⟨h1, h2⟩ := (skip_flag hw false n).1 _ _ _ _ _ e
          exact next_flag ih ⟨fun a => h1 (c2 a) (c2 a),
            fun a b => (h2 a).trans (c1 (err_false (fun a => h1 a a) b))⟩ h
    · intro k b x ls st r h
      simp only [RuC.Cond.ifdefs] at h
      cases e : ifdefHead w n k b x ls st with
      | none => rw [e] at h; cases h
      | some p =>
        rw [e] at h
        simp only at h
        cases e2 : drain w n p.1 p.2 with
        | none => rw [e2] at h; cases h
        | some q =>
          rw [e2] at h
          obtain ⟨h1, h2⟩ := ih.ifdefHead _ _ _ _ _ _ e
          obtain ⟨h3, h4⟩ := drain_flag hw n _ _ _ e2
          obtain ⟨h5, h6⟩ := finish_flag (w := w) x q.1 q.2
          simp only [Option.some.injEq] at h
          subst h
          refine ⟨fun a => h5 (h3 (h1 a)), fun a => ?_⟩
          obtain ⟨h7, h8⟩ := h6 a
          have h9 := err_false h5 a
          have hp : p.1 ≠ none := by
            intro hp
            rw [hp] at e2
            cases n with
            | zero => cases e2
            | succ n =>
              simp only [drain, Option.some.injEq] at e2
              subst e2
              exact h7 rfl
          rw [h8]
          exact (h4 h7).trans (h2 hp (err_false h3 h9))
    · intro k b x ls st r h
      simp only [RuC.Cond.ifdefHead] at h
      obtain ⟨c1, c2⟩ := hw.name x st
      split at h
      · simp only [Option.some.injEq] at h
        subst h
        exact ⟨c2, fun _ b => c1 b⟩
      · split at h
        · obtain ⟨h1, h2⟩ := ih.block _ _ _ _ h
          exact ⟨fun a => h1 (c2 a), fun _ b => (h2 b).trans (c1 (err_false h1 b))⟩
        · cases e : skip w false n (w.name x st).2.err k ls (w.name x st).2 with
          | none => rw [e] at h; cases h
          | some p =>
            rw [e] at h
            obtain ⟨h1, h2⟩ := (skip_flag hw false n).1 _ _ _ _ _ e
            exact next_flag ih ⟨fun a => h1 (c2 a) (c2 a),
              fun a b => (h2 a).trans (c1 (err_false (fun a => h1 a a) b))⟩ h
    · intro i was x ls st r h
      simp only [RuC.Cond.loop] at h
      cases e : block w n .whil ls st with
      | none => rw [e] at h; cases h
      | some p =>
        rw [e] at h
        obtain ⟨h1, h2⟩ := ih.block _ _ _ _ e
        obtain ⟨e', st'⟩ := p
        cases e' with
        | none =>
          obtain rfl : ([], w.error .unterminated x st') = r := by simpa using h
          exact ⟨fun _ => error_err _ _ _, fun _ => error_err _ _ _,
            fun a => absurd a (by simp only; rw [error_err]; decide)⟩
        | some q =>
          obtain ⟨k', x', ls'⟩ := q
          simp only at h h1 h2
          obtain ⟨c1, c2⟩ := hw.cond x st'
          split at h
          · obtain rfl : (ls', w.error .iterationMax x st') = r := by simpa using h
            exact ⟨fun _ => error_err _ _ _, fun _ => error_err _ _ _,
              fun a => absurd a (by simp only; rw [error_err]; decide)⟩
          · split at h
            · rename_i hs
              obtain rfl : (ls', st') = r := by simpa using h
              exact ⟨fun _ => hs, fun _ => hs, fun a => h2 a⟩
            · split at h
              · simp only [Option.some.injEq] at h
                subst h
                refine ⟨fun a => by simp [a], fun a => by simp [c2 (h1 a)], fun a => ?_⟩
                simp only [Bool.or_eq_false_iff] at a
                exact (c1 a.1).trans (h2 (err_false c2 a.1))
              · obtain ⟨h3, h4, h5⟩ := ih.loop _ _ _ _ _ _ h
                exact ⟨h3, fun a => h4 (c2 (h1 a)),
                  fun a => (h5 a).trans ((c1 (err_false h4 a)).trans (h2 (err_false c2 (err_false h4 a))))⟩

end RuC.Cond
