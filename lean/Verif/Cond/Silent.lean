import Verif.Cond.Run

/-! A run without a message about blocks has read properly nested text. -/

namespace RuC.Cond
variable {σ X O : Type} {w : World σ X O} {m : O → Bool}

theorem Fair.error (hw : Fair w m) (k : ErrKind) (x : X) (st : St σ O) :
    told m (w.error k x st) = told m st + (if k ≠ .iterationMax then 1 else 0) := by
  unfold World.error told
  rw [if_neg (by simp [hw.loud])]
  have := hw.rep k x
  by_cases hk : k = .iterationMax
  · subst hk
    rw [List.filter_append, List.length_append]
    simp [this]
  · rw [List.filter_append, List.length_append]
    simp [this, hk]

theorem told_reset (mac wa : Bool) (st : St σ O) : told m (reset mac wa st) = told m st := by
  unfold reset; split <;> rfl

theorem told_err (b : Bool) (st : St σ O) : told m ({ st with err := b } : St σ O) = told m st := rfl

/-- Properly nested text up to an end that fits. -/
def Upto (b : Kw) (ls : List (Line X)) : End X → Prop
  | none => ∃ p : Prog X, ls = p.lines
  | some (k, x, ls') => k.ends = true ∧ nextOk b k = true ∧ ∃ p : Prog X, ls = p.lines ++ .mark k x :: ls'

/-- The blocks of a directive with the lines `ls'` behind them. -/
def Closed : Kw → List (Line X) → List (Line X) → Prop
  | .ifk, ls, ls' | .ifdef, ls, ls' | .ifndef, ls, ls' | .elif, ls, ls' =>
    ∃ (p : Prog X) (t : Tail X), ls = p.lines ++ (t.lines ++ ls')
  | .els, ls, ls' => ∃ (p : Prog X) (e : X), ls = p.lines ++ .mark .endif e :: ls'
  | .whil, ls, ls' => ∃ (p : Prog X) (e : X), ls = p.lines ++ .mark .endw e :: ls'
  | .macro, ls, ls' => ∃ (p : Prog X) (e : X), ls = p.lines ++ .mark .endm e :: ls'
  | .endif, ls, ls' | .endw, ls, ls' | .endm, ls, ls' => ls = ls'
  | .non, _, _ => False

theorem Upto.closed {b k : Kw} {x : X} {ls ls' ls''} (h : Upto b ls (some (k, x, ls'))) (hc : Closed k ls' ls'') :
    Closed b ls ls'' := by
  obtain ⟨_, h2, p, rfl⟩ := h
  cases b <;> cases k <;> first | (cases h2; done) | skip
  all_goals
    first
    | (obtain ⟨p2, t2, rfl⟩ := hc; exact ⟨p, .elif x p2 t2, by simp [Tail.lines]⟩)
    | (obtain ⟨p2, t2, rfl⟩ := hc; exact ⟨p, .els x p2 t2, by simp [Tail.lines]⟩)
    | (obtain rfl : ls' = ls'' := hc; exact ⟨p, .fin x, by simp [Tail.lines]⟩)
    | (obtain rfl : ls' = ls'' := hc; exact ⟨p, x, rfl⟩)

theorem Closed.upto {b k : Kw} {x : X} {ls ls' e} (ho : k.opens = true) (hc : Closed k ls ls')
    (h : Upto b ls' e) : Upto b (.mark k x :: ls) e := by
  have key : ∀ r : Prog X, ∃ q : Prog X, ∀ T, ls' = r.lines ++ T → .mark k x :: ls = q.lines ++ T := by
    intro r
    cases k <;> first | (cases ho; done) | skip
    all_goals
      obtain ⟨p, t, rfl⟩ := hc
      first
      | (refine ⟨.cond .ifdef x p t r, ?_⟩; intro T hT; simp [Prog.lines, Guard.kw, hT]; done)
      | (refine ⟨.cond .ifndef x p t r, ?_⟩; intro T hT; simp [Prog.lines, Guard.kw, hT]; done)
      | (refine ⟨.cond .ifk x p t r, ?_⟩; intro T hT; simp [Prog.lines, Guard.kw, hT]; done)
      | (refine ⟨.loop x p t r, ?_⟩; intro T hT; simp [Prog.lines, hT]; done)
      | (refine ⟨.define x p t r, ?_⟩; intro T hT; simp [Prog.lines, hT]; done)
  cases e with
  | none =>
    obtain ⟨r, hr⟩ := h
    obtain ⟨q, hq⟩ := key r
    exact ⟨q, by simpa using hq [] (by simpa using hr)⟩
  | some y =>
    obtain ⟨h1, h2, r, hr⟩ := h
    obtain ⟨q, hq⟩ := key r
    exact ⟨h1, h2, q, hq _ hr⟩

theorem Sound.right {a b : List (Line X)} (h : Sound (a ++ b)) : Sound b :=
  fun x hx => h x (List.mem_append_right _ hx)

theorem Sound.tail {a} {b : List (Line X)} (h : Sound (a :: b)) : Sound b :=
  fun x hx => h x (List.mem_cons_of_mem _ hx)

theorem Upto.sound {b k : Kw} {x : X} {ls ls'} (h : Upto b ls (some (k, x, ls'))) (hs : Sound ls) : Sound ls' := by
  obtain ⟨_, _, p, rfl⟩ := h
  exact hs.right.tail

theorem Closed.sound {k : Kw} {ls ls' : List (Line X)} (h : Closed k ls ls') (hs : Sound ls) : Sound ls' := by
  cases k
  all_goals
    first
    | (obtain rfl : ls = ls' := h; exact hs)
    | (obtain ⟨p, t, rfl⟩ := h; exact hs.right.tail)
    | (obtain ⟨p, t, rfl⟩ := h; exact hs.right.right)
    | exact h.elim

theorem Upto.plain {b : Kw} {x : X} {ls e} (h : Upto b ls e) : Upto b (.plain x :: ls) e := by
  cases e with
  | none => obtain ⟨p, rfl⟩ := h; exact ⟨.plain x p, rfl⟩
  | some y => obtain ⟨h1, h2, p, rfl⟩ := h; exact ⟨h1, h2, .plain x p, rfl⟩

theorem Kw.opens_of {k : Kw} (h1 : k.ends = false) (h2 : k ≠ .non) : k.opens = true := by
  cases k <;> first | rfl | (cases h1; done) | exact absurd rfl h2

theorem skip_silent (hw : Fair w m) (mac : Bool) (n : Nat) :
    (∀ wa b (ls : List (Line X)) (st : St σ O) r, skip w mac n wa b ls st = some r →
      told m st ≤ told m r.2 ∧ (told m r.2 = told m st → Sound ls → Upto b ls r.1)) ∧
    (∀ k x (ls : List (Line X)) (st : St σ O) r, nest w mac n k x ls st = some r →
      told m st ≤ told m r.2 ∧ (told m r.2 = told m st → Sound ls → Closed k ls r.1)) := by
  induction n with
  | zero => constructor <;> intros <;> rename_i h <;> cases h
  | succ n ih =>
    constructor
    · intro wa b ls st r h
      cases ls with
      | nil =>
        obtain rfl : (none, st) = r := by simpa [skip] using h
        exact ⟨Nat.le_refl _, fun _ _ => ⟨.nil, rfl⟩⟩
      | cons l ls =>
        cases l with
        | plain x =>
          obtain ⟨h1, h2⟩ := ih.1 _ _ _ _ _ h
          rw [told_reset] at h1 h2
          exact ⟨h1, fun he hs => (h2 he hs.tail).plain⟩
        | mark k x =>
          simp only [skip] at h
          cases hk : k.ends with
          | true =>
            rw [if_pos hk] at h
            cases hn : nextOk b k with
            | true =>
              rw [if_pos hn] at h
              obtain rfl : (some (k, x, ls), reset mac wa st) = r := by simpa using h
              refine ⟨by rw [told_reset]; exact Nat.le_refl _, fun _ _ => ⟨hk, hn, .nil, rfl⟩⟩
            | false =>
              rw [if_neg (by simp [hn])] at h
              obtain ⟨h1, h2⟩ := ih.1 _ _ _ _ _ h
              rw [hw.error, told_reset, if_pos (by unfold nextErr; split <;> decide)] at h1
              exact ⟨by omega, fun he => absurd he (by omega)⟩
          | false =>
            rw [if_neg (by simp [hk])] at h
            cases ho : k.opens with
            | true =>
              rw [if_pos ho] at h
              cases e : nest w mac n k x ls (reset mac wa st) with
              | none => rw [e] at h; cases h
              | some p =>
                rw [e] at h
                obtain ⟨h1, h2⟩ := ih.2 _ _ _ _ _ e
                obtain ⟨h3, h4⟩ := ih.1 _ _ _ _ _ h
                rw [told_reset] at h1 h2 h3 h4
                refine ⟨by omega, fun he hs => ?_⟩
                have hc := h2 (by omega) hs.tail
                exact hc.upto ho (h4 (by omega) (hc.sound hs.tail))
            | false =>
              rw [if_neg (by simp [ho])] at h
              have hk' : k = .non := by
                cases k <;> first | rfl | (cases hk; done) | (cases ho; done)
              obtain ⟨h1, h2⟩ := ih.1 _ _ _ _ _ h
              rw [told_reset] at h1
              exact ⟨h1, fun _ hs => absurd (by rw [hk']; exact List.mem_cons_self) (hs x)⟩
    · intro k x ls st r h
      simp only [nest] at h
      cases e : skip w mac n st.err k ls st with
      | none => rw [e] at h; cases h
      | some p =>
        rw [e] at h
        obtain ⟨h1, h2⟩ := ih.1 _ _ _ _ _ e
        obtain ⟨e', st'⟩ := p
        cases e' with
        | none =>
          obtain rfl : ([], w.error .unterminated x st') = r := by simpa using h
          have := hw.error .unterminated x st'
          rw [if_pos (by decide)] at this
          simp only at h1 ⊢
          exact ⟨by omega, fun he => absurd he (by omega)⟩
        | some q =>
          obtain ⟨k', x', ls'⟩ := q
          simp only at h h1 h2
          by_cases hk : k' = .elif ∨ k' = .els
          · rw [if_pos hk] at h
            obtain ⟨h3, h4⟩ := ih.2 _ _ _ _ _ h
            refine ⟨by omega, fun he hs => ?_⟩
            have hu := h2 (by omega) hs
            exact hu.closed (h4 (by omega) (hu.sound hs))
          · rw [if_neg hk] at h
            obtain rfl : (ls', st') = r := by simpa using h
            refine ⟨h1, fun he hs => ?_⟩
            have hu := h2 he hs
            refine hu.closed ?_
            have := hu.1
            cases k' <;> first | rfl | (cases this; done) | (exfalso; apply hk; simp)

theorem drain_silent (hw : Fair w m) (n : Nat) : ∀ (e : End X) (st : St σ O) r, drain w n e st = some r →
    told m st ≤ told m r.2 ∧
    (told m r.2 = told m st → ∀ q', r.1 = some q' →
      ∃ q, e = some q ∧ q'.1 = .endif ∧ (Sound q.2.2 → Closed q.1 q.2.2 q'.2.2)) := by
  induction n with
  | zero => intro _ _ _ h; cases h
  | succ n ih =>
    intro e st r h
    cases e with
    | none =>
      obtain rfl : (none, st) = r := by simpa [drain] using h
      exact ⟨Nat.le_refl _, fun _ _ h => by cases h⟩
    | some q =>
      obtain ⟨k, x, ls⟩ := q
      simp only [drain] at h
      by_cases hk : k = .endif
      · rw [if_pos hk] at h
        obtain rfl : (some (k, x, ls), st) = r := by simpa using h
        refine ⟨Nat.le_refl _, fun _ q' hq => ⟨_, rfl, ?_⟩⟩
        simp only [Option.some.injEq] at hq
        subst hq hk
        exact ⟨rfl, fun _ => rfl⟩
      · rw [if_neg hk] at h
        cases e1 : skip w false n st.err k ls st with
        | none => rw [e1] at h; cases h
        | some p =>
          rw [e1] at h
          obtain ⟨h1, h2⟩ := (skip_silent hw false n).1 _ _ _ _ _ e1
          obtain ⟨h3, h4⟩ := ih _ _ _ h
          refine ⟨by omega, fun he q' hq => ⟨_, rfl, ?_⟩⟩
          obtain ⟨q2, e2, h5, h6⟩ := h4 (by omega) q' hq
          refine ⟨h5, fun hs => ?_⟩
          have hu := h2 (by omega) hs
          rw [e2] at hu
          exact hu.closed (h6 (hu.sound hs))

/-- The end of a conditional that is silent. -/
theorem finish_silent (hw : Fair w m) (x : X) (e : End X) (st : St σ O) :
    told m st ≤ told m (finish w x e st).2 ∧
    (told m (finish w x e st).2 = told m st → ∃ q, e = some q ∧ q.1 = .endif ∧ (finish w x e st).1 = q.2.2) := by
  have hu := hw.error .unterminated x st
  rw [if_pos (by decide)] at hu
  cases e with
  | none => exact ⟨by simp only [finish]; omega, fun he => absurd he (by simp only [finish]; omega)⟩
  | some q =>
    obtain ⟨k, x', ls⟩ := q
    cases k <;> simp only [finish] <;>
      first
      | exact ⟨Nat.le_refl _, fun _ => ⟨_, rfl, rfl, rfl⟩⟩
      | exact ⟨by omega, fun he => absurd he (by omega)⟩

/-- What the functions on blocks that are done leave. -/
structure Quiet (w : World σ X O) (m : O → Bool) (n : Nat) : Prop where
  block : ∀ b (ls : List (Line X)) (st : St σ O) r, block w n b ls st = some r →
    told m st ≤ told m r.2 ∧ (told m r.2 = told m st → Sound ls → Upto b ls r.1)
  blockOpen : ∀ k x (ls : List (Line X)) (st : St σ O) r, blockOpen w n k x ls st = some r → k.opens = true →
    told m st ≤ told m r.2 ∧ (told m r.2 = told m st → Sound ls → Closed k ls r.1)
  elifs : ∀ x (ls : List (Line X)) (st : St σ O) r, elifs w n x ls st = some r →
    told m st ≤ told m r.2 ∧
    (told m r.2 = told m st → Sound ls → ∀ q, r.1 = some q → q.1 = .endif ∧ Closed .elif ls q.2.2)
  ifdefs : ∀ k b x (ls : List (Line X)) (st : St σ O) r, ifdefs w n k b x ls st = some r →
    k = .ifdef ∨ k = .ifndef →
    told m st ≤ told m r.2 ∧ (told m r.2 = told m st → Sound ls → Closed k ls r.1)
  ifdefHead : ∀ k b x (ls : List (Line X)) (st : St σ O) r, ifdefHead w n k b x ls st = some r →
    k = .ifdef ∨ k = .ifndef →
    told m st ≤ told m r.2 ∧
    (told m r.2 = told m st → Sound ls → ∀ q, r.1 = some q → Sound q.2.2 ∧
      ∀ ls', Closed q.1 q.2.2 ls' → Closed k ls ls')
  loop : ∀ i b x (ls : List (Line X)) (st : St σ O) r, loop w n i b x ls st = some r →
    told m st ≤ told m r.2 ∧ (told m r.2 = told m st → Sound ls → Closed .whil ls r.1)

theorem Closed.of_elif {k : Kw} {ls ls' : List (Line X)} (hk : k = .ifdef ∨ k = .ifndef ∨ k = .ifk)
    (h : Closed .elif ls ls') : Closed k ls ls' := by
  rcases hk with rfl | rfl | rfl <;> exact h

/-- After a branch that was not taken. -/
theorem next_silent {n : Nat} (ih : Quiet w m n) {k : Kw} {ls : List (Line X)} {s st' : St σ O}
    {q : Kw × X × List (Line X)} {r}
    (hk : k = .ifdef ∨ k = .ifndef ∨ k = .elif)
    (hu : told m s ≤ told m st' ∧ (told m st' = told m s → Sound ls → Upto k ls (some q)))
    (h : (match (some (some q, st') : Option (End X × St σ O)) with
      | none => none
      | some (some (.elif, x', ls'), st) => elifs w n x' ls' st
      | some (some (.els, _, ls'), st) => block w n .els ls' st
      | some (e, st) => some (e, st)) = some r) :
    told m s ≤ told m r.2 ∧
    (told m r.2 = told m s → Sound ls → ∀ q, r.1 = some q → q.1 = .endif ∧ Closed k ls q.2.2) := by
  obtain ⟨k', x', ls'⟩ := q
  obtain ⟨h1, h2⟩ := hu
  cases k'
  case elif =>
    obtain ⟨h3, h4⟩ := ih.elifs _ _ _ _ h
    refine ⟨by omega, fun he hs q hq => ?_⟩
    have hu := h2 (by omega) hs
    obtain ⟨h5, h6⟩ := h4 (by omega) (hu.sound hs) q hq
    exact ⟨h5, hu.closed h6⟩
  case els =>
    obtain ⟨h3, h4⟩ := ih.block _ _ _ _ h
    refine ⟨by omega, fun he hs q hq => ?_⟩
    have hu := h2 (by omega) hs
    have h5 := h4 (by omega) (hu.sound hs)
    rw [hq] at h5
    obtain ⟨k2, x2, ls2⟩ := q
    have hk2 : k2 = .endif := by
      have := h5.2.1
      cases k2 <;> first | rfl | (cases this; done)
    subst hk2
    exact ⟨rfl, hu.closed (h5.closed rfl)⟩
  all_goals
    simp only [Option.some.injEq] at h
    subst h
    refine ⟨h1, fun he hs q hq => ?_⟩
    have hu := h2 he hs
    simp only [Option.some.injEq] at hq
    subst hq
    have h5 := hu.2.1
    rcases hk with rfl | rfl | rfl <;> first | (cases h5; done) | exact ⟨rfl, hu.closed rfl⟩

theorem next_none {k : Kw} {ls : List (Line X)} {s st' : St σ O} {r : End X × St σ O}
    (hu : told m s ≤ told m st') (h : some ((none : End X), st') = some r) :
    told m s ≤ told m r.2 ∧
    (told m r.2 = told m s → Sound ls → ∀ q, r.1 = some q → q.1 = .endif ∧ Closed k ls q.2.2) := by
  simp only [Option.some.injEq] at h
  subst h
  exact ⟨hu, fun _ _ q hq => by cases hq⟩

theorem quiet_all (hw : Fair w m) (n : Nat) : Quiet w m n := by
  induction n with
  | zero =>
    exact ⟨fun _ _ _ _ h => (by cases h), fun _ _ _ _ _ h => (by cases h), fun _ _ _ _ h => (by cases h),
      fun _ _ _ _ _ _ h => (by cases h), fun _ _ _ _ _ _ h => (by cases h),
      fun _ _ _ _ _ _ h => (by cases h)⟩
  | succ n ih =>
    constructor
    · intro b ls st r h
      cases ls with
      | nil =>
        obtain rfl : (none, st) = r := by simpa [block] using h
        exact ⟨Nat.le_refl _, fun _ _ => ⟨.nil, rfl⟩⟩
      | cons l ls =>
        cases l with
        | plain x =>
          obtain ⟨h1, h2⟩ := ih.block _ _ _ _ h
          rw [hw.act] at h1 h2
          exact ⟨h1, fun he hs => (h2 he hs.tail).plain⟩
        | mark k x =>
          simp only [block] at h
          cases hk : k.ends with
          | true =>
            rw [if_pos hk] at h
            cases hn : nextOk b k with
            | true =>
              rw [if_pos hn] at h
              obtain rfl : (some (k, x, ls), st) = r := by simpa using h
              exact ⟨Nat.le_refl _, fun _ _ => ⟨hk, hn, .nil, rfl⟩⟩
            | false =>
              rw [if_neg (by simp [hn])] at h
              obtain ⟨h1, h2⟩ := ih.block _ _ _ _ h
              rw [hw.error, if_pos (by unfold nextErr; split <;> decide)] at h1
              exact ⟨by omega, fun he => absurd he (by omega)⟩
          | false =>
            rw [if_neg (by simp [hk])] at h
            cases e : blockOpen w n k x ls st with
            | none => rw [e] at h; cases h
            | some p =>
              rw [e] at h
              by_cases hn : k = .non
              · have hp : (ls, st) = p := by
                  subst hn
                  cases n with
                  | zero => cases e
                  | succ n => simpa [RuC.Cond.blockOpen] using e
                subst hp
                obtain ⟨h3, h4⟩ := ih.block _ _ _ _ h
                exact ⟨h3, fun _ hs => absurd (by rw [hn]; exact List.mem_cons_self) (hs x)⟩
              · have ho := Kw.opens_of hk hn
                obtain ⟨h1, h2⟩ := ih.blockOpen _ _ _ _ _ e ho
                obtain ⟨h3, h4⟩ := ih.block _ _ _ _ h
                refine ⟨by omega, fun he hs => ?_⟩
                have hc := h2 (by omega) hs.tail
                exact hc.upto ho (h4 (by omega) (hc.sound hs.tail))
    · intro k x ls st r h ho
      cases k <;> first | (cases ho; done) | skip
      case ifk =>
        simp only [RuC.Cond.blockOpen] at h
        cases e : elifs w n x ls st with
        | none => rw [e] at h; cases h
        | some p =>
          rw [e] at h
          obtain ⟨h1, h2⟩ := ih.elifs _ _ _ _ e
          obtain ⟨h3, h4⟩ := finish_silent hw x p.1 p.2
          simp only [Option.some.injEq] at h
          subst h
          refine ⟨by omega, fun he hs => ?_⟩
          obtain ⟨q, hq, h5, h6⟩ := h4 (by omega)
          rw [h6]
          exact (h2 (by omega) hs q hq).2
      case whil =>
        simp only [RuC.Cond.blockOpen] at h
        split at h
        · unfold whileSkip at h
          cases e : skip w false n (w.cond x st).2.err .whil ls (w.cond x st).2 with
          | none => rw [e] at h; cases h
          | some p =>
            rw [e] at h
            obtain ⟨h1, h2⟩ := (skip_silent hw false n).1 _ _ _ _ _ e
            rw [hw.cond] at h1 h2
            obtain ⟨e', st'⟩ := p
            cases e' with
            | none =>
              obtain rfl : ([], w.error .unterminated x st') = r := by simpa using h
              have := hw.error .unterminated x st'
              rw [if_pos (by decide)] at this
              simp only at h1 ⊢
              exact ⟨by omega, fun he => absurd he (by omega)⟩
            | some q =>
              obtain ⟨k', x', ls'⟩ := q
              obtain rfl : (ls', st') = r := by simpa using h
              refine ⟨h1, fun he hs => ?_⟩
              have hu := h2 he hs
              have h5 := hu.2.1
              cases k' <;> first | (cases h5; done) | exact hu.closed rfl
        · obtain ⟨h1, h2⟩ := ih.loop _ _ _ _ _ _ h
          rw [told_err, hw.cond] at h1
          exact ⟨h1, fun he => h2 (he.trans (hw.cond x st).symm)⟩
      case «macro» =>
        simp only [RuC.Cond.blockOpen] at h
        unfold parseMacro at h
        cases e : skip w (w.macroHead x st).1 n (w.macroHead x st).2.err .macro ls (w.macroHead x st).2 with
        | none => rw [e] at h; cases h
        | some p =>
          rw [e] at h
          obtain ⟨h1, h2⟩ := (skip_silent hw _ n).1 _ _ _ _ _ e
          rw [hw.head] at h1 h2
          obtain ⟨e', st'⟩ := p
          cases e' with
          | none =>
            obtain rfl : ([], w.defMacro x ls (w.error .unterminated x st')) = r := by simpa using h
            have := hw.error .unterminated x st'
            rw [if_pos (by decide)] at this
            simp only [hw.defs] at h1 ⊢
            exact ⟨by omega, fun he => absurd he (by omega)⟩
          | some q =>
            obtain ⟨k', x', ls'⟩ := q
            obtain rfl : (ls', w.defMacro x (ls.take (ls.length - ls'.length - 1)) st') = r := by
              simpa using h
            simp only [hw.defs] at h1 ⊢
            refine ⟨h1, fun he hs => ?_⟩
            have hu := h2 he hs
            have h5 := hu.2.1
            cases k' <;> first | (cases h5; done) | exact hu.closed rfl
      case ifdef => exact ih.ifdefs _ _ _ _ _ _ h (.inl rfl)
      case ifndef => exact ih.ifdefs _ _ _ _ _ _ h (.inr rfl)
    · intro x ls st r h
      simp only [RuC.Cond.elifs] at h
      split at h
      · cases e : block w n .elif ls (w.cond x st).2 with
        | none => rw [e] at h; cases h
        | some p =>
          rw [e] at h
          obtain ⟨h1, h2⟩ := ih.block _ _ _ _ e
          obtain ⟨h3, h4⟩ := drain_silent hw n _ _ _ h
          rw [hw.cond] at h1 h2
          refine ⟨by omega, fun he hs q hq => ?_⟩
          obtain ⟨q2, e2, h5, h6⟩ := h4 (by omega) q hq
          have hu := h2 (by omega) hs
          rw [e2] at hu
          exact ⟨h5, hu.closed (h6 (hu.sound hs))⟩
      · cases e : skip w false n (w.cond x st).2.err .elif ls (w.cond x st).2 with
        | none => rw [e] at h; cases h
        | some p =>
          rw [e] at h
          have hu := (skip_silent hw false n).1 _ _ _ _ _ e
          rw [hw.cond] at hu
          obtain ⟨e', st'⟩ := p
          cases e' with
          | none => exact next_none hu.1 h
          | some q => exact next_silent ih (.inr (.inr rfl)) hu h
    · intro k b x ls st r h hk
      simp only [RuC.Cond.ifdefs] at h
      cases e : ifdefHead w n k b x ls st with
      | none => rw [e] at h; cases h
      | some p =>
        rw [e] at h
        simp only at h
        cases e2 : drain w n p.1 p.2 with
        | none => rw [e2] at h; cases h
        | some q =>
          rw [e2] at h
          obtain ⟨h1, h2⟩ := ih.ifdefHead _ _ _ _ _ _ e hk
          obtain ⟨h3, h4⟩ := drain_silent hw n _ _ _ e2
          obtain ⟨h5, h6⟩ := finish_silent hw x q.1 q.2
          simp only [Option.some.injEq] at h
          subst h
          refine ⟨by omega, fun he hs => ?_⟩
          obtain ⟨y, hy, h7, h8⟩ := h6 (by omega)
          obtain ⟨z, hz, h9, h10⟩ := h4 (by omega) y hy
          obtain ⟨h11, h12⟩ := h2 (by omega) hs z hz
          rw [h8]
          exact h12 _ (h10 h11)
    · intro k b x ls st r h hk
      simp only [RuC.Cond.ifdefHead] at h
      split at h
      · simp only [Option.some.injEq] at h
        subst h
        rw [hw.name]
        refine ⟨Nat.le_refl _, fun _ hs q hq => ?_⟩
        simp only [Option.some.injEq] at hq
        subst hq
        exact ⟨hs, fun _ h => h⟩
      · split at h
        · obtain ⟨h1, h2⟩ := ih.block _ _ _ _ h
          rw [hw.name] at h1 h2
          refine ⟨h1, fun he hs q hq => ?_⟩
          have hu := h2 he hs
          rw [hq] at hu
          exact ⟨hu.sound hs, fun _ hc => hu.closed hc⟩
        · have key : told m st ≤ told m r.2 ∧
              (told m r.2 = told m st → Sound ls → ∀ q, r.1 = some q → q.1 = .endif ∧ Closed k ls q.2.2) := by
            cases e : skip w false n (w.name x st).2.err k ls (w.name x st).2 with
            | none => rw [e] at h; cases h
            | some p =>
              rw [e] at h
              have hu := (skip_silent hw false n).1 _ _ _ _ _ e
              rw [hw.name] at hu
              obtain ⟨e', st'⟩ := p
              cases e' with
              | none => exact next_none hu.1 h
              | some q => exact next_silent ih (by rcases hk with h | h <;> simp [h]) hu h
          refine ⟨key.1, fun he hs q hq => ?_⟩
          obtain ⟨h5, h6⟩ := key.2 he hs q hq
          refine ⟨h6.sound hs, fun ls' hc => ?_⟩
          rw [h5] at hc
          obtain rfl : q.2.2 = ls' := hc
          exact h6
    · intro i b x ls st r h
      simp only [RuC.Cond.loop] at h
      cases e : block w n .whil ls st with
      | none => rw [e] at h; cases h
      | some p =>
        rw [e] at h
        obtain ⟨h1, h2⟩ := ih.block _ _ _ _ e
        obtain ⟨e', st'⟩ := p
        cases e' with
        | none =>
          obtain rfl : ([], w.error .unterminated x st') = r := by simpa using h
          have := hw.error .unterminated x st'
          rw [if_pos (by decide)] at this
          simp only at h1 ⊢
          exact ⟨by omega, fun he => absurd he (by omega)⟩
        | some q =>
          obtain ⟨k', x', ls'⟩ := q
          simp only at h h1 h2
          have hcl : told m st' = told m st → Sound ls → Closed .whil ls ls' := by
            intro he hs
            have hu := h2 he hs
            have h5 := hu.2.1
            cases k' <;> first | (cases h5; done) | exact hu.closed rfl
          split at h
          · obtain rfl : (ls', w.error .iterationMax x st') = r := by simpa using h
            have := hw.error .iterationMax x st'
            rw [if_neg (by decide)] at this
            simp only [Nat.add_zero] at this ⊢
            rw [this]
            exact ⟨h1, hcl⟩
          · split at h
            · obtain rfl : (ls', st') = r := by simpa using h
              exact ⟨h1, hcl⟩
            · split at h
              · simp only [Option.some.injEq] at h
                subst h
                simp only [told_err, hw.cond]
                exact ⟨h1, hcl⟩
              · obtain ⟨h3, h4⟩ := ih.loop _ _ _ _ _ _ h
                rw [hw.cond] at h3 h4
                exact ⟨by omega, fun he hs => h4 (by omega) hs⟩

/-! ## Properly nested text is read in silence -/

theorem told_repeats (hw : Fair w m) {x : X} {body : St σ O → St σ O} (hb : ∀ s, told m (body s) = told m s)
    (n : Nat) : ∀ s, told m (repeats w x body n s) = told m s := by
  induction n with
  | zero =>
    intro s
    simp only [repeats]
    rw [hw.error, if_neg (by decide), hb, Nat.add_zero]
  | succ n ih =>
    intro s
    simp only [repeats]
    split
    · exact hb s
    · split
      · rw [hw.cond, hb]
      · rw [ih, hw.cond, hb]

theorem told_whiles (hw : Fair w m) {x : X} {body : St σ O → St σ O} (hb : ∀ s, told m (body s) = told m s)
    (n : Nat) (s : St σ O) : told m (whiles w x body n s) = told m s := by
  unfold whiles
  split
  · exact hw.cond _ _
  · simp only [told_err, told_repeats hw hb]
    exact hw.cond _ _

theorem told_holds (hw : Fair w m) (g : Guard) (x : X) (st : St σ O) :
    told m (g.holds w x st).2 = told m st := by
  cases g <;> simp only [Guard.holds]
  · exact hw.cond _ _
  · exact hw.name _ _
  · exact hw.name _ _

mutual
theorem told_prog (hw : Fair w m) (p : Prog X) (st : St σ O) : told m (p.meaning w st) = told m st := by
  cases p with
  | nil => rfl
  | plain x rest => simp only [Prog.meaning]; rw [told_prog hw rest, hw.act]
  | cond g x body tail rest =>
    simp only [Prog.meaning]
    rw [told_prog hw rest]
    split
    · rw [told_prog hw body, told_holds hw]
    · split
      · rw [told_tail hw tail, told_holds hw]
      · exact told_holds hw _ _ _
  | loop x body e rest =>
    simp only [Prog.meaning]
    rw [told_prog hw rest, told_whiles hw (fun s => told_prog hw body s)]
  | define x body e rest => simp only [Prog.meaning]; rw [told_prog hw rest, hw.defs, hw.head]
theorem told_tail (hw : Fair w m) (t : Tail X) (st : St σ O) : told m (t.meaning w st) = told m st := by
  cases t with
  | fin e => rfl
  | els x b e => exact told_prog hw b st
  | elif x b t =>
    simp only [Tail.meaning]
    split
    · rw [told_prog hw b, hw.cond]
    · rw [told_tail hw t, hw.cond]
end

end RuC.Cond
