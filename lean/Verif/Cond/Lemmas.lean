import Verif.Cond.Spec

/-! More depth does not change an answer; enough depth gives one. -/

namespace RuC.Cond
variable {σ X O : Type} {w : World σ X O}

/-! ## Monotonicity -/

theorem skip_nest_mono (mac : Bool) (n : Nat) :
    (∀ wa b ls (st : St σ O) r, skip w mac n wa b ls st = some r → skip w mac (n + 1) wa b ls st = some r) ∧
    (∀ k x ls (st : St σ O) r, nest w mac n k x ls st = some r → nest w mac (n + 1) k x ls st = some r) := by
  induction n with
  | zero => constructor <;> intros <;> rename_i h <;> cases h
  | succ n ih =>
    constructor
    · intro wa b ls st r h
      cases ls with
      | nil => exact h
      | cons l ls =>
        cases l with
        | plain x => exact ih.1 _ _ _ _ _ h
        | mark k x =>
          simp only [skip] at h ⊢
          split
          · rename_i hk
            rw [if_pos hk] at h
            split
            · rename_i hn; rw [if_pos hn] at h; exact h
            · rename_i hn; rw [if_neg hn] at h; exact ih.1 _ _ _ _ _ h
          · rename_i hk
            rw [if_neg hk] at h
            split
            · rename_i ho
              rw [if_pos ho] at h
              cases e : nest w mac n k x ls (reset mac wa st) with
              | none => rw [e] at h; cases h
              | some p =>
                rw [e] at h
                rw [ih.2 _ _ _ _ _ e]
                exact ih.1 _ _ _ _ _ h
            · rename_i ho; rw [if_neg ho] at h; exact ih.1 _ _ _ _ _ h
    · intro k x ls st r h
      simp only [nest] at h ⊢
      cases e : skip w mac n st.err k ls st with
      | none => rw [e] at h; cases h
      | some p =>
        rw [e] at h
        rw [ih.1 _ _ _ _ _ e]
        obtain ⟨e', st'⟩ := p
        cases e' with
        | none => exact h
        | some q =>
          obtain ⟨k', x', ls'⟩ := q
          simp only at h ⊢
          split
          · rename_i hk; rw [if_pos hk] at h; exact ih.2 _ _ _ _ _ h
          · rename_i hk; rw [if_neg hk] at h; exact h

theorem mono_le {α : Type} {f : Nat → Option α} (h : ∀ n r, f n = some r → f (n + 1) = some r) {n m r}
    (hn : f n = some r) (hm : n ≤ m) : f m = some r := by
  induction hm with
  | refl => exact hn
  | step _ ih => exact h _ _ ih

theorem skip_mono {mac n m wa b ls} {st : St σ O} {r} (h : skip w mac n wa b ls st = some r) (hm : n ≤ m) :
    skip w mac m wa b ls st = some r :=
  mono_le (f := fun n => skip w mac n wa b ls st) (fun n _ => (skip_nest_mono mac n).1 _ _ _ _ _) h hm

theorem nest_mono {mac n m k x ls} {st : St σ O} {r} (h : nest w mac n k x ls st = some r) (hm : n ≤ m) :
    nest w mac m k x ls st = some r :=
  mono_le (f := fun n => nest w mac n k x ls st) (fun n _ => (skip_nest_mono mac n).2 _ _ _ _ _) h hm

theorem drain_step (n : Nat) : ∀ e (st : St σ O) r, drain w n e st = some r → drain w (n + 1) e st = some r := by
  induction n with
  | zero => intro _ _ _ h; cases h
  | succ n ih =>
    intro e st r h
    cases e with
    | none => exact h
    | some q =>
      obtain ⟨k, x, ls⟩ := q
      simp only [drain] at h ⊢
      split
      · rename_i hk; rw [if_pos hk] at h; exact h
      · rename_i hk
        rw [if_neg hk] at h
        cases e : skip w false n st.err k ls st with
        | none => rw [e] at h; cases h
        | some p =>
          rw [e] at h
          rw [skip_mono e (Nat.le_succ n)]
          exact ih _ _ _ h

theorem drain_mono {n m e} {st : St σ O} {r} (h : drain w n e st = some r) (hm : n ≤ m) :
    drain w m e st = some r :=
  mono_le (f := fun n => drain w n e st) (fun n _ => drain_step n _ _ _) h hm

theorem parseMacro_mono {n m x ls} {st : St σ O} {r} (h : parseMacro w n x ls st = some r) (hm : n ≤ m) :
    parseMacro w m x ls st = some r := by
  unfold parseMacro at h ⊢
  cases e : skip w (w.macroHead x st).1 n (w.macroHead x st).2.err .macro ls (w.macroHead x st).2 with
  | none => rw [e] at h; cases h
  | some p => rw [skip_mono e hm]; rw [e] at h; exact h

theorem whileSkip_mono {n m x ls} {st : St σ O} {r} (h : whileSkip w n x ls st = some r) (hm : n ≤ m) :
    whileSkip w m x ls st = some r := by
  unfold whileSkip at h ⊢
  cases e : skip w false n st.err .whil ls st with
  | none => rw [e] at h; cases h
  | some p => rw [skip_mono e hm]; rw [e] at h; exact h

theorem block_all_mono (n : Nat) :
    (∀ b ls (st : St σ O) r, block w n b ls st = some r → block w (n + 1) b ls st = some r) ∧
    (∀ k x ls (st : St σ O) r, blockOpen w n k x ls st = some r → blockOpen w (n + 1) k x ls st = some r) ∧
    (∀ k b x ls (st : St σ O) r, ifdefs w n k b x ls st = some r → ifdefs w (n + 1) k b x ls st = some r) ∧
    (∀ k b x ls (st : St σ O) r, ifdefHead w n k b x ls st = some r →
      ifdefHead w (n + 1) k b x ls st = some r) ∧
    (∀ x ls (st : St σ O) r, elifs w n x ls st = some r → elifs w (n + 1) x ls st = some r) ∧
    (∀ i b x ls (st : St σ O) r, loop w n i b x ls st = some r → loop w (n + 1) i b x ls st = some r) := by
  induction n with
  | zero =>
    refine ⟨?_, ?_, ?_, ?_, ?_, ?_⟩ <;> intros <;> rename_i h <;> cases h
  | succ n ih =>
    obtain ⟨i1, i2, i3, i4, i5, i6⟩ := ih
    refine ⟨?_, ?_, ?_, ?_, ?_, ?_⟩
    · intro b ls st r h
      cases ls with
      | nil => exact h
      | cons l ls =>
        cases l with
        | plain x => exact i1 _ _ _ _ h
        | mark k x =>
          simp only [block] at h ⊢
          split
          · rename_i hk
            rw [if_pos hk] at h
            split
            · rename_i hn; rw [if_pos hn] at h; exact h
            · rename_i hn; rw [if_neg hn] at h; exact i1 _ _ _ _ h
          · rename_i hk
            rw [if_neg hk] at h
            cases e : blockOpen w n k x ls st with
            | none => rw [e] at h; cases h
            | some p =>
              rw [e] at h
              rw [i2 _ _ _ _ _ e]
              exact i1 _ _ _ _ h
    · intro k x ls st r h
      cases k <;> simp only [blockOpen] at h ⊢
      case ifk =>
        cases e : elifs w n x ls st with
        | none => rw [e] at h; cases h
        | some p => rw [e] at h; rw [i5 _ _ _ _ e]; exact h
      case whil =>
        split
        · rename_i hc; rw [if_pos hc] at h; exact whileSkip_mono h (Nat.le_succ n)
        · rename_i hc; rw [if_neg hc] at h; exact i6 _ _ _ _ _ _ h
      case «macro» => exact parseMacro_mono h (Nat.le_succ n)
      case ifdef => exact i3 _ _ _ _ _ _ h
      case ifndef => exact i3 _ _ _ _ _ _ h
      all_goals exact h
    · intro k b x ls st r h
      simp only [ifdefs] at h ⊢
      cases e : ifdefHead w n k b x ls st with
      | none => rw [e] at h; cases h
      | some p =>
        rw [e] at h
        rw [i4 _ _ _ _ _ _ e]
        simp only at h ⊢
        cases e2 : drain w n p.1 p.2 with
        | none => rw [e2] at h; cases h
        | some q => rw [e2] at h; rw [drain_mono e2 (Nat.le_succ n)]; exact h
    · intro k b x ls st r h
      simp only [ifdefHead] at h ⊢
      split
      · rename_i hc; rw [if_pos hc] at h; exact h
      · rename_i hc
        rw [if_neg hc] at h
        split
        · rename_i hd; rw [if_pos hd] at h; exact i1 _ _ _ _ h
        · rename_i hd
          rw [if_neg hd] at h
          cases e : skip w false n (w.name x st).2.err k ls (w.name x st).2 with
          | none => rw [e] at h; cases h
          | some p =>
            rw [e] at h
            rw [skip_mono e (Nat.le_succ n)]
            obtain ⟨e', st'⟩ := p
            cases e' with
            | none => exact h
            | some q =>
              obtain ⟨k', x', ls'⟩ := q
              cases k' <;> simp only at h ⊢ <;> first | exact h | exact i5 _ _ _ _ h | exact i1 _ _ _ _ h
    · intro x ls st r h
      simp only [elifs] at h ⊢
      split
      · rename_i hc
        rw [if_pos hc] at h
        cases e : block w n .elif ls (w.cond x st).2 with
        | none => rw [e] at h; cases h
        | some p =>
          rw [e] at h
          rw [i1 _ _ _ _ e]
          exact drain_mono h (Nat.le_succ n)
      · rename_i hc
        rw [if_neg hc] at h
        cases e : skip w false n (w.cond x st).2.err .elif ls (w.cond x st).2 with
        | none => rw [e] at h; cases h
        | some p =>
          rw [e] at h
          rw [skip_mono e (Nat.le_succ n)]
          obtain ⟨e', st'⟩ := p
          cases e' with
          | none => exact h
          | some q =>
            obtain ⟨k', x', ls'⟩ := q
            cases k' <;> simp only at h ⊢ <;> first | exact h | exact i5 _ _ _ _ h | exact i1 _ _ _ _ h
    · intro i b x ls st r h
      simp only [loop] at h ⊢
      cases e : block w n .whil ls st with
      | none => rw [e] at h; cases h
      | some p =>
        rw [e] at h
        rw [i1 _ _ _ _ e]
        obtain ⟨e', st'⟩ := p
        cases e' with
        | none => exact h
        | some q =>
          obtain ⟨k', x', ls'⟩ := q
          simp only at h ⊢
          split
          · rename_i hc; rw [if_pos hc] at h; exact h
          · rename_i hc
            rw [if_neg hc] at h
            split
            · rename_i hd; rw [if_pos hd] at h; exact h
            · rename_i hd
              rw [if_neg hd] at h
              split
              · rename_i hz; rw [if_pos hz] at h; exact h
              · rename_i hz; rw [if_neg hz] at h; exact i6 _ _ _ _ _ _ h

theorem block_mono {n m b ls} {st : St σ O} {r} (h : block w n b ls st = some r) (hm : n ≤ m) :
    block w m b ls st = some r :=
  mono_le (f := fun n => block w n b ls st) (fun n _ => (block_all_mono n).1 _ _ _ _) h hm

theorem blockOpen_mono {n m k x ls} {st : St σ O} {r} (h : blockOpen w n k x ls st = some r) (hm : n ≤ m) :
    blockOpen w m k x ls st = some r :=
  mono_le (f := fun n => blockOpen w n k x ls st) (fun n _ => (block_all_mono n).2.1 _ _ _ _ _) h hm

theorem elifs_mono {n m x ls} {st : St σ O} {r} (h : elifs w n x ls st = some r) (hm : n ≤ m) :
    elifs w m x ls st = some r :=
  mono_le (f := fun n => elifs w n x ls st) (fun n _ => (block_all_mono n).2.2.2.2.1 _ _ _ _) h hm

theorem ifdefHead_mono {n m k b x ls} {st : St σ O} {r} (h : ifdefHead w n k b x ls st = some r) (hm : n ≤ m) :
    ifdefHead w m k b x ls st = some r :=
  mono_le (f := fun n => ifdefHead w n k b x ls st) (fun n _ => (block_all_mono n).2.2.2.1 _ _ _ _ _ _) h hm

theorem loop_mono {n m i b x ls} {st : St σ O} {r} (h : loop w n i b x ls st = some r) (hm : n ≤ m) :
    loop w m i b x ls st = some r :=
  mono_le (f := fun n => loop w n i b x ls st) (fun n _ => (block_all_mono n).2.2.2.2.2 _ _ _ _ _ _) h hm

end RuC.Cond
