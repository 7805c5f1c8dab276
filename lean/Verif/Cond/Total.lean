import Verif.Cond.Lemmas

/-! Enough depth gives an answer, and what is left is shorter. -/

namespace RuC.Cond
variable {σ X O : Type} {w : World σ X O}

/-- The lines behind an end. -/
def behind : End X → Nat
  | none => 0
  | some (_, _, ls) => ls.length + 1

theorem skip_nest_total (mac : Bool) (n : Nat) :
    (∀ wa b (ls : List (Line X)) (st : St σ O), 2 * ls.length + 1 ≤ n →
      ∃ r, skip w mac n wa b ls st = some r ∧ behind r.1 ≤ ls.length) ∧
    (∀ k x (ls : List (Line X)) (st : St σ O), 2 * ls.length + 2 ≤ n →
      ∃ r, nest w mac n k x ls st = some r ∧ r.1.length ≤ ls.length) := by
  induction n with
  | zero => exact ⟨fun _ _ _ _ h => absurd h (by omega), fun _ _ _ _ h => absurd h (by omega)⟩
  | succ n ih =>
    constructor
    · intro wa b ls st h
      cases ls with
      | nil => exact ⟨_, rfl, Nat.le_refl _⟩
      | cons l ls =>
        simp only [List.length_cons] at h ⊢
        cases l with
        | plain x =>
          obtain ⟨r, h1, h2⟩ := ih.1 wa b ls (reset mac wa st) (by omega)
          exact ⟨r, h1, by omega⟩
        | mark k x =>
          simp only [skip]
          split
          · split
            · exact ⟨_, rfl, Nat.le_refl _⟩
            · obtain ⟨r, h1, h2⟩ := ih.1 wa b ls (w.error (nextErr b k) x (reset mac wa st)) (by omega)
              exact ⟨r, h1, by omega⟩
          · split
            · obtain ⟨r, h1, h2⟩ := ih.2 k x ls (reset mac wa st) (by omega)
              obtain ⟨r', h3, h4⟩ := ih.1 wa b r.1 (reset mac wa r.2) (by omega)
              rw [h1]
              exact ⟨r', h3, by omega⟩
            · obtain ⟨r, h1, h2⟩ := ih.1 wa b ls (reset mac wa st) (by omega)
              exact ⟨r, h1, by omega⟩
    · intro k x ls st h
      simp only [nest]
      obtain ⟨r, h1, h2⟩ := ih.1 st.err k ls st (by omega)
      rw [h1]
      obtain ⟨e, st'⟩ := r
      cases e with
      | none => exact ⟨_, rfl, Nat.zero_le _⟩
      | some q =>
        obtain ⟨k', x', ls'⟩ := q
        simp only [behind] at h2 ⊢
        split
        · obtain ⟨r, h3, h4⟩ := ih.2 k' x ls' st' (by omega)
          exact ⟨r, h3, by omega⟩
        · exact ⟨_, rfl, by simp only; omega⟩

theorem skip_total {mac n wa b} {ls : List (Line X)} {st : St σ O} (h : 2 * ls.length + 1 ≤ n) :
    ∃ r, skip w mac n wa b ls st = some r ∧ behind r.1 ≤ ls.length := (skip_nest_total mac n).1 _ _ _ _ h

theorem drain_total (n : Nat) : ∀ (e : End X) (st : St σ O), 2 * behind e + 1 ≤ n →
    ∃ r, drain w n e st = some r ∧ behind r.1 ≤ behind e := by
  induction n with
  | zero => intro e st h; omega
  | succ n ih =>
    intro e st h
    cases e with
    | none => exact ⟨_, rfl, Nat.le_refl _⟩
    | some q =>
      obtain ⟨k, x, ls⟩ := q
      simp only [drain, behind] at h ⊢
      split
      · exact ⟨_, rfl, Nat.le_refl _⟩
      · obtain ⟨r, h1, h2⟩ := skip_total (w := w) (mac := false) (wa := st.err) (b := k) (st := st)
          (show 2 * ls.length + 1 ≤ n by omega)
        rw [h1]
        obtain ⟨r', h3, h4⟩ := ih r.1 r.2 (by omega)
        exact ⟨r', h3, Nat.le_trans h4 (by omega)⟩

/-- A depth that is enough for so many lines. -/
def depth (l : Nat) : Nat := (maxIteration + 10) * (l + 1)

theorem depth_succ (l : Nat) : depth (l + 1) = depth l + (maxIteration + 10) := by
  unfold depth; rw [Nat.mul_add (maxIteration + 10) (l + 1) 1, Nat.mul_one]

theorem depth_mono {a b : Nat} (h : a ≤ b) : depth a ≤ depth b :=
  Nat.mul_le_mul_left _ (by omega)

theorem depth_ge (l : Nat) : 10 * l + 10 ≤ depth l := by
  unfold depth
  exact Nat.le_trans (by omega) (Nat.mul_le_mul_right (l + 1) (Nat.le_add_left 10 maxIteration))

theorem finish_length (x : X) (e : End X) (st : St σ O) : (finish w x e st).1.length ≤ behind e := by
  cases e with
  | none => exact Nat.le_refl _
  | some q =>
    obtain ⟨k, x', ls⟩ := q
    cases k <;> simp only [finish, behind] <;> omega

/-- Blocks of at most so many lines have an answer. -/
def Ends (w : World σ X O) (l : Nat) : Prop :=
  ∀ n b (ls : List (Line X)) (st : St σ O), ls.length ≤ l → depth ls.length ≤ n →
    ∃ r, block w n b ls st = some r ∧ behind r.1 ≤ ls.length

theorem loop_total {l : Nat} (hB : Ends w l) (d : Nat) : ∀ n i was x (ls : List (Line X)) (st : St σ O),
    ls.length ≤ l → maxIteration - i = d → depth ls.length + d + 1 ≤ n →
    ∃ r, loop w n i was x ls st = some r ∧ r.1.length ≤ ls.length := by
  induction d with
  | zero =>
    intro n i was x ls st hl hd hn
    obtain ⟨n, rfl⟩ : ∃ m, n = m + 1 := ⟨n - 1, by omega⟩
    obtain ⟨⟨e, st'⟩, h1, h2⟩ := hB n .whil ls st hl (by omega)
    simp only [loop]
    rw [h1]
    cases e with
    | none => exact ⟨_, rfl, Nat.zero_le _⟩
    | some q =>
      obtain ⟨k, x', ls'⟩ := q
      simp only [behind] at h2 ⊢
      rw [if_pos (by omega)]
      exact ⟨_, rfl, by simp only; omega⟩
  | succ d ih =>
    intro n i was x ls st hl hd hn
    obtain ⟨n, rfl⟩ : ∃ m, n = m + 1 := ⟨n - 1, by omega⟩
    obtain ⟨⟨e, st'⟩, h1, h2⟩ := hB n .whil ls st hl (by omega)
    simp only [loop]
    rw [h1]
    cases e with
    | none => exact ⟨_, rfl, Nat.zero_le _⟩
    | some q =>
      obtain ⟨k, x', ls'⟩ := q
      simp only [behind] at h2 ⊢
      rw [if_neg (by omega)]
      split
      · exact ⟨_, rfl, by simp only; omega⟩
      · split
        · exact ⟨_, rfl, by simp only; omega⟩
        · exact ih n (i + 1) was x ls _ hl (by omega) (by omega)

theorem elifs_total {l : Nat} (hB : Ends w l) : ∀ n x (ls : List (Line X)) (st : St σ O),
    ls.length ≤ l → depth ls.length + 1 ≤ n →
    ∃ r, elifs w n x ls st = some r ∧ behind r.1 ≤ ls.length := by
  intro n
  induction n with
  | zero => intro x ls st _ h; omega
  | succ n ih =>
    intro x ls st hl hn
    have hg := depth_ge ls.length
    simp only [elifs]
    split
    · obtain ⟨r, h1, h2⟩ := hB n .elif ls (w.cond x st).2 hl (by omega)
      rw [h1]
      obtain ⟨r', h3, h4⟩ := drain_total (w := w) n r.1 r.2 (by omega)
      exact ⟨r', h3, by omega⟩
    · obtain ⟨⟨e, st'⟩, h1, h2⟩ := skip_total (w := w) (mac := false) (wa := (w.cond x st).2.err) (b := .elif)
        (st := (w.cond x st).2) (show 2 * ls.length + 1 ≤ n by omega)
      rw [h1]
      cases e with
      | none => exact ⟨_, rfl, h2⟩
      | some q =>
        obtain ⟨k, x', ls'⟩ := q
        simp only [behind] at h2
        have hd : depth ls'.length + 1 ≤ n := by
          have e1 := depth_succ ls'.length
          have e2 := depth_mono (show ls'.length + 1 ≤ ls.length by omega)
          omega
        have hd' : depth ls'.length ≤ n := by omega
        cases k
        case elif => obtain ⟨r, h3, h4⟩ := ih x' ls' st' (by omega) hd; exact ⟨r, h3, by omega⟩
        case els => obtain ⟨r, h3, h4⟩ := hB n .els ls' st' (by omega) hd'; exact ⟨r, h3, by omega⟩
        all_goals exact ⟨_, rfl, h2⟩

theorem ifdefHead_total {l : Nat} (hB : Ends w l) (n : Nat) (k : Kw) (b : Bool) (x : X) (ls : List (Line X))
    (st : St σ O) (hl : ls.length ≤ l) (hn : depth ls.length + 2 ≤ n) :
    ∃ r, ifdefHead w n k b x ls st = some r ∧ behind r.1 ≤ ls.length + 1 := by
  obtain ⟨n, rfl⟩ : ∃ m, n = m + 1 := ⟨n - 1, by omega⟩
  have hg := depth_ge ls.length
  simp only [ifdefHead]
  split
  · exact ⟨_, rfl, Nat.le_refl _⟩
  · split
    · obtain ⟨r, h3, h4⟩ := hB n k ls (w.name x st).2 hl (by omega); exact ⟨r, h3, by omega⟩
    · obtain ⟨⟨e, st'⟩, h1, h2⟩ := skip_total (w := w) (mac := false) (wa := (w.name x st).2.err) (b := k)
        (st := (w.name x st).2) (show 2 * ls.length + 1 ≤ n by omega)
      rw [h1]
      cases e with
      | none => exact ⟨_, rfl, by simp only [behind]; omega⟩
      | some q =>
        obtain ⟨k, x', ls'⟩ := q
        simp only [behind] at h2
        have hd' : depth ls'.length ≤ depth ls.length := depth_mono (by omega)
        cases k
        case elif =>
          obtain ⟨r, h3, h4⟩ := elifs_total hB n x' ls' st' (by omega) (by omega)
          exact ⟨r, h3, by omega⟩
        case els =>
          obtain ⟨r, h3, h4⟩ := hB n .els ls' st' (by omega) (by omega); exact ⟨r, h3, by omega⟩
        all_goals exact ⟨_, rfl, by simp only [behind]; omega⟩

theorem ifdefs_total {l : Nat} (hB : Ends w l) (n : Nat) (k : Kw) (b : Bool) (x : X) (ls : List (Line X))
    (st : St σ O) (hl : ls.length ≤ l) (hn : depth ls.length + 3 ≤ n) :
    ∃ r, ifdefs w n k b x ls st = some r ∧ r.1.length ≤ ls.length := by
  obtain ⟨n, rfl⟩ : ∃ m, n = m + 1 := ⟨n - 1, by omega⟩
  have hg := depth_ge ls.length
  simp only [ifdefs]
  obtain ⟨r, h1, h2⟩ := ifdefHead_total hB n k b x ls st hl (by omega)
  obtain ⟨r', h3, h4⟩ := drain_total (w := w) n r.1 r.2 (by omega)
  rw [h1]
  simp only
  rw [h3]
  refine ⟨_, rfl, ?_⟩
  obtain ⟨e, st'⟩ := r'
  have := finish_length (w := w) x e st'
  cases e with
  | none => exact Nat.zero_le _
  | some q =>
    obtain ⟨k, x', ls'⟩ := q
    have h5 := Nat.le_trans h4 h2
    simp only [behind] at h5
    cases k <;> simp only [finish] <;> omega

theorem blockOpen_total {l : Nat} (hB : Ends w l) (n : Nat) (k : Kw) (x : X) (ls : List (Line X))
    (st : St σ O) (hl : ls.length ≤ l) (hn : depth ls.length + maxIteration + 5 ≤ n) :
    ∃ r, blockOpen w n k x ls st = some r ∧ r.1.length ≤ ls.length := by
  obtain ⟨n, rfl⟩ : ∃ m, n = m + 1 := ⟨n - 1, by omega⟩
  have hg := depth_ge ls.length
  cases k
  case ifk =>
    obtain ⟨r, h1, h2⟩ := elifs_total hB n x ls st hl (by omega)
    simp only [blockOpen]
    rw [h1]
    exact ⟨_, rfl, Nat.le_trans (finish_length x r.1 r.2) h2⟩
  case whil =>
    simp only [blockOpen]
    split
    · unfold whileSkip
      obtain ⟨⟨e, st'⟩, h1, h2⟩ := skip_total (w := w) (mac := false) (wa := (w.cond x st).2.err) (b := .whil)
        (st := (w.cond x st).2) (show 2 * ls.length + 1 ≤ n by omega)
      rw [h1]
      cases e with
      | none => exact ⟨_, rfl, Nat.zero_le _⟩
      | some q => exact ⟨_, rfl, by simp only [behind] at h2 ⊢; omega⟩
    · exact loop_total hB maxIteration n 0 _ x ls _ hl (by omega) (by omega)
  case «macro» =>
    simp only [blockOpen]
    unfold parseMacro
    obtain ⟨⟨e, st'⟩, h1, h2⟩ := skip_total (w := w) (mac := (w.macroHead x st).1)
      (wa := (w.macroHead x st).2.err) (b := .macro)
      (st := (w.macroHead x st).2) (show 2 * ls.length + 1 ≤ n by omega)
    rw [h1]
    cases e with
    | none => exact ⟨_, rfl, Nat.zero_le _⟩
    | some q => exact ⟨_, rfl, by simp only [behind] at h2 ⊢; omega⟩
  case ifdef => exact ifdefs_total hB n _ _ x ls st hl (by omega)
  case ifndef => exact ifdefs_total hB n _ _ x ls st hl (by omega)
  all_goals exact ⟨_, rfl, Nat.le_refl _⟩

theorem ends (l : Nat) : Ends w l := by
  induction l with
  | zero =>
    intro n b ls st hl hn
    have := depth_ge ls.length
    obtain ⟨n, rfl⟩ : ∃ m, n = m + 1 := ⟨n - 1, by omega⟩
    cases ls with
    | nil => exact ⟨_, rfl, Nat.le_refl _⟩
    | cons _ _ => simp at hl
  | succ l ih =>
    intro n b ls st hl hn
    have := depth_ge ls.length
    obtain ⟨n, rfl⟩ : ∃ m, n = m + 1 := ⟨n - 1, by omega⟩
    cases ls with
    | nil => exact ⟨_, rfl, Nat.le_refl _⟩
    | cons a ls =>
      simp only [List.length_cons, depth_succ] at hl hn this ⊢
      have hl' : ls.length ≤ l := by omega
      cases a with
      | plain x =>
        obtain ⟨r, h1, h2⟩ := ih n b ls (w.act x st) hl' (by omega)
        exact ⟨r, h1, by omega⟩
      | mark k x =>
        simp only [block]
        split
        · split
          · exact ⟨_, rfl, Nat.le_refl _⟩
          · obtain ⟨r, h1, h2⟩ := ih n b ls (w.error (nextErr b k) x st) hl' (by omega)
            exact ⟨r, h1, by omega⟩
        · obtain ⟨r, h1, h2⟩ := blockOpen_total ih n k x ls st hl' (by omega)
          have := depth_mono h2
          obtain ⟨r', h3, h4⟩ := ih n b r.1 r.2 (by omega) (by omega)
          rw [h1]
          exact ⟨r', h3, by omega⟩

theorem block_total {n b} {ls : List (Line X)} {st : St σ O} (h : depth ls.length ≤ n) :
    ∃ r, block w n b ls st = some r := (ends ls.length n b ls st (Nat.le_refl _) h).imp fun _ h => h.1

end RuC.Cond
