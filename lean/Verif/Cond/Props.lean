import Verif.Cond.Flag

/-! Theorems about block directives (properties C42, C43, C54, C55). -/

namespace RuC.Cond
variable {σ X O : Type} {w : World σ X O} {m : O → Bool}

/-! ## A small world for the examples -/

/-- Lines of the examples. -/
inductive Cmd
  | text (s : String)
  | add
  | less (n : Nat)
  | bad
deriving Repr, DecidableEq

/-- What the examples write. -/
inductive Out
  | text (s : String)
  | msg (k : ErrKind)
deriving Repr, DecidableEq

/-- A world with one number: `add` increases it, `less n` compares it, a name is defined if the number
is not zero, `bad` is a line with an error. -/
def demo : World Nat Cmd Out where
  quiet := false
  act
    | .text s, st => { st with out := st.out ++ [.text s] }
    | .add, st => { st with env := st.env + 1 }
    | .bad, st => { st with err := true }
    | _, st => st
  cond
    | .less n, st => (if st.env < n then 1 else 0, st)
    | _, st => (0, st)
  name
    | .bad, st => (none, { st with err := true })
    | _, st => (some (decide (st.env ≠ 0)), st)
  macroHead := fun _ st => (true, st)
  defMacro := fun _ _ st => st
  report k _ := .msg k

/-- The start of the examples. -/
def start : St Nat Out := { env := 0, err := false, out := [] }

/-- `#ifdef A / a / #elif less 0 / b / #else / add / #if less 5 / c / #endif / #endif / d`. -/
def sample : Prog Cmd :=
  .cond .ifdef .add (.plain (.text "a") .nil)
    (.elif (.less 0) (.plain (.text "b") .nil)
      (.els .add
        (.plain .add (.cond .ifk (.less 5) (.plain (.text "c") .nil) (.fin .add) .nil)) .add))
    (.plain (.text "d") .nil)

/-- `#while less 3 / x / add / #endw / y`. -/
def sampleLoop : Prog Cmd :=
  .loop (.less 3) (.plain (.text "x") (.plain .add .nil)) .add (.plain (.text "y") .nil)

/-- `#if less 1 / a / #else / #elif less 2 / #endif`: the branch after `#else` is skipped. -/
def wrong : List (Line Cmd) :=
  [.mark .ifk (.less 1), .plain (.text "a"), .mark .els .add, .mark .elif (.less 2), .mark .endif .add]

/-! ## C42 -/

/-- C42: preprocessing properly nested text is its meaning: of each conditional the first branch whose
condition holds, or the branch of `#else`, in order; what stands in the other branches has no effect. -/
theorem C42_first_true_branch (p : Prog X) (st : St σ O) (n : Nat)
    (hn : (maxIteration + 10) * (p.lines.length + 1) ≤ n) :
    preprocess w n p.lines st = some (p.meaning w st) := preprocess_prog hn

example : preprocess demo ((maxIteration + 10) * (sample.lines.length + 1)) sample.lines start
    = some { env := 1, err := false, out := [.text "c", .text "d"] } := by
  rw [C42_first_true_branch _ _ _ (Nat.le_refl _)]
  decide

/-! ## C43 -/

theorem repeats_rounds {x : X} {body : St σ O → St σ O} (d : Nat) : ∀ (s t : St σ O) (i : Nat),
    Rounds w x body i s t →
    ∃ k u, i ≤ k ∧ k ≤ i + d ∧ Rounds w x body k s u ∧
      ((k < i + d ∧ (body u).err = true ∧ repeats w x body d t = body u)
      ∨ (k < i + d ∧ (body u).err = false ∧ (w.cond x (body u)).1 = 0 ∧
          repeats w x body d t = (w.cond x (body u)).2)
      ∨ (k = i + d ∧ repeats w x body d t = w.error .iterationMax x (body u))) := by
  induction d with
  | zero => exact fun s t i h => ⟨i, t, Nat.le_refl _, Nat.le_refl _, h, .inr (.inr ⟨rfl, rfl⟩)⟩
  | succ d ih =>
    intro s t i h
    simp only [repeats]
    by_cases he : (body t).err = true
    · exact ⟨i, t, Nat.le_refl _, by omega, h, .inl ⟨by omega, he, by rw [if_pos he]⟩⟩
    · have he' : (body t).err = false := by simpa using he
      by_cases hc : (w.cond x (body t)).1 = 0
      · exact ⟨i, t, Nat.le_refl _, by omega, h, .inr (.inl ⟨by omega, he', hc, by rw [if_neg he, if_pos hc]⟩)⟩
      · obtain ⟨k, u, h1, h2, h3, h4⟩ := ih s _ (i + 1) (h.succ he' hc)
        rw [if_neg he, if_neg hc]
        refine ⟨k, u, by omega, by omega, h3, ?_⟩
        rcases h4 with ⟨a, b⟩ | ⟨a, b⟩ | ⟨a, b⟩
        · exact .inl ⟨by omega, b⟩
        · exact .inr (.inl ⟨by omega, b⟩)
        · exact .inr (.inr ⟨by omega, b⟩)

/-- C43: a loop whose condition is zero does nothing but evaluate it.  Otherwise the body runs `k + 1`
times, the condition was not zero before each, and the loop ends because the condition is zero, or
because the body has reported an error, or, after 32769 runs, with a message.  What follows the loop
is preprocessed from there. -/
theorem C43_loop (x e : X) (body rest : Prog X) (st : St σ O) (n : Nat)
    (hn : (maxIteration + 10) * ((Prog.loop x body e rest).lines.length + 1) ≤ n) :
    ∃ st', preprocess w n (Prog.loop x body e rest).lines st = some (rest.meaning w st') ∧
      (((w.cond x st).1 = 0 ∧ st' = (w.cond x st).2) ∨
       ((w.cond x st).1 ≠ 0 ∧ ∃ k u, k ≤ 32768 ∧
        Rounds w x (body.meaning w) k { (w.cond x st).2 with err := w.quiet && (w.cond x st).2.err } u ∧
        ((k < 32768 ∧ (body.meaning w u).err = true ∧ st' = body.meaning w u)
        ∨ (k < 32768 ∧ (body.meaning w u).err = false ∧ (w.cond x (body.meaning w u)).1 = 0 ∧
            st' = { (w.cond x (body.meaning w u)).2 with
              err := (w.cond x (body.meaning w u)).2.err || (w.cond x st).2.err })
        ∨ (k = 32768 ∧ st' = w.error .iterationMax x (body.meaning w u))))) := by
  rw [C42_first_true_branch _ _ _ hn]
  refine ⟨whiles w x (body.meaning w) maxIteration st, rfl, ?_⟩
  have hm : maxIteration = 32768 := by unfold maxIteration; rfl
  unfold whiles
  by_cases hc : (w.cond x st).1 = 0
  · exact .inl ⟨hc, by rw [if_pos hc]⟩
  · rw [if_neg hc]
    refine .inr ⟨hc, ?_⟩
    obtain ⟨k, u, _, h2, h3, h4⟩ := repeats_rounds (w := w) (x := x) (body := body.meaning w) maxIteration
      { (w.cond x st).2 with err := w.quiet && (w.cond x st).2.err } _ 0 (.zero _)
    simp only [Nat.zero_add] at h2 h4
    refine ⟨k, u, by rw [← hm]; exact h2, h3, ?_⟩
    rw [← hm]
    rcases h4 with ⟨a, b, c⟩ | ⟨a, b, c, d⟩ | ⟨a, b⟩
    · exact .inl ⟨a, b, by simp only [c]; exact or_err _ b⟩
    · exact .inr (.inl ⟨a, b, c, by simp only [d]⟩)
    · exact .inr (.inr ⟨a, by simp only [b]; exact or_err _ (error_err _ _ _)⟩)

/-- C43: preprocessing one text always ends, whatever the text and whatever its single lines do, as
long as these end: the depth of calls is bounded by the number of lines. -/
theorem C43_terminates (ls : List (Line X)) (st : St σ O) (n : Nat)
    (hn : (maxIteration + 10) * (ls.length + 1) ≤ n) : ∃ st', preprocess w n ls st = some st' := by
  obtain ⟨r, h⟩ := block_total (w := w) (b := .non) (st := st) hn
  exact ⟨r.2, by unfold preprocess; rw [h]; rfl⟩

example : preprocess demo ((maxIteration + 10) * (sampleLoop.lines.length + 1)) sampleLoop.lines start
    = some { env := 3, err := false, out := [.text "x", .text "x", .text "x", .text "y"] } := by
  rw [C42_first_true_branch _ _ _ (Nat.le_refl _)]
  decide +kernel

example : ∃ st', preprocess demo ((maxIteration + 10) * (wrong.length + 1)) wrong start = some st' :=
  C43_terminates _ _ _ (Nat.le_refl _)

/-! ## C54 -/

/-- C54: a message about the nesting of directives is reported exactly if the text is not properly
nested. -/
theorem C54_nesting_is_checked (hw : Fair w m) (ls : List (Line X)) (hs : Sound ls) (st st' : St σ O) (n : Nat)
    (hn : (maxIteration + 10) * (ls.length + 1) ≤ n) (h : preprocess w n ls st = some st') :
    told m st ≤ told m st' ∧ (told m st' = told m st ↔ ∃ p : Prog X, ls = p.lines) := by
  unfold preprocess at h
  obtain ⟨r, hr, h2⟩ := Option.map_eq_some_iff.mp h
  obtain ⟨h3, h4⟩ := (quiet_all hw n).block _ _ _ _ hr
  rw [h2] at h3 h4
  refine ⟨h3, fun he => ?_, ?_⟩
  · have hu := h4 he hs
    cases e : r.1 with
    | none => rw [e] at hu; exact hu
    | some q =>
      rw [e] at hu
      have := hu.2.1
      cases hq : q.1 <;> rw [hq] at this <;> cases this
  · rintro ⟨p, rfl⟩
    have := C42_first_true_branch (w := w) p st n hn
    unfold preprocess at this
    rw [hr] at this
    simp only [Option.map_some, Option.some.injEq, h2] at this
    rw [this]
    exact told_prog hw p st

/-- The messages of the examples about nesting. -/
def nestMsg : Out → Bool
  | .msg .iterationMax => false
  | .msg _ => true
  | .text _ => false

theorem demo_fair : Fair demo nestMsg where
  loud := rfl
  rep := by intro k x; cases k <;> rfl
  act := by
    intro x st
    cases x <;> simp [demo, told, List.filter_append, nestMsg]
  cond := by intro x st; cases x <;> rfl
  name := by intro x st; cases x <;> rfl
  head := fun _ _ => rfl
  defs := fun _ _ _ => rfl

/-- The text of the examples that is not properly nested is found out. -/
example : ¬ ∃ p : Prog Cmd, wrong = p.lines := by
  obtain ⟨st', h⟩ := C43_terminates (w := demo) wrong start _ (Nat.le_refl _)
  have hw : preprocess demo 20 wrong start
    = some { env := 0, err := false, out := [.text "a", .msg .after] } := by decide
  obtain ⟨r, h1, h2⟩ := Option.map_eq_some_iff.mp hw
  obtain ⟨r', h3, h4⟩ := Option.map_eq_some_iff.mp h
  have e1 := block_mono h1 (Nat.le_max_left 20 ((maxIteration + 10) * (wrong.length + 1)))
  have e2 := block_mono h3 (Nat.le_max_right 20 ((maxIteration + 10) * (wrong.length + 1)))
  rw [e1] at e2
  simp only [Option.some.injEq] at e2
  rw [← e2, h2] at h4
  have := C54_nesting_is_checked demo_fair wrong (by intro x hx; simp [wrong] at hx) start st' _ (Nat.le_refl _) h
  rw [← this.2, ← h4]
  decide

/-! ## C55 -/

/-- C55 (partial): an error found before or by a single line is never forgotten, and a text with a
block that does not end or with a loop that runs too long fails.  Missing: messages about a
continuation or an end that does not belong to the block, see `C55_witness`. -/
theorem C55_failure_is_kept_partial (hw : Sticky w m) (ls : List (Line X)) (st st' : St σ O) (n : Nat)
    (h : preprocess w n ls st = some st') :
    (st.err = true → st'.err = true) ∧ (told m st' ≠ told m st → st'.err = true) := by
  unfold preprocess at h
  obtain ⟨r, hr, h2⟩ := Option.map_eq_some_iff.mp h
  obtain ⟨h3, h4⟩ := (flags_all hw n).block _ _ _ _ hr
  rw [h2] at h3 h4
  refine ⟨h3, fun hne => ?_⟩
  cases e : st'.err with
  | true => rfl
  | false => exact absurd (h4 e) hne

/-- The messages of the examples about blocks that do not end. -/
def endMsg : Out → Bool
  | .msg .unterminated => true
  | .msg .iterationMax => true
  | _ => false

theorem demo_sticky : Sticky demo endMsg where
  rep := by intro k x; cases k <;> rfl
  act := by
    intro x st
    cases x <;> simp [demo, told, List.filter_append, endMsg]
  cond := by intro x st; cases x <;> exact ⟨fun _ => rfl, id⟩
  name := by intro x st; cases x <;> first | exact ⟨fun _ => rfl, id⟩ | exact ⟨fun _ => rfl, fun _ => rfl⟩
  head := fun _ _ => ⟨fun _ => rfl, id⟩
  defs := fun _ _ _ => ⟨fun _ => rfl, id⟩

example (st' : St Nat Out) (h : preprocess demo 20 [.mark .ifk (.less 0), .mark .whil .add] start = some st') :
    st'.err = true := by
  refine (C55_failure_is_kept_partial demo_sticky _ start st' 20 h).2 ?_
  have : preprocess demo 20 [.mark .ifk (.less 0), .mark .whil .add] start
    = some { env := 0, err := true, out := [.msg .unterminated, .msg .unterminated] } := by decide
  rw [this] at h
  simp only [Option.some.injEq] at h
  subst h
  decide

/-- C55 fails: the message about `#elif` after `#else` in a branch that is skipped is written, but the
run succeeds: `skip_block` restores the error flag for each line. -/
theorem C55_witness : preprocess demo 20 wrong start
    = some { env := 0, err := false, out := [.text "a", .msg .after] } := by decide

end RuC.Cond
