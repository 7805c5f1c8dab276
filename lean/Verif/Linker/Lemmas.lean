import Verif.Linker.Model
import Verif.Workspace.Lemmas
import Verif.Cond.Inv
import Verif.Cond.Flag
import Verif.Cond.Total

/-! Helper lemmas for the linker. -/

namespace RuC.Linker
open RuC RuC.Workspace RuC.Cond
variable {σ X O : Type}

/-- The flags of a linker agree with what was opened. -/
structure Inv (lk : Link) : Prop where
  aligned : lk.ws.wasError = false → lk.included.length = lk.ws.files.length
  short : lk.included.length ≤ lk.ws.files.length
  marked : ∀ i : Nat, lk.included[i]? = some 1 ↔ ∃ o ∈ lk.log, o.index = i
  once : lk.log.Pairwise fun a b => b.header = true → a.index ≠ b.index
  levels : ∀ o ∈ lk.log, (o.header = true → 1 ≤ o.level) ∧ o.level ≤ MAX_INCLUDE_DEPTH
  last : lk.current = (lk.log.getLast?.map (·.index)).getD SIZE_MAX

/-- How a linker may change by `#include` lines. -/
structure Step (a b : Link) : Prop where
  undef : a.undef = true → b.undef = true
  error : a.ws.wasError = true → b.ws.wasError = true
  files : a.ws.files <+: b.ws.files
  dirs : b.ws.dirs = a.ws.dirs
  log : ∃ hs, b.log = a.log ++ hs ∧ ∀ o ∈ hs, o.header = true
  nodup : b.ws.files.length < SIZE_MAX → a.ws.files.Nodup → b.ws.files.Nodup
  inv : b.ws.files.length < SIZE_MAX → Inv a → Inv b

theorem Step.refl (a : Link) : Step a a :=
  ⟨id, id, List.prefix_rfl, rfl, ⟨[], by simp⟩, fun _ => id, fun _ => id⟩

theorem Step.bound {a b : Link} (h : Step a b) (hb : b.ws.files.length < SIZE_MAX) :
    a.ws.files.length < SIZE_MAX := Nat.lt_of_le_of_lt h.files.length_le hb

theorem Step.trans {a b c : Link} (h : Step a b) (g : Step b c) : Step a c := by
  refine ⟨fun x => g.undef (h.undef x), fun x => g.error (h.error x), h.files.trans g.files,
    g.dirs.trans h.dirs, ?_, fun x y => g.nodup x (h.nodup (g.bound x) y),
    fun x y => g.inv x (h.inv (g.bound x) y)⟩
  obtain ⟨hs, e1, e2⟩ := h.log
  obtain ⟨gs, e3, e4⟩ := g.log
  refine ⟨hs ++ gs, by rw [e3, e1, List.append_assoc], fun o ho => ?_⟩
  rcases List.mem_append.mp ho with h | h
  · exact e2 o h
  · exact e4 o h

theorem Step.undefined (a : Link) : Step a { a with undef := true } :=
  ⟨fun _ => rfl, id, List.prefix_rfl, rfl, ⟨[], by simp⟩, fun _ => id,
    fun _ h => ⟨h.aligned, h.short, h.marked, h.once, h.levels, h.last⟩⟩

theorem addFile_mono {access : List Nat → Bool} {ws ws' : Ws} {path : List Nat} {i : Nat}
    (h : wsAddFile access ws path = some (i, ws')) :
    (ws.wasError = true → ws'.wasError = true) ∧ ws.files <+: ws'.files ∧ ws'.dirs = ws.dirs := by
  unfold wsAddFile at h
  split at h
  · simp only [Option.some.injEq, Prod.mk.injEq] at h
    rw [← h.2]
    exact ⟨fun _ => rfl, List.prefix_rfl, rfl⟩
  · split at h
    · cases h
    · simp only [Option.some.injEq, Prod.mk.injEq] at h
      rw [← h.2]
      exact ⟨fun _ => rfl, List.prefix_rfl, rfl⟩
    · simp only [Option.some.injEq, Prod.mk.injEq] at h
      rw [← h.2]
      refine ⟨id, ?_, rfl⟩
      unfold wsAddString
      simp only
      split
      · exact List.prefix_rfl
      · split
        · exact List.prefix_rfl
        · exact List.prefix_append _ _

theorem register_mono {access : List Nat → Bool} (lk : Link) (path : List Nat) :
    (lk.undef = true → (register access lk path).2.undef = true) ∧
    (lk.ws.wasError = true → (register access lk path).2.ws.wasError = true) ∧
    lk.ws.files <+: (register access lk path).2.ws.files ∧
    (register access lk path).2.ws.dirs = lk.ws.dirs ∧
    (register access lk path).2.log = lk.log := by
  unfold register
  cases h : wsAddFile access lk.ws path with
  | none => exact ⟨fun _ => rfl, id, List.prefix_rfl, rfl, rfl⟩
  | some r =>
    obtain ⟨h1, h2, h3⟩ := addFile_mono h
    exact ⟨id, h1, h2, h3, rfl⟩

section
variable {access : List Nat → Bool} (hne : access [] = false)
include hne

theorem register_cases (lk : Link) (path : List Nat) (hl : lk.ws.files.length < SIZE_MAX) :
    (unixPath path = none ∧ lk.ws.wasError = false ∧ register access lk path = (SIZE_MAX, { lk with undef := true })) ∨
    ((lk.ws.wasError = true ∨ ∃ q, unixPath path = some q ∧ access q = false) ∧
      register access lk path = (SIZE_MAX, { lk with ws := { lk.ws with wasError := true } })) ∨
    (lk.ws.wasError = false ∧ ∃ q i, unixPath path = some q ∧ access q = true ∧ q ∈ lk.ws.files ∧
      i < lk.ws.files.length ∧ At lk.ws.files i q ∧ register access lk path = (i, lk)) ∨
    (lk.ws.wasError = false ∧ ∃ q, unixPath path = some q ∧ access q = true ∧ q ∉ lk.ws.files ∧
      At (lk.ws.files ++ [q]) lk.ws.files.length q ∧
      register access lk path = (lk.ws.files.length,
        { lk with ws := { lk.ws with files := lk.ws.files ++ [q] }, included := lk.included ++ [0] })) := by
  unfold register wsAddFile
  cases hw : lk.ws.wasError with
  | true =>
    right; left
    refine ⟨.inl rfl, ?_⟩
    have : wsGetFilesNum lk.ws = 0 := by unfold wsGetFilesNum; rw [hw]; rfl
    simp only [if_true, this]
    rw [if_neg (by unfold SIZE_MAX; omega)]
  | false =>
    have hn : wsGetFilesNum lk.ws = lk.ws.files.length := by unfold wsGetFilesNum; rw [hw]; rfl
    simp only [Bool.false_eq_true, if_false]
    cases hp : wsPath access path with
    | none =>
      left
      refine ⟨?_, trivial, rfl⟩
      unfold wsPath at hp
      cases hu : unixPath path with
      | none => rfl
      | some q => rw [hu] at hp; cases hp
    | some o =>
      cases o with
      | none =>
        right; left
        refine ⟨.inr ?_, ?_⟩
        · unfold wsPath at hp
          cases hu : unixPath path with
          | none => rw [hu] at hp; cases hp
          | some q =>
            rw [hu] at hp
            refine ⟨q, rfl, ?_⟩
            cases ha : access q with
            | false => rfl
            | true => simp [ha] at hp
        · simp only [hn]
          rw [if_neg (by omega)]
      | some q =>
        obtain ⟨h1, h2, h3⟩ := unixPath_ne_nil_or access hne hp
        obtain ⟨a, m, e1, e2, e3, e4⟩ := addString_spec hl h2
        simp only [e1, hn]
        by_cases hm : q ∈ lk.ws.files
        · right; right; left
          rw [if_pos hm] at e3
          subst e3
          have ha : a < lk.ws.files.length := by
            have := e4.1
            rw [List.getElem?_eq_some_iff] at this
            exact this.1
          refine ⟨trivial, q, a, h1, h3, hm, ha, e4, ?_⟩
          rw [if_neg (by omega), ← hw]
        · right; right; right
          rw [if_neg hm] at e3
          subst e3
          have ha : a = lk.ws.files.length := by
            have h5 := e4.1
            rcases Nat.lt_or_ge a lk.ws.files.length with h | h
            · rw [List.getElem?_append_left h] at h5
              exact absurd (List.mem_of_getElem? h5) hm
            · omega
          subst ha
          refine ⟨trivial, q, h1, h3, hm, e4, ?_⟩
          rw [if_pos rfl, ← hw]

theorem register_step (lk : Link) (path : List Nat) :
    Step lk (register access lk path).2 := by
  by_cases hl : lk.ws.files.length < SIZE_MAX
  · rcases register_cases hne lk path hl with ⟨_, _, e⟩ | ⟨_, e⟩ | ⟨_, q, i, _, _, _, _, _, e⟩ | ⟨hw, q, _, _, hm, _, e⟩
    · rw [e]; exact Step.undefined lk
    · rw [e]
      exact ⟨id, fun _ => rfl, List.prefix_rfl, rfl, ⟨[], by simp⟩, fun _ => id,
        fun _ h => ⟨fun h => (by cases h), h.short, h.marked, h.once, h.levels, h.last⟩⟩
    · rw [e]; exact Step.refl lk
    · rw [e]
      refine ⟨id, id, List.prefix_append _ _, rfl, ⟨[], by simp⟩, fun _ h => ?_, fun _ h => ?_⟩
      · rw [List.nodup_append]
        refine ⟨h, by simp, ?_⟩
        intro a ha b hb
        simp only [List.mem_singleton] at hb
        subst hb
        rintro rfl
        exact hm ha
      · refine ⟨fun _ => ?_, ?_, fun i => ?_, h.once, h.levels, h.last⟩
        · simp only [List.length_append, List.length_singleton, h.aligned hw]
        · have := h.short
          simp only [List.length_append, List.length_singleton]
          omega
        · rw [← h.marked i]
          simp only
          rcases Nat.lt_or_ge i lk.included.length with h1 | h1
          · rw [List.getElem?_append_left h1]
          · rw [List.getElem?_append_right h1, List.getElem?_eq_none h1]
            cases hi : i - lk.included.length with
            | zero => simp
            | succ k => simp
  · -- nothing is claimed about that many files
    have hs := register_mono (access := access) lk path
    refine ⟨hs.1, hs.2.1, hs.2.2.1, hs.2.2.2.1, ⟨[], by simp [hs.2.2.2.2]⟩, fun h => ?_, fun h => ?_⟩
    · exact absurd (Nat.lt_of_le_of_lt hs.2.2.1.length_le h) hl
    · exact absurd (Nat.lt_of_le_of_lt hs.2.2.1.length_le h) hl

theorem internal_step (lk : Link) (file : List Nat) : Step lk (internalPath access lk file).2 := by
  unfold internalPath
  cases makePath file (wsGetFile lk.ws lk.current) true with
  | none => exact Step.undefined lk
  | some path =>
    simp only
    split
    · exact register_step hne lk path
    · exact Step.refl lk

theorem externalLoop_step (lk : Link) (file : List Nat) (ds : List (List Nat)) :
    Step lk (externalLoop access lk file ds).2 := by
  induction ds with
  | nil => exact Step.refl lk
  | cons d ds ih =>
    simp only [externalLoop]
    cases makePath file (some d) false with
    | none => exact Step.undefined lk
    | some path =>
      simp only
      split
      · exact register_step hne lk path
      · exact ih

theorem searchInternal_step (lk : Link) (file : List Nat) : Step lk (searchInternal access lk file).2 := by
  unfold searchInternal
  split
  · exact Step.refl lk
  · simp only
    split
    · exact internal_step hne lk file
    · split
      · exact internal_step hne lk file
      · exact (internal_step hne lk file).trans (externalLoop_step hne _ _ _)

theorem searchExternal_step (lk : Link) (file : List Nat) : Step lk (searchExternal access lk file).2 := by
  unfold searchExternal
  split
  · exact Step.refl lk
  · simp only
    split
    · exact externalLoop_step hne _ _ _
    · exact (externalLoop_step hne _ _ _).trans (internal_step hne _ file)
end

theorem open_inv {lk : Link} (h : Inv lk) (o : Opened) (hi : o.index < lk.included.length)
    (ho : o.header = true → lk.included[o.index]? ≠ some 1)
    (hl : (o.header = true → 1 ≤ o.level) ∧ o.level ≤ MAX_INCLUDE_DEPTH) :
    Inv { lk with
      included := if o.index < lk.included.length then lk.included.set o.index 1 else lk.included
      current := o.index
      log := lk.log ++ [o] } := by
  rw [if_pos hi]
  refine ⟨fun hw => ?_, ?_, fun i => ?_, ?_, ?_, ?_⟩
  · simpa using h.aligned hw
  · simpa using h.short
  · simp only [List.mem_append, List.mem_singleton]
    rw [List.getElem?_set]
    by_cases e : o.index = i
    · subst e
      rw [if_pos rfl, if_pos hi]
      exact ⟨fun _ => ⟨o, .inr rfl, rfl⟩, fun _ => rfl⟩
    · rw [if_neg e, h.marked i]
      constructor
      · rintro ⟨p, hp, e⟩; exact ⟨p, .inl hp, e⟩
      · rintro ⟨p, hp | hp, e'⟩
        · exact ⟨p, hp, e'⟩
        · subst hp; exact absurd e' e
  · refine List.pairwise_append.mpr ⟨h.once, List.pairwise_singleton _ _, ?_⟩
    intro a ha b hb hh
    simp only [List.mem_singleton] at hb
    subst hb
    intro e
    exact ho hh ((h.marked _).mpr ⟨a, ha, e⟩)
  · intro p hp
    rcases List.mem_append.mp hp with hp | hp
    · exact h.levels p hp
    · simp only [List.mem_singleton] at hp
      subst hp
      exact hl
  · simp

theorem getFile_lt {ws : Ws} {i : Nat} {p : List Nat} (h : wsGetFile ws i = some p) :
    ws.wasError = false ∧ i < ws.files.length := by
  unfold wsGetFile at h
  split at h
  · cases h
  · rename_i hw
    rw [List.getElem?_eq_some_iff] at h
    exact ⟨by simpa using hw, h.1⟩

theorem addHeader_step (read : List Nat → Option (List (Line X))) {level : Nat}
    (hl : 1 ≤ level ∧ level ≤ MAX_INCLUDE_DEPTH) (lk : Link) (i : Nat) :
    Step lk (addHeader read level lk i).2 := by
  unfold addHeader
  split
  · exact Step.refl lk
  · rename_i hc
    simp only [Bool.or_eq_true, beq_iff_eq, not_or] at hc
    cases hr : (wsGetFile lk.ws i).bind read with
    | none => exact Step.refl lk
    | some ls =>
      obtain ⟨p, hp, _⟩ := Option.bind_eq_some_iff.mp hr
      obtain ⟨hw, hi⟩ := getFile_lt hp
      refine ⟨id, id, List.prefix_rfl, rfl, ⟨_, rfl, by simp⟩, fun _ => id, fun _ h => ?_⟩
      exact open_inv h { header := true, index := i, level := level } (by rw [h.aligned hw]; exact hi)
        (fun _ => hc.2) ⟨fun _ => hl.1, hl.2⟩

theorem error_link (e : Env σ X O) (k : IncErr) (x : X) (st : St (Link × σ) O) :
    (e.error k x st).env = st.env := by
  unfold Env.error; split <;> rfl

theorem enough_total (w : World (Link × σ) X O) (ls : List (Line X)) (st : St (Link × σ) O) :
    ∃ st', preprocess w (enough ls) ls st = some st' := by
  obtain ⟨r, h⟩ := block_total (w := w) (b := .non) (st := st) (Nat.le_refl (enough ls))
  exact ⟨r.2, by unfold preprocess; rw [h]; rfl⟩

section
variable {e : Env σ X O} (hne : e.access [] = false)
include hne

theorem search_step (lk : Link) (i : Inc) : Step lk (e.search lk i).2 := by
  cases i with
  | malformed => exact Step.refl lk
  | quoted name => exact searchInternal_step hne lk name
  | angle name => exact searchExternal_step hne lk name

theorem enter_step {w : World (Link × σ) X O} (hw : Along w fun a b => Step a.1 b.1) {level : Nat}
    (hl : 1 ≤ level ∧ level ≤ MAX_INCLUDE_DEPTH) (x : X) (r : Nat × Link) (st : St (Link × σ) O) :
    Step r.2 (e.enter w level x r st).env.1 := by
  unfold Env.enter
  split
  · rw [error_link]; exact Step.refl _
  · have h1 := addHeader_step e.read hl r.2 r.1
    generalize addHeader e.read level r.2 r.1 = q at *
    obtain ⟨o, lk⟩ := q
    cases o with
    | none => exact h1
    | some ls =>
      simp only at h1 ⊢
      obtain ⟨st', h⟩ := enough_total w ls { st with env := (lk, st.env.2) }
      rw [h]
      exact h1.trans (preprocess_keeps hw h)

theorem include_step {w : World (Link × σ) X O} (hw : Along w fun a b => Step a.1 b.1) {level : Nat}
    (hl : 1 ≤ level ∧ level ≤ MAX_INCLUDE_DEPTH) (i : Inc) (x : X) (st : St (Link × σ) O) :
    Step st.env.1 (e.includes w level i x st).env.1 := by
  unfold Env.includes
  cases i with
  | malformed => simp only; rw [error_link]; exact Step.refl _
  | quoted name => exact (search_step hne _ _).trans (enter_step hne hw hl x _ st)
  | angle name => exact (search_step hne _ _).trans (enter_step hne hw hl x _ st)

omit hne in
theorem worldOf_along {f : Inc → X → St (Link × σ) O → St (Link × σ) O}
    (hf : ∀ i x st, Step st.env.1 (f i x st).env.1) :
    Along (e.worldOf f) fun a b => Step a.1 b.1 where
  refl a := Step.refl a.1
  trans h g := h.trans g
  act x st := by
    unfold Env.worldOf
    simp only
    split
    · exact Step.refl _
    · exact hf _ _ _
  cond x st := Step.refl _
  name x st := Step.refl _
  head x st := Step.refl _
  defs x ls st := Step.refl _

theorem world_along (left : Nat) (hl : left ≤ MAX_INCLUDE_DEPTH) :
    Along (e.world left) fun a b => Step a.1 b.1 := by
  induction left with
  | zero =>
    refine worldOf_along fun i x st => ?_
    rw [error_link]
    exact Step.refl _
  | succ left ih =>
    refine worldOf_along fun i x st => ?_
    refine include_step hne (ih (by omega)) ?_ i x st
    omega
end
end RuC.Linker
