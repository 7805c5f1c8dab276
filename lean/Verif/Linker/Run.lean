import Verif.Linker.Lemmas
import Verif.Linker.Spec

/-! Whole runs and searches. -/

namespace RuC.Linker
open RuC RuC.Workspace RuC.Cond
variable {σ X O : Type} {e : Env σ X O}

/-- What is known before source `k`. -/
structure Before (k : Nat) (lk : Link) : Prop where
  inv : Inv lk
  nodup : lk.ws.files.Nodup
  sources : ((lk.log.filter fun o => !o.header).map (·.index)).Pairwise (· < ·)
  given : ∀ o ∈ lk.log, o.header = false → o.index < k ∧ o.level = 0

/-- How a linker may change along a run. -/
structure Grown (a b : Link) : Prop where
  undef : a.undef = true → b.undef = true
  files : a.ws.files <+: b.ws.files

theorem Step.grown {a b : Link} (h : Step a b) : Grown a b := ⟨h.undef, h.files⟩
theorem Grown.trans {a b c : Link} (h : Grown a b) (g : Grown b c) : Grown a c :=
  ⟨fun x => g.undef (h.undef x), h.files.trans g.files⟩
theorem Grown.bound {a b : Link} (h : Grown a b) (hb : b.ws.files.length < SIZE_MAX) :
    a.ws.files.length < SIZE_MAX := Nat.lt_of_le_of_lt h.files.length_le hb

theorem Before.step {k : Nat} {a b : Link} (h : Before k a) (hs : Step a b) (hb : b.ws.files.length < SIZE_MAX) :
    Before k b := by
  obtain ⟨gs, e1, e2⟩ := hs.log
  have hf : (gs.filter fun o => !o.header) = [] := by
    rw [List.filter_eq_nil_iff]
    intro o ho
    simp [e2 o ho]
  refine ⟨hs.inv hb h.inv, hs.nodup hb h.nodup, ?_, ?_⟩
  · rw [e1, List.filter_append, hf, List.append_nil]
    exact h.sources
  · intro o ho hh
    rw [e1] at ho
    rcases List.mem_append.mp ho with ho | ho
    · exact h.given o ho hh
    · rw [e2 o ho] at hh; cases hh

theorem Before.mono {k l : Nat} {a : Link} (h : Before k a) (hk : k ≤ l) : Before l a :=
  ⟨h.inv, h.nodup, h.sources, fun o ho hh => ⟨Nat.lt_of_lt_of_le (h.given o ho hh).1 hk, (h.given o ho hh).2⟩⟩

theorem Before.source {k : Nat} {lk : Link} (h : Before k lk) (hk : k < lk.included.length) :
    Before (k + 1) { lk with
      included := if k < lk.included.length then lk.included.set k 1 else lk.included
      current := k
      log := lk.log ++ [{ header := false, index := k, level := 0 }] } := by
  refine ⟨open_inv h.inv { header := false, index := k, level := 0 } hk (fun h => (by cases h))
    ⟨fun h => (by cases h), Nat.zero_le _⟩, h.nodup, ?_, ?_⟩
  · simp only [List.filter_append, List.map_append]
    refine List.pairwise_append.mpr ⟨h.sources, by simp, ?_⟩
    intro a ha b hb
    simp only [List.mem_map, List.mem_filter] at ha
    obtain ⟨o, ⟨ho, hh⟩, rfl⟩ := ha
    simp at hb
    subst hb
    exact (h.given o ho (by simpa using hh)).1
  · intro o ho hh
    rcases List.mem_append.mp ho with ho | ho
    · have := h.given o ho hh
      exact ⟨by omega, this.2⟩
    · simp only [List.mem_singleton] at ho
      subst ho
      exact ⟨by simp, rfl⟩

theorem source_spec (hne : e.access [] = false) (sys : O) (st : St (Link × σ) O) (k : Nat) :
    Grown st.env.1 (e.source sys st k).2.env.1 ∧
    ((e.source sys st k).2.env.1.ws.files.length < SIZE_MAX → Before k st.env.1 →
      Before (k + 1) (e.source sys st k).2.env.1) := by
  have hadd : addSource e.read st.env.1 k = (none, st.env.1) ∨ (k < st.env.1.ws.files.length ∧
      st.env.1.ws.wasError = false ∧ ∃ ls, addSource e.read st.env.1 k = (some ls, { st.env.1 with
        included := if k < st.env.1.included.length then st.env.1.included.set k 1 else st.env.1.included
        current := k
        log := st.env.1.log ++ [{ header := false, index := k, level := 0 }] })) := by
    unfold addSource
    split
    · exact .inl rfl
    · cases hr : (wsGetFile st.env.1.ws k).bind e.read with
      | none => exact .inl rfl
      | some ls =>
        obtain ⟨p, hp, _⟩ := Option.bind_eq_some_iff.mp hr
        obtain ⟨hw, hi⟩ := getFile_lt hp
        exact .inr ⟨hi, hw, ls, rfl⟩
  unfold Env.source
  rcases hadd with hadd | ⟨hi, hw, ls, hadd⟩
  · rw [hadd]
    exact ⟨(Step.refl _).grown, fun _ h => h.mono (Nat.le_succ k)⟩
  · rw [hadd]
    simp only
    generalize hlk : ({ st.env.1 with
      included := if k < st.env.1.included.length then st.env.1.included.set k 1 else st.env.1.included
      current := k
      log := st.env.1.log ++ [{ header := false, index := k, level := 0 }] } : Link) = lk
    obtain ⟨st', h⟩ := enough_total (e.world MAX_INCLUDE_DEPTH) ls { st with env := (lk, st.env.2) }
    rw [h]
    have hs : Step lk st'.env.1 := preprocess_keeps (world_along hne _ (Nat.le_refl _)) h
    constructor
    · refine Grown.trans ?_ hs.grown
      rw [← hlk]
      exact ⟨id, List.prefix_rfl⟩
    · intro hb hB
      refine Before.step ?_ hs hb
      rw [← hlk]
      exact hB.source (by rw [hB.inv.aligned hw]; exact hi)

theorem sources_spec (hne : e.access [] = false) (sys : O) (size : Nat) (n : Nat) :
    ∀ (ret : Bool) (st : St (Link × σ) O), n ≤ size →
    Grown st.env.1 (e.sources sys size n ret st).2.env.1 ∧
    ((e.sources sys size n ret st).2.env.1.ws.files.length < SIZE_MAX → Before (size - n) st.env.1 →
      Before size (e.sources sys size n ret st).2.env.1) := by
  induction n with
  | zero => exact fun ret st _ => ⟨(Step.refl _).grown, fun _ h => h⟩
  | succ n ih =>
    intro ret st hn
    simp only [Env.sources]
    split
    · exact ⟨(Step.refl _).grown, fun _ h => h.mono (by omega)⟩
    · obtain ⟨h1, h2⟩ := source_spec hne sys st (size - (n + 1))
      obtain ⟨h3, h4⟩ := ih (ret || (e.source sys st (size - (n + 1))).1)
        (e.source sys st (size - (n + 1))).2 (by omega)
      refine ⟨h1.trans h3, fun hb hB => h4 hb ?_⟩
      have := h2 (h3.bound hb) hB
      rwa [show size - (n + 1) + 1 = size - n from by omega] at this

theorem create_before (ws : Ws) (hd : ws.files.Nodup) : Before 0 (linkerCreate ws) where
  inv := by
    refine ⟨fun hw => ?_, ?_, fun i => ?_, List.Pairwise.nil, fun o ho => (by cases ho), rfl⟩
    · have hw : ws.wasError = false := hw
      simp [linkerCreate, wsGetFilesNum, hw]
    · simp only [linkerCreate, wsGetFilesNum, List.length_replicate]
      split <;> omega
    · simp only [linkerCreate, List.not_mem_nil, false_and, exists_false, iff_false]
      rw [List.getElem?_replicate]
      split <;> simp
  nodup := hd
  sources := List.Pairwise.nil
  given := fun o ho => (by cases ho)

theorem once_filter {l : List Opened} (h : l.Pairwise fun a b => b.header = true → a.index ≠ b.index) (i : Nat) :
    (l.filter fun o => o.header && o.index == i).length ≤ 1 := by
  have hp := h.sublist (List.filter_sublist (p := fun o => o.header && o.index == i))
  have hm : ∀ o ∈ l.filter (fun o => o.header && o.index == i), o.header = true ∧ o.index = i := by
    intro o ho
    simpa using (List.mem_filter.mp ho).2
  generalize l.filter (fun o => o.header && o.index == i) = m at *
  match m with
  | [] => simp
  | [_] => simp
  | a :: b :: m =>
    exfalso
    rw [List.pairwise_cons] at hp
    have hb := hm b (by simp)
    exact hp.1 b (by simp) hb.1 ((hm a (by simp)).2.trans hb.2.symm)

/-! ## Messages -/

theorem told_rest (m : O → Bool) (st : St (Link × σ) O) : told m (rest st) = told m st := rfl

theorem error_flag (e : Env σ X O) (k : IncErr) (x : X) (st : St (Link × σ) O) : (e.error k x st).err = true := by
  unfold Env.error
  split
  · rename_i h
    simp only [Bool.and_eq_true] at h
    exact h.2
  · rfl

theorem worldOf_sticky {m : O → Bool} (hb : Sticky e.base m) {f : Inc → X → St (Link × σ) O → St (Link × σ) O}
    (hf : ∀ i x st, ((f i x st).err = false → told m (f i x st) = told m st) ∧
      (st.err = true → (f i x st).err = true)) : Sticky (e.worldOf f) m where
  rep := hb.rep
  act x st := by
    unfold Env.worldOf
    simp only
    cases e.inc x with
    | none => exact hb.act x (rest st)
    | some i => exact hf i x st
  cond x st := hb.cond x (rest st)
  name x st := hb.name x (rest st)
  head x st := hb.head x (rest st)
  defs x ls st := hb.defs x ls (rest st)

theorem preprocess_flag {w : World (Link × σ) X O} {m : O → Bool} (hw : Sticky w m) {n : Nat} {ls : List (Line X)}
    {st st' : St (Link × σ) O} (h : preprocess w n ls st = some st') :
    (st'.err = false → told m st' = told m st) ∧ (st.err = true → st'.err = true) := by
  unfold preprocess at h
  obtain ⟨r, hr, h2⟩ := Option.map_eq_some_iff.mp h
  obtain ⟨h3, h4⟩ := (flags_all hw n).block _ _ _ _ hr
  rw [h2] at h3 h4
  exact ⟨h4, h3⟩

theorem enter_flag {w : World (Link × σ) X O} {m : O → Bool} (hw : Sticky w m) (level : Nat) (x : X) (r : Nat × Link)
    (st : St (Link × σ) O) :
    ((e.enter w level x r st).err = false → told m (e.enter w level x r st) = told m st) ∧
    (st.err = true → (e.enter w level x r st).err = true) := by
  unfold Env.enter
  split
  · rw [error_flag]
    exact ⟨fun h => (by cases h), fun _ => rfl⟩
  · generalize addHeader e.read level r.2 r.1 = q
    obtain ⟨o, lk⟩ := q
    cases o with
    | none => exact ⟨fun _ => rfl, id⟩
    | some ls =>
      simp only
      obtain ⟨st', h⟩ := enough_total w ls { st with env := (lk, st.env.2) }
      rw [h]
      have := preprocess_flag hw h
      exact ⟨fun a => this.1 a, fun a => this.2 a⟩

theorem world_sticky {m : O → Bool} (hb : Sticky e.base m) (left : Nat) : Sticky (e.world left) m := by
  induction left with
  | zero =>
    refine worldOf_sticky hb fun i x st => ?_
    rw [error_flag]
    exact ⟨fun h => (by cases h), fun _ => rfl⟩
  | succ left ih =>
    refine worldOf_sticky hb fun i x st => ?_
    unfold Env.includes
    cases i with
    | malformed =>
      simp only
      rw [error_flag]
      exact ⟨fun h => (by cases h), fun _ => rfl⟩
    | quoted name => exact enter_flag ih _ _ _ _
    | angle name => exact enter_flag ih _ _ _ _

theorem source_flag {m : O → Bool} (hb : Sticky e.base m) (sys : O) (st : St (Link × σ) O) (k : Nat) :
    (e.source sys st k).1 = false → told m (e.source sys st k).2 = told m st := by
  unfold Env.source
  generalize addSource e.read st.env.1 k = q
  obtain ⟨o, lk⟩ := q
  cases o with
  | none => exact fun h => (by cases h)
  | some ls =>
    simp only
    obtain ⟨st', h⟩ := enough_total (e.world MAX_INCLUDE_DEPTH) ls { st with env := (lk, st.env.2) }
    rw [h]
    exact (preprocess_flag (world_sticky hb _) h).1

theorem sources_flag {m : O → Bool} (hb : Sticky e.base m) (sys : O) (size : Nat) (n : Nat) :
    ∀ (ret : Bool) (st : St (Link × σ) O), (e.sources sys size n ret st).1 = false →
      ret = false ∧ told m (e.sources sys size n ret st).2 = told m st := by
  induction n with
  | zero => exact fun ret st h => ⟨h, rfl⟩
  | succ n ih =>
    intro ret st
    simp only [Env.sources]
    split
    · rename_i hc
      intro h
      rw [Bool.and_eq_true] at hc
      simp only at h
      rw [hc.1] at h; cases h
    · intro h
      obtain ⟨h1, h2⟩ := ih _ _ h
      rw [Bool.or_eq_false_iff] at h1
      exact ⟨h1.1, h2.trans (source_flag hb sys st _ h1.2)⟩

/-! ## Searches -/

section
variable {access : List Nat → Bool} (hne : access [] = false)
include hne

/-- The outcome of `register`. -/
structure Found (access : List Nat → Bool) (lk : Link) (p : List Nat) (r : Nat × Link) : Prop where
  ok : ∀ q, unixPath p = some q → access q = true → r.1 ≠ SIZE_MAX ∧ r.2.ws.files[r.1]? = some q ∧
    r.2.ws.files = (if q ∈ lk.ws.files then lk.ws.files else lk.ws.files ++ [q]) ∧ r.2.ws.wasError = false ∧
    r.2.undef = lk.undef
  no : ∀ q, unixPath p = some q → access q = false → r.1 = SIZE_MAX ∧ r.2.ws.wasError = true
  bad : unixPath p = none → r.2.undef = true
  or : r.1 = SIZE_MAX → unixPath p = none ∨ ∃ q, unixPath p = some q ∧ access q = false

theorem register_found {lk : Link} (hw : lk.ws.wasError = false) (hl : lk.ws.files.length < SIZE_MAX) (p : List Nat) :
    Found access lk p (register access lk p) := by
  rcases register_cases hne lk p hl with ⟨h1, _, e⟩ | ⟨h1, e⟩ | ⟨_, q, i, h1, h2, h3, h4, h5, e⟩ | ⟨_, q, h1, h2, h3, h5, e⟩
  · rw [e]
    exact ⟨fun q h => (by rw [h1] at h; cases h), fun q h => (by rw [h1] at h; cases h), fun _ => rfl, fun _ => .inl h1⟩
  · rw [e]
    rcases h1 with h1 | ⟨q, h1, h2⟩
    · rw [hw] at h1; cases h1
    · refine ⟨fun q' h h' => ?_, fun q' h _ => ⟨rfl, rfl⟩, fun h => (by rw [h1] at h; cases h),
        fun _ => .inr ⟨q, h1, h2⟩⟩
      rw [h1] at h
      cases h
      rw [h2] at h'
      cases h'
  · rw [e]
    refine ⟨fun q' h h' => ?_, fun q' h h' => ?_, fun h => (by rw [h1] at h; cases h), fun h => ?_⟩
    · rw [h1] at h
      cases h
      exact ⟨by simp only; omega, h5.1, by rw [if_pos h3], hw, rfl⟩
    · rw [h1] at h
      cases h
      rw [h2] at h'
      cases h'
    · simp only at h; omega
  · rw [e]
    refine ⟨fun q' h h' => ?_, fun q' h h' => ?_, fun h => (by rw [h1] at h; cases h), fun h => ?_⟩
    · rw [h1] at h
      cases h
      exact ⟨by simp only; omega, h5.1, by rw [if_neg h3], hw, rfl⟩
    · rw [h1] at h
      cases h
      rw [h2] at h'
      cases h'
    · simp only at h; omega

theorem external_found {lk : Link} (hw : lk.ws.wasError = false) (hl : lk.ws.files.length < SIZE_MAX) (name : List Nat)
    (ds : List (List Nat)) : ∀ cs : List (List Nat), (ds.map fun d => makePath name (some d) false) = cs.map some →
    (cs.find? access = none → externalLoop access lk name ds = (SIZE_MAX, lk)) ∧
    ∀ p, cs.find? access = some p → externalLoop access lk name ds = register access lk p := by
  induction ds with
  | nil =>
    intro cs h
    cases cs with
    | nil => exact ⟨fun _ => rfl, fun p h => (by cases h)⟩
    | cons c cs => cases h
  | cons d ds ih =>
    intro cs h
    cases cs with
    | nil => cases h
    | cons c cs =>
      simp only [List.map_cons, List.cons.injEq] at h
      obtain ⟨h1, h2⟩ := h
      obtain ⟨i1, i2⟩ := ih cs h2
      simp only [externalLoop, h1, List.find?_cons]
      cases ha : access c with
      | true =>
        simp only [if_true]
        exact ⟨fun h => (by cases h), fun p h => (by cases h; rfl)⟩
      | false =>
        simp only [Bool.false_eq_true, if_false]
        exact ⟨i1, i2⟩

end
end RuC.Linker
