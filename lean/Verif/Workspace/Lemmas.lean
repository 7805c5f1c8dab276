import Verif.Workspace.Denote

/-! Lemmas about histories of workspace calls. -/

namespace RuC.Workspace
open RuC

theorem firsts_append (l : List (List Nat)) (x : List Nat) : firsts (l ++ [x]) = if x ∈ l then firsts l else firsts l ++ [x] := by
  induction l with
  | nil => simp [firsts]
  | cons s l ih =>
    rw [List.cons_append, firsts, ih]
    by_cases hx : x = s
    · subst hx
      simp only [List.mem_cons, true_or, if_true, firsts]
      split
      · rfl
      · simp
    · by_cases hm : x ∈ l
      · simp [hm, firsts]
      · simp [hm, hx, firsts]

theorem mem_firsts (l : List (List Nat)) (x : List Nat) : x ∈ firsts l ↔ x ∈ l := by
  induction l with
  | nil => simp [firsts]
  | cons s l ih =>
    simp only [firsts, List.mem_cons, List.mem_filter, ih]
    by_cases hx : x = s <;> simp [hx]

theorem nodup_firsts (l : List (List Nat)) : (firsts l).Nodup := by
  induction l with
  | nil => simp [firsts]
  | cons s l ih =>
    rw [firsts, List.nodup_cons]
    exact ⟨by simp, ih.filter _⟩

theorem existsFrom_spec (e : List Nat) (l : List (List Nat)) (i : Nat) (hl : i + l.length < SIZE_MAX) :
    (e ∈ l ∧ ∃ k, wsExistsFrom e i l = i + k ∧ l[k]? = some e ∧ ∀ j, j < k → l[j]? ≠ some e) ∨
    (e ∉ l ∧ wsExistsFrom e i l = SIZE_MAX) := by
  induction l generalizing i with
  | nil => right; exact ⟨by simp, rfl⟩
  | cons s l ih =>
    rw [wsExistsFrom]
    by_cases he : e = s
    · left
      subst he
      exact ⟨by simp, 0, by simp, by simp, fun j hj => by omega⟩
    · rw [if_neg he]
      rcases ih (i + 1) (by simp only [List.length_cons] at hl; omega) with ⟨hm, k, h1, h2, h3⟩ | ⟨hm, h1⟩
      · left
        refine ⟨by simp [hm], k + 1, by rw [h1]; omega, by simpa using h2, ?_⟩
        intro j hj
        cases j with
        | zero => simp; exact fun h => he h.symm
        | succ j => simpa using h3 j (by omega)
      · right
        exact ⟨by simp [he, hm], h1⟩

/-- Position of the first occurrence. -/
def At (l : List (List Nat)) (a : Nat) (q : List Nat) : Prop := l[a]? = some q ∧ ∀ j, j < a → l[j]? ≠ some q

theorem At.grow {l m : List (List Nat)} {a : Nat} {q : List Nat} (h : At l a q) (hp : l <+: m) : At m a q := by
  obtain ⟨t, rfl⟩ := hp
  have ha : a < l.length := by
    have := h.1
    rw [List.getElem?_eq_some_iff] at this
    exact this.1
  refine ⟨by rw [List.getElem?_append_left ha]; exact h.1, fun j hj => ?_⟩
  rw [List.getElem?_append_left (by omega)]
  exact h.2 j hj

theorem addString_spec {l : List (List Nat)} {q : List Nat} (hl : l.length < SIZE_MAX) (hq : q ≠ []) :
    ∃ a m, wsAddString l q = (a, m) ∧ a ≤ l.length ∧ m = (if q ∈ l then l else l ++ [q]) ∧ At m a q := by
  rcases existsFrom_spec q l 0 (by omega) with ⟨hm, k, h1, h2, h3⟩ | ⟨hm, h1⟩
  · have hk : k < l.length := by
      rw [List.getElem?_eq_some_iff] at h2
      exact h2.1
    refine ⟨k, l, ?_, by omega, by rw [if_pos hm], h2, h3⟩
    unfold wsAddString wsExists
    simp only [h1, Nat.zero_add]
    rw [if_pos (by omega)]
  · refine ⟨l.length, l ++ [q], ?_, by omega, by rw [if_neg hm], by simp, ?_⟩
    · unfold wsAddString wsExists
      simp [h1, hq]
    · intro j hj h
      rw [List.getElem?_append_left hj] at h
      exact hm (List.mem_of_getElem? h)

theorem addString_empty {l : List (List Nat)} (hl : l.length < SIZE_MAX) (h : [] ∉ l) : wsAddString l [] = (SIZE_MAX, l) := by
  rcases existsFrom_spec [] l 0 (by omega) with ⟨hm, _⟩ | ⟨hm, h1⟩
  · exact absurd hm h
  · unfold wsAddString wsExists
    simp [h1]

theorem texts_append (k : Kind) (es : List (Kind × List Nat)) (e : Kind × List Nat) :
    texts k (es ++ [e]) = texts k es ++ (if e.1 = k then [e.2] else []) := by
  unfold texts
  rw [List.filterMap_append]
  congr 1
  by_cases h : e.1 = k <;> simp [h]

theorem firsts_length (l : List (List Nat)) : (firsts l).length ≤ l.length := by
  induction l with
  | nil => simp [firsts]
  | cons s l ih =>
    have := List.length_filter_le (fun x => decide (x ≠ s)) (firsts l)
    rw [firsts, List.length_cons, List.length_cons]
    omega

theorem texts_length (k : Kind) (es : List (Kind × List Nat)) : (texts k es).length ≤ es.length := List.length_filterMap_le _ _

theorem no_empty (l : List (List Nat)) : [] ∉ firsts (l.filter (· ≠ [])) := by
  rw [mem_firsts]
  simp

/-- What one successful call answers. -/
def Answer (ws : Ws) (e : Kind × List Nat) (a : Nat) : Prop :=
  (e.1 = .file → At ws.files a e.2) ∧ (e.1 = .dir → At ws.dirs a e.2) ∧
  (e.1 = .flag → if e.2 = [] then a = SIZE_MAX else At ws.flags a e.2) ∧ (e.1 = .out → a = 0)

/-- The lists only grow at their ends. -/
def Grows (ws ws' : Ws) : Prop := ws.files <+: ws'.files ∧ ws.dirs <+: ws'.dirs ∧ ws.flags <+: ws'.flags

theorem Grows.refl (ws : Ws) : Grows ws ws := ⟨List.prefix_rfl, List.prefix_rfl, List.prefix_rfl⟩

theorem Grows.trans {a b c : Ws} (h : Grows a b) (g : Grows b c) : Grows a c :=
  ⟨h.1.trans g.1, h.2.1.trans g.2.1, h.2.2.trans g.2.2⟩

theorem Answer.grow {ws ws' : Ws} {e : Kind × List Nat} {a : Nat} (h : Answer ws e a) (g : Grows ws ws') : Answer ws' e a := by
  refine ⟨fun k => (h.1 k).grow g.1, fun k => (h.2.1 k).grow g.2.1, fun k => ?_, h.2.2.2⟩
  have := h.2.2.1 k
  split
  · rename_i h0; rwa [if_pos h0] at this
  · rename_i h0; rw [if_neg h0] at this; exact this.grow g.2.2

theorem prefix_add (l : List (List Nat)) (q : List Nat) : l <+: (if q ∈ l then l else l ++ [q]) := by
  split
  · exact List.prefix_rfl
  · exact List.prefix_append _ _

theorem firsts_step {l : List (List Nat)} {x : List Nat} : firsts (l ++ [x]) = if x ∈ firsts l then firsts l else firsts l ++ [x] := by
  rw [firsts_append]
  simp only [mem_firsts]

/-- Access to a path, seen from the model. -/
theorem unixPath_ne_nil_or (access : List Nat → Bool) (hne : access [] = false) {p q : List Nat} (h : wsPath access p = some (some q)) :
    unixPath p = some q ∧ q ≠ [] ∧ access q = true := by
  unfold wsPath at h
  cases hu : unixPath p with
  | none => rw [hu] at h; simp at h
  | some r =>
    rw [hu] at h
    simp only [Option.some.injEq] at h
    split at h
    · rename_i ha
      simp at h
      subst h
      refine ⟨rfl, ?_, ha⟩
      rintro rfl
      rw [hne] at ha
      cases ha
    · cases h

section
variable {access : List Nat → Bool} (hne : access [] = false)
include hne

theorem file_step {ws ws' : Ws} {p : List Nat} {a : Nat} {es : List (Kind × List Nat)} (h : wsAddFile access ws p = some (a, ws'))
    (hok : ws'.wasError = false) (hL : Listed es ws) (hl : es.length < 4611686018427387904) :
    ∃ q, unixPath p = some q ∧ access q = true ∧ Listed (es ++ [(.file, q)]) ws' ∧ Answer ws' (.file, q) a ∧ Grows ws ws' ∧
      ws.wasError = false ∧ a ≤ ws.files.length := by
  unfold wsAddFile at h
  split at h
  · simp at h; rw [← h.2] at hok; cases hok
  · rename_i hw
    split at h
    · cases h
    · simp at h; rw [← h.2] at hok; cases hok
    · rename_i q hp
      obtain ⟨h1, h2, h3⟩ := unixPath_ne_nil_or access hne hp
      have hlen : ws.files.length < SIZE_MAX := by
        have := firsts_length (texts .file es)
        have := texts_length .file es
        rw [hL.files]; unfold SIZE_MAX; omega
      obtain ⟨b, m, e1, e2, e3, e4⟩ := addString_spec hlen h2
      rw [e1] at h
      simp only [Option.some.injEq, Prod.mk.injEq] at h
      obtain ⟨rfl, rfl⟩ := h
      refine ⟨q, h1, h3, ?_, ?_, ?_, by simpa using hw, e2⟩
      · constructor
        · simp only [texts_append, if_true]
          rw [firsts_step, e3, ← hL.files]
        · simpa [texts_append] using hL.dirs
        · simpa [texts_append] using hL.flags
        · simpa [texts_append] using hL.output
      · exact ⟨fun _ => e4, fun k => (by cases k), fun k => (by cases k), fun k => (by cases k)⟩
      · refine ⟨?_, List.prefix_rfl, List.prefix_rfl⟩
        simp only [e3]
        exact prefix_add _ _

theorem dir_step {ws ws' : Ws} {p : List Nat} {a : Nat} {es : List (Kind × List Nat)} (h : wsAddDir access ws p = some (a, ws'))
    (hok : ws'.wasError = false) (hL : Listed es ws) (hl : es.length < 4611686018427387904) :
    ∃ q, unixPath p = some q ∧ access q = true ∧ Listed (es ++ [(.dir, q)]) ws' ∧ Answer ws' (.dir, q) a ∧ Grows ws ws' ∧
      ws.wasError = false ∧ a ≤ ws.dirs.length := by
  unfold wsAddDir at h
  split at h
  · simp at h; rw [← h.2] at hok; cases hok
  · rename_i hw
    split at h
    · cases h
    · simp at h; rw [← h.2] at hok; cases hok
    · rename_i q hp
      obtain ⟨h1, h2, h3⟩ := unixPath_ne_nil_or access hne hp
      have hlen : ws.dirs.length < SIZE_MAX := by
        have := firsts_length (texts .dir es)
        have := texts_length .dir es
        rw [hL.dirs]; unfold SIZE_MAX; omega
      obtain ⟨b, m, e1, e2, e3, e4⟩ := addString_spec hlen h2
      rw [e1] at h
      simp only [Option.some.injEq, Prod.mk.injEq] at h
      obtain ⟨rfl, rfl⟩ := h
      refine ⟨q, h1, h3, ?_, ?_, ?_, by simpa using hw, e2⟩
      · constructor
        · simpa [texts_append] using hL.files
        · simp only [texts_append, if_true]
          rw [firsts_step, e3, ← hL.dirs]
        · simpa [texts_append] using hL.flags
        · simpa [texts_append] using hL.output
      · exact ⟨fun k => (by cases k), fun _ => e4, fun k => (by cases k), fun k => (by cases k)⟩
      · refine ⟨List.prefix_rfl, ?_, List.prefix_rfl⟩
        simp only [e3]
        exact prefix_add _ _

theorem step_spec {ws ws' : Ws} {op : Op} {a : Nat} {es : List (Kind × List Nat)} (h : step access ws op = some (a, ws'))
    (hok : ws'.wasError = false) (hL : Listed es ws) (hl : es.length < 4611686018427387904) :
    ∃ e, entry op = some e ∧ Listed (es ++ [e]) ws' ∧ Answer ws' e a ∧ Grows ws ws' ∧ ws.wasError = false ∧
      (∀ f, op = .flag f → f ≠ [] → a ≠ SIZE_MAX) ∧ ((∀ p, op ≠ .flag p) → a ≠ SIZE_MAX) := by
  have hsz : ∀ k, (firsts (texts k es)).length < SIZE_MAX := by
    intro k
    have := firsts_length (texts k es)
    have := texts_length k es
    unfold SIZE_MAX; omega
  cases op with
  | file p =>
    obtain ⟨q, h1, _, h2, h3, h4, h5, h6⟩ := file_step hne h hok hL hl
    refine ⟨_, by rw [entry, h1]; rfl, h2, h3, h4, h5, fun f e => (by cases e), fun _ => ?_⟩
    have := hsz .file
    rw [← hL.files] at this
    omega
  | dir p =>
    obtain ⟨q, h1, _, h2, h3, h4, h5, h6⟩ := dir_step hne h hok hL hl
    refine ⟨_, by rw [entry, h1]; rfl, h2, h3, h4, h5, fun f e => (by cases e), fun _ => ?_⟩
    have := hsz .dir
    rw [← hL.dirs] at this
    omega
  | flag f =>
    simp only [step, wsAddFlag] at h
    split at h
    · simp at h; rw [← h.2] at hok; cases hok
    · rename_i hw
      split at h
      · rename_i hd
        obtain ⟨q, h1, _, h2, h3, h4, h5, h6⟩ := dir_step hne h hok hL hl
        have hf : ∃ p, f = 45 :: 73 :: p := by
          unfold isDirFlag at hd
          match f, hd with
          | [], hd => simp at hd
          | [c], hd => simp at hd
          | c :: d :: p, hd =>
            simp at hd
            exact ⟨p, by rw [hd.1, hd.2]⟩
        obtain ⟨p, rfl⟩ := hf
        have h1 : unixPath p = some q := h1
        refine ⟨_, by rw [entry, h1]; rfl, h2, h3, h4, h5, fun _ _ _ => ?_, fun hx => absurd rfl (hx _)⟩
        have := hsz .dir
        rw [← hL.dirs] at this
        omega
      · rename_i hd
        have hentry : entry (.flag f) = some (.flag, f) := by
          unfold isDirFlag at hd
          unfold entry
          split
          · rename_i hx; cases hx
          · rename_i hx; cases hx
          · rename_i p hx; cases hx; simp at hd
          · rename_i hx; cases hx; rfl
          · rename_i hx; cases hx
        have hlen : ws.flags.length < SIZE_MAX := by
          have := firsts_length ((texts .flag es).filter (· ≠ []))
          have := texts_length .flag es
          have := List.length_filter_le (fun x : List Nat => decide (x ≠ [])) (texts .flag es)
          rw [hL.flags]; unfold SIZE_MAX; omega
        by_cases hf : f = []
        · subst hf
          rw [addString_empty hlen (by rw [hL.flags]; exact no_empty _)] at h
          simp only [Option.some.injEq, Prod.mk.injEq] at h
          obtain ⟨rfl, rfl⟩ := h
          refine ⟨_, hentry, ?_, ?_, Grows.refl _, by simpa using hw, fun f e hf => ?_, fun hx => absurd rfl (hx [])⟩
          · constructor
            · simpa [texts_append] using hL.files
            · simpa [texts_append] using hL.dirs
            · simpa [texts_append] using hL.flags
            · simpa [texts_append] using hL.output
          · exact ⟨fun k => (by cases k), fun k => (by cases k), fun _ => by simp, fun k => (by cases k)⟩
          · cases e; exact absurd rfl hf
        · obtain ⟨b, m, e1, e2, e3, e4⟩ := addString_spec hlen hf
          rw [e1] at h
          simp only [Option.some.injEq, Prod.mk.injEq] at h
          obtain ⟨rfl, rfl⟩ := h
          refine ⟨_, hentry, ?_, ?_, ?_, by simpa using hw, fun f e hf => by omega, fun hx => absurd rfl (hx f)⟩
          · constructor
            · simpa [texts_append] using hL.files
            · simpa [texts_append] using hL.dirs
            · simp only [texts_append, if_true, List.filter_append]
              have : List.filter (fun x : List Nat => decide (x ≠ [])) [f] = [f] := by simp [hf]
              rw [this, firsts_step, e3, ← hL.flags]
            · simpa [texts_append] using hL.output
          · refine ⟨fun k => (by cases k), fun k => (by cases k), fun _ => ?_, fun k => (by cases k)⟩
            simp only [if_neg hf]
            exact e4
          · refine ⟨List.prefix_rfl, List.prefix_rfl, ?_⟩
            simp only [e3]
            exact prefix_add _ _
  | output p =>
    simp only [step, wsSetOutput] at h
    split at h
    · simp at h; rw [← h.2] at hok; cases hok
    · rename_i hw
      split at h
      · simp at h
        obtain ⟨rfl, rfl⟩ := h
        refine ⟨_, rfl, ?_, ?_, Grows.refl _, by simpa using hw, fun f e => (by cases e), fun _ => (by unfold SIZE_MAX; omega)⟩
        · constructor
          · simpa [texts_append] using hL.files
          · simpa [texts_append] using hL.dirs
          · simpa [texts_append] using hL.flags
          · simp [texts_append]
        · exact ⟨fun k => (by cases k), fun k => (by cases k), fun k => (by cases k), fun _ => rfl⟩
      · simp at h

end

/-- An error stays. -/
theorem step_error {access : List Nat → Bool} {ws : Ws} (h : ws.wasError = true) (op : Op) :
    step access ws op = some (SIZE_MAX, { ws with wasError := true }) := by
  cases op <;> simp [step, wsAddFile, wsAddDir, wsAddFlag, wsSetOutput, h]

theorem run_error {access : List Nat → Bool} {ws ws' : Ws} {ops : List Op} {as : List Nat} (h : ws.wasError = true)
    (hr : run access ws ops = some (as, ws')) : ws'.wasError = true ∧ ∀ a ∈ as, a = SIZE_MAX := by
  induction ops generalizing ws as with
  | nil => simp [run] at hr; obtain ⟨rfl, rfl⟩ := hr; exact ⟨h, by simp⟩
  | cons op ops ih =>
    rw [run, step_error h] at hr
    simp only at hr
    cases hx : run access { ws with wasError := true } ops with
    | none => rw [hx] at hr; simp at hr
    | some r =>
      rw [hx] at hr
      simp only [Option.map_some, Option.some.injEq, Prod.mk.injEq] at hr
      obtain ⟨rfl, rfl⟩ := hr
      obtain ⟨i1, i2⟩ := ih rfl (as := r.1) (by rw [hx])
      exact ⟨i1, fun a ha => (List.mem_cons.1 ha).elim id (i2 a)⟩

theorem run_spec {access : List Nat → Bool} (hne : access [] = false) {ops : List Op} : ∀ {ws ws' : Ws} {as : List Nat}
    {es : List (Kind × List Nat)}, run access ws ops = some (as, ws') → ws'.wasError = false → Listed es ws →
    es.length + ops.length < 4611686018427387904 →
    ∃ fs, ops.map entry = fs.map some ∧ Listed (es ++ fs) ws' ∧ as.length = ops.length ∧ Grows ws ws' ∧
      ∀ (i : Nat) e a, fs[i]? = some e → as[i]? = some a → Answer ws' e a := by
  induction ops with
  | nil =>
    intro ws ws' as es h hok hL hl
    simp [run] at h
    obtain ⟨rfl, rfl⟩ := h
    exact ⟨[], rfl, by simpa using hL, rfl, Grows.refl _, fun i e a h => by simp at h⟩
  | cons op ops ih =>
    intro ws ws' as es h hok hL hl
    rw [run] at h
    cases hs : step access ws op with
    | none => rw [hs] at h; cases h
    | some r =>
      obtain ⟨a, ws1⟩ := r
      rw [hs] at h
      simp only at h
      cases hx : run access ws1 ops with
      | none => rw [hx] at h; simp at h
      | some r =>
        rw [hx] at h
        simp only [Option.map_some, Option.some.injEq, Prod.mk.injEq] at h
        obtain ⟨rfl, rfl⟩ := h
        have hok1 : ws1.wasError = false := by
          cases hw : ws1.wasError with
          | false => rfl
          | true => rw [(run_error hw hx).1] at hok; cases hok
        simp only [List.length_cons] at hl
        obtain ⟨e, e1, e2, e3, e4, _, _⟩ := step_spec hne hs hok1 hL (by omega)
        obtain ⟨fs, f1, f2, f3, f4, f5⟩ := ih hx hok e2 (by simp; omega)
        refine ⟨e :: fs, by simp [e1, f1], by simpa using f2, by simp [f3], e4.trans f4, ?_⟩
        intro i e' a' hi ha
        cases i with
        | zero =>
          simp at hi ha
          subst hi; subst ha
          exact e3.grow f4
        | succ i => exact f5 i e' a' (by simpa using hi) (by simpa using ha)

theorem listed_nil : Listed [] wsCreate := ⟨rfl, rfl, rfl, rfl⟩

theorem parse_spec {access : List Nat → Bool} (hne : access [] = false) : ∀ (n : Nat) {args : List (List Nat)} {ws ws' : Ws}
    {es : List (Kind × List Nat)}, args.length ≤ n → parseArgs access args ws = some ws' → ws'.wasError = false → Listed es ws →
    es.length + args.length < 4611686018427387904 →
    ∃ ops as, Reads args ops ∧ run access ws ops = some (as, ws') := by
  intro n
  induction n with
  | zero =>
    intro args ws ws' es hn h _ _ _
    have : args = [] := by simpa using hn
    subst this
    simp [parseArgs] at h
    subst h
    exact ⟨[], [], .nil, rfl⟩
  | succ n ih =>
    intro args ws ws' es hn h hok hL hl
    match args, hn, h, hl with
    | [], _, h, _ =>
      simp [parseArgs] at h
      subst h
      exact ⟨[], [], .nil, rfl⟩
    | arg :: args, hn, h, hl =>
      simp only [List.length_cons] at hn hl
      have hstep : ∀ op a ws1, step access ws op = some (a, ws1) → ws1.wasError = false → (∀ f, op = .flag f → f ≠ []) →
          a ≠ SIZE_MAX ∧ ∃ e, Listed (es ++ [e]) ws1 := by
        intro op a ws1 hs ho hf
        obtain ⟨e, _, e2, _, _, _, e6, e7⟩ := step_spec hne hs ho hL (by omega)
        refine ⟨?_, e, e2⟩
        cases op with
        | flag f => exact e6 f rfl (hf f rfl)
        | file p => exact e7 (by simp)
        | dir p => exact e7 (by simp)
        | output p => exact e7 (by simp)
      rw [parseArgs.eq_def] at h
      simp only at h
      split at h
      · rename_i hd
        cases hs : wsAddFile access ws arg with
        | none => rw [hs] at h; cases h
        | some r =>
          obtain ⟨a, ws1⟩ := r
          rw [hs] at h
          simp only at h
          have hs' : step access ws (.file arg) = some (a, ws1) := hs
          split at h
          · rename_i ha
            simp at h; subst h
            exact absurd ha (hstep _ _ _ hs' hok (fun f e => by cases e)).1
          · have hok1 : ws1.wasError = false := by
              cases hw : ws1.wasError with
              | false => rfl
              | true =>
                exfalso
                rename_i ha
                unfold wsAddFile at hs
                split at hs
                · simp at hs; exact ha hs.1.symm
                · rename_i hwf
                  split at hs
                  · cases hs
                  · simp at hs; exact ha hs.1.symm
                  · simp at hs
                    rw [← hs.2] at hw
                    exact hwf hw
            obtain ⟨_, e, hL1⟩ := hstep _ _ _ hs' hok1 (fun f e => by cases e)
            obtain ⟨ops, as, r1, r2⟩ := ih (by omega) h hok hL1 (by simp; omega)
            exact ⟨.file arg :: ops, a :: as, .file hd r1, by rw [run, hs']; simp [r2]⟩
      · rename_i hd
        have hd : arg.head? = some 45 := by simpa using hd
        split at h
        · rename_i ho
          subst ho
          split at h
          · simp at h; subst h; cases hok
          · rename_i path args
            simp only [List.length_cons] at hn hl
            cases hs : wsSetOutput ws path with
            | none => rw [hs] at h; cases h
            | some r =>
              obtain ⟨a, ws1⟩ := r
              rw [hs] at h
              simp only at h
              split at h
              · simp at h; subst h; cases hok
              · rename_i ha
                have hs0 := hs
                unfold wsSetOutput at hs
                split at hs
                · simp at hs; exact absurd hs.1.symm ha
                · rename_i hwf
                  split at hs
                  · simp at hs
                    obtain ⟨rfl, rfl⟩ := hs
                    have hs' : step access ws (.output path) = some (0, { ws with output := path }) := by
                      simp [step, hs0]
                    obtain ⟨_, e, hL1⟩ := hstep _ _ _ hs' (by simpa using hwf) (fun f e => by cases e)
                    obtain ⟨ops, as, r1, r2⟩ := ih (by omega) h hok hL1 (by simp; omega)
                    exact ⟨.output path :: ops, 0 :: as, .out r1, by rw [run, hs']; simp [r2]⟩
                  · cases hs
        · rename_i ho
          have hfne : arg ≠ [] := by rintro rfl; simp at hd
          cases hs : wsAddFlag access ws arg with
          | none => rw [hs] at h; cases h
          | some r =>
            obtain ⟨a, ws1⟩ := r
            rw [hs] at h
            simp only at h
            have hs' : step access ws (.flag arg) = some (a, ws1) := hs
            split at h
            · rename_i ha
              simp at h; subst h
              exact absurd ha (hstep _ _ _ hs' hok (fun f e => by cases e; exact hfne)).1
            · have hok1 : ws1.wasError = false := by
                rename_i ha
                cases hw : ws1.wasError with
                | false => rfl
                | true =>
                  exfalso
                  unfold wsAddFlag at hs
                  split at hs
                  · simp at hs; exact ha hs.1.symm
                  · rename_i hwf
                    split at hs
                    · unfold wsAddDir at hs
                      split at hs
                      · simp at hs; exact ha hs.1.symm
                      · split at hs
                        · cases hs
                        · simp at hs; exact ha hs.1.symm
                        · simp at hs
                          rw [← hs.2] at hw
                          exact hwf hw
                    · simp at hs
                      rw [← hs.2] at hw
                      exact hwf hw
              obtain ⟨_, e, hL1⟩ := hstep _ _ _ hs' hok1 (fun f e => by cases e; exact hfne)
              obtain ⟨ops, as, r1, r2⟩ := ih (by omega) h hok hL1 (by simp; omega)
              exact ⟨.flag arg :: ops, a :: as, .flag hd ho r1, by rw [run, hs']; simp [r2]⟩

end RuC.Workspace
