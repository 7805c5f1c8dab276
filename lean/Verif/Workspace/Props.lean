import Verif.Workspace.Lemmas

/-!
# C18, C19: paths and workspaces
-/

namespace RuC.Workspace
open RuC

/-- C18.  A plain path gets a normal form without reading or writing outside the array; the normal form
denotes the same file-system node in every file system without links, contains no backslash and is its
own normal form.  What is missing: paths with two separators in a row, absolute paths that climb above
the root, paths with a final separator that lead back to where they started, and paths that are too
long; the theorems below show that for these the claim fails. -/
theorem unix_path_denotes_partial {p : List Nat} (hp : Plain p) : ∃ q, unixPath p = some q ∧
    (∀ (fs : FS) (d : fs.Node), fs.resolve p = some d → fs.resolve q = some d) ∧
    92 ∉ q ∧ unixPath q = some q := by
  obtain ⟨st, last, hst, hl, hne, h1, h2, h3⟩ := plain_result hp
  refine ⟨_, h1, ?_, ?_, h2⟩
  · intro fs d h
    rw [resolve_of fs hst hl hne]
    exact h3 fs d h
  · rw [List.mem_append, not_or]
    exact ⟨joinR_noback hst.noSep, fun hm => by simpa [isSep] using hl 92 hm⟩

/-- The path "a/./b\..\..\c/" is plain. -/
example : ∃ p, p = [97, 47, 46, 47, 98, 92, 46, 46, 92, 46, 46, 92, 99, 47] ∧ unixPath p = some [99] ∧
    p ≠ [] ∧ p.length < 1024 ∧ isSep (p.head?.getD 0) = false ∧ depth (comps p) ≠ 0 := by
  refine ⟨_, rfl, by decide +kernel, by simp, by simp, by decide, by decide⟩

theorem plain_of_relative {p : List Nat} (h0 : 0 ∉ p) (h1 : p.length < 1024) (h2 : p ≠ []) (h3 : isSep (p.head?.getD 0) = false)
    (h4 : depth (comps p) ≠ 0) (h5 : ∀ i, i < p.length → ¬ (isSep (p[i]?.getD 0) ∧ isSep (p[i + 1]?.getD 0))) : Plain p := by
  refine ⟨fun c hc e => h0 (e ▸ hc), h1, h2, ?_, fun h => (by rw [h3] at h; cases h), fun _ => h4⟩
  intro a c d b e hcd
  refine h5 a.length (by rw [e]; simp) ?_
  rw [e]
  simpa using hcd

example : Plain [97, 47, 46, 47, 98, 92, 46, 46, 92, 46, 46, 92, 99, 47] :=
  plain_of_relative (by decide) (by decide) (by decide) (by decide) (by decide) (by decide)

/-- Every path that leaves nothing behind makes the code read in front of its array. -/
theorem unix_path_undefined {p : List Nat} (hfit : p.length < 1024) (ht : ∀ c ∈ p, c ≠ 0)
    (h : (comps p).dropLast.foldl push [] = [] ∧ (comps p).getLast?.getD [] = []) : unixPath p = none := by
  refine unixPath_empty hfit ?_
  rw [norm_comps', h.1, h.2]
  rfl

/-- Among them the empty path, "./" and "a/../". -/
example : unixPath [] = none ∧ unixPath [46, 47] = none ∧ unixPath [97, 47, 46, 46, 47] = none := by
  refine ⟨?_, ?_, ?_⟩ <;> exact unix_path_undefined (by decide) (by decide) (by decide)

/-- "/../b" becomes "b", "a//../b" becomes "a/b", "/" becomes the empty text. -/
theorem unix_path_wrong_node :
    unixPath [47, 46, 46, 47, 98] = some [98] ∧
    unixPath [97, 47, 47, 46, 46, 47, 98] = some [97, 47, 98] ∧
    unixPath [47] = some [] := by decide +kernel

/-- A file system with the names "a" and "b" everywhere: a node is the list of names that leads to it. -/
def abFS : FS where
  Node := List (List Nat)
  root := []
  cwd := [[98]]
  child d n := if n = [97] ∨ n = [98] then some (n :: d) else none
  parent := List.tail
  up := by
    intro d n e _ _ _ h
    split at h
    · cases h; rfl
    · cases h

/-- In it the path "/../b" and its normal form denote different nodes, and so do "a//../b" and its normal
form: C18 as stated does not hold. -/
theorem unix_path_not_same_node :
    (abFS.resolve [47, 46, 46, 47, 98] = some [[98]] ∧ abFS.resolve [98] = some [[98], [98]]) ∧
    (abFS.resolve [97, 47, 47, 46, 46, 47, 98] = some [[98], [98]] ∧ abFS.resolve [97, 47, 98] = some [[98], [97], [98]]) := by
  refine ⟨⟨rfl, rfl⟩, rfl, rfl⟩

/-- The normal form of "a//" is "a/", which is not its own normal form. -/
theorem unix_path_not_fixed : unixPath [97, 47, 47] = some [97, 47] ∧ unixPath [97, 47] = some [97] := by decide +kernel

theorem pathLoop_overflow (cs : List Nat) : ∀ (b : List (Option Nat)) (j last : Nat), (∀ c ∈ cs, isSep c = false) →
    b.length < j + cs.length → j ≤ b.length → pathLoop cs b j last = none := by
  induction cs with
  | nil => intro b j last _ h1 h2; simp at h1; omega
  | cons c cs ih =>
    intro b j last hc h1 h2
    have h := hc c (by simp)
    simp only [isSep, Bool.or_eq_false_iff, beq_eq_false_iff_ne] at h
    simp only [List.length_cons] at h1
    simp only [pathLoop, if_neg h.2, poke]
    by_cases hj : j < b.length
    · rw [if_pos hj]
      simp only [if_neg h.1]
      exact ih _ _ _ (fun c hc' => hc c (by simp [hc'])) (by simp; omega) (by simp; omega)
    · rw [if_neg hj]

theorem pathLoop_exact (cs : List Nat) : ∀ (b : List (Option Nat)) (j last : Nat), (∀ c ∈ cs, isSep c = false) →
    j + cs.length ≤ b.length → ∃ b', pathLoop cs b j last = some (b', j + cs.length) ∧ b'.length = b.length ∧
      (cs ≠ [] → peek b' (j + cs.length - 1) = cs.getLast?) := by
  induction cs with
  | nil => intro b j last _ _; exact ⟨b, rfl, rfl, fun h => absurd rfl h⟩
  | cons c cs ih =>
    intro b j last hc h1
    have h := hc c (by simp)
    simp only [isSep, Bool.or_eq_false_iff, beq_eq_false_iff_ne] at h
    simp only [List.length_cons] at h1
    simp only [pathLoop, if_neg h.2, poke, if_pos (show j < b.length by omega), if_neg h.1]
    obtain ⟨b', e1, e2, e3⟩ := ih (b.set j (some c)) (j + 1) last (fun c hc' => hc c (by simp [hc'])) (by simp; omega)
    refine ⟨b', by rw [e1, List.length_cons]; congr 2; omega, by simpa using e2, fun _ => ?_⟩
    cases cs with
    | nil =>
      simp only [pathLoop, Option.some.injEq, Prod.mk.injEq] at e1
      rw [← e1.1]
      simp [peek, show j < b.length by omega]
    | cons d ds =>
      have := e3 (by simp)
      rw [List.getLast?_cons_cons, ← this, List.length_cons]
      congr 1
      omega

/-- A name of `MAX_ARG_SIZE` or more characters is written past the end of the array. -/
theorem unix_path_overflow {p : List Nat} (hl : 1024 ≤ p.length) (hp : ∀ c ∈ p, isSep c = false) : unixPath p = none := by
  have hmax : MAX_ARG_SIZE = 1024 := by unfold MAX_ARG_SIZE; rfl
  unfold unixPath
  by_cases h : p.length = 1024
  · obtain ⟨b', e1, e2, e3⟩ := pathLoop_exact p (List.replicate MAX_ARG_SIZE none) 0 0 hp
      (by rw [List.length_replicate, hmax]; omega)
    have hne : p ≠ [] := by intro e; rw [e] at h; cases h
    have e4 := e3 hne
    rw [List.getLast?_eq_some_getLast hne] at e4
    have hs := hp _ (List.getLast_mem hne)
    simp only [isSep, Bool.or_eq_false_iff, beq_eq_false_iff_ne] at hs
    rw [e1]
    simp only [Nat.zero_add] at e4 ⊢
    rw [if_neg (by omega), e4]
    simp only [if_neg hs.1]
    rw [poke, if_neg (by rw [e2, List.length_replicate, hmax]; omega)]
  · rw [pathLoop_overflow p _ 0 0 hp (by rw [List.length_replicate, hmax]; omega) (Nat.zero_le _)]

example : unixPath (List.replicate 1024 97) = none :=
  unix_path_overflow (by rw [List.length_replicate]; exact Nat.le_refl _) (by intro c hc; rw [List.eq_of_mem_replicate hc]; rfl)

/-! ## C19 -/

/-- `firsts` keeps every text once and none other, in the order of first occurrence. -/
theorem firsts_once (l : List (List Nat)) : (firsts l).Nodup ∧ (∀ x, x ∈ firsts l ↔ x ∈ l) ∧
    (firsts l).Sublist l := by
  refine ⟨nodup_firsts l, mem_firsts l, ?_⟩
  induction l with
  | nil => simp [firsts]
  | cons s l ih => exact List.Sublist.cons_cons _ (List.filter_sublist.trans ih)

/-- C19.  After any history of calls without an error the workspace lists every file, directory and flag
named, each once, in the order of first occurrence; each call answered the place where its text is
found in the final list; the output is the last one set.  Files and directories are named by the normal
forms of their paths, and an empty path cannot be accessed. -/
theorem workspace_lists {access : List Nat → Bool} (hne : access [] = false) {ops : List Op} {as : List Nat} {ws : Ws}
    (h : run access wsCreate ops = some (as, ws)) (hok : ws.wasError = false) (hl : ops.length < 4611686018427387904) :
    ∃ es, ops.map entry = es.map some ∧ as.length = ops.length ∧
      (wsGetFilesNum ws = (firsts (texts .file es)).length ∧ ∀ i, wsGetFile ws i = (firsts (texts .file es))[i]?) ∧
      (∀ i, wsGetDir ws i = (firsts (texts .dir es))[i]?) ∧
      (∀ i, wsGetFlag ws i = (firsts ((texts .flag es).filter (· ≠ [])))[i]?) ∧
      (∀ f, f ≠ [] → (wsHasFlag ws f = true ↔ f ∈ texts .flag es)) ∧
      (wsGetOutput ws = if (texts .out es).getLast?.getD [] = [] then none else (texts .out es).getLast?) ∧
      ∀ (i : Nat) k q a, es[i]? = some (k, q) → as[i]? = some a →
        (k = .file → wsGetFile ws a = some q) ∧ (k = .dir → wsGetDir ws a = some q) ∧
        (k = .flag → if q = [] then a = SIZE_MAX else wsGetFlag ws a = some q) := by
  obtain ⟨es, h1, h2, h3, _, h5⟩ := run_spec hne h hok listed_nil (by simpa using hl)
  rw [List.nil_append] at h2
  refine ⟨es, h1, h3, ⟨?_, ?_⟩, ?_, ?_, ?_, ?_, ?_⟩
  · simp [wsGetFilesNum, hok, h2.files]
  · intro i; simp [wsGetFile, hok, h2.files]
  · intro i; simp [wsGetDir, hok, h2.dirs]
  · intro i; rw [wsGetFlag, hok, h2.flags]; rfl
  · intro f hf
    simp only [wsHasFlag, hok, Bool.not_false, Bool.true_and, List.any_eq_true, decide_eq_true_eq, h2.flags]
    constructor
    · rintro ⟨x, hx, rfl⟩
      rw [mem_firsts] at hx
      exact (List.mem_filter.1 hx).1
    · intro hm
      exact ⟨f, by rw [mem_firsts, List.mem_filter]; exact ⟨hm, by simp [hf]⟩, rfl⟩
  · rw [wsGetOutput, hok, h2.output]
    cases hg : (texts .out es).getLast? with
    | none => simp
    | some x => by_cases hx : x = [] <;> simp [hx]
  · intro i k q a he ha
    obtain ⟨a1, a2, a3, _⟩ := h5 i (k, q) a he ha
    refine ⟨fun e => ?_, fun e => ?_, fun e => ?_⟩
    · rw [wsGetFile, hok]; exact (a1 e).1
    · rw [wsGetDir, hok]; exact (a2 e).1
    · have := a3 e
      split
      · rename_i h0; rwa [if_pos h0] at this
      · rename_i h0
        rw [if_neg h0] at this
        rw [wsGetFlag, hok]; exact this.1

/-- Files "a" and "./b" and again "x/../a", the flag "-c", the directory "-Id" and two outputs. -/
def exampleOps : List Op :=
  [.file [97], .output [120], .file [46, 47, 98], .flag [45, 99], .file [120, 47, 46, 46, 47, 97], .flag [45, 73, 100], .output [121]]

example : run (· ≠ []) wsCreate exampleOps =
    some ([0, 0, 1, 0, 0, 0, 0], ⟨[[97], [98]], [[100]], [[45, 99]], [121], false⟩) := by decide +kernel

/-- After an error every call answers an error and every question is answered by nothing. -/
theorem workspace_error {access : List Nat → Bool} {ws ws' : Ws} {ops : List Op} {as : List Nat} (h : ws.wasError = true)
    (hr : run access ws ops = some (as, ws')) :
    (∀ a ∈ as, a = SIZE_MAX) ∧ (∀ i, wsGetFile ws' i = none ∧ wsGetDir ws' i = none ∧ wsGetFlag ws' i = none) ∧
    (∀ f, wsHasFlag ws' f = false) ∧ wsGetOutput ws' = none ∧ wsGetFilesNum ws' = 0 := by
  obtain ⟨h1, h2⟩ := run_error h hr
  exact ⟨h2, fun i => by simp [wsGetFile, wsGetDir, wsGetFlag, h1], fun f => by simp [wsHasFlag, h1], by simp [wsGetOutput, h1],
    by simp [wsGetFilesNum, h1]⟩

/-- An existing file and a missing one: the workspace is in error from then on. -/
example : run (fun p => p = [97]) wsCreate [.file [97], .file [98], .file [97]] =
    some ([0, SIZE_MAX, SIZE_MAX], ⟨[[97]], [], [], [], true⟩) := by decide +kernel

/-- A file or directory is refused exactly when its normal form cannot be accessed. -/
theorem workspace_refuses {access : List Nat → Bool} {ws : Ws} (h : ws.wasError = false) {p q : List Nat} (hq : unixPath p = some q) :
    ∃ a ws', wsAddFile access ws p = some (a, ws') ∧ (ws'.wasError = true ↔ access q = false) ∧
      ∃ b ws'', wsAddDir access ws p = some (b, ws'') ∧ (ws''.wasError = true ↔ access q = false) := by
  have hw : wsPath access p = some (if access q = true then some q else none) := by unfold wsPath; rw [hq]
  unfold wsAddFile wsAddDir
  rw [hw]
  cases ha : access q with
  | false =>
    refine ⟨SIZE_MAX, { ws with wasError := true }, by simp [h], by simp, SIZE_MAX, { ws with wasError := true }, by simp [h], by simp⟩
  | true =>
    refine ⟨(wsAddString ws.files q).1, { ws with files := (wsAddString ws.files q).2 }, by simp [h], by simp [h],
      (wsAddString ws.dirs q).1, { ws with dirs := (wsAddString ws.dirs q).2 }, by simp [h], by simp [h]⟩

/-- C19 for command lines: a command line that is taken without an error was read as one history of
calls, in order. -/
theorem parse_args_reads {access : List Nat → Bool} (hne : access [] = false) {args : List (List Nat)} {ws : Ws}
    (h : wsParseArgs access args = some ws) (hok : ws.wasError = false) (hl : args.length < 4611686018427387904) :
    ∃ ops as, Reads args ops ∧ run access wsCreate ops = some (as, ws) :=
  parse_spec hne args.length (Nat.le_refl _) h hok listed_nil (by simpa using hl)

/-- A command line is read in one way only. -/
theorem reads_unique {args : List (List Nat)} {ops ops' : List Op} (h : Reads args ops) (h' : Reads args ops') : ops = ops' := by
  induction h generalizing ops' with
  | nil => cases h'; rfl
  | out _ ih =>
    cases h' with
    | out h => rw [ih h]
    | flag _ hn _ => exact absurd rfl hn
    | file hn _ => simp at hn
  | flag h1 h2 _ ih =>
    cases h' with
    | out h => exact absurd rfl h2
    | flag _ _ h => rw [ih h]
    | file hn _ => exact absurd h1 hn
  | file h1 _ ih =>
    cases h' with
    | out h => simp at h1
    | flag hh _ _ => exact absurd hh h1
    | file _ h => rw [ih h]

/-- "a -o x ./b -c -Id". -/
example : wsParseArgs (· ≠ []) [[97], [45, 111], [120], [46, 47, 98], [45, 99], [45, 73, 100]] =
    some ⟨[[97], [98]], [[100]], [[45, 99]], [120], false⟩ := by decide +kernel

/-- "-o" at the end is an error. -/
example : wsParseArgs (· ≠ []) [[97], [45, 111]] = some ⟨[[97]], [], [], [], true⟩ := by decide +kernel

/-- The command line "-I" alone is undefined: the empty path is normalised. -/
theorem parse_args_undefined (access : List Nat → Bool) : wsParseArgs access [[45, 73]] = none := by
  have h : unixPath [] = none := unix_path_undefined (by decide) (by decide) (by decide)
  simp [wsParseArgs, parseArgs, wsAddFlag, wsAddDir, isDirFlag, wsPath, wsCreate, h]

end RuC.Workspace
