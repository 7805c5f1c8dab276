import Verif.Linker.Run

/-!
# C44, C45, C56: included files
-/

namespace RuC.Linker
open RuC RuC.Workspace RuC.Cond
variable {σ X O : Type} {e : Env σ X O}

/-! ## C45 -/

theorem nameOf_cons (c : Nat) (cs : List Nat) : nameOf (c :: cs) =
    if c = 10 ∨ (c = 92 ∧ cs.head? ≠ some 92) then nameOf cs
    else (if c = 92 then 47 else c) :: nameOf cs := by rw [nameOf]

theorem reads_name {name text : List Nat} (h : Reads name text) : nameOf name = text := by
  induction h with
  | nil => rfl
  | @char c name text h1 h2 h ih =>
    rw [nameOf_cons, if_neg (by rintro (h | h); exact h2 h; exact h1 h.1), if_neg h1, ih]
  | @sep name text h1 h ih =>
    rw [nameOf_cons, if_neg (by simp), if_pos rfl, nameOf_cons, if_pos (.inr ⟨rfl, h1⟩), ih]
  | @joined name text h ih =>
    rw [nameOf_cons, if_pos (.inr ⟨rfl, by simp⟩), nameOf_cons, if_pos (.inl rfl), ih]

theorem dropWhile_dir {b : List Nat} (hb : 47 ∉ b) (l : List Nat) (hl : l = [] ∨ l.head? = some 47) :
    (b ++ l).dropWhile (· != 47) = l := by
  induction b with
  | nil =>
    rcases hl with h | h
    · rw [h]; rfl
    · cases l with
      | nil => cases h
      | cons c l =>
        simp only [List.head?_cons, Option.some.injEq] at h
        subst h
        rfl
  | cons c b ih =>
    simp only [List.mem_cons, not_or] at hb
    have : (c != 47) = true := by simpa using Ne.symm hb.1
    rw [List.cons_append, List.dropWhile_cons, if_pos this]
    exact ih hb.2

theorem dirPart_eq {path d : List Nat} (h : IsDir path d) : dirPart path = d := by
  obtain ⟨b, rfl, hb, hd⟩ := h
  unfold dirPart
  rw [List.reverse_append, dropWhile_dir (by simpa using hb), List.reverse_reverse]
  rcases hd with rfl | ⟨u, rfl⟩
  · exact .inl rfl
  · exact .inr (by simp)

/-- The directory part of a path exists and is unique. -/
theorem isDir_unique (path : List Nat) : ∃ d, IsDir path d ∧ ∀ d', IsDir path d' → d' = d := by
  have : ∃ d, IsDir path d := by
    suffices h : ∀ l : List Nat, ∃ d, IsDir l.reverse d by simpa using h path.reverse
    intro l
    induction l with
    | nil => exact ⟨[], [], rfl, by simp, .inl rfl⟩
    | cons c l ih =>
      by_cases hc : c = 47
      · subst hc
        exact ⟨l.reverse ++ [47], [], by simp, by simp, .inr ⟨_, rfl⟩⟩
      · obtain ⟨d, b, h1, h2, h3⟩ := ih
        refine ⟨d, b ++ [c], by simp [h1], ?_, h3⟩
        simp only [List.mem_append, List.mem_singleton, not_or]
        exact ⟨h2, Ne.symm hc⟩
  obtain ⟨d, h⟩ := this
  exact ⟨d, h, fun d' h' => (dirPart_eq h').symm.trans (dirPart_eq h)⟩

/-- C45: the path tried for a name in quotes is the directory part of the current file followed by the
name, for a name in angle brackets the directory, `/` and the name; paths that do not fit into 1024
characters are written outside the array. -/
theorem C45_include_path {name text : List Nat} (h : Reads name text) :
    (∀ path d, IsDir path d → makePath name (some path) true =
      if (d ++ text).length < 1024 then some (d ++ text) else none) ∧
    (∀ dir, makePath name (some dir) false =
      if (dir ++ 47 :: text).length < 1024 then some (dir ++ 47 :: text) else none) := by
  have hmax : MAX_ARG_SIZE = 1024 := by unfold MAX_ARG_SIZE; rfl
  refine ⟨fun path d hd => ?_, fun dir => ?_⟩
  · unfold makePath
    simp only [if_true, dirPart_eq hd, reads_name h, hmax]
  · unfold makePath
    simp only [Bool.false_eq_true, if_false, reads_name h, hmax, List.append_assoc, List.singleton_append]

/-- Of several backslashes one is dropped, the others are separators. -/
theorem C45_backslashes (n : Nat) (name : List Nat) (h : name.head? ≠ some 92) :
    nameOf (List.replicate (n + 1) 92 ++ name) = List.replicate n 47 ++ nameOf name := by
  induction n with
  | zero => exact (nameOf_cons _ _).trans (if_pos (.inr ⟨rfl, h⟩))
  | succ n ih =>
    rw [List.replicate_succ, List.cons_append, nameOf_cons, if_neg (by simp [List.replicate_succ]), if_pos rfl, ih,
      List.replicate_succ, List.cons_append]

/-- A name with a single backslash, `a\b`, is read as `ab`. -/
theorem C45_witness : makePath [97, 92, 98] (some [109]) true = some [97, 98] := by
  unfold makePath MAX_ARG_SIZE; rfl

/-- `sub\\a.h` in `src/m.c`, and in the directory `inc`. -/
example : makePath [115, 92, 92, 97] (some [100, 47, 109]) true = some [100, 47, 115, 47, 97] ∧
    makePath [115, 92, 92, 97] (some [100]) false = some [100, 47, 115, 47, 97] := by
  have hr : Reads [115, 92, 92, 97] [115, 47, 97] :=
    .char (by decide) (by decide) (.sep (by decide) (.char (by decide) (by decide) .nil))
  obtain ⟨h1, h2⟩ := C45_include_path hr
  refine ⟨?_, ?_⟩
  · rw [h1 [100, 47, 109] [100, 47] ⟨[109], rfl, by decide, .inr ⟨[100], rfl⟩⟩]; rfl
  · rw [h2 [100]]; rfl

/-! ## C44 -/

/-- C44: whatever the files contain and whatever other lines do, a run opens every header at most once
and only if it was not opened before, every source at most once and in order; includes are nested at
most 32 deep; two numbers of files are two paths. -/
theorem C44_once (hne : e.access [] = false) (sys : O) (ws : Ws) (hd : ws.files.Nodup) (s : σ)
    (hl : (e.formIo sys ws s).2.env.1.ws.files.length < SIZE_MAX) :
    Orderly ws (e.formIo sys ws s).2.env.1 := by
  unfold Env.formIo at *
  obtain ⟨h1, h2⟩ := sources_spec hne sys (wsGetFilesNum ws) (wsGetFilesNum ws) false
    { env := (linkerCreate ws, s), err := false, out := [] } (Nat.le_refl _)
  have hB := h2 hl (by rw [Nat.sub_self]; exact create_before ws hd)
  generalize (e.sources sys (wsGetFilesNum ws) (wsGetFilesNum ws) false
    { env := (linkerCreate ws, s), err := false, out := [] }).2.env.1 = lk at *
  have hk : ∀ o ∈ lk.log, o.index < lk.ws.files.length := by
    intro o ho
    have h3 := (hB.inv.marked o.index).mpr ⟨o, ho, rfl⟩
    rw [List.getElem?_eq_some_iff] at h3
    exact Nat.lt_of_lt_of_le h3.1 hB.inv.short
  refine ⟨once_filter hB.inv.once, ?_, hB.sources, fun o ho hh => ?_, fun o ho hh => ?_, hk, hB.nodup, h1.files⟩
  · intro a b c o p hlog hi
    have h3 := hB.inv.once
    rw [hlog] at h3
    have h4 := (List.pairwise_append.mp h3).2.2 o (by simp) p (by simp)
    cases hp : p.header with
    | false => rfl
    | true => exact absurd hi (h4 hp)
  · obtain ⟨h3, h4⟩ := hB.given o ho hh
    refine ⟨Nat.lt_of_lt_of_le h3 ?_, h4⟩
    unfold wsGetFilesNum
    split <;> omega
  · have := hB.inv.levels o ho
    exact ⟨this.1 hh, this.2⟩

/-- C44: a line with `#include` whose file was opened before does nothing more; otherwise the text of the
file is preprocessed in its place. -/
theorem C44_inserts {left : Nat} {x : X} {i : Inc} (hx : e.inc x = some i) (hm : i ≠ .malformed)
    {st : St (Link × σ) O} {k : Nat} {lk : Link} (hs : e.search st.env.1 i = (k, lk)) (hk : k ≠ SIZE_MAX)
    (hi : Inv lk) (hw : lk.ws.wasError = false) :
    ((∃ o ∈ lk.log, o.index = k) → (e.world (left + 1)).act x st = { st with env := (lk, st.env.2) }) ∧
    ((∀ o ∈ lk.log, o.index ≠ k) → ∀ p ls, lk.ws.files[k]? = some p → e.read p = some ls → ∃ n lk',
      lk'.log = lk.log ++ [{ header := true, index := k, level := MAX_INCLUDE_DEPTH - left }] ∧ lk'.current = k ∧
      preprocess (e.world left) n ls { st with env := (lk', st.env.2) } = some ((e.world (left + 1)).act x st)) := by
  have hact : (e.world (left + 1)).act x st =
      e.enter (e.world left) (MAX_INCLUDE_DEPTH - left) x (k, lk) st := by
    rw [← hs]
    cases i with
    | malformed => exact absurd rfl hm
    | quoted name => simp only [Env.world, Env.worldOf, hx, Env.includes]
    | angle name => simp only [Env.world, Env.worldOf, hx, Env.includes]
  rw [hact]
  unfold Env.enter
  simp only [if_neg hk]
  refine ⟨fun ho => ?_, fun ho p ls hp hr => ?_⟩
  · have : addHeader e.read (MAX_INCLUDE_DEPTH - left) lk k = (none, lk) := by
      unfold addHeader
      rw [if_pos (by simp [(hi.marked k).mpr ho])]
    rw [this]
  · have hn : lk.included[k]? ≠ some 1 := by
      intro h
      obtain ⟨o, ho', h⟩ := (hi.marked k).mp h
      exact ho o ho' h
    have : addHeader e.read (MAX_INCLUDE_DEPTH - left) lk k = (some ls, { lk with
        included := if k < lk.included.length then lk.included.set k 1 else lk.included
        current := k
        log := lk.log ++ [{ header := true, index := k, level := MAX_INCLUDE_DEPTH - left }] }) := by
      unfold addHeader
      rw [if_neg (by simp [hw, hn])]
      have : (wsGetFile lk.ws k).bind e.read = some ls := by
        unfold wsGetFile
        rw [hw]
        simp [hp, hr]
      rw [this]
    obtain ⟨lk', h0, h1, h2⟩ : ∃ lk', addHeader e.read (MAX_INCLUDE_DEPTH - left) lk k = (some ls, lk') ∧
      lk'.log = lk.log ++ [{ header := true, index := k, level := MAX_INCLUDE_DEPTH - left }] ∧ lk'.current = k :=
      ⟨_, this, rfl, rfl⟩
    rw [h0]
    simp only
    refine ⟨enough ls, lk', h1, h2, ?_⟩
    obtain ⟨st', h⟩ := enough_total (e.world left) ls { st with env := (lk', st.env.2) }
    rw [h]
    rfl

/-! ## C56 -/

theorem find_none {access : List Nat → Bool} {cs : List (List Nat)} (h : ∀ c ∈ cs, access c = false) :
    cs.find? access = none := by
  rw [List.find?_eq_none]
  intro c hc
  simp [h c hc]

theorem internal_error (hne : e.access [] = false) {lk : Link} (hw : lk.ws.wasError = true)
    (hl : lk.ws.files.length < SIZE_MAX) (name : List Nat) : (internalPath e.access lk name).1 = SIZE_MAX := by
  unfold internalPath
  cases makePath name (wsGetFile lk.ws lk.current) true with
  | none => rfl
  | some path =>
    simp only
    split
    · rcases register_cases hne lk path hl with ⟨_, h, _⟩ | ⟨_, e⟩ | ⟨h, _⟩ | ⟨h, _⟩
      · rw [hw] at h; cases h
      · rw [e]
      · rw [hw] at h; cases h
      · rw [hw] at h; cases h
    · rfl

/-- C56 (partial): of the paths of `tries` the first that exists is taken, in its normal form, and it
gets a number if it had none; if none exists, nothing is found.  Missing: "beside the current file"
means beside the file that was opened last, which need not be the file with the `#include`, see
`C56_witness`. -/
theorem C56_search_order_partial (hne : e.access [] = false) {lk : Link} (hw : lk.ws.wasError = false)
    (hl : lk.ws.files.length < SIZE_MAX) (i : Inc) (cs : List (List Nat)) (ht : tries lk i = cs.map some) :
    ((∀ c ∈ cs, e.access c = false) → e.search lk i = (SIZE_MAX, lk)) ∧
    ∀ p q, cs.find? e.access = some p → unixPath p = some q →
      (e.access q = true → (e.search lk i).1 ≠ SIZE_MAX ∧
        (e.search lk i).2.ws.files[(e.search lk i).1]? = some q ∧
        (e.search lk i).2.ws.files = (if q ∈ lk.ws.files then lk.ws.files else lk.ws.files ++ [q])) ∧
      (e.access q = false → (e.search lk i).1 = SIZE_MAX) := by
  suffices h : (cs.find? e.access = none → e.search lk i = (SIZE_MAX, lk)) ∧
      ∀ p q, cs.find? e.access = some p → unixPath p = some q →
      (e.access q = true → e.search lk i = register e.access lk p) ∧
      (e.access q = false → (e.search lk i).1 = SIZE_MAX) by
    refine ⟨fun hc => h.1 (find_none hc), fun p q h1 h2 => ⟨fun h3 => ?_, (h.2 p q h1 h2).2⟩⟩
    rw [(h.2 p q h1 h2).1 h3]
    obtain ⟨h4, h5, h6, _⟩ := (register_found hne hw hl p).ok q h2 h3
    exact ⟨h4, h5, h6⟩
  cases i with
  | malformed =>
    cases cs with
    | nil => exact ⟨fun _ => rfl, fun p q h => (by cases h)⟩
    | cons c cs => cases ht
  | quoted name =>
    cases cs with
    | nil => cases ht
    | cons c cs =>
      simp only [tries, List.map_cons, List.cons.injEq] at ht
      obtain ⟨ht1, ht2⟩ := ht
      obtain ⟨f1, f2⟩ := external_found hne hw hl name lk.ws.dirs cs ht2
      simp only [Env.search, searchInternal, hw, Bool.false_eq_true, if_false, internalPath, ht1, List.find?_cons]
      cases ha : e.access c with
      | true =>
        simp only [if_true]
        refine ⟨fun h => (by cases h), fun p q h hq => ?_⟩
        simp only [Option.some.injEq] at h
        subst h
        have hf := register_found hne hw hl c
        refine ⟨fun h => ?_, fun h => ?_⟩
        · rw [if_pos (hf.ok q hq h).1]
        · obtain ⟨n1, n2⟩ := hf.no q hq h
          rw [if_neg (by simp [n1]), n2]
          rfl
      | false =>
        simp only [Bool.false_eq_true, if_false, ne_eq, not_true_eq_false, hw, externalPath]
        refine ⟨fun h => f1 h, fun p q h hq => ⟨fun h' => f2 p h, fun h' => ?_⟩⟩
        rw [f2 p h]
        exact ((register_found hne hw hl p).no q hq h').1
  | angle name =>
    simp only [tries] at ht
    obtain ⟨ds, l, rfl, h1, h2⟩ := List.map_eq_append_iff.mp ht.symm
    obtain ⟨c, l', rfl, h3, h4⟩ := List.map_eq_cons_iff.mp h2
    simp only [List.map_eq_nil_iff] at h4
    subst h4
    have hf := external_found hne hw hl name lk.ws.dirs ds h1.symm
    have f1 : ds.find? e.access = none → externalPath e.access lk name = (SIZE_MAX, lk) := hf.1
    have f2 : ∀ p, ds.find? e.access = some p → externalPath e.access lk name = register e.access lk p := hf.2
    simp only [Env.search, searchExternal, hw, Bool.false_eq_true, if_false, List.find?_append]
    cases hd : ds.find? e.access with
    | some p' =>
      simp only [Option.some_or]
      refine ⟨fun h => (by cases h), fun p q h hq => ?_⟩
      simp only [Option.some.injEq] at h
      subst h
      rw [f2 _ hd]
      have hf := register_found hne hw hl p'
      refine ⟨fun h => ?_, fun h => ?_⟩
      · rw [if_pos (hf.ok q hq h).1]
      · obtain ⟨n1, n2⟩ := hf.no q hq h
        rw [if_neg (by simp [n1])]
        refine internal_error hne n2 ?_ name
        rcases register_cases hne lk p' hl with ⟨h, _⟩ | ⟨_, e'⟩ | ⟨_, q', _, h', h'', _⟩ | ⟨_, q', h', h'', _⟩
        · rw [h] at hq; cases hq
        · rw [e']; exact hl
        · rw [h'] at hq; cases hq; rw [h] at h''; cases h''
        · rw [h'] at hq; cases hq; rw [h] at h''; cases h''
    | none =>
      rw [f1 hd]
      simp only [Option.none_or, ne_eq, not_true_eq_false, if_false, internalPath, ← h3, List.find?_cons,
        List.find?_nil]
      cases ha : e.access c with
      | true =>
        simp only [if_true]
        refine ⟨fun h => (by cases h), fun p q h hq => ?_⟩
        simp only [Option.some.injEq] at h
        subst h
        exact ⟨fun _ => rfl, fun h => ((register_found hne hw hl c).no q hq h).1⟩
      | false =>
        simp only [Bool.false_eq_true, if_false]
        exact ⟨fun _ => trivial, fun p q h => (by cases h)⟩

/-- The file that stands for the current one is the one that was opened last. -/
theorem C56_current (hne : e.access [] = false) (sys : O) (ws : Ws) (hd : ws.files.Nodup) (s : σ)
    (hl : (e.formIo sys ws s).2.env.1.ws.files.length < SIZE_MAX) :
    (e.formIo sys ws s).2.env.1.current = ((e.formIo sys ws s).2.env.1.log.getLast?.map (·.index)).getD SIZE_MAX := by
  unfold Env.formIo at *
  obtain ⟨_, h2⟩ := sources_spec hne sys (wsGetFilesNum ws) (wsGetFilesNum ws) false
    { env := (linkerCreate ws, s), err := false, out := [] } (Nat.le_refl _)
  exact (h2 hl (by rw [Nat.sub_self]; exact create_before ws hd)).inv.last

/-! ## Errors -/

/-- C44: a name that is found nowhere is an error and opens nothing; so is an `#include` too deep. -/
theorem C44_unknown (hne : e.access [] = false) {left : Nat} {x : X} {i : Inc} (hx : e.inc x = some i)
    {st : St (Link × σ) O} (hw : st.env.1.ws.wasError = false) (hl : st.env.1.ws.files.length < SIZE_MAX)
    (cs : List (List Nat)) (ht : tries st.env.1 i = cs.map some) (hc : ∀ c ∈ cs, e.access c = false) :
    ((e.world left).act x st).env = st.env ∧ ((e.world left).act x st).err = true ∧
    (st.err = false → ∃ k, ((e.world left).act x st).out = st.out ++ [e.report k x]) := by
  have key : ∃ k, (e.world left).act x st = e.error k x st := by
    cases left with
    | zero => exact ⟨.depth, by simp only [Env.world, Env.worldOf, hx]⟩
    | succ left =>
      simp only [Env.world, Env.worldOf, hx, Env.includes]
      have hs := (C56_search_order_partial hne hw hl i cs ht).1 hc
      cases i with
      | malformed => exact ⟨.expects, rfl⟩
      | quoted name => exact ⟨.noFile, by simp only [hs, Env.enter, if_true]⟩
      | angle name => exact ⟨.noFile, by simp only [hs, Env.enter, if_true]⟩
  obtain ⟨k, hk⟩ := key
  rw [hk]
  refine ⟨error_link _ _ _ _, error_flag _ _ _ _, fun h => ⟨k, ?_⟩⟩
  unfold Env.error
  rw [h]
  simp

/-- C44: an `#include` below 32 others is an error and opens nothing. -/
theorem C44_depth {x : X} {i : Inc} (hx : e.inc x = some i) (st : St (Link × σ) O) :
    ((e.world 0).act x st).env = st.env ∧ ((e.world 0).act x st).err = true := by
  simp only [Env.world, Env.worldOf, hx]
  exact ⟨error_link _ _ _ _, error_flag _ _ _ _⟩

/-- C44: a run that has reported such an error, or any other of `m`, fails. -/
theorem C44_run_fails {m : O → Bool} (hb : Sticky e.base m) (sys : O) (ws : Ws) (s : σ)
    (h : told m (e.formIo sys ws s).2 ≠ 0) : (e.formIo sys ws s).1 = true := by
  cases hr : (e.formIo sys ws s).1 with
  | true => rfl
  | false => exact absurd (sources_flag hb sys _ _ _ _ hr).2 h

/-! ## Examples -/

/-- Lines of the examples: text or `#include`. -/
inductive Cmd
  | text (n : Nat)
  | inc (i : Inc)
deriving Repr, DecidableEq

/-- What the examples write. -/
inductive Out
  | text (n : Nat)
  | msg (k : IncErr)
  | block (k : ErrKind)
  | sys
deriving Repr, DecidableEq

/-- Lines of the examples that are no `#include`. -/
def plainWorld : World Unit Cmd Out where
  quiet := false
  act
    | .text n, st => { st with out := st.out ++ [.text n] }
    | _, st => st
  cond := fun _ st => (1, st)
  name := fun _ st => (some true, st)
  macroHead := fun _ st => (true, st)
  defMacro := fun _ _ st => st
  report k _ := .block k

/-- A file system. -/
def envOf (files : List (List Nat × List Cmd)) : Env Unit Cmd Out where
  access p := files.any fun f => f.1 == p
  read p := (files.lookup p).map (·.map .plain)
  base := plainWorld
  inc
    | .inc i => some i
    | _ => none
  report k _ := .msg k

/-- Sources and directories. -/
def wsOf (files dirs : List (List Nat)) : Ws :=
  { files := files, dirs := dirs, flags := [], output := [], wasError := false }

/-- `m` includes `a` twice and `b`, `a` and `b` include each other and themselves: every text is written
once. -/
example : (envOf [([109], [.text 1, .inc (.quoted [97]), .inc (.quoted [97]), .inc (.angle [98]), .text 2]),
      ([97], [.text 3, .inc (.quoted [98]), .inc (.quoted [97]), .text 4]),
      ([98], [.inc (.quoted [97]), .text 5])]).formIo .sys (wsOf [[109]] []) ()
    = (false, ⟨(⟨wsOf [[109], [97], [98]] [], [1, 1, 1], 2, [⟨false, 0, 0⟩, ⟨true, 1, 1⟩, ⟨true, 2, 2⟩], false⟩, ()),
        false, [.text 1, .text 3, .text 5, .text 4, .text 2]⟩) := by
  decide +kernel

/-- The hypotheses of `C44_once` hold there. -/
example : (envOf [([109], [.inc (.quoted [97])]), ([97], [])]).access [] = false ∧ (wsOf [[109]] []).files.Nodup := by
  decide

/-- An unknown header: the run fails. -/
example : (envOf [([109], [.inc (.quoted [97]), .text 2])]).formIo .sys (wsOf [[109]] []) ()
    = (true, ⟨(⟨wsOf [[109]] [], [1], 0, [⟨false, 0, 0⟩], false⟩, ()), true, [.msg .noFile, .text 2]⟩) := by
  decide +kernel

/-- Messages of the examples about `#include` and blocks that do not end. -/
def loud : Out → Bool
  | .msg _ => true
  | .block .unterminated => true
  | .block .iterationMax => true
  | _ => false

theorem plain_sticky : Sticky plainWorld loud where
  rep := by intro k x; cases k <;> rfl
  act := by
    intro x st
    cases x <;> simp [plainWorld, told, List.filter_append, loud]
  cond := fun _ _ => ⟨fun _ => rfl, id⟩
  name := fun _ _ => ⟨fun _ => rfl, id⟩
  head := fun _ _ => ⟨fun _ => rfl, id⟩
  defs := fun _ _ _ => ⟨fun _ => rfl, id⟩

example : ((envOf [([109], [.inc (.quoted [97]), .text 2])]).formIo .sys (wsOf [[109]] []) ()).1 = true :=
  C44_run_fails (m := loud) plain_sticky _ _ _ (by decide +kernel)

/-- The linker when the first line of the source `m` is read. -/
def inMain : Link := ⟨wsOf [[109]] [], [1], 0, [⟨false, 0, 0⟩], false⟩

theorem inMain_inv : Inv inMain := ((create_before (wsOf [[109]] []) (by decide)).source (by decide)).inv

/-- The hypotheses of `C44_inserts` hold for `#include "a"` there, and its second part applies. -/
example : ∃ n lk', lk'.log = [⟨false, 0, 0⟩, ⟨true, 1, 32⟩] ∧ lk'.current = 1 ∧
    preprocess ((envOf [([109], []), ([97], [.text 3])]).world 0) n [.plain (.text 3)]
      { env := (lk', ()), err := false, out := [] }
      = some (((envOf [([109], []), ([97], [.text 3])]).world 1).act (.inc (.quoted [97]))
        { env := (inMain, ()), err := false, out := [] }) := by
  have hs := search_step (e := envOf [([109], []), ([97], [.text 3])]) (by decide) inMain (.quoted [97])
  have he : (envOf [([109], []), ([97], [.text 3])]).search inMain (.quoted [97])
    = (1, ⟨wsOf [[109], [97]] [], [1, 0], 0, [⟨false, 0, 0⟩], false⟩) := by decide +kernel
  rw [he] at hs
  have hi := hs.inv (by decide +kernel) inMain_inv
  exact (C44_inserts (e := envOf [([109], []), ([97], [.text 3])]) (left := 0) (x := .inc (.quoted [97]))
    (st := { env := (inMain, ()), err := false, out := [] }) rfl (by decide) he (by decide +kernel) hi rfl).2
    (by decide) [97] [.plain (.text 3)] rfl (by decide)

/-- The hypotheses of `C44_unknown` hold for `#include <b>` there. -/
example : (((envOf [([109], [])]).world 5).act (.inc (.angle [98]))
    { env := (inMain, ()), err := false, out := [] }).err = true :=
  (C44_unknown (e := envOf [([109], [])]) (by decide) (i := .angle [98]) rfl (by decide) (by decide +kernel) [[98]]
    (by decide +kernel) (by decide)).2.1

/-- C44 as to sources: `m` includes `a`, which is given as a source too; its text is written twice. -/
theorem C44_source_twice :
    ((envOf [([109], [.inc (.quoted [97])]), ([97], [.text 3])]).formIo .sys (wsOf [[109], [97]] []) ()).2.out
      = [.text 3, .text 3] := by
  decide +kernel

/-- C56: the first path that exists is taken: for a name in quotes the one beside the current file, for a
name in angle brackets the one in a directory. -/
example : ((envOf [([109], [.inc (.quoted [97])]), ([97], [.text 1]), ([100, 47, 97], [.text 2])]).formIo .sys
      (wsOf [[109]] [[100]]) ()).2.out = [.text 1] ∧
    ((envOf [([109], [.inc (.angle [97])]), ([97], [.text 1]), ([100, 47, 97], [.text 2])]).formIo .sys
      (wsOf [[109]] [[100]]) ()).2.out = [.text 2] := by
  decide +kernel

/-- C56 fails: `m` includes "s/a" and then "b"; beside `m` there is a file `b`, but the text of `s/b` is
written, because the current file is still `s/a`. -/
theorem C56_witness :
    ((envOf [([109], [.inc (.quoted [115, 47, 97]), .inc (.quoted [98])]), ([115, 47, 97], []), ([98], [.text 1]),
      ([115, 47, 98], [.text 2])]).formIo .sys (wsOf [[109]] []) ()).2.out = [.text 2] := by
  decide +kernel

end RuC.Linker
