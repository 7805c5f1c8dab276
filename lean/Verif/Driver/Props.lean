import Verif.Driver.Lemmas

/-!
# Properties of the reporter and the driver

C47: the status is that of the first phase that fails, and no later phase is called.  C48: which reports are shown and
counted.
-/

namespace RuC.Driver.Props

open RuC RuC.Workspace RuC.Driver
open RuC.Io (In inSetPosition)

/-! ### C48 -/

theorem takeWhile_holds {α : Type} (p : α → Bool) : ∀ (l : List α) (x : α), x ∈ l.takeWhile p → p x = true
  | [], x, h => by simp at h
  | y :: l, x, h => by
    rw [List.takeWhile_cons] at h
    split at h
    · rcases List.mem_cons.1 h with rfl | h
      · assumption
      · exact takeWhile_holds p l x h
    · simp at h

/-- C48: after any reports from the beginning on, the reports shown are all, or without recovery those up to the first error;
the counters count those shown. -/
theorem C48_counts (look : In → Nat) (ws : Ws) (io : In) (ms : List Report) (h : ms.length < 18446744073709551616) :
    (reports look (reporterCreate ws io) ms).shown = visible (wsHasFlag ws flagWno) ms ∧
    (reports look (reporterCreate ws io) ms).errors = (visible (wsHasFlag ws flagWno) ms).countP (·.isError) ∧
    (reports look (reporterCreate ws io) ms).warnings = (visible (wsHasFlag ws flagWno) ms).countP (!·.isError) := by
  by_cases hd : wsHasFlag ws flagWno = true
  · obtain ⟨h1, h2, h3⟩ := reports_first look ms (reporterCreate ws io) hd rfl (by simpa [reporterCreate] using h)
    rw [hd, h1, h2, h3]
    simp [reporterCreate]
  · have hd : wsHasFlag ws flagWno = false := by simpa using hd
    obtain ⟨h1, h2, h3⟩ := reports_enabled look ms (reporterCreate ws io) hd (by simpa [reporterCreate] using h) (by simpa [reporterCreate] using h)
    rw [hd, h1, h2, h3]
    simp [reporterCreate, visible]

/-- C48: without recovery at most one error is counted. -/
theorem C48_at_most_one (look : In → Nat) (ws : Ws) (io : In) (ms : List Report) (h : ms.length < 18446744073709551616) (hw : wsHasFlag ws flagWno = true) :
    (reports look (reporterCreate ws io) ms).errors = if ms.any (·.isError) then 1 else 0 := by
  have hn := reports_none look ms (reporterCreate ws io) rfl (by simpa [reporterCreate] using h)
  have hc := (C48_counts look ws io ms h).2.1
  rw [hw] at hc
  simp only [visible, if_true, List.countP_append] at hc
  have a : ((ms.takeWhile fun m => !m.isError).countP (·.isError)) = 0 := by
    rw [List.countP_eq_zero]
    intro m hm
    have := takeWhile_holds _ _ _ hm
    simpa using this
  have b : ((ms.filter (·.isError)).take 1).countP (·.isError) ≤ 1 :=
    Nat.le_trans List.countP_le_length (by simp; omega)
  cases hany : ms.any (·.isError) with
  | false => simpa using hn.2 hany
  | true =>
    have : (reports look (reporterCreate ws io) ms).errors ≠ 0 := by
      intro h; rw [hn.1 h] at hany; cases hany
    simp only [if_true]
    omega

/-- C48: the parser succeeds exactly when it reported no error. -/
theorem C48_parse (look : In → Nat) (ws : Ws) (io : In) (ms : List Report) (h : ms.length < 18446744073709551616) :
    (parse look (reporterCreate ws io) ms).1 = 0 ↔ ∀ m ∈ ms, m.isError = false := by
  have hn := reports_none look ms (reporterCreate ws io) rfl (by simpa [reporterCreate] using h)
  have : (∀ m ∈ ms, m.isError = false) ↔ ms.any (·.isError) = false := by simp
  rw [this, ← hn]
  simp only [parse]
  split
  · rename_i h; exact ⟨fun _ => h, fun _ => rfl⟩
  · rename_i h; exact ⟨fun h => by simp at h, fun h' => absurd h' h⟩

/-- C48: reporting leaves the input where it was, wherever the line of source is. -/
theorem C48_position (look : In → Nat) (r : Reporter) (ms : List Report) (h : r.io.position ≤ r.io.text.length) : (reports look r ms).io = r.io :=
  reports_io look ms r h

/-- The limit: at 2^64 reported errors the counter is back at 0 and the parser succeeds. -/
theorem C48_counter_wraps (look : In → Nat) (r : Reporter) (n l : Nat) (hd : r.disabled = false) (he : r.errors = 18446744073709551615) :
    (report look r (.error n l)).errors = 0 := by
  unfold report
  rw [if_neg (by simp [hd])]
  simp only [he]
  unfold usz
  rfl

/-! ### C47 -/

theorem out_some (ws : Ws) (t : Target) (hw : ws.wasError = false) : ∃ ws', withOutput ws t = some ws' ∧ ws'.files = ws.files ∧ ws'.flags = ws.flags ∧
    ws'.wasError = false ∧ wsGetOutput ws' = some (if ws.output = [] then defaultOutput t else ws.output) := by
  unfold withOutput wsGetOutput wsSetOutput
  by_cases ho : ws.output = []
  · have : (defaultOutput t).length < MAX_ARG_SIZE := by cases t <;> decide +kernel
    have hne : defaultOutput t ≠ [] := by cases t <;> simp [defaultOutput]
    simp [hw, ho, this, hne]
  · simp [hw, ho]

theorem hasFlag_congr {ws ws' : Ws} (h : ws'.flags = ws.flags) (he : ws'.wasError = ws.wasError) (f) : wsHasFlag ws' f = wsHasFlag ws f := by
  simp [wsHasFlag, h, he]

theorem verdict_append : ∀ a b : List Phase, verdict (a ++ b) = if a.any (·.fails) then verdict a else verdict b
  | [], b => by simp
  | p :: a, b => by
    simp only [List.cons_append, verdict, verdict_append a b, List.any_cons]
    by_cases h : p.fails = true <;> simp [h]

theorem performed_append : ∀ a b : List Phase, performed (a ++ b) = performed a ++ if a.any (·.fails) then [] else performed b
  | [], b => by simp [performed]
  | p :: a, b => by
    simp only [List.cons_append, performed, performed_append a b, List.any_cons]
    by_cases h : p.fails = true <;> simp [h]

theorem verdict_ok {a : List Phase} (h : a.any (·.fails) = false) : verdict a = .success := by
  induction a with
  | nil => rfl
  | cons p a ih => simp at h; simp [verdict, h.1, ih (by simpa using h.2)]

/-- What `compile_from_ws` answers, as phases. -/
def inner (w : World) (ws : Ws) (t : Target) : List Phase :=
  let n := ws.files.length
  let seen := (filesSeen w (wsHasFlag ws flagWno) n).map Act.preprocess
  let input : Phase := ⟨.system_error, [], ws.wasError || ws.files.isEmpty⟩
  if wsHasFlag ws flagE then [input, ⟨.macro_error, [], !w.output⟩, ⟨.macro_error, seen, macroFails w n⟩]
  else
    [input, ⟨.macro_error, [], !w.buffer⟩, ⟨.macro_error, seen, macroFails w n⟩, ⟨.system_error, [], !w.output⟩,
      ⟨.parse_error, [.parse], w.parsed.any (·.isError)⟩] ++
    (if wsHasFlag ws flagC then [] else [⟨.link_error, [.link], decide (w.refMain = 0) || w.predef.any fun x => decide (x ≠ 0)⟩]) ++
    [⟨.codegen_error, [.encode t (wsGetOutput ws)], (w.encoded t).any (·.isError) || (decide (t = .vm) && w.badExport)⟩]

theorem fromWs (w : World) (ws : Ws) (t : Target) (hl : w.parsed.length + (w.encoded t).length < 18446744073709551616) :
    compileFromWs w ws t = (verdict (inner w ws t), performed (inner w ws t)) := by
  unfold compileFromWs
  cases hw : ws.wasError with
  | true => cases hE : wsHasFlag ws flagE <;> simp [inner, hw, verdict, performed, hE]
  | false =>
    have hn : wsGetFilesNum ws = ws.files.length := by simp [wsGetFilesNum, hw]
    by_cases hf : ws.files = []
    · cases hE : wsHasFlag ws flagE <;> simp [hn, hw, inner, hf, verdict, performed, hE]
    · have hne : ws.files.length ≠ 0 := by simpa using hf
      have hem : ws.files.isEmpty = false := by simpa using hf
      rw [if_neg (by simp [hn, hf])]
      cases hE : wsHasFlag ws flagE with
      | true =>
        simp only [if_true, macroToFile, hn, if_neg hne, macroFormIo_eq w ws hw]
        cases ho : w.output with
        | false => simp [inner, hw, hem, hE, ho, verdict, performed]
        | true => cases hm : macroFails w ws.files.length <;> simp [inner, hw, hem, hE, ho, hm, verdict, performed]
      | false =>
        simp only [Bool.false_eq_true, if_false, macro_, hn, if_neg hne, macroFormIo_eq w ws hw, compileFromIo_eq w ws t hl]
        cases hb : w.buffer with
        | false => simp [inner, hw, hem, hE, hb, verdict, performed]
        | true =>
          cases hm : macroFails w ws.files.length with
          | true => simp [inner, hw, hE, hb, hm, verdict, performed, hem]
          | false => simp [inner, hw, hE, hb, hm, verdict, performed, hem]

theorem wsError_out {ws : Ws} {t : Target} (hw : ws.wasError = true) : withOutput ws t = some ws := by
  unfold withOutput wsGetOutput wsSetOutput
  simp [hw]
  cases ws; simp_all

/-- The phases of a compilation before the last, which succeeds. -/
theorem phases_inner (w : World) (ws ws' : Ws) (t : Target) (h1 : ws'.files = ws.files) (h2 : ws'.flags = ws.flags) (h3 : ws'.wasError = ws.wasError)
    (h4 : wsGetOutput ws' = some (if ws.output = [] then defaultOutput t else ws.output)) :
    phases w ws t = ((inner w ws' t).map fun p => { p with status := if p.status = .codegen_error then codegenStatus t else p.status }) ++
      (if t = .vm then [⟨.success, [.chmod (wsGetOutput ws')], false⟩] else []) := by
  unfold phases inner
  simp only [h1, h3, h4, hasFlag_congr h2 h3]
  cases wsHasFlag ws flagE <;> cases wsHasFlag ws flagC <;> simp

theorem verdict_map {f : Status → Status} (hf : f .success = .success) : ∀ a : List Phase, verdict (a.map fun p => { p with status := f p.status }) = f (verdict a)
  | [] => by simp [verdict, hf]
  | p :: a => by
    simp only [List.map_cons, verdict, verdict_map hf a]
    split <;> rfl

theorem performed_map (f : Status → Status) : ∀ a : List Phase, performed (a.map fun p => { p with status := f p.status }) = performed a
  | [] => rfl
  | p :: a => by simp only [List.map_cons, performed, performed_map f a]

theorem verdict_success_iff : ∀ a : List Phase, (∀ p ∈ a, p.status ≠ .success) → (verdict a = .success ↔ a.any (·.fails) = false)
  | [], _ => by simp [verdict]
  | p :: a, h => by
    have ih := verdict_success_iff a fun q hq => h q (List.mem_cons_of_mem _ hq)
    have hp := h p List.mem_cons_self
    simp only [verdict, List.any_cons]
    by_cases h : p.fails = true <;> simp [ih, hp, h]

theorem inner_status (w : World) (ws : Ws) (t : Target) : ∀ p ∈ inner w ws t, p.status ≠ .success := by
  unfold inner
  intro p hp
  cases hE : wsHasFlag ws flagE <;> cases hC : wsHasFlag ws flagC <;> simp [hE, hC] at hp <;> rcases hp with h | h | h | h | h | h | h <;> simp_all

/-- C47: the status is that of the first phase that fails, success when none does; the calls are those of the phases up to
it, so no later phase is called. -/
theorem C47_first_failure (w : World) (ws : Ws) (hl : ∀ t, w.parsed.length + (w.encoded t).length < 18446744073709551616) :
    compile w ws = some (verdict (phases w ws (target ws)), performed (phases w ws (target ws))) := by
  have key : ∀ t : Target, ∃ ws', withOutput ws t = some ws' ∧
      verdict (phases w ws t) = (if (compileFromWs w ws' t).1 = .codegen_error then codegenStatus t else (compileFromWs w ws' t).1) ∧
      performed (phases w ws t) =
        if t = .vm ∧ (compileFromWs w ws' t).1 = .success then (compileFromWs w ws' t).2 ++ [.chmod (wsGetOutput ws')] else (compileFromWs w ws' t).2 := by
    intro t
    cases hw : ws.wasError with
    | true =>
      refine ⟨ws, wsError_out hw, ?_⟩
      have : compileFromWs w ws t = (.system_error, []) := by simp [compileFromWs, hw]
      rw [this]
      have hE : wsHasFlag ws flagE = false := by simp [wsHasFlag, hw]
      simp [phases, hE, hw, verdict, performed]
    | false =>
      obtain ⟨ws', h0, h1, h2, h3, h4⟩ := out_some ws t hw
      refine ⟨ws', h0, ?_⟩
      rw [phases_inner w ws ws' t h1 h2 (h3.trans hw.symm) h4, fromWs w ws' t (hl t)]
      have hst := verdict_success_iff _ (inner_status w ws' t)
      have hmap := verdict_map (f := fun s => if s = Status.codegen_error then codegenStatus t else s) (by simp) (inner w ws' t)
      have hpm := performed_map (fun s => if s = Status.codegen_error then codegenStatus t else s) (inner w ws' t)
      have hany : ((inner w ws' t).map fun p => { p with status := if p.status = Status.codegen_error then codegenStatus t else p.status }).any (·.fails) =
          (inner w ws' t).any (·.fails) := by simp [List.any_map, Function.comp_def]
      constructor
      · rw [verdict_append, hany, hmap]
        split
        · rfl
        · rename_i hf
          have hf : (inner w ws' t).any (·.fails) = false := by simpa using hf
          rw [hst.2 hf]
          cases t <;> simp [verdict]
      · rw [performed_append, hany, hpm]
        cases hf : (inner w ws' t).any (·.fails) with
        | true =>
          have : verdict (inner w ws' t) ≠ .success := by intro h; rw [hst.1 h] at hf; cases hf
          simp [this]
        | false =>
          rw [hst.2 hf]
          cases t <;> simp [performed]
  unfold compile target
  cases hL : wsHasFlag ws flagLLVM with
  | true =>
    obtain ⟨ws', h, h1, h2⟩ := key .llvm
    simp only [if_true, compileToLlvm, h, Option.map_some, h1, h2]
    simp [codegenStatus]
  | false =>
    cases hM : wsHasFlag ws flagMIPS with
    | true =>
      obtain ⟨ws', h, h1, h2⟩ := key .mips
      simp only [Bool.false_eq_true, if_false, if_true, compileToMips, h, Option.map_some, h1, h2]
      simp only [codegenStatus, reduceCtorEq, false_and, if_false]
      obtain ⟨a, b⟩ := compileFromWs w ws' .mips
      by_cases ha : a = .codegen_error <;> simp [ha]
    | false =>
      obtain ⟨ws', h, h1, h2⟩ := key .vm
      simp only [Bool.false_eq_true, if_false, compileToVm, h, Option.map_some, h1, h2]
      simp [codegenStatus]

/-- C47: success means that nothing failed. -/
theorem C47_success (w : World) (ws : Ws) (hl : ∀ t, w.parsed.length + (w.encoded t).length < 18446744073709551616) :
    (compile w ws).map (·.1) = some .success ↔ ∀ p ∈ phases w ws (target ws), p.fails = false := by
  rw [C47_first_failure w ws hl]
  generalize htt : target ws = t
  have hs : ∀ p ∈ phases w ws t, p.fails = true → p.status ≠ .success := by
    unfold phases
    intro p hp
    cases hE : wsHasFlag ws flagE <;> cases hC : wsHasFlag ws flagC <;> cases t <;> simp [hE, hC] at hp <;>
      rcases hp with h | h | h | h | h | h | h | h <;> simp_all [codegenStatus]
  generalize phases w ws t = ph at hs
  simp only [Option.map_some, Option.some.injEq]
  induction ph with
  | nil => simp [verdict]
  | cons p ph ih =>
    have ih := ih fun q hq => hs q (List.mem_cons_of_mem _ hq)
    have hp := hs p List.mem_cons_self
    simp only [verdict, List.forall_mem_cons]
    cases hf : p.fails with
    | true => simp [hp hf]
    | false => simp [ih]

/-! ### Examples -/

/-- Two files; the parser reports a warning and two errors. -/
def world : World := ⟨false, fun _ => false, true, true, [105, 110, 116], [.warning 1 0, .error 2 1, .error 3 2], 0, [], fun _ => [], false, fun io => io.text.length⟩

def ws2 : Ws := { files := [[97], [98]], dirs := [], flags := [], output := [], wasError := false }

example : compile world ws2 = some (.parse_error, [.preprocess 0, .preprocess 1, .parse]) := by decide +kernel

example : compile { world with parsed := [] } ws2 = some (.link_error, [.preprocess 0, .preprocess 1, .parse, .link]) := by decide +kernel

example : compile { world with parsed := [], refMain := 5, badExport := true } ws2 =
    some (.virtul_error, [.preprocess 0, .preprocess 1, .parse, .link, .encode .vm (some (defaultOutput .vm))]) := by decide +kernel

example : compile { world with badSource := fun i => i = 0 } { ws2 with flags := [flagWno, flagLLVM] } = some (.macro_error, [.preprocess 0]) := by decide +kernel

example : (∀ t, world.parsed.length + (world.encoded t).length < 18446744073709551616) := by intro t; simp [world]

example : (reports world.look (reporterCreate { ws2 with flags := [flagWno] } ⟨[105, 110], 1⟩) world.parsed).shown = [.warning 1 0, .error 2 1] := by decide +kernel

end RuC.Driver.Props
