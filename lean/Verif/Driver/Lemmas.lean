import Verif.Driver.Spec

/-! # Lemmas about the reporter and the driver -/

namespace RuC.Driver

open RuC RuC.Workspace
open RuC.Io (In inSetPosition)

/-! ### Reports -/

theorem report_stopped {look r m} (h : r.disabled = true) (he : r.errors ≠ 0) : report look r m = r := by
  unfold report; rw [if_pos ⟨h, he⟩]

theorem reports_stopped {look r} (h : r.disabled = true) (he : r.errors ≠ 0) : ∀ ms, reports look r ms = r
  | [] => rfl
  | m :: ms => by
    show reports look (report look r m) ms = r
    rw [report_stopped h he]
    exact reports_stopped h he ms

theorem report_disabled (look r m) : (report look r m).disabled = r.disabled := by
  unfold report
  split
  · rfl
  · cases m <;> rfl

theorem reports_disabled (look) : ∀ ms r, (reports look r ms).disabled = r.disabled
  | [], _ => rfl
  | m :: ms, r => (reports_disabled look ms (report look r m)).trans (report_disabled look r m)

theorem report_io {look r m} (hp : r.io.position ≤ r.io.text.length) : (report look r m).io = r.io := by
  have key : (inSetPosition { (inSetPosition r.io m.loc).2 with position := look (inSetPosition r.io m.loc).2 } r.io.position).2 = r.io := by
    have : (inSetPosition r.io m.loc).2.text = r.io.text := by unfold inSetPosition; split <;> rfl
    unfold inSetPosition at this ⊢
    simp only [this]
    rw [if_pos hp]
  unfold report
  split
  · rfl
  · cases m <;> exact key

theorem reports_io (look) : ∀ ms r, r.io.position ≤ r.io.text.length → (reports look r ms).io = r.io
  | [], _, _ => rfl
  | m :: ms, r, h => by
    have e := report_io (look := look) (m := m) h
    exact (reports_io look ms (report look r m) (by rw [e]; exact h)).trans e

/-- With recovery everything is shown and counted. -/
theorem reports_enabled (look) : ∀ ms r, r.disabled = false → r.errors + ms.length < 18446744073709551616 → r.warnings + ms.length < 18446744073709551616 →
    (reports look r ms).errors = r.errors + ms.countP (·.isError) ∧ (reports look r ms).warnings = r.warnings + ms.countP (!·.isError) ∧
      (reports look r ms).shown = r.shown ++ ms
  | [], r, _, _, _ => by simp [reports]
  | m :: ms, r, hd, h1, h2 => by
    simp only [List.length_cons] at h1 h2
    have hne : ¬(r.disabled = true ∧ r.errors ≠ 0) := by simp [hd]
    have hd1 := report_disabled look r m
    show (reports look (report look r m) ms).errors = _ ∧ (reports look (report look r m) ms).warnings = _ ∧ (reports look (report look r m) ms).shown = _
    cases m with
    | error n l =>
      have e1 : (report look r (.error n l)).errors = r.errors + 1 := by
        unfold report; rw [if_neg hne]; exact usz_of_lt (by omega)
      have e2 : (report look r (.error n l)).warnings = r.warnings := by unfold report; rw [if_neg hne]
      have e3 : (report look r (.error n l)).shown = r.shown ++ [.error n l] := by unfold report; rw [if_neg hne]
      obtain ⟨i1, i2, i3⟩ := reports_enabled look ms (report look r (.error n l)) (hd1.trans hd) (by omega) (by omega)
      rw [i1, i2, i3, e1, e2, e3]
      simp [List.countP_cons, Report.isError]; omega
    | warning n l =>
      have e1 : (report look r (.warning n l)).errors = r.errors := by unfold report; rw [if_neg hne]
      have e2 : (report look r (.warning n l)).warnings = r.warnings + 1 := by
        unfold report; rw [if_neg hne]; exact usz_of_lt (by omega)
      have e3 : (report look r (.warning n l)).shown = r.shown ++ [.warning n l] := by unfold report; rw [if_neg hne]
      obtain ⟨i1, i2, i3⟩ := reports_enabled look ms (report look r (.warning n l)) (hd1.trans hd) (by omega) (by omega)
      rw [i1, i2, i3, e1, e2, e3]
      simp [List.countP_cons, Report.isError]; omega

/-- Without recovery everything up to the first error is shown and counted. -/
theorem reports_first (look) : ∀ ms r, r.disabled = true → r.errors = 0 → r.warnings + ms.length < 18446744073709551616 →
    (reports look r ms).errors = (visible true ms).countP (·.isError) ∧ (reports look r ms).warnings = r.warnings + (visible true ms).countP (!·.isError) ∧
      (reports look r ms).shown = r.shown ++ visible true ms
  | [], r, _, he, _ => by simp [reports, visible, he]
  | m :: ms, r, hd, he, h2 => by
    simp only [List.length_cons] at h2
    have hne : ¬(r.disabled = true ∧ r.errors ≠ 0) := by simp [he]
    have hd1 := report_disabled look r m
    show (reports look (report look r m) ms).errors = _ ∧ (reports look (report look r m) ms).warnings = _ ∧ (reports look (report look r m) ms).shown = _
    cases m with
    | error n l =>
      have e1 : (report look r (.error n l)).errors = 1 := by
        unfold report; rw [if_neg hne]; simp only [he]; exact usz_of_lt (by omega)
      have e2 : (report look r (.error n l)).warnings = r.warnings := by unfold report; rw [if_neg hne]
      have e3 : (report look r (.error n l)).shown = r.shown ++ [.error n l] := by unfold report; rw [if_neg hne]
      rw [reports_stopped (hd1.trans hd) (by omega), e1, e2, e3]
      simp [visible, Report.isError]
    | warning n l =>
      have e1 : (report look r (.warning n l)).errors = 0 := by unfold report; rw [if_neg hne]; exact he
      have e2 : (report look r (.warning n l)).warnings = r.warnings + 1 := by
        unfold report; rw [if_neg hne]; exact usz_of_lt (by omega)
      have e3 : (report look r (.warning n l)).shown = r.shown ++ [.warning n l] := by unfold report; rw [if_neg hne]
      obtain ⟨i1, i2, i3⟩ := reports_first look ms (report look r (.warning n l)) (hd1.trans hd) e1 (by omega)
      rw [i1, i2, i3, e2, e3]
      simp [visible, Report.isError]; omega

/-- No error is counted exactly when none was made. -/
theorem reports_none (look) (ms r) (h0 : r.errors = 0) (h : r.warnings + ms.length < 18446744073709551616) :
    ((reports look r ms).errors = 0) ↔ ms.any (·.isError) = false := by
  by_cases hd : r.disabled = true
  · rw [(reports_first look ms r hd h0 h).1]
    simp only [visible, if_true, List.countP_append, List.any_eq_false]
    constructor
    · intro he m hm hmE
      have h1 : ((ms.filter (·.isError)).take 1).countP (·.isError) = 0 := by omega
      cases hf : ms.filter (·.isError) with
      | nil =>
        have := List.filter_eq_nil_iff.1 hf m hm
        exact this hmE
      | cons x xs =>
        have hx : x.isError = true := by
          have : x ∈ ms.filter (·.isError) := by rw [hf]; exact List.mem_cons_self
          exact (List.mem_filter.1 this).2
        rw [hf] at h1
        simp [hx] at h1
    · intro hn
      have h1 : ms.filter (·.isError) = [] := List.filter_eq_nil_iff.2 hn
      have h2 : (ms.takeWhile (fun m => !m.isError)).countP (·.isError) = 0 := by
        rw [List.countP_eq_zero]
        intro m hm
        exact hn m ((List.takeWhile_sublist _).subset hm)
      rw [h1, h2]; rfl
  · have hd : r.disabled = false := by simpa using hd
    rw [(reports_enabled look ms r hd (by omega) h).1, h0, Nat.zero_add, List.countP_eq_zero, List.any_eq_false]

/-- An error once counted stays. -/
theorem reports_some (look) (ms r) (h0 : r.errors ≠ 0) (h1 : r.errors + ms.length < 18446744073709551616) (h : r.warnings + ms.length < 18446744073709551616) :
    (reports look r ms).errors ≠ 0 := by
  by_cases hd : r.disabled = true
  · rw [reports_stopped hd h0]; exact h0
  · rw [(reports_enabled look ms r (by simpa using hd) h1 h).1]; omega

/-! ### The driver -/

theorem macroLoop_eq (w : World) (disabled : Bool) : ∀ n i ret, macroLoop w disabled n i ret =
    (if disabled then
      (if ret then (true, []) else ((List.range' i n).any w.badSource, ((List.range' i n).takeWhile (fun j => !w.badSource j) ++ ((List.range' i n).filter w.badSource).take 1).map .preprocess))
    else (ret || (List.range' i n).any w.badSource, (List.range' i n).map .preprocess))
  | 0, i, ret => by cases disabled <;> cases ret <;> simp [macroLoop]
  | n + 1, i, ret => by
    rw [macroLoop, List.range'_succ]
    cases disabled with
    | false =>
      simp only [Bool.and_false, Bool.false_eq_true, if_false]
      rw [macroLoop_eq w false n]
      simp [Bool.or_assoc]
    | true =>
      cases ret with
      | true => simp
      | false =>
        simp only [Bool.false_and, Bool.false_eq_true, if_false, if_true, Bool.false_or]
        rw [macroLoop_eq w true n]
        by_cases hb : w.badSource i = true
        · simp [hb]
        · simp [hb]

theorem macroFormIo_eq (w : World) (ws : Ws) (hw : ws.wasError = false) : macroFormIo w ws =
    (macroFails w ws.files.length, (filesSeen w (wsHasFlag ws flagWno) ws.files.length).map .preprocess) := by
  unfold macroFormIo
  rw [macroLoop_eq, show wsGetFilesNum ws = ws.files.length by simp [wsGetFilesNum, hw]]
  simp only [macroFails, filesSeen, List.range_eq_range']
  cases wsHasFlag ws flagWno <;> cases w.badDefine <;> simp

theorem sxIsCorrect_zero {r w} (h : r.errors = 0) : sxIsCorrect r w = !(decide (w.refMain = 0) || w.predef.any fun x => decide (x ≠ 0)) := by
  simp [sxIsCorrect, h]

theorem compileFromIo_eq (w : World) (ws : Ws) (t : Target) (hl : w.parsed.length + (w.encoded t).length < 18446744073709551616) :
    compileFromIo w ws t =
      let ph : List Phase := [⟨.system_error, [], !w.output⟩, ⟨.parse_error, [.parse], w.parsed.any (·.isError)⟩] ++
        (if wsHasFlag ws flagC then [] else [⟨.link_error, [.link], decide (w.refMain = 0) || w.predef.any fun x => decide (x ≠ 0)⟩]) ++
        [⟨.codegen_error, [.encode t (wsGetOutput ws)], (w.encoded t).any (·.isError) || (decide (t = .vm) && w.badExport)⟩]
      (verdict ph, performed ph) := by
  unfold compileFromIo
  cases ho : w.output with
  | false => simp [verdict, performed]
  | true =>
    simp only [Bool.not_true, Bool.false_eq_true, if_false, parse]
    generalize hr0 : reporterCreate ws (RuC.Io.inSetBuffer w.text) = r0
    have h0 : r0.errors = 0 := by rw [← hr0]; rfl
    have w0 : r0.warnings = 0 := by rw [← hr0]; rfl
    have hp := reports_none w.look w.parsed r0 h0 (by omega)
    cases hany : w.parsed.any (·.isError) with
    | true =>
      have : (reports w.look r0 w.parsed).errors ≠ 0 := by
        intro h; rw [hp.1 h] at hany; cases hany
      simp [this, verdict, performed]
    | false =>
      have hz := hp.2 hany
      have hw1 : (reports w.look r0 w.parsed).warnings ≤ w.parsed.length := by
        by_cases hd : r0.disabled = true
        · rw [(reports_first w.look w.parsed r0 hd h0 (by omega)).2.1, w0]
          simp only [visible, if_true, List.countP_append]
          have a1 : ((w.parsed.filter (·.isError)).take 1).countP (fun m => !m.isError) = 0 := by
            rw [List.countP_eq_zero]
            intro m hm
            have := (List.mem_filter.1 ((List.take_sublist _ _).subset hm)).2
            simp [this]
          have a2 := (List.countP_le_length (p := fun m : Report => !m.isError) (l := w.parsed.takeWhile fun m => !m.isError))
          have a3 := (List.takeWhile_sublist (l := w.parsed) (fun m : Report => !m.isError)).length_le
          omega
        · rw [(reports_enabled w.look w.parsed r0 (by simpa using hd) (by omega) (by omega)).2.1, w0]
          have := (List.countP_le_length (p := fun m : Report => !m.isError) (l := w.parsed))
          omega
      have he := reports_none w.look (w.encoded t) (reports w.look r0 w.parsed) hz (by omega)
      have henc : encode w t (reports w.look r0 w.parsed) = ((w.encoded t).any (·.isError) || (decide (t = .vm) && w.badExport)) := by
        unfold encode
        cases hE : (w.encoded t).any (·.isError) with
        | true =>
          have : (reports w.look (reports w.look r0 w.parsed) (w.encoded t)).errors ≠ 0 := by
            intro h; rw [he.1 h] at hE; cases hE
          cases t <;> simp [this]
        | false => cases t <;> simp [he.2 hE]
      simp only [hz, if_true, ne_eq, not_true_eq_false, decide_false, Bool.not_false, Bool.true_and, henc, sxIsCorrect_zero hz]
      cases wsHasFlag ws flagC with
      | true =>
        simp only [Bool.not_true, Bool.false_eq_true, if_false, if_true, List.append_nil]
        simp only [verdict, performed, List.cons_append, List.nil_append]
        split <;> simp_all
      | false =>
        simp only [Bool.not_false, if_true, Bool.not_not, Bool.false_eq_true, if_false]
        simp only [verdict, performed, List.cons_append, List.nil_append, Bool.false_eq_true, if_false]
        split
        · rfl
        · split <;> simp_all

end RuC.Driver
