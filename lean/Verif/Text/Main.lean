import Verif.Text.Places

/-!
# Lemmas about the text between the directives: whole texts
-/

namespace RuC.Text
open RuC RuC.Utf8 RuC.Io RuC.Locator

theorem fuel_lines {ls : List (List Piece)} {t : List Nat} (h : t = textOf ls) : ls.length ≤ t.length + 2 := by
  cases ls with
  | nil => simp
  | cons l ls =>
    have := tailOf_length ls
    rw [h, textOf_cons, List.length_append]
    simp only [List.length_cons]
    omega

/-- What is printed for the text of a macro. -/
theorem expands_val {macros : List Nat → Option Macro} {n : Nat} {w o : List Nat} (h : Expands macros n w o) :
    ∀ t f, Val ⟨t, f, macros, some (expansion macros n)⟩ w o := by
  induction h with
  | leaf hm hc hw hno =>
    rename_i n w v vs
    intro t f
    have key : ∀ ex, ∃ e, blockLoop ⟨v, false, macros, ex⟩ (v.length + 2) 0 true = some e ∧
        Flow noMarks v 0 e v.length (linesOut false noMarks (fun _ => []) 0 true vs) := by
      intro ex
      exact blockLoop_lines (x := ⟨v, false, macros, ex⟩) (mk := noMarks) (val := fun _ => []) (Nat.le_refl _) hw.some hw.reads
        (fun l hl => ⟨hw.words l hl, fun u br hm => absurd hm (hno l hl u br)⟩) hw.bare (by simpa using hw.text) (by simp)
        (fun c hm => ⟨(hc c (by simpa using hm)).1, (hc c (by simpa using hm)).2.2⟩) (fuel_lines hw.text)
    cases n with
    | zero =>
      obtain ⟨e, h1, h2⟩ := key none
      exact ⟨v, _, e, hm, rfl, h1, fun mk t p => Flow.inner rfl h2⟩
    | succ n =>
      obtain ⟨e, h1, h2⟩ := key (some (expansion macros n))
      exact ⟨v, _, e, hm, rfl, h1, fun mk t p => Flow.inner rfl h2⟩
  | node hm hc hw hcall ih =>
    rename_i n w v vs val
    intro t f
    obtain ⟨e, h1, h2⟩ := blockLoop_lines (x := ⟨v, false, macros, some (expansion macros n)⟩) (mk := noMarks) (val := val) (n := v.length + 2) (p := 0) (req := true)
      (Nat.le_refl _) hw.some hw.reads
      (fun l hl => ⟨hw.words l hl, fun u br hm => ih l hl u br hm v false⟩) hw.bare (by simpa using hw.text) (by simp)
      (fun c hm => ⟨(hc c (by simpa using hm)).1, (hc c (by simpa using hm)).2.2⟩) (fuel_lines hw.text)
    exact ⟨v, _, e, hm, rfl, h1, fun mk t p => Flow.inner rfl h2⟩

theorem preprocess_lines {macros : List Nat → Option Macro} {own t : List Nat} {ls : List (List Piece)} {val : List Nat → List Nat} (ho : own ≠ []) (ht : Plain t)
    (hw : Written macros ls t) (hv : ∀ l ∈ ls, ∀ w br, .call w br ∈ l → Expands macros MAX_CALL_DEPTH w (val w)) :
    preprocess own macros t = some (linesOut true (marksOf own t) val 0 true ls, []) := by
  obtain ⟨loc, h1, h2⟩ := known_start ht
  obtain ⟨e, h3, h4⟩ := blockLoop_lines (x := ⟨t, true, macros, some (expansion macros MAX_CALL_DEPTH)⟩) (mk := marksOf own t) (val := val) (n := t.length + 2) (p := 0) (req := true)
    (Nat.le_refl _) hw.some hw.reads (fun l hl => ⟨hw.words l hl, fun u br hm => expands_val (hv l hl u br hm) t true⟩) hw.bare (by simpa using hw.text) (by simp)
    (fun c hm => ⟨(ht.char c (by simpa using hm)).1, (ht.char c (by simpa using hm)).2.2.1⟩) (fuel_lines hw.text)
  unfold preprocess
  rw [h1, Option.bind_some]
  unfold events
  rw [h3, Option.bind_some]
  exact interp_flow ho ht h4 h2

end RuC.Text
