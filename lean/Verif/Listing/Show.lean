import Verif.Listing.Stmts
import Verif.Codegen.Props

/-!
# Helper lemmas: the lines of a listing of whole instructions
-/

namespace RuC.Listing
open RuC RuC.Instr RuC.Codegen
open RuC.Codegen.Props

theorem li_facts : toInt IC_LI = IC_LI ∧ argcOf IC_LI = 1 ∧ ¬ (IC_LI = IC_B ∨ IC_LI = IC_BE0 ∨ IC_LI = IC_BNE0) ∧ IC_LI ≠ IC_FUNC_BEG := by decide +kernel

theorem op_shown (F : Nat → Nat) {x : Sym} {n : Nat} (h : opArgs x = some n) : toInt (resolve F x) = resolve F x ∧ argcOf (resolve F x) = n := by
  cases x with
  | val v =>
    have h' : (if toInt v = v then some (argcOf (toInt v)) else none) = some n := h
    by_cases hv : toInt v = v
    · rw [if_pos hv, hv] at h'
      exact ⟨hv, Option.some.inj h'⟩
    · rw [if_neg hv] at h'
      cases h'
  | fnOp f => exact ⟨li_facts.1, by rw [show resolve F (.fnOp f) = IC_LI from rfl, li_facts.2.1]; exact Option.some.inj h⟩
  | _ => cases h

theorem range_get (P Q R : List Int) : (List.range Q.length).map (fun j => get (P ++ (Q ++ R)) (P.length + j)) = Q := by
  refine List.ext_getElem (by simp) ?_
  intro i h1 h2
  simp only [List.getElem_map, List.getElem_range, get]
  rw [List.getD_eq_getElem?_getD, List.getElem?_append_right (by omega), Nat.add_sub_cancel_left, List.getElem?_append_left h2, List.getElem?_eq_getElem h2]
  rfl

/-- The line of an instruction. -/
theorem line_shown (F : Nat → Nat) {x : Sym} {args : List Sym} (P R : List Int) (h : opArgs x = some args.length) :
    lineAt (P ++ (resolve F x :: (args.map (resolve F) ++ R))) P.length = ⟨P.length, resolve F x, args.map (resolve F), P.length + 1 + args.length⟩ := by
  obtain ⟨h1, h2⟩ := op_shown F h
  have hg : get (P ++ (resolve F x :: (args.map (resolve F) ++ R))) P.length = resolve F x := by simp [get]
  have hr := range_get (P ++ [resolve F x]) (args.map (resolve F)) R
  rw [List.length_map] at hr
  have ha : (List.range args.length).map (fun j => get (P ++ (resolve F x :: (args.map (resolve F) ++ R))) (P.length + 1 + j)) = args.map (resolve F) := by
    simpa using hr
  unfold lineAt
  rw [hg, h1]
  simp only [h2, ha]

/-- The lines of the first instructions. -/
theorem lines_split (F : Nat → Nat) {X : List Sym} (hX : Whole X) : ∀ (P R : List Int) (fuel : Nat), X.length ≤ fuel →
    ∃ ls fuel', linesFrom (P ++ (X.map (resolve F) ++ R)) fuel P.length = ls ++ linesFrom (P ++ (X.map (resolve F) ++ R)) fuel' (P.length + X.length) ∧
      ls.flatMap Line.cells = X.map (resolve F) ∧ fuel ≤ fuel' + X.length := by
  induction hX with
  | nil => intro P R fuel _; exact ⟨[], fuel, by simp, rfl, by simp⟩
  | @cons x args rest n _ ih =>
    intro P R fuel hf
    obtain ⟨fuel, rfl⟩ : ∃ k, fuel = k + 1 := ⟨fuel - 1, by simp at hf; omega⟩
    have hf' : args.length + rest.length ≤ fuel := by simpa using hf
    have e : P ++ ((x :: (args ++ rest)).map (resolve F) ++ R) = P ++ (resolve F x :: (args.map (resolve F) ++ (rest.map (resolve F) ++ R))) := by simp
    have e' : P ++ (resolve F x :: (args.map (resolve F) ++ (rest.map (resolve F) ++ R))) =
        (P ++ resolve F x :: args.map (resolve F)) ++ (rest.map (resolve F) ++ R) := by simp
    obtain ⟨ls, f', h1, h2, h3⟩ := ih (P ++ resolve F x :: args.map (resolve F)) R fuel (by omega)
    have hl : (P ++ resolve F x :: args.map (resolve F)).length = P.length + 1 + args.length := by simp; omega
    rw [hl, ← e'] at h1
    refine ⟨⟨P.length, resolve F x, args.map (resolve F), P.length + 1 + args.length⟩ :: ls, f', ?_, ?_, ?_⟩
    · rw [e, linesFrom, if_pos (by simp), line_shown F P _ n, List.cons_append]
      have hn : P.length + (x :: (args ++ rest)).length = P.length + 1 + args.length + rest.length := by simp; omega
      rw [hn, ← h1]
    · rw [List.flatMap_cons, h2]; simp [Line.cells]
    · simp; omega

theorem dest_val (F : Nat → Nat) (v : Int) (args : List Sym) (p q : Nat) (hv : toInt v = v) :
    Line.dest ⟨p, v, args.map (resolve F), q⟩ = (destOf (.val v) args).map (resolve F) := by
  rw [destOf, hv]
  unfold Line.dest
  by_cases h1 : v = IC_B ∨ v = IC_BE0 ∨ v = IC_BNE0
  · rw [if_pos h1, if_pos h1, List.getElem?_map]
  · rw [if_neg h1, if_neg h1]
    by_cases h2 : v = IC_FUNC_BEG
    · rw [if_pos h2, if_pos h2, List.getElem?_map]
    · rw [if_neg h2, if_neg h2]; rfl

/-- Where the lines lead to. -/
theorem lines_dest (F : Nat → Nat) {T : Int → Prop} {A : List Sym} (hA : Lands T A) : NoHole A → ∀ (P : List Int) (fuel : Nat) (l : Line) (d : Int),
    l ∈ linesFrom (P ++ A.map (resolve F)) fuel P.length → l.dest = some d → T d := by
  induction hA with
  | nil =>
    intro _ P fuel l d hl
    cases fuel with
    | zero => simp [linesFrom] at hl
    | succ f => simp [linesFrom] at hl
  | @cons x args rest n hd _ ih =>
    intro hn P fuel l d hl hld
    cases fuel with
    | zero => simp [linesFrom] at hl
    | succ fuel =>
      have e : P ++ (x :: (args ++ rest)).map (resolve F) = P ++ (resolve F x :: (args.map (resolve F) ++ rest.map (resolve F))) := by simp
      have e' : P ++ (resolve F x :: (args.map (resolve F) ++ rest.map (resolve F))) = (P ++ resolve F x :: args.map (resolve F)) ++ rest.map (resolve F) := by simp
      rw [e, linesFrom, if_pos (by simp), line_shown F P _ n] at hl
      rcases List.mem_cons.1 hl with rfl | hl
      · have hy : ∃ y, destOf x args = some y ∧ resolve F y = d := by
          cases x with
          | val v =>
            have hv := (op_shown F n).1
            have hm := (dest_val F v args P.length (P.length + 1 + args.length) hv).symm.trans hld
            cases hz : destOf (.val v) args with
            | none => rw [hz] at hm; cases hm
            | some y => rw [hz] at hm; exact ⟨y, rfl, Option.some.inj hm⟩
          | fnOp f =>
            have : Line.dest ⟨P.length, IC_LI, args.map (resolve F), P.length + 1 + args.length⟩ = none := by
              unfold Line.dest
              rw [if_neg li_facts.2.2.1, if_neg li_facts.2.2.2]
            have hld' : Line.dest ⟨P.length, IC_LI, args.map (resolve F), P.length + 1 + args.length⟩ = some d := hld
            rw [this] at hld'
            cases hld'
          | _ => cases n
        obtain ⟨y, hy1, hy2⟩ := hy
        have hh := hd y hy1
        have hmem : y ∈ x :: (args ++ rest) := by
          have : y ∈ args := by
            cases x with
            | val v =>
              simp only [destOf] at hy1
              split at hy1
              · exact List.mem_of_getElem? hy1
              · split at hy1
                · exact List.mem_of_getElem? hy1
                · cases hy1
            | _ => cases hy1
          simp [this]
        have hno := hn y hmem
        cases y with
        | val v => exact hy2 ▸ hh
        | brk => exact (hno.1 rfl).elim
        | cont => exact (hno.2.1 rfl).elim
        | next => exact (hno.2.2 rfl).elim
        | _ => exact hh.elim
      · have hl' : (P ++ resolve F x :: args.map (resolve F)).length = P.length + 1 + args.length := by simp; omega
        refine ih (fun y hy => hn y (by simp [hy])) (P ++ resolve F x :: args.map (resolve F)) fuel l d ?_ hld
        rw [hl', ← e']
        exact hl

/-- The number in front of a line is the number of cells shown before it. -/
theorem lines_pc (mem : List Int) : ∀ (fuel i : Nat) (U V : List Line) (l : Line), linesFrom mem fuel i = U ++ l :: V →
    l.pc = i + (U.flatMap Line.cells).length
  | 0, i, U, V, l, h => by simp [linesFrom] at h
  | fuel + 1, i, U, V, l, h => by
    rw [linesFrom] at h
    split at h
    · cases U with
      | nil =>
        obtain ⟨h1, _⟩ := List.cons.inj h
        subst h1
        simp [lineAt]
      | cons u U =>
        obtain ⟨h1, h2⟩ := List.cons.inj h
        have := lines_pc mem fuel _ U V l h2
        rw [this, ← h1]
        simp [lineAt, Line.cells]
        omega
    · simp at h

end RuC.Listing
