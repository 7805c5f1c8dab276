import Verif.Listing.Text

/-!
# C87: what the listing of the code shows
-/

namespace RuC.Listing.Props
open RuC RuC.Instr RuC.Codegen RuC.Listing
open RuC.Codegen.Props

theorem codeTops_noHole : ∀ (tops : List Top) (L : Layout) (base : Nat), (∀ t ∈ tops, t.Good) → NoHole (codeTops L base tops)
  | [], L, base, _ => by intro x hx; cases hx
  | .vars s :: rest, L, base, h =>
    noHole_append.2 ⟨(placed_closed L base (h (.vars s) (by simp)).1 (h (.vars s) (by simp)).2).1, codeTops_noHole rest _ _ fun t ht => h t (by simp [ht])⟩
  | .func f :: rest, L, base, h =>
    noHole_append.2 ⟨codeF_noHole (h (.func f) (by simp)) L base, codeTops_noHole rest _ _ fun t ht => h t (by simp [ht])⟩

/-- What is in memory before functions have numbers. -/
def whole (tops : List Top) (main : Nat) : List Sym :=
  vals [0, 0, 0, 0] ++ (codeTops start.lay 4 tops ++ vals [IC_CALL1, IC_CALL2, (number tops main : Int), IC_STOP])

theorem whole_mem {tops : List Top} {main : Nat} (h : Program tops main) : (emitU tops main).mem = (whole tops main).map (resolve (number tops)) := by
  rw [(C36_unit tops main h).1]
  simp [whole, vals, resolve]

theorem zeros_land (T : Int → Prop) : Lands T (vals [0, 0, 0, 0]) := by
  have h : plainOp 0 0 = true := by decide +kernel
  exact (lands_ins (l := []) h T).append ((lands_ins (l := []) h T).append ((lands_ins (l := []) h T).append (lands_ins (l := []) h T)))

theorem tail_lands (n : Int) (T : Int → Prop) : Lands T (vals [IC_CALL1, IC_CALL2, n, IC_STOP]) :=
  (lands_ins (v := IC_CALL1) (l := []) (show plainOp _ 0 = true by decide +kernel) T).append
    ((lands_ins (v := IC_CALL2) (l := [n]) (show plainOp _ 1 = true by decide +kernel) T).append
      (lands_ins (v := IC_STOP) (l := []) (show plainOp _ 0 = true by decide +kernel) T))

theorem whole_whole {tops : List Top} (main : Nat) (fine : ∀ t ∈ tops, t.Fine) : Whole (whole tops main) :=
  (zeros_land fun _ => True).whole.append ((codeTops_G tops start.lay 4 fine).whole.append (tail_lands _ fun _ => True).whole)

/-- An instruction in front of which there are whole instructions has a line. -/
theorem has_line (F : Nat → Nat) {X Y : List Sym} {y : Sym} (hX : Whole X) :
    ∃ l ∈ lines ((X ++ y :: Y).map (resolve F)), l.pc = X.length ∧ l.op = toInt (resolve F y) := by
  have h := lines_split F hX [] ((y :: Y).map (resolve F)) ((X ++ y :: Y).map (resolve F)).length (by simp)
  obtain ⟨ls, f', h1, _, h3⟩ := h
  have e : [] ++ (X.map (resolve F) ++ (y :: Y).map (resolve F)) = (X ++ y :: Y).map (resolve F) := by simp
  rw [e] at h1
  have hf : f' = (f' - 1) + 1 := by simp at h3; omega
  have hg : get ((X ++ y :: Y).map (resolve F)) X.length = resolve F y := by simp [get]
  refine ⟨lineAt ((X ++ y :: Y).map (resolve F)) X.length, ?_, rfl, by simp only [lineAt, hg]⟩
  unfold lines
  rw [show (0 : Nat) = ([] : List Int).length from rfl, h1, hf, linesFrom, if_pos (by simp)]
  simp

/-- C87: every cell of the memory is shown by one line, in order, and the number in front of a line is its address.  Partial: for programs
whose floating literals take two cells and whose strings and tables hold no numbers of instructions. -/
theorem C87_cells_partial (tops : List Top) (main : Nat) (h : Program tops main) (fine : ∀ t ∈ tops, t.Fine) :
    (lines (emitU tops main).mem).flatMap Line.cells = (emitU tops main).mem ∧
      ∀ (U V : List Line) (l : Line), lines (emitU tops main).mem = U ++ l :: V → l.pc = (U.flatMap Line.cells).length := by
  refine ⟨?_, fun U V l hl => ?_⟩
  · rw [whole_mem h]
    obtain ⟨ls, f', h1, h2, _⟩ := lines_split (number tops) (whole_whole main fine) [] [] (whole tops main).length (Nat.le_refl _)
    have e : [] ++ ((whole tops main).map (resolve (number tops)) ++ []) = (whole tops main).map (resolve (number tops)) := by simp
    have hend : linesFrom ((whole tops main).map (resolve (number tops))) f' (([] : List Int).length + (whole tops main).length) = [] := by
      cases f' with
      | zero => rfl
      | succ f => rw [linesFrom, if_neg (by simp)]
    rw [e, hend, List.append_nil] at h1
    unfold lines
    rw [List.length_map, show (0 : Nat) = ([] : List Int).length from rfl, h1, h2]
  · have := lines_pc _ _ _ U V l hl
    omega

/-- C87: the destination a jump or the beginning of a function shows is the number in front of a line. -/
theorem C87_jumps_partial (tops : List Top) (main : Nat) (h : Program tops main) (fine : ∀ t ∈ tops, t.Fine) (l : Line) (hl : l ∈ lines (emitU tops main).mem)
    (d : Int) (hd : l.dest = some d) : ∃ m ∈ lines (emitU tops main).mem, (m.pc : Int) = d := by
  rw [whole_mem h] at hl ⊢
  have hG := codeTops_G tops start.lay 4 fine
  have hL : Lands (On 4 (codeTops start.lay 4 tops)) (whole tops main) :=
    (zeros_land _).append ((Lands.mono (fun v hv => hv.elim (fun hn => hn.elim) id) hG).append (tail_lands _ _))
  have hn : NoHole (whole tops main) := noHole_append.2 ⟨noHole_vals _, noHole_append.2 ⟨codeTops_noHole tops _ _ h.good, noHole_vals _⟩⟩
  obtain ⟨X, Y, e, hX, hY, hv⟩ := lines_dest (number tops) hL hn [] _ l d hl hd
  have hX' : Whole (vals [0, 0, 0, 0] ++ X) := (zeros_land fun _ => True).whole.append hX
  obtain ⟨y, Y', hy⟩ : ∃ y Y', Y ++ vals [IC_CALL1, IC_CALL2, (number tops main : Int), IC_STOP] = y :: Y' := by
    cases Y with
    | nil => exact ⟨_, _, rfl⟩
    | cons y Y => exact ⟨y, _, rfl⟩
  have hw : whole tops main = (vals [0, 0, 0, 0] ++ X) ++ y :: Y' := by
    rw [whole, e, ← hy]; simp
  obtain ⟨m, hm, hpc, _⟩ := has_line (number tops) (y := y) (Y := Y') hX'
  rw [hw]
  refine ⟨m, hm, ?_⟩
  rw [hpc, hv]
  simp [vals]; omega

/-- C87: the address the table of functions has for a function is the number in front of a line with the beginning of a function. -/
theorem C87_functions_partial (tops : List Top) (main : Nat) (h : Program tops main) (fine : ∀ t ∈ tops, t.Fine) (k : Nat) (a : Int) (hk : 2 ≤ k)
    (ha : (emitU tops main).funcs[k]? = some a) : ∃ l ∈ lines (emitU tops main).mem, (l.pc : Int) = a ∧ l.op = IC_FUNC_BEG := by
  rw [(C36_unit tops main h).2.2, List.getElem?_append_right (by simpa using hk), List.getElem?_map] at ha
  obtain ⟨b, hb, rfl⟩ := Option.map_eq_some_iff.1 ha
  obtain ⟨X, Y, e, hX, _, hl⟩ := addrs_on tops start.lay 4 fine b (List.mem_of_getElem? hb)
  rw [whole_mem h]
  have hw : whole tops main = (vals [0, 0, 0, 0] ++ X) ++ .val IC_FUNC_BEG :: (Y ++ vals [IC_CALL1, IC_CALL2, (number tops main : Int), IC_STOP]) := by
    rw [whole, e]; simp
  obtain ⟨m, hm, hpc, hop⟩ := has_line (number tops) (y := .val IC_FUNC_BEG) (Y := Y ++ vals [IC_CALL1, IC_CALL2, (number tops main : Int), IC_STOP])
    ((zeros_land fun _ => True).whole.append hX)
  rw [hw]
  refine ⟨m, hm, ?_, ?_⟩
  · rw [hpc, hl]; simp [vals]; omega
  · rw [hop, show resolve (number tops) (.val IC_FUNC_BEG) = IC_FUNC_BEG from rfl]; decide +kernel

/-- C87: two memories with the same listing have the same lines, if there are no floating literals. -/
theorem C87_text_partial (showDouble : Nat → List Nat) (mem mem' : List Int) (h : ∀ l ∈ lines mem, l.op ≠ IC_LID) (h' : ∀ l ∈ lines mem', l.op ≠ IC_LID)
    (e : writeCodes showDouble mem = writeCodes showDouble mem') : lines mem = lines mem' := by
  unfold writeCodes at e
  exact linesText_inj showDouble _ _ (lines_ok h) (lines_ok h') (List.append_cancel_left e)

/-- C87: the listing of a program says what its memory is. -/
theorem C87_readable_partial (showDouble : Nat → List Nat) (tops tops' : List Top) (main main' : Nat) (h : Program tops main) (h' : Program tops' main')
    (fine : ∀ t ∈ tops, t.Fine) (fine' : ∀ t ∈ tops', t.Fine) (hl : ∀ l ∈ lines (emitU tops main).mem, l.op ≠ IC_LID)
    (hl' : ∀ l ∈ lines (emitU tops' main').mem, l.op ≠ IC_LID)
    (e : writeCodes showDouble (emitU tops main).mem = writeCodes showDouble (emitU tops' main').mem) : (emitU tops main).mem = (emitU tops' main').mem := by
  rw [← (C87_cells_partial tops main h fine).1, ← (C87_cells_partial tops' main' h' fine').1, C87_text_partial showDouble _ _ hl hl' e]

/-- `int g = 3; void f(int a) { while (a) { if (a == 2) { break; } a = a - 1; } }  void main() { char s[] = "hi"; f(g); }`. -/
def program : List Top :=
  [.vars (.var 1 .integer 0 (some (.lit 3))),
   .func ⟨2, none, [(3, .integer)], .while_ (.ident 3 .integer) (.seq (.if_ (.binary .eq (.ident 3 .integer) (.lit 2) false) .break_)
     (.expr (.assign .assign (.ident 3 .integer) (.binary .sub (.ident 3 .integer) (.lit 1) false) .integer)))⟩,
   .func ⟨4, none, [], .seq (.var 5 .integer 0 (some (.str [104, 105]))) (.expr (.call 2 (.cons (.ident 1 .integer) .nil)))⟩]

theorem program_ok : Program program 4 := by
  refine ⟨?_, ?_, ?_, ?_, calm_small (by decide +kernel), by decide⟩
  · intro t ht
    simp [program] at ht
    rcases ht with rfl | rfl | rfl <;> simp [Top.Good, Top.stmt, Stmt.Wf, Stmt.Placed, Exp.Wf, Args.Wf, Exp.isLvalue]
  · simp [program, Linked, Stmt.calls, Stmt.passes, Exp.calls, Exp.passes, Args.calls, Args.passes, callsO, passesO]
  · simp [program, callsT, Top.calls, Stmt.calls, Exp.calls, Args.calls, callsO, defs]
  · simp [program, defs]

theorem program_fine : ∀ t ∈ program, t.Fine := by
  intro t ht
  simp [program] at ht
  rcases ht with rfl | rfl | rfl <;>
    simp [Top.Fine, Stmt.Fine, Exp.Fine, Args.Fine, Exp.FineV, Exp.isLvalue, Exp.solid, isAssign, Low]

example : ∀ l ∈ lines (emitU program 4).mem, l.op ≠ IC_LID := by decide +kernel

example : (lines (emitU program 4).mem).length = 34 ∧ ((lines (emitU program 4).mem).filterMap Line.dest) = [34, 33, 24, 33, 11, 52, 44] ∧
    (emitU program 4).funcs = [0, 0, 8, 34] := by decide +kernel

/-- `void main() { double x = 1.0; }`, the literal in one cell as `-DITEM=-64` and the default have it. -/
def floating : List Top := [.func ⟨1, none, [], .var 2 .floating 0 (some (.flit [4607182418800017408]))⟩]

theorem floating_ok : Program floating 1 := by
  refine ⟨?_, ?_, ?_, ?_, calm_small (by decide +kernel), by decide⟩
  · intro t ht
    simp [floating] at ht
    subst ht
    simp [Top.Good, Top.stmt, Stmt.Wf, Stmt.Placed, Exp.Wf]
  · simp [floating, Linked, Stmt.calls, Stmt.passes, Exp.calls, Exp.passes, callsO, passesO]
  · simp [floating, callsT, Top.calls, Stmt.calls, Exp.calls, callsO, defs]
  · simp [floating, defs]

/-- C87 fails for floating literals of one cell: the listing takes two, shows a number that is not the literal, and the assignment behind it has
no line. -/
theorem C87_floating_swallows : IC_ASSIGN_R_V ∈ (emitU floating 1).mem ∧ (∀ l ∈ lines (emitU floating 1).mem, l.op ≠ IC_ASSIGN_R_V) ∧
    ∃ l ∈ lines (emitU floating 1).mem, l.op = IC_LID ∧ l.args = [4607182418800017408, IC_ASSIGN_R_V] ∧
      doubleBits (l.args.getD 0 0) (l.args.getD 1 0) ≠ 4607182418800017408 := by decide +kernel

/-- A string with the character whose number is that of `IC_LOAD`. -/
def strange : List Top := [.func ⟨1, none, [], .var 2 .integer 0 (some (.str [65, IC_LOAD]))⟩]

theorem strange_ok : Program strange 1 := by
  refine ⟨?_, ?_, ?_, ?_, calm_small (by decide +kernel), by decide⟩
  · intro t ht
    simp [strange] at ht
    subst ht
    simp [Top.Good, Top.stmt, Stmt.Wf, Stmt.Placed, Exp.Wf]
  · simp [strange, Linked, Stmt.calls, Stmt.passes, Exp.calls, Exp.passes, callsO, passesO]
  · simp [strange, callsT, Top.calls, Stmt.calls, Exp.calls, callsO, defs]
  · simp [strange, defs]

/-- C87 fails for strings with such characters: the jump over the string leads to no line, and the assignment of the string has none. -/
theorem C87_string_swallows : (∃ l ∈ lines (emitU strange 1).mem, l.op = IC_B ∧ l.dest = some 14) ∧ (∀ l ∈ lines (emitU strange 1).mem, l.pc ≠ 14) ∧
    ∀ l ∈ lines (emitU strange 1).mem, l.op ≠ IC_ASSIGN_V := by decide +kernel

/-- The text of the smallest program. -/
example : writeCodes (fun _ => []) (emitU [.func ⟨1, none, [], .skip⟩] 1).mem =
    codes "mem\npc 0) 0\npc 1) 0\npc 2) 0\npc 3) 0\npc 4) FUNCBEG maxdispl= 3 pc= 8\npc 7) RETURNVOID\npc 8) CALL1\npc 9) CALL2 2\npc 11) STOP\n" := by
  decide +kernel

end RuC.Listing.Props
