import Verif.Codegen.Whole
import Verif.Codegen.Slots

/-!
# Jumps, calls and the code of a unit

C32: variables in scope have cells of their own.  C35: every jump goes where the statement says.  C36: every call refers to the definition of the function.
-/

namespace RuC.Codegen.Props

open RuC RuC.Codegen RuC.Instr
open RuC.Expr (Unary Binary)

/-! ### C35 -/

/-- A statement that is compiled on its own: expressions well-formed, jumps and labels where they are allowed; the
encoder in order; and the code not so large that a call of a function not defined yet has its operand at the address of
an instruction number (always so when the code has less than 9000 cells, `ready_small`). -/
structure Ready (st : Enc) (s : Stmt) : Prop where
  wf : s.Wf
  placed : s.Placed false false false
  ok : OkP st (codeS st.lay st.size s).code

theorem calm_small {base : Nat} {A : List Sym} (h : base + A.length ≤ 9000) : Calm base A := by
  refine ⟨fun i f hi => toVoid_small ?_, by omega⟩
  have : i < A.length := by rw [List.getElem?_eq_some_iff] at hi; exact hi.1
  omega

theorem ready_small {st : Enc} {s : Stmt} (wf : s.Wf) (placed : s.Placed false false false) (h0 : 0 < st.size) (hn : st.next < st.size)
    (hf : ∀ f, (st.fn f).natAbs < 9000) (h : st.size + (codeS st.lay st.size s).code.length ≤ 9000) : Ready st s :=
  ⟨wf, placed, ⟨⟨fun f => toVoid_small (by have := hf f; simp only [Enc.heads]; omega), calm_small h⟩, h0, hn⟩⟩

/-- A number of the reference code stands in memory. -/
theorem emit_val {st : Enc} {s : Stmt} (h : Ready st s) {i : Nat} {v : Int} (hi : (codeS st.lay st.size s).code[i]? = some (.val v)) :
    (emitS st s).mem[st.size + i]? = some v := by
  rw [emitS_closed h.wf h.placed h.ok]
  show (st.mem ++ conc st.heads st.size (codeS st.lay st.size s).code)[st.mem.length + i]? = some v
  rw [List.getElem?_append_right (by omega), Nat.add_sub_cancel_left]
  generalize (codeS st.lay st.size s).code = A at hi
  generalize st.heads = g
  generalize st.size = a
  induction A generalizing i g a with
  | nil => simp at hi
  | cons x A ih =>
    cases i with
    | zero => simp at hi; subst hi; rfl
    | succ i => simp at hi; simpa [conc] using ih hi _ _

theorem emit_size {st : Enc} {s : Stmt} (h : Ready st s) : (emitS st s).size = st.size + (codeS st.lay st.size s).code.length := by
  rw [emitS_closed h.wf h.placed h.ok]; simp

/-- C35: what is emitted for a statement is its code with all destinations computed; no link of a chain of `break`,
`continue` or `case` is left in it, no walk along a chain fails, and the encoder waits for nothing more than before. -/
theorem C35_no_link_left (st : Enc) (s : Stmt) (h : Ready st s) :
    (∀ i x, (codeS st.lay st.size s).code[i]? = some x → (∃ v, x = .val v ∧ (emitS st s).mem[st.size + i]? = some v) ∨
      ∃ f, x = .fn f ∨ x = .fnOp f ∨ x = .fnArg f) ∧
    (emitS st s).mem.take st.size = st.mem ∧ (emitS st s).size = st.size + (codeS st.lay st.size s).code.length ∧
    (emitS st s).brk = st.brk ∧ (emitS st s).cont = st.cont ∧ (emitS st s).next = st.next ∧ (emitS st s).hung = st.hung := by
  have nh := (placed_closed st.lay st.size h.wf h.placed).1
  have hb := noHole_not nh
  have e := emitS_closed h.wf h.placed h.ok
  refine ⟨fun i x hi => ?_, ?_, emit_size h, ?_, ?_, ?_, ?_⟩
  · have := nh x (List.mem_of_getElem? hi)
    cases x with
    | val v => exact .inl ⟨v, rfl, emit_val h hi⟩
    | brk => exact absurd rfl this.1
    | cont => exact absurd rfl this.2.1
    | next => exact absurd rfl this.2.2
    | fn f => exact .inr ⟨f, .inl rfl⟩
    | fnOp f => exact .inr ⟨f, .inr (.inl rfl)⟩
    | fnArg f => exact .inr ⟨f, .inr (.inr rfl)⟩
  · rw [e]
    show (st.mem ++ _).take st.mem.length = _
    simp
  · rw [e]; exact after_brk_of_not_mem hb.1
  · rw [e]; exact after_cont_of_not_mem hb.2.1
  · rw [e]; rfl
  · rw [e]; rfl

theorem toLabel_vals (l l') : toLabel l (vals l') = vals l' := by
  cases l with
  | none => rfl
  | some l => exact fill_vals _ _ _ (by simp)

theorem toLabel_noHole {l A} (h : NoHole A) : toLabel l A = A := by
  cases l with
  | none => rfl
  | some l => exact fill_of_not_mem (noHole_not h).2.2

theorem get_mid {α} (X Y Z : List α) (i : Nat) (n : Nat) (hn : n = X.length + i) (v : α) (h : Y[i]? = some v) : (X ++ Y ++ Z)[n]? = some v := by
  subst hn
  have hi : i < Y.length := by rw [List.getElem?_eq_some_iff] at h; exact h.1
  rw [List.append_assoc, List.getElem?_append_right (by omega), Nat.add_sub_cancel_left, List.getElem?_append_left hi]
  exact h

theorem get_fill_hole {k v A} {i : Nat} (h : A[i]? = some k) : (fill k v A)[i]? = some (.val v) := by
  simp [fill, h]

theorem get_fill_val {k v u A} {i : Nat} (h : A[i]? = some (.val u)) (hk : k ≠ .val u) : (fill k v A)[i]? = some (.val u) := by
  simp [fill, h, Ne.symm hk]

theorem get_loop_cont {u v A} {i : Nat} (h : A[i]? = some .cont) : (fill .brk v (fill .cont u A))[i]? = some (.val u) :=
  get_fill_val (get_fill_hole h) (by simp)

theorem get_loop_brk {u v A} {i : Nat} (h : A[i]? = some .brk) : (fill .brk v (fill .cont u A))[i]? = some (.val v) := by
  apply get_fill_hole
  simp [fill, h]

theorem label_none {s : Stmt} (L base) (wf : s.Wf) (b c : Bool) (h : s.Placed b c false) : (codeS L base s).label = none :=
  (placed_left s b c false L base wf h).2.2 rfl

/-- C35, `while`: the test jumps behind the loop, the end jumps to the test; in the body every `break` jumps behind the
loop and every `continue` to the test. -/
theorem C35_while (st : Enc) (c : Exp) (s : Stmt) (h : Ready st (.while_ c s)) :
    let C := codeE st.lay.displs st.size c
    let body := st.size + C.length + 2
    let S := (codeS st.lay body s).code
    let M := (emitS st (.while_ c s)).mem
    let behind := (emitS st (.while_ c s)).size
    behind = body + S.length + 2 ∧
    M[st.size + C.length]? = some IC_BE0 ∧ M[st.size + C.length + 1]? = some (behind : Int) ∧
    M[body + S.length]? = some IC_B ∧ M[body + S.length + 1]? = some (st.size : Int) ∧
    (∀ i, S[i]? = some .brk → M[body + i]? = some (behind : Int)) ∧
    (∀ i, S[i]? = some .cont → M[body + i]? = some (st.size : Int)) := by
  intro C body S M behind
  have hl := label_none st.lay body h.wf.2 true true h.placed
  have hcode : (codeS st.lay st.size (.while_ c s)).code =
      (C ++ vals [IC_BE0, ((body + S.length + 2 : Nat) : Int)]) ++ fill .brk ((body + S.length + 2 : Nat) : Int) (fill .cont (st.size : Int) S) ++ vals [IC_B, (st.size : Int)] := by
    rw [codeS]
    show toLabel _ (toLabel (codeS st.lay body s).label _ ++ _) ++ _ = _
    rw [hl]; rfl
  have hsz : behind = body + S.length + 2 := by
    show (emitS st (.while_ c s)).size = _
    rw [emit_size h, hcode]
    simp [body]; omega
  refine ⟨hsz, ?_, ?_, ?_, ?_, fun i hi => ?_, fun i hi => ?_⟩
  · apply emit_val h; rw [hcode, List.append_assoc]
    exact get_mid C _ _ 0 _ rfl _ rfl
  · rw [Nat.add_assoc]; apply emit_val h; rw [hcode, hsz, List.append_assoc]
    exact get_mid C _ _ 1 _ rfl _ rfl
  · have e : body + S.length = st.size + (C.length + 2 + S.length) := by simp only [body]; omega
    rw [e]; apply emit_val h; rw [hcode]
    have := get_mid ((C ++ vals [IC_BE0, ((body + S.length + 2 : Nat) : Int)]) ++ fill .brk ((body + S.length + 2 : Nat) : Int) (fill .cont (st.size : Int) S))
      (vals [IC_B, (st.size : Int)]) [] 0 (C.length + 2 + S.length) (by simp; omega) _ rfl
    simpa using this
  · have e : body + S.length + 1 = st.size + (C.length + 2 + S.length + 1) := by simp only [body]; omega
    rw [e]; apply emit_val h; rw [hcode]
    have := get_mid ((C ++ vals [IC_BE0, ((body + S.length + 2 : Nat) : Int)]) ++ fill .brk ((body + S.length + 2 : Nat) : Int) (fill .cont (st.size : Int) S))
      (vals [IC_B, (st.size : Int)]) [] 1 (C.length + 2 + S.length + 1) (by simp; omega) _ rfl
    simpa using this
  · have e : body + i = st.size + (C.length + 2 + i) := by simp only [body]; omega
    rw [e]; apply emit_val h; rw [hcode, hsz]
    exact get_mid _ _ _ i _ (by simp) _ (get_loop_brk hi)
  · have e : body + i = st.size + (C.length + 2 + i) := by simp only [body]; omega
    rw [e]; apply emit_val h; rw [hcode]
    exact get_mid _ _ _ i _ (by simp) _ (get_loop_cont hi)

/-- C35, `do`: the test jumps back to the beginning; every `break` jumps behind the loop and every `continue` to the
test. -/
theorem C35_do (st : Enc) (c : Exp) (s : Stmt) (h : Ready st (.do_ s c)) :
    let S := (codeS st.lay st.size s).code
    let test := st.size + S.length
    let C := codeE (layS st.lay s).displs test c
    let M := (emitS st (.do_ s c)).mem
    let behind := (emitS st (.do_ s c)).size
    behind = test + C.length + 2 ∧
    M[test + C.length]? = some IC_BNE0 ∧ M[test + C.length + 1]? = some (st.size : Int) ∧
    (∀ i, S[i]? = some .brk → M[st.size + i]? = some (behind : Int)) ∧
    (∀ i, S[i]? = some .cont → M[st.size + i]? = some (test : Int)) := by
  intro S test C M behind
  have hcode : (codeS st.lay st.size (.do_ s c)).code =
      [] ++ fill .brk ((test + C.length + 2 : Nat) : Int) (fill .cont (test : Int) S) ++ (C ++ vals [IC_BNE0, (st.size : Int)]) := by
    rw [codeS]; rfl
  have hsz : behind = test + C.length + 2 := by
    show (emitS st (.do_ s c)).size = _
    rw [emit_size h, hcode]
    simp [test]; omega
  refine ⟨hsz, ?_, ?_, fun i hi => ?_, fun i hi => ?_⟩
  · have e : test + C.length = st.size + (S.length + C.length) := by simp only [test]; omega
    rw [e]; apply emit_val h; rw [hcode, ← List.append_assoc]
    have := get_mid ([] ++ fill .brk ((test + C.length + 2 : Nat) : Int) (fill .cont (test : Int) S) ++ C) (vals [IC_BNE0, (st.size : Int)]) [] 0
      (S.length + C.length) (by simp) _ rfl
    simpa using this
  · have e : test + C.length + 1 = st.size + (S.length + C.length + 1) := by simp only [test]; omega
    rw [e]; apply emit_val h; rw [hcode, ← List.append_assoc]
    have := get_mid ([] ++ fill .brk ((test + C.length + 2 : Nat) : Int) (fill .cont (test : Int) S) ++ C) (vals [IC_BNE0, (st.size : Int)]) [] 1
      (S.length + C.length + 1) (by simp) _ rfl
    simpa using this
  · apply emit_val h; rw [hcode, hsz]
    exact get_mid _ _ _ i _ (by simp) _ (get_loop_brk hi)
  · apply emit_val h; rw [hcode]
    exact get_mid _ _ _ i _ (by simp) _ (get_loop_cont hi)

/-- C35, `for`: the test jumps behind the loop, the end jumps to the test; every `break` jumps behind the loop and every
`continue` to the increment (or to the jump to the test, when there is none). -/
theorem C35_for (st : Enc) (i : Stmt) (c inc : Option Exp) (s : Stmt) (h : Ready st (.for_ i c inc s)) :
    let I := (codeS st.lay st.size i).code
    let L := layS st.lay i
    let test := st.size + I.length
    let C := codeOpt L.displs test c
    let body := test + C.length + (if c.isSome then 2 else 0)
    let S := (codeS L body s).code
    let step := body + S.length
    let N := codeOptV (layS L s).displs step inc
    let M := (emitS st (.for_ i c inc s)).mem
    let behind := (emitS st (.for_ i c inc s)).size
    behind = step + N.length + 2 ∧
    (c.isSome → M[test + C.length]? = some IC_BE0 ∧ M[test + C.length + 1]? = some (behind : Int)) ∧
    M[step + N.length]? = some IC_B ∧ M[step + N.length + 1]? = some (test : Int) ∧
    (∀ j, S[j]? = some .brk → M[body + j]? = some (behind : Int)) ∧
    (∀ j, S[j]? = some .cont → M[body + j]? = some (step : Int)) := by
  intro I L test C body S step N M behind
  have hl := label_none L body h.wf.2.2.2 true true h.placed.2
  have hcode : (codeS st.lay st.size (.for_ i c inc s)).code =
      (I ++ (C ++ vals (if c.isSome then [IC_BE0, ((step + N.length + 2 : Nat) : Int)] else []))) ++
        fill .brk ((step + N.length + 2 : Nat) : Int) (fill .cont (step : Int) S) ++ (N ++ vals [IC_B, (test : Int)]) := by
    rw [codeS]
    show toLabel _ (toLabel (codeS L body s).label _ ++ _) ++ _ = _
    rw [hl]; rfl
  have hT : (vals (if c.isSome then [IC_BE0, ((step + N.length + 2 : Nat) : Int)] else [])).length = if c.isSome then 2 else 0 := by
    split <;> rfl
  have hX : (I ++ (C ++ vals (if c.isSome then [IC_BE0, ((step + N.length + 2 : Nat) : Int)] else []))).length = I.length + C.length + (if c.isSome then 2 else 0) := by
    rw [List.length_append, List.length_append, hT]; omega
  have hsz : behind = step + N.length + 2 := by
    show (emitS st (.for_ i c inc s)).size = _
    rw [emit_size h, hcode, List.length_append, List.length_append, hX]
    simp [step, body, test]; omega
  refine ⟨hsz, fun hc => ?_, ?_, ?_, fun j hj => ?_, fun j hj => ?_⟩
  · rw [if_pos hc] at hcode
    refine ⟨?_, ?_⟩
    · have e : test + C.length = st.size + (I.length + C.length) := by simp only [test]; omega
      rw [e]; apply emit_val h; rw [hcode, ← List.append_assoc, List.append_assoc, List.append_assoc]
      have := get_mid (I ++ C) (vals [IC_BE0, ((step + N.length + 2 : Nat) : Int)])
        (fill .brk ((step + N.length + 2 : Nat) : Int) (fill .cont (step : Int) S) ++ (N ++ vals [IC_B, (test : Int)])) 0 (I.length + C.length) (by simp) _ rfl
      simpa using this
    · have e : test + C.length + 1 = st.size + (I.length + C.length + 1) := by simp only [test]; omega
      rw [e]; apply emit_val h; rw [hcode, hsz, ← List.append_assoc, List.append_assoc, List.append_assoc]
      have := get_mid (I ++ C) (vals [IC_BE0, ((step + N.length + 2 : Nat) : Int)])
        (fill .brk ((step + N.length + 2 : Nat) : Int) (fill .cont (step : Int) S) ++ (N ++ vals [IC_B, (test : Int)])) 1 (I.length + C.length + 1) (by simp) _ rfl
      simpa using this
  · have e : step + N.length = st.size + ((I.length + C.length + (if c.isSome then 2 else 0)) + S.length + N.length) := by simp only [step, body, test]; omega
    rw [e]; apply emit_val h; rw [hcode, ← List.append_assoc]
    have := get_mid ((I ++ (C ++ vals (if c.isSome then [IC_BE0, ((step + N.length + 2 : Nat) : Int)] else []))) ++
        fill .brk ((step + N.length + 2 : Nat) : Int) (fill .cont (step : Int) S) ++ N) (vals [IC_B, (test : Int)]) [] 0
        ((I.length + C.length + (if c.isSome then 2 else 0)) + S.length + N.length) (by rw [List.length_append, List.length_append, hX]; simp) _ rfl
    simpa using this
  · have e : step + N.length + 1 = st.size + ((I.length + C.length + (if c.isSome then 2 else 0)) + S.length + N.length + 1) := by simp only [step, body, test]; omega
    rw [e]; apply emit_val h; rw [hcode, ← List.append_assoc]
    have := get_mid ((I ++ (C ++ vals (if c.isSome then [IC_BE0, ((step + N.length + 2 : Nat) : Int)] else []))) ++
        fill .brk ((step + N.length + 2 : Nat) : Int) (fill .cont (step : Int) S) ++ N) (vals [IC_B, (test : Int)]) [] 1
        ((I.length + C.length + (if c.isSome then 2 else 0)) + S.length + N.length + 1) (by rw [List.length_append, List.length_append, hX]; simp) _ rfl
    simpa using this
  · have e : body + j = st.size + ((I.length + C.length + (if c.isSome then 2 else 0)) + j) := by simp only [body, test]; omega
    rw [e]; apply emit_val h; rw [hcode, hsz]
    exact get_mid _ _ _ j _ (by rw [hX]) _ (get_loop_brk hj)
  · have e : body + j = st.size + ((I.length + C.length + (if c.isSome then 2 else 0)) + j) := by simp only [body, test]; omega
    rw [e]; apply emit_val h; rw [hcode]
    exact get_mid _ _ _ j _ (by rw [hX]) _ (get_loop_cont hj)

/-- C35, `if`: the test jumps behind the branch. -/
theorem C35_if (st : Enc) (c : Exp) (s : Stmt) (h : Ready st (.if_ c s)) :
    let C := codeE st.lay.displs st.size c
    let M := (emitS st (.if_ c s)).mem
    M[st.size + C.length]? = some IC_BE0 ∧ M[st.size + C.length + 1]? = some ((emitS st (.if_ c s)).size : Int) := by
  intro C M
  have hl := label_none st.lay (st.size + C.length + 2) h.wf.2 false false h.placed
  have hcode : (codeS st.lay st.size (.if_ c s)).code = C ++ vals [IC_BE0, ((st.size + C.length + 2 + (codeS st.lay (st.size + C.length + 2) s).code.length : Nat) : Int)] ++
      (codeS st.lay (st.size + C.length + 2) s).code := by
    rw [codeS]
    show toLabel (codeS st.lay (st.size + C.length + 2) s).label _ ++ _ = _
    rw [hl]; rfl
  refine ⟨?_, ?_⟩
  · apply emit_val h; rw [hcode]
    exact get_mid _ _ _ 0 _ rfl _ rfl
  · rw [Nat.add_assoc]; apply emit_val h; rw [emit_size h, hcode]
    refine get_mid _ _ _ 1 _ rfl _ ?_
    simp; omega

/-- C35, `if` with `else`: the test jumps to the other branch, the first branch ends with a jump behind both. -/
theorem C35_ifElse (st : Enc) (c : Exp) (a b : Stmt) (h : Ready st (.ifElse c a b)) :
    let C := codeE st.lay.displs st.size c
    let A := (codeS st.lay (st.size + C.length + 2) a).code
    let other := st.size + C.length + 2 + A.length + 2
    let M := (emitS st (.ifElse c a b)).mem
    M[st.size + C.length]? = some IC_BE0 ∧ M[st.size + C.length + 1]? = some (other : Int) ∧
    M[other - 2]? = some IC_B ∧ M[other - 1]? = some ((emitS st (.ifElse c a b)).size : Int) := by
  intro C A other M
  have hla := label_none st.lay (st.size + C.length + 2) h.wf.2.1 false false h.placed.1
  have hlb := label_none (layS st.lay a) other h.wf.2.2 false false h.placed.2
  let B := (codeS (layS st.lay a) other b).code
  have hcode : (codeS st.lay st.size (.ifElse c a b)).code = C ++ vals [IC_BE0, (other : Int)] ++ A ++ vals [IC_B, ((other + B.length : Nat) : Int)] ++ B := by
    rw [codeS]
    show toLabel (codeS (layS st.lay a) other b).label (toLabel none (toLabel (codeS st.lay (st.size + C.length + 2) a).label _ ++ _) ++ _) ++ _ = _
    rw [hla, hlb]; rfl
  have hsz : (emitS st (.ifElse c a b)).size = other + B.length := by
    rw [emit_size h, hcode]; simp [other]; omega
  refine ⟨?_, ?_, ?_, ?_⟩
  · apply emit_val h; rw [hcode, List.append_assoc, List.append_assoc]
    exact get_mid _ _ _ 0 _ rfl _ rfl
  · rw [Nat.add_assoc]; apply emit_val h; rw [hcode, List.append_assoc, List.append_assoc]
    exact get_mid _ _ _ 1 _ rfl _ rfl
  · have e : other - 2 = st.size + (C.length + 2 + A.length) := by simp only [other]; omega
    rw [e]; apply emit_val h; rw [hcode]
    exact get_mid _ _ _ 0 _ (by simp; omega) _ rfl
  · have e : other - 1 = st.size + (C.length + 2 + A.length + 1) := by simp only [other]; omega
    rw [e]; apply emit_val h; rw [hcode, hsz]
    exact get_mid _ _ _ 1 _ (by simp; omega) _ rfl

/-- C35, `switch`: every `break` jumps behind it, and so does the last test when it fails. -/
theorem C35_switch (st : Enc) (c : Exp) (s : Stmt) (h : Ready st (.switch c s)) :
    let C := codeE st.lay.displs st.size c
    let body := st.size + C.length
    let S := (codeS st.lay body s).code
    let M := (emitS st (.switch c s)).mem
    let behind := (emitS st (.switch c s)).size
    (∀ i, S[i]? = some .brk → M[body + i]? = some (behind : Int)) ∧ (∀ i, S[i]? = some .next → M[body + i]? = some (behind : Int)) := by
  intro C body S M behind
  have hcode : (codeS st.lay st.size (.switch c s)).code = C ++ fill .brk ((body + S.length : Nat) : Int) (fill .next ((body + S.length : Nat) : Int) S) ++ [] := by
    rw [codeS]; simp [plain, C, body, S]
  have hsz : behind = body + S.length := by
    show (emitS st (.switch c s)).size = _
    rw [emit_size h, hcode]; simp [body]; omega
  refine ⟨fun i hi => ?_, fun i hi => ?_⟩
  · have e : body + i = st.size + (C.length + i) := by simp only [body]; omega
    rw [e]; apply emit_val h; rw [hcode, hsz]
    refine get_mid _ _ _ i _ rfl _ (get_fill_hole ?_)
    simp [fill, hi]
  · have e : body + i = st.size + (C.length + i) := by simp only [body]; omega
    rw [e]; apply emit_val h; rw [hcode, hsz]
    exact get_mid _ _ _ i _ rfl _ (get_fill_val (get_fill_hole hi) (by simp))

/-- C35, `case`: a test that fails goes to the next label.  In `a b`, when the tests of `a` leave one open and `b` has a
label, that test goes to the first label of `b`; the label of `case` is where its test begins, that of `default` where its
statement begins. -/
theorem C35_case_next (L : Layout) (base : Nat) (a b : Stmt) (i : Nat) (l : Nat) (hi : (codeS L base a).code[i]? = some .next)
    (hl : (codeS (layS L a) (base + (codeS L base a).code.length) b).label = some l) :
    (codeS L base (.seq a b)).code[i]? = some (.val (l : Int)) := by
  have hlt : i < (codeS L base a).code.length := by rw [List.getElem?_eq_some_iff] at hi; exact hi.1
  show (toLabel _ (codeS L base a).code ++ _)[i]? = _
  rw [hl]
  have e : (toLabel (some l) (codeS L base a).code) = fill .next l (codeS L base a).code := rfl
  rw [e, List.getElem?_append_left (by simpa using hlt)]
  exact get_fill_hole hi

theorem C35_case_label (L : Layout) (base : Nat) (e : Exp) (s : Stmt) :
    (codeS L base (.case e s)).label = some base ∧ (codeS L base (.default s)).label = some base ∧
    (codeS L base (.case e s)).code[0]? = some (.val IC_DUPLICATE) := by
  refine ⟨rfl, rfl, ?_⟩
  rw [codeS]
  show (toLabel _ (vals [IC_DUPLICATE] ++ _ ++ _ ++ _) ++ _)[0]? = _
  cases (codeS L (base + 1 + (codeE L.displs (base + 1) e).length + 3) s).label <;> simp [toLabel, fill]

/-- C35, expressions: the jumps of the ternary operator and of the logical operators. -/
theorem C35_ternary (st : Enc) (c a b : Exp) (wf : (Exp.ternary c a b).Wf) (ok : Ok st (codeE st.lay.displs st.size (.ternary c a b))) :
    let C := codeE st.lay.displs st.size c
    let A := codeE st.lay.displs (st.size + C.length + 2) a
    let other := st.size + C.length + 2 + A.length + 2
    emitE st (.ternary c a b) = app st (C ++ vals [IC_BE0, (other : Int)] ++ A ++ vals [IC_B, ((emitE st (.ternary c a b)).size : Int)] ++
      codeE st.lay.displs other b) := by
  intro C A other
  have e := emitE_app _ st wf ok
  have hs : (emitE st (.ternary c a b)).size = other + (codeE st.lay.displs other b).length := by
    rw [e, app_size, codeE]; simp [other, C, A]; omega
  rw [hs, e, codeE]

theorem C35_logical (st : Enc) (op : Binary) (l r : Exp) (fl : Bool) (hop : op = .logAnd ∨ op = .logOr) (wf : (Exp.binary op l r fl).Wf)
    (ok : Ok st (codeE st.lay.displs st.size (.binary op l r fl))) :
    let A := codeE st.lay.displs st.size l
    let right := st.size + A.length + 3
    emitE st (.binary op l r fl) = app st (A ++ vals [IC_DUPLICATE, (if op = .logAnd then IC_BE0 else IC_BNE0), ((emitE st (.binary op l r fl)).size : Int)] ++
      codeE st.lay.displs right r ++ vals [binaryCell op fl]) := by
  intro A right
  have e := emitE_app _ st wf ok
  have hc : codeE st.lay.displs st.size (.binary op l r fl) = A ++ vals [IC_DUPLICATE, (if op = .logAnd then IC_BE0 else IC_BNE0),
      ((right + (codeE st.lay.displs right r).length + 1 : Nat) : Int)] ++ codeE st.lay.displs right r ++ vals [binaryCell op fl] := by
    rw [codeE]; simp only; rw [if_pos hop]
  have hs : (emitE st (.binary op l r fl)).size = right + (codeE st.lay.displs right r).length + 1 := by
    rw [e, app_size, hc]; simp [right]; omega
  rw [hs, e, hc]

/-- `while (x) { if (y) break; if (z) continue; x = 1; }`. -/
def sample : Stmt := .while_ (.ident 1 .other) (.seq (.if_ (.ident 2 .other) .break_) (.seq (.if_ (.ident 3 .other) .continue_) (.expr (.assign .assign (.ident 1 .other) (.lit 1) .other))))

example : Ready start sample ∧
    (emitS start sample).mem = [0, 0, 0, 0, IC_LOAD, 0, IC_BE0, 26, IC_LOAD, 0, IC_BE0, 14, IC_B, 26, IC_LOAD, 0, IC_BE0, 20, IC_B, 4, IC_LI, 1, IC_ASSIGN_V, 0, IC_B, 4] := by
  refine ⟨ready_small ?_ ?_ (by decide) (by decide) (by intro f; simp [start]) (by decide +kernel), by decide +kernel⟩
  · simp [sample, Stmt.Wf, Exp.Wf]
  · simp [sample, Stmt.Placed]

/-- `for (;;) { switch (x) { case 1: break; case 2: continue; default: y; } do break; while (1); }`. -/
def sample2 : Stmt := .for_ .skip none none (.seq
  (.switch (.ident 1 .other) (.seq (.case (.lit 1) .break_) (.seq (.case (.lit 2) .continue_) (.default (.expr (.ident 2 .other))))))
  (.do_ .break_ (.lit 1)))

example : Ready start sample2 ∧
    (emitS start sample2).mem = [0, 0, 0, 0, IC_LOAD, 0, IC_DUPLICATE, IC_LI, 1, IC_EQ, IC_BE0, 14, IC_B, 22, IC_DUPLICATE, IC_LI, 2, IC_EQ, IC_BE0, 22,
      IC_B, 28, IC_B, 28, IC_LI, 1, IC_BNE0, 22, IC_B, 4] := by
  refine ⟨ready_small ?_ ?_ (by decide) (by decide) (by intro f; simp [start]) (by decide +kernel), by decide +kernel⟩
  · simp [sample2, Stmt.Wf, Exp.Wf]
  · simp [sample2, Stmt.Placed]

theorem void_last {st : Enc} {M : List Int} {v : Int} (h : st.mem = M ++ [v]) (hv : MIN_INSTRUCTION_CODE ≤ v) (hs : M.length < 4611686018427387904) :
    st.void.mem = M ++ [toVoid v] := by
  have hsz : usub st.size 1 = M.length := by
    unfold Enc.size
    rw [h, List.length_append, List.length_cons, List.length_nil, usub_of_le (by omega) (by omega)]
    omega
  have hg : st.get M.length = v := by simp [Enc.get, h]
  unfold Enc.void
  simp only [hsz, hg]
  rw [if_neg (by omega), hg]
  simp [Enc.set, h]

/-- Why `Ready` speaks of addresses: a call whose operand is a link to the address 9041 and that is a statement has the
link changed to 9241, because the number is taken for an instruction.  The chain of calls is lost. -/
theorem C35_link_changed (st : Enc) (f : Nat) (h : st.fn f = -9041) (hs : st.size < 4000000000000000000) :
    (emitS st (.expr (.call f .nil))).mem = st.mem ++ [IC_CALL1, IC_CALL2, 9241] := by
  have e : (emitE st (.call f .nil)).mem = (st.mem ++ [IC_CALL1, IC_CALL2]) ++ [9041] := by
    simp only [emitE, emitA, functionsGet_app]
    simp [app, Enc.add, conc, cell, Enc.heads, h]
  have := void_last e (by decide) (by unfold Enc.size at hs; simp; omega)
  rw [show emitS st (.expr (.call f .nil)) = (emitE st (.call f .nil)).void from rfl, this]
  simp; decide

/-! ### C36 -/

/-- A unit as the parser accepts it: statements in order; a function is defined once, is not called before it is
declared and is called by its latest declaration; every function that is called is defined somewhere; there is a `main`.
And, of the limits: calls have no operands at addresses that look like instructions (`calm_small`: always so when the
code has less than 9000 cells), and there are less than 8999 functions.  A function passed as an argument is defined
before that (`Linked`). -/
structure Program (tops : List Top) (main : Nat) : Prop where
  good : ∀ t ∈ tops, t.Good
  linked : Linked [] [] [] tops
  called : ∀ f ∈ callsT tops, ∃ d ∈ defs tops, d.id = f ∨ d.prev = some f
  main : ∃ d ∈ defs tops, d.id = main
  calm : Calm 4 (codeTops start.lay 4 tops)
  few : (defs tops).length ≤ 8998

/-- C36: the memory of a unit is its code with the number of the definition in every call, and the table of functions has
the addresses of the definitions. -/
theorem C36_unit (tops : List Top) (main : Nat) (h : Program tops main) :
    (emitU tops main).mem = [0, 0, 0, 0] ++ (codeTops start.lay 4 tops).map (resolve (number tops)) ++ [IC_CALL1, IC_CALL2, (number tops main : Int), IC_STOP] ∧
      (emitU tops main).hung = false ∧ (emitU tops main).funcs = [0, 0] ++ (addrs start.lay 4 tops).map (Int.ofNat ·) :=
  let ⟨h1, h2, h3, _⟩ := emitU_all h.good h.linked h.called h.main h.calm h.few
  ⟨h1, h2, h3⟩

theorem addrs_code : ∀ (tops : List Top) (L : Layout) (base k : Nat) (d : Func), (defs tops)[k]? = some d →
    ∃ a X L' Y, (addrs L base tops)[k]? = some a ∧ codeTops L base tops = X ++ codeF L' a d ++ Y ∧ a = base + X.length
  | [], L, base, k, d, h => by simp [defs] at h
  | .vars s :: rest, L, base, k, d, h => by
    obtain ⟨a, X, L', Y, h1, h2, h3⟩ := addrs_code rest (layS L s) (base + (codeS L base s).code.length) k d h
    refine ⟨a, (codeS L base s).code ++ X, L', Y, h1, ?_, by simp; omega⟩
    show (codeS L base s).code ++ codeTops (layS L s) (base + (codeS L base s).code.length) rest = _
    rw [h2]; simp
  | .func f :: rest, L, base, k, d, h => by
    cases k with
    | zero =>
      have h' : (f :: defs rest)[0]? = some d := h
      simp at h'
      subst h'
      exact ⟨base, [], L, _, rfl, rfl, rfl⟩
    | succ k =>
      have h' : (f :: defs rest)[k + 1]? = some d := h
      simp at h'
      obtain ⟨a, X, L', Y, h1, h2, h3⟩ := addrs_code rest (layF L f) (base + (codeF L base f).length) k d h'
      refine ⟨a, codeF L base f ++ X, L', Y, ?_, ?_, by simp; omega⟩
      · show (base :: addrs (layF L f) _ rest)[k + 1]? = some a
        simpa using h1
      · show codeF L base f ++ codeTops (layF L f) (base + (codeF L base f).length) rest = _
        rw [h2]; simp

/-- C36: the operand of every call is a number under which the table of functions has the address of the definition: there
stands the code of a function whose identifier is the one called, or which was declared before with that identifier. -/
theorem C36_calls (tops : List Top) (main : Nat) (h : Program tops main) (i f : Nat) (hi : (codeTops start.lay 4 tops)[i]? = some (.fn f)) :
    ∃ (n a : Nat) (d : Func) (L : Layout), d ∈ defs tops ∧ (d.id = f ∨ d.prev = some f) ∧
      (emitU tops main).mem[4 + i]? = some (n : Int) ∧ (emitU tops main).funcs[n]? = some (a : Int) ∧
      ((emitU tops main).mem.drop a).take (codeF L a d).length = (codeF L a d).map (resolve (number tops)) := by
  obtain ⟨hm, _, hf⟩ := C36_unit tops main h
  have hcall : f ∈ callsT tops := codeTops_in tops start.lay 4 _ (List.mem_of_getElem? hi)
  obtain ⟨d0, hd0, hdf⟩ := h.called f hcall
  have hlt : (defs tops).findIdx (fun g => decide (g.id = f ∨ g.prev = some f)) < (defs tops).length := by
    rw [List.findIdx_lt_length]; exact ⟨d0, hd0, by simpa using hdf⟩
  obtain ⟨a, X, L, Y, h1, h2, h3⟩ := addrs_code tops start.lay 4 _ _ (List.getElem?_eq_getElem hlt)
  have hprop := List.findIdx_getElem (w := hlt)
  have hget : ∀ (A : List Sym), (A.map (resolve (number tops))).length = A.length := by simp
  refine ⟨number tops f, a, _, L, List.getElem_mem hlt, by simpa using hprop, ?_, ?_, ?_⟩
  · have hil : i < (codeTops start.lay 4 tops).length := by rw [List.getElem?_eq_some_iff] at hi; exact hi.1
    rw [hm, List.append_assoc, List.getElem?_append_right (by simp)]
    have : 4 + i - [(0 : Int), 0, 0, 0].length = i := by simp
    rw [this, List.getElem?_append_left (by simpa using hil)]
    simp [hi, resolve]
  · rw [hf, List.getElem?_append_right (by simp [number])]
    have : number tops f - [(0 : Int), 0].length = (defs tops).findIdx (fun g => decide (g.id = f ∨ g.prev = some f)) := by simp [number]
    rw [this, List.getElem?_map, h1]
    rfl
  · rw [hm, h2, h3]
    simp only [List.map_append, List.append_assoc]
    have e : [(0 : Int), 0, 0, 0] ++ (List.map (resolve (number tops)) X ++ (List.map (resolve (number tops)) (codeF L (4 + X.length) (defs tops)[(defs tops).findIdx (fun g => decide (g.id = f ∨ g.prev = some f))]) ++
        (List.map (resolve (number tops)) Y ++ [IC_CALL1, IC_CALL2, (number tops main : Int), IC_STOP]))) =
        ([(0 : Int), 0, 0, 0] ++ List.map (resolve (number tops)) X) ++ (List.map (resolve (number tops)) (codeF L (4 + X.length) (defs tops)[(defs tops).findIdx (fun g => decide (g.id = f ∨ g.prev = some f))]) ++
        (List.map (resolve (number tops)) Y ++ [IC_CALL1, IC_CALL2, (number tops main : Int), IC_STOP])) := by rw [List.append_assoc]
    rw [e, List.drop_left' (by simp; omega), List.take_left' (by simp)]

/-- `void f(); void main() { f(); f(); }  void f() { f(); }`: the identifier of the first declaration of `f` is 20, of its
definition 30. -/
def unit : List Top :=
  [.func ⟨10, none, [], .seq (.expr (.call 20 .nil)) (.expr (.call 20 .nil))⟩, .func ⟨30, some 20, [], .expr (.call 30 .nil)⟩]

example : Program unit 10 := by
  refine ⟨?_, ?_, ?_, ?_, calm_small (by decide +kernel), by decide⟩
  · intro t ht
    simp [unit] at ht
    rcases ht with rfl | rfl <;> simp [Top.Good, Top.stmt, Stmt.Wf, Stmt.Placed, Exp.Wf, Args.Wf]
  · simp [unit, Linked, Stmt.calls, Stmt.passes, Exp.calls, Exp.passes, Args.calls, Args.passes]
  · simp [unit, callsT, Top.calls, Stmt.calls, Exp.calls, Args.calls, defs]
  · simp [unit, defs]

example : (emitU unit 10).mem = [0, 0, 0, 0, IC_FUNC_BEG, 3, 14, IC_CALL1, IC_CALL2, 3, IC_CALL1, IC_CALL2, 3, IC_RETURN_VOID,
      IC_FUNC_BEG, 3, 21, IC_CALL1, IC_CALL2, 3, IC_RETURN_VOID, IC_CALL1, IC_CALL2, 2, IC_STOP] ∧
    (emitU unit 10).funcs = [0, 0, 4, 14] := by decide +kernel

/-- Why `Linked` wants a passed function to be defined: one that is only declared is passed as the number 0, and stays so. -/
theorem C36_passed_before_definition :
    (emitU [.func ⟨40, none, [], .skip⟩, .func ⟨10, none, [], .expr (.call 40 (.cons (.funArg 20) .nil))⟩, .func ⟨30, some 20, [], .skip⟩] 10).mem =
      [0, 0, 0, 0, IC_FUNC_BEG, 3, 8, IC_RETURN_VOID, IC_FUNC_BEG, 3, 17, IC_CALL1, IC_LI, 0, IC_CALL2, 2, IC_RETURN_VOID,
        IC_FUNC_BEG, 3, 21, IC_RETURN_VOID, IC_CALL1, IC_CALL2, 3, IC_STOP] := by decide +kernel

/-! ### C32 -/

/-- C32: at every point of every function, the variables in scope have no cell in common; those of the function lie inside
the frame size written behind `IC_FUNC_BEG` (and behind the three cells the machine keeps there), the globals inside the
number of global cells the unit ends with. -/
theorem C32_slots_apart (tops : List Top) (h : ∀ t ∈ tops, t.Decl) (L : Layout) (V : List Slot) (f : Func) (hf : (L, V, f) ∈ funcsIn start.lay [] tops)
    (W : List Slot) (hW : W ∈ pointsF L V f) (base : Nat) (frame : Int) (hfr : (codeF L base f)[1]? = some (.val frame)) :
    W.Pairwise Slot.Apart ∧ (∀ v ∈ W, v.global = false → 3 ≤ v.first ∧ v.first + v.cells ≤ frame) ∧
      (∀ v ∈ W, v.global = true → 3 ≤ v.first ∧ v.first + v.cells ≤ (tops.foldl layT start.lay).maxGlobal) := by
  have hl : LaidG start.lay [] := ⟨.nil, by simp, by decide, rfl⟩
  have := (tops_fine tops start.lay [] hl h).2 (L, V, f) hf W hW
  have e : (layS (layEntry L f) f.body).maxLocal = frame := by
    simp [codeF] at hfr; exact hfr
  rw [e] at this
  exact this

/-- C32: the global cells the unit ends with are those counted by the encoder, which writes them into the output. -/
theorem C32_globals_counted (tops : List Top) (main : Nat) (h : Program tops main) : (emitU tops main).lay = tops.foldl layT start.lay :=
  (emitU_all h.good h.linked h.called h.main h.calm h.few).2.2.2

/-- C32: a variable keeps its cells while others are declared. -/
theorem C32_cells_stay (s : Stmt) (L : Layout) (id : Nat) (t : Ty) (h : id ∉ s.declared) : slotAt t ((layS L s).displs id) = slotAt t (L.displs id) := by
  rw [layS_displs s L id h]

/-- `int g; void f(double a, int b) { { int c; int d; } double e; { int k; } }`. -/
def unit2 : List Top :=
  [.vars (.var 1 .integer 0 none), .func ⟨2, none, [(3, .floating), (4, .integer)],
    .seq (.block (.seq (.var 5 .integer 0 none) (.var 6 .integer 0 none))) (.seq (.var 7 .floating 0 none) (.block (.var 8 .integer 0 none)))⟩]

example : ∀ t ∈ unit2, t.Decl := by
  intro t ht
  simp [unit2] at ht
  rcases ht with rfl | rfl <;> simp [Top.Decl, Stmt.Decls]

example : (funcsIn start.lay [] unit2).map (fun x => (pointsF x.1 x.2.1 x.2.2, (codeF x.1 0 x.2.2)[1]?)) =
    [([[⟨false, 5, 1⟩, ⟨false, 3, 2⟩, ⟨true, 3, 1⟩], [⟨false, 6, 1⟩, ⟨false, 5, 1⟩, ⟨false, 3, 2⟩, ⟨true, 3, 1⟩],
      [⟨false, 7, 1⟩, ⟨false, 6, 1⟩, ⟨false, 5, 1⟩, ⟨false, 3, 2⟩, ⟨true, 3, 1⟩], [⟨false, 6, 2⟩, ⟨false, 5, 1⟩, ⟨false, 3, 2⟩, ⟨true, 3, 1⟩],
      [⟨false, 8, 1⟩, ⟨false, 6, 2⟩, ⟨false, 5, 1⟩, ⟨false, 3, 2⟩, ⟨true, 3, 1⟩]], some (.val 9))] := by decide +kernel

end RuC.Codegen.Props
