import Verif.Mips.Spec

/-!
# Lemmas: the labels of a text
-/

namespace RuC.Mips
open Llvm (Ty Arith Cmp Un Inc Exp Args Stmt Stmts Func)

abbrev labs (c : List Instr) : List Label := c.flatMap puts

/-- States that only differ in the registers in use. -/
def Same (e e' : Enc) : Prop := ∃ b, e' = { e with busy := b }

theorem Same.refl (e : Enc) : Same e e := ⟨e.busy, rfl⟩
theorem Same.trans {a b c : Enc} (h : Same a b) (k : Same b c) : Same a c := by
  obtain ⟨x, rfl⟩ := h
  obtain ⟨y, rfl⟩ := k
  exact ⟨y, rfl⟩

theorem same_mark (e : Enc) (i : Nat) (b : Bool) : Same e (e.mark i b) := ⟨_, rfl⟩
theorem same_free (e : Enc) (r : Nat) : Same e (freeRegister e r) := by
  unfold freeRegister; split
  · exact same_mark ..
  · exact Same.refl _
theorem same_get (e : Enc) : Same e (getRegister e).2 := same_mark ..
theorem same_freeR (e : Enc) (v : Rv) : Same e (freeRvalue e v) := by
  unfold freeRvalue; split
  · exact same_free ..
  · exact Same.refl _
theorem same_loadImm (e : Enc) (v : Rv) : Same e (loadImm e v).2.2 := same_get e
theorem same_toReg (e : Enc) (v : Rv) : Same e (toReg e v).2.2 := by
  unfold toReg; split
  · exact same_loadImm ..
  · exact Same.refl _
theorem same_loadLv (e : Enc) (v : Lv) : Same e (loadLv e v).2.2 := by
  cases v
  · exact Same.refl _
  · exact (same_get e).trans (same_free ..)
theorem same_store (e : Enc) (t : Lv) (v : Rv) : Same e (store e t v).2 := by
  cases t
  · exact same_toReg ..
  · refine (same_toReg e v).trans ?_
    simp only [store]
    split
    · exact (same_freeR ..).trans (same_free ..)
    · exact same_free ..
theorem same_operand (e : Enc) (v : Rv) (o : Arith) (f : Bool) : Same e (operandLoad e v o f).2.2 := by
  cases o <;> simp only [operandLoad] <;> first | exact same_toReg .. | exact Same.refl _ | (split; exact same_toReg ..; exact Same.refl _)
theorem same_arith (e : Enc) (d a b : Rv) (o : Arith) : Same e (arithOp e d a b o).2 := by
  unfold arithOp; split
  · exact Same.refl _
  · exact (same_operand ..).trans (same_operand ..)
theorem same_restore (e : Enc) (i n : Nat) : Same e (restoreArgs e i n).2 := by
  induction n generalizing e i with
  | zero => exact Same.refl _
  | succ n ih => exact ((same_loadLv ..).trans (same_freeR ..)).trans (ih ..)

/-! ## Text without labels and jumps -/

/-- No labels, jumps and calls. -/
def Plain (c : List Instr) : Prop := labs c = [] ∧ c.flatMap targets = [] ∧ c.flatMap calls = []

theorem Plain.nil : Plain [] := ⟨rfl, rfl, rfl⟩
theorem Plain.append {a b : List Instr} (h : Plain a) (k : Plain b) : Plain (a ++ b) := by
  obtain ⟨h1, h2, h3⟩ := h
  obtain ⟨k1, k2, k3⟩ := k
  exact ⟨by simp only [labs, List.flatMap_append] at *; rw [h1, k1]; rfl, by rw [List.flatMap_append, h2, k2]; rfl, by rw [List.flatMap_append, h3, k3]; rfl⟩

theorem plain_toReg (e : Enc) (v : Rv) : Plain (toReg e v).1 := by
  unfold toReg; split <;> exact ⟨rfl, rfl, rfl⟩
theorem plain_loadLv (e : Enc) (v : Lv) : Plain (loadLv e v).1 := by cases v <;> exact ⟨rfl, rfl, rfl⟩
theorem plain_moveTo (r : Nat) (v : Rv) : Plain (moveTo r v) := by
  unfold moveTo; split
  · split <;> exact ⟨rfl, rfl, rfl⟩
  · exact ⟨rfl, rfl, rfl⟩
theorem plain_store (e : Enc) (t : Lv) (v : Rv) : Plain (store e t v).1 := by
  cases t
  · refine (plain_toReg e v).append ?_
    split <;> exact ⟨rfl, rfl, rfl⟩
  · exact (plain_toReg e v).append ⟨rfl, rfl, rfl⟩
theorem plain_operand (e : Enc) (v : Rv) (o : Arith) (f : Bool) : Plain (operandLoad e v o f).1 := by
  cases o <;> simp only [operandLoad] <;> first | exact plain_toReg .. | exact Plain.nil | (split; exact plain_toReg ..; exact Plain.nil)
theorem plain_arith (e : Enc) (d a b : Rv) (o : Arith) : Plain (arithOp e d a b o).1 := by
  unfold arithOp; split
  · exact ⟨rfl, rfl, rfl⟩
  · refine ((plain_operand ..).append (plain_operand ..)).append ?_
    split <;> exact ⟨rfl, rfl, rfl⟩
theorem plain_restore (e : Enc) (i n : Nat) : Plain (restoreArgs e i n).1 := by
  induction n generalizing e i with
  | zero => exact Plain.nil
  | succ n ih => exact ((plain_loadLv ..).append (plain_moveTo ..)).append (ih ..)
theorem plain_moveSp (n : Int) : Plain (moveSp n) := by
  unfold moveSp; split <;> exact ⟨rfl, rfl, rfl⟩

/-! ## Pieces of text -/

/-- How often a label may be put between two numbers of labels, and two numbers of labels for cases. -/
def quota (lo hi clo chi : Nat) (l : Label) : Nat :=
  match l.kind with
  | .next | .else | .end | .beginCycle => if lo ≤ l.num ∧ l.num < hi then 1 else 0
  | .case => if clo ≤ l.num ∧ l.num < chi then 1 else 0
  | _ => 0

/-- The labels to jump to are put in the text, but for some. -/
def Aim (ex : Label → Prop) (c : List Instr) : Prop := ∀ l ∈ c.flatMap targets, l ∈ labs c ∨ ex l

/-- Only some functions are called. -/
def Calling (cl : List Nat) (c : List Instr) : Prop := ∀ l ∈ c.flatMap calls, ∃ f ∈ cl, l = ⟨.func, f⟩

/-- A piece of text printed between two states. -/
structure Piece (ex : Label → Prop) (cl : List Nat) (e : Enc) (c : List Instr) (e' : Enc) : Prop where
  lab : e.lab ≤ e'.lab
  cas : e.caseLab ≤ e'.caseLab
  brk : e'.brk = e.brk
  cont : e'.cont = e.cont
  fn : e'.fn = e.fn
  once : ∀ l, (labs c).count l ≤ quota e.lab e'.lab e.caseLab e'.caseLab l
  aim : Aim ex c
  call : Calling cl c

theorem Aim.append {ex : Label → Prop} {a b : List Instr} (h : Aim ex a) (k : Aim ex b) : Aim ex (a ++ b) := by
  intro l hl
  simp only [List.flatMap_append, List.mem_append] at hl
  simp only [labs, List.flatMap_append, List.mem_append]
  rcases hl with hl | hl
  · exact (h l hl).elim (fun h => .inl (.inl h)) .inr
  · exact (k l hl).elim (fun h => .inl (.inr h)) .inr

theorem Aim.mono {ex ex' : Label → Prop} {a : List Instr} (h : Aim ex a) (k : ∀ l, ex l → ex' l) : Aim ex' a := fun l hl => (h l hl).imp_right (k l)

/-- Labels that are put need not be excepted. -/
theorem Aim.close {ex ex' : Label → Prop} {a : List Instr} (h : Aim ex' a) (k : ∀ l, ex' l → l ∈ labs a ∨ ex l) : Aim ex a :=
  fun l hl => (h l hl).elim .inl (k l)

theorem Calling.append {cl : List Nat} {a b : List Instr} (h : Calling cl a) (k : Calling cl b) : Calling cl (a ++ b) := by
  intro l hl
  simp only [List.flatMap_append, List.mem_append] at hl
  exact hl.elim (h l) (k l)

theorem Calling.mono {cl cl' : List Nat} {a : List Instr} (h : Calling cl a) (k : ∀ f ∈ cl, f ∈ cl') : Calling cl' a := fun l hl =>
  let ⟨f, hf, he⟩ := h l hl
  ⟨f, k f hf, he⟩

theorem Plain.aim {c : List Instr} (h : Plain c) (ex : Label → Prop) : Aim ex c := by
  intro l hl; rw [h.2.1] at hl; cases hl

theorem Plain.call {c : List Instr} (h : Plain c) (cl : List Nat) : Calling cl c := by
  intro l hl; rw [h.2.2] at hl; cases hl

theorem quota_append {a b c x y z : Nat} (h1 : a ≤ b) (h2 : b ≤ c) (h3 : x ≤ y) (h4 : y ≤ z) (l : Label) : quota a b x y l + quota b c y z l ≤ quota a c x z l := by
  unfold quota
  split <;> (try split) <;> (try split) <;> (try split) <;> omega

theorem Piece.append {ex : Label → Prop} {cl : List Nat} {e e1 e2 : Enc} {a b : List Instr} (h : Piece ex cl e a e1) (k : Piece ex cl e1 b e2) : Piece ex cl e (a ++ b) e2 where
  lab := Nat.le_trans h.lab k.lab
  cas := Nat.le_trans h.cas k.cas
  brk := k.brk.trans h.brk
  cont := k.cont.trans h.cont
  fn := k.fn.trans h.fn
  once l := by
    have := h.once l
    have := k.once l
    have := quota_append h.lab k.lab h.cas k.cas l
    simp only [labs, List.flatMap_append, List.count_append] at *
    omega
  aim := h.aim.append k.aim
  call := h.call.append k.call

theorem Piece.mono {ex ex' : Label → Prop} {cl cl' : List Nat} {e e' : Enc} {a : List Instr} (h : Piece ex cl e a e') (k : ∀ l, ex l → ex' l) (m : ∀ f ∈ cl, f ∈ cl') :
    Piece ex' cl' e a e' := { h with aim := h.aim.mono k, call := h.call.mono m }

/-- Text without labels, between states that only differ in the registers in use. -/
theorem Piece.plain {ex : Label → Prop} {cl : List Nat} {e e' : Enc} {c : List Instr} (h : Same e e') (k : Plain c) : Piece ex cl e c e' := by
  obtain ⟨b, rfl⟩ := h
  exact ⟨Nat.le_refl _, Nat.le_refl _, rfl, rfl, rfl, fun l => by rw [k.1]; simp, k.aim ex, k.call cl⟩

theorem Piece.left {ex : Label → Prop} {cl : List Nat} {e e1 e' : Enc} {c : List Instr} (h : Same e e1) (k : Piece ex cl e1 c e') : Piece ex cl e c e' := by
  obtain ⟨b, rfl⟩ := h
  exact ⟨k.lab, k.cas, k.brk, k.cont, k.fn, k.once, k.aim, k.call⟩

theorem Piece.right {ex : Label → Prop} {cl : List Nat} {e e1 e' : Enc} {c : List Instr} (k : Piece ex cl e c e1) (h : Same e1 e') : Piece ex cl e c e' := by
  obtain ⟨b, rfl⟩ := h
  exact ⟨k.lab, k.cas, k.brk, k.cont, k.fn, k.once, k.aim, k.call⟩

theorem Same.lab {e e' : Enc} (h : Same e e') : e'.lab = e.lab := by obtain ⟨b, rfl⟩ := h; rfl
theorem Same.caseLab {e e' : Enc} (h : Same e e') : e'.caseLab = e.caseLab := by obtain ⟨b, rfl⟩ := h; rfl
theorem Same.brk {e e' : Enc} (h : Same e e') : e'.brk = e.brk := by obtain ⟨b, rfl⟩ := h; rfl
theorem Same.cont {e e' : Enc} (h : Same e e') : e'.cont = e.cont := by obtain ⟨b, rfl⟩ := h; rfl
theorem Same.fn {e e' : Enc} (h : Same e e') : e'.fn = e.fn := by obtain ⟨b, rfl⟩ := h; rfl

/-! ## Expressions -/

theorem labs_append (a b : List Instr) : labs (a ++ b) = labs a ++ labs b := List.flatMap_append ..
theorem labs_label (l : Label) : labs [.label l] = [l] := rfl

theorem branch_labs (c : Cmp) (v : Rv) (l : Label) : labs (condBranch c v l) = [] := by
  unfold condBranch; split
  · rfl
  · split <;> rfl
theorem branch_aim (c : Cmp) (v : Rv) (l : Label) : Aim (· = l) (condBranch c v l) := by
  unfold condBranch; split
  · intro x hx; right; simpa [targets] using hx
  · split
    · intro x hx; right; simpa [targets] using hx
    · intro x hx; cases hx
theorem branch_call (c : Cmp) (v : Rv) (l : Label) (cl : List Nat) : Calling cl (condBranch c v l) := by
  unfold condBranch; split
  · intro x hx; cases hx
  · split <;> (intro x hx; cases hx)

theorem piece_cmp {ex : Label → Prop} {cl : List Nat} (e : Enc) (d a b : Rv) (o : Cmp) : Piece ex cl e (cmpOp e d a b o).1 (cmpOp e d a b o).2 := by
  simp only [cmpOp]
  have hs := (same_toReg e a).trans (same_toReg (toReg e a).2.2 b)
  have hp := (plain_toReg e a).append (plain_toReg (toReg e a).2.2 b)
  generalize (toReg e a).2.2 = e1 at *
  generalize (toReg e a).1 ++ (toReg e1 b).1 = c at *
  generalize (toReg e1 b).2.2 = e2 at *
  obtain ⟨bz, rfl⟩ := hs
  refine ⟨Nat.le_succ _, Nat.le_refl _, rfl, rfl, rfl, ?_, ?_, ?_⟩
  · intro l
    simp only [labs_append, hp.1, branch_labs, List.nil_append]
    simp only [labs, List.flatMap_cons, List.flatMap_nil, puts, List.nil_append, List.append_nil, List.count_cons, List.count_nil, beq_iff_eq]
    cases l with | mk k n => by_cases h : a.isConst = false ∧ b.isConst = false <;> cases k <;> simp only [quota, h, Label.mk.injEq, reduceCtorEq, false_and, true_and, if_false, and_self, if_true] <;> grind
  · refine Aim.close (ex' := fun l => l = ⟨if a.isConst = false ∧ b.isConst = false then .end else .else, e.lab⟩) ?_ ?_
    · refine ((((hp.aim _).append ?_).append (branch_aim _ _ _))).append ?_
      · intro l hl; cases hl
      · intro l hl; cases hl
    · intro l hl
      left
      rw [hl]
      simp [labs_append, labs, puts]
  · refine (((hp.call _).append ?_).append (branch_call _ _ _ _)).append ?_
    · intro l hl; cases hl
    · intro l hl; cases hl

theorem calling_jal (f : Nat) : Calling [f] [.jal ⟨.func, f⟩] := by
  intro l hl
  simp [calls] at hl
  exact ⟨f, by simp, hl⟩

/-- No label is excepted. -/
abbrev noEx : Label → Prop := fun _ => False

mutual
theorem pieceE : ∀ (x : Exp) (e : Enc), Piece noEx (calledE x) e (emitE x e).1 (emitE x e).2.2
  | .int v, e => .plain (Same.refl _) Plain.nil
  | .bool v, e => .plain (Same.refl _) Plain.nil
  | .str v, e => .plain (Same.refl _) Plain.nil
  | .ident id ty, e => .plain (same_loadLv ..) (plain_loadLv ..)
  | .un op x, e => by
    have h := pieceE x e
    cases op <;> simp only [emitE, calledE]
    · exact h.append (.plain (same_arith ..) (plain_arith ..))
    · exact h.append (.plain (same_arith ..) (plain_arith ..))
    · exact h.append (.plain (Same.refl _) ⟨rfl, rfl, rfl⟩)
  | .not x, e => (pieceE x e).append (.plain (Same.refl _) ⟨rfl, rfl, rfl⟩)
  | .inc op id, e => by
    simp only [emitE]
    split
    · exact .plain (((same_loadLv ..).trans (same_arith ..)).trans (same_store ..)) (((plain_loadLv ..).append (plain_arith ..)).append (plain_store ..))
    · exact .plain (((((same_loadLv ..).trans (same_get _)).trans (same_arith ..)).trans (same_store ..)).trans (same_free ..))
        (((plain_loadLv ..).append (plain_arith ..)).append (plain_store ..))
  | .arith o a b, e => by
    simp only [emitE, calledE]
    have ha := (pieceE a e).mono (ex' := noEx) (cl' := calledE a ++ calledE b) (fun _ h => h) (fun f h => List.mem_append_left _ h)
    have hb := (pieceE b (emitE a e).2.2).mono (ex' := noEx) (cl' := calledE a ++ calledE b) (fun _ h => h) (fun f h => List.mem_append_right _ h)
    exact ((ha.append hb).append (.plain (same_arith ..) (plain_arith ..))).right (same_freeR ..)
  | .cmp o a b, e => by
    simp only [emitE, calledE]
    have ha := (pieceE a e).mono (ex' := noEx) (cl' := calledE a ++ calledE b) (fun _ h => h) (fun f h => List.mem_append_left _ h)
    have hb := (pieceE b (emitE a e).2.2).mono (ex' := noEx) (cl' := calledE a ++ calledE b) (fun _ h => h) (fun f h => List.mem_append_right _ h)
    exact ((ha.append hb).append (piece_cmp ..)).right (same_freeR ..)
  | .comma a b, e => by
    simp only [emitE, calledE]
    split
    · exact (pieceE b e).mono (fun _ h => h) (fun f h => List.mem_append_right _ h)
    · have ha := (pieceE a e).mono (ex' := noEx) (cl' := calledE a ++ calledE b) (fun _ h => h) (fun f h => List.mem_append_left _ h)
      have hb := (pieceE b (freeRvalue (emitE a e).2.2 (emitE a e).2.1)).mono (ex' := noEx) (cl' := calledE a ++ calledE b) (fun _ h => h) (fun f h => List.mem_append_right _ h)
      exact (ha.right (same_freeR ..)).append hb
  | .logic isOr a b, e => by
    simp only [emitE, calledE]
    have ha := (pieceE a e).mono (ex' := noEx) (cl' := calledE a ++ calledE b) (fun _ h => h) (fun f h => List.mem_append_left _ h)
    generalize emitE a e = x at *
    have hs := same_freeR { x.2.2 with lab := x.2.2.lab + 1 } x.2.1
    have hb := ((pieceE b (freeRvalue { x.2.2 with lab := x.2.2.lab + 1 } x.2.1)).mono (ex' := noEx) (cl' := calledE a ++ calledE b) (fun _ h => h) (fun f h => List.mem_append_right _ h)).left hs
    generalize emitE b (freeRvalue { x.2.2 with lab := x.2.2.lab + 1 } x.2.1) = y at *
    have hl := hb.lab
    simp only at hl
    refine ⟨by have := ha.lab; omega, Nat.le_trans ha.cas hb.cas, hb.brk.trans ha.brk, hb.cont.trans ha.cont, hb.fn.trans ha.fn, ?_, ?_, ?_⟩
    · intro l
      have h1 := ha.once l
      have h2 := hb.once l
      have h3 := ha.lab
      have h4 := ha.cas
      have h5 := hb.cas
      simp only [labs_append, branch_labs, labs_label, List.count_append, List.count_nil, List.count_cons, beq_iff_eq] at *
      cases l with | mk k n => cases k <;> simp only [quota, Label.mk.injEq] at * <;> grind
    · refine Aim.close (ex' := fun l => l = ⟨.end, x.2.2.lab⟩) ?_ ?_
      · refine (((ha.aim.mono (fun _ h => h.elim)).append (branch_aim _ _ _)).append (hb.aim.mono (fun _ h => h.elim))).append ?_
        intro l hl; cases hl
      · intro l hl
        left; rw [hl]; simp [labs_append, puts]
    · refine ((ha.call.append (branch_call _ _ _ _)).append hb.call).append ?_
      intro l hl; cases hl
  | .ternary c a b, e => by
    simp only [emitE, calledE]
    have hc := (pieceE c e).mono (ex' := noEx) (cl' := calledE c ++ calledE a ++ calledE b) (fun _ h => h) (fun f h => List.mem_append_left _ (List.mem_append_left _ h))
    generalize emitE c e = x at *
    have hs := (same_freeR { x.2.2 with lab := x.2.2.lab + 1 } x.2.1).trans (same_get _)
    generalize getRegister (freeRvalue { x.2.2 with lab := x.2.2.lab + 1 } x.2.1) = p at *
    have ha := ((pieceE a p.2).mono (ex' := noEx) (cl' := calledE c ++ calledE a ++ calledE b) (fun _ h => h) (fun f h => List.mem_append_left _ (List.mem_append_right _ h))).left hs
    generalize emitE a p.2 = y at *
    have hb := (((pieceE b (freeRvalue y.2.2 y.2.1)).mono (ex' := noEx) (cl' := calledE c ++ calledE a ++ calledE b) (fun _ h => h) (fun f h => List.mem_append_right _ h)).left
      (same_freeR ..))
    generalize emitE b (freeRvalue y.2.2 y.2.1) = z at *
    have hz := same_freeR z.2.2 z.2.1
    generalize freeRvalue z.2.2 z.2.1 = e' at *
    obtain ⟨bz, rfl⟩ := hz
    have hl := ha.lab
    have hl' := hb.lab
    simp only at hl
    refine ⟨by have := hc.lab; simp only; omega, Nat.le_trans hc.cas (Nat.le_trans ha.cas hb.cas), hb.brk.trans (ha.brk.trans hc.brk), hb.cont.trans (ha.cont.trans hc.cont), hb.fn.trans (ha.fn.trans hc.fn), ?_, ?_, ?_⟩
    · intro l
      have h1 := hc.once l
      have h2 := ha.once l
      have h3 := hb.once l
      have h4 := hc.lab
      have h5 := hc.cas
      have h6 := ha.cas
      have h7 := hb.cas
      have e1 : labs [.j ⟨.end, x.2.2.lab⟩, .label ⟨.else, x.2.2.lab⟩] = [⟨.else, x.2.2.lab⟩] := rfl
      simp only [labs_append, branch_labs, labs_label, (plain_moveTo _ _).1, e1, List.count_append, List.count_nil, List.count_cons, beq_iff_eq] at *
      cases l with | mk k n => cases k <;> simp only [quota, Label.mk.injEq, reduceCtorEq, false_and, true_and, if_false] at * <;> grind
    · refine Aim.close (ex' := fun l => l = ⟨.else, x.2.2.lab⟩ ∨ l = ⟨.end, x.2.2.lab⟩) ?_ ?_
      · refine (((((((hc.aim.mono (fun _ h => h.elim)).append ((branch_aim _ _ _).mono (fun _ h => .inl h))).append (ha.aim.mono (fun _ h => h.elim))).append ((plain_moveTo ..).aim _)).append ?_).append
          (hb.aim.mono (fun _ h => h.elim))).append ((plain_moveTo ..).aim _)).append ?_
        · intro l hl; right; right; simpa [targets] using hl
        · intro l hl; cases hl
      · intro l hl
        left
        rcases hl with rfl | rfl <;> simp [labs_append, puts]
    · refine (((((((hc.call).append (branch_call _ _ _ _)).append ha.call).append ((plain_moveTo ..).call _)).append ?_).append hb.call).append ((plain_moveTo ..).call _)).append ?_
      · intro l hl; cases hl
      · intro l hl; cases hl
  | .assign none id ty x, e => by
    simp only [emitE, calledE]
    exact (pieceE x e).append (.plain (same_store ..) (plain_store ..))
  | .assign (some o) id ty x, e => by
    simp only [emitE, calledE]
    split
    · exact (pieceE x e).append (.plain (same_loadLv ..) (plain_loadLv ..))
    · exact (((pieceE x e).append (.plain (same_loadLv ..) (plain_loadLv ..))).append (.plain (same_arith ..) (plain_arith ..))).append
        (.plain ((same_freeR ..).trans (same_store ..)) (plain_store ..))
  | .call f ty args, e => by
    by_cases hf : f < 170
    · simp only [emitE, if_pos hf]
      exact .plain (Same.refl _) Plain.nil
    · simp only [emitE, calledE, if_neg hf]
      rw [if_pos (by omega)]
      have ha := (pieceA args 0 e).mono (ex' := noEx) (cl' := [f] ++ calledA args) (fun _ h => h) (fun f h => List.mem_append_right _ h)
      generalize emitA 0 args e = a at *
      have hj : Piece noEx ([f] ++ calledA args) a.2 [.jal ⟨.func, f⟩] a.2 :=
        ⟨Nat.le_refl _, Nat.le_refl _, rfl, rfl, rfl, fun l => by simp [labs, puts], fun l hl => (by cases hl), (calling_jal f).mono (fun g h => List.mem_append_left _ h)⟩
      exact (((Piece.plain (Same.refl _) (plain_moveSp _)).append ha).append hj |>.append (.plain (same_restore ..) (plain_restore ..))).append (.plain (Same.refl _) (plain_moveSp _))

theorem pieceA : ∀ (args : Args) (i : Nat) (e : Enc), Piece noEx (calledA args) e (emitA i args e).1 (emitA i args e).2
  | .nil, i, e => .plain (Same.refl _) Plain.nil
  | .cons x rest, i, e => by
    simp only [emitA, calledA]
    have hx := (pieceE x e).mono (ex' := noEx) (cl' := calledE x ++ calledA rest) (fun _ h => h) (fun f h => List.mem_append_left _ h)
    generalize emitE x e = r at *
    have hr := fun e' => (pieceA rest (i + 1) e').mono (ex' := noEx) (cl' := calledE x ++ calledA rest) (fun _ h => h) (fun f h => List.mem_append_right _ h)
    have hm : Plain (if i < 4 then moveTo (R_A0 + i) (toReg r.2.2 r.2.1).2.1 else []) := by
      split
      · exact plain_moveTo ..
      · exact Plain.nil
    exact ((((hx.append (.plain (same_toReg ..) (plain_toReg ..))).append (.plain (same_store ..) (plain_store ..))).append (.plain (Same.refl _) hm)).right (same_freeR ..)).append (hr _)
end

end RuC.Mips
