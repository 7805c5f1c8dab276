import Verif.MipsText.Words
import Verif.Mips.Temps

/-! Helper lemmas: the lines of programs are fit. -/

namespace RuC.MipsText
open RuC.Mips
open Llvm (Ty Arith Cmp Un Inc Exp Args Stmt Stmts Func)

/-- All instructions are fit. -/
def Fits (c : List Instr) : Prop := ∀ i ∈ c, Fit i

theorem Fits.nil : Fits [] := fun _ h => (by cases h)
theorem Fits.append {a b : List Instr} (ha : Fits a) (hb : Fits b) : Fits (a ++ b) := fun i hi => (List.mem_append.1 hi).elim (ha i) (hb i)
theorem Fits.one {i : Instr} (h : Fit i) : Fits [i] := fun j hj => by rw [List.mem_singleton.1 hj]; exact h
theorem Fits.two {i j : Instr} (h : Fit i) (k : Fit j) : Fits [i, j] := (Fits.one h).append (Fits.one k)

theorem Fits.label (l : Label) : Fits [.label l] := Fits.one trivial
theorem Fits.j (l : Label) : Fits [.j l] := Fits.one trivial
theorem Fits.jal (l : Label) : Fits [.jal l] := Fits.one trivial
theorem Fits.jl (l k : Label) : Fits [.j l, .label k] := Fits.two trivial trivial

/-- A value that can be printed. -/
def Good : Rv → Prop
  | .const _ => True
  | .reg r _ => r < 32
  | .void => False

theorem good_const (v : Int) : Good (.const v) := trivial

/-- A value in a register. -/
def InReg (v : Rv) : Prop := ∃ r b, v = .reg r b ∧ r < 32

theorem InReg.good {v : Rv} (h : InReg v) : Good v := by obtain ⟨r, b, rfl, h⟩ := h; exact h
theorem Good.inReg {v : Rv} (h : Good v) (hc : v.isConst = false) : InReg v := by
  cases v with
  | const v => cases hc
  | reg r b => exact ⟨r, b, rfl, h⟩
  | void => cases hc

theorem get_lt (e : Enc) : (getRegister e).1 < 32 := by
  have := (search_spec e.busy 10 0).2.1
  simp only [getRegister, R_T0]
  omega

theorem fit_toReg (e : Enc) {v : Rv} (h : Good v) : Fits (toReg e v).1 ∧ InReg (toReg e v).2.1 := by
  unfold toReg loadImm
  cases v with
  | const v => exact ⟨Fits.one (get_lt e), _, _, rfl, get_lt e⟩
  | reg r b => exact ⟨Fits.nil, r, b, rfl, h⟩
  | void => exact h.elim

/-- A place whose registers are those of integers. -/
def LvFit : Lv → Prop
  | .reg r => r < 32
  | .stack _ b => b < 32

theorem _root_.RuC.Mips.Lv.placed.fit {l : Lv} (h : l.placed) : LvFit l := by
  cases l with
  | reg r => have h : R_A0 ≤ r ∧ r < R_A0 + 4 := h; simp only [LvFit, R_A0] at *; omega
  | stack d b => rcases h with rfl | rfl <;> (simp only [LvFit]; decide)

theorem fit_loadLv (e : Enc) {l : Lv} (h : LvFit l) : Fits (loadLv e l).1 ∧ InReg (loadLv e l).2.1 := by
  cases l with
  | reg r => exact ⟨Fits.nil, r, true, rfl, h⟩
  | stack d b => exact ⟨Fits.one ⟨by have := get_lt e; omega, h⟩, _, _, rfl, get_lt e⟩

theorem fit_moveTo {r : Nat} (hr : r < 32) {v : Rv} (h : Good v) : Fits (moveTo r v) := by
  cases v with
  | const v => exact Fits.one hr
  | reg q b =>
    simp only [moveTo]
    split
    · exact Fits.nil
    · exact Fits.one ⟨hr, h⟩
  | void => exact h.elim

theorem fit_store (e : Enc) {l : Lv} (hl : LvFit l) {v : Rv} (h : Good v) : Fits (store e l v).1 := by
  obtain ⟨h1, r, b, h2, h3⟩ := fit_toReg e h
  unfold store
  cases l with
  | reg q =>
    simp only [h2]
    refine h1.append ?_
    split
    · exact Fits.one ⟨hl, h3⟩
    · exact Fits.nil
  | stack d q =>
    simp only [h2]
    exact h1.append (Fits.one ⟨by omega, hl⟩)

theorem fit_branch (c : Cmp) {v : Rv} (h : Good v) (l : Label) : Fits (condBranch c v l) := by
  cases v with
  | const v => simp only [condBranch]; split; exact Fits.one trivial; exact Fits.nil
  | reg r b => exact Fits.one h
  | void => exact h.elim

theorem fit_arith (e : Enc) {d a b : Rv} (o : Arith) (hd : InReg d) (ha : InReg a) (hb : Good b) : Fits (arithOp e d a b o).1 := by
  obtain ⟨dr, db, rfl, hd⟩ := hd
  obtain ⟨ar, ab, rfl, ha⟩ := ha
  unfold arithOp
  cases b with
  | reg r q => exact Fits.one (i := .op false o (.reg dr) (.reg ar) (.reg r)) ⟨hd, ha, hb⟩
  | void => exact hb.elim
  | const v =>
    have hg := get_lt e
    cases o
    case sub | mul | div | rem => exact Fits.two (i := .li (.reg (getRegister e).1) (.imm v)) (j := .op false _ (.reg dr) (.reg ar) (.reg (getRegister e).1)) hg ⟨hd, ha, hg⟩
    all_goals exact Fits.one (i := .op true _ (.reg dr) (.reg ar) (.imm v)) ⟨hd, ha, rfl⟩

theorem fit_cmp (e : Enc) {d a b : Rv} (o : Cmp) (hd : InReg d) (ha : Good a) (hb : Good b) : Fits (cmpOp e d a b o).1 := by
  obtain ⟨h1, x, xb, h2, h3⟩ := fit_toReg e ha
  obtain ⟨k1, y, yb, k2, k3⟩ := fit_toReg (toReg e a).2.2 hb
  have hbr := fun l => fit_branch o hd.good l
  obtain ⟨dr, db, rfl, hd⟩ := hd
  unfold cmpOp
  simp only [h2, k2]
  exact (((h1.append k1).append (Fits.one (i := .op false .sub (.reg dr) (.reg x) (.reg y)) ⟨hd, h3, k3⟩)).append (hbr _)).append
    (Fits.two (i := .li (.reg dr) (.imm 1)) hd trivial)

theorem fit_restore : ∀ (n i : Nat) (e : Enc), i + n ≤ 4 → Fits (restoreArgs e i n).1
  | 0, _, _, _ => Fits.nil
  | n + 1, i, e, h => by
    obtain ⟨h1, h2⟩ := fit_loadLv e (l := .stack (4 * i) R_SP) (show R_SP < 32 by decide)
    simp only [restoreArgs]
    exact (h1.append (fit_moveTo (by simp only [R_A0]; omega) h2.good)).append (fit_restore n (i + 1) _ (by omega))

theorem fit_moveSp (n : Int) : Fits (moveSp n) := by
  unfold moveSp
  split
  · exact Fits.nil
  · exact Fits.one ⟨by decide, by decide, rfl⟩

/-- The places of all variables. -/
def Lvs (e : Enc) : Prop := ∀ id, LvFit (e.table id)

theorem Lvs.fix {e e' : Enc} (h : Lvs e) (k : Fix e e') : Lvs e' := fun id => k.table ▸ h id
theorem Lvs.of {e e' : Enc} (h : Lvs e) (k : e'.table = e.table) : Lvs e' := fun id => k ▸ h id

theorem table_freeR (e : Enc) (v : Rv) : (freeRvalue e v).table = e.table := (same_freeR e v).fix.table
theorem table_get (e : Enc) : (getRegister e).2.table = e.table := rfl

mutual
theorem fitE : ∀ (x : Exp) (e : Enc), Lvs e → plainE x = true → Fits (emitE x e).1 ∧ Good (emitE x e).2.1
  | .int v, e, _, _ => ⟨Fits.nil, trivial⟩
  | .bool v, e, _, _ => ⟨Fits.nil, trivial⟩
  | .str v, e, _, h => by cases h
  | .ident id ty, e, hT, _ => ⟨(fit_loadLv e (hT id)).1, (fit_loadLv e (hT id)).2.good⟩
  | .un op x, e, hT, h => by
    simp only [plainE, Bool.and_eq_true, Bool.not_eq_true'] at h
    obtain ⟨h1, h2⟩ := fitE x e hT h.1
    have h3 := h2.inReg ((isConst_eq x e).trans h.2)
    cases op <;> simp only [emitE]
    · exact ⟨h1.append (fit_arith _ _ h3 h3 (good_const _)), h2⟩
    · exact ⟨h1.append (fit_arith _ _ h3 h3 (good_const _)), h2⟩
    · refine ⟨h1.append (Fits.one ?_), h2⟩
      obtain ⟨r, b, e, hr⟩ := h3
      rw [e]; exact ⟨hr, hr⟩
  | .not x, e, hT, h => by
    simp only [plainE, Bool.and_eq_true, Bool.not_eq_true'] at h
    obtain ⟨h1, h2⟩ := fitE x e hT h.1
    obtain ⟨r, b, e1, hr⟩ := h2.inReg ((isConst_eq x e).trans h.2)
    simp only [emitE]
    refine ⟨h1.append (Fits.one ?_), h2⟩
    rw [e1]; exact ⟨hr, hr⟩
  | .inc op id, e, hT, _ => by
    obtain ⟨h1, h2⟩ := fit_loadLv e (hT id)
    simp only [emitE]
    split
    · exact ⟨(h1.append (fit_arith _ _ h2 h2 (good_const _))).append (fit_store _ (hT id) h2.good), h2.good⟩
    · have h3 : InReg (.reg (getRegister (loadLv e (e.table id)).2.2).1 false) := ⟨_, _, rfl, get_lt _⟩
      exact ⟨(h1.append (fit_arith _ _ h3 h2 (good_const _))).append (fit_store _ (hT id) h3.good), h2.good⟩
  | .arith o a b, e, hT, h => by
    simp only [plainE, Bool.and_eq_true, Bool.not_eq_true'] at h
    obtain ⟨h1, h2⟩ := fitE a e hT h.1.1
    obtain ⟨k1, k2⟩ := fitE b (emitE a e).2.2 (hT.fix (fixE a e)) h.1.2
    have h3 := h2.inReg ((isConst_eq a e).trans h.2)
    simp only [emitE]
    exact ⟨(h1.append k1).append (fit_arith _ _ h3 h3 k2), h2⟩
  | .cmp o a b, e, hT, h => by
    simp only [plainE, Bool.and_eq_true, Bool.not_eq_true'] at h
    obtain ⟨h1, h2⟩ := fitE a e hT h.1.1
    obtain ⟨k1, k2⟩ := fitE b (emitE a e).2.2 (hT.fix (fixE a e)) h.1.2
    have h3 := h2.inReg ((isConst_eq a e).trans h.2)
    simp only [emitE]
    exact ⟨(h1.append k1).append (fit_cmp _ _ h3 h2 k2), h2⟩
  | .comma a b, e, hT, h => by
    simp only [plainE, Bool.and_eq_true] at h
    obtain ⟨h1, h2⟩ := fitE a e hT h.1
    simp only [emitE]
    have hT2 : Lvs (if isLvalue a then e else freeRvalue (emitE a e).2.2 (emitE a e).2.1) := by
      split
      · exact hT
      · exact (hT.fix (fixE a e)).of (table_freeR ..)
    obtain ⟨k1, k2⟩ := fitE b _ hT2 h.2
    refine ⟨Fits.append ?_ k1, k2⟩
    split
    · exact Fits.nil
    · exact h1
  | .logic isOr a b, e, hT, h => by
    simp only [plainE, Bool.and_eq_true] at h
    obtain ⟨h1, h2⟩ := fitE a e hT h.1
    simp only [emitE]
    have hT2 : Lvs (freeRvalue { (emitE a e).2.2 with lab := (emitE a e).2.2.lab + 1 } (emitE a e).2.1) := (hT.fix (fixE a e)).of (table_freeR ..)
    obtain ⟨k1, k2⟩ := fitE b _ hT2 h.2
    exact ⟨((h1.append (fit_branch _ h2 _)).append k1).append (Fits.label _), k2⟩
  | .ternary c a b, e, hT, h => by
    simp only [plainE, Bool.and_eq_true] at h
    obtain ⟨h1, h2⟩ := fitE c e hT h.1.1
    simp only [emitE]
    have hT2 : Lvs (getRegister (freeRvalue { (emitE c e).2.2 with lab := (emitE c e).2.2.lab + 1 } (emitE c e).2.1)).2 :=
      ((hT.fix (fixE c e)).of (table_freeR { (emitE c e).2.2 with lab := (emitE c e).2.2.lab + 1 } (emitE c e).2.1)).of (table_get _)
    have hp := get_lt (freeRvalue { (emitE c e).2.2 with lab := (emitE c e).2.2.lab + 1 } (emitE c e).2.1)
    generalize getRegister (freeRvalue { (emitE c e).2.2 with lab := (emitE c e).2.2.lab + 1 } (emitE c e).2.1) = p at *
    obtain ⟨k1, k2⟩ := fitE a p.2 hT2 h.1.2
    have hT3 : Lvs (freeRvalue (emitE a p.2).2.2 (emitE a p.2).2.1) := (hT2.fix (fixE a p.2)).of (table_freeR ..)
    obtain ⟨l1, l2⟩ := fitE b _ hT3 h.2
    exact ⟨((((((h1.append (fit_branch _ h2 _)).append k1).append (fit_moveTo hp k2)).append (Fits.jl _ _)).append l1).append (fit_moveTo hp l2)).append
      (Fits.label _), hp⟩
  | .assign none id ty x, e, hT, h => by
    obtain ⟨h1, h2⟩ := fitE x e hT h
    simp only [emitE]
    exact ⟨h1.append (fit_store _ (hT id) h2), h2⟩
  | .assign (some o) id ty x, e, hT, h => by
    simp only [plainE, Bool.and_eq_true, decide_eq_true_eq] at h
    obtain ⟨h1, h2⟩ := fitE x e hT h.1
    obtain ⟨k1, k2⟩ := fit_loadLv (emitE x e).2.2 (hT id)
    simp only [emitE, h.2, if_false]
    exact ⟨((h1.append k1).append (fit_arith _ _ k2 k2 h2)).append (fit_store _ (hT id) k2.good), k2.good⟩
  | .call f ty args, e, hT, h => by
    simp only [plainE, Bool.and_eq_true, decide_eq_true_eq] at h
    have h1 := fitA args 0 e hT h.2
    simp only [emitE, show ¬ f < 170 by omega, if_false]
    exact ⟨((((fit_moveSp _).append h1).append (Fits.jal _)).append (fit_restore _ _ _ (by omega))).append (fit_moveSp _), by show R_V0 < 32; decide⟩

theorem fitA : ∀ (args : Args) (i : Nat) (e : Enc), Lvs e → plainA args = true → Fits (emitA i args e).1
  | .nil, i, e, _, _ => Fits.nil
  | .cons x rest, i, e, hT, h => by
    simp only [plainA, Bool.and_eq_true] at h
    obtain ⟨h1, h2⟩ := fitE x e hT h.1
    obtain ⟨k1, k2⟩ := fit_toReg (emitE x e).2.2 h2
    have hT2 := (hT.fix (fixE x e)).fix (same_toReg (emitE x e).2.2 (emitE x e).2.1).fix
    simp only [emitA]
    generalize toReg (emitE x e).2.2 (emitE x e).2.1 = w at *
    have hg : Good (if i < 4 then .reg (R_A0 + i) false else w.2.1) := by
      split
      · simp only [Good, R_A0]; omega
      · exact k2.good
    have hs := fit_store w.2.2 (l := .stack (4 * i) R_SP) (show R_SP < 32 by decide) hg
    have hT3 := (hT2.fix (same_store w.2.2 (.stack (4 * i) R_SP) (if i < 4 then .reg (R_A0 + i) false else w.2.1)).fix).fix (same_freeR _ w.2.1).fix
    refine (((h1.append k1).append hs).append ?_).append (fitA rest (i + 1) _ hT3 h.2)
    split
    · exact fit_moveTo (by simp only [R_A0]; omega) k2.good
    · exact Fits.nil
end

/-! ## Declarations and statements -/

theorem lvs_add (isLocal : Nat → Bool) {e : Enc} (h : Lvs e) (id : Nat) : Lvs (addVar isLocal e id) := by
  intro j
  unfold addVar
  split
  · simp only
    split
    · show R_FP < 32; decide
    · exact h j
  · simp only
    split
    · show R_GP < 32; decide
    · exact h j

theorem fitV (isLocal : Nat → Bool) (d : Nat × Ty × Option Exp) (e : Enc) (hT : Lvs e) (h : plainO d.2.2 = true) : Fits (emitV isLocal d e).1 ∧ Lvs (emitV isLocal d e).2 := by
  have hT1 := lvs_add isLocal hT d.1
  obtain ⟨id, ty, x⟩ := d
  unfold emitV
  cases x with
  | none => exact ⟨Fits.nil, hT1⟩
  | some x =>
    obtain ⟨h1, h2⟩ := fitE x (addVar isLocal e id) hT1 h
    simp only
    exact ⟨h1.append (fit_store _ (hT1 id) h2), ((hT1.fix (fixE x _)).fix (same_store _ _ _).fix).fix (same_freeR _ _).fix⟩

theorem fitD (isLocal : Nat → Bool) : ∀ (l : List (Nat × Ty × Option Exp)) (e : Enc), Lvs e → (l.all fun d => plainO d.2.2) = true → Fits (emitD isLocal l e).1 ∧ Lvs (emitD isLocal l e).2
  | [], e, hT, _ => ⟨Fits.nil, hT⟩
  | d :: l, e, hT, h => by
    simp only [List.all_cons, Bool.and_eq_true] at h
    obtain ⟨h1, h2⟩ := fitV isLocal d e hT h.1
    obtain ⟨k1, k2⟩ := fitD isLocal l _ h2 h.2
    exact ⟨h1.append k1, k2⟩

theorem fitVoid (x : Exp) (e : Enc) (hT : Lvs e) (h : plainE x = true) : Fits (emitVoid x e).1 ∧ Lvs (emitVoid x e).2 := by
  unfold emitVoid
  split
  · exact ⟨Fits.nil, hT⟩
  · exact ⟨(fitE x e hT h).1, (hT.fix (fixE x e)).fix (same_freeR _ _).fix⟩

theorem fitCond (l : Label) (c : Option Exp) (e : Enc) (hT : Lvs e) (h : plainO c = true) : Fits (condOf l c e).1 ∧ Lvs (condOf l c e).2 := by
  cases c with
  | none => exact ⟨Fits.nil, hT⟩
  | some c =>
    obtain ⟨h1, h2⟩ := fitE c e hT h
    exact ⟨h1.append (fit_branch _ h2 _), (hT.fix (fixE c e)).fix (same_freeR _ _).fix⟩

theorem fitStep (c : Option Exp) (e : Enc) (hT : Lvs e) (h : plainO c = true) : Fits (stepOf c e).1 ∧ Lvs (stepOf c e).2 := by
  cases c with
  | none => exact ⟨Fits.nil, hT⟩
  | some c => exact fitVoid c e hT h

theorem good_literal {v : Exp} (h : isLiteral v = true) : Good (literal v) := by
  cases v <;> first | trivial | cases h

theorem fitDispatch {cond : Rv} (hc : Good cond) : ∀ (b : Stmts) (e : Enc), Lvs e → plainB b = true → Fits (dispatch cond b e).1 ∧ Lvs (dispatch cond b e).2.2
  | .nil, e, hT, _ => ⟨Fits.nil, hT⟩
  | .cons s rest, e, hT, h => by
    simp only [plainB, Bool.and_eq_true] at h
    cases s with
    | case_ v s =>
      have hv : isLiteral v = true := by have := h.1; simp only [plainS, Bool.and_eq_true] at this; exact this.1
      simp only [dispatch]
      have hg := get_lt { e with caseLab := e.caseLab + 1 }
      have hT1 : Lvs (getRegister { e with caseLab := e.caseLab + 1 }).2 := hT.of rfl
      generalize getRegister { e with caseLab := e.caseLab + 1 } = g at *
      have hr : InReg (.reg g.1 false) := ⟨_, _, rfl, hg⟩
      have h1 := fit_cmp g.2 .eq hr hc (good_literal hv)
      have hT2 : Lvs (freeRegister (cmpOp g.2 (.reg g.1 false) cond (literal v) .eq).2 g.1) :=
        (hT1.fix (fix_cmp g.2 (.reg g.1 false) cond (literal v) .eq)).fix (same_freeR _ (.reg g.1 false)).fix
      obtain ⟨k1, k2⟩ := fitDispatch hc rest _ hT2 h.2
      exact ⟨(h1.append (fit_branch _ hr.good _)).append k1, k2⟩
    | default_ s =>
      simp only [dispatch]
      exact fitDispatch hc rest { e with caseLab := e.caseLab + 1 } hT h.2
    | _ => exact fitDispatch hc rest e hT h.2

mutual
theorem fitS (isLocal : Nat → Bool) : ∀ (s : Stmt) (e : Enc), Lvs e → plainS s = true → Fits (emitS isLocal s e).1 ∧ Lvs (emitS isLocal s e).2
  | .skip, e, hT, _ => ⟨Fits.nil, hT⟩
  | .expr x, e, hT, h => fitVoid x e hT h
  | .decls l, e, hT, h => fitD isLocal l e hT h
  | .if_ c a, e, hT, h => by
    simp only [plainS, Bool.and_eq_true] at h
    obtain ⟨h1, h2⟩ := fitE c e hT h.1
    simp only [emitS]
    have hT2 : Lvs (freeRvalue { (emitE c e).2.2 with lab := (emitE c e).2.2.lab + 1 } (emitE c e).2.1) := (hT.fix (fixE c e)).of (table_freeR ..)
    obtain ⟨k1, k2⟩ := fitS isLocal a _ hT2 h.2
    exact ⟨((h1.append (fit_branch _ h2 _)).append k1).append (Fits.label _), k2⟩
  | .ifElse c a b, e, hT, h => by
    simp only [plainS, Bool.and_eq_true] at h
    obtain ⟨h1, h2⟩ := fitE c e hT h.1.1
    simp only [emitS]
    have hT2 : Lvs (freeRvalue { (emitE c e).2.2 with lab := (emitE c e).2.2.lab + 1 } (emitE c e).2.1) := (hT.fix (fixE c e)).of (table_freeR ..)
    obtain ⟨k1, k2⟩ := fitS isLocal a _ hT2 h.1.2
    obtain ⟨l1, l2⟩ := fitS isLocal b _ k2 h.2
    exact ⟨((((h1.append (fit_branch _ h2 _)).append k1).append (Fits.jl _ _)).append l1).append (Fits.label _), l2⟩
  | .while_ c b, e, hT, h => by
    simp only [plainS, Bool.and_eq_true] at h
    simp only [emitS]
    have hT1 : Lvs { e with lab := e.lab + 1, cont := ⟨.beginCycle, e.lab⟩, brk := ⟨.end, e.lab⟩ } := hT
    generalize ({ e with lab := e.lab + 1, cont := ⟨.beginCycle, e.lab⟩, brk := ⟨.end, e.lab⟩ } : Enc) = g at *
    obtain ⟨h1, h2⟩ := fitE c g hT1 h.1
    obtain ⟨k1, k2⟩ := fitS isLocal b _ ((hT1.fix (fixE c g)).fix (same_freeR _ (emitE c g).2.1).fix) h.2
    exact ⟨((((Fits.label _).append h1).append (fit_branch _ h2 _)).append k1).append (Fits.jl _ _), k2⟩
  | .do_ b c, e, hT, h => by
    simp only [plainS, Bool.and_eq_true] at h
    simp only [emitS]
    have hT1 : Lvs { e with lab := e.lab + 1, cont := ⟨.next, e.lab⟩, brk := ⟨.end, e.lab⟩ } := hT
    generalize ({ e with lab := e.lab + 1, cont := ⟨.next, e.lab⟩, brk := ⟨.end, e.lab⟩ } : Enc) = g at *
    obtain ⟨k1, k2⟩ := fitS isLocal b g hT1 h.2
    obtain ⟨h1, h2⟩ := fitE c _ k2 h.1
    exact ⟨(((((Fits.label _).append k1).append (Fits.label _)).append h1).append (fit_branch _ h2 _)).append (Fits.label _),
      (k2.fix (fixE c (emitS isLocal b g).2)).of (table_freeR (emitE c (emitS isLocal b g).2).2.2 (emitE c (emitS isLocal b g).2).2.1)⟩
  | .for_ i c inc b, e, hT, h => by
    simp only [plainS, Bool.and_eq_true] at h
    obtain ⟨p1, p2⟩ := fitS isLocal i e hT h.1.1.1
    simp only [emitS]
    generalize emitS isLocal i e = p at *
    have hT1 : Lvs { p.2 with lab := p.2.lab + 1, cont := ⟨.beginCycle, p.2.lab⟩, brk := ⟨.end, p.2.lab⟩ } := p2
    generalize ({ p.2 with lab := p.2.lab + 1, cont := ⟨.beginCycle, p.2.lab⟩, brk := ⟨.end, p.2.lab⟩ } : Enc) = g at *
    obtain ⟨x1, x2⟩ := fitCond ⟨.end, p.2.lab⟩ c g hT1 h.1.1.2
    obtain ⟨y1, y2⟩ := fitS isLocal b _ x2 h.2
    obtain ⟨z1, z2⟩ := fitStep inc _ y2 h.1.2
    exact ⟨((((p1.append (Fits.label _)).append x1).append y1).append z1).append (Fits.jl _ _), z2⟩
  | .block b, e, hT, h => by
    obtain ⟨h1, h2⟩ := fitB isLocal b e hT h
    exact ⟨h1, h2⟩
  | .switch_ c b, e, hT, h => by
    simp only [plainS, Bool.and_eq_true] at h
    simp only [emitS]
    have hT1 : Lvs { e with lab := e.lab + 1, brk := ⟨.end, e.lab⟩ } := hT
    generalize ({ e with lab := e.lab + 1, brk := ⟨.end, e.lab⟩ } : Enc) = g at *
    obtain ⟨h1, h2⟩ := fitE c g hT1 h.1
    obtain ⟨k1, k2⟩ := fit_toReg (emitE c g).2.2 h2
    have hT2 := (hT1.fix (fixE c g)).fix (same_toReg (emitE c g).2.2 (emitE c g).2.1).fix
    generalize toReg (emitE c g).2.2 (emitE c g).2.1 = v at *
    obtain ⟨d1, d2⟩ := fitDispatch k2.good b v.2.2 hT2 h.2
    obtain ⟨y1, y2⟩ := fitW isLocal b e.caseLab _ (d2.fix (same_freeR _ v.2.1).fix) h.2
    exact ⟨((((h1.append k1).append d1).append (Fits.j _)).append y1).append (Fits.label _), y2⟩
  | .case_ _ _, e, hT, _ => ⟨Fits.nil, hT⟩
  | .default_ _, e, hT, _ => ⟨Fits.nil, hT⟩
  | .break_, e, hT, _ => ⟨Fits.j _, hT⟩
  | .continue_, e, hT, _ => ⟨Fits.j _, hT⟩
  | .return_ none, e, hT, _ => ⟨Fits.j _, hT⟩
  | .return_ (some x), e, hT, h => by
    obtain ⟨h1, h2⟩ := fitE x e hT h
    simp only [emitS]
    exact ⟨(h1.append (fit_store _ (l := .reg R_V0) (show R_V0 < 32 by decide) h2)).append (Fits.j _),
      ((hT.fix (fixE x e)).fix (same_store _ _ _).fix).fix (same_freeR _ _).fix⟩

theorem fitB (isLocal : Nat → Bool) : ∀ (b : Stmts) (e : Enc), Lvs e → plainB b = true → Fits (emitB isLocal b e).1 ∧ Lvs (emitB isLocal b e).2
  | .nil, e, hT, _ => ⟨Fits.nil, hT⟩
  | .cons s rest, e, hT, h => by
    simp only [plainB, Bool.and_eq_true] at h
    obtain ⟨h1, h2⟩ := fitS isLocal s e hT h.1
    obtain ⟨k1, k2⟩ := fitB isLocal rest _ h2 h.2
    exact ⟨h1.append k1, k2⟩

theorem fitW (isLocal : Nat → Bool) : ∀ (b : Stmts) (k : Nat) (e : Enc), Lvs e → plainB b = true → Fits (emitW isLocal b k e).1 ∧ Lvs (emitW isLocal b k e).2
  | .nil, k, e, hT, _ => ⟨Fits.nil, hT⟩
  | .cons (.case_ v s) rest, k, e, hT, h => by
    simp only [plainB, plainS, Bool.and_eq_true] at h
    obtain ⟨h1, h2⟩ := fitS isLocal s e hT h.1.2
    obtain ⟨k1, k2⟩ := fitW isLocal rest (k + 1) _ h2 h.2
    exact ⟨((Fits.label _).append h1).append k1, k2⟩
  | .cons (.default_ s) rest, k, e, hT, h => by
    simp only [plainB, plainS, Bool.and_eq_true] at h
    obtain ⟨h1, h2⟩ := fitS isLocal s e hT h.1
    obtain ⟨k1, k2⟩ := fitW isLocal rest (k + 1) _ h2 h.2
    exact ⟨((Fits.label _).append h1).append k1, k2⟩
  | .cons .skip rest, k, e, hT, h => by
    simp only [plainB, Bool.and_eq_true] at h
    obtain ⟨h1, h2⟩ := fitS isLocal .skip e hT h.1
    obtain ⟨k1, k2⟩ := fitW isLocal rest k _ h2 h.2
    exact ⟨h1.append k1, k2⟩
  | .cons (.expr x) rest, k, e, hT, h => by
    simp only [plainB, Bool.and_eq_true] at h
    obtain ⟨h1, h2⟩ := fitS isLocal (.expr x) e hT h.1
    obtain ⟨k1, k2⟩ := fitW isLocal rest k _ h2 h.2
    exact ⟨h1.append k1, k2⟩
  | .cons (.decls l) rest, k, e, hT, h => by
    simp only [plainB, Bool.and_eq_true] at h
    obtain ⟨h1, h2⟩ := fitS isLocal (.decls l) e hT h.1
    obtain ⟨k1, k2⟩ := fitW isLocal rest k _ h2 h.2
    exact ⟨h1.append k1, k2⟩
  | .cons (.if_ c a) rest, k, e, hT, h => by
    simp only [plainB, Bool.and_eq_true] at h
    obtain ⟨h1, h2⟩ := fitS isLocal (.if_ c a) e hT h.1
    obtain ⟨k1, k2⟩ := fitW isLocal rest k _ h2 h.2
    exact ⟨h1.append k1, k2⟩
  | .cons (.ifElse c a b) rest, k, e, hT, h => by
    simp only [plainB, Bool.and_eq_true] at h
    obtain ⟨h1, h2⟩ := fitS isLocal (.ifElse c a b) e hT h.1
    obtain ⟨k1, k2⟩ := fitW isLocal rest k _ h2 h.2
    exact ⟨h1.append k1, k2⟩
  | .cons (.while_ c a) rest, k, e, hT, h => by
    simp only [plainB, Bool.and_eq_true] at h
    obtain ⟨h1, h2⟩ := fitS isLocal (.while_ c a) e hT h.1
    obtain ⟨k1, k2⟩ := fitW isLocal rest k _ h2 h.2
    exact ⟨h1.append k1, k2⟩
  | .cons (.do_ a c) rest, k, e, hT, h => by
    simp only [plainB, Bool.and_eq_true] at h
    obtain ⟨h1, h2⟩ := fitS isLocal (.do_ a c) e hT h.1
    obtain ⟨k1, k2⟩ := fitW isLocal rest k _ h2 h.2
    exact ⟨h1.append k1, k2⟩
  | .cons (.for_ i c s b) rest, k, e, hT, h => by
    simp only [plainB, Bool.and_eq_true] at h
    obtain ⟨h1, h2⟩ := fitS isLocal (.for_ i c s b) e hT h.1
    obtain ⟨k1, k2⟩ := fitW isLocal rest k _ h2 h.2
    exact ⟨h1.append k1, k2⟩
  | .cons (.block b) rest, k, e, hT, h => by
    simp only [plainB, Bool.and_eq_true] at h
    obtain ⟨h1, h2⟩ := fitS isLocal (.block b) e hT h.1
    obtain ⟨k1, k2⟩ := fitW isLocal rest k _ h2 h.2
    exact ⟨h1.append k1, k2⟩
  | .cons (.switch_ c b) rest, k, e, hT, h => by
    simp only [plainB, Bool.and_eq_true] at h
    obtain ⟨h1, h2⟩ := fitS isLocal (.switch_ c b) e hT h.1
    obtain ⟨k1, k2⟩ := fitW isLocal rest k _ h2 h.2
    exact ⟨h1.append k1, k2⟩
  | .cons .break_ rest, k, e, hT, h => by
    simp only [plainB, Bool.and_eq_true] at h
    obtain ⟨h1, h2⟩ := fitS isLocal .break_ e hT h.1
    obtain ⟨k1, k2⟩ := fitW isLocal rest k _ h2 h.2
    exact ⟨h1.append k1, k2⟩
  | .cons .continue_ rest, k, e, hT, h => by
    simp only [plainB, Bool.and_eq_true] at h
    obtain ⟨h1, h2⟩ := fitS isLocal .continue_ e hT h.1
    obtain ⟨k1, k2⟩ := fitW isLocal rest k _ h2 h.2
    exact ⟨h1.append k1, k2⟩
  | .cons (.return_ x) rest, k, e, hT, h => by
    simp only [plainB, Bool.and_eq_true] at h
    obtain ⟨h1, h2⟩ := fitS isLocal (.return_ x) e hT h.1
    obtain ⟨k1, k2⟩ := fitW isLocal rest k _ h2 h.2
    exact ⟨h1.append k1, k2⟩
end

/-! ## Functions and units -/

theorem lvs_params : ∀ (l : List (Nat × Ty)) (i : Nat) (e : Enc), Lvs e → Lvs (params e i l)
  | [], _, _, h => h
  | (id, ty) :: l, i, e, h => by
    refine lvs_params l (i + 1) _ fun j => ?_
    simp only
    split
    · split
      · show R_A0 + i < 32; simp only [R_A0]; omega
      · show R_FP < 32; decide
    · exact h j

instance (i : Instr) : Decidable (Fit i) := by unfold Fit; split <;> infer_instance

theorem fit_kept : Fits (kept.map fun r => Instr.sw (.reg r.1) r.2 R_SP) := by unfold Fits; decide +kernel
theorem fit_taken : Fits (takenBack.map fun r => Instr.lw r.1 r.2 R_SP) := by unfold Fits; decide +kernel
theorem fit_head : Fits head := by unfold Fits; decide +kernel

theorem fitF (isLocal : Nat → Bool) (main : Nat) (f : Func) (e : Enc) (hT : Lvs e) (h : plainB f.body = true) : Fits (emitF isLocal main f e).1 ∧ Lvs (emitF isLocal main f e).2 := by
  obtain ⟨h1, h2⟩ := fitS isLocal (.block f.body) (params { e with fn := f.id, maxd := 0, scope := 0 } 0 f.params) (lvs_params _ _ _ hT) h
  unfold emitF
  simp only
  refine ⟨?_, h2⟩
  have hm : Fits (if f.id = main then [Instr.label ⟨.main, 0⟩] else []) := by
    split
    · exact Fits.label _
    · exact Fits.nil
  refine Fits.append (Fits.append (Fits.append (Fits.append (Fits.append (Fits.append (Fits.append (Fits.label _) hm) fit_kept) ?_) h1) ?_) fit_taken) (Fits.one (by show R_RA < 32; decide))
  · exact Fits.two ⟨by decide, by decide, rfl⟩ ⟨by decide, by decide, rfl⟩
  · exact (Fits.label _).append (Fits.one ⟨by decide, by decide, rfl⟩)

theorem fitU (isLocal : Nat → Bool) (main : Nat) : ∀ (l : List Top) (e : Enc), Lvs e → (∀ x ∈ l, plainT x = true) → Fits (emitU isLocal main l e).1
  | [], _, _, _ => Fits.nil
  | .var d :: l, e, hT, h => by
    obtain ⟨h1, h2⟩ := fitV isLocal d e hT (h (.var d) (by simp))
    exact h1.append (fitU isLocal main l _ h2 fun x hx => h x (by simp [hx]))
  | .func f :: l, e, hT, h => by
    obtain ⟨h1, h2⟩ := fitF isLocal main f e hT (h (.func f) (by simp))
    exact h1.append (fitU isLocal main l _ h2 fun x hx => h x (by simp [hx]))

end RuC.MipsText
