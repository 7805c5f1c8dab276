import Verif.Mips.Jumps

/-!
# Lemmas: the registers in use
-/

namespace RuC.Mips
open Llvm (Ty Arith Cmp Un Inc Exp Args Stmt Stmts Func)

/-- Registers that are not for temporary values. -/
def fixed (r : Nat) : Prop := r = R_V0 ∨ (4 ≤ r ∧ r < 8) ∨ r = R_SP ∨ r = R_RA

/-- A place of a variable: a register for arguments, or a displacement from a register that is not for temporary values. -/
def LvOk : Lv → Prop
  | .reg r => r = R_V0 ∨ (4 ≤ r ∧ r < 8)
  | .stack _ b => place b = none

/-- The places of variables. -/
def Tab (e : Enc) : Prop := ∀ id, LvOk (e.table id)

/-- A value that was given its register behind the state `e`: a register that was free. -/
def New (e : Enc) (v : Rv) : Prop := ∀ r, v = .reg r false → r = R_V0 ∨ ∃ i, i ≤ 10 ∧ r = i + 8 ∧ (i < 10 → e.busy i = false)

/-- Its register is in use. -/
def Hold (e : Enc) (v : Rv) : Prop := ∀ i, i ≤ 10 → v = .reg (i + 8) false → e.busy i = true

/-- Values of variables are in registers for arguments. -/
def Var (v : Rv) : Prop := ∀ r, v = .reg r true → 4 ≤ r ∧ r < 8 ∨ r = R_V0

/-- How a piece of text uses registers: those in use stay in use and are not set; `t`: only the registers of the values `vs` came to be in use. -/
structure Use (t : Bool) (e : Enc) (c : List Instr) (vs : List Rv) (e' : Enc) : Prop where
  keep : ∀ i, i ≤ 10 → e.busy i = true → e'.busy i = true
  sets : ∀ r ∈ c.flatMap sets, fixed r ∨ ∃ i, i ≤ 10 ∧ r = i + 8 ∧ (i < 10 → e.busy i = false)
  back : t = true → e'.busy 8 = false → ∀ i, i < 8 → e'.busy i = true → e.busy i = true ∨ Rv.reg (i + 8) false ∈ vs

theorem Use.refl (t : Bool) (e : Enc) (vs : List Rv) : Use t e [] vs e := ⟨fun _ _ h => h, fun r hr => (by cases hr), fun _ _ i _ h => .inl h⟩

theorem Use.append {t : Bool} {e e1 e2 : Enc} {a b : List Instr} {vs ws : List Rv} (h : Use t e a vs e1) (k : Use t e1 b ws e2) : Use t e (a ++ b) (vs ++ ws) e2 where
  keep i hi hb := k.keep i hi (h.keep i hi hb)
  sets r hr := by
    simp only [List.flatMap_append, List.mem_append] at hr
    rcases hr with hr | hr
    · exact h.sets r hr
    · rcases k.sets r hr with hf | ⟨i, hi, he, hb⟩
      · exact .inl hf
      · refine .inr ⟨i, hi, he, fun hl => ?_⟩
        have := hb hl
        cases hx : e.busy i with
        | false => rfl
        | true => rw [h.keep i (Nat.le_of_lt hl) hx] at this; cases this
  back ht h8 i hi hb := by
    rcases k.back ht h8 i hi hb with hb | hb
    · have h81 : e1.busy 8 = false := by
        cases hx : e1.busy 8 with
        | false => rfl
        | true => rw [k.keep 8 (by omega) hx] at h8; cases h8
      rcases h.back ht h81 i hi hb with hb | hb
      · exact .inl hb
      · exact .inr (List.mem_append_left _ hb)
    · exact .inr (List.mem_append_right _ hb)

theorem Use.weaken {t : Bool} {e e' : Enc} {c : List Instr} {vs ws : List Rv} (h : Use t e c vs e') (k : ∀ v ∈ vs, v ∈ ws) : Use t e c ws e' :=
  { h with back := fun ht h8 i hi hb => (h.back ht h8 i hi hb).imp_right (k _) }

theorem Use.lax {t : Bool} {e e' : Enc} {c : List Instr} {vs : List Rv} (h : Use t e c vs e') (ws : List Rv) : Use false e c ws e' :=
  { h with back := fun ht => (by cases ht) }

/-- Only the registers in use matter. -/
theorem Use.left {t : Bool} {e e1 e' : Enc} {c : List Instr} {vs : List Rv} (he : e1.busy = e.busy) (h : Use t e1 c vs e') : Use t e c vs e' :=
  ⟨fun i hi hb => h.keep i hi (he ▸ hb), fun r hr => he ▸ h.sets r hr, fun ht h8 i hi hb => he ▸ h.back ht h8 i hi hb⟩

theorem Use.right {t : Bool} {e e1 e' : Enc} {c : List Instr} {vs : List Rv} (he : e'.busy = e1.busy) (h : Use t e c vs e1) : Use t e c vs e' :=
  ⟨fun i hi hb => he ▸ h.keep i hi hb, h.sets, fun ht h8 i hi hb => h.back ht (he ▸ h8) i hi (he ▸ hb)⟩

theorem New.mono {e e1 : Enc} {v : Rv} (h : New e1 v) (k : ∀ i, i ≤ 10 → e.busy i = true → e1.busy i = true) : New e v := by
  intro r hr
  rcases h r hr with h | ⟨i, hi, he, hb⟩
  · exact .inl h
  · refine .inr ⟨i, hi, he, fun hl => ?_⟩
    cases hx : e.busy i with
    | false => rfl
    | true => rw [k i (Nat.le_of_lt hl) hx] at hb; cases hb hl

theorem Hold.mono {e e1 : Enc} {v : Rv} (h : Hold e v) (k : ∀ i, i ≤ 10 → e.busy i = true → e1.busy i = true) : Hold e1 v :=
  fun i hi hv => k i hi (h i hi hv)

/-! ## Registers -/

theorem search_spec (busy : Nat → Bool) : ∀ (n i : Nat), i ≤ search busy 1 n i ∧ search busy 1 n i ≤ i + n ∧ (search busy 1 n i < i + n → busy (search busy 1 n i) = false) ∧
    ∀ j, i ≤ j → j < search busy 1 n i → busy j = true
  | 0, i => ⟨Nat.le_refl _, Nat.le_refl _, fun h => (by simp only [search] at h; omega), fun j h1 h2 => (by simp only [search] at h2; omega)⟩
  | n + 1, i => by
    simp only [search]
    split
    · rename_i hb
      obtain ⟨h1, h2, h3, h4⟩ := search_spec busy n (i + 1)
      refine ⟨by omega, by omega, fun h => h3 (by omega), fun j h5 h6 => ?_⟩
      by_cases hj : j = i
      · rw [hj]; exact hb
      · exact h4 j (by omega) h6
    · rename_i hb
      exact ⟨Nat.le_refl _, by omega, fun _ => by simpa using hb, fun j h1 h2 => by omega⟩

theorem get_new (e : Enc) (b : Bool) : New e (.reg (getRegister e).1 b) := by
  intro r hr
  obtain ⟨-, h2, h3, -⟩ := search_spec e.busy 10 0
  simp only [Rv.reg.injEq] at hr
  refine .inr ⟨search e.busy 1 10 0, by omega, ?_, fun h => h3 (by omega)⟩
  rw [← hr.1]; rfl

theorem get_hold (e : Enc) : Hold (getRegister e).2 (.reg (getRegister e).1 false) := by
  intro i hi hr
  simp only [Rv.reg.injEq, getRegister, and_true] at hr
  simp only [R_T0] at hr
  simp [getRegister, Enc.mark]
  omega

theorem get_use (t : Bool) (e : Enc) : Use t e [] [.reg (getRegister e).1 false] (getRegister e).2 := by
  refine ⟨?_, fun r hr => (by cases hr), ?_⟩
  · intro i hi hb
    simp only [getRegister, Enc.mark]
    split
    · rfl
    · exact hb
  · intro _ _ i hi hb
    simp only [getRegister, Enc.mark] at hb
    split at hb
    · rename_i he
      right; rw [he]; simp [getRegister]
    · exact .inl hb

theorem place_ge {r i : Nat} (h : place r = some i) (hr : i < 8) : r = i + 8 := by
  unfold place at h
  simp only [R_T0, R_T8, R_FT0] at h
  split at h
  · simp only [Option.some.injEq] at h; omega
  · split at h
    · simp only [Option.some.injEq] at h; omega
    · split at h
      · simp only [Option.some.injEq] at h; omega
      · cases h

theorem place_i {i : Nat} (h : i ≤ 10) : place (i + 8) = if i < 8 then some i else none := by
  unfold place
  simp only [R_T0, R_T8, R_FT0]
  by_cases hi : i < 8
  · rw [if_pos (by omega), if_pos hi]; simp
  · rw [if_neg (by omega), if_neg (by omega), if_neg (by omega), if_neg hi]

/-- A register that was taken behind the state `e` is given back. -/
theorem Use.free {t : Bool} {e e' : Enc} {c : List Instr} {vs ws : List Rv} {r : Nat} (h : Use t e c vs e') (hn : New e (.reg r false))
    (k : ∀ v ∈ vs, v = .reg r false ∨ v ∈ ws) : Use t e c ws (freeRegister e' r) := by
  have hp : place r = none ∨ ∃ i, i < 8 ∧ r = i + 8 ∧ place r = some i ∧ e.busy i = false := by
    rcases hn r rfl with rfl | ⟨i, hi, rfl, hb⟩
    · left; rfl
    · rw [place_i hi]
      by_cases h8 : i < 8
      · exact .inr ⟨i, h8, rfl, by rw [if_pos h8], hb (by omega)⟩
      · left; rw [if_neg h8]
  rcases hp with hp | ⟨j, hj, hrj, hp, hbj⟩
  · have hn8 : ∀ i, i < 8 → r ≠ i + 8 := by
      rintro i hi rfl
      rw [place_i (by omega), if_pos hi] at hp
      cases hp
    simp only [freeRegister, hp]
    refine { h with back := fun ht h8 i hi hb => ?_ }
    rcases h.back ht h8 i hi hb with hb | hb
    · exact .inl hb
    · rcases k _ hb with hv | hv
      · simp only [Rv.reg.injEq, and_true] at hv; exact absurd hv.symm (hn8 i hi)
      · exact .inr hv
  · simp only [freeRegister, hp]
    refine ⟨?_, h.sets, ?_⟩
    · intro i hi hb
      simp only [Enc.mark]
      split
      · rename_i he; rw [he, hbj] at hb; cases hb
      · exact h.keep i hi hb
    · intro ht h8 i hi hb
      simp only [Enc.mark] at hb h8
      split at hb
      · cases hb
      · rename_i he
        rw [if_neg (by omega)] at h8
        rcases h.back ht h8 i hi hb with hb | hb
        · exact .inl hb
        · rcases k _ hb with hv | hv
          · simp only [Rv.reg.injEq, and_true] at hv; omega
          · exact .inr hv

theorem Use.freeR {t : Bool} {e e' : Enc} {c : List Instr} {vs ws : List Rv} {v : Rv} (h : Use t e c vs e') (hn : New e v) (k : ∀ u ∈ vs, u = v ∨ u ∈ ws) :
    Use t e c ws (freeRvalue e' v) := by
  have hw : (∀ r, v ≠ .reg r false) → Use t e c ws e' := fun hne => by
    refine { h with back := fun ht h8 i hi hb => ?_ }
    rcases h.back ht h8 i hi hb with hb | hb
    · exact .inl hb
    · rcases k _ hb with hv | hv
      · exact absurd hv.symm (hne _)
      · exact .inr hv
  cases v with
  | const v => exact hw (by simp)
  | void => exact hw (by simp)
  | reg r b =>
    cases b with
    | true => exact hw (by simp)
    | false => exact h.free hn k

/-- A register of an address is not in use for a value. -/
theorem free_base (e : Enc) {b : Nat} (h : place b = none) : freeRegister e b = e := by simp [freeRegister, h]

/-- What a value is. -/
structure Val (e : Enc) (v : Rv) (e' : Enc) : Prop where
  new : New e v
  hold : Hold e' v
  var : Var v

theorem Val.const (e e' : Enc) (v : Int) : Val e (.const v) e' := ⟨fun r h => (by cases h), fun i _ h => (by cases h), fun r h => (by cases h)⟩
theorem Val.void (e e' : Enc) : Val e .void e' := ⟨fun r h => (by cases h), fun i _ h => (by cases h), fun r h => (by cases h)⟩
theorem Val.get (e : Enc) : Val e (.reg (getRegister e).1 false) (getRegister e).2 := ⟨get_new e false, get_hold e, fun r h => (by cases h)⟩

theorem Val.mono {e0 e e1 e2 : Enc} {v : Rv} (h : Val e v e1) (k : ∀ i, i ≤ 10 → e0.busy i = true → e.busy i = true) (l : ∀ i, i ≤ 10 → e1.busy i = true → e2.busy i = true) : Val e0 v e2 :=
  ⟨h.new.mono k, h.hold.mono l, h.var⟩

theorem New.opd {e : Enc} {v : Rv} (h : New e v) (k : Var v) : ∀ r ∈ v.opd.regs, fixed r ∨ ∃ i, i ≤ 10 ∧ r = i + 8 ∧ (i < 10 → e.busy i = false) := by
  intro r hr
  cases v with
  | const v => cases hr
  | void => cases hr
  | reg q b =>
    simp only [Rv.opd, Opd.regs, List.mem_singleton] at hr
    subst hr
    cases b with
    | false =>
      rcases h r rfl with h | h
      · exact .inl (.inl h)
      · exact .inr h
    | true =>
      rcases k r rfl with h | h
      · exact .inl (.inr (.inl h))
      · exact .inl (.inl h)

theorem use_loadImm (t : Bool) (e : Enc) (v : Rv) : Use t e (loadImm e v).1 [(loadImm e v).2.1] (loadImm e v).2.2 := by
  refine { get_use t e with sets := fun r hr => ?_ }
  simp only [loadImm, List.flatMap_cons, List.flatMap_nil, sets, Opd.regs, List.append_nil, List.mem_singleton] at hr
  subst hr
  exact (get_new e false).opd (fun r h => by cases h) _ (by simp [Rv.opd, Opd.regs])

theorem val_loadImm (e : Enc) (v : Rv) : Val e (loadImm e v).2.1 (loadImm e v).2.2 := Val.get e

theorem val_toReg {e0 e : Enc} {v : Rv} (h : Val e0 v e) (k : ∀ i, i ≤ 10 → e0.busy i = true → e.busy i = true) : Val e0 (toReg e v).2.1 (toReg e v).2.2 := by
  unfold toReg; split
  · exact (val_loadImm e v).mono k (fun _ _ h => h)
  · exact h

theorem use_toReg (t : Bool) (e : Enc) (v : Rv) : Use t e (toReg e v).1 (if v.isConst then [(toReg e v).2.1] else []) (toReg e v).2.2 := by
  unfold toReg; split
  · exact use_loadImm t e v
  · exact Use.refl ..

theorem use_loadLv (t : Bool) (e : Enc) {l : Lv} (h : LvOk l) : Use t e (loadLv e l).1 [(loadLv e l).2.1] (loadLv e l).2.2 ∧ Val e (loadLv e l).2.1 (loadLv e l).2.2 := by
  cases l with
  | reg r => exact ⟨Use.refl .., fun r h => (by cases h), fun i _ h => (by cases h), fun q hq => by cases hq; exact h.symm⟩
  | stack d b =>
    simp only [loadLv, free_base _ (show place b = none from h)]
    refine ⟨{ get_use t e with sets := fun r hr => ?_ }, Val.get e⟩
    simp only [List.flatMap_cons, List.flatMap_nil, sets, List.append_nil, List.mem_singleton] at hr
    subst hr
    exact (get_new e false).opd (fun r h => by cases h) _ (by simp [Rv.opd, Opd.regs])

theorem use_moveTo (t : Bool) (e : Enc) {r : Nat} (h : fixed r ∨ ∃ i, i ≤ 10 ∧ r = i + 8 ∧ (i < 10 → e.busy i = false)) (v : Rv) (vs : List Rv) : Use t e (moveTo r v) vs e := by
  refine { Use.refl t e vs with sets := fun q hq => ?_ }
  unfold moveTo at hq
  split at hq
  · split at hq
    · cases hq
    · simp only [List.flatMap_cons, List.flatMap_nil, sets, List.append_nil, List.mem_singleton] at hq
      rw [hq]; exact h
  · simp only [List.flatMap_cons, List.flatMap_nil, sets, Opd.regs, List.append_nil, List.mem_singleton] at hq
    rw [hq]; exact h

/-- Values are stored; only a constant for a register leaves a register in use. -/
theorem use_store (t : Bool) (e : Enc) {l : Lv} (h : LvOk l) {v : Rv} (ht : t = true → v.isConst = true → ∃ d b, l = .stack d b) : Use t e (store e l v).1 [] (store e l v).2 := by
  cases l with
  | reg r =>
    simp only [store]
    have hu := use_toReg t e v
    have hm : Use t (toReg e v).2.2 (if v.num ≠ r then [Instr.move r (toReg e v).2.1.opd] else []) [] (toReg e v).2.2 := by
      refine { Use.refl t _ [] with sets := fun q hq => ?_ }
      split at hq
      · simp only [List.flatMap_cons, List.flatMap_nil, sets, List.append_nil, List.mem_singleton] at hq
        rw [hq]
        exact .inl (h.elim .inl (fun h => .inr (.inl h)))
      · cases hq
    by_cases hc : v.isConst = true
    · cases t with
      | true => obtain ⟨d, b, hx⟩ := ht rfl hc; cases hx
      | false => exact (hu.append hm).lax _
    · rw [if_neg hc] at hu
      exact hu.append hm
  | stack d b =>
    simp only [store, free_base _ (show place b = none from h)]
    have hu := use_toReg t e v
    have hm : Use t (toReg e v).2.2 [Instr.sw (toReg e v).2.1.opd d b] [] (toReg e v).2.2 := { Use.refl t _ [] with sets := fun q hq => (by cases hq) }
    by_cases hc : v.isConst = true
    · rw [if_pos hc] at hu ⊢
      have hx : toReg e v = loadImm e v := by unfold toReg; rw [if_pos hc]
      refine (hu.append hm).freeR ?_ (by simp)
      rw [hx]
      exact (val_loadImm e v).new
    · rw [if_neg hc] at hu ⊢
      exact hu.append hm

theorem Use.emit {t : Bool} {e e' : Enc} {c d : List Instr} {vs : List Rv} (h : Use t e c vs e')
    (k : ∀ r ∈ d.flatMap Mips.sets, fixed r ∨ ∃ i, i ≤ 10 ∧ r = i + 8 ∧ (i < 10 → e.busy i = false)) : Use t e (c ++ d) vs e' where
  keep := h.keep
  back := h.back
  sets r hr := by
    simp only [List.flatMap_append, List.mem_append] at hr
    exact hr.elim (h.sets r) (k r)

/-- Text that sets no register. -/
theorem Use.still {t : Bool} {e e' : Enc} {c d : List Instr} {vs : List Rv} (h : Use t e c vs e') (k : d.flatMap Mips.sets = []) : Use t e (c ++ d) vs e' :=
  h.emit (fun r hr => by rw [k] at hr; cases hr)

theorem branch_sets (c : Cmp) (v : Rv) (l : Label) : (condBranch c v l).flatMap sets = [] := by
  unfold condBranch; split
  · rfl
  · split <;> rfl

theorem use_operand (t : Bool) (e : Enc) (v : Rv) (o : Arith) (f : Bool) : Use t e (operandLoad e v o f).1 (if v.isConst then [(operandLoad e v o f).2.1] else []) (operandLoad e v o f).2.2 := by
  cases o <;> simp only [operandLoad] <;> first
    | exact use_toReg ..
    | exact Use.refl ..
    | (split
       · exact use_toReg ..
       · exact Use.refl ..)

/-- Arithmetic asks for registers and then sets the destination. -/
theorem arith_split (t : Bool) (e : Enc) (d a b : Rv) (o : Arith) (ht : t = true → tidyOp o a.isConst b.isConst = true) :
    ∃ cl i, (arithOp e d a b o).1 = cl ++ [i] ∧ sets i = d.opd.regs ∧ Use t e cl [] (arithOp e d a b o).2 := by
  unfold arithOp
  split
  · exact ⟨[], _, rfl, rfl, Use.refl ..⟩
  · rename_i hc
    refine ⟨_, _, rfl, by split <;> rfl, ?_⟩
    have h1 := use_operand t e a o true
    have h2 := use_operand t (operandLoad e a o true).2.2 b o false
    cases t with
    | false => exact (h1.append h2).lax _
    | true =>
      have hx := ht rfl
      have : (operandLoad e a o true) = ([], a, e) ∧ ∀ e1, (operandLoad e1 b o false) = ([], b, e1) := by
        cases o <;> simp only [tidyOp, Bool.and_eq_true, Bool.not_eq_true'] at hx <;> simp only [operandLoad, toReg] <;> grind
      simp only [this.1, this.2]
      exact Use.refl ..

/-- Arithmetic behind a text that asked for the register of the destination. -/
theorem Use.arith {t : Bool} {e e1 : Enc} {c : List Instr} {vs : List Rv} (h : Use t e c vs e1) {d a b : Rv} {o : Arith} (hn : New e d) (hv : Var d)
    (ht : t = true → tidyOp o a.isConst b.isConst = true) : Use t e (c ++ (arithOp e1 d a b o).1) vs (arithOp e1 d a b o).2 := by
  obtain ⟨cl, i, h1, h2, h3⟩ := arith_split t e1 d a b o ht
  rw [h1, ← List.append_assoc]
  have := h.append h3
  rw [List.append_nil] at this
  refine this.emit ?_
  rw [List.flatMap_cons, List.flatMap_nil, List.append_nil, h2]
  exact hn.opd hv

theorem Use.cmp {t : Bool} {e e1 : Enc} {c : List Instr} {vs : List Rv} (h : Use t e c vs e1) {d a b : Rv} {o : Cmp} (hn : New e d) (hv : Var d)
    (ht : t = true → a.isConst = false ∧ b.isConst = false) : Use t e (c ++ (cmpOp e1 d a b o).1) vs (cmpOp e1 d a b o).2 := by
  simp only [cmpOp]
  have h1 := use_toReg t e1 a
  have h2 := use_toReg t (toReg e1 a).2.2 b
  have h3 : Use t e (c ++ ((toReg e1 a).1 ++ (toReg (toReg e1 a).2.2 b).1)) vs (toReg (toReg e1 a).2.2 b).2.2 := by
    cases t with
    | false => exact (h.append (h1.append h2)).lax _
    | true =>
      obtain ⟨x, y⟩ := ht rfl
      simp only [x, y, Bool.false_eq_true, if_false] at h1 h2
      have := h.append (h1.append h2)
      simpa using this
  have h4 := ((h3.emit (d := [.op false .sub d.opd (toReg e1 a).2.1.opd (toReg (toReg e1 a).2.2 b).2.1.opd]) (by simpa [Mips.sets] using hn.opd hv)).still (branch_sets o d
    ⟨if a.isConst = false ∧ b.isConst = false then .end else .else, e1.lab⟩)).emit
    (d := [.li d.opd (.imm 1), .label ⟨if a.isConst = false ∧ b.isConst = false then .end else .else, e1.lab⟩]) (by simpa [Mips.sets] using hn.opd hv)
  have h5 := Use.right (e1 := (toReg (toReg e1 a).2.2 b).2.2) (e' := { (toReg (toReg e1 a).2.2 b).2.2 with lab := e1.lab + 1 }) rfl h4
  simpa only [List.append_assoc] using h5

theorem fixed_arg {i : Nat} (h : i < 4) : fixed (R_A0 + i) := .inr (.inl ⟨by simp only [R_A0]; omega, by simp only [R_A0]; omega⟩)

theorem use_restore (t : Bool) : ∀ (n i : Nat) (e : Enc), i + n ≤ 4 → Use t e (restoreArgs e i n).1 [] (restoreArgs e i n).2
  | 0, i, e, _ => Use.refl ..
  | n + 1, i, e, h => by
    simp only [restoreArgs]
    obtain ⟨h1, h2⟩ := use_loadLv t e (l := .stack (4 * i) R_SP) rfl
    have h3 := (h1.append (use_moveTo t _ (r := R_A0 + i) (.inl (fixed_arg (by omega))) (loadLv e (.stack (4 * i) R_SP)).2.1 [])).freeR (ws := []) h2.new (by simp)
    exact h3.append (use_restore t n (i + 1) _ (by omega))

theorem use_moveSp (t : Bool) (e : Enc) (n : Int) : Use t e (moveSp n) [] e := by
  refine { Use.refl t e [] with sets := fun r hr => ?_ }
  unfold moveSp at hr
  split at hr
  · cases hr
  · simp only [List.flatMap_cons, List.flatMap_nil, sets, Opd.regs, List.append_nil, List.mem_singleton] at hr
    exact .inl (.inr (.inr (.inl hr)))

/-! ## The places of variables -/

/-- States with the same places of variables. -/
structure Fix (e e' : Enc) : Prop where
  table : e'.table = e.table
  scope : e'.scope = e.scope
  maxd : e'.maxd = e.maxd
  gdispl : e'.gdispl = e.gdispl

theorem Fix.refl (e : Enc) : Fix e e := ⟨rfl, rfl, rfl, rfl⟩
theorem Fix.trans {a b c : Enc} (h : Fix a b) (k : Fix b c) : Fix a c := ⟨k.table.trans h.table, k.scope.trans h.scope, k.maxd.trans h.maxd, k.gdispl.trans h.gdispl⟩
theorem Same.fix {e e' : Enc} (h : Same e e') : Fix e e' := by obtain ⟨b, rfl⟩ := h; exact ⟨rfl, rfl, rfl, rfl⟩
theorem fix_cmp (e : Enc) (d a b : Rv) (o : Cmp) : Fix e (cmpOp e d a b o).2 := by
  have := ((same_toReg e a).trans (same_toReg (toReg e a).2.2 b)).fix
  exact ⟨this.table, this.scope, this.maxd, this.gdispl⟩

mutual
theorem fixE : ∀ (x : Exp) (e : Enc), Fix e (emitE x e).2.2
  | .int v, e => Fix.refl _
  | .bool v, e => Fix.refl _
  | .str v, e => Fix.refl _
  | .ident id ty, e => (same_loadLv ..).fix
  | .un op x, e => by
    cases op <;> simp only [emitE]
    · exact (fixE x e).trans (same_arith ..).fix
    · exact (fixE x e).trans (same_arith ..).fix
    · exact fixE x e
  | .not x, e => fixE x e
  | .inc op id, e => by
    simp only [emitE]
    split
    · exact (((same_loadLv ..).trans (same_arith ..)).trans (same_store ..)).fix
    · exact (((((same_loadLv ..).trans (same_get _)).trans (same_arith ..)).trans (same_store ..)).trans (same_free ..)).fix
  | .arith o a b, e => ((fixE a e).trans (fixE b _)).trans ((same_arith ..).trans (same_freeR ..)).fix
  | .cmp o a b, e => (((fixE a e).trans (fixE b _)).trans (fix_cmp ..)).trans (same_freeR ..).fix
  | .comma a b, e => by
    simp only [emitE]
    split
    · exact fixE b e
    · exact ((fixE a e).trans (same_freeR ..).fix).trans (fixE b _)
  | .logic isOr a b, e => by
    simp only [emitE]
    exact ((fixE a e).trans (Fix.trans (b := { (emitE a e).2.2 with lab := (emitE a e).2.2.lab + 1 }) ⟨rfl, rfl, rfl, rfl⟩ (same_freeR ..).fix)).trans (fixE b _)
  | .ternary c a b, e => by
    simp only [emitE]
    exact (((((fixE c e).trans (Fix.trans (b := { (emitE c e).2.2 with lab := (emitE c e).2.2.lab + 1 }) ⟨rfl, rfl, rfl, rfl⟩ (same_freeR ..).fix)).trans (same_get _).fix).trans (fixE a _)).trans
      (same_freeR ..).fix).trans ((fixE b _).trans (same_freeR ..).fix)
  | .assign none id ty x, e => (fixE x e).trans (same_store ..).fix
  | .assign (some o) id ty x, e => by
    simp only [emitE]
    split
    · exact (fixE x e).trans (same_loadLv ..).fix
    · exact (fixE x e).trans (((same_loadLv ..).trans (same_arith ..)).trans ((same_freeR ..).trans (same_store ..))).fix
  | .call f ty args, e => by
    by_cases hf : f < 170
    · simp only [emitE, if_pos hf]; exact Fix.refl _
    · simp only [emitE, if_neg hf]
      exact (fixA args 0 e).trans (same_restore ..).fix

theorem fixA : ∀ (args : Args) (i : Nat) (e : Enc), Fix e (emitA i args e).2
  | .nil, i, e => Fix.refl _
  | .cons x rest, i, e => by
    simp only [emitA]
    exact ((fixE x e).trans (((same_toReg ..).trans (same_store ..)).trans (same_freeR ..)).fix).trans (fixA rest (i + 1) _)
end

theorem Lv.placed.lv {l : Lv} (h : l.placed) : LvOk l := by
  cases l with
  | reg r => exact .inr ⟨h.1, h.2⟩
  | stack d b => rcases h with rfl | rfl <;> rfl

/-- The places of variables, and which are registers. -/
structure Tabs (par : Nat → Bool) (e : Enc) : Prop where
  ok : ∀ id, (e.table id).placed
  par : ∀ id r, e.table id = .reg r → par id = true

theorem Tabs.fix {par : Nat → Bool} {e e' : Enc} (h : Tabs par e) (k : Fix e e') : Tabs par e' := ⟨fun id => k.table ▸ h.ok id, fun id r => k.table ▸ h.par id r⟩

/-! ## Expressions -/

theorem isConst_loadLv (e : Enc) (l : Lv) : (loadLv e l).2.1.isConst = false := by cases l <;> rfl

theorem isConst_eq : ∀ (x : Exp) (e : Enc), (emitE x e).2.1.isConst = isConstE x
  | .int v, e => rfl
  | .bool v, e => rfl
  | .str v, e => rfl
  | .ident id ty, e => isConst_loadLv ..
  | .un op x, e => by cases op <;> exact isConst_eq x e
  | .not x, e => isConst_eq x e
  | .inc op id, e => by
    simp only [emitE]
    split <;> exact isConst_loadLv ..
  | .arith o a b, e => isConst_eq a e
  | .cmp o a b, e => isConst_eq a e
  | .comma a b, e => isConst_eq b _
  | .logic isOr a b, e => isConst_eq b _
  | .ternary c a b, e => rfl
  | .assign none id ty x, e => isConst_eq x e
  | .assign (some o) id ty x, e => by
    simp only [emitE]
    by_cases ho : o = .rem
    · simp [ho, isConstE, Rv.isConst]
    · simp [ho, isConstE, isConst_loadLv]
  | .call f ty args, e => by
    by_cases hf : f < 170
    · simp [emitE, isConstE, hf, Rv.isConst]
    · simp [emitE, isConstE, hf, Rv.isConst]

mutual
theorem useE (par : Nat → Bool) (t : Bool) : ∀ (x : Exp) (e : Enc), Tabs par e → (t = true → tidyE par x = true) →
    Use t e (emitE x e).1 [(emitE x e).2.1] (emitE x e).2.2 ∧ Val e (emitE x e).2.1 (emitE x e).2.2
  | .int v, e, _, _ => ⟨Use.refl .., Val.const ..⟩
  | .bool v, e, _, _ => ⟨Use.refl .., Val.const ..⟩
  | .str v, e, _, _ => ⟨Use.refl .., Val.void ..⟩
  | .ident id ty, e, hT, _ => use_loadLv t e (hT.ok id).lv
  | .un op x, e, hT, ht => by
    have hc := isConst_eq x e
    obtain ⟨h, v⟩ := useE par t x e hT (fun h => by have := ht h; simp only [tidyE, Bool.and_eq_true] at this; exact this.2)
    have hm : op ≠ .minus ∨ t = false := by
      cases t with
      | false => exact .inr rfl
      | true => have := ht rfl; simp only [tidyE, Bool.and_eq_true, decide_eq_true_eq] at this; exact .inl this.1
    cases op <;> simp only [emitE]
    · have := h.arith (a := (emitE x e).2.1) (b := .const (-1)) (o := .mul) v.new v.var (fun h => by rw [h] at hm; simp at hm)
      exact ⟨this, v.mono (fun _ _ h => h) (by
        obtain ⟨_, _, _, _, h3⟩ := arith_split false (emitE x e).2.2 (emitE x e).2.1 (emitE x e).2.1 (.const (-1)) .mul (by simp)
        exact h3.keep)⟩
    · have := h.arith (a := (emitE x e).2.1) (b := .const (-1)) (o := .xor) v.new v.var (fun h => rfl)
      exact ⟨this, v.mono (fun _ _ h => h) (by
        obtain ⟨_, _, _, _, h3⟩ := arith_split false (emitE x e).2.2 (emitE x e).2.1 (emitE x e).2.1 (.const (-1)) .xor (by simp)
        exact h3.keep)⟩
    · exact ⟨h.emit (by simpa [sets] using v.new.opd v.var), v⟩
  | .not x, e, hT, ht => by
    obtain ⟨h, v⟩ := useE par t x e hT ht
    exact ⟨h.emit (by simpa [sets] using v.new.opd v.var), v⟩
  | .inc op id, e, hT, ht => by
    obtain ⟨h, v⟩ := use_loadLv t e (hT.ok id).lv
    have hc := isConst_loadLv e (e.table id)
    simp only [emitE]
    generalize loadLv e (e.table id) = r at *
    split
    · have h1 := h.arith (a := r.2.1) (b := .const (incBy op)) (o := .add) v.new v.var (fun h => rfl)
      obtain ⟨_, _, _, _, h3⟩ := arith_split false r.2.2 r.2.1 r.2.1 (.const (incBy op)) .add (by simp)
      have h4 := use_store t (arithOp r.2.2 r.2.1 r.2.1 (.const (incBy op)) .add).2 (hT.ok id).lv (v := r.2.1) (fun _ h => by rw [hc] at h; cases h)
      have h5 := h1.append h4
      rw [List.append_nil] at h5
      exact ⟨h5, v.mono (fun _ _ h => h) (fun i hi hb => h4.keep i hi (h3.keep i hi hb))⟩
    · have hg := get_use t r.2.2
      have hv := Val.get r.2.2
      generalize getRegister r.2.2 = p at *
      have h1 := hg.arith (a := r.2.1) (b := .const (incBy op)) (o := .add) hv.new hv.var (fun h => rfl)
      have h4 := use_store t (arithOp p.2 (.reg p.1 false) r.2.1 (.const (incBy op)) .add).2 (hT.ok id).lv (v := .reg p.1 false) (fun _ h => by cases h)
      have h5 := ((h1.append h4).free hv.new (ws := []) (by simp))
      simp only [List.nil_append] at h5
      have h6 := h.append h5
      rw [List.append_nil, ← List.append_assoc] at h6
      exact ⟨h6, v.mono (fun _ _ h => h) h5.keep⟩
  | .arith o a b, e, hT, ht => by
    have htt : t = true → tidyE par a = true ∧ tidyE par b = true ∧ tidyOp o (isConstE a) (isConstE b) = true := fun h => by
      have := ht h; simp only [tidyE, Bool.and_eq_true] at this; exact ⟨this.1.1, this.1.2, this.2⟩
    obtain ⟨h, v⟩ := useE par t a e hT (fun h => (htt h).1)
    have hT2 := hT.fix (fixE a e)
    have hca := isConst_eq a e
    simp only [emitE]
    generalize emitE a e = l at *
    obtain ⟨k, w⟩ := useE par t b l.2.2 hT2 (fun h => (htt h).2.1)
    have hcb := isConst_eq b l.2.2
    generalize emitE b l.2.2 = r at *
    have h1 := (h.append k).arith (a := l.2.1) (b := r.2.1) (o := o) v.new v.var (fun h => by rw [hca, hcb]; exact (htt h).2.2)
    obtain ⟨_, _, _, _, h3⟩ := arith_split false r.2.2 l.2.1 l.2.1 r.2.1 o (by simp)
    have hw := w.new.mono h.keep
    refine ⟨h1.freeR hw (by simp), v.mono (fun _ _ h => h) ?_⟩
    exact ((k.lax [r.2.1]).append h3 |>.freeR (ws := []) w.new (by simp)).keep
  | .cmp o a b, e, hT, ht => by
    have htt : t = true → tidyE par a = true ∧ tidyE par b = true ∧ isConstE a = false ∧ isConstE b = false := fun h => by
      have := ht h; simp only [tidyE, Bool.and_eq_true, Bool.not_eq_true'] at this; exact ⟨this.1.1.1, this.1.1.2, this.1.2, this.2⟩
    obtain ⟨h, v⟩ := useE par t a e hT (fun h => (htt h).1)
    have hT2 := hT.fix (fixE a e)
    have hca := isConst_eq a e
    simp only [emitE]
    generalize emitE a e = l at *
    obtain ⟨k, w⟩ := useE par t b l.2.2 hT2 (fun h => (htt h).2.1)
    have hcb := isConst_eq b l.2.2
    generalize emitE b l.2.2 = r at *
    have h1 := (h.append k).cmp (a := l.2.1) (b := r.2.1) (o := o) v.new v.var (fun h => by rw [hca, hcb]; exact (htt h).2.2)
    have hw := w.new.mono h.keep
    have hk : ∀ i, i ≤ 10 → r.2.2.busy i = true → (cmpOp r.2.2 l.2.1 l.2.1 r.2.1 o).2.busy i = true := fun i hi hb =>
      (use_toReg false _ r.2.1).keep i hi ((use_toReg false r.2.2 l.2.1).keep i hi hb)
    refine ⟨h1.freeR hw (by simp), v.mono (fun _ _ h => h) ?_⟩
    have hx : Use false l.2.2 (r.1) [r.2.1] (cmpOp r.2.2 l.2.1 l.2.1 r.2.1 o).2 := ⟨fun i hi hb => hk i hi (k.keep i hi hb), k.sets, fun h => (by cases h)⟩
    exact (hx.freeR (ws := []) w.new (by simp)).keep
  | .comma a b, e, hT, ht => by
    have htt : t = true → tidyE par a = true ∧ tidyE par b = true := fun h => by
      have := ht h; simp only [tidyE, Bool.and_eq_true] at this; exact this
    simp only [emitE]
    split
    · exact useE par t b e hT (fun h => (htt h).2)
    · obtain ⟨h, v⟩ := useE par t a e hT (fun h => (htt h).1)
      have hT2 := hT.fix ((fixE a e).trans (same_freeR _ (emitE a e).2.1).fix)
      have h1 := h.freeR (ws := []) v.new (by simp)
      obtain ⟨k, w⟩ := useE par t b _ hT2 (fun h => (htt h).2)
      exact ⟨h1.append k, w.mono h1.keep (fun _ _ h => h)⟩
  | .logic isOr a b, e, hT, ht => by
    have htt : t = true → tidyE par a = true ∧ tidyE par b = true := fun h => by
      have := ht h; simp only [tidyE, Bool.and_eq_true] at this; exact this
    simp only [emitE]
    obtain ⟨h, v⟩ := useE par t a e hT (fun h => (htt h).1)
    have hf := fixE a e
    generalize emitE a e = x at *
    have h0 : Use t e x.1 [x.2.1] { x.2.2 with lab := x.2.2.lab + 1 } := Use.right (e1 := x.2.2) rfl h
    have h1 := (h0.still (branch_sets (if isOr then .ne else .eq) x.2.1 ⟨.end, x.2.2.lab⟩)).freeR (ws := []) v.new (by simp)
    have hT2 : Tabs par (freeRvalue { x.2.2 with lab := x.2.2.lab + 1 } x.2.1) :=
      hT.fix ((hf.trans (⟨rfl, rfl, rfl, rfl⟩ : Fix x.2.2 { x.2.2 with lab := x.2.2.lab + 1 })).trans (same_freeR _ x.2.1).fix)
    obtain ⟨k, w⟩ := useE par t b _ hT2 (fun h => (htt h).2)
    exact ⟨(h1.append k).still rfl, w.mono h1.keep (fun _ _ h => h)⟩
  | .ternary c a b, e, hT, ht => by
    have htt : t = true → tidyE par c = true ∧ tidyE par a = true ∧ tidyE par b = true := fun h => by
      have := ht h; simp only [tidyE, Bool.and_eq_true] at this; exact ⟨this.1.1, this.1.2, this.2⟩
    simp only [emitE]
    obtain ⟨h, v⟩ := useE par t c e hT (fun h => (htt h).1)
    have hf := fixE c e
    generalize emitE c e = x at *
    have h0 : Use t e x.1 [x.2.1] { x.2.2 with lab := x.2.2.lab + 1 } := Use.right (e1 := x.2.2) rfl h
    have h1 := (h0.still (branch_sets .ne x.2.1 ⟨.else, x.2.2.lab⟩)).freeR (ws := []) v.new (by simp)
    have hT2 : Tabs par (freeRvalue { x.2.2 with lab := x.2.2.lab + 1 } x.2.1) :=
      hT.fix ((hf.trans (⟨rfl, rfl, rfl, rfl⟩ : Fix x.2.2 { x.2.2 with lab := x.2.2.lab + 1 })).trans (same_freeR _ x.2.1).fix)
    generalize freeRvalue { x.2.2 with lab := x.2.2.lab + 1 } x.2.1 = e1 at *
    have h2 := get_use t e1
    have v2 := Val.get e1
    have hT3 := hT2.fix (same_get e1).fix
    generalize getRegister e1 = p at *
    have hp := h1.append h2
    simp only [List.nil_append, List.append_nil] at hp
    have vp : New e (.reg p.1 false) := v2.new.mono h1.keep
    have hpo : ∀ r ∈ [p.1], fixed r ∨ ∃ i, i ≤ 10 ∧ r = i + 8 ∧ (i < 10 → e.busy i = false) := vp.opd (fun r h => by cases h)
    obtain ⟨ka, va⟩ := useE par t a p.2 hT3 (fun h => (htt h).2.1)
    have hfa := fixE a p.2
    generalize emitE a p.2 = l at *
    have ha := (hp.append ka).emit (d := moveTo p.1 l.2.1 ++ [.j ⟨.end, x.2.2.lab⟩, .label ⟨.else, x.2.2.lab⟩]) (by
      intro r hr
      have := (use_moveTo t e (hpo p.1 (by simp)) l.2.1 []).sets r
      simp only [List.flatMap_append, List.mem_append] at hr
      rcases hr with hr | hr
      · exact this hr
      · cases hr)
    have ha2 := ha.freeR (ws := [.reg p.1 false]) (va.new.mono hp.keep) (by simp)
    have hkeep1 := (ka.freeR (ws := []) va.new (by simp)).keep
    have hT4 := hT3.fix (hfa.trans (same_freeR _ l.2.1).fix)
    generalize freeRvalue l.2.2 l.2.1 = e2 at *
    obtain ⟨kb, vb⟩ := useE par t b e2 hT4 (fun h => (htt h).2.2)
    generalize emitE b e2 = r at *
    have hb := (ha2.append kb).emit (d := moveTo p.1 r.2.1 ++ [.label ⟨.end, x.2.2.lab⟩]) (by
      intro q hr
      have := (use_moveTo t e (hpo p.1 (by simp)) r.2.1 []).sets q
      simp only [List.flatMap_append, List.mem_append] at hr
      rcases hr with hr | hr
      · exact this hr
      · cases hr)
    have hb2 := hb.freeR (ws := [.reg p.1 false]) (vb.new.mono ha2.keep) (by simp)
    have hkeep2 := (kb.freeR (ws := []) vb.new (by simp)).keep
    refine ⟨by simpa only [List.append_assoc] using hb2, v2.mono h1.keep (fun i hi hx => hkeep2 i hi (hkeep1 i hi hx))⟩
  | .assign none id ty x, e, hT, ht => by
    have htt : t = true → tidyE par x = true ∧ ¬ (isConstE x = true ∧ par id = true) := fun h => by
      have := ht h; simp only [tidyE, Bool.and_eq_true, Bool.not_eq_true', Bool.and_eq_false_iff] at this
      exact ⟨this.1, fun hx => by rcases this.2 with h | h <;> simp_all⟩
    obtain ⟨h, v⟩ := useE par t x e hT (fun h => (htt h).1)
    have hc := isConst_eq x e
    simp only [emitE]
    generalize emitE x e = r at *
    have h4 := use_store t r.2.2 (hT.ok id).lv (v := r.2.1) (fun h1 h2 => by
      cases hl : e.table id with
      | stack d b => exact ⟨d, b, rfl⟩
      | reg q => exact absurd ⟨hc ▸ h2, hT.par id q hl⟩ (htt h1).2)
    exact ⟨by simpa only [List.append_nil] using h.append h4, v.mono (fun _ _ h => h) h4.keep⟩
  | .assign (some o) id ty x, e, hT, ht => by
    have htt : t = true → tidyE par x = true ∧ o ≠ .rem ∧ tidyOp o false (isConstE x) = true := fun h => by
      have := ht h; simp only [tidyE, Bool.and_eq_true, decide_eq_true_eq] at this
      exact ⟨this.1.1, this.1.2, this.2⟩
    obtain ⟨h, v⟩ := useE par t x e hT (fun h => (htt h).1)
    have hc := isConst_eq x e
    simp only [emitE]
    generalize emitE x e = r at *
    obtain ⟨k, w⟩ := use_loadLv t r.2.2 (hT.ok id).lv
    have hct := isConst_loadLv r.2.2 (e.table id)
    generalize loadLv r.2.2 (e.table id) = l at *
    split
    · rename_i ho
      cases t with
      | true => exact absurd ho (htt rfl).2.1
      | false => exact ⟨(h.append k).lax _, Val.void ..⟩
    · have hw := w.new.mono h.keep
      have h1 := (h.append k).arith (a := l.2.1) (b := r.2.1) (o := o) hw w.var (fun h => by rw [hct, hc]; exact (htt h).2.2)
      have h2 := h1.freeR (ws := [l.2.1]) v.new (by simp)
      obtain ⟨_, _, _, _, h3⟩ := arith_split false l.2.2 l.2.1 l.2.1 r.2.1 o (by simp)
      have h4 := use_store t (freeRvalue (arithOp l.2.2 l.2.1 l.2.1 r.2.1 o).2 r.2.1) (hT.ok id).lv (v := l.2.1) (fun _ h => by rw [hct] at h; cases h)
      refine ⟨by simpa only [List.append_nil] using h2.append h4, hw, ?_, w.var⟩
      -- the register of the answer is not that of the operand
      have hh := w.hold.mono h3.keep
      refine Hold.mono (e := freeRvalue (arithOp l.2.2 l.2.1 l.2.1 r.2.1 o).2 r.2.1) ?_ h4.keep
      intro i hi hl
      have hb := hh i hi hl
      have hne : i < 10 → r.2.1 ≠ .reg (i + 8) false := by
        intro hlt hr
        have a1 := v.hold i hi hr
        rcases w.new _ hl with h | ⟨j, hj, he, hjb⟩
        · simp only [R_V0] at h; omega
        · have : j = i := by omega
          subst this
          rw [hjb hlt] at a1; cases a1
      generalize (arithOp l.2.2 l.2.1 l.2.1 r.2.1 o).2 = e9 at hb
      cases hr : r.2.1 with
      | const v => exact hb
      | void => exact hb
      | reg q bb =>
        cases bb with
        | true => exact hb
        | false =>
          simp only [freeRvalue, freeRegister]
          split
          · rename_i j hp
            simp only [Enc.mark]
            split
            · rename_i hij
              subst hij
              rcases v.new q hr with h | ⟨m, hm, he, -⟩
              · rw [h] at hp; cases hp
              · rw [he, place_i hm] at hp
                split at hp
                · cases hp; rw [he] at hr; exact absurd hr (hne (by omega))
                · cases hp
            · exact hb
          · exact hb
  | .call f ty args, e, hT, ht => by
    by_cases hf : f < 170
    · simp only [emitE, if_pos hf]
      exact ⟨Use.refl .., Val.void ..⟩
    · simp only [emitE, if_neg hf]
      have ha := useA par t args 0 e hT ht
      have h1 := (((use_moveSp t e (4 - 4 * (count args : Int))).append ha).emit (d := [.jal ⟨.func, f⟩]) (by
        intro r hr
        simp only [List.flatMap_cons, List.flatMap_nil, sets, List.append_nil, List.mem_singleton] at hr
        exact .inl (.inr (.inr (.inr hr))))).append (use_restore t (min (count args) 4) 0 _ (by omega)) |>.append (use_moveSp t _ (4 * (count args : Int) - 4))
      refine ⟨h1.weaken (by simp), ?_, ?_, ?_⟩
      · intro r hr; cases hr; exact .inl rfl
      · intro i hi hr; simp only [Rv.reg.injEq, R_V0] at hr; omega
      · intro r hr; cases hr

theorem useA (par : Nat → Bool) (t : Bool) : ∀ (args : Args) (i : Nat) (e : Enc), Tabs par e → (t = true → tidyA par args = true) → Use t e (emitA i args e).1 [] (emitA i args e).2
  | .nil, i, e, _, _ => Use.refl ..
  | .cons x rest, i, e, hT, ht => by
    have htt : t = true → tidyE par x = true ∧ tidyA par rest = true := fun h => by
      have := ht h; simp only [tidyA, Bool.and_eq_true] at this; exact this
    obtain ⟨h, v⟩ := useE par t x e hT (fun h => (htt h).1)
    have hf := fixE x e
    simp only [emitA]
    generalize emitE x e = r at *
    have h1 := use_toReg t r.2.2 r.2.1
    have v1 := val_toReg v h.keep
    have h2 : Use t e (r.1 ++ (toReg r.2.2 r.2.1).1) [(toReg r.2.2 r.2.1).2.1] (toReg r.2.2 r.2.1).2.2 := by
      cases hc : r.2.1.isConst with
      | true =>
        rw [hc] at h1
        have hx : ∀ i, r.2.1 ≠ .reg i false := by intro i hi; rw [hi] at hc; cases hc
        have h3 := h.append h1
        refine { h3 with back := fun ht h8 i hi hb => ?_ }
        rcases h3.back ht h8 i hi hb with hb | hb
        · exact .inl hb
        · simp only [if_true, List.singleton_append, List.mem_cons, List.not_mem_nil, or_false] at hb
          rcases hb with hb | hb
          · exact absurd hb.symm (hx _)
          · exact .inr (by rw [hb]; simp)
      | false =>
        rw [hc] at h1
        have hx : (toReg r.2.2 r.2.1).2.1 = r.2.1 := by unfold toReg; rw [hc]; rfl
        rw [hx]
        simpa using h.append h1
    have hfr := (same_toReg r.2.2 r.2.1).fix
    have hcv : (toReg r.2.2 r.2.1).2.1.isConst = false := by
      unfold toReg; split
      · rfl
      · rename_i h; simpa using h
    generalize toReg r.2.2 r.2.1 = w at *
    have h3 := use_store t w.2.2 (l := .stack (4 * i) R_SP) rfl (v := if i < 4 then .reg (R_A0 + i) false else w.2.1) (fun _ h => ⟨_, _, rfl⟩)
    have hfs := (same_store w.2.2 (.stack (4 * i) R_SP) (if i < 4 then .reg (R_A0 + i) false else w.2.1)).fix
    generalize store w.2.2 (.stack (4 * i) R_SP) (if i < 4 then .reg (R_A0 + i) false else w.2.1) = s at *
    have h4 := ((h2.append h3).emit (d := if i < 4 then moveTo (R_A0 + i) w.2.1 else []) (by
      intro q hq
      split at hq
      · rename_i h4; exact (use_moveTo t e (.inl (fixed_arg h4)) w.2.1 []).sets q hq
      · cases hq)).freeR (ws := []) v1.new (by simp)
    have hT2 := hT.fix ((hf.trans hfr).trans (hfs.trans (same_freeR _ w.2.1).fix))
    have h5 := h4.append (useA par t rest (i + 1) _ hT2 (fun h => (htt h).2))
    simpa only [List.append_assoc, List.append_nil] using h5
end

/-! ## Declarations and statements -/

/-- Text that uses registers as `Use` says and leaves the places of variables good. -/
structure Run (par : Nat → Bool) (t : Bool) (e : Enc) (c : List Instr) (e' : Enc) : Prop where
  use : Use t e c [] e'
  tabs : Tabs par e'

theorem Run.refl {par : Nat → Bool} {e : Enc} (t : Bool) (h : Tabs par e) : Run par t e [] e := ⟨Use.refl .., h⟩
theorem Run.append {par : Nat → Bool} {t : Bool} {e e1 e2 : Enc} {c d : List Instr} (h : Run par t e c e1) (k : Run par t e1 d e2) : Run par t e (c ++ d) e2 :=
  ⟨by simpa using h.use.append k.use, k.tabs⟩
theorem Run.still {par : Nat → Bool} {t : Bool} {e e' : Enc} {c d : List Instr} (h : Run par t e c e') (k : d.flatMap Mips.sets = []) : Run par t e (c ++ d) e' := ⟨h.use.still k, h.tabs⟩
theorem Run.right {par : Nat → Bool} {t : Bool} {e e1 : Enc} {c : List Instr} (h : Run par t e c e1) (e' : Enc) (hb : e'.busy = e1.busy) (ht : e'.table = e1.table) : Run par t e c e' :=
  ⟨Use.right hb h.use, ⟨fun id => ht ▸ h.tabs.ok id, fun id r => ht ▸ h.tabs.par id r⟩⟩
theorem Run.left {par : Nat → Bool} {t : Bool} {e e' : Enc} {c : List Instr} (e1 : Enc) (h : Run par t e1 c e') (hb : e1.busy = e.busy) : Run par t e c e' :=
  ⟨Use.left hb h.use, h.tabs⟩

/-- An expression with the branch on its value. -/
theorem run_cond {par : Nat → Bool} {t : Bool} {x : Exp} {e : Enc} (hT : Tabs par e) (ht : t = true → tidyE par x = true) (c : Cmp) (l : Label) (n : Nat) :
    Run par t e ((emitE x e).1 ++ condBranch c (emitE x e).2.1 l) (freeRvalue { (emitE x e).2.2 with lab := n } (emitE x e).2.1) := by
  obtain ⟨h, v⟩ := useE par t x e hT ht
  have hf := hT.fix (fixE x e)
  generalize emitE x e = r at *
  have h0 : Use t e r.1 [r.2.1] { r.2.2 with lab := n } := Use.right (e1 := r.2.2) rfl h
  exact ⟨(h0.still (branch_sets c r.2.1 l)).freeR v.new (by simp), hf.fix (Fix.trans (b := { r.2.2 with lab := n }) ⟨rfl, rfl, rfl, rfl⟩ (same_freeR _ _).fix)⟩

theorem run_void {par : Nat → Bool} {t : Bool} {x : Exp} {e : Enc} (hT : Tabs par e) (ht : t = true → tidyE par x = true) : Run par t e (emitVoid x e).1 (emitVoid x e).2 := by
  unfold emitVoid
  split
  · exact Run.refl t hT
  · obtain ⟨h, v⟩ := useE par t x e hT ht
    exact ⟨h.freeR v.new (by simp), (hT.fix (fixE x e)).fix (same_freeR _ _).fix⟩

theorem tabs_add {par : Nat → Bool} {e : Enc} (h : Tabs par e) (isLocal : Nat → Bool) (id : Nat) : Tabs par (addVar isLocal e id) ∧ ∃ d b, (addVar isLocal e id).table id = .stack d b := by
  unfold addVar
  split
  · refine ⟨⟨fun j => ?_, fun j r => ?_⟩, _, _, if_pos rfl⟩
    · show Lv.placed (if j = id then _ else _)
      split
      · exact .inl rfl
      · exact h.ok j
    · show (if j = id then _ else _) = _ → _
      split
      · intro h; cases h
      · exact h.par j r
  · refine ⟨⟨fun j => ?_, fun j r => ?_⟩, _, _, if_pos rfl⟩
    · show Lv.placed (if j = id then _ else _)
      split
      · exact .inr rfl
      · exact h.ok j
    · show (if j = id then _ else _) = _ → _
      split
      · intro h; cases h
      · exact h.par j r

theorem busy_add (isLocal : Nat → Bool) (e : Enc) (id : Nat) : (addVar isLocal e id).busy = e.busy := by unfold addVar; split <;> rfl

theorem run_V {par : Nat → Bool} {t : Bool} {e : Enc} (isLocal : Nat → Bool) (d : Nat × Ty × Option Exp) (hT : Tabs par e) (ht : t = true → tidyO par d.2.2 = true) :
    Run par t e (emitV isLocal d e).1 (emitV isLocal d e).2 := by
  obtain ⟨hT2, q, b, hq⟩ := tabs_add hT isLocal d.1
  refine Run.left (addVar isLocal e d.1) ?_ (busy_add ..)
  unfold emitV
  generalize addVar isLocal e d.1 = e1 at *
  cases hx : d.2.2 with
  | none => exact Run.refl t hT2
  | some x =>
    obtain ⟨h, v⟩ := useE par t x e1 hT2 (fun h => by have := ht h; rwa [hx] at this)
    have hf := hT2.fix (fixE x e1)
    simp only
    generalize emitE x e1 = r at *
    have h4 := use_store t r.2.2 (hT2.ok d.1).lv (v := r.2.1) (fun _ _ => ⟨q, b, hq⟩)
    have h5 := h.append h4
    rw [List.append_nil] at h5
    exact ⟨h5.freeR v.new (by simp), hf.fix ((same_store _ _ _).trans (same_freeR _ _)).fix⟩

theorem run_D {par : Nat → Bool} {t : Bool} (isLocal : Nat → Bool) : ∀ (l : List (Nat × Ty × Option Exp)) (e : Enc), Tabs par e → (t = true → (l.all fun d => tidyO par d.2.2) = true) →
    Run par t e (emitD isLocal l e).1 (emitD isLocal l e).2
  | [], e, hT, _ => Run.refl t hT
  | d :: l, e, hT, ht => by
    simp only [List.all_cons, Bool.and_eq_true] at ht
    have h1 := run_V isLocal d hT (fun h => (ht h).1)
    exact h1.append (run_D isLocal l _ h1.tabs (fun h => (ht h).2))

theorem run_condOf {par : Nat → Bool} {t : Bool} {e : Enc} (l : Label) : ∀ (c : Option Exp), Tabs par e → (t = true → tidyO par c = true) → Run par t e (condOf l c e).1 (condOf l c e).2
  | none, hT, _ => Run.refl t hT
  | some c, hT, ht => run_cond hT ht .eq l (emitE c e).2.2.lab

theorem run_stepOf {par : Nat → Bool} {t : Bool} {e : Enc} : ∀ (c : Option Exp), Tabs par e → (t = true → tidyO par c = true) → Run par t e (stepOf c e).1 (stepOf c e).2
  | none, hT, _ => Run.refl t hT
  | some _, hT, ht => run_void hT ht

theorem run_dispatch {par : Nat → Bool} (cond : Rv) : ∀ (b : Stmts) (e : Enc), Tabs par e → Run par false e (dispatch cond b e).1 (dispatch cond b e).2.2
  | .nil, e, hT => Run.refl _ hT
  | .cons (.case_ v s) rest, e, hT => by
    simp only [dispatch]
    have hT1 : Tabs par { e with caseLab := e.caseLab + 1 } := hT.fix ⟨rfl, rfl, rfl, rfl⟩
    refine Run.left { e with caseLab := e.caseLab + 1 } ?_ rfl
    generalize { e with caseLab := e.caseLab + 1 } = e1 at *
    have hg := get_use false e1
    have hv := Val.get e1
    have hf := hT1.fix (same_get e1).fix
    generalize getRegister e1 = g at *
    have h1 := hg.cmp (d := .reg g.1 false) (a := cond) (b := literal v) (o := .eq) hv.new hv.var (by simp)
    have h2 := ((h1.still (branch_sets .eq (.reg g.1 false) ⟨.case, e.caseLab⟩)).free (ws := []) hv.new (by simp))
    have hT2 := hf.fix ((fix_cmp g.2 (.reg g.1 false) cond (literal v) .eq).trans (same_free _ g.1).fix)
    have := (⟨h2, hT2⟩ : Run par false e1 _ _).append (run_dispatch cond rest _ hT2)
    simpa only [List.nil_append, List.append_assoc] using this
  | .cons (.default_ s) rest, e, hT => by
    simp only [dispatch]
    exact Run.left { e with caseLab := e.caseLab + 1 } (run_dispatch cond rest _ (hT.fix ⟨rfl, rfl, rfl, rfl⟩)) rfl
  | .cons .skip rest, e, hT | .cons (.expr _) rest, e, hT | .cons (.decls _) rest, e, hT | .cons (.if_ _ _) rest, e, hT | .cons (.ifElse _ _ _) rest, e, hT
  | .cons (.while_ _ _) rest, e, hT | .cons (.do_ _ _) rest, e, hT | .cons (.for_ _ _ _ _) rest, e, hT | .cons (.block _) rest, e, hT | .cons (.switch_ _ _) rest, e, hT
  | .cons .break_ rest, e, hT | .cons .continue_ rest, e, hT | .cons (.return_ _) rest, e, hT => run_dispatch cond rest e hT

mutual
theorem runS (par : Nat → Bool) (t : Bool) (isLocal : Nat → Bool) : ∀ (s : Stmt) (e : Enc), Tabs par e → (t = true → tidyS par s = true) → Run par t e (emitS isLocal s e).1 (emitS isLocal s e).2
  | .skip, e, hT, _ => Run.refl t hT
  | .expr x, e, hT, ht => run_void hT ht
  | .decls l, e, hT, ht => run_D isLocal l e hT ht
  | .if_ c a, e, hT, ht => by
    have htt : t = true → tidyE par c = true ∧ tidyS par a = true := fun h => by have := ht h; simpa only [tidyS, Bool.and_eq_true] using this
    simp only [emitS]
    have h1 := run_cond hT (fun h => (htt h).1) .eq ⟨.end, (emitE c e).2.2.lab⟩ ((emitE c e).2.2.lab + 1)
    exact (h1.append (runS par t isLocal a _ h1.tabs (fun h => (htt h).2))).still rfl
  | .ifElse c a b, e, hT, ht => by
    have htt : t = true → tidyE par c = true ∧ tidyS par a = true ∧ tidyS par b = true := fun h => by
      have := ht h; simp only [tidyS, Bool.and_eq_true] at this; exact ⟨this.1.1, this.1.2, this.2⟩
    simp only [emitS]
    have h1 := run_cond hT (fun h => (htt h).1) .eq ⟨.else, (emitE c e).2.2.lab⟩ ((emitE c e).2.2.lab + 1)
    have h2 := (h1.append (runS par t isLocal a _ h1.tabs (fun h => (htt h).2.1))).still (d := [.j ⟨.end, (emitE c e).2.2.lab⟩, .label ⟨.else, (emitE c e).2.2.lab⟩]) rfl
    exact (h2.append (runS par t isLocal b _ h2.tabs (fun h => (htt h).2.2))).still rfl
  | .while_ c b, e, hT, ht => by
    have htt : t = true → tidyE par c = true ∧ tidyS par b = true := fun h => by have := ht h; simpa only [tidyS, Bool.and_eq_true] using this
    simp only [emitS]
    have hT1 : Tabs par { e with lab := e.lab + 1, cont := ⟨.beginCycle, e.lab⟩, brk := ⟨.end, e.lab⟩ } := hT.fix ⟨rfl, rfl, rfl, rfl⟩
    refine Run.left { e with lab := e.lab + 1, cont := ⟨.beginCycle, e.lab⟩, brk := ⟨.end, e.lab⟩ } ?_ rfl
    generalize { e with lab := e.lab + 1, cont := ⟨.beginCycle, e.lab⟩, brk := ⟨.end, e.lab⟩ } = e1 at *
    have h0 : Run par t e1 [.label ⟨.beginCycle, e.lab⟩] e1 := (Run.refl t hT1).still rfl
    have h1 := run_cond hT1 (fun h => (htt h).1) .eq ⟨.end, e.lab⟩ (emitE c e1).2.2.lab
    have h2 := (h0.append h1).append (runS par t isLocal b _ h1.tabs (fun h => (htt h).2))
    have h3 := (h2.still (d := [.j ⟨.beginCycle, e.lab⟩, .label ⟨.end, e.lab⟩]) rfl).right { (emitS isLocal b (freeRvalue (emitE c e1).2.2 (emitE c e1).2.1)).2 with cont := e.cont, brk := e.brk } rfl rfl
    simpa only [List.append_assoc] using h3
  | .do_ b c, e, hT, ht => by
    have htt : t = true → tidyE par c = true ∧ tidyS par b = true := fun h => by have := ht h; simpa only [tidyS, Bool.and_eq_true] using this
    simp only [emitS]
    have hT1 : Tabs par { e with lab := e.lab + 1, cont := ⟨.next, e.lab⟩, brk := ⟨.end, e.lab⟩ } := hT.fix ⟨rfl, rfl, rfl, rfl⟩
    refine Run.left { e with lab := e.lab + 1, cont := ⟨.next, e.lab⟩, brk := ⟨.end, e.lab⟩ } ?_ rfl
    generalize { e with lab := e.lab + 1, cont := ⟨.next, e.lab⟩, brk := ⟨.end, e.lab⟩ } = e1 at *
    have h0 : Run par t e1 [.label ⟨.beginCycle, e.lab⟩] e1 := (Run.refl t hT1).still rfl
    have h1 := (h0.append (runS par t isLocal b e1 hT1 (fun h => (htt h).2))).still (d := [.label ⟨.next, e.lab⟩]) rfl
    have h2 := h1.append (run_cond h1.tabs (fun h => (htt h).1) .ne ⟨.beginCycle, e.lab⟩ (emitE c (emitS isLocal b e1).2).2.2.lab)
    have h3 := (h2.still (d := [.label ⟨.end, e.lab⟩]) rfl).right
      { freeRvalue (emitE c (emitS isLocal b e1).2).2.2 (emitE c (emitS isLocal b e1).2).2.1 with cont := e.cont, brk := e.brk } rfl rfl
    simpa only [List.append_assoc] using h3
  | .for_ i c inc b, e, hT, ht => by
    have htt : t = true → tidyS par i = true ∧ tidyO par c = true ∧ tidyO par inc = true ∧ tidyS par b = true := fun h => by
      have := ht h; simp only [tidyS, Bool.and_eq_true] at this; exact ⟨this.1.1.1, this.1.1.2, this.1.2, this.2⟩
    simp only [emitS]
    have h0 := (runS par t isLocal i e hT (fun h => (htt h).1)).right
      { (emitS isLocal i e).2 with lab := (emitS isLocal i e).2.lab + 1, cont := ⟨.beginCycle, (emitS isLocal i e).2.lab⟩, brk := ⟨.end, (emitS isLocal i e).2.lab⟩ } rfl rfl
    have h1 := h0.still (d := [.label ⟨.beginCycle, (emitS isLocal i e).2.lab⟩]) rfl
    have h2 := h1.append (run_condOf ⟨.end, (emitS isLocal i e).2.lab⟩ c h0.tabs (fun h => (htt h).2.1))
    have h3 := h2.append (runS par t isLocal b _ h2.tabs (fun h => (htt h).2.2.2))
    have h4 := h3.append (run_stepOf inc h3.tabs (fun h => (htt h).2.2.1))
    exact ((h4.still (d := [.j ⟨.beginCycle, (emitS isLocal i e).2.lab⟩, .label ⟨.end, (emitS isLocal i e).2.lab⟩]) rfl).right _ rfl rfl)
  | .block b, e, hT, ht => (runB par t isLocal b e hT ht).right _ rfl rfl
  | .switch_ c b, e, hT, ht => by
    have htf : t = false := by cases t with
      | false => rfl
      | true => have := ht rfl; simp only [tidyS, Bool.false_eq_true] at this
    subst htf
    simp only [emitS]
    have hT1 : Tabs par { e with lab := e.lab + 1, brk := ⟨.end, e.lab⟩ } := hT.fix ⟨rfl, rfl, rfl, rfl⟩
    refine Run.left { e with lab := e.lab + 1, brk := ⟨.end, e.lab⟩ } ?_ rfl
    generalize { e with lab := e.lab + 1, brk := ⟨.end, e.lab⟩ } = e1 at *
    obtain ⟨h, v⟩ := useE par false c e1 hT1 (by simp)
    have hf := hT1.fix (fixE c e1)
    generalize emitE c e1 = r at *
    have h1 := h.append (use_toReg false r.2.2 r.2.1)
    have v1 := val_toReg v h.keep
    have hf1 := hf.fix (same_toReg r.2.2 r.2.1).fix
    generalize toReg r.2.2 r.2.1 = w at *
    have h2 := run_dispatch w.2.1 b w.2.2 hf1
    have h3 : Use false e1 (r.1 ++ w.1 ++ (dispatch w.2.1 b w.2.2).1) [w.2.1] (dispatch w.2.1 b w.2.2).2.2 := (h1.append h2.use).lax _
    have h4 := (h3.freeR (ws := []) v1.new (by simp)).still (d := [.j (otherwise (dispatch w.2.1 b w.2.2).2.1 ⟨.end, e.lab⟩)]) rfl
    have hT4 := h2.tabs.fix (same_freeR (dispatch w.2.1 b w.2.2).2.2 w.2.1).fix
    have h5 := (⟨h4, hT4⟩ : Run par false e1 _ _).append (runW par false isLocal b e.caseLab _ hT4 (by simp))
    exact (h5.still rfl).right _ rfl rfl
  | .case_ _ _, e, hT, _ => Run.refl t hT
  | .default_ _, e, hT, _ => Run.refl t hT
  | .break_, e, hT, _ => (Run.refl t hT).still rfl
  | .continue_, e, hT, _ => (Run.refl t hT).still rfl
  | .return_ none, e, hT, _ => (Run.refl t hT).still rfl
  | .return_ (some x), e, hT, ht => by
    have htt : t = true → tidyE par x = true ∧ isConstE x = false := fun h => by have := ht h; simpa only [tidyS, Bool.and_eq_true, Bool.not_eq_true'] using this
    obtain ⟨h, v⟩ := useE par t x e hT (fun h => (htt h).1)
    have hf := hT.fix (fixE x e)
    have hc := isConst_eq x e
    simp only [emitS]
    generalize emitE x e = r at *
    have h4 := use_store t r.2.2 (l := .reg R_V0) (.inl rfl) (v := r.2.1) (fun h1 h2 => by rw [hc, (htt h1).2] at h2; cases h2)
    have h5 := h.append h4
    rw [List.append_nil] at h5
    exact ⟨(h5.still rfl).freeR v.new (by simp), hf.fix ((same_store _ _ _).trans (same_freeR _ _)).fix⟩

theorem runB (par : Nat → Bool) (t : Bool) (isLocal : Nat → Bool) : ∀ (b : Stmts) (e : Enc), Tabs par e → (t = true → tidyB par b = true) → Run par t e (emitB isLocal b e).1 (emitB isLocal b e).2
  | .nil, e, hT, _ => Run.refl t hT
  | .cons s rest, e, hT, ht => by
    have htt : t = true → tidyS par s = true ∧ tidyB par rest = true := fun h => by have := ht h; simpa only [tidyB, Bool.and_eq_true] using this
    have h1 := runS par t isLocal s e hT (fun h => (htt h).1)
    exact h1.append (runB par t isLocal rest _ h1.tabs (fun h => (htt h).2))

theorem runW (par : Nat → Bool) (t : Bool) (isLocal : Nat → Bool) : ∀ (b : Stmts) (k : Nat) (e : Enc), Tabs par e → (t = true → False) → Run par t e (emitW isLocal b k e).1 (emitW isLocal b k e).2
  | .nil, _, e, hT, _ => Run.refl t hT
  | .cons (.case_ v s) rest, k, e, hT, ht => by
    have h0 : Run par t e [.label ⟨.case, k⟩] e := (Run.refl t hT).still rfl
    have h1 := h0.append (runS par t isLocal s e hT (fun h => (ht h).elim))
    exact h1.append (runW par t isLocal rest (k + 1) _ h1.tabs ht)
  | .cons (.default_ s) rest, k, e, hT, ht => by
    have h0 : Run par t e [.label ⟨.case, k⟩] e := (Run.refl t hT).still rfl
    have h1 := h0.append (runS par t isLocal s e hT (fun h => (ht h).elim))
    exact h1.append (runW par t isLocal rest (k + 1) _ h1.tabs ht)
  | .cons .skip rest, k, e, hT, ht => by
    have h1 := runS par t isLocal .skip e hT (fun h => (ht h).elim)
    exact h1.append (runW par t isLocal rest k _ h1.tabs ht)
  | .cons (.expr x) rest, k, e, hT, ht => by
    have h1 := runS par t isLocal (.expr x) e hT (fun h => (ht h).elim)
    exact h1.append (runW par t isLocal rest k _ h1.tabs ht)
  | .cons (.decls l) rest, k, e, hT, ht => by
    have h1 := runS par t isLocal (.decls l) e hT (fun h => (ht h).elim)
    exact h1.append (runW par t isLocal rest k _ h1.tabs ht)
  | .cons (.if_ c a) rest, k, e, hT, ht => by
    have h1 := runS par t isLocal (.if_ c a) e hT (fun h => (ht h).elim)
    exact h1.append (runW par t isLocal rest k _ h1.tabs ht)
  | .cons (.ifElse c a b) rest, k, e, hT, ht => by
    have h1 := runS par t isLocal (.ifElse c a b) e hT (fun h => (ht h).elim)
    exact h1.append (runW par t isLocal rest k _ h1.tabs ht)
  | .cons (.while_ c a) rest, k, e, hT, ht => by
    have h1 := runS par t isLocal (.while_ c a) e hT (fun h => (ht h).elim)
    exact h1.append (runW par t isLocal rest k _ h1.tabs ht)
  | .cons (.do_ a c) rest, k, e, hT, ht => by
    have h1 := runS par t isLocal (.do_ a c) e hT (fun h => (ht h).elim)
    exact h1.append (runW par t isLocal rest k _ h1.tabs ht)
  | .cons (.for_ i c s a) rest, k, e, hT, ht => by
    have h1 := runS par t isLocal (.for_ i c s a) e hT (fun h => (ht h).elim)
    exact h1.append (runW par t isLocal rest k _ h1.tabs ht)
  | .cons (.block a) rest, k, e, hT, ht => by
    have h1 := runS par t isLocal (.block a) e hT (fun h => (ht h).elim)
    exact h1.append (runW par t isLocal rest k _ h1.tabs ht)
  | .cons (.switch_ c a) rest, k, e, hT, ht => by
    have h1 := runS par t isLocal (.switch_ c a) e hT (fun h => (ht h).elim)
    exact h1.append (runW par t isLocal rest k _ h1.tabs ht)
  | .cons .break_ rest, k, e, hT, ht => by
    have h1 := runS par t isLocal .break_ e hT (fun h => (ht h).elim)
    exact h1.append (runW par t isLocal rest k _ h1.tabs ht)
  | .cons .continue_ rest, k, e, hT, ht => by
    have h1 := runS par t isLocal .continue_ e hT (fun h => (ht h).elim)
    exact h1.append (runW par t isLocal rest k _ h1.tabs ht)
  | .cons (.return_ x) rest, k, e, hT, ht => by
    have h1 := runS par t isLocal (.return_ x) e hT (fun h => (ht h).elim)
    exact h1.append (runW par t isLocal rest k _ h1.tabs ht)
end

theorem tabs_params {par : Nat → Bool} : ∀ (l : List (Nat × Ty)) (i : Nat) (e : Enc), Tabs par e → (∀ p ∈ l, par p.1 = true) → Tabs par (params e i l)
  | [], i, e, h, _ => h
  | (id, ty) :: l, i, e, h, hp => by
    refine tabs_params l (i + 1) _ ⟨fun j => ?_, fun j r => ?_⟩ (fun p hq => hp p (List.mem_cons_of_mem _ hq))
    · show Lv.placed (if j = id then _ else _)
      split
      · split
        · exact ⟨by simp only [R_A0]; omega, by simp only [R_A0]; omega⟩
        · exact .inl rfl
      · exact h.ok j
    · show (if j = id then _ else _) = _ → _
      split
      · rename_i hj
        intro _
        rw [hj]
        exact hp (id, ty) (List.mem_cons_self ..)
      · exact h.par j r

theorem busy_params : ∀ (l : List (Nat × Ty)) (i : Nat) (e : Enc), (params e i l).busy = e.busy
  | [], _, _ => rfl
  | (_, _) :: l, i, _ => busy_params l (i + 1) _

/-- The state behind a function, and what its body does to registers. -/
theorem func_run {par : Nat → Bool} {t : Bool} (isLocal : Nat → Bool) (main : Nat) (f : Func) (e : Enc) (hT : Tabs par e) (hp : ∀ p ∈ f.params, par p.1 = true)
    (ht : t = true → tidyB par f.body = true) :
    Run par t e (emitS isLocal (.block f.body) (params { e with fn := f.id, maxd := 0, scope := 0 } 0 f.params)).1 (emitF isLocal main f e).2 := by
  have h0 : Tabs par { e with fn := f.id, maxd := 0, scope := 0 } := ⟨hT.ok, hT.par⟩
  have h1 := tabs_params f.params 0 _ h0 hp
  exact Run.left _ (runS par t isLocal (.block f.body) _ h1 ht) (busy_params ..)

/-- The state behind a unit. -/
theorem unit_run {par : Nat → Bool} {t : Bool} (isLocal : Nat → Bool) (main : Nat) : ∀ (l : List Top) (e : Enc), Tabs par e → (∀ x ∈ l, parT par x) → (t = true → ∀ x ∈ l, tidyT par x) →
    Tabs par (emitU isLocal main l e).2 ∧ (∀ i, i ≤ 10 → e.busy i = true → (emitU isLocal main l e).2.busy i = true) ∧
      (t = true → (emitU isLocal main l e).2.busy 8 = false → ∀ i, i < 8 → (emitU isLocal main l e).2.busy i = true → e.busy i = true)
  | [], e, hT, _, _ => ⟨hT, fun _ _ h => h, fun _ _ _ _ h => h⟩
  | .var d :: l, e, hT, hp, ht => by
    have h1 := run_V isLocal d hT (fun h => ht h _ (List.mem_cons_self ..))
    obtain ⟨h2, h3, h4⟩ := unit_run isLocal main l _ h1.tabs (fun x hx => hp x (List.mem_cons_of_mem _ hx)) (fun h x hx => ht h x (List.mem_cons_of_mem _ hx))
    refine ⟨h2, fun i hi hb => h3 i hi (h1.use.keep i hi hb), fun ht h8 i hi hb => ?_⟩
    have h8' : (emitV isLocal d e).2.busy 8 = false := by
      cases hx : (emitV isLocal d e).2.busy 8 with
      | false => rfl
      | true => have := h3 8 (by omega) hx; simp only [emitU] at h8; rw [this] at h8; cases h8
    rcases h1.use.back ht h8' i hi (h4 ht h8 i hi hb) with h | h
    · exact h
    · cases h
  | .func f :: l, e, hT, hp, ht => by
    have h1 := func_run isLocal main f e hT (hp _ (List.mem_cons_self ..)) (fun h => ht h _ (List.mem_cons_self ..))
    obtain ⟨h2, h3, h4⟩ := unit_run isLocal main l _ h1.tabs (fun x hx => hp x (List.mem_cons_of_mem _ hx)) (fun h x hx => ht h x (List.mem_cons_of_mem _ hx))
    refine ⟨h2, fun i hi hb => h3 i hi (h1.use.keep i hi hb), fun ht h8 i hi hb => ?_⟩
    have h8' : (emitF isLocal main f e).2.busy 8 = false := by
      cases hx : (emitF isLocal main f e).2.busy 8 with
      | false => rfl
      | true => have := h3 8 (by omega) hx; simp only [emitU] at h8; rw [this] at h8; cases h8
    rcases h1.use.back ht h8' i hi (h4 ht h8 i hi hb) with h | h
    · exact h
    · cases h

end RuC.Mips
