import Verif.Mips.Frag
import Verif.Mips.Temps
import Verif.Llvm.Arith

/-!
# Lemmas: text without jumps
-/

namespace RuC.Mips
open Llvm (Ty Arith Cmp Un Inc Exp Args Stmt Stmts Func V World S arithV unV incV fit)

/-- Instructions that are followed by the next one. -/
def flat : Instr → Bool
  | .br .. | .j _ | .jal _ | .jr _ => false
  | _ => true

/-- A text without jumps is run from its beginning to its end. -/
def runL : List Instr → M → Option M
  | [], m => some m
  | i :: c, m => if flat i then (exec [] m i).bind (runL c) else none

theorem runL_append (a b : List Instr) (m : M) : runL (a ++ b) m = (runL a m).bind (runL b) := by
  induction a generalizing m with
  | nil => rfl
  | cons i a ih =>
    simp only [List.cons_append, runL]
    split
    · cases h : exec [] m i with
      | none => rfl
      | some m1 => simp only [Option.bind_some]; exact ih m1
    · rfl

theorem runL_some {a b : List Instr} {m m1 m2 : M} (h : runL a m = some m1) (k : runL b m1 = some m2) : runL (a ++ b) m = some m2 := by
  rw [runL_append, h]; exact k

theorem exec_flat {i : Instr} (h : flat i = true) (code : List Instr) (m : M) : exec code m i = exec [] m i := by
  cases i <;> simp only [flat, Bool.false_eq_true] at h
  case li d v => cases d <;> cases v <;> rfl
  case op i o d a b => cases d <;> rfl
  case sltiu d a => cases d <;> rfl
  case abs d a => cases d <;> rfl
  all_goals rfl

theorem exec_pc {i : Instr} (h : flat i = true) {m m' : M} (k : exec [] m i = some m') : m'.pc = m.pc + 1 := by
  cases i <;> simp only [flat, Bool.false_eq_true] at h
  case li d v =>
    cases d <;> cases v <;> simp only [exec, Option.map_eq_some_iff, reduceCtorEq] at k
    obtain ⟨x, -, rfl⟩ := k; rfl
  case move d s =>
    simp only [exec, Option.map_eq_some_iff] at k; obtain ⟨x, -, rfl⟩ := k; rfl
  case lw d o b =>
    simp only [exec, Option.map_eq_some_iff] at k; obtain ⟨x, -, rfl⟩ := k; rfl
  case sw d o b =>
    simp only [exec, Option.bind_eq_some_iff, Option.map_eq_some_iff] at k; obtain ⟨x, -, y, -, rfl⟩ := k; rfl
  case op i o d a b =>
    cases d <;> simp only [exec, Option.bind_eq_some_iff, Option.map_eq_some_iff, reduceCtorEq] at k
    obtain ⟨x, -, y, -, z, -, rfl⟩ := k; rfl
  case sltiu d a =>
    cases d <;> simp only [exec, Option.map_eq_some_iff, reduceCtorEq] at k
    obtain ⟨x, -, rfl⟩ := k; rfl
  case abs d a =>
    cases d <;> simp only [exec, Option.bind_eq_some_iff, Option.map_eq_some_iff, reduceCtorEq] at k
    obtain ⟨x, -, y, -, rfl⟩ := k; rfl
  case label l =>
    simp only [exec, Option.some.injEq] at k; rw [← k]

theorem exec_regs {i : Instr} (h : flat i = true) {m m' : M} (k : exec [] m i = some m') {r : Nat} (hr : r ∉ sets i) : m'.reg r = m.reg r := by
  cases i <;> simp only [flat, Bool.false_eq_true] at h
  case li d v =>
    cases d <;> cases v <;> simp only [exec, Option.map_eq_some_iff, reduceCtorEq] at k
    obtain ⟨x, -, rfl⟩ := k
    simp only [sets, Opd.regs, List.mem_singleton] at hr
    simp [M.set, hr]
  case move d s =>
    simp only [exec, Option.map_eq_some_iff] at k; obtain ⟨x, -, rfl⟩ := k
    simp only [sets, List.mem_singleton] at hr
    simp [M.set, hr]
  case lw d o b =>
    simp only [exec, Option.map_eq_some_iff] at k; obtain ⟨x, -, rfl⟩ := k
    simp only [sets, List.mem_singleton] at hr
    simp [M.set, hr]
  case sw d o b =>
    simp only [exec, Option.bind_eq_some_iff, Option.map_eq_some_iff] at k; obtain ⟨x, -, y, -, rfl⟩ := k; rfl
  case op i o d a b =>
    cases d <;> simp only [exec, Option.bind_eq_some_iff, Option.map_eq_some_iff, reduceCtorEq] at k
    obtain ⟨x, -, y, -, z, -, rfl⟩ := k
    simp only [sets, Opd.regs, List.mem_singleton] at hr
    simp [M.set, hr]
  case sltiu d a =>
    cases d <;> simp only [exec, Option.map_eq_some_iff, reduceCtorEq] at k
    obtain ⟨x, -, rfl⟩ := k
    simp only [sets, Opd.regs, List.mem_singleton] at hr
    simp [M.set, hr]
  case abs d a =>
    cases d <;> simp only [exec, Option.bind_eq_some_iff, Option.map_eq_some_iff, reduceCtorEq] at k
    obtain ⟨x, -, y, -, rfl⟩ := k
    simp only [sets, Opd.regs, List.mem_singleton] at hr
    simp [M.set, hr]
  case label l =>
    simp only [exec, Option.some.injEq] at k; rw [← k]

/-- Registers that are not set keep their values. -/
theorem runL_regs {c : List Instr} {m m' : M} (h : runL c m = some m') {r : Nat} (hr : r ∉ c.flatMap sets) : m'.reg r = m.reg r := by
  induction c generalizing m with
  | nil => simp only [runL, Option.some.injEq] at h; rw [h]
  | cons i c ih =>
    simp only [runL] at h
    split at h
    · rename_i hf
      simp only [Option.bind_eq_some_iff] at h
      obtain ⟨m1, h1, h2⟩ := h
      simp only [List.flatMap_cons, List.mem_append, not_or] at hr
      rw [ih h2 hr.2, exec_regs hf h1 hr.1]
    · cases h

theorem runL_pc {c : List Instr} {m m' : M} (h : runL c m = some m') : m'.pc = m.pc + c.length := by
  induction c generalizing m with
  | nil => simp only [runL, Option.some.injEq] at h; rw [h]; rfl
  | cons i c ih =>
    simp only [runL] at h
    split at h
    · rename_i hf
      simp only [Option.bind_eq_some_iff] at h
      obtain ⟨m1, h1, h2⟩ := h
      rw [ih h2, exec_pc hf h1, List.length_cons]; omega
    · cases h

theorem Reach.refl (code : List Instr) (m : M) : Reach code m m := ⟨0, rfl⟩

theorem steps_add (code : List Instr) : ∀ (a b : Nat) (m : M), steps code (a + b) m = (steps code a m).bind (steps code b)
  | 0, b, m => by simp only [Nat.zero_add, steps, Option.bind_some]
  | a + 1, b, m => by
    rw [show a + 1 + b = (a + b) + 1 by omega]
    simp only [steps]
    cases h : step code m with
    | none => rfl
    | some m1 => simp only [Option.bind_some]; exact steps_add code a b m1

theorem Reach.trans {code : List Instr} {a b c : M} (h : Reach code a b) (k : Reach code b c) : Reach code a c := by
  obtain ⟨i, h⟩ := h
  obtain ⟨j, k⟩ := k
  exact ⟨i + j, by rw [steps_add, h]; exact k⟩

theorem Reach.one {code : List Instr} {m m' : M} (h : step code m = some m') : Reach code m m' := ⟨1, by simp [steps, h]⟩

/-- The instruction at a place of the text. -/
theorem step_at {code pre post : List Instr} {i : Instr} {m : M} (hc : code = pre ++ i :: post) (hp : m.pc = pre.length) : step code m = exec code m i := by
  subst hc
  simp [step, hp]

/-- A piece without jumps. -/
theorem reach_runL {code : List Instr} : ∀ {c pre post : List Instr} {m m' : M}, code = pre ++ c ++ post → m.pc = pre.length → runL c m = some m' →
    Reach code m m' ∧ m'.pc = (pre ++ c).length
  | [], pre, post, m, m', _, hp, h => by
    simp only [runL, Option.some.injEq] at h
    subst h
    exact ⟨Reach.refl .., by simpa using hp⟩
  | i :: c, pre, post, m, m', hc, hp, h => by
    simp only [runL] at h
    split at h
    · rename_i hf
      simp only [Option.bind_eq_some_iff] at h
      obtain ⟨m1, h1, h2⟩ := h
      have hs : step code m = some m1 := by
        rw [step_at (pre := pre) (i := i) (post := c ++ post) (by rw [hc]; simp) hp, exec_flat hf, h1]
      obtain ⟨h3, h4⟩ := reach_runL (code := code) (c := c) (pre := pre ++ [i]) (post := post) (m := m1) (by rw [hc]; simp) (by rw [exec_pc hf h1, hp]; simp) h2
      exact ⟨(Reach.one hs).trans h3, by rw [h4]; simp⟩
    · cases h

/-! ## Arithmetic -/

theorem arithM_ok {o : Arith} {a b c : BitVec 32} (imm : Bool) (h : arithV o a b = some c) : arithM imm o a b = some c := by
  have := Llvm.arith_ok h
  cases o <;> simp only [arithM] <;> try exact this
  · simp only [Llvm.arithL] at this
    split at this
    · cases this
    · exact this
  · simp only [Llvm.arithL] at this
    split at this
    · rename_i hb
      rw [if_neg (by omega), Nat.mod_eq_of_lt hb]; exact this
    · cases this
  · simp only [Llvm.arithL] at this
    split at this
    · rename_i hb
      rw [if_neg (by omega), Nat.mod_eq_of_lt hb]; exact this
    · cases this

theorem imm_fit {v : Int} {x : BitVec 32} (h : fit v = some x) : imm32 v = some x := by
  unfold fit at h
  split at h
  · rename_i hv
    unfold imm32
    rw [if_pos ⟨hv.1, by omega⟩]; exact h
  · cases h

end RuC.Mips
