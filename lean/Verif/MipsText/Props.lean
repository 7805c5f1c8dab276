import Verif.MipsText.Fits
import Verif.Mips.Props

/-!
# Properties of the MIPS text

What is proved of the printing functions of libs/compiler/mipsgen.c.
-/

namespace RuC.MipsText.Props
open RuC.Mips RuC.MipsText
open Llvm (Ty Arith Cmp Un Inc Exp Args Stmt Stmts Func)
open Mips.Props (e0 loc u1 e0_placed)

/-! ## C95: the text reads back -/

/-- Every list of instructions that have their operands where an assembler wants them, with comments and empty lines anywhere between them: the text is read as these instructions
and no others. -/
theorem C95_read_back (l : List Part) (hi : ∀ i ∈ instrs l, Fit i) (hc : ∀ c, Part.note c ∈ l → 10 ∉ c) : read (print l) = some (instrs l) := by
  refine read_parts l fun p hp => ?_
  cases p with
  | instr i => exact hi i (List.mem_filterMap.2 ⟨_, hp, rfl⟩)
  | blank => trivial
  | note c => exact hc c hp

/-- Texts of different instructions differ. -/
theorem C95_different (l k : List Part) (hl : ∀ i ∈ instrs l, Fit i) (hk : ∀ i ∈ instrs k, Fit i) (hc : ∀ c, Part.note c ∈ l → 10 ∉ c) (hd : ∀ c, Part.note c ∈ k → 10 ∉ c)
    (h : instrs l ≠ instrs k) : print l ≠ print k := by
  intro e
  have h1 := C95_read_back l hl hc
  rw [e, C95_read_back k hk hd] at h1
  exact h (Option.some.inj h1).symm

/-- The text of every unit in which operators have no constant as their first operand, and in which there are no strings, library functions and `%=`: it is read as the instructions
of `Mips/Model.lean`.  The variables may be anywhere the generator puts them. -/
theorem C95_unit_read_back (par : Nat → Bool) (isLocal : Nat → Bool) (main : Nat) (u : List Top) (e : Enc) (hp : placed par e) (hu : ∀ x ∈ u, plainT x = true)
    (l : List Part) (hl : instrs l = text isLocal main u e) (hc : ∀ c, Part.note c ∈ l → 10 ∉ c) : read (print l) = some (text isLocal main u e) := by
  rw [← hl]
  refine C95_read_back l ?_ hc
  rw [hl]
  exact fit_head.append (fitU isLocal main u e (fun id => (hp id).1.fit) hu)

/-! ### The code refutes the property for other units -/

/-- `1 + x`: the constant is printed as the register of the result, `addi 1, $t0, 1`, which is refused. -/
theorem C95_constant_first : (print ((emitE (.arith .add (.int 1) (.ident 100 .int)) e0).1.map .instr) = LlvmText.codes "\tlw $t0, 0($gp)\n\taddi 1, $t0, 1\n") ∧
    read (print ((emitE (.arith .add (.int 1) (.ident 100 .int)) e0).1.map .instr)) = none := by decide +kernel

/-- `x %= 2`: nothing is computed, and the value that is passed on, to `return` here, is printed as nothing: `li $t1, `. -/
theorem C95_remainder : read (print ((emitS loc (.return_ (some (.assign (some .rem) 100 .int (.int 2)))) e0).1.map .instr)) = none := by decide +kernel

/-! ### Concrete cases -/

/-- The texts of some instructions. -/
example : print [.instr (.label ⟨.func, 200⟩), .note (LlvmText.codes " \"f\" function:"), .blank, .instr (.sw (.reg 31) (-4) 29), .instr (.sw (.reg 52) (-44) 29),
    .instr (.op true .add (.reg 30) (.reg 29) (.imm (-64))), .instr (.br .eq 8 ⟨.end, 7⟩), .instr (.br .lt 8 ⟨.end, 7⟩), .instr (.jr 31)] =
    LlvmText.codes "FUNC200:\n\t# \"f\" function:\n\n\tsw $ra, -4($sp)\n\ts.s $f20, -44($sp)\n\taddi $fp, $sp, -64\n\tbeq $t0, $0, END7\n\tbltz $t0, END7\n\tjr $ra\n" := by
  decide +kernel

/-- A unit that meets the hypotheses. -/
theorem u1_plain : ∀ x ∈ u1, plainT x = true := by
  intro x hx
  simp only [u1, List.mem_cons, List.not_mem_nil, or_false] at hx
  rcases hx with rfl | rfl | rfl <;> decide

example : read (print ((text loc 201 u1 e0).flatMap fun i => [.instr i, .note [32, 120], .blank])) = some (text loc 201 u1 e0) :=
  C95_unit_read_back _ loc 201 u1 e0 e0_placed u1_plain _
    (by
      generalize text loc 201 u1 e0 = c
      induction c with
      | nil => rfl
      | cons i c ih => simp only [List.flatMap_cons, instrs, List.filterMap_append] at ih ⊢; rw [ih]; rfl)
    (by
      intro c hc
      simp only [List.mem_flatMap, List.mem_cons, List.not_mem_nil, or_false] at hc
      obtain ⟨i, -, h | h | h⟩ := hc
      · cases h
      · cases h; decide
      · cases h)

/-- A line that no assembler takes is refused. -/
example : read (LlvmText.codes "\tadd $t0, $t1\n") = none ∧ read (LlvmText.codes "\tadd $t0, $t1, $f4\n") = none ∧ read (LlvmText.codes "\tsub $t0, $t1, 5\n") = none := by decide +kernel

end RuC.MipsText.Props
