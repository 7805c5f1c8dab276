import Verif.Instr.Spec

/-!
Properties of the instruction tables: C38 (versions of instructions), C53 (built-in functions).
-/

namespace RuC.Instr.Props

open RuC.Expr (Unary Binary)

/-- C38: different instructions have different numbers, over the whole header. -/
theorem codes_distinct :
    allCodes.Nodup ∧ ∀ p ∈ documented, p.2 ∈ allCodes := by
  decide +kernel

/-- C38: a version of an operation is documented at most once and versions have different numbers. -/
theorem versions_distinct : (documented.map Prod.fst).Nodup ∧ (documented.map Prod.snd).Nodup := by
  decide +kernel

/-- C38: the code asked for a binary operator is the plain integer version of its operation. -/
theorem binary_code (o : Binary) (p : Op) (h : ofBinary o = some p) :
    doc ⟨p, false, false, false⟩ = some (binaryToInstruction o) := by
  revert h; cases o <;> intro h <;> cases h <;> decide +kernel

example : ofBinary .shlAssign = some .shlA ∧ binaryToInstruction .shlAssign = 9002 := by decide

/-- C38: different binary operators get different codes. -/
theorem binary_injective (o o' : Binary) (h : binaryToInstruction o = binaryToInstruction o') : o = o' := by
  revert h; cases o <;> cases o' <;> decide

/-- C38: the code asked for a unary operator is the plain integer version of its operation. -/
theorem unary_code (o : Unary) (p : Op) (h : ofUnary o = some p) :
    doc ⟨p, false, false, false⟩ = some (unaryToInstruction o) := by
  revert h; cases o <;> intro h <;> cases h <;> decide +kernel

example : ofUnary .minus = some .unminus ∧ unaryToInstruction .minus = 9049 := by decide

/-- C38: different unary operators get different codes (`upb` is emitted apart). -/
theorem unary_injective (o o' : Unary) (h : unaryToInstruction o = unaryToInstruction o') : o = o' := by
  revert h; cases o <;> cases o' <;> decide

/-- C38: the address version of every documented instruction that has one is the documented one, and every
other instruction of the header is left alone. -/
theorem address_version :
    (∀ p ∈ documented, p.1.addr = false → p.1.flt = false → p.1.void = false →
      toAddress p.2 = (doc { p.1 with addr := true }).getD p.2) ∧
    ∀ q ∈ allCodes, (∀ p ∈ documented, p.2 = q → ¬(p.1.addr = false ∧ p.1.flt = false ∧ p.1.void = false)) →
      toAddress q = q := by
  decide +kernel

/-- C38: the floating version of every documented value version that has one is the documented one, and
every other instruction of the header is left alone. -/
theorem floating_version :
    (∀ p ∈ documented, p.1.flt = false → p.1.void = false →
      toFloating p.2 = (doc { p.1 with flt := true }).getD p.2) ∧
    ∀ q ∈ allCodes, (∀ p ∈ documented, p.2 = q → ¬(p.1.flt = false ∧ p.1.void = false)) → toFloating q = q := by
  decide +kernel

/-- The six direct assignments whose void version `instruction_to_void_ver` does not know. -/
def unvoided : List Op := [.remA, .shlA, .shrA, .andA, .xorA, .orA]

/-- C38, the part of the void versions that holds: the void version of every documented value version that
has one is the documented one, except for the direct `%= <<= >>= &= ^= |=`; every other instruction of the
header is left alone.  Missing: those six, see `void_version_missed`. -/
theorem void_version_partial :
    (∀ p ∈ documented, p.1.void = false → ¬(p.1.op ∈ unvoided ∧ p.1.addr = false) →
      toVoid p.2 = (doc { p.1 with void := true }).getD p.2) ∧
    ∀ q ∈ allCodes, (∀ p ∈ documented, p.2 = q → ¬(p.1.void = false)) → toVoid q = q := by
  decide +kernel

/-- C38 fails for the void version of `%= <<= >>= &= ^= |=` on a variable: the header documents a version that
leaves no value, and the conversion answers the version that leaves one. -/
theorem void_version_missed :
    ∀ o ∈ unvoided, ∃ c v, doc ⟨o, false, false, false⟩ = some c ∧ doc ⟨o, false, false, true⟩ = some v ∧
      toVoid c = c ∧ c ≠ v := by
  intro o ho
  simp only [unvoided, List.mem_cons, List.not_mem_nil, or_false] at ho
  rcases ho with rfl | rfl | rfl | rfl | rfl | rfl
  · exact ⟨9001, 9201, by decide +kernel, by decide +kernel, by decide, by decide⟩
  · exact ⟨9002, 9202, by decide +kernel, by decide +kernel, by decide, by decide⟩
  · exact ⟨9003, 9203, by decide +kernel, by decide +kernel, by decide, by decide⟩
  · exact ⟨9004, 9204, by decide +kernel, by decide +kernel, by decide, by decide⟩
  · exact ⟨9005, 9205, by decide +kernel, by decide +kernel, by decide, by decide⟩
  · exact ⟨9006, 9206, by decide +kernel, by decide +kernel, by decide, by decide⟩

example : IC_ADD_ASSIGN ∈ allCodes ∧ toVoid (toFloating (toAddress 9008)) = 9269 := by decide +kernel

/-- C53: every library function that is emitted as one instruction gets the instruction of its own name: the
number under which the parser registers the name is the number the table of instructions is asked with. -/
theorem builtin_instruction_partial :
    ∀ p ∈ builtinDoc, ∃ k, builtinNames[k]? = some p.1 ∧ builtinToInstruction (builtinNumber k) = p.2 := by
  have h : ∀ p ∈ builtinDoc, builtinToInstruction (builtinNumber (builtinNames.idxOf p.1)) = p.2 ∧
      builtinNames[builtinNames.idxOf p.1]? = some p.1 := by decide +kernel
  intro p hp
  exact ⟨_, (h p hp).2, (h p hp).1⟩

example : (Lib.strcmp, IC_STRCMP) ∈ builtinDoc := by decide +kernel

/-- C53: the four functions emitted apart have the numbers the code generator tests for, user identifiers
start right after the library ones, and no name is registered twice. -/
theorem builtin_numbers :
    (∀ p ∈ [(Lib.printf, BI_PRINTF), (Lib.print, BI_PRINT), (Lib.printid, BI_PRINTID), (Lib.getid, BI_GETID)],
      builtinNames[builtinNames.idxOf p.1]? = some p.1 ∧ builtinNumber (builtinNames.idxOf p.1) = p.2) ∧
    builtinNumber builtinNames.length = BEGIN_USER_FUNC ∧ builtinNames.Nodup := by
  decide +kernel

/-- C53: every library name is emitted as an instruction of its own, is one of the four emitted apart, or is `exit`. -/
theorem builtin_covered (n : Lib) :
    n ∈ builtinNames ∧ (n ∈ builtinDoc.map Prod.fst ∨ n ∈ [Lib.printf, Lib.print, Lib.printid, Lib.getid] ∨ n = .exit) := by
  cases n <;> decide +kernel

/-- C53 fails for `exit`: it is registered as a library function, and compiled to the instruction that does nothing. -/
theorem exit_does_nothing :
    ∃ k, builtinNames[k]? = some .exit ∧ builtinNumber k = BI_EXIT ∧ builtinToInstruction (builtinNumber k) = IC_NOP :=
  ⟨37, by decide +kernel, by decide +kernel, by decide +kernel⟩

end RuC.Instr.Props
