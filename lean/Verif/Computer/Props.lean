import Verif.Computer.Accept

/-! Property C40: preprocessor expressions. -/

namespace RuC.Computer.Props
open RuC.Builder RuC.Builder.Spec Spec

instance (v : Int) : Decidable (Fits v) := inferInstanceAs (Decidable (_ ∧ _))

/-- **C40**, in part: an expression whose parts all have values is computed by the rules of C.  Missing: `!`,
operators of one operand directly before a parenthesis, and right operands of `&&` and `||` without a value that C would not
look at; the witnesses below show that the code does not follow C there. -/
theorem C40_value_partial (e : E) (v : Int) (hw : e.Wf) (hp : e.Plain) (hn : ∀ n, .num n ∈ e.write → Fits n)
    (hd : e.Defined) (hv : Means e v) : evaluate e.write = .ok v := by
  rw [evaluate_write e hw hp]
  rcases strict_spec e hp hn with ⟨w, h1, -, h3⟩ | ⟨-, h2⟩
  · rw [h1, means_unique hv h3]
  · exact absurd hd h2

/-- `2 + 3 * (7 - 10) < -4 || 1` is 1. -/
def sample : E :=
  .bin .logOr (.bin .lt (.bin .add (.num 2) (.bin .mul (.num 3) (.paren (.bin .sub (.num 7) (.num 10))))) (.pre .minus (.num 4))) (.num 1)

example : sample.Wf ∧ sample.Plain ∧ evaluate sample.write = .ok 1 := by
  refine ⟨?_, ?_, by decide +kernel⟩
  · simp [sample, E.Wf, E.level, Op.level]
  · simp [sample, E.Plain, E.isParen]

example : sample.Defined ∧ Means sample 1 := by
  have hp : sample.Plain := by simp [sample, E.Plain, E.isParen]
  rcases strict_spec sample hp (by simp [sample, E.write]; decide) with ⟨v, h1, h2, h3⟩ | ⟨h, -⟩
  · have : strict sample = .ok 1 := by decide +kernel
    rw [this] at h1; cases h1
    exact ⟨h2, h3⟩
  · have : strict sample = .ok 1 := by decide +kernel
    rw [this] at h; cases h

example : evaluate (E.write (.bin .sub (.bin .sub (.num 10) (.num 3)) (.num 2))) = .ok 5 := by decide +kernel

/-- The value of an expression is unique. -/
theorem C40_unique (e : E) (v w : Int) (hv : Means e v) (hw : Means e w) : v = w := means_unique hv hw

/-- When a part of the expression has no value (division by zero, overflow, a shift too far), the preprocessor
itself does something undefined, even if C would not look at that part. -/
theorem C40_undefined (e : E) (hw : e.Wf) (hp : e.Plain) (hn : ∀ n, .num n ∈ e.write → Fits n)
    (hd : ¬e.Defined) : evaluate e.write = .ub := by
  rw [evaluate_write e hw hp]
  rcases strict_spec e hp hn with ⟨w, -, h2, -⟩ | ⟨h1, -⟩
  · exact absurd h2 hd
  · exact h1

example : (E.bin .div (.num 1) (.num 0)).Wf ∧ (E.bin .div (.num 1) (.num 0)).Plain ∧ evaluate (E.bin .div (.num 1) (.num 0)).write = .ub := by
  refine ⟨?_, ?_, by decide +kernel⟩
  · simp [E.Wf, E.level, Op.level]
  · simp [E.Plain]

/-- Only expressions are accepted, whatever is fed: a value comes out without an error only when what was read
is an expression of the grammar of C (`parse_token` never feeds the inner names of prefixed `-` and `+`).  Without `!`
and operators directly before parentheses the value is that of the expression. -/
theorem C40_accepted (inp : List Input) (v : Int) (hin : ∀ t, .op t ∈ inp → t ≠ .uNeg ∧ t ≠ .uPlus) (h : evaluate inp = .ok v) :
    ∃ e : E, e.Wf ∧ inp = e.write ∧ (e.Plain → (∀ n, .num n ∈ inp → Fits n) → Means e v) := by
  have h0 := h
  unfold evaluate at h
  cases c : run inp .new <;> rw [c] at h <;> simp only [Out.bind] at h <;> try (cases h; done)
  rename_i st
  cases d : popResult st <;> rw [d] at h <;> simp only at h <;> try (cases h; done)
  by_cases he : st.err = true
  · rw [if_pos he] at h; cases h
  · have s := run_scan hin c d (by simpa using he)
    obtain ⟨e, w, rfl⟩ := scan_whole _ inp (Nat.le_refl _) s
    refine ⟨e, w, rfl, fun hp hn => ?_⟩
    rw [evaluate_write e w hp] at h0
    rcases strict_spec e hp hn with ⟨x, h1, -, h3⟩ | ⟨h1, -⟩
    · rw [h1] at h0; cases h0; exact h3
    · rw [h1] at h0; cases h0

example : evaluate [.num 1, .op .add, .op .lBound, .num 2, .op .rBound] = .ok 3 := by decide +kernel
example : evaluate [.num 1, .op .add] = .bad ∧ evaluate [.op .lBound, .num 1] = .bad ∧ evaluate [.num 1, .num 2] = .bad ∧
    evaluate [.num 1, .name] = .bad ∧ evaluate [.num 1, .op .rBound] = .bad := by decide +kernel

/-- An expression of the grammar without `!` and operators before parentheses is never refused. -/
theorem C40_not_refused_partial (e : E) (hw : e.Wf) (hp : e.Plain) (hn : ∀ n, .num n ∈ e.write → Fits n) : evaluate e.write ≠ .bad := by
  rw [evaluate_write e hw hp]
  rcases strict_spec e hp hn with ⟨w, h, -⟩ | ⟨h, -⟩ <;> rw [h] <;> exact fun k => by cases k

/-! Where the code does not follow C. -/

/-- `!5` is 1 and `!0` is 0: the operator is computed upside down, for every number. -/
theorem C40_not_wrong (n v : Int) (h : Means (.pre .not (.num n)) v) : evaluate (E.write (.pre .not (.num n))) = .ok (1 - v) := by
  cases h with
  | pre h k =>
    cases h
    show (Out.ok (if n ≠ 0 then 1 else 0) : Out Int) = _
    rcases k with ⟨k, rfl⟩ | ⟨k, rfl⟩ <;> simp [k]

example : Means (.pre .not (.num 5)) 0 := .pre (.num (by decide)) (Or.inr ⟨by decide, rfl⟩)

/-- `-(1)` is the largest number. -/
theorem C40_minus_paren : Means (.pre .minus (.paren (.num 1))) (-1) ∧
    evaluate (E.write (.pre .minus (.paren (.num 1)))) = .ok 9223372036854775807 :=
  ⟨.pre (.paren (.num (by decide))) ⟨by decide, by decide⟩, by decide +kernel⟩

/-- `-(-(1))` is refused. -/
theorem C40_minus_twice : Means (.pre .minus (.paren (.pre .minus (.paren (.num 1))))) 1 ∧
    evaluate (E.write (.pre .minus (.paren (.pre .minus (.paren (.num 1)))))) = .bad :=
  ⟨.pre (.paren (.pre (.paren (.num (by decide))) (v := -1) ⟨by decide, by decide⟩)) ⟨by decide, by decide⟩, by decide +kernel⟩

/-- `-(1) + 2` overflows. -/
theorem C40_minus_sum : Means (.bin .add (.pre .minus (.paren (.num 1))) (.num 2)) 1 ∧
    evaluate (E.write (.bin .add (.pre .minus (.paren (.num 1))) (.num 2))) = .ub :=
  ⟨.bin (.pre (.paren (.num (by decide))) (v := -1) ⟨by decide, by decide⟩) (.num (by decide)) ⟨by decide, by decide⟩, by decide +kernel⟩

/-- `0 && 1 / 0` divides by zero. -/
theorem C40_no_short_circuit : Means (.bin .logAnd (.num 0) (.bin .div (.num 1) (.num 0))) 0 ∧
    evaluate (E.write (.bin .logAnd (.num 0) (.bin .div (.num 1) (.num 0)))) = .ub :=
  ⟨.andShort (.num (by decide)), by decide +kernel⟩

end RuC.Computer.Props
