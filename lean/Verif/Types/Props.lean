import Verif.Types.Read

/-! Properties C29 and C30. -/

namespace RuC.Types.Props
open RuC RuC.Types RuC.Types.Spec

/-- C29 (partial).  In every history of type constructions, two of them are answered the same type exactly if
they ask for the same type; an enumeration is never the same as another type.
Missing: histories where `const` is applied to an enumeration or to a built-in type other than `int`, where
the claim is false (`const_of_builtin`, `const_of_enums`). -/
theorem types_are_interned_partial {a b : Int} {h : List (Req × Int)} {tb : Table} (hr : Run a b h tb) (hlen : tb.cells.length < 2305843009213693952)
    {i j : Nat} {x y : Req × Int} (hx : h[i]? = some x) (hy : h[j]? = some y) (hij : i ≠ j) :
    x.2 = y.2 ↔ x.1 = y.1 ∧ ∀ fs, x.1 ≠ .enum fs := by
  obtain ⟨rs, hi⟩ := run_inv hr hlen
  obtain ⟨hi1, rfl⟩ := List.getElem?_eq_some_iff.1 hx
  obtain ⟨hj1, rfl⟩ := List.getElem?_eq_some_iff.1 hy
  have hp := List.pairwise_iff_getElem.1 hi.pairs
  rcases Nat.lt_or_gt_of_ne hij with hlt | hgt
  · exact hp i j hi1 hj1 hlt
  · have := hp j i hj1 hi1 hgt
    constructor
    · intro e
      obtain ⟨e1, e2⟩ := this.1 e.symm
      exact ⟨e1.symm, e1 ▸ e2⟩
    · rintro ⟨e1, e2⟩
      exact (this.2 ⟨e1.symm, e1 ▸ e2⟩).symm

/-- C29 (partial).  Building a type always gives an answer and keeps all cells of the table: nothing is lost by the
search for an equal type. -/
theorem build_keeps_types_partial {a b : Int} {h : List (Req × Int)} {tb : Table} (hr : Run a b h tb) (hlen : tb.cells.length < 2305843009213693952) {r : Req}
    (ha : Allowed h r) : ∃ t tb', build tb r = some (t, tb') ∧ tb.cells <+: tb'.cells := by
  obtain ⟨rs, hi⟩ := run_inv hr hlen
  obtain ⟨t, tb', hb, hp, _⟩ := inv_step hi ha hlen
  exact ⟨t, tb', hb, hp⟩

/-- C30 (partial).  After any history, reading a type built in it answers what was given when it was built.
Missing: histories where `const` is applied to an enumeration or to a built-in type other than `int`, where
the claim is false (`const_of_builtin_size`). -/
theorem types_read_back_partial {a b : Int} {h : List (Req × Int)} {tb : Table} (hr : Run a b h tb) (hlen : tb.cells.length < 2305843009213693952)
    {r : Req} {t : Int} (hx : (r, t) ∈ h) : Reads tb.cells r t := by
  obtain ⟨rs, hi⟩ := run_inv hr hlen
  obtain ⟨q, hq, e, he⟩ := hi.recs _ hx
  simp only at e
  rw [e]
  exact reads_record hi.lay (by omega) hq he (hi.known _ hx)

/-! ## Where the code departs from the claims -/

/-- `const char` and `const float` are the same type for the table, C29 violated. -/
theorem const_of_builtin : ∃ tb t tb', build (initTable 40 41) (.const TYPE_FLOATING) = some (t, tb) ∧ build tb (.const TYPE_CHARACTER) = some (t, tb') := by
  refine ⟨⟨[0, 0, 1002, 2, 4, -1, 40, -1, 41, 1, 1006, -3], 9⟩, 10, ⟨[0, 0, 1002, 2, 4, -1, 40, -1, 41, 1, 1006, -3], 9⟩, ?_, ?_⟩ <;> decide +kernel

/-- Therefore a `const char` declared after a `const float` has the size of the latter, C30 violated. -/
theorem const_of_builtin_size : ∃ tb t u tb', build (initTable 40 41) (.const TYPE_FLOATING) = some (t, tb) ∧ build tb (.const TYPE_CHARACTER) = some (u, tb') ∧
    typeSize tb'.cells u = some 2 ∧ typeSize tb'.cells TYPE_CHARACTER = some 1 := by
  refine ⟨⟨[0, 0, 1002, 2, 4, -1, 40, -1, 41, 1, 1006, -3], 9⟩, 10, 10, ⟨[0, 0, 1002, 2, 4, -1, 40, -1, 41, 1, 1006, -3], 9⟩, ?_, ?_, ?_, ?_⟩ <;> decide +kernel

/-- `const` of two different enumerations is the same type when half of their first values are the same, C29 violated. -/
theorem const_of_enums : ∃ e1 t1 e2 t2 c t3 t4, build (initTable 40 41) (.enum [0, 2, 0, 50]) = some (e1, t1) ∧ build t1 (.enum [0, 2, 1, 51]) = some (e2, t2) ∧
    e1 ≠ e2 ∧ build t2 (.const e1) = some (c, t3) ∧ build t3 (.const e2) = some (c, t4) := by
  refine ⟨10, ⟨[0, 0, 1002, 2, 4, -1, 40, -1, 41, 1, 1005, 0, 2, 0, 50], 9⟩, 16, ⟨[0, 0, 1002, 2, 4, -1, 40, -1, 41, 1, 1005, 0, 2, 0, 50, 9, 1005, 0, 2, 1, 51], 15⟩,
    22, ⟨[0, 0, 1002, 2, 4, -1, 40, -1, 41, 1, 1005, 0, 2, 0, 50, 9, 1005, 0, 2, 1, 51, 15, 1006, 10], 21⟩,
    ⟨[0, 0, 1002, 2, 4, -1, 40, -1, 41, 1, 1005, 0, 2, 0, 50, 9, 1005, 0, 2, 1, 51, 15, 1006, 10], 21⟩, ?_, ?_, ?_, ?_, ?_⟩ <;> decide +kernel

/-! ## Concrete cases -/

/-- `int *`, then `struct {int * 7; float 8;}`, then `int *` again. -/
theorem sample_run : ∃ tb, Run 40 41 [(.pointer (-1), 10), (.struct [(10, 7), (-3, 8)], 13), (.pointer (-1), 10), (msgInfo 40 41, 2)] tb ∧
    tb.cells = [0, 0, 1002, 2, 4, -1, 40, -1, 41, 1, 1004, -1, 9, 1002, 3, 4, 10, 7, -3, 8] := by
  refine ⟨⟨[0, 0, 1002, 2, 4, -1, 40, -1, 41, 1, 1004, -1, 9, 1002, 3, 4, 10, 7, -3, 8], 12⟩, ?_, rfl⟩
  refine .step (tb := ⟨[0, 0, 1002, 2, 4, -1, 40, -1, 41, 1, 1004, -1, 9, 1002, 3, 4, 10, 7, -3, 8], 12⟩)
    (.step (tb := ⟨[0, 0, 1002, 2, 4, -1, 40, -1, 41, 1, 1004, -1], 9⟩) (.step .init ?_ (by decide +kernel)) ?_ (by decide +kernel)) ?_ (by decide +kernel)
  · exact ⟨by simp [mentioned], by simp, by simp, by simp, by simp⟩
  · exact ⟨by simp [mentioned], by simp, by simp, by simp, by simp⟩
  · exact ⟨by simp [mentioned], by simp, by simp, by simp, by simp⟩

example : ∃ tb, memberAmount tb 13 = some 2 ∧ typeSize tb 13 = some 3 := by
  obtain ⟨tb, hr, hc⟩ := sample_run
  have h := types_read_back_partial hr (by rw [hc]; decide) (r := .struct [(10, 7), (-3, 8)]) (t := 13) (by simp)
  cases h with
  | @struct _ _ sizes h1 h2 h3 h4 h5 =>
    refine ⟨tb.cells, h1, ?_⟩
    rw [hc]
    decide +kernel

/-- The table at the beginning is what building the structure in an empty table gives. -/
theorem init_is_built (a b : Int) : build ⟨[0], 0⟩ (msgInfo a b) = some (2, initTable a b) := by
  have e : usz (1 + usz (1 + 0)) = 2 := by rw [usz_of_lt (n := 1 + 0) (by omega), usz_of_lt (by omega)]
  have z : toItem 0 = 0 := toItem_of_lt (by omega)
  have o : toItem 1 = 1 := toItem_of_lt (by omega)
  have t2 : toItem 2 = 2 := toItem_of_lt (by omega)
  have t4 : toItem 4 = 4 := toItem_of_lt (by omega)
  have z' : toSize 0 = 0 := toSize_natCast (n := 0) (by omega)
  simp [build, msgInfo, typeStructure, membersSize, typeSize, behind, strip, isConst, hasClass, TYPE_FLOATING, e, typeAdd, z, o, t2, t4, get, z', scan, initTable, TYPE_INTEGER]

end RuC.Types.Props
