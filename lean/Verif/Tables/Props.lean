import Verif.Tables.Lemmas

/-!
# Properties of the fixed tables

C46: the local tables of the parser are not overrun by lists of the sizes given, and are by longer ones.
-/

namespace RuC.Tables.Props

open RuC RuC.Tables

/-- C46: an enumeration of at most 49 enumerators is stored inside the table; the identifiers get the values C gives them,
and the cells added to the table of types are these values with the names. -/
theorem C46_enum_stored (es : List Entry) (hne : es ≠ []) (h : ∀ e ∈ es, e.Fine) (hn : es.length ≤ 49) (hr : InRange (meaning 0 es)) :
    ∃ first : Int, (meaning 0 es).head?.map (·.2) = some first ∧
      enumList es = some (some (meaning 0 es, [first.tdiv 2, 2 * (es.length : Int)] ++ fieldCells (meaning 0 es))) := by
  obtain ⟨e, rest, rfl⟩ := List.exists_cons_of_ne_nil hne
  obtain ⟨v, hv⟩ : ∃ v, meaning 0 (e :: rest) = (e.name, v) :: meaning (v + 1) rest := ⟨_, meaning_cons 0 e rest⟩
  refine ⟨v, by rw [hv]; rfl, ?_⟩
  have hm : (meaning 0 (e :: rest)).length = (e :: rest).length := by
    have : ∀ (l : List Entry) (v : Int), (meaning v l).length = l.length := by
      intro l
      induction l with
      | nil => intro v; rfl
      | cons x l ih => intro v; simp [meaning_cons, ih]
    exact this _ _
  have hfl : (fieldCells (meaning 0 (e :: rest))).length = 2 * (e :: rest).length := by
    rw [← hm]
    generalize meaning 0 (e :: rest) = fs
    induction fs with
    | nil => rfl
    | cons f fs ih => simp [fieldCells] at ih ⊢; omega
  have hl := enumLoop_fine (e :: rest) [] (98 - 2 * (e :: rest).length) 0 [] h hr
  rw [show 2 * (e :: rest).length + (98 - 2 * (e :: rest).length) = 98 by omega, ← fresh_lay 2 98] at hl
  simp only [List.length_nil, Nat.add_zero, List.nil_append] at hl
  have e0 : fresh (2 + 98) = fresh 100 := rfl
  rw [e0] at hl
  unfold enumList
  rw [hl]
  simp only
  have hc : fieldCells (meaning 0 (e :: rest)) = v :: e.name :: fieldCells (meaning (v + 1) rest) := by rw [hv]; rfl
  generalize 98 - 2 * (e :: rest).length = n at *
  have hcells := readAll_lay ([v.tdiv 2, 2 * (((e :: rest).length : Nat) : Int)] ++ fieldCells (meaning 0 (e :: rest))) n
  rw [hfl]
  rw [List.length_append, hfl] at hcells
  have w1 : write (lay 2 (fieldCells (meaning 0 (e :: rest))) n) 1 (((2 + 2 * (e :: rest).length : Nat) : Int) - 2) =
      some (none :: some (2 * (((e :: rest).length : Nat) : Int)) :: ((fieldCells (meaning 0 (e :: rest))).map some ++ List.replicate n none)) := by
    simp [write, lay, List.replicate_succ]; omega
  rw [w1]
  simp only
  have r1 : read (none :: some (2 * (((e :: rest).length : Nat) : Int)) :: ((fieldCells (meaning 0 (e :: rest))).map some ++ List.replicate n none)) 2 = some v := by
    simp [read, hc]
  rw [r1]
  simp only
  have w2 : write (none :: some (2 * (((e :: rest).length : Nat) : Int)) :: ((fieldCells (meaning 0 (e :: rest))).map some ++ List.replicate n none)) 0 (v.tdiv 2) =
      some (lay 0 ([v.tdiv 2, 2 * (((e :: rest).length : Nat) : Int)] ++ fieldCells (meaning 0 (e :: rest))) n) := by
    simp [write, lay]
  rw [w2]
  simp only
  rw [show 2 + 2 * (e :: rest).length = [v.tdiv 2, 2 * (((e :: rest).length : Nat) : Int)].length + 2 * (e :: rest).length by simp, hcells, hv]
  rfl

/-- C46: whatever stands behind the names, the loop over at most 49 enumerators writes inside the table. -/
theorem C46_enum_inside (es : List Entry) (hn : es.length ≤ 49) (hv : ∀ e ∈ es, ∀ v, e.value = .const v → ITEM_MIN ≤ v ∧ v ≤ ITEM_MAX - 49) :
    enumLoop ⟨fresh 100, 2, 0, []⟩ es ≠ none := by
  have hb : ITEM_MIN ≤ 0 ∧ 0 + (49 : Int) ≤ ITEM_MAX := by decide +kernel
  obtain ⟨r, hr, _⟩ := enumLoop_room es [] 98 0 [] (by omega) hb.1 (by omega) (fun e he v h => by have := hv e he v h; omega)
  rw [← fresh_lay 2 98] at hr
  rw [show enumLoop ⟨fresh 100, 2, 0, []⟩ es = some r from hr]
  simp

/-- C46, a defect: with 50 enumerators or more the code writes past the end of the table. -/
theorem C46_enum_overrun (es : List Entry) (h : ∀ e ∈ es, e.Fine) (hn : 50 ≤ es.length) : enumList es = none := by
  have := enumLoop_over es [] 98 0 [] h (by omega)
  rw [← fresh_lay 2 98] at this
  unfold enumList
  rw [show enumLoop ⟨fresh 100, 2, 0, []⟩ es = none from this]

/-- C46, a defect: when the only value is no expression, a cell never written is read. -/
theorem C46_enum_unwritten (name : Int) : enumList [⟨name, .bad⟩] = none := by
  simp [enumList, enumLoop, write, read, fresh, List.replicate]

/-- C46: a function with at most 97 parameters, and at most 97 in every parameter that is a function, is stored inside the
tables, whatever names the parameters have. -/
theorem C46_function_inside (add : List Int → Int) (level : Bool) (fd : Nat) (ret : Int) (ps : Params) (h : ps.Short 97) :
    declarator add level fd ret ps ≠ none := by
  have := declLoop_short add ps 97 level fd ret [] 0 h
  rw [← fresh_lay 3 97] at this
  exact this

/-- C46: parameters of ordinary types that are all named or all nameless are stored exactly when there are at most 97; their
types are given to the table of types in order, and the declarator is one of a definition exactly when they are named. -/
theorem C46_function_exactly (add : List Int → Int) (named : Bool) (ret : Int) (ts : List Int) (hne : ts ≠ []) :
    declarator add true 3 ret (simples named ts) =
      if ts.length ≤ 97 then some (add ([TYPE_FUNCTION, ret, (ts.length : Int)] ++ ts), if named then 1 else 2) else none := by
  have := declLoop_simples add named ret ts 97 3 [] 0 (.inl rfl) (.inr hne)
  rw [← fresh_lay 3 97] at this
  unfold declarator
  rw [show declLoop add true 3 ret (fresh 100) 3 0 (simples named ts) = _ from this]
  simp [hne]

/-- C46: a structure is stored inside the table exactly when it has at most 48 members. -/
theorem C46_structure_exactly (displ : Int) (ms : List (Int × Int)) :
    structCells displ ms = if ms.length ≤ 48 then
      some ([TYPE_STRUCTURE, displ, 2 * (ms.length : Int)] ++ ms.flatMap fun m => [m.1, m.2]) else none := by
  have hl := memberLoop_lay ms 97 []
  rw [← fresh_lay 3 97] at hl
  unfold structCells
  rw [show memberLoop (fresh 100) 3 ms = _ from hl]
  by_cases h : ms.length ≤ 48
  · rw [if_pos h, if_pos (by omega)]
    simp only [List.nil_append]
    generalize hc : (ms.flatMap fun m => [m.1, m.2]) = cells
    have hf := front3 (a := TYPE_STRUCTURE) (b := displ) (c := (ms.length : Int) * 2) cells (97 - 2 * ms.length)
    have hr := readAll_lay ([TYPE_STRUCTURE, displ, (ms.length : Int) * 2] ++ cells) (97 - 2 * ms.length)
    rw [show ([TYPE_STRUCTURE, displ, (ms.length : Int) * 2] ++ cells).length = 3 + cells.length by simp; omega] at hr
    cases h0 : write (lay 3 cells (97 - 2 * ms.length)) 0 TYPE_STRUCTURE with
    | none => simp [h0] at hf
    | some t0 =>
      simp only
      cases h1 : write t0 1 displ with
      | none => simp [h0, h1] at hf
      | some t1 =>
        simp only
        simp [h0, h1] at hf
        rw [hf, Option.bind_some]
        simpa [Int.mul_comm] using hr
  · rw [if_neg h, if_neg (by omega)]

/-- C46: a signature is stored inside the six cells exactly when it has at most 3 letters. -/
theorem C46_signature_exactly (type : Char → Option Int) (ret : Int) (cs : List Char) (h : ∀ c ∈ cs, (type c).isSome) :
    signatureCells type ret cs = if cs.length ≤ 3 then some ([TYPE_FUNCTION, ret, (cs.length : Int)] ++ cs.filterMap type) else none := by
  have w0 : write (fresh 6) 0 TYPE_FUNCTION = some [some TYPE_FUNCTION, none, none, none, none, none] := rfl
  have w1 : write [some TYPE_FUNCTION, none, none, none, none, none] 1 ret = some [some TYPE_FUNCTION, some ret, none, none, none, none] := rfl
  have hl := letterLoop_lay type TYPE_FUNCTION ret cs 3 [] h
  unfold signatureCells
  rw [w0]
  simp only
  rw [w1]
  simp only
  rw [show letterLoop type [some TYPE_FUNCTION, some ret, none, none, none, none] 0 cs = _ from hl]
  by_cases hc : cs.length ≤ 3
  · rw [if_pos hc, if_pos hc]
    simp only [List.nil_append, List.length_nil, Nat.zero_add]
    have hlen : (cs.filterMap type).length = cs.length := by
      clear hl hc
      induction cs with
      | nil => rfl
      | cons c cs ih =>
        obtain ⟨t, ht⟩ := Option.isSome_iff_exists.1 (h c List.mem_cons_self)
        rw [List.filterMap_cons_some ht, List.length_cons, List.length_cons, ih fun x hx => h x (List.mem_cons_of_mem _ hx)]
    have w2 : write ([some TYPE_FUNCTION, some ret, none] ++ (cs.filterMap type).map some ++ List.replicate (3 - cs.length) none) 2 (cs.length : Int) =
        some (lay 0 ([TYPE_FUNCTION, ret, (cs.length : Int)] ++ cs.filterMap type) (3 - cs.length)) := by
      simp [write, lay]
    rw [w2, Option.bind_some]
    have hr := readAll_lay ([TYPE_FUNCTION, ret, (cs.length : Int)] ++ cs.filterMap type) (3 - cs.length)
    rw [List.length_append, hlen] at hr
    exact hr
  · rw [if_neg hc, if_neg hc]

/-- C46: the signatures in the code have known letters only, and at most 3. -/
theorem C46_builtins_inside : ∀ s ∈ signatures, s.toList.length ≤ 3 ∧ ∀ c ∈ s.toList, c ∈ letters := by decide +kernel

/-! ### Examples -/

/-- `enum { A, B = 7, C }`. -/
def three : List Entry := [⟨1, .next⟩, ⟨2, .const 7⟩, ⟨3, .next⟩]

example : (∀ e ∈ three, e.Fine) ∧ InRange (meaning 0 three) ∧ three.length ≤ 49 := by
  refine ⟨?_, ?_, by decide⟩
  · intro e he
    simp [three] at he
    rcases he with rfl | rfl | rfl
    · exact .inl rfl
    · exact .inr ⟨7, rfl, by decide⟩
    · exact .inl rfl
  · show ∀ f ∈ meaning 0 three, _
    decide +kernel

example : enumList three = some (some ([(1, 0), (2, 7), (3, 8)], [0, 6, 0, 1, 7, 2, 8, 3])) := by decide +kernel

example : (List.replicate 50 (Entry.mk 1 .next)).length = 50 ∧ enumList (List.replicate 50 ⟨1, .next⟩) = none ∧ (enumList (List.replicate 49 ⟨1, .next⟩)).isSome := by
  decide +kernel

/-- `f(int a, int g(int, float))`. -/
example : (Params.cons (.simple true (-1)) (.cons (.function false true (-1) (simples false [-1, -3])) .nil)).Short 97 := by
  simp [Params.Short, Param.Short, simples]

example : declarator (fun l => l.length) true 3 (-1) (.cons (.simple true (-1)) (.cons (.function false true (-1) (simples false [-1, -3])) .nil)) = some (5, 1) := by
  decide +kernel

example : structCells 3 [(-1, 10), (-3, 11)] = some [TYPE_STRUCTURE, 3, 4, -1, 10, -3, 11] := by decide +kernel

end RuC.Tables.Props
