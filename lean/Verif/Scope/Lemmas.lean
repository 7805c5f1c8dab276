import Verif.Scope.Spec

/-! Records of identifiers and the loop that closes a scope. -/

namespace RuC.Scope
open RuC RuC.Scope.Spec

/-! ## Records -/

structure Rec where
  prev : Int
  repr : Int
  type : Option Int
  displ : Option Int

def Rec.cells (x : Rec) : List (Option Int) := [some x.prev, some x.repr, x.type, x.displ]

def flat (recs : List Rec) : List (Option Int) := recs.flatMap Rec.cells

theorem flat_length (recs : List Rec) : (flat recs).length = 4 * recs.length := by
  induction recs with
  | nil => rfl
  | cons x recs ih =>
    unfold flat at *
    simp only [List.flatMap_cons, List.length_append, ih, List.length_cons]
    simp [Rec.cells]
    omega

theorem flat_get (recs : List Rec) : ∀ (j : Nat) (x : Rec), recs[j]? = some x → (flat recs)[4 * j]? = some (some x.prev) ∧ (flat recs)[4 * j + 1]? = some (some x.repr) := by
  induction recs with
  | nil => intro j x h; simp at h
  | cons y recs ih =>
    intro j x h
    cases j with
    | zero =>
      simp only [List.getElem?_cons_zero, Option.some.injEq] at h
      subst h
      exact ⟨rfl, rfl⟩
    | succ j =>
      rw [List.getElem?_cons_succ] at h
      exact ih j x h

theorem get_rec {pre : List (Option Int)} {recs : List Rec} {j : Nat} {x : Rec} (h : recs[j]? = some x) :
    get (pre ++ flat recs) (pre.length + 4 * j) = some x.prev ∧ get (pre ++ flat recs) (pre.length + 4 * j + 1) = some x.repr := by
  obtain ⟨h1, h2⟩ := flat_get recs j x h
  have hj := (List.getElem?_eq_some_iff.1 h).1
  unfold get
  simp only [List.length_append, flat_length]
  rw [if_pos (by omega), if_pos (by omega), List.getElem?_append_right (by omega), List.getElem?_append_right (by omega), Nat.add_sub_cancel_left,
    Nat.add_assoc, Nat.add_sub_cancel_left, h1, h2]
  exact ⟨rfl, rfl⟩

/-- The reference a record keeps. -/
def dec (prev : Int) : Int := if prev = ITEM_MAX - 1 then ITEM_MAX else prev

/-- Undoing records, newest first. -/
def undo (recs : List Rec) (refs : List Int) : List Int := recs.foldr (fun x refs => setRef refs (toSize x.repr) (dec x.prev)) refs

theorem undo_append (a b : List Rec) (refs : List Int) : undo (a ++ b) refs = undo a (undo b refs) := List.foldr_append ..

theorem setRef_length {refs : List Int} {i : Nat} {v : Int} : (setRef refs i v).length = refs.length := by
  unfold setRef; simp

theorem undo_length (recs : List Rec) (refs : List Int) : (undo recs refs).length = refs.length := by
  induction recs with
  | nil => rfl
  | cons x recs ih =>
    show (setRef (undo recs refs) _ _).length = _
    rw [setRef_length, ih]

/-- The loop undoes the records of the scope. -/
theorem restore_eq {pre : List (Option Int)} (hpre : 4 ≤ pre.length) {recs : List Rec} {k : Nat} (hk : k ≤ recs.length)
    (hlen : (pre ++ flat recs).length < 4611686018427387904) (n : Nat) (hkn : k ≤ n) (hn : n ≤ recs.length) :
    ∀ fuel refs, n < k + fuel → restore (pre ++ flat recs) (pre.length + 4 * k) fuel (pre.length + 4 * n - 4) refs = some (undo ((recs.take n).drop k) refs) := by
  simp only [List.length_append, flat_length] at hlen
  induction n with
  | zero =>
    intro fuel refs hf
    obtain ⟨fuel, rfl⟩ : ∃ m, fuel = m + 1 := ⟨fuel - 1, by omega⟩
    rw [restore, if_neg (by omega)]
    simp [undo]
  | succ n ih =>
    intro fuel refs hf
    obtain ⟨fuel, rfl⟩ : ∃ m, fuel = m + 1 := ⟨fuel - 1, by omega⟩
    by_cases hkn' : k ≤ n
    · have hx : recs[n]? = some recs[n] := List.getElem?_eq_getElem (by omega)
      obtain ⟨g1, g2⟩ := get_rec (pre := pre) hx
      rw [restore, show pre.length + 4 * (n + 1) - 4 = pre.length + 4 * n by omega, if_pos (by omega), usz_of_lt (by omega), g1, g2]
      simp only
      rw [usub_of_le (by omega) (by omega), ih hkn' (by omega) fuel _ (by omega)]
      have e : (recs.take (n + 1)).drop k = (recs.take n).drop k ++ [recs[n]] := by
        rw [List.take_succ_eq_append_getElem (by omega), List.drop_append_of_le_length (by simp; omega)]
      rw [e, undo_append]
      rfl
    · have : k = n + 1 := by omega
      subst this
      rw [restore, if_neg (by omega), List.drop_eq_nil_of_le (by simp; omega)]
      rfl

theorem getRef_setRef {refs : List Int} {i j : Nat} {v : Int} (hi : i < refs.length) : getRef (setRef refs i v) j = if i = j then v else getRef refs j := by
  unfold getRef setRef
  simp only [List.getD_eq_getElem?_getD, List.getElem?_set]
  split
  · rename_i h
    subst h
    simp [hi]
  · rfl

/-- After undoing, a name has the reference kept by its oldest record. -/
theorem getRef_undo {recs : List Rec} {refs : List Int} (hr : ∀ x ∈ recs, ∃ r : Nat, x.repr = r ∧ r < refs.length) (hlen : refs.length < 18446744073709551616) (r : Nat) :
    getRef (undo recs refs) r = match recs.find? fun x => x.repr = (r : Int) with | some x => dec x.prev | none => getRef refs r := by
  induction recs with
  | nil => rfl
  | cons x recs ih =>
    obtain ⟨q, hq, hql⟩ := hr x List.mem_cons_self
    have hs : toSize x.repr = q := by rw [hq]; exact toSize_natCast (by omega)
    show getRef (setRef (undo recs refs) (toSize x.repr) (dec x.prev)) r = _
    rw [hs, getRef_setRef (by rw [undo_length]; exact hql), ih fun y hy => hr y (List.mem_cons_of_mem _ hy), List.find?_cons]
    by_cases h : q = r
    · subst h
      simp [hq]
    · have : decide (x.repr = (r : Int)) = false := by rw [hq]; simp; omega
      rw [this, if_neg h]

/-! ## Adding -/

theorem set_end {ids : List (Option Int)} {a b c d : Option Int} {x : Int} :
    set (ids ++ [a, b, c, d]) (ids.length + 1) x = ids ++ [a, some x, c, d] ∧ set (ids ++ [a, b, c, d]) (ids.length + 2) x = ids ++ [a, b, some x, d] ∧
    set (ids ++ [a, b, c, d]) (ids.length + 3) x = ids ++ [a, b, c, some x] := by
  unfold set
  refine ⟨?_, ?_, ?_⟩ <;> rw [List.set_append_right _ _ (by omega), Nat.add_sub_cancel_left] <;> rfl

/-- A filled record is at the end; nothing else of the names changes. -/
theorem fill_ok {s s' : Sx} {ids : List (Option Int)} {p : Option Int} {repr : Nat} {kind type : Int} {size : Nat} {fd : Int} (hids : s.ids = ids ++ [p, none, none, none])
    (h : identFill s ids.length repr kind type size fd = some s') :
    s'.refs = s.refs ∧ s'.curId = s.curId ∧ s'.refMain = s.refMain ∧ ∃ t d, (s'.ids = ids ++ [p, some (toItem repr), t, d] ∨
      s'.ids = ids ++ [p, some (-toItem repr), t, d] ∧ ¬ (kind ≤ 0 ∨ 1000 ≤ kind)) := by
  unfold identFill at h
  simp only [hids, set_end.1, set_end.2.1] at h
  split at h
  · cases h1 : signed (s.displ + 1) with
    | none => rw [h1] at h; cases h
    | some d =>
      rw [h1] at h
      simp only [Option.map_some, Option.some.injEq] at h
      subst h
      exact ⟨rfl, rfl, rfl, _, _, Or.inl set_end.2.2⟩
  · split at h
    · unfold getStatic at h
      simp only at h
      cases h1 : signed (s.displ + s.lg * toItem size) with
      | none => rw [h1] at h; cases h
      | some d =>
        rw [h1] at h
        simp only [Option.map_some, Option.some.injEq] at h
        subst h
        split
        · exact ⟨rfl, rfl, rfl, _, _, Or.inl set_end.2.2⟩
        · exact ⟨rfl, rfl, rfl, _, _, Or.inl set_end.2.2⟩
    · split at h
      · simp only [Option.some.injEq] at h
        subst h
        exact ⟨rfl, rfl, rfl, _, _, Or.inl (by simp only [set_end.2.1, set_end.2.2]; rfl)⟩
      · split at h
        · simp only [Option.some.injEq] at h
          subst h
          exact ⟨rfl, rfl, rfl, _, _, Or.inl set_end.2.2⟩
        · split at h
          · split at h
            · simp only [set_end.2.2] at h
              have hg : get (ids ++ [p, some (toItem repr), some type, some kind]) (ids.length + 1) = some (toItem repr) := by
                unfold get
                rw [if_pos (by simp), List.getElem?_append_right (by omega), Nat.add_sub_cancel_left]
                rfl
              rw [hg] at h
              simp only [Option.map_some, Option.some.injEq, set_end.1] at h
              subst h
              exact ⟨rfl, rfl, rfl, _, _, Or.inr ⟨rfl, by omega⟩⟩
            · simp only [Option.some.injEq, set_end.2.2] at h
              subst h
              exact ⟨rfl, rfl, rfl, _, _, Or.inl rfl⟩
          · simp only [Option.some.injEq] at h
            subst h
            exact ⟨rfl, rfl, rfl, _, _, Or.inl rfl⟩

/-- What an accepted declaration does. -/
theorem add_ok {s s' : Sx} {repr : Nat} {kind type : Int} {size : Nat} {fd : Int} {a : Nat} (h : identAdd s repr kind type size fd = some (a, s'))
    (ha : a < 18446744073709551614) (href : 0 ≤ getRef s.refs repr) (href' : getRef s.refs repr ≤ ITEM_MAX) :
    isRepeated s repr kind fd = some false ∧
    a = s.ids.length ∧ s'.curId = s.curId ∧ s'.refs = (if getRef s.refs repr = 0 then s.refs else setRef s.refs repr (toItem s.ids.length)) ∧
    ∃ x : Rec, s'.ids = s.ids ++ x.cells ∧ x.prev = (if getRef s.refs repr = ITEM_MAX then ITEM_MAX - 1 else getRef s.refs repr) ∧
      (x.repr = toItem repr ∨ x.repr = -toItem repr ∧ ¬ (kind ≤ 0 ∨ 1000 ≤ kind)) := by
  unfold identAdd at h
  split at h
  · simp only [Option.some.injEq, Prod.mk.injEq] at h
    have := h.1
    unfold SIZE_MAX at this
    omega
  · split at h
    · cases h
    · simp only [Option.some.injEq, Prod.mk.injEq] at h
      have := h.1
      unfold SIZE_MAX at this
      omega
    · rename_i hrep
      refine ⟨hrep, ?_⟩
      cases hf : identFill (identOpen s repr) s.ids.length repr kind type size fd with
      | none => rw [hf] at h; cases h
      | some u =>
        rw [hf] at h
        simp only [Option.map_some, Option.some.injEq, Prod.mk.injEq] at h
        obtain ⟨rfl, rfl⟩ := h
        obtain ⟨f1, f2, _, tt, dd, f4⟩ := fill_ok (ids := s.ids) rfl hf
        refine ⟨rfl, f2, ?_, ?_⟩
        · rw [f1]
          unfold identOpen prevCell
          simp only
          have hI : (ITEM_MAX : Int) = 9223372036854775807 := by unfold ITEM_MAX; rfl
          by_cases h0 : getRef s.refs repr = 0
          · have hz : toSize (if getRef s.refs repr = ITEM_MAX then ITEM_MAX - 1 else getRef s.refs repr) = 0 := by
              rw [if_neg (by omega), h0]
              exact toSize_natCast (n := 0) (by omega)
            rw [hz, if_pos h0, if_neg (by simp)]
          · rw [if_neg h0, if_pos]
            have hz : ∀ v : Int, 0 < v → v ≤ ITEM_MAX → toSize v ≠ 0 := by
              intro v h1 h2
              have := toSize_natCast (n := v.toNat) (by omega)
              rw [show ((v.toNat : Nat) : Int) = v by omega] at this
              omega
            split
            · exact hz _ (by omega) (by omega)
            · exact hz _ (by omega) href'
        · rcases f4 with f4 | ⟨f4, f5⟩
          · exact ⟨⟨_, _, tt, dd⟩, f4, rfl, Or.inl rfl⟩
          · exact ⟨⟨_, _, tt, dd⟩, f4, rfl, Or.inr ⟨rfl, f5⟩⟩

end RuC.Scope
