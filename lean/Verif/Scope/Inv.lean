import Verif.Scope.Lemmas

/-! The invariant of identifiers along a sequence of calls. -/

namespace RuC.Scope
open RuC RuC.Scope.Spec

/-- The records from `k` on keep what names denoted, `D`, when there were `k` records. -/
def Snap (names : Nat) (recs : List Rec) (refs : List Int) (k : Nat) (D : Nat → Int) : Prop :=
  ∀ r < names, match (recs.drop k).find? fun x => x.repr = (r : Int) with
    | some x => dec x.prev = D r
    | none => getRef refs r = D r

/-- A scope that begins with record `k`, with the names `f`, inside the scopes `e`. -/
structure Part (s0 : Sx) (recs : List Rec) (refs : List Int) (k : Nat) (f : List (Nat × Nat)) (e : Env) : Prop where
  le : k ≤ recs.length
  snap : Snap s0.refs.length recs refs k (denote (getRef s0.refs) e)
  names : ∀ x ∈ recs.drop k, ∃ r : Nat, x.repr = r ∧ r < s0.refs.length
  own : ∀ x ∈ f, ∃ j y, k ≤ j ∧ x.2 = s0.ids.length + 4 * j ∧ recs[j]? = some y ∧ y.repr = (x.1 : Int)
  lower : ∀ x ∈ e.flatten, x.2 < s0.ids.length + 4 * k

/-- Displacements are small. -/
structure Small (w : Nat) (displ lg : Int) : Prop where
  up : displ ≤ 3 + w
  down : -(3 + w) ≤ displ
  lg : lg = 1 ∨ lg = -1

theorem Small.mono {w w' : Nat} {d l : Int} (h : Small w d l) (hw : w ≤ w') : Small w' d l := ⟨by have := h.up; omega, by have := h.down; omega, h.lg⟩

inductive Good (s0 : Sx) (recs : List Rec) (refs : List Int) (w : Nat) : List Open → Env → Nat → Prop
  | global {f} : Good s0 recs refs w [] [f] 2
  | block {st e c k f d l} : Good s0 recs refs w st e c → c ≤ s0.ids.length + 4 * k → Part s0 recs refs k f e → Small w d l → Good s0 recs refs w (.block ⟨d, l, c⟩ :: st) (f :: e) (s0.ids.length + 4 * k)
  | func {e k f d} : Good s0 recs refs w [] e 2 → Part s0 recs refs k f e → Small w d (-1) → Good s0 recs refs w [.func d] (f :: e) (s0.ids.length + 4 * k)

structure Inv (s0 s : Sx) (st : List Open) (e : Env) (recs : List Rec) (w : Nat) : Prop where
  ids : s.ids = s0.ids ++ flat recs
  len : s.refs.length = s0.refs.length
  refs : ∀ r, getRef s.refs r = denote (getRef s0.refs) e r
  bound : ∀ x ∈ e.flatten, s0.ids.length ≤ x.2 ∧ x.2 < s.ids.length ∧ x.1 < s0.refs.length
  good : Good s0 recs s.refs w st e s.curId
  small : Small w s.displ s.lg
  count : recs.length ≤ w

theorem Good.length {s0 : Sx} {recs : List Rec} {refs : List Int} {w : Nat} {st : List Open} {e : Env} {c : Nat} (h : Good s0 recs refs w st e c) : e.length = st.length + 1 := by
  induction h with
  | global => rfl
  | block _ _ _ _ ih => simp [ih]
  | func _ _ _ ih => simp [ih]

/-- What a name denotes is an identifier below the bound, or as in the beginning. -/
theorem denote_cases {base : Nat → Int} {e : Env} {r : Nat} : denote base e r = base r ∨ base r ≠ 0 ∧ ∃ x ∈ e.flatten, x.1 = r ∧ denote base e r = x.2 := by
  unfold denote
  split
  · rename_i h; exact Or.inl h.symm
  · split
    · rename_i hne _ x hx
      exact Or.inr ⟨hne, x, List.mem_of_find?_eq_some hx, by simpa using List.find?_some hx, rfl⟩
    · exact Or.inl rfl

theorem base_range {s0 : Sx} (hs : Start s0) (hl : s0.ids.length < 4611686018427387904) (r : Nat) :
    getRef s0.refs r = ITEM_MAX ∨ getRef s0.refs r ≤ 0 ∨ 2 ≤ getRef s0.refs r ∧ getRef s0.refs r < s0.ids.length := by
  by_cases h : r < s0.refs.length
  · have := hs.refs (s0.refs[r]) (List.getElem_mem h)
    unfold getRef
    rw [List.getD_eq_getElem?_getD, List.getElem?_eq_getElem h]
    exact this
  · left
    unfold getRef
    rw [List.getD_eq_getElem?_getD, List.getElem?_eq_none (by omega)]
    rfl

/-- The reference of a name that can be declared. -/
theorem ref_range {s0 s : Sx} {st : List Open} {e : Env} {recs : List Rec} {w : Nat} (hs : Start s0) (hi : Inv s0 s st e recs w)
    (hl : s.ids.length < 4611686018427387904) {r : Nat} (hb : 0 ≤ getRef s0.refs r) :
    getRef s.refs r = ITEM_MAX ∨ getRef s.refs r = 0 ∨ 2 ≤ getRef s.refs r ∧ getRef s.refs r < s.ids.length := by
  have hle : s0.ids.length ≤ s.ids.length := by rw [hi.ids]; simp
  have h2 : 2 ≤ s0.ids.length := by obtain ⟨n, hn⟩ := hs.cells; omega
  rw [hi.refs r]
  rcases denote_cases (base := getRef s0.refs) (e := e) (r := r) with h | ⟨_, x, hx, _, h⟩
  · rw [h]
    rcases base_range hs (by omega) r with h | h | h
    · exact Or.inl h
    · exact Or.inr (Or.inl (by omega))
    · exact Or.inr (Or.inr (by omega))
  · have := hi.bound x hx
    rw [h]
    exact Or.inr (Or.inr (by omega))

theorem snap_add {names : Nat} {recs : List Rec} {refs refs' : List Int} {k : Nat} {D : Nat → Int} (h : Snap names recs refs k D) (hk : k ≤ recs.length) {x : Rec} {r : Nat}
    (hx : x.repr = (r : Int)) (hp : dec x.prev = getRef refs r) (hr : ∀ q, q ≠ r → getRef refs' q = getRef refs q) : Snap names (recs ++ [x]) refs' k D := by
  intro q hq
  have := h q hq
  rw [List.drop_append_of_le_length hk, List.find?_append]
  cases hf : (recs.drop k).find? fun x => x.repr = (q : Int) with
  | some y => rw [hf] at this; exact this
  | none =>
    rw [hf] at this
    simp only at this
    by_cases e : q = r
    · subst e
      simp only [List.find?_cons, hx, decide_true, Option.none_or]
      rw [hp, this]
    · have : ¬ ((r : Int) = q) := by omega
      simp only [List.find?_cons, hx, decide_eq_false this, Option.none_or, List.find?_nil]
      rw [hr q e, ‹getRef refs q = D q›]

theorem Part.add {s0 : Sx} {recs : List Rec} {refs refs' : List Int} {k : Nat} {f : List (Nat × Nat)} {e : Env} (h : Part s0 recs refs k f e) {x : Rec} {r : Nat}
    (hx : x.repr = (r : Int)) (hrn : r < s0.refs.length) (hp : dec x.prev = getRef refs r) (hr : ∀ q, q ≠ r → getRef refs' q = getRef refs q) :
    Part s0 (recs ++ [x]) refs' k f e where
  le := by have := h.le; simp; omega
  snap := snap_add h.snap h.le hx hp hr
  names := by
    intro y hy
    rw [List.drop_append_of_le_length h.le] at hy
    rcases List.mem_append.1 hy with hy | hy
    · exact h.names y hy
    · rw [List.mem_singleton] at hy
      subst hy
      exact ⟨r, hx, hrn⟩
  own := by
    intro y hy
    obtain ⟨j, z, h1, h2, h3, h4⟩ := h.own y hy
    refine ⟨j, z, h1, h2, ?_, h4⟩
    rw [List.getElem?_append_left (List.getElem?_eq_some_iff.1 h3).1]
    exact h3
  lower := h.lower

theorem Good.add {s0 : Sx} {recs : List Rec} {refs refs' : List Int} {w w' : Nat} {st : List Open} {e : Env} {c : Nat} (h : Good s0 recs refs w st e c) (hw : w ≤ w') {x : Rec} {r : Nat}
    (hx : st ≠ [] → x.repr = (r : Int)) (hrn : r < s0.refs.length) (hp : dec x.prev = getRef refs r) (hr : ∀ q, q ≠ r → getRef refs' q = getRef refs q) :
    Good s0 (recs ++ [x]) refs' w' st e c := by
  induction h with
  | global => exact .global
  | @block st e c k f d l h hc hpt hsm ih =>
    have hx := hx (by simp)
    exact .block (ih fun _ => hx) hc (hpt.add hx hrn hp hr) (hsm.mono hw)
  | @func e k f d h hpt hsm ih =>
    have hx := hx (by simp)
    exact .func (ih fun _ => hx) (hpt.add hx hrn hp hr) (hsm.mono hw)

/-- A declaration in the innermost scope. -/
theorem Good.decl {s0 : Sx} {recs : List Rec} {refs refs' : List Int} {w w' : Nat} {st : List Open} {f : List (Nat × Nat)} {fs : Env} {c : Nat}
    (h : Good s0 recs refs w st (f :: fs) c) (hw : w ≤ w') {x : Rec} {r : Nat}
    (hx : st ≠ [] → x.repr = (r : Int)) (hrn : r < s0.refs.length) (hp : dec x.prev = getRef refs r) (hr : ∀ q, q ≠ r → getRef refs' q = getRef refs q) :
    Good s0 (recs ++ [x]) refs' w' st (((r, s0.ids.length + 4 * recs.length) :: f) :: fs) c := by
  have part : ∀ {k}, x.repr = (r : Int) → Part s0 recs refs k f fs → Part s0 (recs ++ [x]) refs' k ((r, s0.ids.length + 4 * recs.length) :: f) fs := by
    intro k hx hpt
    have hn := hpt.add hx hrn hp hr
    refine { hn with own := ?_ }
    intro y hy
    rcases List.mem_cons.1 hy with rfl | hy
    · exact ⟨recs.length, x, hpt.le, rfl, by simp, hx⟩
    · exact hn.own y hy
  cases h with
  | global => exact .global
  | block h hc hpt hs =>
    have hx := hx (by simp)
    exact .block (h.add hw (fun _ => hx) hrn hp hr) hc (part hx hpt) (hs.mono hw)
  | func h hpt hs =>
    have hx := hx (by simp)
    exact .func (h.add hw (fun _ => hx) hrn hp hr) (part hx hpt) (hs.mono hw)

/-- Closing a scope: what is kept for the outer scopes holds for the references as they were at its beginning. -/
theorem Good.close {s0 : Sx} {recs : List Rec} {refs : List Int} {w : Nat} {st : List Open} {e : Env} {c : Nat} (h : Good s0 recs refs w st e c)
    {k : Nat} {refs' : List Int} (hk : s0.ids.length + 4 * k ≥ c ∨ st = [])
    (hn : ∀ r < s0.refs.length, ((recs.drop k).find? fun x => x.repr = (r : Int)) = none → getRef refs' r = getRef refs r) :
    Good s0 recs refs' w st e c := by
  have part : ∀ {k' f e}, k' ≤ k → Part s0 recs refs k' f e → Part s0 recs refs' k' f e := by
    intro k' f e hkk hp
    refine { hp with snap := ?_ }
    intro r hr
    have := hp.snap r hr
    cases hf : (recs.drop k').find? fun x => x.repr = (r : Int) with
    | some y => rw [hf] at this; exact this
    | none =>
      rw [hf] at this
      simp only at this ⊢
      rw [← this]
      refine hn r hr (List.find?_eq_none.2 fun x hx => ?_)
      refine List.find?_eq_none.1 hf x ?_
      have : recs.drop k = (recs.drop k').drop (k - k') := by rw [List.drop_drop]; congr 1; omega
      rw [this] at hx
      exact List.mem_of_mem_drop hx
  induction h with
  | global => exact .global
  | @block st e c k1 f d l h hc hp hs ih =>
    have hk1 : k1 ≤ k := by
      rcases hk with hk | hk
      · omega
      · cases hk
    exact .block (ih (Or.inl (by omega))) hc (part hk1 hp) hs
  | @func e k1 f d h hp hs ih =>
    have hk1 : k1 ≤ k := by
      rcases hk with hk | hk
      · omega
      · cases hk
    exact .func (ih (Or.inr rfl)) (part hk1 hp) hs

theorem Good.cur_le {s0 : Sx} (hs : Start s0) {recs : List Rec} {refs : List Int} {w : Nat} {st : List Open} {e : Env} {c : Nat} (h : Good s0 recs refs w st e c) :
    c ≤ s0.ids.length + 4 * recs.length := by
  obtain ⟨n, hn⟩ := hs.cells
  cases h with
  | global => omega
  | block _ _ hp _ => have := hp.le; omega
  | func _ hp _ => have := hp.le; omega

theorem part_new {s0 s : Sx} {st : List Open} {e : Env} {recs : List Rec} {w : Nat} (hi : Inv s0 s st e recs w) : Part s0 recs s.refs recs.length [] e where
  le := Nat.le_refl _
  snap := by
    intro r _
    rw [List.drop_length]
    exact hi.refs r
  names := by intro x hx; rw [List.drop_length] at hx; cases hx
  own := by intro x hx; cases hx
  lower := by
    intro x hx
    have := (hi.bound x hx).2.1
    rw [hi.ids, List.length_append, flat_length] at this
    exact this

theorem cells_length {s0 s : Sx} {st : List Open} {e : Env} {recs : List Rec} {w : Nat} (hi : Inv s0 s st e recs w) : s.ids.length = s0.ids.length + 4 * recs.length := by
  rw [hi.ids, List.length_append, flat_length]

/-- Closing the innermost scope gives the references of its beginning. -/
theorem restore_part {s0 s : Sx} (hs : Start s0) {st : List Open} {f : List (Nat × Nat)} {e : Env} {recs : List Rec} {w k : Nat} (hi : Inv s0 s st (f :: e) recs w)
    (hp : Part s0 recs s.refs k f e) (hl : s.ids.length < 4611686018427387904) (hn : s0.refs.length < 18446744073709551616) :
    ∃ refs', restore s.ids (s0.ids.length + 4 * k) (s.ids.length + 1) (usub s.ids.length 4) s.refs = some refs' ∧ refs'.length = s.refs.length ∧
      (∀ r, getRef refs' r = denote (getRef s0.refs) e r) ∧
      (∀ r < s0.refs.length, ((recs.drop k).find? fun x => x.repr = (r : Int)) = none → getRef refs' r = getRef s.refs r) := by
  obtain ⟨n, hpre⟩ := hs.cells
  have hcl := cells_length hi
  refine ⟨undo (recs.drop k) s.refs, ?_, undo_length _ _, ?_, ?_⟩
  · have h := restore_eq (pre := s0.ids) (by omega) hp.le (by rw [← hi.ids]; exact hl) recs.length hp.le (Nat.le_refl _) (s.ids.length + 1) s.refs (by omega)
    rw [← hi.ids, List.take_length, ← hcl] at h
    rw [usub_of_le (by omega) (by omega)]
    exact h
  · intro r
    by_cases hr : r < s0.refs.length
    · rw [getRef_undo (by rw [hi.len]; exact hp.names) (by rw [hi.len]; exact hn) r]
      have hsn := hp.snap r hr
      split
      · rename_i x hx
        rw [hx] at hsn
        exact hsn
      · rename_i hx
        rw [hx] at hsn
        exact hsn
    · have o : ∀ l : List Int, l.length = s0.refs.length → getRef l r = ITEM_MAX := by
        intro l hl
        unfold getRef
        rw [List.getD_eq_getElem?_getD, List.getElem?_eq_none (by omega)]
        rfl
      rw [o _ (by rw [undo_length, hi.len])]
      rcases denote_cases (base := getRef s0.refs) (e := e) (r := r) with h | ⟨_, x, hx, h1, h⟩
      · rw [h, o _ rfl]
      · have := (hi.bound x (by rw [List.flatten_cons]; exact List.mem_append_right _ hx)).2.2
        omega
  · intro r hr hnone
    rw [getRef_undo (by rw [hi.len]; exact hp.names) (by rw [hi.len]; exact hn) r, hnone]

/-- Displacements after a declaration. -/
theorem fill_small {s s' : Sx} {last repr : Nat} {kind type : Int} {size : Nat} {fd : Int} {w : Nat} (h : identFill s last repr kind type size fd = some s')
    (hs : Small w s.displ s.lg) (hw : w + size < 4611686018427387904) : Small (w + (size + 1)) s'.displ s'.lg := by
  have hm := hs.mono (show w ≤ w + (size + 1) by omega)
  unfold identFill at h
  simp only at h
  split at h
  · cases h1 : signed (s.displ + 1) with
    | none => rw [h1] at h; cases h
    | some d =>
      rw [h1] at h
      simp only [Option.map_some, Option.some.injEq] at h
      subst h
      unfold signed at h1
      split at h1
      · cases h1
        exact ⟨by have := hs.up; simp only; omega, by have := hs.down; simp only; omega, hs.lg⟩
      · cases h1
  · split at h
    · unfold getStatic at h
      simp only at h
      cases h1 : signed (s.displ + s.lg * toItem size) with
      | none => rw [h1] at h; cases h
      | some d =>
        rw [h1] at h
        simp only [Option.map_some, Option.some.injEq] at h
        have hd : d = s.displ + s.lg * size := by
          unfold signed at h1
          split at h1
          · cases h1
            rw [toItem_of_lt (by omega)]
          · cases h1
        have := hs.up
        have := hs.down
        have hok : Small (w + (size + 1)) d s.lg := by
          refine ⟨?_, ?_, hs.lg⟩ <;> rcases hs.lg with e | e <;> rw [hd, e] <;> omega
        subst h
        split
        · exact hok
        · exact hok
    · split at h
      · simp only [Option.some.injEq] at h
        subst h
        exact hm
      · split at h
        · simp only [Option.some.injEq] at h
          subst h
          exact hm
        · split at h
          · split at h
            · cases hg : get (set (set (set s.ids (last + 1) (toItem repr)) (last + 2) type) (last + 3) kind) (last + 1) with
              | none => rw [hg] at h; cases h
              | some r =>
                rw [hg] at h
                simp only [Option.map_some, Option.some.injEq] at h
                subst h
                exact hm
            · simp only [Option.some.injEq] at h
              subst h
              exact hm
          · simp only [Option.some.injEq] at h
            subst h
            exact hm

theorem add_small {s s' : Sx} {repr : Nat} {kind type : Int} {size : Nat} {fd : Int} {a w : Nat} (h : identAdd s repr kind type size fd = some (a, s'))
    (hs : Small w s.displ s.lg) (hw : w + size < 4611686018427387904) : Small (w + (size + 1)) s'.displ s'.lg := by
  have hm := hs.mono (show w ≤ w + (size + 1) by omega)
  unfold identAdd at h
  split at h
  · simp only [Option.some.injEq, Prod.mk.injEq] at h
    rw [← h.2]
    exact hm
  · split at h
    · cases h
    · simp only [Option.some.injEq, Prod.mk.injEq] at h
      rw [← h.2]
      exact hm
    · cases hf : identFill (identOpen s repr) s.ids.length repr kind type size fd with
      | none => rw [hf] at h; cases h
      | some u =>
        rw [hf] at h
        simp only [Option.map_some, Option.some.injEq, Prod.mk.injEq] at h
        rw [← h.2]
        exact fill_small hf hs hw

theorem flat_append (a b : List Rec) : flat (a ++ b) = flat a ++ flat b := by
  unfold flat; exact List.flatMap_append ..

/-- An accepted declaration keeps the invariant. -/
theorem inv_decl {s0 s s' : Sx} (hs : Start s0) {st : List Open} {e : Env} {recs : List Rec} {w : Nat} (hi : Inv s0 s st e recs w) {r : Nat} {kind type : Int} {size : Nat}
    {fd : Int} {a : Nat} (hp : Proper (getRef s0.refs) s0.refs.length st.length (.decl r kind type size fd)) (h : identAdd s r kind type size fd = some (a, s'))
    (ha : a < 18446744073709551614) (hl : s.ids.length < 4611686018427387904) (hn : s0.refs.length < 9223372036854775808) (hw : w + size < 4611686018427387904) :
    ∃ recs', Inv s0 s' st (envStep e (.decl r kind type size fd, a)) recs' (w + (size + 1)) := by
  obtain ⟨hp0, hp1, hp2, hp3, hp4⟩ := hp
  have hrr := ref_range hs hi hl hp2
  have hI : (ITEM_MAX : Int) = 9223372036854775807 := by unfold ITEM_MAX; rfl
  obtain ⟨_, rfl, hc, hrefs, x, hids, hprev, hrepr⟩ := add_ok h ha (by omega) (by omega)
  have hcl := cells_length hi
  have hit : toItem r = r := toItem_of_lt (by omega)
  have hidt : toItem s.ids.length = s.ids.length := toItem_of_lt (by omega)
  have hel := hi.good.length
  obtain ⟨f, fs, rfl⟩ : ∃ f fs, e = f :: fs := by
    cases e with
    | nil => simp at hel
    | cons f fs => exact ⟨f, fs, rfl⟩
  have hxr : st ≠ [] → x.repr = (r : Int) := by
    intro hne
    rcases hrepr with h | ⟨_, h⟩
    · rw [h, hit]
    · exfalso
      rcases hp4 with h0 | h0
      · exact hne (List.length_eq_zero_iff.1 h0)
      · exact h h0
  have hdec : dec x.prev = getRef s.refs r := by
    unfold dec
    rw [hprev]
    split
    · rename_i hm; rw [if_pos rfl, hm]
    · rw [if_neg (by omega)]
  have hoth : ∀ q, q ≠ r → getRef s'.refs q = getRef s.refs q := by
    intro q hq
    rw [hrefs]
    split
    · rfl
    · rw [getRef_setRef (by rw [hi.len]; exact hp1), if_neg (by omega)]
  refine ⟨recs ++ [x], ?_, ?_, ?_, ?_, ?_, ?_, ?_⟩
  · rw [hids, hi.ids, flat_append, List.append_assoc]
    simp [flat]
  · rw [hrefs]
    split
    · exact hi.len
    · rw [setRef_length, hi.len]
  · intro q
    simp only [envStep]
    by_cases hq : q = r
    · subst hq
      rw [hrefs]
      by_cases h0 : getRef s.refs q = 0
      · rw [if_pos h0, h0]
        have hb : getRef s0.refs q = 0 := by
          rcases denote_cases (base := getRef s0.refs) (e := f :: fs) (r := q) with hd | ⟨_, y, hy, _, hd⟩
          · rw [← hd, ← hi.refs q, h0]
          · have := (hi.bound y hy).1
            have hc := hi.refs q
            obtain ⟨n, hn⟩ := hs.cells
            omega
        unfold denote
        rw [if_pos hb]
      · rw [if_neg h0, getRef_setRef (by rw [hi.len]; exact hp1), if_pos rfl, hidt]
        have hb : getRef s0.refs q ≠ 0 := by
          intro hb
          have := hi.refs q
          unfold denote at this
          rw [if_pos hb] at this
          exact h0 this
        unfold denote
        rw [if_neg hb, List.flatten_cons, List.cons_append, List.find?_cons_of_pos (by simp)]
    · rw [hoth q hq, hi.refs q]
      unfold denote
      rw [List.flatten_cons, List.flatten_cons, List.cons_append, List.find?_cons_of_neg (by simp; omega)]
  · intro y hy
    simp only [envStep, List.flatten_cons, List.cons_append] at hy
    have hlen' : s'.ids.length = s.ids.length + 4 := by rw [hids, List.length_append]; rfl
    rcases List.mem_cons.1 hy with rfl | hy
    · simp only
      omega
    · have := hi.bound y (by rw [List.flatten_cons]; exact hy)
      omega
  · simp only [envStep]
    rw [hc, hcl]
    exact hi.good.decl (by omega) hxr hp1 hdec hoth
  · exact add_small h hi.small hw
  · have := hi.count
    simp
    omega

theorem good_weight {s0 : Sx} {recs : List Rec} {refs : List Int} {w w' : Nat} {st : List Open} {e : Env} {c : Nat} (h : Good s0 recs refs w st e c) (hw : w ≤ w') :
    Good s0 recs refs w' st e c := by
  induction h with
  | global => exact .global
  | block _ hc hp hs ih => exact .block ih hc hp (hs.mono hw)
  | func _ hp hs ih => exact .func ih hp (hs.mono hw)

/-- Every call keeps the invariant. -/
theorem inv_step {s0 : Sx} (hs : Start s0) {m m' : Sx × List Open} {e : Env} {recs : List Rec} {w : Nat} (hi : Inv s0 m.1 m.2 e recs w) {op : Op} {a : Nat}
    (hp : Proper (getRef s0.refs) s0.refs.length m.2.length op) (h : step m op = some (a, m')) (ha : a < 18446744073709551614)
    (hl : m.1.ids.length < 4611686018427387904) (hn : s0.refs.length < 9223372036854775808) (hw : w + weight op < 4611686018427387904) :
    (∃ recs', Inv s0 m'.1 m'.2 (envStep e (op, a)) recs' (w + weight op)) ∧ m'.2.length = depthStep m.2.length op := by
  obtain ⟨s, st⟩ := m
  simp only at *
  have hI : (ITEM_MAX : Int) = 9223372036854775807 := by unfold ITEM_MAX; rfl
  cases op with
  | decl r kind type size fd =>
    simp only [step] at h
    cases ha' : identAdd s r kind type size fd with
    | none => rw [ha'] at h; cases h
    | some x =>
      obtain ⟨b, t⟩ := x
      rw [ha'] at h
      simp only [Option.map_some, Option.some.injEq, Prod.mk.injEq] at h
      obtain ⟨rfl, rfl⟩ := h
      simp only [weight] at hw
      exact ⟨inv_decl hs hi hp ha' ha hl hn (by omega), rfl⟩
  | enter =>
    simp only [step, blockEnter, Option.some.injEq, Prod.mk.injEq] at h
    obtain ⟨rfl, rfl⟩ := h
    refine ⟨⟨recs, hi.ids, hi.len, hi.refs, hi.bound, ?_, hi.small, hi.count⟩, rfl⟩
    simp only [envStep]
    rw [cells_length hi]
    exact .block hi.good (hi.good.cur_le hs) (part_new hi) hi.small
  | funcEnter =>
    simp only [step] at h
    split at h
    · simp only [funcEnter, Option.some.injEq, Prod.mk.injEq] at h
      obtain ⟨rfl, rfl⟩ := h
      refine ⟨⟨recs, hi.ids, hi.len, hi.refs, hi.bound, ?_, ⟨by simp only; omega, by simp only; omega, Or.inl rfl⟩, hi.count⟩, rfl⟩
      simp only [envStep]
      rw [cells_length hi]
      have hg := hi.good
      generalize s.curId = c at hg
      cases hg with
      | global => exact .func .global (part_new hi) ⟨hi.small.up, hi.small.down, Or.inr rfl⟩
    · cases h
  | exit =>
    simp only [step] at h
    split at h
    · rename_i saved rest
      have hg := hi.good
      generalize hc : s.curId = c at hg
      cases hg with
      | @block _ e' c' k f d l hg hck hpt hsm =>
        have hnm : ¬ (l = ITEM_MAX ∨ d = ITEM_MAX) := by
          have := hsm.lg
          have := hsm.up
          omega
        obtain ⟨refs', h1, h2, h3, h4⟩ := restore_part hs hi hpt hl (by omega)
        unfold blockExit at h
        simp only [if_neg hnm, hc, h1, Option.map_some, Option.some.injEq, Prod.mk.injEq] at h
        obtain ⟨rfl, rfl⟩ := h
        refine ⟨⟨recs, hi.ids, h2.trans hi.len, h3, ?_, ?_, hsm, hi.count⟩, by simp [depthStep]⟩
        · intro x hx
          exact hi.bound x (by rw [List.flatten_cons]; exact List.mem_append_right _ hx)
        · exact hg.close (Or.inl hck) h4
    · cases h
  | funcExit =>
    simp only [step] at h
    split at h
    · rename_i displ
      have hg := hi.good
      generalize hc : s.curId = c at hg
      cases hg with
      | @func e' k f d hg hpt hsm =>
        obtain ⟨refs', h1, h2, h3, h4⟩ := restore_part hs hi hpt hl (by omega)
        unfold funcExit at h
        simp only [hc, h1, Option.map_some, Option.some.injEq, Prod.mk.injEq] at h
        obtain ⟨rfl, rfl⟩ := h
        refine ⟨⟨recs, hi.ids, h2.trans hi.len, h3, ?_, ?_, ⟨hsm.up, hsm.down, Or.inr rfl⟩, hi.count⟩, by simp [depthStep]⟩
        · intro x hx
          exact hi.bound x (by rw [List.flatten_cons]; exact List.mem_append_right _ hx)
        · exact hg.close (Or.inr rfl) h4
    · cases h

theorem inv_start {s0 : Sx} (hs : Start s0) : Inv s0 s0 [] [[]] [] 0 where
  ids := by simp [flat]
  len := rfl
  refs := by
    intro r
    unfold denote
    split
    · assumption
    · rfl
  bound := by intro x hx; simp at hx
  good := by rw [hs.curId]; exact .global
  small := ⟨by rw [hs.displ]; omega, by rw [hs.displ]; omega, Or.inr hs.lg⟩
  count := Nat.le_refl _

def total (ops : List Op) : Nat := (ops.map weight).sum

theorem inv_run {s0 : Sx} (hs : Start s0) (hn : s0.refs.length < 9223372036854775808) (ops : List Op) : ∀ {m m' : Sx × List Open} {e : Env} {recs : List Rec} {w : Nat} {as : List Nat},
    Inv s0 m.1 m.2 e recs w → AllProper (getRef s0.refs) s0.refs.length m.2.length ops → run m ops = some (as, m') → Accepted as →
    s0.ids.length + 4 * (w + total ops) < 4611686018427387904 →
    as.length = ops.length ∧ ∃ recs', Inv s0 m'.1 m'.2 ((ops.zip as).foldl envStep e) recs' (w + total ops) := by
  induction ops with
  | nil =>
    intro m m' e recs w as hi _ h _ _
    simp only [run, Option.some.injEq, Prod.mk.injEq] at h
    obtain ⟨rfl, rfl⟩ := h
    exact ⟨rfl, recs, hi⟩
  | cons op ops ih =>
    intro m m' e recs w as hi hp h ha hb
    simp only [run] at h
    split at h
    · cases h
    · rename_i a m1 hst
      cases hr : run m1 ops with
      | none => rw [hr] at h; cases h
      | some r =>
        rw [hr] at h
        simp only [Option.map_some, Option.some.injEq, Prod.mk.injEq] at h
        obtain ⟨rfl, rfl⟩ := h
        simp only [total, List.map_cons, List.sum_cons] at hb ⊢
        have hcl := cells_length hi
        have hct := hi.count
        obtain ⟨⟨recs1, hi1⟩, hd⟩ := inv_step hs hi hp.1 hst (ha a List.mem_cons_self) (by omega) hn (by omega)
        obtain ⟨hlen, recs2, hi2⟩ := ih hi1 (by rw [hd]; exact hp.2) hr (fun b hb => ha b (List.mem_cons_of_mem _ hb)) (by unfold total; omega)
        refine ⟨by simp [hlen], recs2, ?_⟩
        rw [List.zip_cons_cons, List.foldl_cons, ← Nat.add_assoc]
        exact hi2

theorem run_append (a b : List Op) : ∀ m, run m (a ++ b) = match run m a with
    | none => none
    | some (as, m') => (run m' b).map fun r => (as ++ r.1, r.2) := by
  induction a with
  | nil =>
    intro m
    simp only [run, List.nil_append]
    cases run m b <;> rfl
  | cons op a ih =>
    intro m
    simp only [run, List.cons_append]
    cases step m op with
    | none => rfl
    | some x =>
      obtain ⟨y, m1⟩ := x
      simp only
      rw [ih m1]
      cases run m1 a with
      | none => rfl
      | some z =>
        obtain ⟨zs, m2⟩ := z
        simp only [Option.map_some]
        cases run m2 b <;> rfl

theorem allProper_append {base : Nat → Int} {names : Nat} (a b : List Op) : ∀ {d}, AllProper base names d (a ++ b) → AllProper base names d a ∧ AllProper base names (a.foldl depthStep d) b := by
  induction a with
  | nil => intro d h; exact ⟨trivial, h⟩
  | cons op a ih =>
    intro d h
    obtain ⟨h1, h2⟩ := ih h.2
    exact ⟨⟨h.1, h1⟩, h2⟩

theorem run_depth (ops : List Op) : ∀ {m m' : Sx × List Open} {as : List Nat}, run m ops = some (as, m') → m'.2.length = ops.foldl depthStep m.2.length := by
  induction ops with
  | nil =>
    intro m m' as h
    simp only [run, Option.some.injEq, Prod.mk.injEq] at h
    obtain ⟨_, rfl⟩ := h
    rfl
  | cons op ops ih =>
    intro m m' as h
    simp only [run] at h
    split at h
    · cases h
    · rename_i a m1 hst
      cases hr : run m1 ops with
      | none => rw [hr] at h; cases h
      | some r =>
        rw [hr] at h
        simp only [Option.map_some, Option.some.injEq, Prod.mk.injEq] at h
        obtain ⟨_, rfl⟩ := h
        rw [List.foldl_cons, ih hr]
        congr 1
        cases op with
        | decl =>
          simp only [step, Option.map_eq_some_iff, Prod.mk.injEq] at hst
          obtain ⟨_, _, _, rfl⟩ := hst
          rfl
        | enter =>
          simp only [step, Option.some.injEq, Prod.mk.injEq] at hst
          obtain ⟨_, rfl⟩ := hst
          rfl
        | exit =>
          simp only [step] at hst
          split at hst
          · rename_i hm
            simp only [Option.map_eq_some_iff, Prod.mk.injEq] at hst
            obtain ⟨_, _, _, rfl⟩ := hst
            simp [hm, depthStep]
          · cases hst
        | funcEnter =>
          simp only [step] at hst
          split at hst
          · rename_i hm
            simp only [Option.some.injEq, Prod.mk.injEq] at hst
            obtain ⟨_, rfl⟩ := hst
            simp [hm, depthStep]
          · cases hst
        | funcExit =>
          simp only [step] at hst
          split at hst
          · rename_i hm
            simp only [Option.map_eq_some_iff, Prod.mk.injEq] at hst
            obtain ⟨_, _, _, rfl⟩ := hst
            simp [hm, depthStep]
          · cases hst

theorem run_cons {m : Sx × List Open} {op : Op} {ops : List Op} {as : List Nat} {m' : Sx × List Open} (h : run m (op :: ops) = some (as, m')) :
    ∃ a m1 bs, step m op = some (a, m1) ∧ run m1 ops = some (bs, m') ∧ as = a :: bs := by
  simp only [run] at h
  split at h
  · cases h
  · rename_i a m1 hst
    cases hr : run m1 ops with
    | none => rw [hr] at h; cases h
    | some r =>
      rw [hr] at h
      simp only [Option.map_some, Option.some.injEq, Prod.mk.injEq] at h
      obtain ⟨rfl, rfl⟩ := h
      exact ⟨a, m1, r.1, hst, hr, rfl⟩

theorem run_split {m : Sx × List Open} {a b : List Op} {as : List Nat} {m' : Sx × List Open} (h : run m (a ++ b) = some (as, m')) :
    ∃ m1 xs ys, run m a = some (xs, m1) ∧ run m1 b = some (ys, m') ∧ as = xs ++ ys := by
  rw [run_append] at h
  split at h
  · cases h
  · rename_i xs m1 hr
    cases hr2 : run m1 b with
    | none => rw [hr2] at h; cases h
    | some r =>
      rw [hr2] at h
      simp only [Option.map_some, Option.some.injEq, Prod.mk.injEq] at h
      obtain ⟨rfl, rfl⟩ := h
      exact ⟨m1, xs, r.1, hr, hr2, rfl⟩

theorem step_exit {m : Sx × List Open} {a : Nat} {m' : Sx × List Open} {o : Open} {st : List Open} (h : step m .exit = some (a, m')) (hm : m.2 = o :: st) :
    m'.2 = st ∧ ∃ sv, o = .block sv ∧ blockExit m.1 sv = some m'.1 := by
  simp only [step] at h
  split at h
  · rename_i sv rest hh
    rw [hm] at hh
    cases hh
    simp only [Option.map_eq_some_iff, Prod.mk.injEq] at h
    obtain ⟨s, hs, _, rfl⟩ := h
    exact ⟨rfl, sv, rfl, hs⟩
  · cases h

/-- Balanced calls leave the open scopes alone and declare in the innermost one. -/
theorem nested_run {ops : List Op} (hn : Nested ops) : ∀ {m m' : Sx × List Open} {as : List Nat}, run m ops = some (as, m') →
    m'.2 = m.2 ∧ as.length = ops.length ∧ ∀ f fs, ∃ g, (ops.zip as).foldl envStep (f :: fs) = (g ++ f) :: fs := by
  induction hn with
  | nil =>
    intro m m' as h
    simp only [run, Option.some.injEq, Prod.mk.injEq] at h
    obtain ⟨rfl, rfl⟩ := h
    exact ⟨rfl, rfl, fun f fs => ⟨[], rfl⟩⟩
  | @decl r kind type size fd ops hn ih =>
    intro m m' as h
    obtain ⟨a, m1, bs, h1, h2, rfl⟩ := run_cons h
    obtain ⟨i1, i2, i3⟩ := ih h2
    simp only [step, Option.map_eq_some_iff, Prod.mk.injEq] at h1
    obtain ⟨_, _, _, rfl⟩ := h1
    refine ⟨i1, by simp [i2], fun f fs => ?_⟩
    obtain ⟨g, hg⟩ := i3 ((r, a) :: f) fs
    refine ⟨g ++ [(r, a)], ?_⟩
    rw [List.zip_cons_cons, List.foldl_cons]
    simp only [envStep]
    rw [hg]
    simp
  | @block inner ops hn1 hn2 ih1 ih2 =>
    intro m m' as h
    obtain ⟨a, m1, bs, h1, h2, rfl⟩ := run_cons h
    obtain ⟨m2, xs, ys, h3, h4, rfl⟩ := run_split h2
    obtain ⟨b, m3, zs, h5, h6, rfl⟩ := run_cons h4
    obtain ⟨i1, i2, i3⟩ := ih1 h3
    obtain ⟨j1, j2, j3⟩ := ih2 h6
    simp only [step, Option.some.injEq, Prod.mk.injEq] at h1
    obtain ⟨rfl, rfl⟩ := h1
    obtain ⟨k1, _⟩ := step_exit h5 i1
    refine ⟨j1.trans k1, by simp [i2, j2], fun f fs => ?_⟩
    rw [List.zip_cons_cons, List.foldl_cons, List.zip_append i2.symm, List.foldl_append, List.zip_cons_cons, List.foldl_cons]
    simp only [envStep]
    obtain ⟨g, hg⟩ := i3 [] (f :: fs)
    rw [hg]
    exact j3 f fs

end RuC.Scope
