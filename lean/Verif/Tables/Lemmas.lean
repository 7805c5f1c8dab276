import Verif.Tables.Spec

/-! # Lemmas about tables -/

namespace RuC.Tables

open RuC

/-- `k` cells left free at the front, some cells written, `n` cells free. -/
def lay (k : Nat) (cells : List Int) (n : Nat) : List (Option Int) := List.replicate k none ++ cells.map some ++ List.replicate n none

theorem fresh_lay (k n : Nat) : fresh (k + n) = lay k [] n := by simp [fresh, lay, List.replicate_append_replicate]

theorem lay_length (k cells n) : (lay k cells n).length = k + cells.length + n := by simp [lay]; omega

theorem write_lay (k cells n v) : write (lay k cells (n + 1)) (k + cells.length) v = some (lay k (cells ++ [v]) n) := by
  unfold write
  rw [if_pos (by rw [lay_length]; omega)]
  simp [lay, List.set_append, List.replicate_succ]

theorem write_lay_full (k cells v) : write (lay k cells 0) (k + cells.length) v = none := by
  unfold write
  rw [if_neg (by rw [lay_length]; omega)]

theorem read_lay {k cells n i v} (h : cells[i]? = some v) : read (lay k cells n) (k + i) = some v := by
  have hi : i < cells.length := (List.getElem?_eq_some_iff.1 h).1
  unfold read lay
  rw [List.getElem?_append_left (by simp; omega), List.getElem?_append_right (by simp)]
  simp [h]

theorem readAll_of : ∀ (n : Nat) (tab : List (Option Int)) (l : List Int), tab.take n = l.map some → l.length = n → readAll tab n = some l
  | 0, tab, l, _, hl => by
    have : l = [] := List.eq_nil_of_length_eq_zero hl
    simp [readAll, this]
  | n + 1, tab, l, h, hl => by
    have hlen : n + 1 ≤ tab.length := by
      have := congrArg List.length h
      simp at this; omega
    have h1 : tab.take n = (l.take n).map some := by
      have := congrArg (List.take n) h
      rw [List.take_take, ← List.map_take] at this
      rwa [Nat.min_eq_left (by omega)] at this
    have h2 : read tab n = some (l[n]'(by omega)) := by
      have := congrArg (fun x => x[n]?) h
      simp only [List.getElem?_take_of_lt (Nat.lt_succ_self n), List.getElem?_map] at this
      unfold read
      rw [this, List.getElem?_eq_getElem (by omega)]
      rfl
    have ih := readAll_of n tab (l.take n) h1 (by simp; omega)
    simp only [readAll, ih, h2]
    rw [List.take_append_getElem, ← hl, List.take_length]

/-- The front of a table with its `3` cells written at last. -/
theorem front3 {a b c : Int} (cells : List Int) (n : Nat) :
    ((write (lay 3 cells n) 0 a).bind fun t => (write t 1 b).bind fun t => write t 2 c) = some (lay 0 ([a, b, c] ++ cells) n) := by
  simp [write, lay, List.replicate_succ]

theorem readAll_lay (cells n) : readAll (lay 0 cells n) cells.length = some cells :=
  readAll_of _ _ _ (by simp [lay]) rfl

/-! ### Enumerations -/

theorem enumerator_lay (cells : List Int) (n : Nat) (value name v : Int) (ids) (h : ITEM_MIN ≤ v + 1 ∧ v + 1 ≤ ITEM_MAX) :
    enumerator ⟨lay 2 cells (n + 2), 2 + cells.length, value, ids⟩ name v =
      some ⟨lay 2 (cells ++ [v, name]) n, 2 + (cells ++ [v, name]).length, v + 1, ids ++ [(name, v)]⟩ := by
  unfold enumerator advance
  rw [if_pos h]
  simp only
  rw [show v + 1 - 1 = v by omega, show n + 2 = n + 1 + 1 from rfl, write_lay]
  simp only
  have := write_lay 2 (cells ++ [v]) n name
  rw [List.length_append, List.length_singleton] at this
  rw [show 2 + cells.length + 1 = 2 + (cells.length + 1) by omega, this]
  simp; omega

theorem enumerator_full (cells : List Int) (n : Nat) (hn : n < 2) (value name v : Int) (ids) :
    enumerator ⟨lay 2 cells n, 2 + cells.length, value, ids⟩ name v = none := by
  unfold enumerator
  split
  · rfl
  · rename_i v1 _
    simp only
    match n, hn with
    | 0, _ => rw [write_lay_full]
    | 1, _ =>
      rw [show (1 : Nat) = 0 + 1 from rfl, write_lay]
      simp only
      have := write_lay_full 2 (cells ++ [v1 - 1]) name
      rw [List.length_append, List.length_singleton] at this
      rw [show 2 + cells.length + 1 = 2 + (cells.length + 1) by omega, this]
      rfl

theorem meaning_cons (next e rest) : meaning next (e :: rest) =
    (e.name, match e.value with | .const v => v | _ => next) :: meaning ((match e.value with | .const v => v | _ => next) + 1) rest := rfl

theorem enumLoop_fine : ∀ (es : List Entry) (cells : List Int) (n : Nat) (value : Int) (ids), (∀ e ∈ es, e.Fine) → InRange (meaning value es) →
    enumLoop ⟨lay 2 cells (2 * es.length + n), 2 + cells.length, value, ids⟩ es =
      some (some ⟨lay 2 (cells ++ fieldCells (meaning value es)) n, 2 + (cells ++ fieldCells (meaning value es)).length,
        ((meaning value es).getLast?.map (·.2 + 1)).getD value, ids ++ meaning value es⟩)
  | [], cells, n, value, ids, _, _ => by simp [enumLoop, meaning, fieldCells]
  | e :: rest, cells, n, value, ids, hf, hr => by
    have hlast : ∀ (f : Int × Int) (l : List (Int × Int)) (d : Int), (((f :: l).getLast?).map (·.2 + 1)).getD d = ((l.getLast?).map (·.2 + 1)).getD (f.2 + 1) := by
      intro f l d
      cases l with
      | nil => rfl
      | cons g l => rw [List.getLast?_cons_cons]; cases h : (g :: l).getLast? with
        | none => simp at h
        | some x => rfl
    have he := hf e List.mem_cons_self
    have key : ∀ v : Int, meaning value (e :: rest) = (e.name, v) :: meaning (v + 1) rest →
        (enumerator ⟨lay 2 cells (2 * (e :: rest).length + n), 2 + cells.length, value, ids⟩ e.name v).bind (enumLoop · rest) =
          some (some ⟨lay 2 (cells ++ fieldCells (meaning value (e :: rest))) n, 2 + (cells ++ fieldCells (meaning value (e :: rest))).length,
            ((meaning value (e :: rest)).getLast?.map (·.2 + 1)).getD value, ids ++ meaning value (e :: rest)⟩) := by
      intro v hv
      have hrv := hr (e.name, v) (by rw [hv]; exact List.mem_cons_self)
      rw [show 2 * (e :: rest).length + n = (2 * rest.length + n) + 2 by simp; omega, enumerator_lay _ _ _ _ _ _ hrv, Option.bind_some,
        enumLoop_fine rest _ n _ _ (fun x hx => hf x (List.mem_cons_of_mem _ hx)) (fun f hf => hr f (by rw [hv]; exact List.mem_cons_of_mem _ hf)), hv, hlast]
      simp [fieldCells]
    rcases he with h | ⟨v, h, hv⟩
    · rw [enumLoop, h]
      exact key value (by rw [meaning_cons, h])
    · rw [enumLoop, h]
      simp only
      rw [if_neg hv]
      exact key v (by rw [meaning_cons, h])

theorem enumLoop_over : ∀ (es : List Entry) (cells : List Int) (n : Nat) (value : Int) (ids), (∀ e ∈ es, e.Fine) → n < 2 * es.length →
    enumLoop ⟨lay 2 cells n, 2 + cells.length, value, ids⟩ es = none
  | [], cells, n, value, ids, _, h => by simp at h
  | e :: rest, cells, n, value, ids, hf, h => by
    have key : ∀ v : Int, (enumerator ⟨lay 2 cells n, 2 + cells.length, value, ids⟩ e.name v).bind (enumLoop · rest) = none := by
      intro v
      by_cases hn : n < 2
      · rw [enumerator_full _ _ hn]; rfl
      · obtain ⟨m, rfl⟩ : ∃ m, n = m + 2 := ⟨n - 2, by omega⟩
        by_cases hr : ITEM_MIN ≤ v + 1 ∧ v + 1 ≤ ITEM_MAX
        · rw [enumerator_lay _ _ _ _ _ _ hr, Option.bind_some]
          exact enumLoop_over rest _ m _ _ (fun x hx => hf x (List.mem_cons_of_mem _ hx)) (by simp at h; omega)
        · simp [enumerator, advance, hr]
    rcases hf e List.mem_cons_self with h | ⟨v, h, hv⟩
    · rw [enumLoop, h]; exact key value
    · rw [enumLoop, h]; simp only; rw [if_neg hv]; exact key v

/-- Whatever the entries are, while there is room only a value out of range is undefined. -/
theorem enumLoop_room : ∀ (es : List Entry) (cells : List Int) (n : Nat) (value : Int) (ids), 2 * es.length ≤ n → ITEM_MIN ≤ value → value + es.length ≤ ITEM_MAX →
    (∀ e ∈ es, ∀ v, e.value = .const v → ITEM_MIN ≤ v ∧ v + es.length ≤ ITEM_MAX) →
    ∃ r, enumLoop ⟨lay 2 cells n, 2 + cells.length, value, ids⟩ es = some r ∧
      ∀ l, r = some l → ∃ cells' n', l.tab = lay 2 (cells ++ cells') n' ∧ l.md = 2 + (cells ++ cells').length
  | [], cells, n, value, ids, _, _, _, _ => ⟨_, rfl, fun l h => ⟨[], n, by cases h; simp, by cases h; simp⟩⟩
  | e :: rest, cells, n, value, ids, hn, h1, h2, hv => by
    simp only [List.length_cons] at hn h2 hv
    obtain ⟨m, rfl⟩ : ∃ m, n = m + 2 := ⟨n - 2, by omega⟩
    have hrest : ∀ x ∈ rest, ∀ v, x.value = .const v → ITEM_MIN ≤ v ∧ v + rest.length ≤ ITEM_MAX := by
      intro x hx v h
      have := hv x (List.mem_cons_of_mem _ hx) v h
      omega
    have key : ∀ v : Int, ITEM_MIN ≤ v → v + (rest.length + 1 : Nat) ≤ ITEM_MAX →
        ∃ r, (enumerator ⟨lay 2 cells (m + 2), 2 + cells.length, value, ids⟩ e.name v).bind (enumLoop · rest) = some r ∧
        ∀ l, r = some l → ∃ cells' n', l.tab = lay 2 (cells ++ cells') n' ∧ l.md = 2 + (cells ++ cells').length := by
      intro v g1 g2
      rw [enumerator_lay _ _ _ _ _ _ ⟨by omega, by omega⟩, Option.bind_some]
      obtain ⟨r, hr, hl⟩ := enumLoop_room rest (cells ++ [v, e.name]) m (v + 1) (ids ++ [(e.name, v)]) (by omega) (by omega) (by omega) hrest
      refine ⟨r, hr, fun l h => ?_⟩
      obtain ⟨c, n', e1, e2⟩ := hl l h
      exact ⟨[v, e.name] ++ c, n', by simpa using e1, by simpa using e2⟩
    rw [enumLoop]
    split
    · exact key value h1 h2
    · rename_i v h
      split
      · exact ⟨none, rfl, fun l h => by cases h⟩
      · exact key v (hv e List.mem_cons_self v h).1 (hv e List.mem_cons_self v h).2
    · exact ⟨none, rfl, fun l h => by cases h⟩
    · exact enumLoop_room rest cells (m + 2) value ids (by omega) h1 (by omega) hrest

/-! ### Functions -/

theorem funcType_lay (add : List Int → Int) (cells : List Int) (n : Nat) (args : Nat) (ret : Int) :
    funcType add (lay 3 cells n) (3 + cells.length) args ret = some (add ([TYPE_FUNCTION, ret, (args : Int)] ++ cells)) := by
  have h := front3 (a := TYPE_FUNCTION) (b := ret) (c := (args : Int)) cells n
  have hr := readAll_lay ([TYPE_FUNCTION, ret, (args : Int)] ++ cells) n
  rw [show ([TYPE_FUNCTION, ret, (args : Int)] ++ cells).length = 3 + cells.length by simp; omega] at hr
  unfold funcType
  cases h0 : write (lay 3 cells n) 0 TYPE_FUNCTION with
  | none => simp [h0] at h
  | some t0 =>
    simp only
    cases h1 : write t0 1 ret with
    | none => simp [h0, h1] at h
    | some t1 =>
      simp only
      cases h2 : write t1 2 (args : Int) with
      | none => simp [h0, h1, h2] at h
      | some t2 =>
        simp [h0, h1, h2] at h
        simp only
        rw [h]
        simp only [List.cons_append, List.nil_append] at hr
        rw [hr]; rfl

mutual
theorem declLoop_short (add : List Int → Int) : ∀ (ps : Params) (n : Nat) (level : Bool) (fd : Nat) (ret : Int) (cells : List Int) (args : Nat),
    ps.Short n → declLoop add level fd ret (lay 3 cells n) (3 + cells.length) args ps ≠ none
  | .nil, n, level, fd, ret, cells, args, _ => by rw [declLoop, funcType_lay]; simp
  | .cons p rest, n, level, fd, ret, cells, args, h => by
    rw [Params.Short] at h
    obtain ⟨m, rfl⟩ : ∃ m, n = m + 1 := ⟨n - 1, by omega⟩
    rw [declLoop]
    have hp := paramType_short add p level h.2.1
    split
    · contradiction
    · simp
    · split
      · simp
      · rw [write_lay]
        simp only
        have := declLoop_short add rest m level ‹_› ret (cells ++ [‹Int›]) (args + 1) (by simpa using h.2.2)
        rw [List.length_append, List.length_singleton] at this
        exact this
theorem paramType_short (add : List Int → Int) : ∀ (p : Param) (level : Bool), p.Short → paramType add level p ≠ none
  | .simple named t, level, _ => by rw [paramType]; simp
  | .function before inside t ps, level, h => by
    rw [Param.Short] at h
    rw [paramType]
    split
    · simp
    · split
      · simp
      · have := declLoop_short add ps 97 false 2 t [] 0 h
        rw [← fresh_lay 3 97] at this
        simpa using this
end

theorem declLoop_simples (add : List Int → Int) (named : Bool) (ret : Int) : ∀ (ts : List Int) (n : Nat) (fd : Nat) (cells : List Int) (args : Nat),
    fd = 3 ∨ fd = (if named then 1 else 2) → 0 < args ∨ ts ≠ [] →
    declLoop add true fd ret (lay 3 cells n) (3 + cells.length) args (simples named ts) =
      if ts.length ≤ n then some (add ([TYPE_FUNCTION, ret, ((args + ts.length : Nat) : Int)] ++ cells ++ ts), if ts = [] then fd else if named then 1 else 2) else none
  | [], n, fd, cells, args, hfd, ha => by
    rw [simples, declLoop, funcType_lay]
    have : args ≠ 0 := by simp at ha; omega
    simp [this]
  | t :: ts, n, fd, cells, args, hfd, _ => by
    rw [simples, declLoop, paramType]
    have hn : nextDef fd named = some (if named then 1 else 2) := by
      unfold nextDef
      rcases hfd with rfl | rfl <;> cases named <;> simp
    simp only [Bool.not_true, Bool.false_and, Bool.false_eq_true, if_false, Param.named, hn]
    match n with
    | 0 => rw [write_lay_full]; simp
    | n + 1 =>
      rw [write_lay]
      simp only
      have := declLoop_simples add named ret ts n (if named then 1 else 2) (cells ++ [t]) (args + 1) (.inr rfl) (.inl (by omega))
      rw [List.length_append, List.length_singleton] at this
      rw [Nat.add_assoc, this]
      simp only [List.length_cons, Nat.add_le_add_iff_right, List.append_assoc, List.singleton_append, reduceCtorEq, if_false]
      rw [show args + 1 + ts.length = args + (ts.length + 1) by omega]
      simp

/-! ### Structures and builtin functions -/

theorem memberLoop_lay : ∀ (ms : List (Int × Int)) (n : Nat) (cells : List Int),
    memberLoop (lay 3 cells n) (3 + cells.length) ms =
      if 2 * ms.length ≤ n then some (lay 3 (cells ++ ms.flatMap fun m => [m.1, m.2]) (n - 2 * ms.length), 3 + (cells ++ ms.flatMap fun m => [m.1, m.2]).length) else none
  | [], n, cells => by simp [memberLoop]
  | m :: rest, n, cells => by
    rw [memberLoop]
    match n with
    | 0 => rw [write_lay_full]; simp
    | 1 =>
      rw [show (1 : Nat) = 0 + 1 from rfl, write_lay]
      simp only
      have := write_lay_full 3 (cells ++ [m.1]) m.2
      rw [List.length_append, List.length_singleton] at this
      rw [Nat.add_assoc, this, if_neg (by simp; omega)]
      rfl
    | n + 2 =>
      rw [show n + 2 = n + 1 + 1 from rfl, write_lay]
      simp only
      have := write_lay 3 (cells ++ [m.1]) n m.2
      rw [List.length_append, List.length_singleton] at this
      rw [Nat.add_assoc, this, Option.bind_some]
      have ih := memberLoop_lay rest n (cells ++ [m.1] ++ [m.2])
      rw [List.length_append, List.length_append, List.length_singleton, List.length_singleton] at ih
      rw [Nat.add_assoc, show cells.length + 2 = cells.length + 1 + 1 from rfl, ih]
      simp only [List.length_cons]
      by_cases h : 2 * rest.length ≤ n
      · rw [if_pos h, if_pos (by omega), show n + 1 + 1 - 2 * (rest.length + 1) = n - 2 * rest.length by omega]
        simp
      · rw [if_neg h, if_neg (by omega)]

theorem letterLoop_lay (type : Char → Option Int) (a b : Int) : ∀ (cs : List Char) (n : Nat) (cells : List Int) , (∀ c ∈ cs, (type c).isSome) →
    letterLoop type ([some a, some b, none] ++ cells.map some ++ List.replicate n none) cells.length cs =
      if cs.length ≤ n then some ([some a, some b, none] ++ (cells ++ cs.filterMap type).map some ++ List.replicate (n - cs.length) none, cells.length + cs.length) else none
  | [], n, cells, _ => by simp [letterLoop]
  | c :: cs, n, cells, h => by
    rw [letterLoop]
    obtain ⟨t, ht⟩ := Option.isSome_iff_exists.1 (h c List.mem_cons_self)
    rw [ht]
    simp only
    match n with
    | 0 =>
      have : write ([some a, some b, none] ++ cells.map some ++ List.replicate 0 none) (3 + cells.length) t = none := by
        unfold write; rw [if_neg (by simp; omega)]
      rw [this]; simp
    | n + 1 =>
      have : write ([some a, some b, none] ++ cells.map some ++ List.replicate (n + 1) none) (3 + cells.length) t =
          some ([some a, some b, none] ++ (cells ++ [t]).map some ++ List.replicate n none) := by
        unfold write; rw [if_pos (by simp; omega)]
        rw [show 3 + cells.length = cells.length + 1 + 1 + 1 by omega]
        simp [List.set_append, List.replicate_succ]
      rw [this, Option.bind_some]
      have ih := letterLoop_lay type a b cs n (cells ++ [t]) (fun x hx => h x (List.mem_cons_of_mem _ hx))
      rw [List.length_append, List.length_singleton] at ih
      rw [ih]
      simp only [List.length_cons, Nat.add_le_add_iff_right]
      split
      · simp [ht]; omega
      · rfl

end RuC.Tables
