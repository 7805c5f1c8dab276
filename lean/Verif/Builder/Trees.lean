import Verif.Builder.More
import Verif.Types.Props

/-! Types built by a history of requests stand for trees, and their table is clean. -/

namespace RuC.Builder

open RuC RuC.Types RuC.Types.Spec RuC.Expr RuC.Builder.Spec

/-- What a request adds to the table. -/
def Grown (tb tb' : Table) : Prop :=
  (tb'.cells = tb.cells ∧ tb'.start = toSize (toItem tb.start)) ∨ ∃ rest, tb'.cells = tb.cells ++ toItem tb.start :: rest

theorem typeAdd_grown {body : List Int} {tb tb' : Table} {t : Int} (h : typeAdd tb body = some (t, tb')) : Grown tb tb' := by
  unfold typeAdd at h
  simp only at h
  split at h
  · cases h
  · cases h; exact Or.inr ⟨_, rfl⟩
  · cases h
    refine Or.inl ⟨by simp, ?_⟩
    simp [RuC.Types.get]

theorem build_grown {h : List (Req × Int)} {rs : List (Nat × List Int)} {r : Req} {tb tb' : Table} {t : Int} (hi : Inv h tb rs)
    (hlen : tb.cells.length < 2305843009213693952) (hb : build tb r = some (t, tb')) : Grown tb tb' := by
  cases r with
  | pointer => exact typeAdd_grown hb
  | array => exact typeAdd_grown hb
  | const => exact typeAdd_grown hb
  | function =>
    simp only [build, typeFunction] at hb
    split at hb
    · exact typeAdd_grown hb
    · cases hb
  | struct =>
    simp only [build, typeStructure] at hb
    split at hb
    · split at hb
      · cases hb
      · exact typeAdd_grown hb
    · cases hb
  | enum fs =>
    simp only [build, typeEnum] at hb
    rw [add_enum hi.lay hi.start (by omega)] at hb
    have es : (startOf rs : Int) = toItem tb.start := by
      rw [hi.start, toItem_of_lt]
      cases hr : rs with
      | nil => simp [startOf]
      | cons q qs =>
        have := (lay_stored hi.lay q (by rw [hr]; exact List.mem_cons_self)).2.1
        simp only [startOf]; omega
    simp only at hb
    unfold enumAddFields at hb
    split at hb
    · cases hb
    · cases hb; exact Or.inr ⟨[TYPE_ENUM], by simp [es]⟩
    · cases hb; exact Or.inr ⟨TYPE_ENUM :: fs, by simp [es]⟩

theorem run_short {a b : Int} {h : List (Req × Int)} {tb tb' : Table} {r : Req} {t : Int} (hr : Run a b h tb) (ha : Allowed h r) (hb : build tb r = some (t, tb'))
    (hlen : tb'.cells.length < 2305843009213693952) : tb.cells.length < 2305843009213693952 := by
  by_cases hl : tb.cells.length < 2305843009213693952
  · exact hl
  · exfalso
    have grow : ∀ {body : List Int} {tb : Table} {t tb'}, typeAdd tb body = some (t, tb') → tb.cells.length ≤ tb'.cells.length := by
      intro body tb t tb' hh
      unfold typeAdd at hh
      simp only at hh
      split at hh
      · cases hh
      · cases hh; simp
      · cases hh; simp
    have : tb.cells.length ≤ tb'.cells.length := by
      cases r with
      | pointer => exact grow hb
      | array => exact grow hb
      | const => exact grow hb
      | function =>
        simp only [build, typeFunction] at hb
        split at hb
        · exact grow hb
        · cases hb
      | struct =>
        simp only [build, typeStructure] at hb
        split at hb
        · split at hb
          · cases hb
          · exact grow hb
        · cases hb
      | enum fs =>
        simp only [build, typeEnum] at hb
        split at hb
        · cases hb
        · rename_i t1 tb1 hadd
          have g := grow hadd
          unfold enumAddFields at hb
          split at hb
          · cases hb
          · cases hb; exact g
          · cases hb; simp; omega
    omega

/-- The beginning of the table in every history. -/
theorem run_begin {a b : Int} {h : List (Req × Int)} {tb : Table} (hr : Run a b h tb) (hlen : tb.cells.length < 2305843009213693952) :
    (tb.cells = (initTable a b).cells ∧ tb.start = 1) ∨ ∃ rest, tb.cells = (initTable a b).cells ++ 1 :: rest := by
  induction hr with
  | init => exact Or.inl ⟨rfl, rfl⟩
  | @step h tb r t tb' hr ha hb ih =>
    have hl := run_short hr ha hb hlen
    obtain ⟨rs, hi⟩ := run_inv hr hl
    have o1 : toItem 1 = 1 := toItem_of_lt (by omega)
    have o2 : toSize 1 = 1 := toSize_natCast (n := 1) (by omega)
    rcases build_grown hi hl hb with ⟨g, gs⟩ | ⟨rest, g⟩ <;> rcases ih hl with ⟨i, is⟩ | ⟨rest', i⟩
    · exact Or.inl ⟨by rw [g, i], by rw [gs, is, o1, o2]⟩
    · exact Or.inr ⟨rest', by rw [g, i]⟩
    · exact Or.inr ⟨rest, by rw [g, i, is, o1]⟩
    · exact Or.inr ⟨rest' ++ toItem tb.start :: rest, by rw [g, i]; simp⟩

theorem run_clean {a b : Int} {h : List (Req × Int)} {tb : Table} (hr : Run a b h tb) (hlen : tb.cells.length < 2305843009213693952)
    (ha : a ≠ TYPE_ENUM) (hb : b ≠ TYPE_ENUM) : Clean tb.cells := by
  intro k h1 h9
  have c0 : (1005 : Int) = TYPE_ENUM := rfl
  rcases run_begin hr hlen with ⟨e, -⟩ | ⟨rest, e⟩ <;> rw [e] <;> unfold initTable
  all_goals
    rw [← c0] at ha hb ⊢
    rcases (by omega : k = 1 ∨ k = 2 ∨ k = 3 ∨ k = 4 ∨ k = 5 ∨ k = 6 ∨ k = 7 ∨ k = 8 ∨ k = 9) with rfl | rfl | rfl | rfl | rfl | rfl | rfl | rfl | rfl <;>
    simp [TYPE_STRUCTURE, TYPE_INTEGER, ha, hb]

theorem getElem?_mono {cells ext : List Int} {n : Nat} {x : Int} (h : cells[n]? = some x) : (cells ++ ext)[n]? = some x := by
  rw [List.getElem?_append_left (List.getElem?_eq_some_iff.1 h).1, h]

theorem den_mono {cells ext : List Int} {t : Int} {T : Ty} (h : Den cells t T) : Den (cells ++ ext) t T := by
  induction h with
  | struct h0 h1 h2 => exact .struct h0 (by simp; omega) (getElem?_mono h2)
  | function h0 h1 => exact .function h0 (getElem?_mono h1)
  | enum h0 h1 => exact .enum h0 (getElem?_mono h1)
  | field h0 h1 => exact .field h0 (getElem?_mono h1)
  | array h0 h1 h2 _ ih => exact .array h0 (getElem?_mono h1) (getElem?_mono h2) ih
  | pointer h0 h1 h2 _ ih => exact .pointer h0 (getElem?_mono h1) (getElem?_mono h2) ih
  | const h0 h1 h2 h3 _ ih => exact .const h0 (getElem?_mono h1) (getElem?_mono h2) h3 ih
  | _ => constructor

theorem stored_cell {cells body : List Int} {pos i : Nat} {x : Int} (h : Stored cells pos body) (hx : body[i]? = some x) : cells[pos + i]? = some x := by
  have hi := (List.getElem?_eq_some_iff.1 hx).1
  have := h.2 i x hx
  unfold RuC.Types.get at this
  have hl : pos + i < cells.length := by have := h.1; omega
  rw [List.getElem?_eq_getElem hl]
  rw [List.getD_eq_getElem?_getD, List.getElem?_eq_getElem hl] at this
  exact congrArg some this

/-- Every type of a history stands for a tree. -/
theorem run_den {a b : Int} {h : List (Req × Int)} {tb : Table} (hr : Run a b h tb) (hlen : tb.cells.length < 2305843009213693952)
    (hm : ∀ x ∈ h, ∀ t ∈ mentioned x.1, t ≤ 0 → t ∈ [-9, -8, -7, -6, -4, -3, -2, -1, 0]) : ∀ x ∈ h, ∃ T, Den tb.cells x.2 T := by
  induction hr with
  | init =>
    intro x hx
    rw [List.mem_singleton] at hx
    subst hx
    exact ⟨_, Den.struct (n := 2) (by omega) (by simp [initTable]) rfl⟩
  | @step h tb r t tb' hr ha hb ih =>
    have hl := run_short hr ha hb hlen
    obtain ⟨rs, hi⟩ := run_inv hr hl
    obtain ⟨rs', hi'⟩ := run_inv (.step hr ha hb) hlen
    have ih := ih hl fun x hx => hm x (List.mem_cons_of_mem _ hx)
    have hpre : ∃ ext, tb'.cells = tb.cells ++ ext := by
      rcases build_grown hi hl hb with ⟨g, -⟩ | ⟨rest, g⟩
      · exact ⟨[], by rw [g]; simp⟩
      · exact ⟨_, g⟩
    obtain ⟨ext, hext⟩ := hpre
    have old : ∀ x ∈ h, ∃ T, Den tb'.cells x.2 T := by
      intro x hx
      obtain ⟨T, d⟩ := ih x hx
      exact ⟨T, hext ▸ den_mono d⟩
    have known : ∀ u ∈ mentioned r, ∃ T, Den tb'.cells u T := by
      intro u hu
      rcases ha.known u hu with h0 | ⟨q, hq⟩
      · have := hm _ List.mem_cons_self u hu h0
        simp only [List.mem_cons, List.not_mem_nil, or_false] at this
        rcases this with rfl | rfl | rfl | rfl | rfl | rfl | rfl | rfl | rfl <;> exact ⟨_, by constructor⟩
      · exact old _ hq
    intro x hx
    rcases List.mem_cons.1 hx with rfl | hx
    · obtain ⟨q, hq, e, he⟩ := hi'.recs _ List.mem_cons_self
      simp only at e he ⊢
      have hs := (lay_stored hi'.lay q hq).2
      have e' : t = ((q.1 + 1 : Nat) : Int) := by omega
      rw [e']
      cases r with
      | pointer u =>
        simp only [Enc] at he
        rw [he] at hs
        obtain ⟨T, d⟩ := known u (by simp [mentioned])
        exact ⟨_, .pointer (by omega) (stored_cell (i := 0) hs rfl) (stored_cell (i := 1) hs rfl) d⟩
      | array u =>
        simp only [Enc] at he
        rw [he] at hs
        obtain ⟨T, d⟩ := known u (by simp [mentioned])
        exact ⟨_, .array (by omega) (stored_cell (i := 0) hs rfl) (stored_cell (i := 1) hs rfl) d⟩
      | const u =>
        simp only [Enc] at he
        obtain ⟨rs2, hsh, hlt⟩ := lay_shape hi'.lay q hq
        rw [he] at hs hsh
        obtain ⟨T, d⟩ := known u (by simp [mentioned])
        refine ⟨_, .const (by omega) (stored_cell (i := 0) hs rfl) (stored_cell (i := 1) hs rfl) ?_ d⟩
        generalize hbody : [TYPE_CONST, u] = body at hsh
        cases hsh with
        | const k =>
          cases hbody
          rcases k with k | k | ⟨q', hq', k, -⟩
          · omega
          · omega
          · have := (hlt q' hq').2
            omega
        | _ => exact absurd (congrArg List.head? hbody) (by simp [TYPE_CONST, TYPE_POINTER, TYPE_ARRAY, TYPE_FUNCTION, TYPE_STRUCTURE, TYPE_ENUM])
      | function u ps =>
        simp only [Enc] at he
        rw [he] at hs
        exact ⟨_, .function (by omega) (stored_cell (i := 0) hs rfl)⟩
      | struct ms =>
        obtain ⟨n, -, he⟩ := he
        rw [he] at hs
        have hc := stored_cell (i := 0) hs rfl
        exact ⟨_, .struct (by omega) (List.getElem?_eq_some_iff.1 hc).1 hc⟩
      | enum fs =>
        simp only [Enc] at he
        rw [he] at hs
        exact ⟨_, .enum (by omega) (stored_cell (i := 0) hs rfl)⟩
    · exact old x hx

end RuC.Builder
