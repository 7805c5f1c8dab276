import Verif.Types.Spec

/-! The layout of the table of types. -/

namespace RuC.Types
open RuC RuC.Types.Spec

/-! ## Records -/

/-- Where the last record starts. -/
def startOf : List (Nat × List Int) → Nat
  | [] => 0
  | r :: _ => r.1

/-- A type `const` may be applied to. -/
def OkT (rs : List (Nat × List Int)) (t : Int) : Prop := t = 0 ∨ t = -1 ∨ ∃ r ∈ rs, t = r.1 + 1 ∧ r.2.head? ≠ some TYPE_ENUM

/-- A well-formed record behind its link. -/
inductive Shape (rs : List (Nat × List Int)) : List Int → Prop
  | pointer {t} : Shape rs [TYPE_POINTER, t]
  | array {t} : Shape rs [TYPE_ARRAY, t]
  | const {t} : OkT rs t → Shape rs [TYPE_CONST, t]
  | function {u : Int} {ps : List Int} : Shape rs (TYPE_FUNCTION :: u :: (ps.length : Int) :: ps)
  | struct {n : Int} {ms : List Int} : Shape rs (TYPE_STRUCTURE :: n :: (ms.length : Int) :: ms)
  | enum {x fs} : x ≠ ITEM_MAX → Shape rs (TYPE_ENUM :: x :: fs)

/-- The cells of a table with these records, newest first. -/
inductive Lay : List Int → List (Nat × List Int) → Prop
  | nil : Lay [0] []
  | add {cells rs body} : Lay cells rs → Shape rs body → (body.head? ≠ some TYPE_ENUM → ∀ r ∈ rs, r.2 ≠ body) →
      Lay (cells ++ (startOf rs : Int) :: body) ((cells.length, body) :: rs)

theorem get_append {a b : List Int} {i : Nat} (h : i < a.length) : get (a ++ b) i = get a i := by
  unfold get
  rw [List.getD_eq_getElem?_getD, List.getD_eq_getElem?_getD, List.getElem?_append_left h]

theorem get_right {a b : List Int} {i : Nat} : get (a ++ b) (a.length + i) = get b i := by
  unfold get
  rw [List.getD_eq_getElem?_getD, List.getD_eq_getElem?_getD, List.getElem?_append_right (by omega), Nat.add_sub_cancel_left]

theorem get_out {a : List Int} {i : Nat} (h : a.length ≤ i) : get a i = ITEM_MAX := by
  unfold get
  rw [List.getD_eq_getElem?_getD, List.getElem?_eq_none h]
  rfl

/-- The body is in the cells from `pos` on. -/
def Stored (cells : List Int) (pos : Nat) (body : List Int) : Prop := pos + body.length ≤ cells.length ∧ ∀ i x, body[i]? = some x → get cells (pos + i) = x

theorem Stored.append {cells body : List Int} {pos : Nat} (h : Stored cells pos body) (ext : List Int) : Stored (cells ++ ext) pos body := by
  refine ⟨by have := h.1; simp; omega, fun i x hx => ?_⟩
  have := (List.getElem?_eq_some_iff.1 hx).1
  rw [get_append (by have := h.1; omega)]
  exact h.2 i x hx

theorem stored_end (cells body : List Int) (x : Int) : Stored (cells ++ x :: body) (cells.length + 1) body := by
  refine ⟨by simp; omega, fun i y hy => ?_⟩
  rw [Nat.add_assoc, get_right]
  unfold get
  rw [List.getD_eq_getElem?_getD, Nat.add_comm, List.getElem?_cons_succ, hy]
  rfl

theorem lay_stored {cells : List Int} {rs : List (Nat × List Int)} (h : Lay cells rs) : ∀ r ∈ rs, 1 ≤ r.1 ∧ Stored cells (r.1 + 1) r.2 := by
  induction h with
  | nil => simp
  | @add cells rs body h _ _ ih =>
    intro r hr
    rcases List.mem_cons.1 hr with rfl | hr
    · refine ⟨?_, stored_end _ _ _⟩
      clear ih
      cases h with
      | nil => simp
      | add => simp; omega
    · exact ⟨(ih r hr).1, (ih r hr).2.append _⟩

theorem lay_length {cells : List Int} {rs : List (Nat × List Int)} (h : Lay cells rs) : rs.length < cells.length := by
  induction h with
  | nil => simp
  | add _ _ _ ih => simp; omega

theorem lay_zero {cells : List Int} {rs : List (Nat × List Int)} (h : Lay cells rs) : get cells 0 = 0 := by
  induction h with
  | nil => rfl
  | add h _ _ ih => rw [get_append (by have := lay_length h; omega), ih]

theorem lay_shape {cells : List Int} {rs : List (Nat × List Int)} (h : Lay cells rs) : ∀ r ∈ rs, ∃ rs', Shape rs' r.2 ∧ (∀ q ∈ rs', q ∈ rs ∧ q.1 < r.1) := by
  induction h with
  | nil => simp
  | @add cells rs body h hs _ ih =>
    intro r hr
    rcases List.mem_cons.1 hr with rfl | hr
    · refine ⟨rs, hs, fun q hq => ⟨List.mem_cons_of_mem _ hq, ?_⟩⟩
      have := (lay_stored h q hq).2.1
      simp only
      omega
    · obtain ⟨rs', h1, h2⟩ := ih r hr
      exact ⟨rs', h1, fun q hq => ⟨List.mem_cons_of_mem _ (h2 q hq).1, (h2 q hq).2⟩⟩

/-- Records start at different places. -/
theorem lay_start {cells : List Int} {rs : List (Nat × List Int)} (h : Lay cells rs) : ∀ r ∈ rs, ∀ q ∈ rs, r.1 = q.1 → r = q := by
  induction h with
  | nil => simp
  | @add cells rs body h _ _ ih =>
    intro r hr q hq e
    rcases List.mem_cons.1 hr with rfl | hr <;> rcases List.mem_cons.1 hq with rfl | hq
    · rfl
    · have := (lay_stored h q hq).2.1
      simp only at e
      omega
    · have := (lay_stored h r hr).2.1
      simp only at e
      omega
    · exact ih r hr q hq e

/-- Records that are not enumerations are different. -/
theorem lay_body {cells : List Int} {rs : List (Nat × List Int)} (h : Lay cells rs) :
    ∀ r ∈ rs, ∀ q ∈ rs, r.2.head? ≠ some TYPE_ENUM → r.2 = q.2 → r = q := by
  induction h with
  | nil => simp
  | @add cells rs body h _ hn ih =>
    intro r hr q hq he e
    rcases List.mem_cons.1 hr with rfl | hr <;> rcases List.mem_cons.1 hq with rfl | hq
    · rfl
    · exact absurd e.symm (hn he q hq)
    · simp only at e
      exact absurd e (hn (e ▸ he) r hr)
    · exact ih r hr q hq he e

theorem shape_head {rs : List (Nat × List Int)} {body : List Int} (h : Shape rs body) : ∃ c, body.head? = some c ∧ 1001 ≤ c ∧ c ≤ 1006 := by
  cases h <;> exact ⟨_, rfl, by decide, by decide⟩

theorem OkT.mono {rs rs' : List (Nat × List Int)} {t : Int} (h : OkT rs' t) (hs : ∀ q ∈ rs', q ∈ rs) : OkT rs t := by
  rcases h with h | h | ⟨r, hr, h⟩
  · exact Or.inl h
  · exact Or.inr (Or.inl h)
  · exact Or.inr (Or.inr ⟨r, hs r hr, h⟩)

/-! ## Comparison -/

theorem size_max_get {cells : List Int} (h : cells.length < 4611686018427387904) : get cells (toSize (-1)) = ITEM_MAX := by
  apply get_out
  unfold toSize
  omega

/-- Records that are neither `const` nor enumerations are compared cell by cell. -/
theorem compare_plain {cells : List Int} {a b : Nat} {ba bb : List Int} {ra rb : List (Nat × List Int)} (hlen : cells.length < 4611686018427387904)
    (ha : Stored cells a ba) (hb : Stored cells b bb) (sa : Shape ra ba) (sb : Shape rb bb) (hh : ba.head? = bb.head?) (hc : ba.head? ≠ some TYPE_CONST)
    (he : ba.head? ≠ some TYPE_ENUM) : sameCells cells a b (compared cells a) = decide (ba = bb) := by
  obtain ⟨ha1, ha2⟩ := ha
  obtain ⟨hb1, hb2⟩ := hb
  have hcomp : compared cells a = ba.length - 1 ∧ 2 ≤ ba.length := by
    unfold compared
    cases sa with
    | pointer =>
      have := ha2 0 _ rfl
      rw [Nat.add_zero] at this
      rw [this, if_neg (by decide)]
      simp
    | array =>
      have := ha2 0 _ rfl
      rw [Nat.add_zero] at this
      rw [this, if_neg (by decide)]
      simp
    | const => exact absurd rfl hc
    | enum => exact absurd rfl he
    | function | struct =>
      have h0 := ha2 0 _ rfl
      have h2 := ha2 2 _ rfl
      simp only [List.length_cons] at ha1
      rw [Nat.add_zero] at h0
      rw [h0, usz_of_lt (n := a + 2) (by omega), h2, if_pos (by decide), toSize_natCast (by omega), usz_of_lt (by omega)]
      simp only [List.length_cons]
      omega
  have hlen' : 2 ≤ bb.length → (∀ i, 1 ≤ i → i < ba.length → get cells (a + i) = get cells (b + i)) → ba.length = bb.length := by
    intro hbl hall
    cases sa <;> cases sb <;> first
      | rfl
      | exact absurd rfl hc
      | exact absurd rfl he
      | (exfalso; revert hh; simp [TYPE_POINTER, TYPE_ARRAY, TYPE_CONST, TYPE_FUNCTION, TYPE_STRUCTURE, TYPE_ENUM]; done)
      | (have := hall 2 (by omega) (by simp)
         rw [ha2 2 _ rfl, hb2 2 _ rfl] at this
         simp only [List.length_cons]
         omega)
  have hb2' : 2 ≤ bb.length := by cases sb <;> simp
  rw [Bool.eq_iff_iff, decide_eq_true_iff]
  unfold sameCells
  rw [hcomp.1, List.all_eq_true]
  simp only [List.mem_range, beq_iff_eq]
  constructor
  · intro h
    have hall : ∀ i, 1 ≤ i → i < ba.length → get cells (a + i) = get cells (b + i) := by
      intro i h1 h2
      have := h (i - 1) (by omega)
      rw [show i - 1 + 1 = i by omega] at this
      rw [usz_of_lt (by omega)] at this
      by_cases hi : b + i < 18446744073709551616
      · rwa [usz_of_lt hi] at this
      · -- `b` is inside the table, so is not far from its end
        exfalso
        omega
    have hl := hlen' hb2' hall
    apply List.ext_getElem hl
    intro i h1 h2
    by_cases hi : i = 0
    · subst hi
      rw [List.head?_eq_getElem?, List.head?_eq_getElem?, List.getElem?_eq_getElem h1, List.getElem?_eq_getElem h2] at hh
      exact Option.some_inj.1 hh
    · have := hall i (by omega) h1
      rw [ha2 i _ (List.getElem?_eq_getElem h1), hb2 i _ (List.getElem?_eq_getElem h2)] at this
      exact this
  · rintro rfl i hi
    rw [usz_of_lt (by omega), usz_of_lt (by omega)]
    rw [ha2 (i + 1) _ (List.getElem?_eq_getElem (by omega)), hb2 (i + 1) _ (List.getElem?_eq_getElem (by omega))]

theorem stored_head {cells : List Int} {pos : Nat} {body : List Int} {c : Int} (h : Stored cells pos body) (hc : body.head? = some c) : get cells pos = c := by
  have := h.2 0 c (by rw [← List.head?_eq_getElem?]; exact hc)
  rwa [Nat.add_zero] at this

/-- Two records, none of them an enumeration, are compared right if the types behind `const` are. -/
theorem compare_records {cells : List Int} {a b : Nat} {ba bb : List Int} {ra rb : List (Nat × List Int)} {fuel : Nat} (hlen : cells.length < 4611686018427387904)
    (ha0 : 1 ≤ a) (hb0 : 1 ≤ b)
    (ha : Stored cells a ba) (hb : Stored cells b bb) (sa : Shape ra ba) (sb : Shape rb bb) (he : ba.head? ≠ some TYPE_ENUM)
    (hin : ∀ u v, ba = [TYPE_CONST, u] → bb = [TYPE_CONST, v] → isEqual cells fuel (toSize u) (toSize v) = some (decide (u = v))) :
    isEqual cells (fuel + 1) a b = some (decide (ba = bb)) := by
  obtain ⟨ca, hca, _, _⟩ := shape_head sa
  obtain ⟨cb, hcb, _, _⟩ := shape_head sb
  have ga := stored_head ha hca
  have gb := stored_head hb hcb
  have hal := ha.1
  have hbl := hb.1
  rw [isEqual, ga, gb]
  by_cases hc : ca = cb
  · subst hc
    rw [if_neg (by simp)]
    by_cases hk : ca = TYPE_CONST
    · rw [if_pos hk]
      have conv : ∀ {r : List (Nat × List Int)} {b : List Int}, Shape r b → b.head? = some ca → ∃ u, b = [TYPE_CONST, u] := by
        intro r b hs hh
        subst hk
        cases hs with
        | const => exact ⟨_, rfl⟩
        | _ => exact absurd (Option.some_inj.1 hh) (by decide)
      obtain ⟨u, rfl⟩ := conv sa hca
      obtain ⟨v, rfl⟩ := conv sb hcb
      have unq : ∀ {p : Nat} {w : Int}, 1 ≤ p → Stored cells p [TYPE_CONST, w] → unqualified cells (toItem p) = w := by
        intro p w hp hst
        have := hst.1
        simp only [List.length_cons, List.length_nil] at this
        have g0 := stored_head hst (c := TYPE_CONST) rfl
        have hc : isConst cells (toItem p) := by
          unfold isConst
          rw [toSize_toItem (by omega), toItem_of_lt (by omega)]
          exact ⟨by omega, g0⟩
        unfold unqualified
        rw [if_pos hc, toSize_toItem (by omega), usz_of_lt (by omega)]
        exact hst.2 1 w rfl
      rw [unq ha0 ha, unq hb0 hb, hin u v rfl rfl]
      simp
    · rw [if_neg hk]
      exact congrArg some (compare_plain hlen ha hb sa sb (by rw [hca, hcb]) (by rw [hca]; simpa using hk) he)
  · rw [if_pos hc]
    have : ba ≠ bb := by
      rintro rfl
      rw [hca] at hcb
      exact hc (Option.some_inj.1 hcb)
    rw [decide_eq_false this]

/-- Types `const` may be applied to are compared right. -/
theorem compare_types {base ext : List Int} {rs : List (Nat × List Int)} (h : Lay base rs) (hlen : (base ++ ext).length < 4611686018427387904) (fuel : Nat) :
    ∀ t u, OkT rs t → OkT rs u → t + 1 < fuel → isEqual (base ++ ext) fuel (toSize t) (toSize u) = some (decide (t = u)) := by
  have hpos := lay_length h
  have g0 : get (base ++ ext) 0 = 0 := by rw [get_append (by omega), lay_zero h]
  have gm := size_max_get hlen
  have hz : toSize 0 = 0 := by unfold toSize; rfl
  have hIM : (ITEM_MAX : Int) = 9223372036854775807 := by unfold ITEM_MAX; rfl
  have self : ∀ fuel t, t = 0 ∨ t = -1 → isEqual (base ++ ext) (fuel + 1) (toSize t) (toSize t) = some true := by
    intro fuel t ht
    rw [isEqual, if_neg (by simp), if_neg]
    · simp [sameCells]
    · rcases ht with rfl | rfl
      · rw [hz, g0]; decide
      · rw [gm, hIM]; decide
  have diff : ∀ fuel (t u : Nat), get (base ++ ext) t ≠ get (base ++ ext) u → isEqual (base ++ ext) (fuel + 1) t u = some false := by
    intro fuel t u hne
    rw [isEqual, if_pos hne]
  have rec_ : ∀ r ∈ rs, r.1 + 1 + r.2.length ≤ base.length ∧ 1 ≤ r.1 ∧ toSize (r.1 + 1 : Int) = r.1 + 1 ∧ Stored (base ++ ext) (r.1 + 1) r.2 ∧
      1001 ≤ get (base ++ ext) (r.1 + 1) ∧ get (base ++ ext) (r.1 + 1) ≤ 1006 := by
    intro r hr
    obtain ⟨h1, hst⟩ := lay_stored h r hr
    obtain ⟨rs', hs, _⟩ := lay_shape h r hr
    obtain ⟨c, hc, hc1, hc2⟩ := shape_head hs
    have := hst.1
    simp only [List.length_append] at hlen
    refine ⟨this, h1, ?_, hst.append ext, ?_⟩
    · have := toSize_natCast (n := r.1 + 1) (by omega)
      simpa using this
    · rw [stored_head (hst.append ext) hc]
      exact ⟨hc1, hc2⟩
  induction fuel with
  | zero =>
    intro t u ht _ hf
    exfalso
    rcases ht with rfl | rfl | ⟨r, hr, rfl, _⟩ <;> omega
  | succ fuel ih =>
    intro t u ht hu hf
    rcases ht with rfl | rfl | ⟨r, hr, rfl, he⟩
    · rcases hu with rfl | rfl | ⟨q, hq, rfl, _⟩
      · rw [self _ _ (Or.inl rfl)]; rfl
      · rw [diff _ _ _ (by rw [hz, g0, gm, hIM]; decide)]; rfl
      · obtain ⟨_, _, k2, _, k3, _⟩ := rec_ q hq
        rw [diff _ _ _ (by rw [hz, g0, k2]; omega), decide_eq_false (by omega)]
    · rcases hu with rfl | rfl | ⟨q, hq, rfl, _⟩
      · rw [diff _ _ _ (by rw [hz, g0, gm, hIM]; decide)]; rfl
      · rw [self _ _ (Or.inr rfl)]; rfl
      · obtain ⟨_, _, k2, _, k3, k4⟩ := rec_ q hq
        rw [diff _ _ _ (by rw [gm, k2, hIM]; omega), decide_eq_false (by omega)]
    · obtain ⟨_, k1, k2, k5, k3, k4⟩ := rec_ r hr
      rcases hu with rfl | rfl | ⟨q, hq, rfl, heq⟩
      · rw [diff _ _ _ (by rw [hz, g0, k2]; omega), decide_eq_false (by omega)]
      · rw [diff _ _ _ (by rw [gm, k2, hIM]; omega), decide_eq_false (by omega)]
      · obtain ⟨_, l1, l2, l5, l3, l4⟩ := rec_ q hq
        obtain ⟨rs1, s1, o1⟩ := lay_shape h r hr
        obtain ⟨rs2, s2, o2⟩ := lay_shape h q hq
        rw [k2, l2, compare_records hlen (by omega) (by omega) k5 l5 s1 s2 he]
        · congr 1
          rw [decide_eq_decide]
          constructor
          · intro e
            rw [lay_body h r hr q hq he e]
          · intro e
            rw [lay_start h r hr q hq (by omega)]
        · intro a b ea eb
          rw [ea] at s1
          rw [eb] at s2
          cases s1 with
          | const h1 =>
            cases s2 with
            | const h2 =>
              refine ih a b (h1.mono fun q hq => (o1 q hq).1) (h2.mono fun q hq => (o2 q hq).1) ?_
              rcases h1 with rfl | rfl | ⟨r', hr', rfl, _⟩
              · omega
              · omega
              · have := (o1 r' hr').2
                omega

/-! ## Adding -/

/-- The search for an equal record goes through all records, newest first. -/
theorem scan_spec {base : List Int} {rs : List (Nat × List Int)} (h : Lay base rs) (ext : List Int) (start : Nat) (f : List Int → Bool)
    (hlen : (base ++ ext).length < 4611686018427387904)
    (hf : ∀ r ∈ rs, isEqual (base ++ ext) ((base ++ ext).length + 2) (usz (start + 1)) (r.1 + 1) = some (f r.2)) :
    ∀ fuel, rs.length < fuel → scan (base ++ ext) start fuel (startOf rs) = some ((rs.find? fun r => f r.2).map (·.1)) := by
  induction h generalizing ext with
  | nil =>
    intro fuel hfu
    obtain ⟨fuel, rfl⟩ : ∃ m, fuel = m + 1 := ⟨fuel - 1, by simp at hfu; omega⟩
    simp [scan, startOf]
  | @add cells rs body h hs hn ih =>
    intro fuel hfu
    obtain ⟨fuel, rfl⟩ : ∃ m, fuel = m + 1 := ⟨fuel - 1, by simp at hfu; omega⟩
    have hp : 1 ≤ cells.length := by have := lay_length h; omega
    simp only [List.length_append, List.length_cons] at hlen
    have hso : startOf ((cells.length, body) :: rs) = cells.length := rfl
    rw [scan, hso, if_neg (by omega), usz_of_lt (n := cells.length + 1) (by omega), hf (cells.length, body) List.mem_cons_self]
    have hlink : toSize (get (cells ++ (startOf rs : Int) :: body ++ ext) cells.length) = startOf rs := by
      rw [List.append_assoc]
      have := get_right (a := cells) (b := (startOf rs : Int) :: body ++ ext) (i := 0)
      rw [Nat.add_zero] at this
      rw [this]
      have hs : startOf rs < 18446744073709551616 := by
        cases rs with
        | nil => simp [startOf]
        | cons r rs =>
          have := (lay_stored h r List.mem_cons_self).2.1
          simp only [startOf]
          omega
      exact toSize_natCast hs
    cases hb : f body with
    | true => simp [hb]
    | false =>
      simp only
      rw [hlink]
      have e : cells ++ (startOf rs : Int) :: body ++ ext = cells ++ ((startOf rs : Int) :: body ++ ext) := List.append_assoc ..
      rw [e, ih _ (by simp only [List.length_append, List.length_cons]; omega) (fun r hr => by rw [← e]; exact hf r (List.mem_cons_of_mem _ hr)) fuel
        (by simp at hfu; omega)]
      simp [hb]

/-- Adding a record that is not an enumeration answers the old type with this record, or makes a new one. -/
theorem add_spec {tb : Table} {rs : List (Nat × List Int)} {body : List Int} (h : Lay tb.cells rs) (hst : tb.start = startOf rs) (hs : Shape rs body)
    (he : body.head? ≠ some TYPE_ENUM) (hlen : tb.cells.length + 1 + body.length < 4611686018427387904) :
    (∃ r ∈ rs, r.2 = body ∧ typeAdd tb body = some ((r.1 : Int) + 1, tb)) ∨
    ((∀ r ∈ rs, r.2 ≠ body) ∧ typeAdd tb body = some ((tb.cells.length : Int) + 1, ⟨tb.cells ++ (startOf rs : Int) :: body, tb.cells.length⟩)) := by
  have hstart : startOf rs < tb.cells.length := by
    cases rs with
    | nil => have := lay_length h; simp [startOf]; omega
    | cons r rs =>
      have := (lay_stored h r List.mem_cons_self).2.1
      simp only [startOf]
      omega
  have hl : (tb.cells ++ (startOf rs : Int) :: body).length < 4611686018427387904 := by simp; omega
  have hscan := scan_spec h ((startOf rs : Int) :: body) tb.cells.length (fun b => decide (body = b)) hl (by
    intro r hr
    obtain ⟨r1, rst⟩ := lay_stored h r hr
    obtain ⟨rs', rsh, ro⟩ := lay_shape h r hr
    rw [usz_of_lt (by omega)]
    refine compare_records (fuel := _ + 1) hl (by omega) (by omega) (stored_end _ _ _) (rst.append _) hs rsh he ?_
    intro u v eu ev
    subst eu
    rw [ev] at rsh
    cases hs with
    | const hu =>
      cases rsh with
      | const hv =>
        refine compare_types h hl _ u v hu (hv.mono fun q hq => (ro q hq).1) ?_
        simp only [List.length_append, List.length_cons]
        rcases hu with rfl | rfl | ⟨q, hq, rfl, _⟩
        · omega
        · omega
        · have := (lay_stored h q hq).2.1
          omega) ((tb.cells ++ (startOf rs : Int) :: body).length + 1) (by have := lay_length h; simp; omega)
  have hget : get (tb.cells ++ (startOf rs : Int) :: body) tb.cells.length = startOf rs := by
    have := get_right (a := tb.cells) (b := (startOf rs : Int) :: body) (i := 0)
    rwa [Nat.add_zero] at this
  have hsz : toSize (startOf rs : Int) = startOf rs := toSize_natCast (by omega)
  unfold typeAdd
  simp only
  rw [hst, toItem_of_lt (n := startOf rs) (by omega), hget, hsz, hscan]
  cases hfind : rs.find? fun r => decide (body = r.2) with
  | none =>
    right
    refine ⟨fun r hr e => ?_, ?_⟩
    · have := List.find?_eq_none.1 hfind r hr
      simp [e] at this
    · simp only [Option.map_none]
      rw [toItem_of_lt (by omega)]
  | some r =>
    left
    have hr := List.mem_of_find?_eq_some hfind
    have hb := List.find?_some hfind
    have := (lay_stored h r hr).2.1
    refine ⟨r, hr, (by simpa [eq_comm] using hb), ?_⟩
    simp only [Option.map_some]
    rw [toItem_of_lt (by omega), List.take_left, ← hst]

/-- Adding an enumeration always makes a new type. -/
theorem add_enum {tb : Table} {rs : List (Nat × List Int)} (h : Lay tb.cells rs) (hst : tb.start = startOf rs)
    (hlen : tb.cells.length + 2 < 4611686018427387904) :
    typeAdd tb [TYPE_ENUM] = some ((tb.cells.length : Int) + 1, ⟨tb.cells ++ [(startOf rs : Int), TYPE_ENUM], tb.cells.length⟩) := by
  have hstart : startOf rs < tb.cells.length := by
    cases rs with
    | nil => have := lay_length h; simp [startOf]; omega
    | cons r rs =>
      have := (lay_stored h r List.mem_cons_self).2.1
      simp only [startOf]
      omega
  have hl : (tb.cells ++ [(startOf rs : Int), TYPE_ENUM]).length < 4611686018427387904 := by simp; omega
  have hscan := scan_spec h [(startOf rs : Int), TYPE_ENUM] tb.cells.length (fun _ => false) hl (by
    intro r hr
    obtain ⟨r1, rst⟩ := lay_stored h r hr
    obtain ⟨rs', rsh, ro⟩ := lay_shape h r hr
    obtain ⟨c, hc, _, _⟩ := shape_head rsh
    have g1 := stored_head (stored_end tb.cells [TYPE_ENUM] (startOf rs : Int)) (c := TYPE_ENUM) rfl
    have g2 := stored_head (rst.append [(startOf rs : Int), TYPE_ENUM]) hc
    have hb := rst.1
    rw [usz_of_lt (by omega), isEqual, g1, g2]
    by_cases e : TYPE_ENUM = c
    · rw [if_neg (by simpa using e), if_neg (by decide)]
      have hcomp : compared (tb.cells ++ [(startOf rs : Int), TYPE_ENUM]) (tb.cells.length + 1) = 1 := by
        unfold compared
        rw [g1, if_neg (by decide)]
      rw [hcomp]
      subst e
      generalize hbody : r.2 = body at *
      cases rsh with
      | enum hx =>
        have gx := (rst.append [(startOf rs : Int), TYPE_ENUM]).2 1 _ rfl
        simp only [List.length_cons] at hb
        simp only [sameCells, List.range_one, List.all_cons, List.all_nil, Bool.and_true]
        rw [usz_of_lt (by omega), usz_of_lt (by omega), get_out (by simp), Nat.zero_add, gx]
        simp only [Option.some.injEq, beq_eq_false_iff_ne, ne_eq]
        exact fun e => hx e.symm
      | _ => exact absurd (Option.some_inj.1 hc) (by decide)
    · rw [if_pos (by simpa using e)]) ((tb.cells ++ [(startOf rs : Int), TYPE_ENUM]).length + 1) (by have := lay_length h; simp; omega)
  have hget : get (tb.cells ++ [(startOf rs : Int), TYPE_ENUM]) tb.cells.length = startOf rs := by
    have := get_right (a := tb.cells) (b := [(startOf rs : Int), TYPE_ENUM]) (i := 0)
    rwa [Nat.add_zero] at this
  have hsz : toSize (startOf rs : Int) = startOf rs := toSize_natCast (by omega)
  have hnone : rs.find? (fun _ => false) = none := List.find?_eq_none.2 (by simp)
  unfold typeAdd
  simp only
  rw [hst, toItem_of_lt (n := startOf rs) (by omega), hget, hsz, hscan, hnone]
  simp only [Option.map_none]
  rw [toItem_of_lt (by omega)]

end RuC.Types
