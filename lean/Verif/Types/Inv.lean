import Verif.Types.Lemmas

/-! The invariant of the table of types along a history. -/

namespace RuC.Types
open RuC RuC.Types.Spec

/-- A built-in type or the type of a record. -/
def Known (rs : List (Nat × List Int)) (t : Int) : Prop := t ≤ 0 ∨ ∃ r ∈ rs, t = r.1 + 1

theorem Known.mono {rs rs' : List (Nat × List Int)} {t : Int} (h : Known rs t) (hm : ∀ r ∈ rs, r ∈ rs') : Known rs' t := by
  rcases h with h | ⟨r, hr, e⟩
  · exact Or.inl h
  · exact Or.inr ⟨r, hm r hr, e⟩

/-- The cell of a record's class. -/
theorem rec_class {cells : List Int} {rs : List (Nat × List Int)} (h : Lay cells rs) (ext : List Int) (hlen : (cells ++ ext).length < 4611686018427387904)
    {r : Nat × List Int} (hr : r ∈ rs) : ∃ c, r.2.head? = some c ∧ toSize ((r.1 : Int) + 1) = r.1 + 1 ∧
      ∀ k, hasClass (cells ++ ext) ((r.1 : Int) + 1) k ↔ c = k := by
  obtain ⟨h1, hst⟩ := lay_stored h r hr
  obtain ⟨rs', hs, _⟩ := lay_shape h r hr
  obtain ⟨c, hc, _, _⟩ := shape_head hs
  have := hst.1
  simp only [List.length_append] at hlen
  have e : toSize ((r.1 : Int) + 1) = r.1 + 1 := by
    have := toSize_natCast (n := r.1 + 1) (by omega)
    simpa using this
  refine ⟨c, hc, e, fun k => ?_⟩
  unfold hasClass
  rw [e, stored_head (hst.append ext) hc]
  exact ⟨fun h => h.2, fun h => ⟨by omega, h⟩⟩

/-- The type behind `const` of a known type is the same whatever follows. -/
theorem strip_known {cells : List Int} {rs : List (Nat × List Int)} (h : Lay cells rs) (n : Nat) :
    ∀ t, Known rs t → t < n → ∃ v : Int, (v ≤ 0 ∨ ∃ r ∈ rs, v = r.1 + 1 ∧ r.2.head? ≠ some TYPE_CONST) ∧
      ∀ ext, (cells ++ ext).length < 4611686018427387904 → ∀ fuel, n < fuel → strip (cells ++ ext) fuel t = some v := by
  induction n with
  | zero =>
    intro t _ ht
    refine ⟨t, Or.inl (by omega), fun ext _ fuel hf => ?_⟩
    obtain ⟨fuel, rfl⟩ : ∃ m, fuel = m + 1 := ⟨fuel - 1, by omega⟩
    rw [strip, if_neg (fun hc => by have := hc.1; omega)]
  | succ n ih =>
    intro t hk ht
    rcases hk with h0 | ⟨r, hr, rfl⟩
    · refine ⟨t, Or.inl h0, fun ext _ fuel hf => ?_⟩
      obtain ⟨fuel, rfl⟩ : ∃ m, fuel = m + 1 := ⟨fuel - 1, by omega⟩
      rw [strip, if_neg (fun hc => by have := hc.1; omega)]
    · by_cases hc : r.2.head? = some TYPE_CONST
      · obtain ⟨rs', hs, ho⟩ := lay_shape h r hr
        obtain ⟨u, hu, hku⟩ : ∃ u, r.2 = [TYPE_CONST, u] ∧ OkT rs' u := by
          generalize r.2 = b at *
          cases hs with
          | const hu => exact ⟨_, rfl, hu⟩
          | _ => exact absurd (Option.some_inj.1 hc) (by decide)
        have hul : u < n ∧ Known rs u := by
          rcases hku with rfl | rfl | ⟨q, hq, rfl, _⟩
          · have := (lay_stored h r hr).1
            exact ⟨by omega, Or.inl (by omega)⟩
          · exact ⟨by omega, Or.inl (by omega)⟩
          · have := (ho q hq).2
            exact ⟨by omega, Or.inr ⟨q, (ho q hq).1, rfl⟩⟩
        obtain ⟨v, hv, hall⟩ := ih u hul.2 hul.1
        refine ⟨v, hv, fun ext hl fuel hf => ?_⟩
        obtain ⟨fuel, rfl⟩ : ∃ m, fuel = m + 1 := ⟨fuel - 1, by omega⟩
        obtain ⟨c, hcc, hsz, hcl⟩ := rec_class h ext hl hr
        have hcst : isConst (cells ++ ext) ((r.1 : Int) + 1) := (hcl TYPE_CONST).2 (by rw [hc] at hcc; exact (Option.some_inj.1 hcc).symm)
        have hst := ((lay_stored h r hr).2.append ext)
        rw [hu] at hst
        have hb := hst.1
        rw [strip, if_pos hcst]
        unfold unqualified
        rw [if_pos hcst, hsz, usz_of_lt (by simp at hb hl; omega), hst.2 1 u rfl]
        exact hall ext hl fuel (by omega)
      · refine ⟨_, Or.inr ⟨r, hr, rfl, hc⟩, fun ext hl fuel hf => ?_⟩
        obtain ⟨fuel, rfl⟩ : ∃ m, fuel = m + 1 := ⟨fuel - 1, by omega⟩
        obtain ⟨c, hcc, hsz, hcl⟩ := rec_class h ext hl hr
        rw [strip, if_neg]
        intro hcst
        rw [(hcl TYPE_CONST).1 hcst] at hcc
        exact hc hcc

theorem known_lt {cells : List Int} {rs : List (Nat × List Int)} (h : Lay cells rs) {t : Int} (hk : Known rs t) : t < cells.length := by
  rcases hk with h0 | ⟨r, hr, rfl⟩
  · have := lay_length h; omega
  · have := (lay_stored h r hr).2.1
    obtain ⟨rs', hs, _⟩ := lay_shape h r hr
    obtain ⟨c, hc, _, _⟩ := shape_head hs
    have : 0 < r.2.length := by
      cases hb : r.2 with
      | nil => rw [hb] at hc; cases hc
      | cons => simp
    omega

theorem behind_known {cells : List Int} {rs : List (Nat × List Int)} (h : Lay cells rs) {t : Int} (hk : Known rs t) :
    ∃ v : Int, (v ≤ 0 ∨ ∃ r ∈ rs, v = r.1 + 1 ∧ r.2.head? ≠ some TYPE_CONST) ∧
      ∀ ext, (cells ++ ext).length < 4611686018427387904 → behind (cells ++ ext) t = some v := by
  obtain ⟨v, hv, hall⟩ := strip_known h cells.length t hk (known_lt h hk)
  exact ⟨v, hv, fun ext hl => hall ext hl _ (by simp; omega)⟩

/-- The size of a known type is the same whatever follows. -/
theorem size_known {cells : List Int} {rs : List (Nat × List Int)} (h : Lay cells rs) {t : Int} (hk : Known rs t) :
    ∃ n, ∀ ext, (cells ++ ext).length < 4611686018427387904 → typeSize (cells ++ ext) t = some n := by
  obtain ⟨v, hv, hall⟩ := behind_known h hk
  rcases hv with h0 | ⟨r, hr, rfl, _⟩
  · refine ⟨if v = TYPE_FLOATING then 2 else 1, fun ext hl => ?_⟩
    unfold typeSize
    rw [hall ext hl, Option.map_some, if_neg (fun hc => by have := hc.1; omega)]
  · obtain ⟨rs', hs, _⟩ := lay_shape h r hr
    by_cases hc : r.2.head? = some TYPE_STRUCTURE
    · obtain ⟨n, ms, hb⟩ : ∃ n ms, r.2 = TYPE_STRUCTURE :: n :: ms := by
        generalize r.2 = b at *
        cases hs with
        | struct => exact ⟨_, _, rfl⟩
        | _ => exact absurd (Option.some_inj.1 hc) (by decide)
      refine ⟨toSize n, fun ext hl => ?_⟩
      obtain ⟨c, hcc, hsz, hcl⟩ := rec_class h ext hl hr
      have hst := ((lay_stored h r hr).2.append ext)
      rw [hb] at hst
      have hbl := hst.1
      unfold typeSize
      rw [hall ext hl, Option.map_some, if_pos ((hcl _).2 (by rw [hc] at hcc; exact (Option.some_inj.1 hcc).symm)), hsz,
        usz_of_lt (by simp at hbl hl; omega), hst.2 1 n rfl]
    · refine ⟨1, fun ext hl => ?_⟩
      obtain ⟨c, hcc, hsz, hcl⟩ := rec_class h ext hl hr
      unfold typeSize
      rw [hall ext hl, Option.map_some, if_neg, if_neg]
      · unfold TYPE_FLOATING; omega
      · intro hh
        rw [(hcl _).1 hh] at hcc
        exact hc hcc

/-- The sum of sizes of known types. -/
theorem members_known {cells : List Int} {rs : List (Nat × List Int)} (h : Lay cells rs) :
    ∀ ms : List (Int × Int), (∀ m ∈ ms, Known rs m.1) → ∃ sizes : List Nat, ∀ ext, (cells ++ ext).length < 4611686018427387904 →
      ms.map (fun m => typeSize (cells ++ ext) m.1) = sizes.map some ∧ membersSize (cells ++ ext) ms = some (sizes.sum % 18446744073709551616) := by
  intro ms
  induction ms with
  | nil => intro _; exact ⟨[], fun ext _ => ⟨rfl, rfl⟩⟩
  | cons m ms ih =>
    intro hk
    obtain ⟨sizes, hs⟩ := ih fun m hm => hk m (List.mem_cons_of_mem _ hm)
    obtain ⟨n, hn⟩ := size_known h (hk m List.mem_cons_self)
    refine ⟨n :: sizes, fun ext hl => ⟨?_, ?_⟩⟩
    · rw [List.map_cons, List.map_cons, hn ext hl, (hs ext hl).1]
    · obtain ⟨t, nm⟩ := m
      rw [membersSize, hn ext hl, (hs ext hl).2]
      simp only [List.sum_cons]
      congr 1
      unfold usz
      omega

/-! ## Requests and records -/

/-- The record of a request. -/
def Enc (cells : List Int) : Req → List Int → Prop
  | .pointer t, b => b = [TYPE_POINTER, t]
  | .array t, b => b = [TYPE_ARRAY, t]
  | .const t, b => b = [TYPE_CONST, t]
  | .function u ps, b => b = TYPE_FUNCTION :: u :: (ps.length : Int) :: ps
  | .struct ms, b => ∃ n, membersSize cells ms = some n ∧
      b = TYPE_STRUCTURE :: toItem n :: ((ms.flatMap fun m => [m.1, m.2]).length : Int) :: ms.flatMap fun m => [m.1, m.2]
  | .enum fs, b => b = TYPE_ENUM :: fs

theorem flat_inj : ∀ ms ns : List (Int × Int), ms.flatMap (fun m => [m.1, m.2]) = ns.flatMap (fun m => [m.1, m.2]) → ms = ns
  | [], [], _ => rfl
  | [], n :: ns, h => by simp at h
  | m :: ms, [], h => by simp at h
  | (a, b) :: ms, (c, d) :: ns, h => by
    simp only [List.flatMap_cons, List.cons_append, List.nil_append, List.cons.injEq] at h
    obtain ⟨rfl, rfl, h⟩ := h
    rw [flat_inj ms ns h]

theorem flat_length (ms : List (Int × Int)) : (ms.flatMap fun m => [m.1, m.2]).length = ms.length * 2 := by
  induction ms with
  | nil => rfl
  | cons m ms ih => simp only [List.flatMap_cons, List.length_append, ih, List.length_cons, List.length_nil]; omega

theorem flat_get (ms : List (Int × Int)) : ∀ (i : Nat) (m : Int × Int), ms[i]? = some m →
    (ms.flatMap fun m => [m.1, m.2])[2 * i]? = some m.1 ∧ (ms.flatMap fun m => [m.1, m.2])[2 * i + 1]? = some m.2 := by
  induction ms with
  | nil => intro i m h; simp at h
  | cons x ms ih =>
    intro i m h
    cases i with
    | zero =>
      simp only [List.getElem?_cons_zero, Option.some.injEq] at h
      subst h
      exact ⟨rfl, rfl⟩
    | succ i =>
      rw [List.getElem?_cons_succ] at h
      exact ih i m h

theorem enc_fun {cells : List Int} {r : Req} {b c : List Int} (hb : Enc cells r b) (hc : Enc cells r c) : b = c := by
  cases r with
  | struct ms =>
    obtain ⟨n, hn, rfl⟩ := hb
    obtain ⟨m, hm, rfl⟩ := hc
    rw [hn] at hm
    cases hm
    rfl
  | _ => simp only [Enc] at hb hc; rw [hb, hc]

/-- The first cell of the record of a request. -/
def classOf : Req → Int
  | .pointer _ => TYPE_POINTER
  | .array _ => TYPE_ARRAY
  | .const _ => TYPE_CONST
  | .function _ _ => TYPE_FUNCTION
  | .struct _ => TYPE_STRUCTURE
  | .enum _ => TYPE_ENUM

theorem enc_head {cells : List Int} {r : Req} {b : List Int} (hb : Enc cells r b) : b.head? = some (classOf r) := by
  cases r with
  | struct ms =>
    obtain ⟨n, hn, rfl⟩ := hb
    rfl
  | _ => simp only [Enc] at hb; rw [hb]; rfl

theorem enc_enum {cells : List Int} {r : Req} {b : List Int} (hb : Enc cells r b) : (∀ fs, r ≠ .enum fs) ↔ b.head? ≠ some TYPE_ENUM := by
  rw [enc_head hb]
  cases r with
  | enum fs => exact ⟨fun h => absurd rfl (h fs), fun h => absurd rfl h⟩
  | _ => exact ⟨fun _ => by simp only [classOf]; decide, fun _ fs e => by cases e⟩

theorem enc_inj {cells : List Int} {r q : Req} {b : List Int} (hr : Enc cells r b) (hq : Enc cells q b) : r = q := by
  have h1 := enc_head hr
  have h2 := enc_head hq
  rw [h1] at h2
  have h2 := Option.some_inj.1 h2
  cases r <;> cases q <;> first
    | exact absurd h2 (by simp only [classOf]; decide)
    | skip
  case pointer => simp only [Enc] at hr hq; rw [hr] at hq; simp at hq; rw [hq]
  case array => simp only [Enc] at hr hq; rw [hr] at hq; simp at hq; rw [hq]
  case const => simp only [Enc] at hr hq; rw [hr] at hq; simp at hq; rw [hq]
  case function => simp only [Enc] at hr hq; rw [hr] at hq; simp at hq; rw [hq.1, hq.2.2]
  case struct =>
    obtain ⟨n, hn, rfl⟩ := hr
    obtain ⟨m, hm, e⟩ := hq
    simp only [List.cons.injEq] at e
    rw [flat_inj _ _ e.2.2.2]
  case enum => simp only [Enc] at hr hq; rw [hr] at hq; simp at hq; rw [hq]

/-! ## The invariant -/

structure Inv (h : List (Req × Int)) (tb : Table) (rs : List (Nat × List Int)) : Prop where
  lay : Lay tb.cells rs
  start : tb.start = startOf rs
  recs : ∀ x ∈ h, ∃ r ∈ rs, x.2 = (r.1 : Int) + 1 ∧ Enc tb.cells x.1 r.2
  known : ∀ x ∈ h, ∀ t ∈ mentioned x.1, Known rs t
  pairs : h.Pairwise fun x y => x.2 = y.2 ↔ x.1 = y.1 ∧ ∀ fs, x.1 ≠ .enum fs

theorem Inv.ofAllowed {h : List (Req × Int)} {tb : Table} {rs : List (Nat × List Int)} (hi : Inv h tb rs) {r : Req} (ha : Allowed h r) :
    ∀ t ∈ mentioned r, Known rs t := by
  intro t ht
  rcases ha.known t ht with h0 | ⟨q, hq⟩
  · exact Or.inl h0
  · obtain ⟨r, hr, e, _⟩ := hi.recs _ hq
    exact Or.inr ⟨r, hr, e⟩

theorem enc_mono {cells ext : List Int} {rs : List (Nat × List Int)} (h : Lay cells rs) (hl : (cells ++ ext).length < 4611686018427387904) {r : Req} {b : List Int}
    (hk : ∀ t ∈ mentioned r, Known rs t) (he : Enc cells r b) : Enc (cells ++ ext) r b := by
  cases r with
  | struct ms =>
    obtain ⟨n, hn, hb⟩ := he
    obtain ⟨sizes, hs⟩ := members_known h ms fun m hm => hk _ (List.mem_map.2 ⟨m, hm, rfl⟩)
    have h0 := (hs [] (by simp at hl ⊢; omega)).2
    rw [List.append_nil, hn] at h0
    exact ⟨n, by rw [(hs ext hl).2, ← h0], hb⟩
  | _ => exact he

theorem inv_old {h : List (Req × Int)} {tb : Table} {rs : List (Nat × List Int)} (hi : Inv h tb rs) {r : Req} {q : Nat × List Int} (hq : q ∈ rs)
    (he : Enc tb.cells r q.2) (hne : ∀ fs, r ≠ .enum fs) (hk : ∀ t ∈ mentioned r, Known rs t) : Inv ((r, (q.1 : Int) + 1) :: h) tb rs where
  lay := hi.lay
  start := hi.start
  recs := by
    intro x hx
    rcases List.mem_cons.1 hx with rfl | hx
    · exact ⟨q, hq, rfl, he⟩
    · exact hi.recs x hx
  known := by
    intro x hx
    rcases List.mem_cons.1 hx with rfl | hx
    · exact hk
    · exact hi.known x hx
  pairs := by
    refine List.pairwise_cons.2 ⟨fun y hy => ?_, hi.pairs⟩
    obtain ⟨p, hp, e, hep⟩ := hi.recs y hy
    simp only
    constructor
    · intro hh
      have : q = p := lay_start hi.lay q hq p hp (by omega)
      subst this
      exact ⟨enc_inj he hep, hne⟩
    · rintro ⟨rfl, _⟩
      rw [e, lay_body hi.lay q hq p hp ((enc_enum he).1 hne) (enc_fun he hep)]

theorem inv_new {h : List (Req × Int)} {tb : Table} {rs : List (Nat × List Int)} (hi : Inv h tb rs) {r : Req} {body : List Int} (hs : Shape rs body)
    (he : Enc tb.cells r body) (hn : (∀ fs, r ≠ .enum fs) → ∀ q ∈ rs, q.2 ≠ body) (hk : ∀ t ∈ mentioned r, Known rs t)
    (hl : (tb.cells ++ (startOf rs : Int) :: body).length < 4611686018427387904) :
    Inv ((r, (tb.cells.length : Int) + 1) :: h) ⟨tb.cells ++ (startOf rs : Int) :: body, tb.cells.length⟩ ((tb.cells.length, body) :: rs) where
  lay := .add hi.lay hs fun hb => hn ((enc_enum he).2 hb)
  start := rfl
  recs := by
    intro x hx
    rcases List.mem_cons.1 hx with rfl | hx
    · exact ⟨_, List.mem_cons_self, rfl, enc_mono hi.lay hl hk he⟩
    · obtain ⟨q, hq, e, heq⟩ := hi.recs x hx
      exact ⟨q, List.mem_cons_of_mem _ hq, e, enc_mono hi.lay hl (hi.known x hx) heq⟩
  known := by
    intro x hx t ht
    rcases List.mem_cons.1 hx with rfl | hx
    · exact (hk t ht).mono fun q hq => List.mem_cons_of_mem _ hq
    · exact (hi.known x hx t ht).mono fun q hq => List.mem_cons_of_mem _ hq
  pairs := by
    refine List.pairwise_cons.2 ⟨fun y hy => ?_, hi.pairs⟩
    obtain ⟨p, hp, e, hep⟩ := hi.recs y hy
    have := (lay_stored hi.lay p hp).2.1
    simp only
    constructor
    · intro hh
      omega
    · rintro ⟨rfl, hne⟩
      exact absurd (enc_fun hep he) (hn hne p hp)

/-- A request that is not an enumeration becomes one call of `type_add`. -/
theorem build_add {h : List (Req × Int)} {tb : Table} {rs : List (Nat × List Int)} (hi : Inv h tb rs) (hlen : tb.cells.length < 2305843009213693952) {r : Req}
    (ha : Allowed h r) (hne : ∀ fs, r ≠ .enum fs) : ∃ body, build tb r = typeAdd tb body ∧ Enc tb.cells r body ∧ Shape rs body ∧ body.length ≤ 100 := by
  have hk := hi.ofAllowed ha
  cases r with
  | pointer t => exact ⟨_, rfl, rfl, .pointer, by simp⟩
  | array t => exact ⟨_, rfl, rfl, .array, by simp⟩
  | const t =>
    refine ⟨_, rfl, rfl, .const ?_, by simp⟩
    obtain ⟨h1, h2⟩ := ha.const t rfl
    rcases ha.known t (by simp [mentioned]) with h0 | ⟨q, hq⟩
    · rcases (by omega : t = 0 ∨ t = -1) with h | h
      · exact Or.inl h
      · exact Or.inr (Or.inl h)
    · obtain ⟨p, hp, e, hep⟩ := hi.recs _ hq
      refine Or.inr (Or.inr ⟨p, hp, e, (enc_enum hep).1 ?_⟩)
      rintro fs rfl
      exact h2 fs hq
  | function u ps =>
    have hp := ha.parameters u ps rfl
    refine ⟨TYPE_FUNCTION :: u :: (ps.length : Int) :: ps, ?_, rfl, .function, by simp; omega⟩
    simp only [build, typeFunction]
    rw [if_pos (by omega), toItem_of_lt (by omega)]
  | struct ms =>
    have hp := ha.members ms rfl
    obtain ⟨sizes, hs⟩ := members_known hi.lay ms fun m hm => hk _ (List.mem_map.2 ⟨m, hm, rfl⟩)
    have hs := (hs [] (by simp; omega)).2
    rw [List.append_nil] at hs
    refine ⟨_, ?_, ⟨_, hs, rfl⟩, .struct, ?_⟩
    · simp only [build, typeStructure]
      rw [if_pos (by omega), hs]
      simp only
      rw [toItem_of_lt (n := ms.length * 2) (by omega), flat_length]
    · simp only [List.length_cons, flat_length]
      omega
  | enum fs => exact absurd rfl (hne fs)

theorem build_enum {h : List (Req × Int)} {tb : Table} {rs : List (Nat × List Int)} (hi : Inv h tb rs) (hlen : tb.cells.length < 2305843009213693952) (fs : List Int) :
    build tb (.enum fs) = some ((tb.cells.length : Int) + 1, ⟨tb.cells ++ (startOf rs : Int) :: TYPE_ENUM :: fs, tb.cells.length⟩) := by
  have hpos := lay_length hi.lay
  have hadd := add_enum hi.lay hi.start (by omega)
  simp only [build, typeEnum]
  rw [hadd]
  simp only
  have hw : wrapI64 (toItem (tb.cells ++ [(startOf rs : Int), TYPE_ENUM]).length - 1) = (tb.cells.length : Int) + 1 := by
    rw [toItem_of_lt (by simp; omega), wrapI64_of_isItem (by unfold IsItem ITEM_MIN ITEM_MAX; simp; omega)]
    simp
    omega
  have hsz : toSize ((tb.cells.length : Int) + 1) = tb.cells.length + 1 := by
    have := toSize_natCast (n := tb.cells.length + 1) (by omega)
    simpa using this
  have hg : get (tb.cells ++ [(startOf rs : Int), TYPE_ENUM]) (tb.cells.length + 1) = TYPE_ENUM := by
    rw [get_right]; rfl
  have hen : isEnum (tb.cells ++ [(startOf rs : Int), TYPE_ENUM]) ((tb.cells.length : Int) + 1) = some true := by
    unfold isEnum behind
    rw [strip, if_neg]
    · rw [Option.map_some]
      congr 1
      refine decide_eq_true ⟨by omega, ?_⟩
      rw [hsz, hg]
    · intro hc
      have := hc.2
      rw [hsz, hg] at this
      exact absurd this (by decide)
  simp only [enumAddFields]
  rw [hw, hen]
  simp

/-- A step of a history keeps the invariant. -/
theorem inv_step {h : List (Req × Int)} {tb : Table} {rs : List (Nat × List Int)} (hi : Inv h tb rs) {r : Req} (ha : Allowed h r)
    (hlen : tb.cells.length < 2305843009213693952) : ∃ t tb', build tb r = some (t, tb') ∧ tb.cells <+: tb'.cells ∧
      (tb'.cells.length < 2305843009213693952 → ∃ rs', Inv ((r, t) :: h) tb' rs') := by
  have hk := hi.ofAllowed ha
  by_cases hne : ∀ fs, r ≠ .enum fs
  · obtain ⟨body, hb, he, hs, hbl⟩ := build_add hi hlen ha hne
    rcases add_spec hi.lay hi.start hs ((enc_enum he).1 hne) (by omega) with ⟨q, hq, e, hadd⟩ | ⟨hn, hadd⟩
    · subst e
      exact ⟨_, _, hb.trans hadd, List.prefix_rfl, fun _ => ⟨_, inv_old hi hq he hne hk⟩⟩
    · refine ⟨_, _, hb.trans hadd, ⟨_, rfl⟩, fun hl => ⟨_, inv_new hi hs he (fun _ => hn) hk ?_⟩⟩
      simp only at hl
      omega
  · obtain ⟨fs, rfl⟩ : ∃ fs, r = .enum fs := by
      false_or_by_contra
      exact hne fun fs e => by rename_i hc; exact hc ⟨fs, e⟩
    refine ⟨_, _, build_enum hi hlen fs, ⟨_, rfl⟩, fun hl => ⟨_, inv_new hi ?_ rfl (fun hh => absurd rfl (hh fs)) hk ?_⟩⟩
    · obtain ⟨x, xs, e, hx⟩ := ha.fields fs rfl
      rw [e]
      exact .enum hx
    · simp only at hl
      omega

theorem inv_init (a b : Int) : Inv [(msgInfo a b, 2)] (initTable a b) [(1, [TYPE_STRUCTURE, 2, 4, TYPE_INTEGER, a, TYPE_INTEGER, b])] where
  lay := by
    have := Lay.add (cells := [0]) (body := TYPE_STRUCTURE :: 2 :: (([TYPE_INTEGER, a, TYPE_INTEGER, b] : List Int).length : Int) :: [TYPE_INTEGER, a, TYPE_INTEGER, b])
      .nil .struct (by simp)
    exact this
  start := rfl
  recs := by
    intro x hx
    rw [List.mem_singleton] at hx
    subst hx
    refine ⟨_, List.mem_singleton.2 rfl, rfl, 2, ?_, ?_⟩
    · have hn : ∀ fuel, strip (initTable a b).cells (fuel + 1) (-1) = some (-1) := by
        intro fuel
        rw [strip, if_neg (fun hc => by have := hc.1; omega)]
      have h1 : typeSize (initTable a b).cells (-1) = some 1 := by
        unfold typeSize behind
        rw [hn, Option.map_some, if_neg (fun hc => by have := hc.1; omega), if_neg (by decide)]
      simp only [membersSize, h1]
      rw [usz_of_lt (n := 1 + 0) (by omega), usz_of_lt (by omega)]
    · rw [toItem_of_lt (by omega)]
      rfl
  known := by
    intro x hx t ht
    rw [List.mem_singleton] at hx
    subst hx
    simp [mentioned, msgInfo] at ht
    exact Or.inl (by omega)
  pairs := List.pairwise_singleton _ _

theorem run_inv {a b : Int} {h : List (Req × Int)} {tb : Table} (hr : Run a b h tb) (hlen : tb.cells.length < 2305843009213693952) : ∃ rs, Inv h tb rs := by
  induction hr with
  | init => exact ⟨_, inv_init a b⟩
  | @step h tb r t tb' hr ha hb ih =>
    by_cases hl : tb.cells.length < 2305843009213693952
    · obtain ⟨rs, hi⟩ := ih hl
      obtain ⟨t', tb'', hb', _, hall⟩ := inv_step hi ha hl
      rw [hb] at hb'
      cases hb'
      exact hall hlen
    · exfalso
      have grow : ∀ {body : List Int} {tb : Table} {t tb'}, typeAdd tb body = some (t, tb') → tb.cells.length ≤ tb'.cells.length := by
        intro body tb t tb' hh
        unfold typeAdd at hh
        simp only at hh
        split at hh
        · cases hh
        · cases hh; simp
        · cases hh; simp
      have : tb.cells.length ≤ tb'.cells.length := by
        cases r with
        | pointer => exact grow hb
        | array => exact grow hb
        | const => exact grow hb
        | function =>
          simp only [build, typeFunction] at hb
          split at hb
          · exact grow hb
          · cases hb
        | struct =>
          simp only [build, typeStructure] at hb
          split at hb
          · split at hb
            · cases hb
            · exact grow hb
          · cases hb
        | enum =>
          simp only [build, typeEnum] at hb
          split at hb
          · cases hb
          · rename_i heq
            have := grow heq
            unfold enumAddFields at hb
            split at hb
            · cases hb
            · cases hb; exact this
            · cases hb; simp; omega
      omega

end RuC.Types
