import Verif.Types.Inv

/-! Reading a stored type. -/

namespace RuC.Types
open RuC RuC.Types.Spec

theorem behind_plain {cells : List Int} {t : Int} (h : ¬ isConst cells t) : behind cells t = some t := by
  unfold behind
  rw [strip, if_neg h]

/-- What is behind a `const` is what is behind its type. -/
theorem behind_const {cells : List Int} {rs : List (Nat × List Int)} (h : Lay cells rs) (hlen : cells.length < 4611686018427387904) {t u : Int} (hc : isConst cells t)
    (hk : Known rs t) (hu : unqualified cells t = u) (hku : Known rs u) (hlt : u < t) : behind cells t = behind cells u := by
  obtain ⟨v, _, hv⟩ := strip_known h t.toNat u hku (by have := hc.1; omega)
  have hv := hv [] (by simpa using hlen)
  rw [List.append_nil] at hv
  have := known_lt h hk
  have := hc.1
  unfold behind
  rw [strip, if_pos hc, hu, hv cells.length (by omega), hv (cells.length + 1) (by omega)]

theorem reads_record {cells : List Int} {rs : List (Nat × List Int)} (h : Lay cells rs) (hlen : cells.length < 2305843009213693952) {q : Nat × List Int} (hq : q ∈ rs)
    {r : Req} (he : Enc cells r q.2) (hk : ∀ t ∈ mentioned r, Known rs t) : Reads cells r ((q.1 : Int) + 1) := by
  obtain ⟨c, hc, hsz, hcl⟩ := rec_class h [] (by simp; omega) hq
  rw [List.append_nil] at hcl
  have hst := (lay_stored h q hq).2
  have hcr : c = classOf r := by
    rw [enc_head he] at hc
    exact (Option.some_inj.1 hc).symm
  subst hcr
  have plain : classOf r ≠ TYPE_CONST → behind cells ((q.1 : Int) + 1) = some ((q.1 : Int) + 1) :=
    fun hne => behind_plain fun hcst => hne ((hcl TYPE_CONST).1 hcst)
  have size1 : classOf r ≠ TYPE_CONST → classOf r ≠ TYPE_STRUCTURE → typeSize cells ((q.1 : Int) + 1) = some 1 := by
    intro h1 h2
    unfold typeSize
    rw [plain h1, Option.map_some, if_neg (fun hh => h2 ((hcl _).1 hh)), if_neg (by unfold TYPE_FLOATING; omega)]
  have hb := hst.1
  cases r with
  | pointer e =>
    simp only [Enc] at he
    rw [he] at hst hb
    simp only [List.length_cons, List.length_nil] at hb
    refine .pointer ?_ (size1 (by simp only [classOf]; decide) (by simp only [classOf]; decide)) ?_
    · unfold pointerElement
      rw [plain (by simp only [classOf]; decide), Option.map_some, if_pos ((hcl TYPE_POINTER).2 rfl), hsz, usz_of_lt (by omega), hst.2 1 e rfl]
    · unfold isPointer
      rw [plain (by simp only [classOf]; decide), Option.map_some, decide_eq_true ((hcl TYPE_POINTER).2 rfl)]
  | array e =>
    simp only [Enc] at he
    rw [he] at hst hb
    simp only [List.length_cons, List.length_nil] at hb
    refine .array ?_ (size1 (by simp only [classOf]; decide) (by simp only [classOf]; decide)) ?_
    · unfold arrayElement
      rw [plain (by simp only [classOf]; decide), Option.map_some, if_pos ((hcl TYPE_ARRAY).2 rfl), hsz, usz_of_lt (by omega), hst.2 1 e rfl]
    · unfold isArray
      rw [plain (by simp only [classOf]; decide), Option.map_some, decide_eq_true ((hcl TYPE_ARRAY).2 rfl)]
  | function u ps =>
    simp only [Enc] at he
    rw [he] at hst hb
    simp only [List.length_cons] at hb
    refine .function ?_ ?_ ?_ (size1 (by simp only [classOf]; decide) (by simp only [classOf]; decide)) ?_
    · unfold returnType
      rw [if_pos ((hcl TYPE_FUNCTION).2 rfl), hsz, usz_of_lt (by omega), hst.2 1 u rfl]
    · unfold parameterAmount
      rw [if_pos ((hcl TYPE_FUNCTION).2 rfl), hsz, usz_of_lt (by omega), hst.2 2 _ rfl, toSize_natCast (by omega)]
    · intro i p hp
      have hi := (List.getElem?_eq_some_iff.1 hp).1
      unfold parameterType
      rw [if_pos ((hcl TYPE_FUNCTION).2 rfl), hsz, usz_of_lt (by omega)]
      have := hst.2 (i + 3) p (by simpa using hp)
      rw [← this]
      congr 1
      omega
    · unfold isFunction
      rw [decide_eq_true ((hcl TYPE_FUNCTION).2 rfl)]
  | struct ms =>
    obtain ⟨n, hn, he⟩ := he
    rw [he] at hst hb
    simp only [List.length_cons, flat_length] at hb
    obtain ⟨sizes, hs⟩ := members_known h ms fun m hm => hk _ (List.mem_map.2 ⟨m, hm, rfl⟩)
    have hs := hs [] (by simp; omega)
    rw [List.append_nil] at hs
    rw [hs.2] at hn
    cases hn
    refine .struct (sizes := sizes) ?_ ?_ hs.1 ?_ ?_
    · unfold memberAmount
      rw [plain (by simp only [classOf]; decide), Option.map_some, if_pos ((hcl TYPE_STRUCTURE).2 rfl), hsz, usz_of_lt (by omega), hst.2 2 _ rfl,
        toSize_natCast (by rw [flat_length]; omega), flat_length]
      congr 1
      omega
    · intro i m hm
      have hi := (List.getElem?_eq_some_iff.1 hm).1
      obtain ⟨g1, g2⟩ := flat_get ms i m hm
      constructor
      · unfold memberType
        rw [plain (by simp only [classOf]; decide), Option.map_some, if_pos ((hcl TYPE_STRUCTURE).2 rfl), hsz, usz_of_lt (by omega)]
        have := hst.2 (2 * i + 3) m.1 (by simpa using g1)
        rw [← this]
        congr 2
        omega
      · unfold memberName
        rw [plain (by simp only [classOf]; decide), Option.map_some, if_pos ((hcl TYPE_STRUCTURE).2 rfl), hsz, usz_of_lt (by omega)]
        have := hst.2 (2 * i + 1 + 3) m.2 (by simpa using g2)
        rw [← this]
        congr 3
        omega
    · unfold typeSize
      rw [plain (by simp only [classOf]; decide), Option.map_some, if_pos ((hcl TYPE_STRUCTURE).2 rfl), hsz, usz_of_lt (by omega), hst.2 1 _ rfl,
        toSize_toItem (Nat.mod_lt _ (by decide))]
    · unfold isStructure
      rw [plain (by simp only [classOf]; decide), Option.map_some, decide_eq_true ((hcl TYPE_STRUCTURE).2 rfl)]
  | enum fs =>
    refine .enum ?_ (size1 (by simp only [classOf]; decide) (by simp only [classOf]; decide))
    unfold isEnum
    rw [plain (by simp only [classOf]; decide), Option.map_some, decide_eq_true ((hcl TYPE_ENUM).2 rfl)]
  | const e =>
    simp only [Enc] at he
    rw [he] at hst hb
    simp only [List.length_cons, List.length_nil] at hb
    have hcst : isConst cells ((q.1 : Int) + 1) := (hcl TYPE_CONST).2 rfl
    have hun : unqualified cells ((q.1 : Int) + 1) = e := by
      unfold unqualified
      rw [if_pos hcst, hsz, usz_of_lt (by omega), hst.2 1 e rfl]
    have hlt : e < (q.1 : Int) + 1 := by
      obtain ⟨rs', hs, ho⟩ := lay_shape h q hq
      rw [he] at hs
      cases hs with
      | const hok =>
        rcases hok with rfl | rfl | ⟨p, hp, rfl, _⟩
        · omega
        · omega
        · have := (ho p hp).2
          omega
    have hbe := behind_const h (by omega) hcst (Or.inr ⟨q, hq, rfl⟩) hun (hk e (by simp [mentioned])) hlt
    refine .const hcst hun ?_ ?_ ?_ ?_ ?_ ?_
    · unfold typeSize; rw [hbe]
    · unfold pointerElement; rw [hbe]
    · unfold arrayElement; rw [hbe]
    · unfold memberAmount; rw [hbe]
    · intro i; unfold memberType; rw [hbe]
    · intro i; unfold memberName; rw [hbe]

end RuC.Types
