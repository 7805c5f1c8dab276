import Verif.Checks.Rest

/-! Lemmas on members and parameters, and on requests for types made by declarators. -/

namespace RuC.Checks

open RuC RuC.Types RuC.Types.Spec RuC.Expr RuC.Builder RuC.Builder.Spec RuC.Checks.Spec

variable {F : Type} {cells : List Int}

/-! ## Members -/

theorem find_spec {t : Int} {name : Nat} (ms : List (Int × Int)) (hn : ∀ m ∈ ms, ∃ k : Nat, m.2 = k ∧ k < 9223372036854775808)
    (hm : ∀ (i : Nat) m, ms[i]? = some m → memberName cells t i = some (toSize m.2)) : ∀ (n i : Nat), i + n = ms.length →
    (∀ (j : Nat) m, j < i → ms[j]? = some m → m.2 ≠ name) →
    (∃ k ty, FirstNamed ms name k ty ∧ findMember cells t name n i = some (some k)) ∨
    ((∀ m ∈ ms, m.2 ≠ name) ∧ findMember cells t name n i = some none) := by
  intro n
  induction n with
  | zero =>
    intro i hi hj
    refine Or.inr ⟨fun m hmm => ?_, rfl⟩
    obtain ⟨j, hl, e⟩ := List.getElem_of_mem hmm
    exact hj j m (by omega) (by rw [List.getElem?_eq_getElem hl, e])
  | succ n ih =>
    intro i hi hj
    have hl : i < ms.length := by omega
    have hmi := List.getElem?_eq_getElem hl
    obtain ⟨k, hk, hk2⟩ := hn _ (List.getElem_mem hl)
    unfold findMember
    rw [hm i _ hmi, hk, toSize_natCast (by omega)]
    simp only [Option.bind_some]
    by_cases e : name = k
    · rw [if_pos e]
      refine Or.inl ⟨i, (ms[i]).1, ⟨?_, hj⟩, rfl⟩
      rw [hmi, e, ← hk]
    · rw [if_neg e]
      refine ih (i + 1) (by omega) fun j m hj2 hm2 => ?_
      by_cases ej : j = i
      · subst ej
        rw [hmi] at hm2; cases hm2
        rw [hk]; omega
      · exact hj j m (by omega) hm2

/-! ## Functions -/

theorem signature_read (hlen : cells.length < 4611686018427387904) {t r : Int} {ps : List Int} (h : Signature cells t r ps) :
    isFunction cells t = true ∧ returnType cells t = r ∧ parameterAmount cells t = ps.length ∧ parameters cells t ps.length = ps := by
  obtain ⟨n, rfl, h0, h1, h2, h3, h4⟩ := h
  have g := get_some h1 hlen
  have g3 := get_some h3 hlen
  have hc : hasClass cells n TYPE_FUNCTION := ⟨by omega, by rw [g.2.1, g.2.2]⟩
  refine ⟨decide_eq_true hc, ?_, ?_, ?_⟩
  · unfold returnType
    rw [if_pos hc, get_some_succ h2 hlen]
  · unfold parameterAmount
    rw [if_pos hc, g.2.1, usz_of_lt (by omega), g3.2.2]
    cases hps : ps with
    | nil => exact toSize_natCast (by simp)
    | cons p ps' =>
      have hl : ps.length - 1 < ps.length := by rw [hps]; simp
      have := (get_some (h4 (ps.length - 1) _ (List.getElem?_eq_getElem hl)) hlen).1
      rw [← hps]
      exact toSize_natCast (by omega)
  · refine List.ext_getElem? fun i => ?_
    unfold parameters
    rw [List.getElem?_map]
    by_cases hi : i < ps.length
    · have hp := List.getElem?_eq_getElem hi
      have g4 := get_some (h4 i _ hp) hlen
      rw [List.getElem?_range hi, hp, Option.map_some]
      unfold parameterType
      rw [if_pos hc, g.2.1, usz_of_lt (by omega), g4.2.2]
    · rw [List.getElem?_eq_none (by simpa using hi), List.getElem?_eq_none (by simpa using hi)]; rfl

theorem signature_unique (hlen : cells.length < 4611686018427387904) {t r r' : Int} {ps ps' : List Int} (h : Signature cells t r ps) (h' : Signature cells t r' ps') :
    r = r' ∧ ps = ps' := by
  obtain ⟨-, a2, a3, a4⟩ := signature_read hlen h
  obtain ⟨-, b2, b3, b4⟩ := signature_read hlen h'
  refine ⟨a2.symm.trans b2, ?_⟩
  rw [← a4, ← b4, a3.symm.trans b3]

/-! ## Requests -/

/-- A type that may be mentioned: one of the built-in ones or one of the history. -/
def Of (h : List (Req × Int)) (t : Int) : Prop := t ∈ [-9, -8, -7, -6, -4, -3, -2, -1, 0] ∨ ∃ q, (q, t) ∈ h

theorem Of.mono {h h' : List (Req × Int)} {t : Int} (ht : Of h t) (hs : ∀ x ∈ h, x ∈ h') : Of h' t := by
  rcases ht with h1 | ⟨q, hq⟩
  · exact Or.inl h1
  · exact Or.inr ⟨q, hs _ hq⟩

theorem of_known {h : List (Req × Int)} {t : Int} (ht : Of h t) : t ≤ 0 ∨ ∃ q, (q, t) ∈ h := by
  rcases ht with h1 | h1
  · left
    simp only [List.mem_cons, List.not_mem_nil, or_false] at h1
    omega
  · exact Or.inr h1

theorem of_full {a b : Int} {h : List (Req × Int)} {tb : Table} (hr : Run a b h tb) (hlen : tb.cells.length < 2305843009213693952) (hp : Proper h) {t : Int}
    (ht : Of h t) : Full tb.cells t := by
  rcases ht with h1 | ⟨q, hq⟩
  · simp only [List.mem_cons, List.not_mem_nil, or_false] at h1
    rcases h1 with rfl | rfl | rfl | rfl | rfl | rfl | rfl | rfl | rfl <;> exact .basic (by decide) (by constructor)
  · exact run_full hr hlen hp _ hq

/-- The numbers of history types are positive. -/
theorem run_pos {a b : Int} {h : List (Req × Int)} {tb : Table} (hr : Run a b h tb) (hlen : tb.cells.length < 2305843009213693952) {q : Req} {t : Int} (hq : (q, t) ∈ h) : 0 < t := by
  obtain ⟨rs, hi⟩ := run_inv hr hlen
  obtain ⟨r, -, e, -⟩ := hi.recs _ hq
  simp only at e
  omega

/-- A request that adds at most three cells. -/
theorem small_step {a b : Int} {h : List (Req × Int)} {tb : Table} (hr : Run a b h tb) (hlen : tb.cells.length + 3 < 2305843009213693952) (hp : Proper h) {r : Req} {t : Int}
    (hk : r = .pointer t ∨ r = .array t ∨ (r = .const t ∧ (-1 ≤ t ∧ ∀ fs, (.enum fs, t) ∉ h) ∧ ∀ v, (.const v, t) ∉ h)) (ht : Of h t) :
    ∃ u tb', build tb r = some (u, tb') ∧ Run a b ((r, u) :: h) tb' ∧ (∃ ext, tb'.cells = tb.cells ++ ext) ∧ tb'.cells.length ≤ tb.cells.length + 3 ∧ Proper ((r, u) :: h) := by
  have hm : mentioned r = [t] := by rcases hk with rfl | rfl | ⟨rfl, -⟩ <;> rfl
  have hall : Allowed h r := by
    refine ⟨?_, ?_, ?_, ?_, ?_⟩
    · rw [hm]
      intro x hx
      rw [List.mem_singleton] at hx
      rw [hx]
      exact of_known ht
    · intro x hx
      rcases hk with rfl | rfl | ⟨rfl, hc, -⟩
      · cases hx
      · cases hx
      · cases hx; exact hc
    · intro _ _ e; rcases hk with rfl | rfl | ⟨rfl, -⟩ <;> cases e
    · intro _ e; rcases hk with rfl | rfl | ⟨rfl, -⟩ <;> cases e
    · intro _ e; rcases hk with rfl | rfl | ⟨rfl, -⟩ <;> cases e
  obtain ⟨rs, hi⟩ := run_inv hr (by omega)
  obtain ⟨u, tb', hb, ⟨ext, hext⟩, -⟩ := inv_step hi hall (by omega)
  have hadd : ∃ c, build tb r = typeAdd tb [c, t] := by
    rcases hk with rfl | rfl | ⟨rfl, -⟩ <;> exact ⟨_, rfl⟩
  obtain ⟨c, hc⟩ := hadd
  have hl : tb'.cells.length ≤ tb.cells.length + 3 := by
    rw [hc] at hb
    unfold typeAdd at hb
    simp only at hb
    split at hb
    · cases hb
    · cases hb; simp
    · cases hb; simp
  have hr' := Run.step hr hall hb
  refine ⟨u, tb', hb, hr', ⟨ext, hext.symm⟩, hl, ?_, ?_⟩
  · intro x hx y hy h0
    rcases List.mem_cons.1 hx with rfl | hx
    · rw [hm, List.mem_singleton] at hy
      subst hy
      rcases ht with h1 | ⟨q, hq⟩
      · exact h1
      · have := run_pos hr (by omega) hq; omega
    · exact hp.builtin x hx y hy h0
  · have pos := run_pos hr' (by omega) List.mem_cons_self
    intro x y hx0 v hv0
    rcases List.mem_cons.1 hx0 with hx | hx
    · cases hx
      rcases hk with h1 | h1 | ⟨h1, h2, h3⟩
      · cases h1
      · cases h1
      · cases h1
        rcases List.mem_cons.1 hv0 with hv | hv
        · injection hv with e1 e2
          obtain ⟨rs', hi'⟩ := run_inv hr' (by omega)
          have ent := run_entry hr' (by omega) List.mem_cons_self
          -- a record cannot be its own part
          obtain ⟨n, e3, h0, k1, k2⟩ := ent
          obtain ⟨q, hq, e4, he⟩ := hi'.recs _ List.mem_cons_self
          obtain ⟨rs2, hsh, hlt⟩ := lay_shape hi'.lay q hq
          simp only [Enc] at he
          rw [he] at hsh
          generalize hbody : [TYPE_CONST, t] = body at hsh
          cases hsh with
          | const k =>
            cases hbody
            simp only at e4
            rcases k with k | k | ⟨q', hq', k, -⟩
            · omega
            · omega
            · have := (hlt q' hq').2
              omega
          | _ => exact absurd (congrArg List.head? hbody) (by simp [TYPE_CONST, TYPE_POINTER, TYPE_ARRAY, TYPE_FUNCTION, TYPE_STRUCTURE, TYPE_ENUM])
        · exact h3 v hv
    · rcases List.mem_cons.1 hv0 with hv | hv
      · -- the new type is a part of an old one: then it is an old one
        injection hv with e1 e2
        subst e1 e2
        obtain ⟨q, hq⟩ : ∃ q, (q, x) ∈ h := by
          obtain ⟨rs', hi'⟩ := run_inv hr' (by omega)
          have := hi.known _ hx x (by simp [mentioned])
          rcases this with h0 | ⟨q, hq, e⟩
          · omega
          · obtain ⟨y2, hy2, e2⟩ := run_covered hr (by omega) hi q hq
            refine ⟨y2.1, ?_⟩
            have : x = y2.2 := by omega
            rw [this]; exact hy2
        obtain ⟨rs', hi'⟩ := run_inv hr' (by omega)
        have := ((List.pairwise_cons.1 hi'.pairs).1 _ hq).1 rfl
        simp only at this
        rw [← this.1] at hq
        exact hp.single x y hx _ hq
      · exact hp.single x y hx v hv

theorem ready_mono {cells ext : List Int} {e : Ex F} (h : Ready cells e) : Ready (cells ++ ext) e := by
  induction h with
  | plain h1 d hl =>
    refine .plain h1 (den_mono d) ?_
    unfold Literal at hl ⊢
    split at hl
    · exact hl
    · exact hl
    · rcases hl with hl | hl | hl | ⟨n, e, h0, hl⟩ | ⟨n, e, h0, hl⟩
      · exact Or.inl hl
      · exact Or.inr (Or.inl hl)
      · exact Or.inr (Or.inr (Or.inl hl))
      · exact Or.inr (Or.inr (Or.inr (Or.inl ⟨n, e, h0, getElem?_mono hl⟩)))
      · exact Or.inr (Or.inr (Or.inr (Or.inr ⟨n, e, h0, getElem?_mono hl⟩)))
    · trivial
  | init _ ih => exact .init ih

end RuC.Checks
