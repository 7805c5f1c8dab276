import Verif.Checks.Hist
import Verif.Checks.Format

/-! Lemmas on parts of types, members, parameters and types of declarators. -/

namespace RuC.Checks

open RuC RuC.Types RuC.Types.Spec RuC.Expr RuC.Builder RuC.Builder.Spec RuC.Checks.Spec

variable {F : Type} {cells : List Int}

section
variable (hlen : cells.length < 4611686018427387904)
include hlen

theorem full_behind {t : Int} (h : Full cells t) : behind cells t = some (unqual cells t) ∧ behind cells (unqual cells t) = some (unqual cells t) := by
  have hn := (full_once hlen h).2
  have last : ∀ {u : Int} {fuel : Nat}, ¬isConst cells u → strip cells (fuel + 1) u = some u := by
    intro u fuel hu
    rw [strip.eq_def]; simp only; rw [if_neg hu]
  refine ⟨?_, last hn⟩
  unfold behind
  by_cases hc : isConst cells t
  · have : ∃ k, cells.length = k + 1 := by
      cases hl : cells with
      | nil =>
        exfalso
        have := hc.2
        rw [hl] at this
        simp [RuC.Types.get, TYPE_CONST, ITEM_MAX] at this
      | cons x xs => exact ⟨xs.length, rfl⟩
    obtain ⟨k, hk⟩ := this
    rw [hk, strip.eq_def]
    simp only
    rw [if_pos hc]
    unfold unqual at hn ⊢
    rw [if_pos hc] at hn ⊢
    exact last hn
  · rw [last hc]
    unfold unqual
    rw [if_neg hc]

/-- Members are asked for behind `const`. -/
theorem full_members {t s : Int} {ms : List (Int × Int)} (h : Full cells t) (ho : Once cells t s) (hf : Fields cells s ms) :
    isStructure cells t = some true ∧ memberAmount cells t = some ms.length ∧
    ∀ (i : Nat) m, ms[i]? = some m → memberType cells t i = some m.1 ∧ memberName cells t i = some (toSize m.2) := by
  obtain ⟨T, d⟩ := full_den hlen h
  have e := (once_iff hlen d s).1 ho
  obtain ⟨b1, b2⟩ := full_behind hlen h
  rw [e] at b1 b2
  obtain ⟨-, h2, h3, h4⟩ := struct_read hlen hf
  refine ⟨?_, ?_, fun i m hm => ?_⟩
  · rw [← h2]; unfold isStructure; rw [b1, b2]
  · rw [← h3]; unfold memberAmount; rw [b1, b2]
  · have := h4 i m hm
    unfold memberType memberName at this ⊢
    rw [b1, ← b2]
    exact this

theorem full_array {t s u : Int} (h : Full cells t) (ho : Once cells t s) (hf : ArrayOf cells s u) :
    isArray cells t = some true ∧ arrayElement cells t = some u := by
  obtain ⟨T, d⟩ := full_den hlen h
  have e := (once_iff hlen d s).1 ho
  obtain ⟨b1, b2⟩ := full_behind hlen h
  rw [e] at b1 b2
  obtain ⟨-, h2, h3, h4⟩ := array_read hlen hf
  refine ⟨?_, ?_⟩
  · rw [← h2]; unfold isArray; rw [b1, b2]
  · rw [← h3]; unfold arrayElement; rw [b1, b2]

/-- A type is a structure, behind `const`, exactly when the table says so. -/
theorem full_struct {t : Int} (h : Full cells t) : Says (isStructure cells t) (∃ s ms, Once cells t s ∧ Fields cells s ms ∧ ∀ m ∈ ms, Full cells m.1) := by
  obtain ⟨T, d⟩ := full_den hlen h
  obtain ⟨fu, hn⟩ := full_once hlen h
  have ho := (once_iff hlen d _).2 rfl
  rcases full_shape hlen fu hn with ⟨u, ha, -⟩ | ⟨ms, hf, hm⟩ | ⟨h1, -, -, h4⟩
  · refine ⟨false, ?_, nofun, ?_⟩
    · have := (array_read hlen ha).2.2.2
      rw [← this]; unfold isStructure; rw [(full_behind hlen h).1, (full_behind hlen h).2]
    · rintro ⟨s, ms, h1, h2, -⟩
      rw [← (once_iff hlen d _).1 h1] at h2
      exact (array_not_struct hlen ha h2).elim
  · exact ⟨true, (full_members hlen h ho hf).1, fun _ => ⟨_, ms, ho, hf, hm⟩, fun _ => rfl⟩
  · refine ⟨false, ?_, nofun, ?_⟩
    · rw [← h1]; unfold isStructure; rw [(full_behind hlen h).1, (full_behind hlen h).2]
    · rintro ⟨s, ms, k1, k2, -⟩
      rw [← (once_iff hlen d _).1 k1] at k2
      exact (h4 ms k2).elim

/-- A type is an array, behind `const`, exactly when the table says so. -/
theorem full_is_array {t : Int} (h : Full cells t) : Says (isArray cells t) (∃ s u, Once cells t s ∧ ArrayOf cells s u) := by
  obtain ⟨T, d⟩ := full_den hlen h
  obtain ⟨fu, hn⟩ := full_once hlen h
  have ho := (once_iff hlen d _).2 rfl
  rcases full_shape hlen fu hn with ⟨u, ha, -⟩ | ⟨ms, hf, hm⟩ | ⟨-, h1, h4, -⟩
  · exact ⟨true, (full_array hlen h ho ha).1, fun _ => ⟨_, u, ho, ha⟩, fun _ => rfl⟩
  · have fa : isArray cells t = some false := by
      obtain ⟨n, e, h0, h1, -⟩ := hf
      have g := get_some h1 hlen
      unfold isArray
      rw [(full_behind hlen h).1]
      simp only [Option.map_some, Option.some.injEq, decide_eq_false_iff_not]
      rw [e]
      rintro ⟨-, k⟩
      rw [g.2.1, g.2.2] at k
      exact absurd k (by decide)
    refine ⟨false, fa, nofun, ?_⟩
    rintro ⟨s, u, k1, k2⟩
    rw [(full_array hlen h k1 k2).1] at fa
    cases fa
  · refine ⟨false, ?_, nofun, ?_⟩
    · rw [← h1]; unfold isArray; rw [(full_behind hlen h).1, (full_behind hlen h).2]
    · rintro ⟨s, ms, k1, k2⟩
      rw [← (once_iff hlen d _).1 k1] at k2
      exact (h4 ms k2).elim

/-! ## Parts that must be initialised -/

theorem anyOf_spec (f : Nat → Option Bool) (P : Nat → Prop) : ∀ is : List Nat, (∀ i ∈ is, Says (f i) (P i)) → Says (anyOf f is) (∃ i ∈ is, P i) := by
  intro is
  induction is with
  | nil => intro _; exact ⟨false, rfl, nofun, fun ⟨_, h, _⟩ => nomatch h⟩
  | cons i is ih =>
    intro h
    obtain ⟨b, e, hb⟩ := h i List.mem_cons_self
    unfold anyOf
    rw [e]
    cases b with
    | true => exact ⟨true, rfl, fun _ => ⟨i, List.mem_cons_self, hb.1 rfl⟩, fun _ => rfl⟩
    | false =>
      obtain ⟨b', e', hb'⟩ := ih fun j hj => h j (List.mem_cons_of_mem _ hj)
      refine ⟨b', e', hb'.trans ⟨fun ⟨j, hj, hp⟩ => ⟨j, List.mem_cons_of_mem _ hj, hp⟩, ?_⟩⟩
      rintro ⟨j, hj, hp⟩
      rcases List.mem_cons.1 hj with rfl | hj
      · exact absurd (hb.2 hp) (by decide)
      · exact ⟨j, hj, hp⟩

theorem requires_spec : ∀ (fuel : Nat) {t : Int}, Full cells t → t < fuel → 0 < fuel → Says (requiresInit cells fuel t) (HasConst cells t) := by
  intro fuel
  induction fuel with
  | zero => intro t _ _ h; omega
  | succ fuel ih =>
    intro t h hlt _
    unfold requiresInit
    simp only
    have cls : ∀ {n : Nat} {c : Int}, cells[n]? = some c → 0 < n → typeClass cells n = c := by
      intro n c hc h0
      have g := get_some hc hlen
      unfold typeClass
      rw [if_pos (by omega), g.2.1, g.2.2]
    have no : (∀ u, ¬ConstOf cells t u) → (∀ u, ¬ArrayOf cells t u) → (∀ ms, ¬Fields cells t ms) → ¬HasConst cells t := by
      intro h1 h2 h3 k
      cases k with
      | here k => exact h1 _ k
      | element k => exact h2 _ k
      | member k => exact h3 _ k
    have only : ∀ {n : Nat} {c : Int}, t = n → cells[n]? = some c → (∀ u, ConstOf cells t u → c = TYPE_CONST) ∧ (∀ u, ArrayOf cells t u → c = TYPE_ARRAY) ∧
        (∀ ms, Fields cells t ms → c = TYPE_STRUCTURE) := by
      intro n c e hc
      have key : ∀ {m : Nat} {x : Int}, t = m → cells[m]? = some x → c = x := by
        intro m x e2 hx
        have : m = n := by omega
        subst this
        rw [hc] at hx; exact Option.some.inj hx
      exact ⟨fun u ⟨m, e2, _, k, _⟩ => key e2 k, fun u ⟨m, e2, _, k, _⟩ => key e2 k, fun ms ⟨m, e2, _, k, _⟩ => key e2 k⟩
    have step : ∀ u, Full cells u → u < t → 0 < t → Says (requiresInit cells fuel u) (HasConst cells u) := fun u hu h1 h2 => ih hu (by omega) (by omega)
    cases h with
    | basic h0 d =>
      have c : typeClass cells t = t := by unfold typeClass; rw [if_neg (by omega)]
      rw [c, if_neg (by unfold TYPE_STRUCTURE; omega), if_neg (by unfold TYPE_ARRAY; omega)]
      refine ⟨_, rfl, ?_⟩
      rw [decide_eq_true_iff]
      constructor
      · unfold TYPE_CONST; omega
      · intro k
        exact absurd k (no (fun u ⟨n, e, h, _⟩ => by omega) (fun u ⟨n, e, h, _⟩ => by omega) (fun u ⟨n, e, h, _⟩ => by omega))
    | @leaf n T h0 hk d =>
      have : ∃ c, cells[n]? = some c ∧ (c = TYPE_POINTER ∨ c = TYPE_FUNCTION ∨ c = TYPE_ENUM) := by
        rcases hk with hk | hk | hk <;> exact ⟨_, hk, by simp⟩
      obtain ⟨c, hc, hv⟩ := this
      obtain ⟨o1, o2, o3⟩ := only rfl hc
      have n1 : c ≠ TYPE_STRUCTURE := by rcases hv with rfl | rfl | rfl <;> decide
      have n2 : c ≠ TYPE_ARRAY := by rcases hv with rfl | rfl | rfl <;> decide
      have n3 : c ≠ TYPE_CONST := by rcases hv with rfl | rfl | rfl <;> decide
      rw [cls hc h0, if_neg n1, if_neg n2]
      refine ⟨_, rfl, ?_⟩
      rw [decide_eq_true_iff]
      exact ⟨fun k => absurd k n3, fun k => absurd k (no (fun u k => n3 (o1 u k)) (fun u k => n2 (o2 u k)) (fun u k => n1 (o3 u k)))⟩
    | @const _ u hc =>
      obtain ⟨n, e, h0, h1, h2⟩ := id hc
      rw [e, cls h1 h0, if_neg (by decide), if_neg (by decide), ← e]
      exact ⟨_, rfl, fun _ => .here hc, fun _ => by rw [decide_eq_true_iff]⟩
    | @array _ u ha hu fu =>
      obtain ⟨n, e, h0, h1, h2⟩ := id ha
      obtain ⟨o1, o2, o3⟩ := only e h1
      rw [e, cls h1 h0, if_neg (by decide), if_pos rfl, ← e, (array_read hlen ha).2.2.1]
      obtain ⟨b, e', hb⟩ := step u fu hu (by omega)
      refine ⟨b, e', hb.trans ⟨fun k => .element ha k, fun k => ?_⟩⟩
      cases k with
      | here k => exact absurd (o1 _ k) (by decide)
      | element k hk => rw [array_unique hlen ha k]; exact hk
      | member k => exact absurd (o3 _ k) (by decide)
    | @struct _ ms hf hm fu =>
      obtain ⟨n, e, h0, h1, h2, -⟩ := id hf
      obtain ⟨o1, o2, o3⟩ := only e h1
      rw [e, cls h1 h0, if_pos rfl, ← e, (struct_read hlen hf).2.2.1]
      simp only [Option.bind_some]
      obtain ⟨b, e', hb⟩ := anyOf_spec (hlen := hlen) (fun i => (memberType cells t i).bind fun m => requiresInit cells fuel m) (fun i => ∃ m, ms[i]? = some m ∧ HasConst cells m.1)
        (List.range ms.length) (by
          intro i hi
          rw [List.mem_range] at hi
          have hmi := List.getElem?_eq_getElem hi
          rw [((struct_read hlen hf).2.2.2 i _ hmi).1]
          obtain ⟨b, e', hb⟩ := step _ (fu _ (List.getElem_mem hi)) (hm _ (List.getElem_mem hi)) (by omega)
          refine ⟨b, e', hb.trans ⟨fun k => ⟨_, hmi, k⟩, ?_⟩⟩
          rintro ⟨m, k1, k2⟩
          rw [hmi] at k1; cases k1; exact k2)
      refine ⟨b, e', hb.trans ⟨?_, fun k => ?_⟩⟩
      · rintro ⟨i, -, m, k1, k2⟩
        exact .member hf (List.mem_of_getElem? k1) k2
      · cases k with
        | here k => exact absurd (o1 _ k) (by decide)
        | element k hk => exact absurd (o2 _ k) (by decide)
        | member k hk1 hk2 =>
          rw [← fields_unique hlen hf k] at hk1
          obtain ⟨i, hi, e3⟩ := List.getElem_of_mem hk1
          exact ⟨i, List.mem_range.2 hi, _, List.getElem?_eq_getElem hi, e3 ▸ hk2⟩

/-- With the fuel of the model. -/
theorem requires_full {t : Int} (h : Full cells t) : Says (requiresInit cells (cells.length + 1) t) (HasConst cells t) := by
  refine requires_spec hlen _ h ?_ (by omega)
  rcases full_cell h with h0 | ⟨n, c, e, hc⟩
  · omega
  · have := (List.getElem?_eq_some_iff.1 hc).1
    omega

end

end RuC.Checks
