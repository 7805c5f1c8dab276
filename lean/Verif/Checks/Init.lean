import Verif.Checks.Lemmas

/-! The check of an initialiser or an argument against the type of its place. -/

namespace RuC.Checks

open RuC RuC.Types RuC.Expr RuC.Builder RuC.Builder.Spec RuC.Checks.Spec

variable {F : Type}

section
variable {cells : List Int} (hlen : cells.length < 4611686018427387904)
include hlen

/-- A type without `const` around it is an array, a structure, or neither. -/
theorem full_shape {s : Int} (h : Full cells s) (hn : ¬isConst cells s) :
    (∃ u, ArrayOf cells s u ∧ Full cells u) ∨ (∃ ms, Fields cells s ms ∧ ∀ m ∈ ms, Full cells m.1) ∨
    (isStructure cells s = some false ∧ isArray cells s = some false ∧ (∀ u, ¬ArrayOf cells s u) ∧ ∀ ms, ¬Fields cells s ms) := by
  have none_ : isStructure cells s = some false → isArray cells s = some false →
      (isStructure cells s = some false ∧ isArray cells s = some false ∧ (∀ u, ¬ArrayOf cells s u) ∧ ∀ ms, ¬Fields cells s ms) := by
    intro h1 h2
    refine ⟨h1, h2, fun u k => ?_, fun ms k => ?_⟩
    · rw [(array_read hlen k).2.1] at h2; cases h2
    · rw [(struct_read hlen k).2.1] at h1; cases h1
  cases h with
  | array h1 _ h2 => exact Or.inl ⟨_, h1, h2⟩
  | struct h1 _ h2 => exact Or.inr (Or.inl ⟨_, h1, h2⟩)
  | const h1 h2 h3 h4 =>
    obtain ⟨n, rfl, h0, k1, -⟩ := h1
    have g := get_some k1 hlen
    exact absurd ⟨by omega, by rw [g.2.1, g.2.2]⟩ hn
  | basic h1 d =>
    refine Or.inr (Or.inr (none_ ?_ ?_))
    · unfold isStructure
      rw [behind_plain hn, Option.map_some, decide_eq_false]
      exact fun k => by have := k.1; omega
    · unfold isArray
      rw [behind_plain hn, Option.map_some, decide_eq_false]
      exact fun k => by have := k.1; omega
  | leaf h0 h1 d =>
    rename_i n T
    have key : ∀ c, c ≠ TYPE_POINTER → c ≠ TYPE_FUNCTION → c ≠ TYPE_ENUM → ¬hasClass cells n c := by
      rintro c c1 c2 c3 ⟨-, k⟩
      rcases h1 with h1 | h1 | h1
      all_goals
        have g := get_some h1 hlen
        rw [g.2.1, g.2.2] at k
      · exact c1 k.symm
      · exact c2 k.symm
      · exact c3 k.symm
    refine Or.inr (Or.inr (none_ ?_ ?_))
    · unfold isStructure
      rw [behind_plain hn, Option.map_some, decide_eq_false (key _ (by decide) (by decide) (by decide))]
    · unfold isArray
      rw [behind_plain hn, Option.map_some, decide_eq_false (key _ (by decide) (by decide) (by decide))]

/-- The answer of a check: accepted and stored as it should be, or refused. -/
def Judged (cells : List Int) (decl : Bool) (t : Int) (e : Ex F) (o : Out (Ex F)) : Prop :=
  (Takes cells decl t e ∧ ∃ e', o = .ok e' ∧ Stored cells t e e') ∨ (¬Takes cells decl t e ∧ o = .bad)

omit hlen in
theorem judged_elements (D : Doubles F) (decl : Bool) (u : Int) : ∀ (es : List (Ex F)), (∀ e ∈ es, Judged cells decl u e (checkAssign D cells decl u e)) →
    ((∀ e ∈ es, Takes cells decl u e) ∧ ∃ es', checkElements D cells decl u es = .ok es' ∧ es'.length = es.length ∧
      ∀ (j : Nat) e e', es[j]? = some e → es'[j]? = some e' → Stored cells u e e') ∨
    ((¬∀ e ∈ es, Takes cells decl u e) ∧ checkElements D cells decl u es = .bad) := by
  intro es
  induction es with
  | nil => intro _; exact Or.inl ⟨nofun, [], by rw [checkElements], rfl, nofun⟩
  | cons e es ih =>
    intro h
    rw [checkElements]
    simp only [bind_eq, pure_eq]
    rcases h e List.mem_cons_self with ⟨k1, e', k2, k3⟩ | ⟨k1, k2⟩
    · rw [k2]
      simp only [Out.bind]
      rcases ih fun x hx => h x (List.mem_cons_of_mem _ hx) with ⟨i1, es', i2, i3, i4⟩ | ⟨i1, i2⟩
      · rw [i2]
        refine Or.inl ⟨fun x hx => ?_, _, rfl, by simp [i3], fun j x x' hx hx' => ?_⟩
        · rcases List.mem_cons.1 hx with rfl | hx
          · exact k1
          · exact i1 x hx
        · cases j with
          | zero => simp only [List.getElem?_cons_zero, Option.some.injEq] at hx hx'; subst hx hx'; exact k3
          | succ j => rw [List.getElem?_cons_succ] at hx hx'; exact i4 j x x' hx hx'
      · rw [i2]
        exact Or.inr ⟨fun k => i1 fun x hx => k x (List.mem_cons_of_mem _ hx), rfl⟩
    · rw [k2]
      exact Or.inr ⟨fun k => k1 (k e List.mem_cons_self), rfl⟩

omit hlen in
theorem judged_members (D : Doubles F) (decl : Bool) (s : Int) (ms : List (Int × Int))
    (hm : ∀ (i : Nat) m, ms[i]? = some m → memberType cells s i = some m.1) : ∀ (es : List (Ex F)) (i : Nat), i + es.length = ms.length →
    (∀ e ∈ es, ∀ m ∈ ms, Judged cells decl m.1 e (checkAssign D cells decl m.1 e)) →
    ((∀ (j : Nat) m e, ms[i + j]? = some m → es[j]? = some e → Takes cells decl m.1 e) ∧ ∃ es', checkMembers D cells decl s i es = .ok es' ∧ es'.length = es.length ∧
      ∀ (j : Nat) m e e', ms[i + j]? = some m → es[j]? = some e → es'[j]? = some e' → Stored cells m.1 e e') ∨
    ((¬∀ (j : Nat) m e, ms[i + j]? = some m → es[j]? = some e → Takes cells decl m.1 e) ∧ checkMembers D cells decl s i es = .bad) := by
  intro es
  induction es with
  | nil => intro i _ _; exact Or.inl ⟨nofun, [], by rw [checkMembers], rfl, nofun⟩
  | cons e es ih =>
    intro i hi h
    simp only [List.length_cons] at hi
    have hlt : i < ms.length := by omega
    have hmi : ms[i]? = some ms[i] := List.getElem?_eq_getElem hlt
    rw [checkMembers, hm i _ hmi]
    simp only [bind_eq, pure_eq, ask, Out.bind]
    have sh : ∀ j, i + (j + 1) = i + 1 + j := fun j => by omega
    rcases h e List.mem_cons_self ms[i] (List.getElem_mem hlt) with ⟨k1, e', k2, k3⟩ | ⟨k1, k2⟩
    · rw [k2]
      simp only [Out.bind]
      rcases ih (i + 1) (by omega) fun x hx => h x (List.mem_cons_of_mem _ hx) with ⟨i1, es', i2, i3, i4⟩ | ⟨i1, i2⟩
      · rw [i2]
        refine Or.inl ⟨fun j m x hx hx' => ?_, _, rfl, by simp [i3], fun j m x x' hx hx' hx'' => ?_⟩
        · cases j with
          | zero =>
            rw [Nat.add_zero, hmi] at hx
            simp only [List.getElem?_cons_zero, Option.some.injEq] at hx hx'
            subst hx hx'; exact k1
          | succ j => rw [sh] at hx; rw [List.getElem?_cons_succ] at hx'; exact i1 j m x hx hx'
        · cases j with
          | zero =>
            rw [Nat.add_zero, hmi] at hx
            simp only [List.getElem?_cons_zero, Option.some.injEq] at hx hx' hx''
            subst hx hx' hx''; exact k3
          | succ j => rw [sh] at hx; rw [List.getElem?_cons_succ] at hx' hx''; exact i4 j m x x' hx hx' hx''
      · rw [i2]
        exact Or.inr ⟨fun k => i1 fun j m x hx hx' => k (j + 1) m x (by rw [sh]; exact hx) hx', rfl⟩
    · rw [k2]
      exact Or.inr ⟨fun k => k1 (k 0 _ e hmi rfl), rfl⟩

/-- Every expression is accepted for a place exactly when the place takes it. -/
theorem judged (D : Doubles F) (hc : Clean cells) (decl : Bool) {e : Ex F} (hr : Ready cells e) : ∀ {t : Int}, Full cells t →
    Judged cells decl t e (checkAssign D cells decl t e) := by
  induction hr with
  | @plain e E hi de hl =>
    intro t ht
    obtain ⟨T, d⟩ := full_den hlen ht
    have step : checkAssign D cells decl t e = if isConst cells t ∧ decl = false then .bad else checkPlain D cells (unqual cells t) e := by
      cases e <;> first | (cases hi; done) | (rw [checkAssign.eq_def])
    rw [step]
    unfold Judged
    rw [takes_plain hi, constant_iff hlen d]
    by_cases hk : isConst cells t ∧ decl = false
    · rw [if_pos hk]
      exact Or.inr ⟨fun k => by rw [hk.2] at k; exact absurd (k.1 hk.1) (by decide), rfl⟩
    rw [if_neg hk]
    have hd : isConst cells t → decl = true := fun k => by
      cases hdd : decl
      · exact absurd ⟨k, hdd⟩ hk
      · rfl
    have hn := (full_once hlen ht).2
    have uni : (∃ T E, Den cells t T ∧ Den cells e.type E ∧ Fitting cells t e.type T E) ↔ Fitting cells t e.type T E := by
      constructor
      · rintro ⟨T', E', d', de', f⟩
        rw [den_unique d rfl d', den_unique de rfl de']; exact f
      · exact fun f => ⟨T, E, d, de, f⟩
    rw [uni, ← fitting_once hlen d hn]
    rcases plain_fits D hlen hc (once_den hlen d) de hl hn with ⟨f, e', k⟩ | ⟨f, k⟩
    · refine Or.inl ⟨⟨hd, f⟩, e', k, ?_⟩
      rcases plain_shape hlen D hc (once_den hlen d) de hl hn k with ⟨rfl, n⟩ | ⟨n1, n2, n3⟩
      · rw [bare_once] at n
        refine .same hi fun T' E' d' de' => ?_
        rw [den_unique d' rfl d, den_unique de' rfl de]; exact n
      · rw [bare_once] at n1
        exact .converted hi d de n1 n2 n3
    · exact Or.inr ⟨fun x => f x.2, k⟩
  | @init i es hes ih =>
    intro t ht
    obtain ⟨T, d⟩ := full_den hlen ht
    rw [checkAssign]
    unfold Judged
    by_cases hk : isConst cells t ∧ decl = false
    · rw [if_pos hk]
      refine Or.inr ⟨fun k => ?_, rfl⟩
      have : Constant cells t → decl = true := by
        cases k with
        | plain h1 => cases h1
        | struct h1 => exact h1
        | array h1 => exact h1
      have := this ((constant_iff hlen d).2 hk.1)
      rw [hk.2] at this; cases this
    rw [if_neg hk]
    have hd : Constant cells t → decl = true := fun k => by
      cases hdd : decl
      · exact absurd ⟨(constant_iff hlen d).1 k, hdd⟩ hk
      · rfl
    obtain ⟨hf, hn⟩ := full_once hlen ht
    have on := (once_iff hlen d _).2 rfl
    have onu : ∀ {s}, Once cells t s → s = unqual cells t := fun h => ((once_iff hlen d _).1 h).symm
    simp only [bind_eq, pure_eq]
    rcases full_shape hlen hf hn with ⟨u, h1, h2⟩ | ⟨ms, h1, h2⟩ | ⟨h1, h2, h3, h4⟩
    · have r := array_read hlen h1
      rw [r.2.1, r.2.2.1, r.2.2.2]
      simp only [ask, Out.bind, if_true, Bool.false_eq_true, if_false]
      rcases judged_elements D decl u es (fun e he => ih e he h2) with ⟨k1, es', k2, k3, k4⟩ | ⟨k1, k2⟩
      · rw [k2]
        exact Or.inl ⟨.array hd on h1 k1, _, rfl, .array on h1 k3 k4⟩
      · rw [k2]
        refine Or.inr ⟨fun k => ?_, rfl⟩
        cases k with
        | plain h1 => cases h1
        | struct g1 g2 g3 => rw [onu g2] at g3; exact array_not_struct hlen h1 g3
        | array g1 g2 g3 g4 => rw [onu g2] at g3; rw [array_unique hlen h1 g3] at k1; exact k1 g4
    · have r := struct_read hlen h1
      rw [r.2.1, r.2.2.1]
      simp only [ask, Out.bind, if_true]
      by_cases hl : ms.length = es.length
      · rw [if_neg (fun k => k hl)]
        have := judged_members D decl _ ms (fun i m hm => (r.2.2.2 i m hm).1) es 0 (by omega) (fun e he m hm => ih e he (h2 m hm))
        simp only [Nat.zero_add] at this
        rcases this with ⟨k1, es', k2, k3, k4⟩ | ⟨k1, k2⟩
        · rw [k2]
          exact Or.inl ⟨.struct hd on h1 hl k1, _, rfl, .struct on h1 k3 k4⟩
        · rw [k2]
          refine Or.inr ⟨fun k => ?_, rfl⟩
          cases k with
          | plain h1 => cases h1
          | struct g1 g2 g3 g4 g5 => rw [onu g2] at g3; rw [fields_unique hlen h1 g3] at k1; exact k1 g5
          | array g1 g2 g3 => rw [onu g2] at g3; exact array_not_struct hlen g3 h1
      · rw [if_pos hl]
        refine Or.inr ⟨fun k => ?_, rfl⟩
        cases k with
        | plain h1 => cases h1
        | struct g1 g2 g3 g4 g5 => rw [onu g2] at g3; rw [fields_unique hlen h1 g3] at hl; exact hl g4
        | array g1 g2 g3 => rw [onu g2] at g3; exact array_not_struct hlen g3 h1
    · rw [h1, h2]
      simp only [ask, Out.bind, Bool.false_eq_true, if_false]
      refine Or.inr ⟨fun k => ?_, trivial⟩
      cases k with
      | plain h1 => cases h1
      | struct g1 g2 g3 => rw [onu g2] at g3; exact h4 _ g3
      | array g1 g2 g3 => rw [onu g2] at g3; exact h3 _ g3

end

end RuC.Checks
