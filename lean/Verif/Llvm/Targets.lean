import Verif.Llvm.Regs

/-!
# Lemmas: the labels a text speaks of
-/

namespace RuC.Llvm

/-- The labels a text speaks of. -/
abbrev aims (c : List Instr) : List Nat := c.flatMap targets

/-- They are put in the text, but for some. -/
def Aim (ex : List Nat) (c : List Instr) : Prop := ∀ l ∈ aims c, l ∈ labels c ∨ l ∈ ex

theorem Aim.none {ex : List Nat} {c : List Instr} (h : aims c = []) : Aim ex c := by
  intro l hl; rw [h] at hl; cases hl

theorem Aim.append {ex : List Nat} {a b : List Instr} (h : Aim ex a) (k : Aim ex b) : Aim ex (a ++ b) := by
  intro l hl
  simp only [aims, List.flatMap_append, List.mem_append] at hl
  rw [labels_append, List.mem_append]
  rcases hl with hl | hl
  · rcases h l hl with h | h
    · exact Or.inl (Or.inl h)
    · exact Or.inr h
  · rcases k l hl with h | h
    · exact Or.inl (Or.inr h)
    · exact Or.inr h

theorem Aim.mono {ex ex' : List Nat} {a : List Instr} (h : Aim ex a) (k : ∀ l ∈ ex, l ∈ ex') : Aim ex' a := fun l hl => (h l hl).imp_right (k l)

theorem aim_check (ty : Option Ty) (g : Gen) : Aim [g.lt, g.lf] (check ty g).1 := by
  unfold check
  split
  · split
    · intro l hl
      simp only [aims, List.flatMap_cons, List.flatMap_nil, targets, List.append_nil] at hl
      split at hl <;> simp_all
    · split
      · intro l hl
        simp only [aims, List.flatMap_cons, List.flatMap_nil, targets, List.append_nil] at hl
        split at hl <;> simp_all
      · exact .none rfl
  · by_cases h1 : ty = some .int
    · by_cases h2 : g.loc = .nolog <;> (intro l hl; simp [h1, h2, targets] at hl; simp [hl])
    · by_cases h3 : ty = some .bool
      · by_cases h2 : g.loc = .nolog <;> (intro l hl; simp [h3, h2, targets] at hl; simp [hl])
      · by_cases h2 : g.loc = .nolog <;> (intro l hl; simp [h1, h3, h2, targets] at hl; simp [hl])
  · by_cases h2 : g.loc = .nolog <;> (intro l hl; simp [h2, targets] at hl; simp [hl])
  · exact .none rfl

theorem aims_integral (mk : Opd → Opd → Instr) (hmk : ∀ a b, targets (mk a b) = []) (ty : Option Ty) (r : Nat) (ka : Kind) (a : Nat) (ca : Int) (kb : Kind) (b : Nat) (cb : Int) :
    aims (integral mk ty r ka a ca kb b cb) = [] := by
  unfold integral
  split
  · split
    · simp [hmk]
    · rfl
  · split
    · simp [hmk]
    · rfl
  · split
    · simp [hmk]
    · rfl
  · rfl

/-- The labels to jump to are still the same two. -/
def Same (g g' : Gen) : Prop := (g'.lt = g.lt ∨ g'.lt = g.lf) ∧ (g'.lf = g.lt ∨ g'.lf = g.lf)

theorem swapped_same {b : Bool} {g g' : Gen} (h : swapped b g g') : Same g g' := by
  cases b
  · exact ⟨Or.inl h.1, Or.inr h.2⟩
  · exact ⟨Or.inr h.1, Or.inl h.2⟩

/-- The labels of an expression. -/
abbrev AimE (isLocal : Nat → Bool) (e : Exp) : Prop :=
  (good e = true → ∀ g, Aim [] (emitE isLocal e g).1) ∧
  (test e = true → ∀ g, g.loc ≠ .nolog → Aim [g.lt, g.lf] (emitE isLocal e g).1 ∧ Same g (emitE isLocal e g).2)

theorem aim_good {isLocal : Nat → Bool} {e : Exp} (h : good e = true → ∀ g, Aim [] (emitE isLocal e g).1) (k : test e = true → good e = true) : AimE isLocal e :=
  ⟨h, fun ht g _ => ⟨(h (k ht) g).mono (by simp), swapped_same (fieldsE isLocal e (k ht) g).2⟩⟩

/-- The last label of a ternary operator is put. -/
theorem ternary_puts {isLocal : Nat → Bool} {e : Exp} (h : e.isTernary = true) (g : Gen) : (emitE isLocal e g).2.ternEnd ∈ labels (emitE isLocal e g).1 := by
  cases e <;> simp [Exp.isTernary] at h
  simp [emitE, labels_append, List.filterMap_cons, labelOf]

mutual
theorem aimE (isLocal : Nat → Bool) : ∀ e : Exp, AimE isLocal e
  | .int v => aim_good (fun _ g => .none rfl) (fun _ => rfl)
  | .bool v => aim_good (fun _ g => .none rfl) (fun _ => rfl)
  | .str v => aim_good (fun _ g => .none rfl) (fun _ => rfl)
  | .ident id ty => aim_good (fun _ g => .none rfl) (fun _ => rfl)
  | .inc op id => aim_good (fun _ g => .none rfl) (fun _ => rfl)
  | .un op e => by
    refine aim_good (fun hg g => ?_) (fun ht => ?_)
    · simp only [good, cls, Bool.and_eq_true] at hg
      simp only [emitE, then_fst]
      exact ((aimE isLocal e).1 hg.1.1 _).append (.none (by cases op <;> rfl))
    · simp only [test, cls, Bool.and_eq_true] at ht
      simp only [good, cls, Bool.and_eq_true]
      exact ht.1
  | .not e => by
    refine ⟨fun hg g => ?_, fun ht g hl => ?_⟩
    · simp only [good, cls, Bool.and_eq_true, beq_iff_eq] at hg
      have hni : ¬ e.ty = some .int := by rw [hg.1.2]; simp
      simp only [emitE, then_fst]
      refine ((aimE isLocal e).1 hg.1.1 _).append ?_
      split
      · simp only [if_neg hni, then_fst]
        exact .none rfl
      · exact .none rfl
    · simp only [test, cls] at ht
      have key : Aim [g.lf, g.lt] (emitE isLocal e { g with lt := g.lf, lf := g.lt }).1 ∧ Same { g with lt := g.lf, lf := g.lt } (emitE isLocal e { g with lt := g.lf, lf := g.lt }).2 := by
        split at ht
        · simp only [Bool.and_eq_true] at ht
          exact ⟨((aimE isLocal e).1 ht.1.1.1 _).mono (by simp), swapped_same (fieldsE isLocal e ht.1.1.1 _).2⟩
        · simp only [Bool.and_eq_true] at ht
          exact (aimE isLocal e).2 ht.1 _ hl
      simp only [emitE, then_fst, then_snd]
      generalize emitE isLocal e { g with lt := g.lf, lf := g.lt } = x at *
      have h1 : Aim [g.lt, g.lf] x.1 := key.1.mono (by simp)
      have hsame : Same g x.2 := ⟨key.2.1.symm, key.2.2.symm⟩
      split
      · split
        · simp only [then_fst, then_snd]
          refine ⟨h1.append (Aim.append ?_ (.none rfl)), ?_⟩
          · refine (aim_check e.ty x.2).mono ?_
            intro l hl
            simp only [List.mem_cons, List.not_mem_nil, or_false] at hl ⊢
            rcases hl with rfl | rfl
            · exact hsame.1
            · exact hsame.2
          · have := check_lt e.ty x.2
            simp only [Same, this]
            exact hsame
        · exact ⟨h1.append (.none rfl), hsame⟩
      · exact ⟨h1.append (.none rfl), hsame⟩
  | .arith op l r => by
    refine aim_good (fun hg g => ?_) (fun ht => ?_)
    · simp only [good, cls, Bool.and_eq_true] at hg
      simp only [emitE, then_fst]
      refine ((aimE isLocal l).1 hg.1.1.1.1 _).append (((aimE isLocal r).1 hg.1.1.1.2 _).append (.none ?_))
      exact aims_integral _ (fun _ _ => rfl) ..
    · simp only [test, cls, Bool.and_eq_true] at ht
      simp only [good, cls, Bool.and_eq_true]
      exact ht.1
  | .cmp op l r => by
    refine aim_good (fun hg g => ?_) (fun ht => ?_)
    · simp only [good, cls, Bool.and_eq_true] at hg
      simp only [emitE, then_fst]
      refine ((aimE isLocal l).1 hg.1.1.1.1 _).append (((aimE isLocal r).1 hg.1.1.1.2 _).append (.none ?_))
      exact aims_integral _ (fun _ _ => rfl) ..
    · simp only [test, cls, Bool.and_eq_true] at ht
      simp only [good, cls, Bool.and_eq_true]
      exact ht.1
  | .logic isOr l r => by
    refine ⟨fun hg => ?_, fun ht g hl => ?_⟩
    · simp [good, cls] at hg
    · simp only [test, cls, Bool.and_eq_true] at ht
      simp only [emitE, if_pos hl, then_fst, then_snd]
      generalize hg0 : ({ g with label := g.label + 1, loc := .free, lt := if isOr then g.lt else g.label, lf := if isOr then g.label else g.lf } : Gen) = g0
      have hA := (aimE isLocal l).2 ht.1 g0 (by rw [← hg0]; exact fun h => by cases h)
      have e1 : ∀ n, (n = g0.lt ∨ n = g0.lf) → n = g.lt ∨ n = g.lf ∨ n = g.label := by
        intro n hn
        rw [← hg0] at hn
        simp only at hn
        cases isOr <;> simp at hn <;> rcases hn with h | h <;> simp [h]
      generalize emitE isLocal l g0 = x at *
      have hC := aim_check l.ty { x.2 with loc := .free }
      generalize check l.ty { x.2 with loc := .free } = y at *
      have hB := (aimE isLocal r).2 ht.2 { y.2 with lt := g.lt, lf := g.lf, loc := .free } (fun h => by cases h)
      generalize emitE isLocal r { y.2 with lt := g.lt, lf := g.lf, loc := .free } = z at *
      have hD := aim_check r.ty { z.2 with loc := .free }
      have hD' := check_lt r.ty { z.2 with loc := .free }
      generalize check r.ty { z.2 with loc := .free } = u at *
      have hs2 : Same g u.2 := by
        simp only [Same, hD'.1, hD'.2]
        exact hB.2
      refine ⟨?_, hs2⟩
      intro n hn
      have a1 := hA.1 n
      have a2 := hC n
      have a3 := hB.1 n
      have a4 := hD n
      have s1 := hA.2
      have s2 := hB.2
      have e1' := e1 n
      simp only [Same] at s1 s2
      simp only [aims, List.flatMap_append, List.flatMap_cons, List.flatMap_nil, targets, List.mem_append, List.append_nil, List.not_mem_nil, or_false, false_or,
        labels_append, labels, List.filterMap_cons, List.filterMap_nil, labelOf, List.mem_cons] at *
      grind
  | .comma l r => by
    refine aim_good (fun hg g => ?_) (fun ht => ?_)
    · simp only [good, cls, Bool.and_eq_true] at hg
      simp only [emitE, then_fst]
      exact ((aimE isLocal l).1 hg.1 _).append ((aimE isLocal r).1 hg.2 _)
    · simp only [test, cls, Bool.and_eq_true] at ht
      simp only [good, cls, Bool.and_eq_true]
      exact ht.1
  | .ternary c a b => by
    refine aim_good (fun hg g => ?_) (fun ht => ?_)
    · simp only [good, cls, Bool.and_eq_true] at hg
      simp only [emitE, then_fst, then_snd]
      generalize hg0 : ({ g with label := g.label + 3, lt := g.label, lf := g.label + 1, loc := .free } : Gen) = g0
      have e1 : g0.lt = g.label := by rw [← hg0]
      have e2 : g0.lf = g.label + 1 := by rw [← hg0]
      have hA := (aimE isLocal c).2 hg.1.1.1.1.1.1 g0 (by rw [← hg0]; exact fun h => by cases h)
      generalize emitE isLocal c g0 = x at *
      have hC := aim_check c.ty x.2
      generalize check c.ty x.2 = y at *
      have ha := (aimE isLocal a).1 hg.1.1.1.1.1.2 { y.2 with loc := .free }
      have ta := fun h => ternary_puts (isLocal := isLocal) (e := a) h { y.2 with loc := .free }
      generalize emitE isLocal a { y.2 with loc := .free } = z at *
      have hb := (aimE isLocal b).1 hg.1.1.1.1.2 { z.2 with loc := .free }
      have tb := fun h => ternary_puts (isLocal := isLocal) (e := b) h { z.2 with loc := .free }
      generalize emitE isLocal b { z.2 with loc := .free } = u at *
      intro n hn
      have a1 := hA.1 n
      have a2 := hC n
      have a3 := ha n
      have a4 := hb n
      have s1 := hA.2
      simp only [Same] at s1
      simp only [aims, List.flatMap_append, List.flatMap_cons, List.flatMap_nil, targets, List.mem_append, List.append_nil, List.not_mem_nil, or_false, false_or,
        labels_append, labels, List.filterMap_cons, List.filterMap_nil, labelOf, List.mem_cons] at *
      grind
    · simp only [test, cls, Bool.and_eq_true] at ht
      simp only [good, cls, Bool.and_eq_true]
      exact ht.1
  | .assign op id ty e => by
    refine aim_good (fun hg g => ?_) (fun ht => ?_)
    · simp only [good, cls, Bool.and_eq_true] at hg
      simp only [emitE, then_fst]
      refine ((aimE isLocal e).1 hg.1.1.1.1 _).append ?_
      cases op with
      | some op => exact .none rfl
      | none =>
        simp only
        split
        · exact .none rfl
        · split
          · exact .none rfl
          · split
            · exact .none rfl
            · exact .none rfl
    · simp only [test, cls, Bool.and_eq_true] at ht
      simp only [good, cls, Bool.and_eq_true]
      exact ht.1
  | .call f ret args => by
    refine aim_good (fun hg g => ?_) (fun ht => ?_)
    · have h := aimA isLocal args hg g
      simp only [emitE]
      cases ret with
      | none => exact h.append (.none rfl)
      | some t => exact h.append (.none rfl)
    · simp only [test, cls, Bool.and_eq_true] at ht
      simp only [good, cls]
      exact ht.1

theorem aimA (isLocal : Nat → Bool) : ∀ args : Args, clsA args = true → ∀ g, Aim [] (emitA isLocal args g).1
  | .nil, _, g => .none rfl
  | .cons e rest, h, g => by
    simp only [clsA, Bool.and_eq_true] at h
    simp only [emitA]
    exact ((aimE isLocal e).1 h.1 _).append (aimA isLocal rest h.2 _)
end

/-! ## Statements -/

theorem aimD (isLocal : Nat → Bool) : ∀ (l : List (Nat × Ty × Option Exp)), okD l = true → ∀ g : Gen, Aim [] (emitD isLocal l g).1
  | [], _, g => .none rfl
  | (id, ty, none) :: l, h, g => by
    simp only [okD, Bool.and_eq_true] at h
    exact Aim.append (.none rfl) (aimD isLocal l h.2 g)
  | (id, ty, some e) :: l, h, g => by
    simp only [okD, Bool.and_eq_true] at h
    simp only [emitD, emitV, then_fst]
    refine Aim.append (Aim.append (.none rfl) (Aim.append ((aimE isLocal e).1 h.1.1.1.2 _) ?_)) (aimD isLocal l h.2 _)
    unfold storeV
    split <;> exact .none rfl

theorem aim_step (isLocal : Nat → Bool) (e : Option Exp) (h : e.all good = true) (g : Gen) : Aim [] (stepOf isLocal e g).1 := by
  cases e with
  | none => exact .none rfl
  | some e => exact (aimE isLocal e).1 (by simpa using h) g

/-- Where a `break` outside of the loops of a statement goes. -/
def exit_ (b : Bool) (g : Gen) : List Nat := if b then [g.lb] else []

theorem exit_mono {b c : Bool} {g g' : Gen} (h : b = true → c = true) (hl : g'.lb = g.lb) : ∀ l ∈ exit_ b g', l ∈ exit_ c g := by
  intro l hl'
  cases b
  · simp [exit_] at hl'
  · simp [exit_, hl] at hl'
    simp [exit_, h, hl']

mutual
theorem aimS (isLocal : Nat → Bool) (main : Bool) : ∀ st : Stmt, okS main st = true → ∀ g : Gen, g.isMain = main → Aim (exit_ (stray st) g) (emitS isLocal st g).1
  | .skip, _, g, hm => .none rfl
  | .expr e, h, g, hm => ((aimE isLocal e).1 h g).mono (by simp)
  | .decls l, h, g, hm => (aimD isLocal l h g).mono (by simp)
  | .break_, _, g, hm => by
    intro l hl
    simp [emitS, targets] at hl
    simp [stray, exit_, hl]
  | .if_ c a, h, g, hm => by
    simp only [okS, Bool.and_eq_true] at h
    simp only [emitS, then_fst, then_snd, stray]
    generalize hg0 : ({ g with label := g.label + 3, lt := g.label, lf := g.label + 1, loc := .free } : Gen) = g0
    have e1 : g0.lt = g.label := by rw [← hg0]
    have e2 : g0.lf = g.label + 1 := by rw [← hg0]
    have e4 : g0.isMain = main := by rw [← hg0]; exact hm
    have e3 : g0.lb = g.lb := by rw [← hg0]
    have hA := (aimE isLocal c).2 h.1 g0 (by rw [← hg0]; exact fun h => by cases h)
    have gA := growE isLocal c g0
    generalize emitE isLocal c g0 = x at *
    have hC := aim_check c.ty x.2
    have gC := grow_check c.ty x.2
    generalize check c.ty x.2 = y at *
    have ha := (aimS isLocal main a h.2 y.2 (by rw [gC.isMain, gA.isMain, e4])).mono (exit_mono (c := stray a) (g := g) (fun h => h) (by rw [gC.lb, gA.lb, e3]))
    generalize emitS isLocal a y.2 = z at *
    intro n hn
    have a1 := hA.1 n
    have a2 := hC n
    have a3 := ha n
    have s1 := hA.2
    simp only [Same] at s1
    simp only [aims, List.flatMap_append, List.flatMap_cons, List.flatMap_nil, targets, List.mem_append, List.append_nil, List.not_mem_nil, or_false, false_or,
      labels_append, labels, List.filterMap_cons, List.filterMap_nil, labelOf, List.mem_cons] at *
    grind
  | .ifElse c a b, h, g, hm => by
    simp only [okS, Bool.and_eq_true] at h
    simp only [emitS, then_fst, then_snd, stray]
    generalize hg0 : ({ g with label := g.label + 3, lt := g.label, lf := g.label + 1, loc := .free } : Gen) = g0
    have e1 : g0.lt = g.label := by rw [← hg0]
    have e2 : g0.lf = g.label + 1 := by rw [← hg0]
    have e4 : g0.isMain = main := by rw [← hg0]; exact hm
    have e3 : g0.lb = g.lb := by rw [← hg0]
    have hA := (aimE isLocal c).2 h.1.1 g0 (by rw [← hg0]; exact fun h => by cases h)
    have gA := growE isLocal c g0
    generalize emitE isLocal c g0 = x at *
    have hC := aim_check c.ty x.2
    have gC := grow_check c.ty x.2
    generalize check c.ty x.2 = y at *
    have ha := (aimS isLocal main a h.1.2 y.2 (by rw [gC.isMain, gA.isMain, e4])).mono (exit_mono (c := stray a || stray b) (g := g) (fun h => by simp [h]) (by rw [gC.lb, gA.lb, e3]))
    have ga := (growS isLocal main a h.1.2 y.2).1
    generalize emitS isLocal a y.2 = z at *
    have hb := (aimS isLocal main b h.2 z.2 (by rw [ga.isMain, gC.isMain, gA.isMain, e4])).mono (exit_mono (c := stray a || stray b) (g := g) (fun h => by simp [h]) (by rw [ga.lb, gC.lb, gA.lb, e3]))
    generalize emitS isLocal b z.2 = u at *
    intro n hn
    have a1 := hA.1 n
    have a2 := hC n
    have a3 := ha n
    have a4 := hb n
    have s1 := hA.2
    simp only [Same] at s1
    simp only [aims, List.flatMap_append, List.flatMap_cons, List.flatMap_nil, targets, List.mem_append, List.append_nil, List.not_mem_nil, or_false, false_or,
      labels_append, labels, List.filterMap_cons, List.filterMap_nil, labelOf, List.mem_cons] at *
    grind
  | .while_ c b, h, g, hm => by
    simp only [okS, Bool.and_eq_true] at h
    simp only [emitS, then_fst, then_snd, stray]
    generalize hg0 : ({ g with label := g.label + 3, lt := g.label + 1, lf := g.label + 2, lb := g.label + 2, lc := g.label + 1, loc := .free } : Gen) = g0
    have e1 : g0.lt = g.label + 1 := by rw [← hg0]
    have e2 : g0.lf = g.label + 2 := by rw [← hg0]
    have e4 : g0.isMain = main := by rw [← hg0]; exact hm
    have e3 : g0.lb = g.label + 2 := by rw [← hg0]
    have hA := (aimE isLocal c).2 h.1 g0 (by rw [← hg0]; exact fun h => by cases h)
    have gA := growE isLocal c g0
    generalize emitE isLocal c g0 = x at *
    have hC := aim_check c.ty x.2
    have gC := grow_check c.ty x.2
    generalize check c.ty x.2 = y at *
    have ha := (aimS isLocal main b h.2 y.2 (by rw [gC.isMain, gA.isMain, e4])).mono (exit_mono (c := true) (g := g0) (fun _ => rfl) (by rw [gC.lb, gA.lb]))
    generalize emitS isLocal b y.2 = z at *
    intro n hn
    have a1 := hA.1 n
    have a2 := hC n
    have a3 := ha n
    have s1 := hA.2
    simp only [Same] at s1
    simp only [aims, List.flatMap_append, List.flatMap_cons, List.flatMap_nil, targets, List.mem_append, List.append_nil, List.not_mem_nil, or_false, false_or,
      labels_append, labels, List.filterMap_cons, List.filterMap_nil, labelOf, List.mem_cons, exit_, if_true] at *
    grind
  | .do_ b c, h, g, hm => by
    simp only [okS, Bool.and_eq_true, Bool.not_eq_true'] at h
    simp only [emitS, then_fst, then_snd, stray]
    generalize hg0 : ({ g with label := g.label + 2, lt := g.label, lf := g.label + 1, lb := g.label + 1, lc := g.label } : Gen) = g0
    have e1 : g0.lt = g.label := by rw [← hg0]
    have e2 : g0.lf = g.label + 1 := by rw [← hg0]
    have e4 : g0.isMain = main := by rw [← hg0]; exact hm
    have e3 : g0.lb = g.label + 1 := by rw [← hg0]
    have ha := (aimS isLocal main b h.1.1 g0 e4).mono (exit_mono (c := true) (g := g0) (fun _ => rfl) rfl)
    have hsw := swapped_same ((growS isLocal main b h.1.1 g0).2 e4)
    generalize emitS isLocal b g0 = z at *
    have hA := (aimE isLocal c).2 h.1.2 { z.2 with loc := .free } (fun h => by cases h)
    generalize emitE isLocal c { z.2 with loc := .free } = x at *
    have hC := aim_check c.ty x.2
    generalize check c.ty x.2 = y at *
    intro n hn
    have a1 := hA.1 n
    have a2 := hC n
    have a3 := ha n
    have s1 := hA.2
    simp only [Same] at s1 hsw
    simp only [aims, List.flatMap_append, List.flatMap_cons, List.flatMap_nil, targets, List.mem_append, List.append_nil, List.not_mem_nil, or_false, false_or,
      labels_append, labels, List.filterMap_cons, List.filterMap_nil, labelOf, List.mem_cons, exit_, if_true] at *
    grind
  | .for_ i c inc b, h, g, hm => by
    simp only [okS, Bool.and_eq_true] at h
    simp only [emitS, then_fst, then_snd, stray]
    generalize hg0 : ({ g with label := g.label + 4, lt := g.label + 1, lf := g.label + 3, lb := g.label + 3, lc := g.label + 1 } : Gen) = g0
    have e1 : g0.lt = g.label + 1 := by rw [← hg0]
    have e2 : g0.lf = g.label + 3 := by rw [← hg0]
    have e4 : g0.isMain = main := by rw [← hg0]; exact hm
    have e3 : g0.lb = g.label + 3 := by rw [← hg0]
    have hi := (aimS isLocal main i h.1.1.1.2 g0 e4).mono (exit_mono (c := true) (g := g0) (fun _ => rfl) rfl)
    have gi := (growS isLocal main i h.1.1.1.2 g0).1
    have hsw := swapped_same ((growS isLocal main i h.1.1.1.2 g0).2 e4)
    generalize emitS isLocal i g0 = xi at *
    cases c with
    | some c =>
      have hf := h.1.2
      simp only [okFor, Bool.and_eq_true] at hf
      simp only [testOf, then_fst, then_snd, Option.isSome_some, if_true]
      have hA := (aimE isLocal c).2 hf.1 { xi.2 with loc := .free } (fun h => by cases h)
      have gA := growE isLocal c { xi.2 with loc := .free }
      generalize emitE isLocal c { xi.2 with loc := .free } = x at *
      have hC := aim_check c.ty x.2
      have gC := grow_check c.ty x.2
      generalize check c.ty x.2 = y at *
      have hs := aim_step isLocal inc hf.2 y.2
      have gs := grow_stepOf isLocal inc y.2
      generalize stepOf isLocal inc y.2 = w at *
      have ha := (aimS isLocal main b h.2 w.2 (by rw [gs.isMain, gC.isMain, gA.isMain, gi.isMain, e4])).mono (exit_mono (c := true) (g := g0) (fun _ => rfl) (by rw [gs.lb, gC.lb, gA.lb, gi.lb]))
      generalize emitS isLocal b w.2 = z at *
      intro n hn
      have a1 := hi n
      have a2 := hA.1 n
      have a3 := hC n
      have a4 := hs n
      have a5 := ha n
      have s1 := hA.2
      simp only [Same] at s1 hsw
      simp only [aims, List.flatMap_append, List.flatMap_cons, List.flatMap_nil, targets, List.mem_append, List.append_nil, List.not_mem_nil, or_false, false_or,
        labels_append, labels, List.filterMap_cons, List.filterMap_nil, labelOf, List.mem_cons, exit_, if_true] at *
      grind
    | none =>
      have hf := h.1.2
      simp only [okFor, Option.isNone_iff_eq_none] at hf
      subst hf
      simp only [testOf, stepOf, quiet_fst, quiet_snd, Option.isSome_none, Bool.false_eq_true, if_false]
      have ha := (aimS isLocal main b h.2 xi.2 (by rw [gi.isMain, e4])).mono (exit_mono (c := true) (g := g0) (fun _ => rfl) gi.lb)
      generalize emitS isLocal b xi.2 = z at *
      intro n hn
      have a1 := hi n
      have a5 := ha n
      simp only [aims, List.flatMap_append, List.flatMap_cons, List.flatMap_nil, targets, List.mem_append, List.append_nil, List.not_mem_nil, or_false, false_or,
        labels_append, labels, List.filterMap_cons, List.filterMap_nil, labelOf, List.mem_cons, exit_, if_true] at *
      grind
  | .block b, h, g, hm => by
    simp only [emitS, then_fst, stray]
    exact Aim.append (.none rfl) (aimB isLocal main b h (some g.block) { g with block := g.block + 1, reg := g.reg + 1 } hm)
  | .return_ e, h, g, hm => by
    simp only [okS, Bool.and_eq_true] at h
    simp only [emitS]
    split
    · exact .none rfl
    · cases e with
      | none => exact .none rfl
      | some e =>
        simp only [okRet, Bool.and_eq_true] at h
        simp only [then_fst]
        refine Aim.append (((aimE isLocal e).1 h.2.1 _).mono (by simp)) ?_
        unfold retOf
        split
        · split <;> exact .none rfl
        · exact .none rfl
        · exact .none rfl

theorem aimB (isLocal : Nat → Bool) (main : Bool) : ∀ b : Stmts, okB main b = true → ∀ (k : Option Nat) (g : Gen), g.isMain = main → Aim (exit_ (strayB b) g) (emitB isLocal k b g).1
  | .nil, _, k, g, hm => .none rfl
  | .cons st .nil, h, k, g, hm => by
    simp only [okB, Bool.and_eq_true] at h
    have := aimS isLocal main st h.1 g hm
    simp only [emitB, not_case h.1, Bool.false_eq_true, if_false, then_fst, quiet_fst, List.append_nil, strayB, Bool.or_false]
    refine this.append ?_
    cases k <;> exact .none rfl
  | .cons st (.cons st' b), h, k, g, hm => by
    have h' : okS main st = true ∧ okB main (.cons st' b) = true := by
      rw [okB] at h
      simpa only [Bool.and_eq_true] using h
    rw [emitB_cons, strayB]
    simp only [then_fst]
    have g1 := (growS isLocal main st h'.1 g).1
    refine Aim.append ((aimS isLocal main st h'.1 g hm).mono (exit_mono (fun h => by simp [h]) rfl)) ((aimB isLocal main (.cons st' b) h'.2 k _ (g1.isMain.trans hm)).mono (exit_mono (fun h => by simp [h]) g1.lb))
end

theorem aimMain (isLocal : Nat → Bool) : ∀ (b : Stmts), okMain b = true → ∀ (g : Gen), g.isMain = true → Aim (exit_ (strayB b) g) (emitB isLocal none b g).1
  | .nil, _, g, _ => .none rfl
  | .cons st .nil, h, g, hm => by
    rcases okMain_cons h with ⟨rfl, -⟩ | ⟨h1, -⟩
    · rw [ret_main isLocal _ g hm]; exact .none rfl
    · rw [emitB_one h1]; simpa [strayB] using aimS isLocal true st h1 g hm
  | .cons st (.cons st' b), h, g, hm => by
    rcases okMain_cons h with ⟨-, h'⟩ | ⟨h1, h2⟩
    · cases h'
    · rw [emitB_cons, strayB]
      simp only [then_fst]
      have g1 := (growS isLocal true st h1 g).1
      exact Aim.append ((aimS isLocal true st h1 g hm).mono (exit_mono (fun h => by simp [h]) rfl))
        ((aimMain isLocal (.cons st' b) h2 _ (g1.isMain.trans hm)).mono (exit_mono (fun h => by simp [h]) g1.lb))

theorem aimF {isLocal : Nat → Bool} {main : Nat} {f : Func} (h : okF main f = true) (hs : strayB f.body = false) {g : Gen} (hm : g.isMain = false) :
    Aim [] (emitF isLocal (f.id == main) f g).1 := by
  simp only [okF, Bool.and_eq_true] at h
  rw [emitF_fst]
  have hp : ∀ (ps : List (Nat × Ty)) (i : Nat), aims (emitP i ps) = [] := by
    intro ps
    induction ps with
    | nil => intro i; rfl
    | cons p ps ih => intro i; simp [emitP, targets, ih]
  refine Aim.append (.none (hp _ _)) (Aim.append ?_ (.none ?_))
  · cases hb : f.id == main
    · rw [hb] at h
      simp only [Bool.false_eq_true, if_false] at h
      have := aimB isLocal false f.body h.2 none (bodyGen false g) (by simp [bodyGen, hm])
      rw [hs] at this
      exact this
    · rw [hb] at h
      simp only [if_true] at h
      have := aimMain isLocal f.body h.2 (bodyGen true g) (by simp [bodyGen])
      rw [hs] at this
      exact this
  · unfold endOf
    split
    · rfl
    · split <;> rfl

theorem labels_puts (c : List Instr) : labels c = c.flatMap puts := by
  induction c with
  | nil => rfl
  | cons i c ih => cases i <;> simp [labels, List.filterMap_cons, labelOf, puts, ← ih]

/-- The functions of a unit have texts of their own. -/
theorem unit_texts {isLocal : Nat → Bool} {main : Nat} : ∀ (fs : List Func) (g : Gen), (∀ d ∈ fs, okF main d = true) → g.isMain = false →
    ∀ x ∈ emitU isLocal main fs g, x.1 ∈ fs ∧ ∃ g', g'.isMain = false ∧ x.2 = (emitF isLocal (x.1.id == main) x.1 g').1
  | [], g, _, _, x, hx => by simp [emitU] at hx
  | f :: fs, g, h, hm, x, hx => by
    simp only [emitU, List.mem_cons] at hx
    have hg := growF (isLocal := isLocal) (h f (List.mem_cons_self ..)) hm
    rcases hx with rfl | hx
    · exact ⟨List.mem_cons_self .., g, hm, rfl⟩
    · obtain ⟨h1, h2⟩ := unit_texts fs _ (fun d hd => h d (List.mem_cons_of_mem _ hd)) hg.2.1 x hx
      exact ⟨List.mem_cons_of_mem _ h1, h2⟩

theorem labU (isLocal : Nat → Bool) (main : Nat) : ∀ (fs : List Func) (g : Gen), (∀ d ∈ fs, okF main d = true) → g.isMain = false →
    ∃ n, g.label ≤ n ∧ Ran g.label n ((emitU isLocal main fs g).flatMap fun d => labels d.2)
  | [], g, _, _ => ⟨g.label, Nat.le_refl _, Ran.nil _ _⟩
  | f :: fs, g, h, hm => by
    have hg := growF (isLocal := isLocal) (h f (List.mem_cons_self ..)) hm
    obtain ⟨n, h1, h2⟩ := labU isLocal main fs _ (fun d hd => h d (List.mem_cons_of_mem _ hd)) hg.2.1
    refine ⟨n, Nat.le_trans hg.1 h1, ?_⟩
    simp only [emitU, List.flatMap_cons]
    exact hg.2.2.append h2 hg.1 (Nat.le_refl _) h1

end RuC.Llvm
