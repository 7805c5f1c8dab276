import Verif.Llvm.Block

/-!
# Lemmas: the labels of a text
-/

namespace RuC.Llvm

/-- No number is there twice, and all of them are from `lo` to `hi`. -/
def Ran (lo hi : Nat) (l : List Nat) : Prop := ∀ n, l.count n ≤ if lo ≤ n ∧ n < hi then 1 else 0

theorem Ran.nodup {lo hi : Nat} {l : List Nat} (h : Ran lo hi l) : l.Nodup := by
  rw [List.nodup_iff_count]
  intro n
  have := h n
  split at this <;> omega

theorem Ran.nil (lo hi : Nat) : Ran lo hi [] := by
  intro n; simp

theorem Ran.append {a b c d : Nat} {l m : List Nat} (h : Ran a b l) (k : Ran c d m) (h1 : a ≤ b) (h2 : b ≤ c) (h3 : c ≤ d) : Ran a d (l ++ m) := by
  intro n
  have := h n
  have := k n
  rw [List.count_append]
  split at * <;> split at * <;> split <;> omega

theorem Ran.mono {a b c d : Nat} {l : List Nat} (h : Ran a b l) (h1 : c ≤ a) (h2 : b ≤ d) : Ran c d l := by
  intro n
  have := h n
  split at * <;> split <;> omega

theorem check_labels (ty : Option Ty) (g : Gen) : labels (check ty g).1 = [] := by
  unfold check
  split
  · split
    · rfl
    · split <;> rfl
  · by_cases h1 : ty = some .int
    · by_cases h2 : g.loc = .nolog <;> simp [h1, h2, labels, List.filterMap_cons, labelOf]
    · by_cases h3 : ty = some .bool
      · by_cases h2 : g.loc = .nolog <;> simp [h3, h2, labels, List.filterMap_cons, labelOf]
      · by_cases h2 : g.loc = .nolog <;> simp [h1, h3, h2, labels, List.filterMap_cons, labelOf]
  · split <;> simp [labels, List.filterMap_cons, labelOf]
  · rfl

theorem labels_append (a b : List Instr) : labels (a ++ b) = labels a ++ labels b := List.filterMap_append ..

theorem labels_label (l : Nat) (c : List Instr) : labels (.label l :: c) = l :: labels c := rfl

theorem integral_labels (mk : Opd → Opd → Instr) (hmk : ∀ a b, labelOf (mk a b) = none) (ty : Option Ty) (r : Nat) (ka : Kind) (a : Nat) (ca : Int) (kb : Kind) (b : Nat) (cb : Int) :
    labels (integral mk ty r ka a ca kb b cb) = [] := by
  unfold integral
  split
  · split
    · simp [labels, hmk]
    · rfl
  · split
    · simp [labels, hmk]
    · rfl
  · split
    · simp [labels, hmk]
    · rfl
  · rfl

/-- The labels between two states of the generator. -/
abbrev LabE (isLocal : Nat → Bool) (e : Exp) : Prop :=
  (good e = true → ∀ g, Ran g.label (emitE isLocal e g).2.label (labels (emitE isLocal e g).1)) ∧
  (test e = true → ∀ g, g.loc ≠ .nolog → Ran g.label (emitE isLocal e g).2.label (labels (emitE isLocal e g).1))

theorem lab_good {isLocal : Nat → Bool} {e : Exp} (h : good e = true → ∀ g, Ran g.label (emitE isLocal e g).2.label (labels (emitE isLocal e g).1)) (k : test e = true → good e = true) :
    LabE isLocal e := ⟨h, fun ht g _ => h (k ht) g⟩

mutual
theorem labE (isLocal : Nat → Bool) : ∀ e : Exp, LabE isLocal e
  | .int v => lab_good (fun _ g => Ran.nil _ _) (fun _ => rfl)
  | .bool v => lab_good (fun _ g => Ran.nil _ _) (fun _ => rfl)
  | .str v => lab_good (fun _ g => Ran.nil _ _) (fun _ => rfl)
  | .ident id ty => lab_good (fun _ g => Ran.nil _ _) (fun _ => rfl)
  | .inc op id => lab_good (fun _ g => Ran.nil _ _) (fun _ => rfl)
  | .un op e => by
    refine lab_good (fun hg g => ?_) (fun ht => ?_)
    · simp only [good, cls, Bool.and_eq_true] at hg
      have h := (labE isLocal e).1 hg.1.1 { g with loc := if op = .abs then .free else .reg }
      simp only [emitE, then_fst, then_snd, labels_append]
      rw [show ∀ x : Instr, labels [x] = (labelOf x).toList from fun x => by cases x <;> rfl]
      cases op <;> simpa [labelOf, Gen.answer] using h
    · simp only [test, cls, Bool.and_eq_true] at ht
      simp only [good, cls, Bool.and_eq_true]
      exact ht.1
  | .not e => by
    have key : ∀ g : Gen, Ran g.label (emitE isLocal e { g with lt := g.lf, lf := g.lt }).2.label (labels (emitE isLocal e { g with lt := g.lf, lf := g.lt }).1) →
        Ran g.label (emitE isLocal (.not e) g).2.label (labels (emitE isLocal (.not e) g).1) := by
      intro g h
      simp only [emitE, then_fst, then_snd, labels_append]
      generalize emitE isLocal e { g with lt := g.lf, lf := g.lt } = x at *
      split
      · split
        · have hl := (grow_check e.ty x.2).label
          simp only [then_fst, then_snd, labels_append, check_labels]
          simpa [labels, List.filterMap_cons, labelOf] using h.mono (Nat.le_refl _) hl
        · simpa [labels, List.filterMap_cons, labelOf] using h
      · simpa [labels] using h
    refine ⟨fun hg g => ?_, fun ht g hl => ?_⟩
    · simp only [good, cls, Bool.and_eq_true] at hg
      exact key g ((labE isLocal e).1 hg.1.1 _)
    · simp only [test, cls] at ht
      split at ht
      · simp only [Bool.and_eq_true] at ht
        exact key g ((labE isLocal e).1 ht.1.1.1 _)
      · simp only [Bool.and_eq_true] at ht
        exact key g ((labE isLocal e).2 ht.1 _ hl)
  | .arith op l r => by
    refine lab_good (fun hg g => ?_) (fun ht => ?_)
    · simp only [good, cls, Bool.and_eq_true] at hg
      simp only [emitE, then_fst, then_snd, labels_append]
      have hl := (labE isLocal l).1 hg.1.1.1.1 { g with loc := .free }
      have gl := (growE isLocal l { g with loc := .free }).label
      generalize emitE isLocal l { g with loc := .free } = x at *
      have hr := (labE isLocal r).1 hg.1.1.1.2 { x.2 with loc := .free }
      have gr := (growE isLocal r { x.2 with loc := .free }).label
      generalize emitE isLocal r { x.2 with loc := .free } = y at *
      rw [integral_labels _ (fun _ _ => rfl), List.append_nil]
      exact hl.append hr gl (Nat.le_refl _) gr
    · simp only [test, cls, Bool.and_eq_true] at ht
      simp only [good, cls, Bool.and_eq_true]
      exact ht.1
  | .cmp op l r => by
    refine lab_good (fun hg g => ?_) (fun ht => ?_)
    · simp only [good, cls, Bool.and_eq_true] at hg
      simp only [emitE, then_fst, then_snd, labels_append]
      have hl := (labE isLocal l).1 hg.1.1.1.1 { g with loc := .free }
      have gl := (growE isLocal l { g with loc := .free }).label
      generalize emitE isLocal l { g with loc := .free } = x at *
      have hr := (labE isLocal r).1 hg.1.1.1.2 { x.2 with loc := .free }
      have gr := (growE isLocal r { x.2 with loc := .free }).label
      generalize emitE isLocal r { x.2 with loc := .free } = y at *
      rw [integral_labels _ (fun _ _ => rfl), List.append_nil]
      exact hl.append hr gl (Nat.le_refl _) gr
    · simp only [test, cls, Bool.and_eq_true] at ht
      simp only [good, cls, Bool.and_eq_true]
      exact ht.1
  | .logic isOr l r => by
    refine ⟨fun hg => ?_, fun ht g hl => ?_⟩
    · simp [good, cls] at hg
    · simp only [test, cls, Bool.and_eq_true] at ht
      simp only [emitE, if_pos hl, then_fst, then_snd, labels_append, check_labels, List.nil_append, List.append_nil]
      generalize hg0 : ({ g with label := g.label + 1, loc := .free, lt := if isOr then g.lt else g.label, lf := if isOr then g.label else g.lf } : Gen) = g0
      have e1 : g0.label = g.label + 1 := by rw [← hg0]
      have hl := (labE isLocal l).2 ht.1 g0 (by rw [← hg0]; exact fun h => by cases h)
      have gl := (growE isLocal l g0).label
      generalize emitE isLocal l g0 = x at *
      have gc := (grow_check l.ty { x.2 with loc := .free }).label
      generalize check l.ty { x.2 with loc := .free } = y at *
      have hr := (labE isLocal r).2 ht.2 { y.2 with lt := g.lt, lf := g.lf, loc := .free } (fun h => by cases h)
      have gr := (growE isLocal r { y.2 with lt := g.lt, lf := g.lf, loc := .free }).label
      generalize emitE isLocal r { y.2 with lt := g.lt, lf := g.lf, loc := .free } = z at *
      have gd := (grow_check r.ty { z.2 with loc := .free }).label
      generalize check r.ty { z.2 with loc := .free } = u at *
      intro n
      have a1 := hl n
      have a2 := hr n
      simp only [labels_label, labels, List.filterMap_nil, List.count_append, List.count_cons, List.count_nil, beq_iff_eq] at *
      split at a1 <;> split at a2 <;> split <;> split <;> omega
  | .comma l r => by
    refine lab_good (fun hg g => ?_) (fun ht => ?_)
    · simp only [good, cls, Bool.and_eq_true] at hg
      simp only [emitE, then_fst, then_snd, labels_append]
      have hl := (labE isLocal l).1 hg.1 g
      have gl := (growE isLocal l g).label
      generalize emitE isLocal l g = x at *
      exact hl.append ((labE isLocal r).1 hg.2 x.2) gl (Nat.le_refl _) (growE isLocal r x.2).label
    · simp only [test, cls, Bool.and_eq_true] at ht
      simp only [good, cls, Bool.and_eq_true]
      exact ht.1
  | .ternary c a b => by
    refine lab_good (fun hg g => ?_) (fun ht => ?_)
    · simp only [good, cls, Bool.and_eq_true] at hg
      simp only [emitE, then_fst, then_snd, labels_append, check_labels, List.nil_append, List.append_nil]
      generalize hg0 : ({ g with label := g.label + 3, lt := g.label, lf := g.label + 1, loc := .free } : Gen) = g0
      have e1 : g0.label = g.label + 3 := by rw [← hg0]
      have hl := (labE isLocal c).2 hg.1.1.1.1.1.1 g0 (by rw [← hg0]; exact fun h => by cases h)
      have gl := (growE isLocal c g0).label
      generalize emitE isLocal c g0 = x at *
      have gc := (grow_check c.ty x.2).label
      generalize check c.ty x.2 = y at *
      have ha := (labE isLocal a).1 hg.1.1.1.1.1.2 { y.2 with loc := .free }
      have ga := (growE isLocal a { y.2 with loc := .free }).label
      generalize emitE isLocal a { y.2 with loc := .free } = z at *
      have hb := (labE isLocal b).1 hg.1.1.1.1.2 { z.2 with loc := .free }
      have gb := (growE isLocal b { z.2 with loc := .free }).label
      generalize emitE isLocal b { z.2 with loc := .free } = u at *
      intro n
      have a1 := hl n
      have a2 := ha n
      have a3 := hb n
      simp only [labels_label, labels, List.filterMap_nil, List.filterMap_cons, labelOf, List.count_append, List.count_cons, List.count_nil, beq_iff_eq, Gen.answer] at *
      grind
    · simp only [test, cls, Bool.and_eq_true] at ht
      simp only [good, cls, Bool.and_eq_true]
      exact ht.1
  | .assign op id ty e => by
    refine lab_good (fun hg g => ?_) (fun ht => ?_)
    · simp only [good, cls, Bool.and_eq_true] at hg
      have h := (labE isLocal e).1 hg.1.1.1.1 { g with loc := .nolog }
      simp only [emitE, then_fst, then_snd, labels_append]
      generalize emitE isLocal e { g with loc := .nolog } = x at *
      cases op with
      | some op => simpa [labels, List.filterMap_cons, labelOf] using h
      | none =>
        simp only
        split
        · simpa [labels, List.filterMap_cons, labelOf] using h
        · split
          · simpa [labels, List.filterMap_cons, labelOf] using h
          · split
            · simpa [labels, List.filterMap_cons, labelOf] using h
            · simpa [labels, List.filterMap_cons, labelOf] using h
    · simp only [test, cls, Bool.and_eq_true] at ht
      simp only [good, cls, Bool.and_eq_true]
      exact ht.1
  | .call f ret args => by
    refine lab_good (fun hg g => ?_) (fun ht => ?_)
    · have h := labA isLocal args hg g
      simp only [emitE]
      cases ret with
      | none => simpa [labels_append, labels, List.filterMap_cons, labelOf] using h
      | some t => simpa [labels_append, labels, List.filterMap_cons, labelOf, Gen.answer] using h
    · simp only [test, cls, Bool.and_eq_true] at ht
      simp only [good, cls]
      exact ht.1

theorem labA (isLocal : Nat → Bool) : ∀ args : Args, clsA args = true → ∀ g, Ran g.label (emitA isLocal args g).2.2.label (labels (emitA isLocal args g).1)
  | .nil, _, g => Ran.nil _ _
  | .cons e rest, h, g => by
    simp only [clsA, Bool.and_eq_true] at h
    simp only [emitA, labels_append]
    have h1 := (labE isLocal e).1 h.1 { g with loc := .free }
    have g1 := (growE isLocal e { g with loc := .free }).label
    generalize emitE isLocal e { g with loc := .free } = x at *
    exact h1.append (labA isLocal rest h.2 x.2) g1 (Nat.le_refl _) (growA isLocal rest x.2).label
end

/-! ## Statements -/

theorem storeV_labels (ty : Ty) (id : Nat) (g : Gen) : labels (storeV ty id g).1 = [] := by
  unfold storeV
  split <;> rfl

theorem retOf_labels (ty : Option Ty) (g : Gen) : labels (retOf ty g).1 = [] := by
  unfold retOf
  split
  · split <;> rfl
  · rfl
  · rfl

theorem restoreOf_labels (k : Option Nat) (g : Gen) : labels (restoreOf k g).1 = [] ∧ (restoreOf k g).2.label = g.label := by
  unfold restoreOf
  split <;> exact ⟨rfl, rfl⟩

theorem labD (isLocal : Nat → Bool) : ∀ (l : List (Nat × Ty × Option Exp)), okD l = true → ∀ g : Gen, Ran g.label (emitD isLocal l g).2.label (labels (emitD isLocal l g).1)
  | [], _, g => Ran.nil _ _
  | (id, ty, none) :: l, h, g => by
    simp only [okD, Bool.and_eq_true] at h
    have := labD isLocal l h.2 g
    simpa [emitD, emitV, labels, List.filterMap_cons, labelOf] using this
  | (id, ty, some e) :: l, h, g => by
    simp only [okD, Bool.and_eq_true] at h
    simp only [emitD, emitV, then_fst, then_snd, labels_append, storeV_labels, storeV_snd, List.append_nil]
    have h1 := (labE isLocal e).1 h.1.1.1.2 { g with loc := .free }
    have g1 := (growE isLocal e { g with loc := .free }).label
    generalize emitE isLocal e { g with loc := .free } = x at *
    exact h1.append (labD isLocal l h.2 x.2) g1 (Nat.le_refl _) (growD isLocal l x.2).label

theorem stepOf_labels (isLocal : Nat → Bool) (e : Option Exp) (h : e.all good = true) (g : Gen) : Ran g.label (stepOf isLocal e g).2.label (labels (stepOf isLocal e g).1) := by
  cases e with
  | none => exact Ran.nil _ _
  | some e => exact (labE isLocal e).1 (by simpa using h) g

mutual
theorem labS (isLocal : Nat → Bool) (main : Bool) : ∀ st : Stmt, okS main st = true → ∀ g : Gen, Ran g.label (emitS isLocal st g).2.label (labels (emitS isLocal st g).1)
  | .skip, _, g => Ran.nil _ _
  | .expr e, h, g => (labE isLocal e).1 h g
  | .decls l, h, g => labD isLocal l h g
  | .break_, _, g => Ran.nil _ _
  | .if_ c a, h, g => by
    simp only [okS, Bool.and_eq_true] at h
    simp only [emitS, then_fst, then_snd, labels_append, check_labels, List.nil_append]
    generalize hg0 : ({ g with label := g.label + 3, lt := g.label, lf := g.label + 1, loc := .free } : Gen) = g0
    have e1 : g0.label = g.label + 3 := by rw [← hg0]
    have hl := (labE isLocal c).2 h.1 g0 (by rw [← hg0]; exact fun h => by cases h)
    have gl := (growE isLocal c g0).label
    generalize emitE isLocal c g0 = x at *
    have gc := (grow_check c.ty x.2).label
    generalize check c.ty x.2 = y at *
    have ha := labS isLocal main a h.2 y.2
    have ga := (growS isLocal main a h.2 y.2).1.label
    generalize emitS isLocal a y.2 = z at *
    intro n
    have a1 := hl n
    have a2 := ha n
    simp only [labels_label, labels, List.filterMap_nil, List.filterMap_cons, labelOf, List.count_append, List.count_cons, List.count_nil, beq_iff_eq] at *
    grind
  | .ifElse c a b, h, g => by
    simp only [okS, Bool.and_eq_true] at h
    simp only [emitS, then_fst, then_snd, labels_append, check_labels, List.nil_append]
    generalize hg0 : ({ g with label := g.label + 3, lt := g.label, lf := g.label + 1, loc := .free } : Gen) = g0
    have e1 : g0.label = g.label + 3 := by rw [← hg0]
    have hl := (labE isLocal c).2 h.1.1 g0 (by rw [← hg0]; exact fun h => by cases h)
    have gl := (growE isLocal c g0).label
    generalize emitE isLocal c g0 = x at *
    have gc := (grow_check c.ty x.2).label
    generalize check c.ty x.2 = y at *
    have ha := labS isLocal main a h.1.2 y.2
    have ga := (growS isLocal main a h.1.2 y.2).1.label
    generalize emitS isLocal a y.2 = z at *
    have hb := labS isLocal main b h.2 z.2
    have gb := (growS isLocal main b h.2 z.2).1.label
    generalize emitS isLocal b z.2 = u at *
    intro n
    have a1 := hl n
    have a2 := ha n
    have a3 := hb n
    simp only [labels_label, labels, List.filterMap_nil, List.filterMap_cons, labelOf, List.count_append, List.count_cons, List.count_nil, beq_iff_eq] at *
    grind
  | .while_ c b, h, g => by
    simp only [okS, Bool.and_eq_true] at h
    simp only [emitS, then_fst, then_snd, labels_append, check_labels, List.nil_append]
    generalize hg0 : ({ g with label := g.label + 3, lt := g.label + 1, lf := g.label + 2, lb := g.label + 2, lc := g.label + 1, loc := .free } : Gen) = g0
    have e1 : g0.label = g.label + 3 := by rw [← hg0]
    have hl := (labE isLocal c).2 h.1 g0 (by rw [← hg0]; exact fun h => by cases h)
    have gl := (growE isLocal c g0).label
    generalize emitE isLocal c g0 = x at *
    have gc := (grow_check c.ty x.2).label
    generalize check c.ty x.2 = y at *
    have ha := labS isLocal main b h.2 y.2
    have ga := (growS isLocal main b h.2 y.2).1.label
    generalize emitS isLocal b y.2 = z at *
    intro n
    have a1 := hl n
    have a2 := ha n
    simp only [labels_label, labels, List.filterMap_nil, List.filterMap_cons, labelOf, List.count_append, List.count_cons, List.count_nil, beq_iff_eq] at *
    grind
  | .do_ b c, h, g => by
    simp only [okS, Bool.and_eq_true] at h
    simp only [emitS, then_fst, then_snd, labels_append, check_labels, List.nil_append]
    generalize hg0 : ({ g with label := g.label + 2, lt := g.label, lf := g.label + 1, lb := g.label + 1, lc := g.label } : Gen) = g0
    have e1 : g0.label = g.label + 2 := by rw [← hg0]
    have ha := labS isLocal main b h.1.1 g0
    have ga := (growS isLocal main b h.1.1 g0).1.label
    generalize emitS isLocal b g0 = z at *
    have hl := (labE isLocal c).2 h.1.2 { z.2 with loc := .free } (fun h => by cases h)
    have gl := (growE isLocal c { z.2 with loc := .free }).label
    generalize emitE isLocal c { z.2 with loc := .free } = x at *
    have gc := (grow_check c.ty x.2).label
    generalize check c.ty x.2 = y at *
    intro n
    have a1 := hl n
    have a2 := ha n
    simp only [labels_label, labels, List.filterMap_nil, List.filterMap_cons, labelOf, List.count_append, List.count_cons, List.count_nil, beq_iff_eq] at *
    grind
  | .for_ i c inc b, h, g => by
    simp only [okS, Bool.and_eq_true] at h
    simp only [emitS, then_fst, then_snd, labels_append]
    generalize hg0 : ({ g with label := g.label + 4, lt := g.label + 1, lf := g.label + 3, lb := g.label + 3, lc := g.label + 1 } : Gen) = g0
    have e1 : g0.label = g.label + 4 := by rw [← hg0]
    have hi := labS isLocal main i h.1.1.1.2 g0
    have gi := (growS isLocal main i h.1.1.1.2 g0).1.label
    generalize emitS isLocal i g0 = xi at *
    cases c with
    | some c =>
      have hf := h.1.2
      simp only [okFor, Bool.and_eq_true] at hf
      simp only [testOf, then_fst, then_snd, labels_append, check_labels]
      have hl := (labE isLocal c).2 hf.1 { xi.2 with loc := .free } (fun h => by cases h)
      have gl := (growE isLocal c { xi.2 with loc := .free }).label
      generalize emitE isLocal c { xi.2 with loc := .free } = x at *
      have gc := (grow_check c.ty x.2).label
      generalize check c.ty x.2 = y at *
      have hs := stepOf_labels isLocal inc hf.2 y.2
      have gs := (grow_stepOf isLocal inc y.2).label
      generalize stepOf isLocal inc y.2 = w at *
      have ha := labS isLocal main b h.2 w.2
      have ga := (growS isLocal main b h.2 w.2).1.label
      generalize emitS isLocal b w.2 = z at *
      intro n
      have a1 := hi n
      have a2 := hl n
      have a3 := hs n
      have a4 := ha n
      simp only [labels_label, labels, List.filterMap_nil, List.filterMap_cons, labelOf, List.count_append, List.count_cons, List.count_nil, beq_iff_eq] at *
      grind
    | none =>
      have hf := h.1.2
      simp only [okFor, Option.isNone_iff_eq_none] at hf
      subst hf
      simp only [testOf, stepOf, quiet_fst, quiet_snd]
      have ha := labS isLocal main b h.2 xi.2
      have ga := (growS isLocal main b h.2 xi.2).1.label
      generalize emitS isLocal b xi.2 = z at *
      intro n
      have a1 := hi n
      have a4 := ha n
      simp only [labels_label, labels, List.filterMap_nil, List.filterMap_cons, labelOf, List.count_append, List.count_cons, List.count_nil, beq_iff_eq] at *
      grind
  | .block b, h, g => by
    have := labB isLocal main b h (some g.block) { g with block := g.block + 1, reg := g.reg + 1 }
    simpa [emitS, labels, List.filterMap_cons, labelOf] using this
  | .return_ e, h, g => by
    simp only [okS, Bool.and_eq_true] at h
    simp only [emitS]
    split
    · exact Ran.nil _ _
    · cases e with
      | none => exact Ran.nil _ _
      | some e =>
        simp only [okRet, Bool.and_eq_true] at h
        have := (labE isLocal e).1 h.2.1 { g with loc := .reg }
        simpa [labels_append, retOf_labels, retOf_snd] using this

theorem labB (isLocal : Nat → Bool) (main : Bool) : ∀ b : Stmts, okB main b = true → ∀ (k : Option Nat) (g : Gen), Ran g.label (emitB isLocal k b g).2.label (labels (emitB isLocal k b g).1)
  | .nil, _, k, g => Ran.nil _ _
  | .cons st .nil, h, k, g => by
    simp only [okB, Bool.and_eq_true] at h
    have := labS isLocal main st h.1 g
    simpa [emitB, not_case h.1, labels_append, restoreOf_labels] using this
  | .cons st (.cons st' b), h, k, g => by
    have h' : okS main st = true ∧ okB main (.cons st' b) = true := by
      rw [okB] at h
      simpa only [Bool.and_eq_true] using h
    rw [emitB_cons]
    simp only [then_fst, then_snd, labels_append]
    have h1 := labS isLocal main st h'.1 g
    have g1 := (growS isLocal main st h'.1 g).1.label
    generalize emitS isLocal st g = x at *
    exact h1.append (labB isLocal main (.cons st' b) h'.2 k x.2) g1 (Nat.le_refl _) (growB isLocal main (.cons st' b) h'.2 k x.2).1.label
end

end RuC.Llvm
