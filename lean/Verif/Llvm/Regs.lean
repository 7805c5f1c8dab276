import Verif.Llvm.Unit

/-!
# Lemmas: the registers of a text
-/

namespace RuC.Llvm

/-- The registers set by a text are new. -/
def RegOut (n : Nat) (x : Out) : Prop := n ≤ x.2.reg ∧ Ran n x.2.reg (x.1.flatMap defs)

theorem RegOut.then {n : Nat} {x : Out} {f : Gen → Out} (h : RegOut n x) (k : RegOut x.2.reg (f x.2)) : RegOut n (x.then f) := by
  refine ⟨Nat.le_trans h.1 k.1, ?_⟩
  simp only [then_fst, then_snd, List.flatMap_append]
  exact h.2.append k.2 h.1 (Nat.le_refl _) k.1

theorem RegOut.none {n : Nat} {x : Out} (h : x.1.flatMap defs = []) (hr : n ≤ x.2.reg) : RegOut n x := ⟨hr, by rw [h]; exact Ran.nil _ _⟩

theorem RegOut.one {n : Nat} {x : Out} (h : x.1.flatMap defs = [n]) (hr : n + 1 ≤ x.2.reg) : RegOut n x := by
  refine ⟨by omega, ?_⟩
  rw [h]
  intro m
  simp only [List.count_cons, List.count_nil, beq_iff_eq]
  split <;> split <;> omega

theorem RegOut.two {n : Nat} {x : Out} (h : x.1.flatMap defs = [n, n + 1]) (hr : n + 2 ≤ x.2.reg) : RegOut n x := by
  refine ⟨by omega, ?_⟩
  rw [h]
  intro m
  simp only [List.count_cons, List.count_nil, beq_iff_eq]
  split <;> split <;> split <;> omega

theorem RegOut.quiet (g : Gen) : RegOut g.reg (quiet g) := .none rfl (Nat.le_refl _)

theorem reg_check (ty : Option Ty) (g : Gen) : RegOut g.reg (check ty g) := by
  unfold check
  split
  · split
    · exact .none rfl (Nat.le_refl _)
    · split
      · exact .none rfl (Nat.le_refl _)
      · exact .none rfl (Nat.le_refl _)
  · have hb : ∀ i : Instr, (i = if g.loc = .nolog then .br g.lf else .cbr g.reg g.lt g.lf) → defs i = [] := by
      rintro i rfl; split <;> rfl
    by_cases h1 : ty = some .int
    · refine .one ?_ (Nat.le_refl _)
      by_cases h3 : g.loc = .nolog <;> simp [h1, h3, defs]
    · by_cases h2 : ty = some .bool
      · refine .one ?_ (Nat.le_refl _)
        by_cases h3 : g.loc = .nolog <;> simp [h2, h3, defs]
      · refine .none ?_ (Nat.le_succ _)
        simp [h1, h2, hb _ rfl]
  · refine .none ?_ (Nat.le_refl _)
    split <;> rfl
  · exact .none rfl (Nat.le_refl _)

theorem reg_integral (mk : Opd → Opd → Instr) (n : Nat) (hmk : ∀ a b, defs (mk a b) = [n]) (ty : Option Ty) (ka : Kind) (a : Nat) (ca : Int) (kb : Kind) (b : Nat) (cb : Int) (g : Gen)
    (hg : n + 1 ≤ g.reg) : RegOut n (integral mk ty n ka a ca kb b cb, g) := by
  have hi : ∀ x y, (([if ty = some .int then mk x y else .float n] : List Instr)).flatMap defs = [n] := by
    intro x y
    split
    · simp [hmk]
    · rfl
  unfold integral
  split
  · exact .one (hi _ _) hg
  · exact .one (hi _ _) hg
  · exact .one (hi _ _) hg
  · exact .none rfl (by simp only; omega)

mutual
theorem regE (isLocal : Nat → Bool) : ∀ (e : Exp) (g : Gen), RegOut g.reg (emitE isLocal e g)
  | .int v, g => .none rfl (Nat.le_refl _)
  | .bool v, g => .none rfl (Nat.le_refl _)
  | .str v, g => .none rfl (Nat.le_refl _)
  | .ident id ty, g => .one rfl (Nat.le_refl _)
  | .inc op id, g => .two rfl (Nat.le_refl _)
  | .un op e, g => by
    simp only [emitE]
    refine (regE isLocal e { g with loc := if op = .abs then .free else .reg }).then ?_
    exact .one (by cases op <;> rfl) (Nat.le_refl _)
  | .not e, g => by
    simp only [emitE]
    refine (regE isLocal e { g with lt := g.lf, lf := g.lt }).then ?_
    generalize (emitE isLocal e _).2 = g1
    split
    · have h : RegOut g1.reg (if e.ty = some .int then check e.ty g1 else quiet g1) := by
        split
        · exact reg_check _ _
        · exact .quiet _
      exact h.then (.one rfl (Nat.le_refl _))
    · exact .quiet _
  | .arith op l r, g => by
    simp only [emitE]
    refine (regE isLocal l { g with loc := .free }).then ?_
    generalize (emitE isLocal l { g with loc := .free }).2 = g1
    refine (regE isLocal r { g1 with loc := .free }).then ?_
    exact reg_integral _ _ (fun _ _ => rfl) _ _ _ _ _ _ _ _ (Nat.le_refl _)
  | .cmp op l r, g => by
    simp only [emitE]
    refine (regE isLocal l { g with loc := .free }).then ?_
    generalize (emitE isLocal l { g with loc := .free }).2 = g1
    refine (regE isLocal r { g1 with loc := .free }).then ?_
    exact reg_integral _ _ (fun _ _ => rfl) _ _ _ _ _ _ _ _ (Nat.le_refl _)
  | .logic isOr l r, g => by
    simp only [emitE]
    split
    · refine (regE isLocal l { g with label := g.label + 1, loc := .free, lt := if isOr then g.lt else g.label, lf := if isOr then g.label else g.lf }).then ?_
      generalize (emitE isLocal l _).2 = g1
      refine (reg_check l.ty { g1 with loc := .free }).then ?_
      generalize (check l.ty _).2 = g2
      refine RegOut.then (.none rfl (Nat.le_refl _)) ?_
      refine (regE isLocal r { g2 with lt := g.lt, lf := g.lf, loc := .free }).then ?_
      generalize (emitE isLocal r _).2 = g3
      refine (reg_check r.ty { g3 with loc := .free }).then ?_
      exact .none rfl (Nat.le_refl _)
    · refine (regE isLocal l { g with label := g.label + 3, lt := if isOr then g.label + 1 else g.label + 2, lf := if isOr then g.label + 2 else g.label + 1 }).then ?_
      generalize (emitE isLocal l _).2 = g1
      refine (reg_check l.ty { g1 with loc := .free, lt := if isOr then g.label + 1 else g.label + 2, lf := if isOr then g.label + 2 else g.label + 1 }).then ?_
      generalize (check l.ty _).2 = g2
      refine RegOut.then (.none rfl (Nat.le_refl _)) ?_
      refine (regE isLocal r { g2 with lt := g.label, lf := g.label + 1, loc := .nolog }).then ?_
      generalize (emitE isLocal r _).2 = g3
      refine (reg_check r.ty { g3 with loc := .nolog }).then ?_
      exact .one rfl (Nat.le_refl _)
  | .comma l r, g => (regE isLocal l g).then (regE isLocal r _)
  | .ternary c a b, g => by
    simp only [emitE]
    refine (regE isLocal c { g with label := g.label + 3, lt := g.label, lf := g.label + 1, loc := .free }).then ?_
    generalize (emitE isLocal c _).2 = g1
    refine (reg_check c.ty g1).then ?_
    generalize (check c.ty _).2 = g2
    refine RegOut.then (.none rfl (Nat.le_refl _)) ?_
    refine (regE isLocal a { g2 with loc := .free }).then ?_
    generalize (emitE isLocal a _).2 = g3
    refine RegOut.then (.none rfl (Nat.le_refl _)) ?_
    refine (regE isLocal b { g3 with loc := .free }).then ?_
    exact .one rfl (Nat.le_refl _)
  | .assign op id ty e, g => by
    simp only [emitE]
    refine (regE isLocal e { g with loc := .nolog }).then ?_
    generalize (emitE isLocal e _).2 = g1
    cases op with
    | some op => exact .two rfl (Nat.le_refl _)
    | none =>
      simp only
      split
      · exact .none rfl (Nat.le_refl _)
      · split
        · exact .none rfl (Nat.le_refl _)
        · split
          · exact .none rfl (Nat.le_refl _)
          · exact .none rfl (Nat.le_refl _)
  | .call f ret args, g => by
    have h := regA isLocal args g
    simp only [emitE]
    generalize emitA isLocal args g = x at *
    cases ret with
    | none => exact RegOut.then (x := (x.1, x.2.2)) (f := fun g => ([.call none f x.2.1], g)) h (.none rfl (Nat.le_refl _))
    | some t => exact RegOut.then (x := (x.1, x.2.2)) (f := fun g => ([.call (some g.reg) f x.2.1], g.answer)) h (.one rfl (Nat.le_refl _))

theorem regA (isLocal : Nat → Bool) : ∀ (args : Args) (g : Gen), RegOut g.reg ((emitA isLocal args g).1, (emitA isLocal args g).2.2)
  | .nil, g => .none rfl (Nat.le_refl _)
  | .cons e rest, g => by
    have h := regE isLocal e { g with loc := .free }
    simp only [emitA]
    exact RegOut.then (f := fun g => ((emitA isLocal rest g).1, (emitA isLocal rest g).2.2)) h (regA isLocal rest _)
end

theorem regD (isLocal : Nat → Bool) : ∀ (l : List (Nat × Ty × Option Exp)) (g : Gen), RegOut g.reg (emitD isLocal l g)
  | [], g => .quiet g
  | (id, ty, none) :: l, g => RegOut.then (.none rfl (Nat.le_refl _)) (regD isLocal l _)
  | (id, ty, some e) :: l, g => by
    simp only [emitD, emitV]
    refine RegOut.then ?_ (regD isLocal l _)
    refine RegOut.then (.none rfl (Nat.le_refl _)) ?_
    refine (regE isLocal e { g with loc := .free }).then ?_
    generalize (emitE isLocal e _).2 = g1
    unfold storeV
    split
    · exact .none rfl (Nat.le_refl _)
    · exact .none rfl (Nat.le_refl _)
    · exact .none rfl (Nat.le_refl _)

theorem regC (isLocal : Nat → Bool) : ∀ (b : Stmts) (g : Gen), RegOut g.reg ((cases isLocal b g).1, (cases isLocal b g).2.2.2)
  | .nil, g => .quiet g
  | .cons (.case_ v _) rest, g => by
    simp only [cases]
    exact RegOut.then (f := fun g => ((cases isLocal rest g).1, (cases isLocal rest g).2.2.2)) (regE isLocal v g) (regC isLocal rest _)
  | .cons (.default_ _) rest, g => by simp only [cases]; exact regC isLocal rest g
  | .cons .skip rest, g => by simp only [cases]; exact regC isLocal rest g
  | .cons (.expr _) rest, g => by simp only [cases]; exact regC isLocal rest g
  | .cons (.decls _) rest, g => by simp only [cases]; exact regC isLocal rest g
  | .cons (.if_ ..) rest, g => by simp only [cases]; exact regC isLocal rest g
  | .cons (.ifElse ..) rest, g => by simp only [cases]; exact regC isLocal rest g
  | .cons (.while_ ..) rest, g => by simp only [cases]; exact regC isLocal rest g
  | .cons (.do_ ..) rest, g => by simp only [cases]; exact regC isLocal rest g
  | .cons (.for_ ..) rest, g => by simp only [cases]; exact regC isLocal rest g
  | .cons (.block ..) rest, g => by simp only [cases]; exact regC isLocal rest g
  | .cons (.switch_ ..) rest, g => by simp only [cases]; exact regC isLocal rest g
  | .cons .break_ rest, g => by simp only [cases]; exact regC isLocal rest g
  | .cons .continue_ rest, g => by simp only [cases]; exact regC isLocal rest g
  | .cons (.return_ ..) rest, g => by simp only [cases]; exact regC isLocal rest g

theorem reg_restoreOf (k : Option Nat) (g : Gen) : RegOut g.reg (restoreOf k g) := by
  cases k with
  | none => exact .quiet g
  | some k => exact .one rfl (Nat.le_refl _)

mutual
theorem regS (isLocal : Nat → Bool) : ∀ (st : Stmt) (g : Gen), RegOut g.reg (emitS isLocal st g)
  | .skip, g => by simp only [emitS]; exact .quiet g
  | .expr e, g => by simp only [emitS]; exact regE isLocal e g
  | .decls l, g => by simp only [emitS]; exact regD isLocal l g
  | .if_ c a, g => by
    simp only [emitS]
    refine (regE isLocal c { g with label := g.label + 3, lt := g.label, lf := g.label + 1, loc := .free }).then ?_
    generalize (emitE isLocal c _).2 = g1
    refine (reg_check c.ty g1).then ?_
    generalize (check c.ty _).2 = g2
    refine RegOut.then (.none rfl (Nat.le_refl _)) ?_
    refine (regS isLocal a _).then ?_
    exact .none rfl (Nat.le_refl _)
  | .ifElse c a b, g => by
    simp only [emitS]
    refine (regE isLocal c { g with label := g.label + 3, lt := g.label, lf := g.label + 1, loc := .free }).then ?_
    generalize (emitE isLocal c _).2 = g1
    refine (reg_check c.ty g1).then ?_
    generalize (check c.ty _).2 = g2
    refine RegOut.then (.none rfl (Nat.le_refl _)) ?_
    refine (regS isLocal a _).then ?_
    refine RegOut.then (.none rfl (Nat.le_refl _)) ?_
    refine (regS isLocal b _).then ?_
    exact .none rfl (Nat.le_refl _)
  | .while_ c b, g => by
    simp only [emitS]
    refine RegOut.then (.none rfl (Nat.le_refl _)) ?_
    refine (regE isLocal c _).then ?_
    refine (reg_check c.ty _).then ?_
    refine RegOut.then (.none rfl (Nat.le_refl _)) ?_
    refine (regS isLocal b _).then ?_
    exact .none rfl (Nat.le_refl _)
  | .do_ b c, g => by
    simp only [emitS]
    refine RegOut.then (.none rfl (Nat.le_refl _)) ?_
    refine (regS isLocal b _).then ?_
    generalize (emitS isLocal b _).2 = g1
    refine (regE isLocal c { g1 with loc := .free }).then ?_
    refine (reg_check c.ty _).then ?_
    exact .none rfl (Nat.le_refl _)
  | .for_ i c inc b, g => by
    simp only [emitS]
    refine (regS isLocal i { g with label := g.label + 4, lt := g.label + 1, lf := g.label + 3, lb := g.label + 3, lc := g.label + 1 }).then ?_
    generalize (emitS isLocal i _).2 = g1
    have ht : RegOut g1.reg (testOf isLocal g.label (g.label + 2) c g1) := by
      cases c with
      | none => exact .none rfl (Nat.le_refl _)
      | some c => exact RegOut.then (.none rfl (Nat.le_refl _)) ((regE isLocal c _).then (reg_check c.ty _))
    refine ht.then ?_
    generalize (testOf isLocal _ _ c g1).2 = g2
    refine RegOut.then (.none rfl (Nat.le_refl _)) ?_
    have hs : RegOut g2.reg (stepOf isLocal inc g2) := by
      cases inc with
      | none => exact .quiet _
      | some e => exact regE isLocal e _
    refine hs.then ?_
    refine RegOut.then (.none rfl (Nat.le_refl _)) ?_
    refine (regS isLocal b _).then ?_
    exact .none rfl (Nat.le_refl _)
  | .block b, g => by
    simp only [emitS]
    exact RegOut.then (.one rfl (Nat.le_refl _)) (regB isLocal (some g.block) b _)
  | .switch_ e b, g => by
    simp only [emitS]
    refine (regE isLocal e g).then ?_
    generalize (emitE isLocal e g).2 = g1
    refine RegOut.then ?_ ((regB isLocal none b _).then (.none rfl (Nat.le_refl _)))
    have h := regC isLocal b g1
    exact ⟨h.1, by simpa [defs] using h.2⟩
  | .case_ v b, g => by simp only [emitS]; exact RegOut.then (.none rfl (Nat.le_refl _)) (regS isLocal b _)
  | .default_ b, g => by simp only [emitS]; exact RegOut.then (.none rfl (Nat.le_refl _)) (regS isLocal b _)
  | .break_, g => .none rfl (Nat.le_refl _)
  | .continue_, g => .none rfl (Nat.le_refl _)
  | .return_ e, g => by
    simp only [emitS]
    split
    · exact .quiet g
    · cases e with
      | none => exact .none rfl (Nat.le_refl _)
      | some e =>
        simp only
        refine (regE isLocal e { g with loc := .reg }).then ?_
        generalize (emitE isLocal e _).2 = g1
        unfold retOf
        split
        · split
          · exact .none rfl (Nat.le_refl _)
          · exact .quiet _
        · exact .none rfl (Nat.le_refl _)
        · exact .quiet _

theorem regB (isLocal : Nat → Bool) (k : Option Nat) : ∀ (b : Stmts) (g : Gen), RegOut g.reg (emitB isLocal k b g)
  | .nil, g => by simp only [emitB]; exact .quiet g
  | .cons st .nil, g => by
    simp only [emitB]
    refine (regS isLocal st g).then ?_
    refine (reg_restoreOf k _).then ?_
    split
    · exact .none rfl (Nat.le_refl _)
    · exact .quiet _
  | .cons st (.cons st' b), g => by
    rw [emitB_cons]
    exact (regS isLocal st g).then (regB isLocal k (.cons st' b) _)
end

theorem regF (isLocal : Nat → Bool) (main : Bool) (f : Func) (g : Gen) : RegOut g.reg (emitF isLocal main f g) := by
  have hp : ∀ (ps : List (Nat × Ty)) (i : Nat), (emitP i ps).flatMap defs = [] := by
    intro ps
    induction ps with
    | nil => intro i; rfl
    | cons p ps ih => intro i; simp [emitP, defs, ih]
  simp only [emitF]
  refine RegOut.then (.none (hp _ _) (Nat.le_refl _)) ?_
  refine (regB isLocal none f.body _).then ?_
  split
  · exact .none rfl (Nat.le_refl _)
  · split
    · exact .none rfl (Nat.le_refl _)
    · exact .none rfl (Nat.le_refl _)

theorem regU (isLocal : Nat → Bool) (main : Nat) : ∀ (fs : List Func) (g : Gen), ∃ n, g.reg ≤ n ∧ Ran g.reg n ((emitU isLocal main fs g).flatMap fun d => d.2.flatMap defs)
  | [], g => ⟨g.reg, Nat.le_refl _, Ran.nil _ _⟩
  | f :: fs, g => by
    have h := regF isLocal (f.id == main) f g
    obtain ⟨n, h1, h2⟩ := regU isLocal main fs (emitF isLocal (f.id == main) f g).2
    refine ⟨n, Nat.le_trans h.1 h1, ?_⟩
    simp only [emitU, List.flatMap_cons]
    exact h.2.append h2 h.1 (Nat.le_refl _) h1

end RuC.Llvm
