import Verif.LlvmText.Lemmas
import Verif.Llvm.Unit

/-! Helper lemmas: what the generator makes can be printed. -/

namespace RuC.LlvmText
open RuC RuC.Llvm

/-- All instructions can be printed. -/
def All (name : Nat → List Nat) (ref : List Nat → Option Nat) (x : List Instr) : Prop := ∀ i ∈ x, Printable name ref i

/-- The functions that are known by their names. -/
def Known (name : Nat → List Nat) (ref : List Nat → Option Nat) (f : Nat) : Prop := NameOk (name f) ∧ ref (name f) = some f

variable {name : Nat → List Nat} {ref : List Nat → Option Nat}

theorem all_nil : All name ref [] := by intro i hi; simp at hi

theorem all_cons {i : Instr} {l : List Instr} (h : Printable name ref i) (k : All name ref l) : All name ref (i :: l) := by
  intro j hj
  rcases List.mem_cons.1 hj with rfl | hj
  · exact h
  · exact k j hj

theorem all_append {a b : List Instr} (h : All name ref a) (k : All name ref b) : All name ref (a ++ b) := by
  intro j hj
  rcases List.mem_append.1 hj with hj | hj
  · exact h j hj
  · exact k j hj

theorem all_then {x : Out} {f : Gen → Out} (h : All name ref x.1) (k : All name ref (f x.2).1) : All name ref (x.then f).1 :=
  all_append h k

theorem all_check (ty : Option Ty) (g : Gen) : All name ref (check ty g).1 := by
  have hb : ∀ r : Nat, Printable name ref (if g.loc = .nolog then .br g.lf else .cbr r g.lt g.lf) := by
    intro r; split <;> trivial
  unfold check
  split
  · split
    · exact all_cons trivial all_nil
    · split
      · exact all_cons trivial all_nil
      · exact all_nil
  · refine all_append ?_ (all_cons (hb _) all_nil)
    split
    · exact all_cons ⟨trivial, trivial⟩ all_nil
    · split
      · exact all_cons ⟨trivial, trivial⟩ all_nil
      · exact all_nil
  · exact all_cons (hb _) all_nil
  · exact all_nil

theorem all_integral {mk : Opd → Opd → Instr} (hmk : ∀ a b, Value a → Value b → Printable name ref (mk a b)) {ty : Option Ty} (ht : ty = some .int)
    (n : Nat) (ka : Kind) (a : Nat) (ca : Int) (kb : Kind) (b : Nat) (cb : Int) : All name ref (integral mk ty n ka a ca kb b cb) := by
  unfold integral
  split
  · rw [if_pos ht]; exact all_cons (hmk _ _ trivial trivial) all_nil
  · rw [if_pos ht]; exact all_cons (hmk _ _ trivial trivial) all_nil
  · rw [if_pos ht]; exact all_cons (hmk _ _ trivial trivial) all_nil
  · exact all_nil

theorem value_if (b : Bool) (r : Nat) (v : Int) : Value (if b then .reg r else .int v) := by cases b <;> trivial

theorem value_ite {p : Prop} [Decidable p] {a b : Opd} (ha : Value a) (hb : Value b) : Value (if p then a else b) := by
  split
  · exact ha
  · exact hb

theorem check_kind (ty : Option Ty) (g : Gen) : (check ty g).2.kind = g.kind := by
  unfold check
  split <;> rename_i h
  · split
    · rfl
    · split <;> rfl
  · rfl
  · rfl
  · rfl

/-- A value is not left as a string. -/
theorem valued_kind (isLocal : Nat → Bool) : ∀ (e : Exp) (g : Gen), valued e = true → (emitE isLocal e g).2.kind ≠ .str
  | .int v, g, _ => by simp [emitE]
  | .bool v, g, _ => by simp [emitE]
  | .str v, g, h => by simp [valued] at h
  | .ident id ty, g, _ => by simp [emitE, Gen.answer]
  | .inc op id, g, _ => by simp [emitE]
  | .un op e, g, _ => by simp [emitE, Out.then, Gen.answer]
  | .not e, g, h => by
    have ih := valued_kind isLocal e { g with lt := g.lf, lf := g.lt } h
    simp only [emitE, then_snd]
    generalize (emitE isLocal e _).2 = g1 at *
    split
    · rename_i hk
      simp only [then_snd]
      split
      · rw [check_kind, hk]; decide
      · rw [show (quiet g1).2 = g1 from rfl, hk]; decide
    · exact ih
  | .arith op l r, g, _ => by simp [emitE, Out.then, Gen.answer]
  | .cmp op l r, g, _ => by simp [emitE, Out.then, Gen.answer]
  | .logic isOr l r, g, _ => by
    simp only [emitE]
    split <;> simp [Out.then, Gen.answer]
  | .comma l r, g, h => by
    simp only [emitE, then_snd]
    exact valued_kind isLocal r _ h
  | .ternary c a b, g, _ => by simp [emitE, Out.then, Gen.answer]
  | .assign op id ty e, g, h => by
    simp only [emitE, then_snd]
    cases op with
    | some op => simp
    | none =>
      have ih := valued_kind isLocal e { g with loc := .nolog } h
      generalize (emitE isLocal e _).2 = g1 at *
      simp only
      split
      · simp
      · split
        · exact ih
        · split
          · exact ih
          · exact ih
  | .call f ret args, g, h => by
    simp only [emitE]
    cases ret with
    | none => simp [valued] at h
    | some t => simp [Gen.answer]

theorem arg_opd {e : Exp} {isLocal : Nat → Bool} (g : Gen) (h : literal e = true ∨ valued e = true) :
    Arg (e.ty.getD .int, (emitE isLocal e g).2.opd e.ty) := by
  rcases h with h | h
  · cases e <;> simp [literal] at h
    rfl
  · have hk := valued_kind isLocal e g h
    generalize (emitE isLocal e g).2 = g1 at *
    unfold Gen.opd
    split
    · trivial
    · trivial
    · rename_i hs; exact absurd hs hk
    · split <;> trivial

mutual
theorem allE (isLocal : Nat → Bool) : ∀ (e : Exp) (g : Gen), TextE (Known name ref) e → All name ref (emitE isLocal e g).1
  | .int v, g, _ => all_nil
  | .bool v, g, _ => all_nil
  | .str v, g, _ => all_nil
  | .ident id ty, g, _ => all_cons trivial all_nil
  | .inc op id, g, _ => all_cons trivial (all_cons ⟨trivial, trivial⟩ (all_cons trivial all_nil))
  | .un op e, g, h => by
    simp only [emitE]
    refine all_then (allE isLocal e _ h) (all_cons ?_ all_nil)
    cases op
    · exact ⟨trivial, trivial⟩
    · exact ⟨trivial, trivial⟩
    · trivial
  | .not e, g, h => by
    simp only [emitE]
    refine all_then (allE isLocal e _ h) ?_
    split
    · refine all_then ?_ (all_cons trivial all_nil)
      split
      · exact all_check _ _
      · exact all_nil
    · exact all_nil
  | .arith op l r, g, h => by
    simp only [emitE]
    exact all_then (allE isLocal l _ h.2.1) (all_then (allE isLocal r _ h.2.2) (by
      refine all_integral ?_ h.1 _ _ _ _ _ _ _
      intro a b ha hb
      exact ⟨ha, hb⟩))
  | .cmp op l r, g, h => by
    simp only [emitE]
    exact all_then (allE isLocal l _ h.2.1) (all_then (allE isLocal r _ h.2.2) (by
      refine all_integral ?_ h.1 _ _ _ _ _ _ _
      intro a b ha hb
      exact ⟨ha, hb⟩))
  | .logic isOr l r, g, h => by
    simp only [emitE]
    split
    · refine all_then (allE isLocal l _ h.1) (all_then (all_check _ _) (all_then (all_cons trivial all_nil) ?_))
      exact all_then (allE isLocal r _ h.2) (all_then (all_check _ _) all_nil)
    · refine all_then (allE isLocal l _ h.1) (all_then (all_check _ _) (all_then (all_cons trivial all_nil) ?_))
      exact all_then (allE isLocal r _ h.2) (all_then (all_check _ _) (all_cons trivial (all_cons ⟨trivial, trivial⟩ all_nil)))
  | .comma l r, g, h => all_then (allE isLocal l _ h.1) (allE isLocal r _ h.2)
  | .ternary c a b, g, h => by
    simp only [emitE]
    refine all_then (allE isLocal c _ h.1) (all_then (all_check _ _) (all_then (all_cons trivial all_nil) ?_))
    refine all_then (allE isLocal a _ h.2.1) (all_then (all_cons trivial (all_cons trivial all_nil)) ?_)
    exact all_then (allE isLocal b _ h.2.2) (all_cons trivial (all_cons trivial (all_cons
      ⟨value_ite trivial trivial, value_ite trivial trivial⟩ all_nil)))
  | .assign op id ty e, g, h => by
    simp only [emitE]
    refine all_then (allE isLocal e _ h) ?_
    cases op with
    | some op => exact all_cons trivial (all_cons ⟨trivial, value_ite trivial trivial⟩ (all_cons trivial all_nil))
    | none =>
      simp only
      split
      · exact all_cons trivial all_nil
      · split
        · exact all_cons trivial all_nil
        · split
          · exact all_cons trivial all_nil
          · exact all_nil
  | .call f ret args, g, h => by
    have hk : Known name ref f := h.1
    have ha := allA isLocal args g h.2
    simp only [emitE]
    cases ret with
    | none => exact all_append ha.1 (all_cons ⟨hk.1, hk.2, ha.2⟩ all_nil)
    | some t => exact all_append ha.1 (all_cons ⟨hk.1, hk.2, ha.2⟩ all_nil)

theorem allA (isLocal : Nat → Bool) : ∀ (args : Args) (g : Gen), TextA (Known name ref) args →
    All name ref (emitA isLocal args g).1 ∧ ∀ a ∈ (emitA isLocal args g).2.1, Arg a
  | .nil, g, _ => ⟨all_nil, by intro a ha; simp [emitA] at ha⟩
  | .cons e rest, g, h => by
    have h1 := allE isLocal e { g with loc := .free } h.2.1
    have h2 := allA isLocal rest (emitE isLocal e { g with loc := .free }).2 h.2.2
    simp only [emitA]
    refine ⟨all_append h1 h2.1, ?_⟩
    intro a ha
    rcases List.mem_cons.1 ha with rfl | ha
    · exact arg_opd _ h.1
    · exact h2.2 a ha
end

theorem allD (isLocal : Nat → Bool) : ∀ (l : List (Nat × Ty × Option Exp)) (g : Gen), (∀ d ∈ l, TextO (Known name ref) d.2.2) →
    All name ref (emitD isLocal l g).1
  | [], g, _ => all_nil
  | (id, ty, none) :: l, g, h => by
    simp only [emitD, emitV]
    exact all_then (all_cons trivial (all_cons (value_ite trivial trivial) all_nil)) (allD isLocal l _ fun d hd => h d (by simp [hd]))
  | (id, ty, some e) :: l, g, h => by
    simp only [emitD, emitV]
    refine all_then ?_ (allD isLocal l _ fun d hd => h d (by simp [hd]))
    refine all_then (all_cons trivial all_nil) (all_then (allE isLocal e _ (h (id, ty, some e) (by simp))) ?_)
    unfold storeV
    split
    · exact all_cons (value_ite trivial trivial) all_nil
    · exact all_cons trivial all_nil
    · exact all_nil

theorem allC (isLocal : Nat → Bool) : ∀ (b : Stmts) (g : Gen), TextB (Known name ref) b → All name ref (cases isLocal b g).1
  | .nil, g, _ => all_nil
  | .cons (.case_ v _) rest, g, h => by
    simp only [cases]
    exact all_append (allE isLocal v g h.1.1) (allC isLocal rest _ h.2)
  | .cons (.default_ _) rest, g, h => by simp only [cases]; exact allC isLocal rest g h.2
  | .cons .skip rest, g, h => by simp only [cases]; exact allC isLocal rest g h.2
  | .cons (.expr _) rest, g, h => by simp only [cases]; exact allC isLocal rest g h.2
  | .cons (.decls _) rest, g, h => by simp only [cases]; exact allC isLocal rest g h.2
  | .cons (.if_ ..) rest, g, h => by simp only [cases]; exact allC isLocal rest g h.2
  | .cons (.ifElse ..) rest, g, h => by simp only [cases]; exact allC isLocal rest g h.2
  | .cons (.while_ ..) rest, g, h => by simp only [cases]; exact allC isLocal rest g h.2
  | .cons (.do_ ..) rest, g, h => by simp only [cases]; exact allC isLocal rest g h.2
  | .cons (.for_ ..) rest, g, h => by simp only [cases]; exact allC isLocal rest g h.2
  | .cons (.block ..) rest, g, h => by simp only [cases]; exact allC isLocal rest g h.2
  | .cons (.switch_ ..) rest, g, h => by simp only [cases]; exact allC isLocal rest g h.2
  | .cons .break_ rest, g, h => by simp only [cases]; exact allC isLocal rest g h.2
  | .cons .continue_ rest, g, h => by simp only [cases]; exact allC isLocal rest g h.2
  | .cons (.return_ ..) rest, g, h => by simp only [cases]; exact allC isLocal rest g h.2

mutual
theorem allS (isLocal : Nat → Bool) : ∀ (st : Stmt) (g : Gen), TextS (Known name ref) st → All name ref (emitS isLocal st g).1
  | .skip, g, _ => by simp only [emitS]; exact all_nil
  | .expr e, g, h => by simp only [emitS]; exact allE isLocal e g h
  | .decls l, g, h => by simp only [emitS]; exact allD isLocal l g h
  | .if_ c a, g, h => by
    simp only [emitS]
    refine all_then (allE isLocal c _ h.1) (all_then (all_check _ _) (all_then (all_cons trivial all_nil) ?_))
    exact all_then (allS isLocal a _ h.2) (all_cons trivial (all_cons trivial (all_cons trivial (all_cons trivial all_nil))))
  | .ifElse c a b, g, h => by
    simp only [emitS]
    refine all_then (allE isLocal c _ h.1) (all_then (all_check _ _) (all_then (all_cons trivial all_nil) ?_))
    refine all_then (allS isLocal a _ h.2.1) (all_then (all_cons trivial (all_cons trivial all_nil)) ?_)
    exact all_then (allS isLocal b _ h.2.2) (all_cons trivial (all_cons trivial all_nil))
  | .while_ c b, g, h => by
    simp only [emitS]
    refine all_then (all_cons trivial (all_cons trivial all_nil)) (all_then (allE isLocal c _ h.1) (all_then (all_check _ _) ?_))
    exact all_then (all_cons trivial all_nil) (all_then (allS isLocal b _ h.2) (all_cons trivial (all_cons trivial all_nil)))
  | .do_ b c, g, h => by
    simp only [emitS]
    refine all_then (all_cons trivial (all_cons trivial all_nil)) (all_then (allS isLocal b _ h.1) ?_)
    exact all_then (allE isLocal c _ h.2) (all_then (all_check _ _) (all_cons trivial all_nil))
  | .for_ i c inc b, g, h => by
    simp only [emitS]
    refine all_then (allS isLocal i _ h.1) (all_then ?_ (all_then (all_cons trivial all_nil) (all_then ?_ (all_then
      (all_cons trivial (all_cons trivial all_nil)) (all_then (allS isLocal b _ h.2.2.2) (all_cons trivial (all_cons trivial all_nil)))))))
    · cases c with
      | none => exact all_cons trivial all_nil
      | some c => exact all_then (all_cons trivial (all_cons trivial all_nil)) (all_then (allE isLocal c _ h.2.1) (all_check _ _))
    · cases inc with
      | none => exact all_nil
      | some e => exact allE isLocal e _ h.2.2.1
  | .block b, g, h => by
    simp only [emitS]
    exact all_then (all_cons trivial all_nil) (allB isLocal (some g.block) b _ h)
  | .switch_ e b, g, h => by
    simp only [emitS]
    refine all_then (allE isLocal e _ h.1) (all_then (all_append (allC isLocal b _ h.2) (all_cons trivial all_nil)) ?_)
    exact all_then (allB isLocal none b _ h.2) (all_cons trivial all_nil)
  | .case_ v b, g, h => by simp only [emitS]; exact all_then (all_cons trivial (all_cons trivial all_nil)) (allS isLocal b _ h.2)
  | .default_ b, g, h => by simp only [emitS]; exact all_then (all_cons trivial (all_cons trivial all_nil)) (allS isLocal b _ h)
  | .break_, g, _ => by simp only [emitS]; exact all_cons trivial all_nil
  | .continue_, g, _ => by simp only [emitS]; exact all_cons trivial all_nil
  | .return_ e, g, h => by
    simp only [emitS]
    split
    · exact all_nil
    · cases e with
      | none => exact all_cons trivial all_nil
      | some e =>
        simp only
        refine all_then (allE isLocal e _ h) ?_
        unfold retOf
        split
        · split
          · exact all_cons trivial all_nil
          · exact all_nil
        · exact all_cons trivial all_nil
        · exact all_nil

theorem allB (isLocal : Nat → Bool) (k : Option Nat) : ∀ (b : Stmts) (g : Gen), TextB (Known name ref) b → All name ref (emitB isLocal k b g).1
  | .nil, g, _ => by simp only [emitB]; exact all_nil
  | .cons st .nil, g, h => by
    simp only [emitB]
    refine all_then (allS isLocal st g h.1) (all_then ?_ ?_)
    · cases k with
      | none => exact all_nil
      | some k => exact all_cons trivial all_nil
    · split
      · exact all_cons trivial all_nil
      · exact all_nil
  | .cons st (.cons st' b), g, h => by
    rw [emitB_cons]
    exact all_then (allS isLocal st g h.1) (allB isLocal k (.cons st' b) _ h.2)
end

theorem allF (isLocal : Nat → Bool) (main : Bool) (f : Func) (g : Gen) (h : TextB (Known name ref) f.body) :
    All name ref (emitF isLocal main f g).1 := by
  have hp : ∀ (ps : List (Nat × Ty)) (i : Nat), All name ref (emitP i ps) := by
    intro ps
    induction ps with
    | nil => intro i; exact all_nil
    | cons p ps ih => intro i; exact all_cons trivial (all_cons trivial (ih _))
  simp only [emitF]
  refine all_then (hp _ _) (all_then (allB isLocal none f.body _ h) ?_)
  split
  · exact all_cons trivial (all_cons trivial all_nil)
  · split
    · exact all_cons trivial (all_cons trivial all_nil)
    · exact all_cons trivial all_nil

theorem allU (isLocal : Nat → Bool) (main : Nat) : ∀ (fs : List Func) (g : Gen), (∀ f ∈ fs, TextB (Known name ref) f.body) →
    ∀ d ∈ emitU isLocal main fs g, d.1 ∈ fs ∧ All name ref d.2
  | [], g, _, d, hd => by simp [emitU] at hd
  | f :: fs, g, h, d, hd => by
    simp only [emitU] at hd
    rcases List.mem_cons.1 hd with rfl | hd
    · exact ⟨by simp, allF isLocal _ f g (h f (by simp))⟩
    · have := allU isLocal main fs _ (fun x hx => h x (by simp [hx])) d hd
      exact ⟨by simp [this.1], this.2⟩

end RuC.LlvmText
