import Verif.Machine.Calls
import Verif.Codegen.Whole

/-!
The machine follows a unit: globals and functions, in order.
-/

namespace RuC.Machine

open RuC RuC.Codegen RuC.Instr
open RuC.Expr (Unary Binary)

/-! ### More variables may be mentioned -/

mutual
theorem fitsE_mono {ok ok' : Nat → Prop} (h : ∀ id, ok id → ok' id) : ∀ (e : Exp) (tr : Bool), FitsE ok tr e → FitsE ok' tr e
  | .lit _, _, _ => by simp only [FitsE]
  | .ident _ _, _, f => by simp only [FitsE] at f ⊢; exact ⟨h _ f.1, f.2⟩
  | .cast _ e, _, f => by simp only [FitsE] at f ⊢; exact ⟨f.1, fitsE_mono h e _ f.2⟩
  | .unary _ e _, _, f => by simp only [FitsE] at f ⊢; exact ⟨f.1, fitsE_mono h e _ f.2⟩
  | .binary op l r fl, tr, f => by
    simp only [FitsE] at f ⊢
    refine ⟨f.1, f.2.1, f.2.2.1, ?_⟩
    obtain ⟨_, _, _, f⟩ := f
    by_cases h1 : op = .logAnd
    · rw [if_pos h1] at f ⊢; exact ⟨fitsE_mono h l _ f.1, fitsE_mono h r _ f.2⟩
    · rw [if_neg h1] at f ⊢
      by_cases h2 : op = .logOr
      · rw [if_pos h2] at f ⊢; exact ⟨fitsE_mono h l _ f.1, f.2.1, fitsE_mono h r _ f.2.2⟩
      · rw [if_neg h2] at f ⊢; exact ⟨fitsE_mono h l _ f.1, fitsE_mono h r _ f.2⟩
  | .comma l r, tr, f => by
    simp only [FitsE] at f ⊢
    exact ⟨f.1.imp (fun x => x) (fitsE_mono h l _), f.2.1, fitsE_mono h r _ f.2.2⟩
  | .ternary c a b, tr, f => by
    simp only [FitsE] at f ⊢
    exact ⟨fitsE_mono h c _ f.1, fitsE_mono h a _ f.2.1, fitsE_mono h b _ f.2.2⟩
  | .assign _ l r t, _, f => by
    simp only [FitsE] at f ⊢
    obtain ⟨⟨id, t', e, o⟩, f2, f3⟩ := f
    exact ⟨⟨id, t', e, h _ o⟩, f2, fitsE_mono h r _ f3⟩
  | .incdec _ l t, _, f => by
    simp only [FitsE] at f ⊢
    obtain ⟨⟨id, t', e, o⟩, f2⟩ := f
    exact ⟨⟨id, t', e, h _ o⟩, f2⟩
  | .call _ args, _, f => by simp only [FitsE] at f ⊢; exact fitsA_mono h args f
  | .print e t, _, f => by simp only [FitsE] at f ⊢; exact ⟨f.1, fitsE_mono h e _ f.2⟩
  | .printf _ args _, _, f => by simp only [FitsE] at f ⊢; exact ⟨f.1, f.2.1, f.2.2.1, fitsA_mono h args f.2.2.2⟩
  | .flit _, _, f | .str _, _, f | .subscript _ _ _, _, f | .arrow _ _ _, _, f | .dot _ _ _ _, _, f | .deref _ _, _, f | .callParam _ _, _, f
  | .builtin _ _, _, f | .both _ _, _, f | .address _, _, f | .upb _, _, f | .init _ _ _, _, f | .funArg _, _, f | .paramArg _, _, f
  | .initArg _ _, _, f => by simp [FitsE] at f
theorem fitsA_mono {ok ok' : Nat → Prop} (h : ∀ id, ok id → ok' id) : ∀ (as : Args), FitsA ok as → FitsA ok' as
  | .nil, _ => by simp only [FitsA]
  | .cons e rest, f => by simp only [FitsA] at f ⊢; exact ⟨fitsE_mono h e _ f.1, fitsA_mono h rest f.2⟩
end

theorem fitsV_mono {ok ok' : Nat → Prop} (h : ∀ id, ok id → ok' id) {e : Exp} (f : FitsV ok e) : FitsV ok' e :=
  f.imp (fun x => x) (fitsE_mono h e _)

/-! ### What the layout is inside of a function -/

theorem add_okId {C : Ctx} {L : Layout} {id : Nat} {t : Ty} (hl : Laid L []) (hf : L.inFunc = true) (hg : C.global id = false) (ht : Scalar t)
    (hm : (L.add id t).maxLocal ≤ 9000) (j : Nat) (hj : j = id ∨ okId C L j) : okId C (L.add id t) j := by
  obtain ⟨sz, nf⟩ := scalar_size ht
  by_cases e : j = id
  · subst e
    have e0 : (L.add j t).displs j = L.displ := by simp [Layout.add, hf, update, nf]
    have e2 : (L.add j t).maxLocal = max (L.displ + 1) L.maxLocal := by simp [Layout.add, hf, sz]
    refine ⟨fun h => (by rw [hg] at h; cases h), ?_⟩
    rw [e0]
    unfold MIN_INSTRUCTION_CODE
    omega
  · have h := hj.resolve_left e
    exact ⟨by rw [add_displs e]; exact h.1, by rw [add_displs e]; exact h.2⟩

mutual
theorem fits_in {C : Ctx} {ok : Nat → Prop} : ∀ (s : Stmt) (L : Layout), InS ok C.global s → Laid L [] → L.inFunc = true → (layS L s).maxLocal ≤ 9000 →
    (∀ id, ok id → okId C L id) → FitsS (okId C) C.global L s ∧ ∀ id, ok id → okId C (layS L s) id
  | .skip, L, f, hl, hf, hm, ho | .continue_, L, f, hl, hf, hm, ho | .break_, L, f, hl, hf, hm, ho | .return_ none, L, f, hl, hf, hm, ho =>
    ⟨by simp only [FitsS], ho⟩
  | .seq a b, L, f, hl, hf, hm, ho => by
    simp only [InS] at f
    have ga := grown a hl hf
    have gb := grown b ga.1 ga.2.inFunc
    have hm' : (layS (layS L a) b).maxLocal ≤ 9000 := hm
    have h1 := fits_in a L f.1 hl hf (Int.le_trans gb.2.maxLocal hm') ho
    have h2 := fits_in b _ f.2.1 ga.1 ga.2.inFunc hm' h1.2
    exact ⟨by simp only [FitsS]; exact ⟨h1.1, h2.1, f.2.2⟩, h2.2⟩
  | .block s, L, f, hl, hf, hm, ho => by
    simp only [InS] at f
    have h1 := fits_in s L f hl hf hm ho
    exact ⟨by simp only [FitsS]; exact h1.1, fun id h => ⟨(h1.2 id h).1, (h1.2 id h).2⟩⟩
  | .var id t p i, L, f, hl, hf, hm, ho => by
    simp only [InS] at f
    obtain ⟨hg, ht, hp, hi⟩ := f
    have h0 := fun j hj => add_okId hl hf hg ht hm j hj
    refine ⟨?_, fun j hj => h0 j (.inr (ho j hj))⟩
    simp only [FitsS]
    exact ⟨hg, ht, hp, h0 id (.inl rfl), fun e he => fitsE_mono (fun j hj => h0 j (.inr (ho j hj))) e _ (hi e he)⟩
  | .expr e, L, f, hl, hf, hm, ho => by
    simp only [InS] at f
    exact ⟨by simp only [FitsS]; exact fitsV_mono ho f, ho⟩
  | .if_ c s, L, f, hl, hf, hm, ho => by
    simp only [InS] at f
    have h1 := fits_in s L f.2.2 hl hf hm ho
    exact ⟨by simp only [FitsS]; exact ⟨fitsE_mono ho c _ f.1, f.2.1, h1.1⟩, h1.2⟩
  | .ifElse c a b, L, f, hl, hf, hm, ho => by
    simp only [InS] at f
    have ga := grown a hl hf
    have gb := grown b ga.1 ga.2.inFunc
    have hm' : (layS (layS L a) b).maxLocal ≤ 9000 := hm
    have h1 := fits_in a L f.2.2.2.1 hl hf (Int.le_trans gb.2.maxLocal hm') ho
    have h2 := fits_in b _ f.2.2.2.2.1 ga.1 ga.2.inFunc hm' h1.2
    exact ⟨by simp only [FitsS]; exact ⟨fitsE_mono ho c _ f.1, f.2.1, f.2.2.1, h1.1, h2.1, f.2.2.2.2.2⟩, h2.2⟩
  | .while_ c s, L, f, hl, hf, hm, ho => by
    simp only [InS] at f
    have h1 := fits_in s L f.2.2 hl hf hm ho
    exact ⟨by simp only [FitsS]; exact ⟨fitsE_mono ho c _ f.1, f.2.1, h1.1⟩, h1.2⟩
  | .do_ s c, L, f, hl, hf, hm, ho => by
    simp only [InS] at f
    have h1 := fits_in s L f.2.2 hl hf hm ho
    exact ⟨by simp only [FitsS]; exact ⟨fitsE_mono h1.2 c _ f.1, f.2.1, h1.1⟩, h1.2⟩
  | .for_ i c n s, L, f, hl, hf, hm, ho => by
    simp only [InS] at f
    have ga := grown i hl hf
    have gb := grown s ga.1 ga.2.inFunc
    have hm' : (layS (layS L i) s).maxLocal ≤ 9000 := hm
    have h1 := fits_in i L f.1 hl hf (Int.le_trans gb.2.maxLocal hm') ho
    have h2 := fits_in s _ f.2.2.2.2.1 ga.1 ga.2.inFunc hm' h1.2
    refine ⟨?_, fun id h => ⟨(h2.2 id h).1, (h2.2 id h).2⟩⟩
    simp only [FitsS]
    exact ⟨h1.1, fun e he => fitsE_mono h1.2 e _ (f.2.1 e he), fun e he => fitsV_mono h2.2 (f.2.2.1 e he), f.2.2.2.1, h2.1, f.2.2.2.2.2⟩
  | .return_ (some (e, n)), L, f, hl, hf, hm, ho => by
    simp only [InS] at f
    exact ⟨by simp only [FitsS]; exact ⟨f.1, fitsE_mono ho e _ f.2⟩, ho⟩
  | .arr _ _ _ _ _ _ _, _, f, _, _, _, _ | .case _ _, _, f, _, _, _, _ | .default _, _, f, _, _, _, _ => by simp [InS] at f
  | .switch c s, L, f, hl, hf, hm, ho => by
    simp only [InS] at f
    have h1 := fits_arms s L f.2 hl hf hm ho
    exact ⟨by simp only [FitsS]; exact ⟨fitsE_mono ho c _ f.1, h1.1⟩, h1.2⟩

theorem fits_arms {C : Ctx} {ok : Nat → Prop} : ∀ (s : Stmt) (L : Layout), InArms ok C.global s → Laid L [] → L.inFunc = true → (layS L s).maxLocal ≤ 9000 →
    (∀ id, ok id → okId C L id) → FitsArms (okId C) C.global L s ∧ ∀ id, ok id → okId C (layS L s) id
  | .skip, L, f, hl, hf, hm, ho => ⟨by simp only [FitsArms], ho⟩
  | .case e x, L, f, hl, hf, hm, ho => by
    simp only [InArms] at f
    have h1 := fits_in x L f.2.2 hl hf hm ho
    exact ⟨by simp only [FitsArms]; exact ⟨f.1, f.2.1, h1.1⟩, h1.2⟩
  | .default x, L, f, hl, hf, hm, ho => by
    simp only [InArms] at f
    have h1 := fits_in x L f.2 hl hf hm ho
    exact ⟨by simp only [FitsArms]; exact ⟨f.1, h1.1⟩, h1.2⟩
  | .seq (.case e a) b, L, f, hl, hf, hm, ho => by
    simp only [InArms] at f
    have ga := grown a hl hf
    have gb := grown b ga.1 ga.2.inFunc
    have hm' : (layS (layS L a) b).maxLocal ≤ 9000 := hm
    have h1 := fits_in a L f.2.2.1 hl hf (Int.le_trans gb.2.maxLocal hm') ho
    have h2 := fits_arms b _ f.2.2.2.2.1 ga.1 ga.2.inFunc hm' h1.2
    exact ⟨by simp only [FitsArms]; exact ⟨f.1, f.2.1, h1.1, f.2.2.2.1, h2.1, f.2.2.2.2.2⟩, h2.2⟩
  | .block s, L, f, hl, hf, hm, ho => by
    simp only [InArms] at f
    have h1 := fits_arms s L f hl hf hm ho
    exact ⟨by simp only [FitsArms]; exact h1.1, fun id h => ⟨(h1.2 id h).1, (h1.2 id h).2⟩⟩
  | .var _ _ _ _, _, f, _, _, _, _ | .arr _ _ _ _ _ _ _, _, f, _, _, _, _ | .expr _, _, f, _, _, _, _ | .if_ _ _, _, f, _, _, _, _ | .ifElse _ _ _, _, f, _, _, _, _ | .switch _ _, _, f, _, _, _, _ | .while_ _ _, _, f, _, _, _, _ | .do_ _ _, _, f, _, _, _, _ | .for_ _ _ _ _, _, f, _, _, _, _ | .continue_, _, f, _, _, _, _ | .break_, _, f, _, _, _, _ | .return_ _, _, f, _, _, _, _ | .seq .skip _, _, f, _, _, _, _ | .seq (.seq _ _) _, _, f, _, _, _, _ | .seq (.block _) _, _, f, _, _, _, _ | .seq (.var _ _ _ _) _, _, f, _, _, _, _ | .seq (.arr _ _ _ _ _ _ _) _, _, f, _, _, _, _ | .seq (.expr _) _, _, f, _, _, _, _ | .seq (.if_ _ _) _, _, f, _, _, _, _ | .seq (.ifElse _ _ _) _, _, f, _, _, _, _ | .seq (.switch _ _) _, _, f, _, _, _, _ | .seq (.while_ _ _) _, _, f, _, _, _, _ | .seq (.do_ _ _) _, _, f, _, _, _, _ | .seq (.for_ _ _ _ _) _, _, f, _, _, _, _ | .seq .continue_ _, _, f, _, _, _, _ | .seq .break_ _, _, f, _, _, _, _ | .seq (.return_ _) _, _, f, _, _, _, _ | .seq (.default _) _, _, f, _, _, _, _ => by
    simp [InArms] at f
end

mutual
/-- A function has no more cells than variables, and three. -/
theorem in_cells {ok : Nat → Prop} {global : Nat → Bool} : ∀ (s : Stmt) (L : Layout), InS ok global s → L.inFunc = true →
    (layS L s).inFunc = true ∧ (layS L s).displ ≤ L.displ + s.declared.length ∧ (layS L s).maxLocal ≤ max L.maxLocal (L.displ + s.declared.length)
  | .skip, L, _, hf | .continue_, L, _, hf | .break_, L, _, hf | .return_ _, L, _, hf | .expr _, L, _, hf => by
    refine ⟨hf, ?_, ?_⟩ <;> simp [layS, Stmt.declared] <;> omega
  | .seq a b, L, f, hf => by
    simp only [InS] at f
    obtain ⟨a1, a2, a3⟩ := in_cells a L f.1 hf
    obtain ⟨b1, b2, b3⟩ := in_cells b _ f.2.1 a1
    simp only [layS, Stmt.declared, List.length_append]
    refine ⟨b1, ?_, ?_⟩ <;> omega
  | .ifElse _ a b, L, f, hf => by
    simp only [InS] at f
    obtain ⟨a1, a2, a3⟩ := in_cells a L f.2.2.2.1 hf
    obtain ⟨b1, b2, b3⟩ := in_cells b _ f.2.2.2.2.1 a1
    simp only [layS, Stmt.declared, List.length_append]
    refine ⟨b1, ?_, ?_⟩ <;> omega
  | .for_ a _ _ b, L, f, hf => by
    simp only [InS] at f
    obtain ⟨a1, a2, a3⟩ := in_cells a L f.1 hf
    obtain ⟨b1, b2, b3⟩ := in_cells b _ f.2.2.2.2.1 a1
    simp only [layS, Stmt.declared, List.length_append]
    refine ⟨b1, ?_, ?_⟩ <;> omega
  | .block s, L, f, hf => by
    simp only [InS] at f
    obtain ⟨a1, a2, a3⟩ := in_cells s L f hf
    simp only [layS, Stmt.declared]
    exact ⟨a1, by omega, a3⟩
  | .var id t p i, L, f, hf => by
    simp only [InS] at f
    have sz := (scalar_size f.2.1).1
    refine ⟨?_, ?_, ?_⟩ <;> simp [layS, Stmt.declared, Layout.add, hf, sz]
    omega
  | .if_ _ s, L, f, hf | .while_ _ s, L, f, hf => by
    simp only [InS] at f
    exact in_cells s L f.2.2 hf
  | .do_ s _, L, f, hf => by
    simp only [InS] at f
    exact in_cells s L f.2.2 hf
  | .arr _ _ _ _ _ _ _, _, f, _ | .case _ _, _, f, _ | .default _, _, f, _ => by simp [InS] at f
  | .switch _ s, L, f, hf => by
    simp only [InS] at f
    exact in_cellsArms s L f.2 hf

theorem in_cellsArms {ok : Nat → Prop} {global : Nat → Bool} : ∀ (s : Stmt) (L : Layout), InArms ok global s → L.inFunc = true →
    (layS L s).inFunc = true ∧ (layS L s).displ ≤ L.displ + s.declared.length ∧ (layS L s).maxLocal ≤ max L.maxLocal (L.displ + s.declared.length)
  | .skip, L, _, hf => by
    refine ⟨hf, ?_, ?_⟩ <;> simp [layS, Stmt.declared] <;> omega
  | .case _ x, L, f, hf => by
    simp only [InArms] at f
    exact in_cells x L f.2.2 hf
  | .default x, L, f, hf => by
    simp only [InArms] at f
    exact in_cells x L f.2 hf
  | .seq (.case _ a) b, L, f, hf => by
    simp only [InArms] at f
    obtain ⟨a1, a2, a3⟩ := in_cells a L f.2.2.1 hf
    obtain ⟨b1, b2, b3⟩ := in_cellsArms b _ f.2.2.2.2.1 a1
    simp only [layS, Stmt.declared, List.length_append]
    refine ⟨b1, ?_, ?_⟩ <;> omega
  | .block s, L, f, hf => by
    simp only [InArms] at f
    obtain ⟨a1, a2, a3⟩ := in_cellsArms s L f hf
    simp only [layS, Stmt.declared]
    exact ⟨a1, by omega, a3⟩
  | .var _ _ _ _, _, f, _ | .arr _ _ _ _ _ _ _, _, f, _ | .expr _, _, f, _ | .if_ _ _, _, f, _ | .ifElse _ _ _, _, f, _ | .switch _ _, _, f, _ | .while_ _ _, _, f, _ | .do_ _ _, _, f, _ | .for_ _ _ _ _, _, f, _ | .continue_, _, f, _ | .break_, _, f, _ | .return_ _, _, f, _ | .seq .skip _, _, f, _ | .seq (.seq _ _) _, _, f, _ | .seq (.block _) _, _, f, _ | .seq (.var _ _ _ _) _, _, f, _ | .seq (.arr _ _ _ _ _ _ _) _, _, f, _ | .seq (.expr _) _, _, f, _ | .seq (.if_ _ _) _, _, f, _ | .seq (.ifElse _ _ _) _, _, f, _ | .seq (.switch _ _) _, _, f, _ | .seq (.while_ _ _) _, _, f, _ | .seq (.do_ _ _) _, _, f, _ | .seq (.for_ _ _ _ _) _, _, f, _ | .seq .continue_ _, _, f, _ | .seq .break_ _, _, f, _ | .seq (.return_ _) _, _, f, _ | .seq (.default _) _, _, f, _ => by
    simp [InArms] at f
end

mutual
theorem in_declared {ok : Nat → Prop} {global : Nat → Bool} : ∀ (s : Stmt), InS ok global s → ∀ id ∈ s.declared, global id = false
  | .skip, _, _, h | .expr _, _, _, h | .continue_, _, _, h | .break_, _, _, h | .return_ _, _, _, h => by cases h
  | .var _ _ _ _, f, id, h => by
    simp only [InS] at f
    simp only [Stmt.declared, List.mem_cons, List.not_mem_nil, or_false] at h
    rw [h]; exact f.1
  | .seq a b, f, id, h => by
    simp only [InS] at f
    simp only [Stmt.declared, List.mem_append] at h
    exact h.elim (in_declared a f.1 id) (in_declared b f.2.1 id)
  | .block s, f, id, h => by simp only [InS] at f; exact in_declared s f id h
  | .if_ _ s, f, id, h | .while_ _ s, f, id, h => by simp only [InS] at f; exact in_declared s f.2.2 id h
  | .do_ s _, f, id, h => by simp only [InS] at f; exact in_declared s f.2.2 id h
  | .ifElse _ a b, f, id, h => by
    simp only [InS] at f
    simp only [Stmt.declared, List.mem_append] at h
    exact h.elim (in_declared a f.2.2.2.1 id) (in_declared b f.2.2.2.2.1 id)
  | .for_ a _ _ b, f, id, h => by
    simp only [InS] at f
    simp only [Stmt.declared, List.mem_append] at h
    exact h.elim (in_declared a f.1 id) (in_declared b f.2.2.2.2.1 id)
  | .arr _ _ _ _ _ _ _, f, _, _ | .case _ _, f, _, _ | .default _, f, _, _ => by simp [InS] at f
  | .switch _ s, f, id, h => by simp only [InS] at f; exact inArms_declared s f.2 id h

theorem inArms_declared {ok : Nat → Prop} {global : Nat → Bool} : ∀ (s : Stmt), InArms ok global s → ∀ id ∈ s.declared, global id = false
  | .skip, _, _, h => by cases h
  | .case e x, f, id, h => by simp only [InArms] at f; exact in_declared x f.2.2 id h
  | .default x, f, id, h => by simp only [InArms] at f; exact in_declared x f.2 id h
  | .seq (.case e x) r, f, id, h => by
    simp only [InArms] at f
    simp only [Stmt.declared, List.mem_append] at h
    exact h.elim (in_declared x f.2.2.1 id) (inArms_declared r f.2.2.2.2.1 id)
  | .block b, f, id, h => by simp only [InArms] at f; exact inArms_declared b f id h
  | .var _ _ _ _, f, _, _ | .arr _ _ _ _ _ _ _, f, _, _ | .expr _, f, _, _ | .if_ _ _, f, _, _ | .ifElse _ _ _, f, _, _ | .switch _ _, f, _, _ | .while_ _ _, f, _, _ | .do_ _ _, f, _, _ | .for_ _ _ _ _, f, _, _ | .continue_, f, _, _ | .break_, f, _, _ | .return_ _, f, _, _ | .seq .skip _, f, _, _ | .seq (.seq _ _) _, f, _, _ | .seq (.block _) _, f, _, _ | .seq (.var _ _ _ _) _, f, _, _ | .seq (.arr _ _ _ _ _ _ _) _, f, _, _ | .seq (.expr _) _, f, _, _ | .seq (.if_ _ _) _, f, _, _ | .seq (.ifElse _ _ _) _, f, _, _ | .seq (.switch _ _) _, f, _, _ | .seq (.while_ _ _) _, f, _, _ | .seq (.do_ _ _) _, f, _, _ | .seq (.for_ _ _ _ _) _, f, _, _ | .seq .continue_ _, f, _, _ | .seq .break_ _, f, _, _ | .seq (.return_ _) _, f, _, _ | .seq (.default _) _, f, _, _ => by
    simp [InArms] at f
end

/-- A function of the fragment fits, and the layout behind it is as good as before. -/
theorem fits_func {C : Ctx} {ok : Nat → Prop} {L : Layout} {d : Func} (h : InF ok C.global d) (hg : 3 ≤ L.maxGlobal) (ho : ∀ id, ok id → okId C L id) :
    FitsF (okId C) C.global L d ∧ (∀ id, ok id → okId C (layF L d) id) ∧ (layF L d).maxGlobal = L.maxGlobal ∧
      ∀ id, C.global id = true → (layF L d).displs id = L.displs id := by
  obtain ⟨p1, p2, p3, p4, p5, p6⟩ := params_cells d.params { L with inFunc := true, displ := DISPL_START, maxLocal := DISPL_START } rfl h.scalar h.nodup (Int.le_refl _)
  have e1 : ∀ (j id : Nat), (d.params.map (·.1))[j]? = some id → (layEntry L d).displs id = 3 + j := p1
  have e2 : ∀ id, id ∉ d.params.map (·.1) → (layEntry L d).displs id = L.displs id := p2
  have e3 : (layEntry L d).displ = 3 + (d.params.length : Int) := p3
  have e4 : (layEntry L d).maxLocal = max 3 (3 + (d.params.length : Int)) := p4
  have e5 : (layEntry L d).inFunc = true := p5
  have e6 : (layEntry L d).maxGlobal = L.maxGlobal := p6
  have few := h.few
  have lay := entry_laid (d := d) hg
  have cells := in_cells d.body (layEntry L d) h.body e5
  have oe : ∀ id, ok id → okId C (layEntry L d) id := by
    intro id hid
    by_cases hm : id ∈ d.params.map (·.1)
    · obtain ⟨j, hj⟩ := List.mem_iff_getElem?.1 hm
      refine ⟨fun g => (by rw [h.locals id hm] at g; cases g), ?_⟩
      rw [e1 j id hj]
      have : j < d.params.length := by
        rw [List.getElem?_eq_some_iff] at hj
        simpa using hj.1
      unfold MIN_INSTRUCTION_CODE
      omega
    · exact ⟨by rw [e2 id hm]; exact (ho id hid).1, by rw [e2 id hm]; exact (ho id hid).2⟩
  have key := fits_in d.body (layEntry L d) h.body lay e5 (by omega) oe
  refine ⟨⟨h.scalar, h.nodup, h.locals, h.apart, key.1⟩, fun id hid => ⟨(key.2 id hid).1, (key.2 id hid).2⟩, ?_, fun id g => ?_⟩
  · show (layS (layEntry L d) d.body).maxGlobal = _
    rw [(grown d.body lay e5).2.maxGlobal, e6]
  · show (layS (layEntry L d) d.body).displs id = _
    rw [layS_displs d.body _ id (fun hm => by rw [in_declared d.body h.body id hm] at g; cases g),
      e2 id (fun hm => by rw [h.locals id hm] at g; cases g)]

end RuC.Machine
