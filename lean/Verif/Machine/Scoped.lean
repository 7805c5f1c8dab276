import Verif.Machine.Exps3

/-!
How statements change what is in scope, and what the machine holds then.
-/

namespace RuC.Machine

open RuC RuC.Codegen RuC.Instr
open RuC.Expr (Unary Binary)

def Src.alive (s : Src) (id : Nat) : Prop := (s.var id).isSome

/-- What was in scope is, and nothing else but what is in the list. -/
structure Scoped (s s' : Src) (D : List Nat) : Prop where
  keeps : ∀ id, s.alive id → s'.alive id
  new : ∀ id, s'.alive id → s.alive id ∨ id ∈ D

theorem Scoped.refl {s D} : Scoped s s D := ⟨fun _ h => h, fun _ h => .inl h⟩

theorem Scoped.trans {s s1 s2 D E F} (h : Scoped s s1 D) (g : Scoped s1 s2 E) (hd : ∀ id ∈ D, id ∈ F) (he : ∀ id ∈ E, id ∈ F) : Scoped s s2 F :=
  ⟨fun id a => g.keeps id (h.keeps id a), fun id a => by
    rcases g.new id a with a | a
    · rcases h.new id a with a | a
      · exact .inl a
      · exact .inr (hd id a)
    · exact .inr (he id a)⟩

theorem Scoped.weaken {s s' D E} (h : Scoped s s' D) (hd : ∀ id ∈ D, id ∈ E) : Scoped s s' E :=
  ⟨h.keeps, fun id a => (h.new id a).imp (fun x => x) (hd id)⟩

theorem Same.scoped {s s' D} (h : Same s s') : Scoped s s' D :=
  ⟨fun id a => by unfold Src.alive at *; rw [h id]; exact a, fun id a => .inl (by unfold Src.alive at *; rw [h id] at a; exact a)⟩

theorem Same.alive {s s'} (h : Same s s') (id) : s'.alive id ↔ s.alive id := by unfold Src.alive; rw [h id]

theorem leave_alive {s0 s : Src} {id : Nat} : (leave s0 s).alive id ↔ s0.alive id ∧ s.alive id := by
  unfold Src.alive leave
  simp only
  split <;> simp_all

theorem leave_var {s0 s : Src} {id : Nat} {x} (h : (leave s0 s).var id = some x) : s.var id = some x := by
  unfold leave at h
  simp only at h
  split at h
  · exact h
  · cases h

theorem leave_scoped {s0 s : Src} {D} (h : Scoped s0 s D) : Scoped s0 (leave s0 s) [] :=
  ⟨fun id a => leave_alive.2 ⟨a, h.keeps id a⟩, fun _ a => .inl (leave_alive.1 a).1⟩

/-- None of the identifiers is in scope. -/
def Fresh (s : Src) (D : List Nat) : Prop := ∀ id ∈ D, ¬ s.alive id

theorem Fresh.append {s D E} : Fresh s (D ++ E) ↔ Fresh s D ∧ Fresh s E := by
  simp [Fresh, or_imp, forall_and]

theorem opens_declared : ∀ (s : Stmt), ∀ id ∈ opens s, id ∈ s.declared
  | .seq a b, id, h => by
    simp only [opens, Stmt.declared, List.mem_append] at h ⊢
    exact h.imp (opens_declared a id) (opens_declared b id)
  | .var _ _ _ _, id, h | .arr _ _ _ _ _ _ _, id, h => h
  | .skip, _, h | .expr _, _, h | .continue_, _, h | .break_, _, h | .return_ _, _, h | .block _, _, h | .case _ _, _, h | .default _, _, h
  | .if_ _ _, _, h | .ifElse _ _ _, _, h | .switch _ _, _, h | .while_ _ _, _, h | .do_ _ _, _, h | .for_ _ _ _ _, _, h => by cases h

theorem fresh_after {s s' : Src} {a b : Stmt} (h : Scoped s s' (opens a)) (hf : Fresh s b.declared) (hd : Disjoint a b) : Fresh s' b.declared := by
  intro id hid al
  rcases h.new id al with al | ho
  · exact hf id hid al
  · exact hd id (opens_declared a id ho) hid

theorem fresh_scoped {s s' : Src} {D} (h : Scoped s s' []) (hf : Fresh s D) : Fresh s' D := by
  intro id hid al
  rcases h.new id al with al | ho
  · exact hf id hid al
  · cases ho

/-! ### The layout -/

theorem grown {L : Layout} (s : Stmt) (hl : Laid L []) (hf : L.inFunc = true) : Laid (layS L s) [] ∧ Grown L (layS L s) := by
  have := (points_fine s L [] hl hf).2.1
  exact ⟨hl.grown this, this⟩

/-- Other variables than those in scope may be placed. -/
theorem Inv.mono {C L L' s v} (inv : Inv C L s v) (hd : ∀ id, s.alive id → L'.displs id = L.displs id) (hg : L.displ ≤ L'.displ) : Inv C L' s v := by
  have al : ∀ i x, s.var i = some (some x) → s.alive i := by intro i x h; simp [Src.alive, h]
  refine ⟨inv.out, inv.glob, fun i x g h => ?_, fun i g h => ?_, fun i j gi gj hi hj e => ?_⟩
  · rw [hd i (al i x h)]; exact inv.loc i x g h
  · rw [hd i h]
    have := inv.range i g h
    omega
  · rw [hd i hi, hd j hj] at e
    exact inv.inj i j gi gj hi hj e

theorem Inv.after {C L s v} (st : Stmt) (inv : Inv C L s v) (hl : Laid L []) (hf : L.inFunc = true) (fr : Fresh s st.declared) : Inv C (layS L st) s v :=
  inv.mono (fun id a => layS_displs st L id (fun h => fr id h a)) (grown st hl hf).2.displ

/-- Back to the layout before. -/
theorem Inv.back {C L s0 v0 s v} (st : Stmt) (inv : Inv C (layS L st) s v) (h0 : Inv C L s0 v0) (fr : Fresh s0 st.declared) (sc : ∀ id, s.alive id → s0.alive id) : Inv C L s v := by
  have e : ∀ id, s.alive id → (layS L st).displs id = L.displs id := fun id a => layS_displs st L id (fun h => fr id h (sc id a))
  have al : ∀ i x, s.var i = some (some x) → s.alive i := by intro i x h; simp [Src.alive, h]
  refine ⟨inv.out, inv.glob, fun i x g h => ?_, fun i g h => ?_, fun i j gi gj hi hj he => ?_⟩
  · rw [← e i (al i x h)]; exact inv.loc i x g h
  · have h1 := inv.range i g h
    have h2 := h0.range i g (sc i h)
    rw [e i h] at h1
    exact ⟨h1.1, h1.2.1, h2.2.2⟩
  · rw [← e i hi, ← e j hj] at he
    exact inv.inj i j gi gj hi hj he

/-- Less is in scope. -/
theorem Inv.fewer {C L s v s'} (inv : Inv C L s v) (ho : s'.out = s.out) (h : ∀ id x, s'.var id = some x → s.var id = some x) : Inv C L s' v := by
  have al : ∀ i, (s'.var i).isSome → (s.var i).isSome := by
    intro i hi
    obtain ⟨x, hx⟩ := Option.isSome_iff_exists.1 hi
    rw [h i x hx]; rfl
  exact ⟨inv.out.trans ho.symm, fun i x g e => inv.glob i x g (h i _ e), fun i x g e => inv.loc i x g (h i _ e),
    fun i g e => inv.range i g (al i e), fun i j gi gj hi hj e => inv.inj i j gi gj (al i hi) (al j hj) e⟩

/-- The end of a block. -/
theorem Inv.closed {C L s0 v0 s v} (st : Stmt) (inv : Inv C (layS L st) s v) (h0 : Inv C L s0 v0) (fr : Fresh s0 st.declared) :
    Inv C { layS L st with displ := L.displ } (leave s0 s) v := by
  have i1 : Inv C (layS L st) (leave s0 s) v := inv.fewer rfl (fun _ _ => leave_var)
  have i2 : Inv C L (leave s0 s) v := i1.back st h0 fr (fun id a => (leave_alive.1 a).1)
  exact i2.mono (fun id a => layS_displs st L id (fun h => fr id h (leave_alive.1 a).1)) (Int.le_refl _)

theorem scalar_size {t : Ty} (h : Scalar t) : t.size = 1 ∧ t ≠ .function := by
  rcases h with rfl | rfl <;> exact ⟨rfl, by simp⟩

/-- A variable comes into scope. -/
theorem Inv.declare {C L s v id t} (inv : Inv C L s v) (hl : Laid L []) (hf : L.inFunc = true) (hg : C.global id = false) (ht : Scalar t)
    (fr : ¬ s.alive id) (hm : (L.add id t).maxLocal ≤ v.size) : Inv C (L.add id t) (s.set id (some none)) v := by
  obtain ⟨hs, hn⟩ := scalar_size ht
  have e0 : (L.add id t).displs id = L.displ := by simp [Layout.add, hf, update, hn]
  have e1 : (L.add id t).displ = L.displ + 1 := by simp [Layout.add, hf, hs]
  have e2 : (L.add id t).maxLocal = max (L.displ + 1) L.maxLocal := by simp [Layout.add, hf, hs]
  have hb := hl.begin_
  have e3 : ∀ i, i ≠ id → (s.set id (some none)).var i = s.var i := by intro i hi; simp [Src.set, hi]
  have e4 : (s.set id (some none)).var id = some none := by simp [Src.set]
  refine ⟨inv.out, fun i x g h => ?_, fun i x g h => ?_, fun i g h => ?_, fun i j gi gj hi hj e => ?_⟩
  · by_cases hi : i = id
    · subst hi; rw [e4] at h; cases h
    · rw [e3 i hi] at h; exact inv.glob i x g h
  · by_cases hi : i = id
    · subst hi; rw [e4] at h; cases h
    · rw [e3 i hi] at h; rw [add_displs hi]; exact inv.loc i x g h
  · by_cases hi : i = id
    · subst hi; rw [e0, e1]; omega
    · rw [e3 i hi] at h; rw [add_displs hi, e1]
      have := inv.range i g h
      omega
  · by_cases h1 : i = id
    · by_cases h2 : j = id
      · rw [h1, h2]
      · subst h1
        rw [e3 j h2] at hj
        rw [e0, add_displs h2] at e
        have := inv.range j gj hj
        omega
    · by_cases h2 : j = id
      · subst h2
        rw [e3 i h1] at hi
        rw [e0, add_displs h1] at e
        have := inv.range i gi hi
        omega
      · rw [e3 i h1] at hi; rw [e3 j h2] at hj
        rw [add_displs h1, add_displs h2] at e
        exact inv.inj i j gi gj hi hj e

/-! ### No labels -/

theorem fits_label {ok : Layout → Nat → Prop} {global : Nat → Bool} : ∀ (s : Stmt) (L L' : Layout) (base : Nat), FitsS ok global L s → (codeS L' base s).label = none
  | .skip, _, _, _, _ | .expr _, _, _, _, _ | .continue_, _, _, _, _ | .break_, _, _, _, _ | .return_ none, _, _, _, _ | .return_ (some (_, _)), _, _, _, _
  | .var _ _ _ _, _, _, _, _ | .switch _ _, _, _, _, _ => rfl
  | .seq a b, L, L', base, h => by
    simp only [FitsS] at h
    simp only [codeS, Piece.join]
    rw [fits_label a L _ _ h.1, fits_label b _ _ _ h.2.1]; rfl
  | .block s, L, L', base, h => by simp only [FitsS] at h; exact fits_label s L _ _ h
  | .if_ _ s, L, L', base, h => by
    simp only [FitsS] at h
    simp only [codeS, Piece.join, plain]
    rw [fits_label s L _ _ h.2.2]; rfl
  | .ifElse _ a b, L, L', base, h => by
    simp only [FitsS] at h
    simp only [codeS, Piece.join, plain]
    rw [fits_label a L _ _ h.2.2.2.1, fits_label b _ _ _ h.2.2.2.2.1]; rfl
  | .while_ _ s, L, L', base, h => by
    simp only [FitsS] at h
    simp only [codeS, Piece.join, plain, Piece.fill]
    rw [fits_label s L _ _ h.2.2]; rfl
  | .do_ s _, L, L', base, h => by
    simp only [FitsS] at h
    simp only [codeS, Piece.join, plain, Piece.fill]
    rw [fits_label s L _ _ h.2.2]; rfl
  | .for_ i _ _ s, L, L', base, h => by
    simp only [FitsS] at h
    simp only [codeS, Piece.join, plain, Piece.fill]
    rw [fits_label i L _ _ h.1, fits_label s _ _ _ h.2.2.2.2.1]; rfl
  | .arr _ _ _ _ _ _ _, _, _, _, h | .case _ _, _, _, _, h | .default _, _, _, _, h => by simp [FitsS] at h

mutual
/-- Globals are not declared in functions. -/
theorem fits_declared {ok : Layout → Nat → Prop} {global : Nat → Bool} : ∀ (s : Stmt) (L : Layout), FitsS ok global L s → ∀ id ∈ s.declared, global id = false
  | .skip, _, _, _, h | .expr _, _, _, _, h | .continue_, _, _, _, h | .break_, _, _, _, h | .return_ _, _, _, _, h => by cases h
  | .var _ _ _ _, L, f, id, h => by
    simp only [FitsS] at f
    simp only [Stmt.declared, List.mem_cons, List.not_mem_nil, or_false] at h
    rw [h]; exact f.1
  | .seq a b, L, f, id, h => by
    simp only [FitsS] at f
    simp only [Stmt.declared, List.mem_append] at h
    rcases h with h | h
    · exact fits_declared a L f.1 id h
    · exact fits_declared b _ f.2.1 id h
  | .block s, L, f, id, h => by simp only [FitsS] at f; exact fits_declared s L f id h
  | .if_ _ s, L, f, id, h => by simp only [FitsS] at f; exact fits_declared s L f.2.2 id h
  | .ifElse _ a b, L, f, id, h => by
    simp only [FitsS] at f
    simp only [Stmt.declared, List.mem_append] at h
    rcases h with h | h
    · exact fits_declared a L f.2.2.2.1 id h
    · exact fits_declared b _ f.2.2.2.2.1 id h
  | .while_ _ s, L, f, id, h => by simp only [FitsS] at f; exact fits_declared s L f.2.2 id h
  | .do_ s _, L, f, id, h => by simp only [FitsS] at f; exact fits_declared s L f.2.2 id h
  | .for_ i _ _ s, L, f, id, h => by
    simp only [FitsS] at f
    simp only [Stmt.declared, List.mem_append] at h
    rcases h with h | h
    · exact fits_declared i L f.1 id h
    · exact fits_declared s _ f.2.2.2.2.1 id h
  | .arr _ _ _ _ _ _ _, _, f, _, _ | .case _ _, _, f, _, _ | .default _, _, f, _, _ => by simp [FitsS] at f
  | .switch _ s, L, f, id, h => by simp only [FitsS] at f; exact fitsArms_declared s L f.2 id h

theorem fitsArms_declared {ok : Layout → Nat → Prop} {global : Nat → Bool} : ∀ (s : Stmt) (L : Layout), FitsArms ok global L s → ∀ id ∈ s.declared, global id = false
  | .skip, _, _, _, h => by cases h
  | .case e x, L, f, id, h => by simp only [FitsArms] at f; exact fits_declared x L f.2.2 id h
  | .default x, L, f, id, h => by simp only [FitsArms] at f; exact fits_declared x L f.2 id h
  | .seq (.case e x) r, L, f, id, h => by
    simp only [FitsArms] at f
    simp only [Stmt.declared, List.mem_append] at h
    rcases h with h | h
    · exact fits_declared x L f.2.2.1 id h
    · exact fitsArms_declared r _ f.2.2.2.2.1 id h
  | .block b, L, f, id, h => by simp only [FitsArms] at f; exact fitsArms_declared b L f id h
  | .var _ _ _ _, _, f, _, _ | .arr _ _ _ _ _ _ _, _, f, _, _ | .expr _, _, f, _, _ | .if_ _ _, _, f, _, _ | .ifElse _ _ _, _, f, _, _ | .switch _ _, _, f, _, _ | .while_ _ _, _, f, _, _ | .do_ _ _, _, f, _, _ | .for_ _ _ _ _, _, f, _, _ | .continue_, _, f, _, _ | .break_, _, f, _, _ | .return_ _, _, f, _, _ | .seq .skip _, _, f, _, _ | .seq (.seq _ _) _, _, f, _, _ | .seq (.block _) _, _, f, _, _ | .seq (.var _ _ _ _) _, _, f, _, _ | .seq (.arr _ _ _ _ _ _ _) _, _, f, _, _ | .seq (.expr _) _, _, f, _, _ | .seq (.if_ _ _) _, _, f, _, _ | .seq (.ifElse _ _ _) _, _, f, _, _ | .seq (.switch _ _) _, _, f, _, _ | .seq (.while_ _ _) _, _, f, _, _ | .seq (.do_ _ _) _, _, f, _, _ | .seq (.for_ _ _ _ _) _, _, f, _, _ | .seq .continue_ _, _, f, _, _ | .seq .break_ _, _, f, _, _ | .seq (.return_ _) _, _, f, _, _ | .seq (.default _) _, _, f, _, _ => by
    simp [FitsArms] at f
end

end RuC.Machine
