import Verif.Codegen.Stmts
import Verif.Codegen.UnitSpec

/-!
# Emitting a translation unit
-/

namespace RuC.Codegen

open RuC RuC.Instr
open RuC.Expr (Unary Binary)

/-! ### Statements that stand where they are allowed leave no holes -/

theorem mem_toLabel {x l A} (h : x ∈ toLabel l A) (hx : ∀ u, x ≠ .val u) : x ∈ A := by
  cases l with
  | none => exact h
  | some l => exact (mem_fill h hx).1

/-- What a piece leaves open. -/
def Left (b c l : Bool) (P : Piece) : Prop :=
  (b = false → Sym.brk ∉ P.code) ∧ (c = false → Sym.cont ∉ P.code) ∧ (l = false → P.label = none)

theorem Left.join {b c l P Q} (hP : Left b c l P) (hQ : Left b c l Q) : Left b c l (P.join Q) := by
  refine ⟨fun e m => ?_, fun e m => ?_, fun e => ?_⟩
  · rcases List.mem_append.1 m with m | m
    · exact hP.1 e (mem_toLabel m (by simp))
    · exact hQ.1 e m
  · rcases List.mem_append.1 m with m | m
    · exact hP.2.1 e (mem_toLabel m (by simp))
    · exact hQ.2.1 e m
  · show P.label.or Q.label = none
    rw [hP.2.2 e, hQ.2.2 e]; rfl

theorem Left.plain {b c l A} (h : NoHole A) : Left b c l (plain A) :=
  ⟨fun _ => (noHole_not h).1, fun _ => (noHole_not h).2.1, fun _ => rfl⟩

/-- The body of a loop. -/
theorem Left.loop {b c l P u v} (h : Left true true l P) : Left b c l ((P.fill .cont u).fill .brk v) := by
  refine ⟨fun _ => not_mem_fill _ _ _ (by simp), fun _ m => ?_, fun e => h.2.2 e⟩
  have := (mem_fill m (by simp)).1
  exact not_mem_fill _ _ _ (by simp) this

theorem placed_left : ∀ (s : Stmt) (b c l : Bool) (L : Layout) (base : Nat), s.Wf → s.Placed b c l → Left b c l (codeS L base s)
  | .skip, b, c, l, L, base, _, _ => Left.plain noHole_nil
  | .seq x y, b, c, l, L, base, wf, hp => (placed_left x b c l L base wf.1 hp.1).join (placed_left y b c l _ _ wf.2 hp.2)
  | .block s, b, c, l, L, base, wf, hp => placed_left s b c l L base wf hp
  | .var id t p i, b, c, l, L, base, wf, hp => Left.plain (codeVar_noHole wf)
  | .arr id bs n em t p i, b, c, l, L, base, wf, hp => Left.plain (codeArr_noHole wf.1 wf.2)
  | .expr e, b, c, l, L, base, wf, hp => Left.plain (codeV_noHole wf base)
  | .case e s, b, c, l, L, base, wf, hp => by
    refine Left.join ?_ (placed_left s b c l L _ wf.2 hp.2)
    have hE := noHole_not (codeE_shape L.displs e (base + 1) wf.1).2.2
    refine ⟨fun _ m => ?_, fun _ m => ?_, fun e => by rw [hp.1] at e; cases e⟩
    · simp [vals] at m; exact hE.1 m
    · simp [vals] at m; exact hE.2.1 m
  | .default s, b, c, l, L, base, wf, hp => by
    refine Left.join ⟨fun _ m => (by simp at m), fun _ m => (by simp at m), fun e => by rw [hp.1] at e; cases e⟩ (placed_left s b c l L _ wf hp.2)
  | .if_ e s, b, c, l, L, base, wf, hp =>
    (Left.plain (noHole_add (codeE_shape _ e _ wf.1).2.2 _)).join (placed_left s b c l L _ wf.2 hp)
  | .ifElse e x y, b, c, l, L, base, wf, hp =>
    (((Left.plain (noHole_add (codeE_shape _ e _ wf.1).2.2 _)).join (placed_left x b c l L _ wf.2.1 hp.1)).join (Left.plain (noHole_vals _))).join
      (placed_left y b c l _ _ wf.2.2 hp.2)
  | .switch e s, b, c, l, L, base, wf, hp => by
    have h := placed_left s true c true L (base + (codeE L.displs base e).length) wf.2 hp
    have hE := noHole_not (codeE_shape L.displs e base wf.1).2.2
    refine ⟨fun _ m => ?_, fun ec m => ?_, fun _ => rfl⟩
    · rcases List.mem_append.1 m with m | m
      · exact hE.1 m
      · exact not_mem_fill _ _ _ (by simp) m
    · rcases List.mem_append.1 m with m | m
      · exact hE.2.1 m
      · exact h.2.1 ec (mem_fill (mem_fill m (by simp)).1 (by simp)).1
  | .while_ e s, b, c, l, L, base, wf, hp =>
    ((Left.plain (noHole_add (codeE_shape _ e _ wf.1).2.2 _)).join (placed_left s true true l L _ wf.2 hp).loop).join (Left.plain (noHole_vals _))
  | .do_ s e, b, c, l, L, base, wf, hp =>
    (placed_left s true true l L _ wf.2 hp).loop.join (Left.plain (noHole_add (codeE_shape _ e _ wf.1).2.2 _))
  | .for_ i e n s, b, c, l, L, base, wf, hp =>
    (((placed_left i b c l L base wf.1 hp.1).join (Left.plain (noHole_add (codeOpt_noHole wf.2.1 _) _))).join
      (placed_left s true true l _ _ wf.2.2.2 hp.2).loop).join (Left.plain (noHole_add (codeOptV_noHole wf.2.2.1 _) _))
  | .continue_, b, c, l, L, base, _, hp => by
    refine ⟨fun _ m => ?_, fun e => ?_, fun _ => rfl⟩
    · simp [codeS, plain] at m
    · have : c = true := hp; rw [this] at e; cases e
  | .break_, b, c, l, L, base, _, hp => by
    refine ⟨fun e => ?_, fun _ m => ?_, fun _ => rfl⟩
    · have : b = true := hp; rw [this] at e; cases e
    · simp [codeS, plain] at m
  | .return_ none, b, c, l, L, base, _, _ => Left.plain (noHole_vals _)
  | .return_ (some (e, n)), b, c, l, L, base, wf, _ => Left.plain (noHole_add (codeE_shape _ e _ (wf _ rfl)).2.2 _)

/-- A statement on its own leaves nothing open. -/
theorem placed_closed {s : Stmt} (L : Layout) (base : Nat) (wf : s.Wf) (hp : s.Placed false false false) :
    NoHole (codeS L base s).code ∧ codeS L base s = plain (codeS L base s).code := by
  obtain ⟨h1, h2, h3⟩ := placed_left s false false false L base wf hp
  obtain ⟨o1, o2, o3⟩ := codeS_ok s L base wf
  have hl := h3 rfl
  have hpd : (codeS L base s).pend = none := by
    rw [hl] at o1
    cases h : (codeS L base s).pend with
    | none => rfl
    | some a => rw [h] at o1; simp at o1
  refine ⟨fun x hx => ⟨?_, ?_, ?_⟩, ?_⟩
  · rintro rfl; exact h1 rfl hx
  · rintro rfl; exact h2 rfl hx
  · rintro rfl
    obtain ⟨i, hi⟩ := List.getElem?_of_mem hx
    have := o2 i hi
    rw [hpd] at this; simp at this
  · show _ = Piece.mk _ none none
    rw [← hl, ← hpd]

/-- Appending a statement on its own. -/
theorem emitS_closed {s : Stmt} {st : Enc} (wf : s.Wf) (hp : s.Placed false false false) (ok : OkP st (codeS st.lay st.size s).code) :
    emitS st s = (app st (codeS st.lay st.size s).code).setLay (layS st.lay s) := by
  rw [emitS_app s st wf ok, (placed_closed st.lay st.size wf hp).2]
  rfl

end RuC.Codegen
