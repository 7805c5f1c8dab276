import Verif.Codegen.Pieces

/-!
# Emitting a statement appends its code
-/

namespace RuC.Codegen

open RuC RuC.Instr
open RuC.Expr (Unary Binary)

/-- The expressions of the statement are well-formed. -/
def Stmt.Wf : Stmt → Prop
  | .seq a b => a.Wf ∧ b.Wf
  | .block s | .default s => s.Wf
  | .var _ _ _ i => ∀ e, i = some e → e.Wf
  | .arr _ bs _ _ _ _ i => bs.Wf ∧ ∀ e, i = some e → e.Wf
  | .expr e => e.Wf
  | .case e s | .if_ e s | .switch e s | .while_ e s | .do_ s e => e.Wf ∧ s.Wf
  | .ifElse c a b => c.Wf ∧ a.Wf ∧ b.Wf
  | .for_ i c n s => i.Wf ∧ (∀ e, c = some e → e.Wf) ∧ (∀ e, n = some e → e.Wf) ∧ s.Wf
  | .return_ e => ∀ p, e = some p → p.1.Wf
  | _ => True

/-! ### Holes of functions -/

def Sym.fnOf : Sym → Option Nat
  | .fn f => some f
  | _ => none

/-- Where the holes of functions are. -/
def shape (A : List Sym) : List (Option Nat) := A.map Sym.fnOf

@[simp] theorem shape_append (A B) : shape (A ++ B) = shape A ++ shape B := by simp [shape]
@[simp] theorem shape_nil : shape [] = [] := rfl
@[simp] theorem shape_cons (x A) : shape (x :: A) = x.fnOf :: shape A := rfl
@[simp] theorem fnOf_val (v) : Sym.fnOf (.val v) = none := rfl
@[simp] theorem fnOf_brk : Sym.fnOf .brk = none := rfl
@[simp] theorem fnOf_cont : Sym.fnOf .cont = none := rfl
@[simp] theorem fnOf_next : Sym.fnOf .next = none := rfl

theorem shape_fill {k v A} (hk : k.fnOf = none) : shape (fill k v A) = shape A := by
  induction A with
  | nil => rfl
  | cons x A ih =>
    have e : fill k v (x :: A) = (if x = k then .val v else x) :: fill k v A := rfl
    rw [e, shape_cons, shape_cons, ih]
    congr 1
    split
    · rename_i h; rw [h, hk]; rfl
    · rfl

@[simp] theorem shape_toLabel (l A) : shape (toLabel l A) = shape A := by
  cases l with
  | none => rfl
  | some l => exact shape_fill rfl

theorem shape_length {A B} (h : shape A = shape B) : A.length = B.length := by
  have := congrArg List.length h
  simpa [shape] using this

theorem get_shape {A : List Sym} {i : Nat} {f} : A[i]? = some (.fn f) ↔ (shape A)[i]? = some (some f) := by
  simp only [shape, List.getElem?_map, Option.map_eq_some_iff]
  constructor
  · intro h; exact ⟨_, h, rfl⟩
  · rintro ⟨x, hx, e⟩
    cases x <;> simp [Sym.fnOf] at e
    subst e; exact hx

theorem calm_shape {A B base} (h : shape A = shape B) (hc : Calm base A) : Calm base B := by
  obtain ⟨h1, h2⟩ := hc
  refine ⟨fun i f hi => h1 i f ?_, by rw [← shape_length h]; exact h2⟩
  rw [get_shape, h, ← get_shape]; exact hi

/-- The state allows the piece to be appended. -/
def OkP (st : Enc) (A : List Sym) : Prop := Ok st A ∧ Waits st

theorem OkP.app_ok {st : Enc} {A : List Sym} (h : OkP st A) (B : List Sym) (hB : shape A = shape B) : Ok st B :=
  ⟨h.1.1, calm_shape hB h.1.2⟩

/-- What is left when a piece of the same shape is appended. -/
theorem OkP.right {st : Enc} {A : List Sym} (h : OkP st A) {P : Piece} {B : List Sym} (hA : shape A = shape P.code ++ shape B) (hP : P.Ok st.size) : OkP (appP st P) B := by
  have hA' : shape A = shape (P.code ++ B) := by rw [shape_append]; exact hA
  have hc := calm_shape hA' h.1.2
  have := Ok.right (st := st) (A := P.code) (B := B) ⟨h.1.1, hc⟩
  refine ⟨⟨?_, ?_⟩, hP.waits h.2⟩
  · rw [appP_heads]; exact this.1
  · rw [appP_size]; exact (calm_append hc).2

theorem OkP.of_heads {st st' : Enc} {A B : List Sym} (h : OkP st A) (hf : st'.fn = st.fn) (hs : st'.size = st.size) (hn : st'.next < st'.size)
    (hAB : shape A = shape B) : OkP st' B := by
  refine ⟨⟨?_, ?_⟩, ?_⟩
  · intro f
    have := h.1.1 f
    simp only [Enc.heads] at this ⊢
    rw [hf]; exact this
  · rw [hs]; exact calm_shape hAB h.1.2
  · exact ⟨by rw [hs]; exact h.2.1, hn⟩

theorem OkP.prefix {st : Enc} {A B C : List Sym} (h : OkP st A) (hA : shape A = shape (B ++ C)) : OkP st B :=
  ⟨(h.app_ok _ hA).left, h.2⟩

/-! ### Appending to pieces -/

theorem patch_setNext (st : Enc) (a b : Nat) (v : Int) (n : Nat) : (st.setNext n).patch a b v = (st.patch a b v).setNext n := by
  unfold Enc.patch
  simp only [Enc.setNext]
  split <;> rfl

@[simp] theorem brk_toLabel (st : Enc) (l) : (st.toLabel l).brk = st.brk := congrArg Heads.brk (heads_toLabel st l)
@[simp] theorem cont_toLabel (st : Enc) (l) : (st.toLabel l).cont = st.cont := congrArg Heads.cont (heads_toLabel st l)

theorem endBreakP (st : Enc) (P : Piece) (hb : st.brk = 0) (h0 : 0 < st.size) (hsz : st.size + P.code.length < 4611686018427387904) :
    (appP st P).endBreak = appP st (P.fill .brk ((st.size + P.code.length : Nat) : Int)) := by
  have h := endBreak_app (st.toLabel P.label) P.code (by simpa using hb) (by simpa using h0) (by simpa using hsz)
  rw [size_toLabel] at h
  unfold appP
  have e : ((app (st.toLabel P.label) P.code).setNext (nextOf st.next P.pend)).endBreak = ((app (st.toLabel P.label) P.code).endBreak).setNext (nextOf st.next P.pend) := by
    unfold Enc.endBreak
    rw [patch_setNext]; rfl
  rw [e, h]; rfl

theorem endConditionP (st : Enc) (P : Piece) (hb : st.cont = 0) (h0 : 0 < st.size) (hsz : st.size + P.code.length < 4611686018427387904) :
    (appP st P).endCondition = appP st (P.fill .cont ((st.size + P.code.length : Nat) : Int)) := by
  have h := endCondition_app (st.toLabel P.label) P.code (by simpa using hb) (by simpa using h0) (by simpa using hsz)
  rw [size_toLabel] at h
  unfold appP
  have e : ((app (st.toLabel P.label) P.code).setNext (nextOf st.next P.pend)).endCondition = ((app (st.toLabel P.label) P.code).endCondition).setNext (nextOf st.next P.pend) := by
    unfold Enc.endCondition
    rw [patch_setNext]; rfl
  rw [e, h]; rfl

theorem beginConditionP (st : Enc) (P : Piece) (hb : st.cont = st.size) (hA : P.code[0]? ≠ some .cont) (hsz : st.size + P.code.length < 4611686018427387904) :
    (appP st P).beginCondition st.size = appP st (P.fill .cont (st.size : Int)) := by
  have h := beginCondition_app (st.toLabel P.label) P.code (by simpa using hb) hA (by simpa using hsz)
  rw [size_toLabel] at h
  unfold appP
  have e : ((app (st.toLabel P.label) P.code).setNext (nextOf st.next P.pend)).beginCondition st.size = ((app (st.toLabel P.label) P.code).beginCondition st.size).setNext (nextOf st.next P.pend) := by
    unfold Enc.beginCondition
    rw [patch_setNext]; rfl
  rw [e, h]; rfl

theorem toLabel_setBrk (st : Enc) (l b) : (st.toLabel l).setBrk b = (st.setBrk b).toLabel l := by
  cases l with
  | none => rfl
  | some l =>
    by_cases h : st.next = 0
    · rw [toLabel_zero h, toLabel_zero (st := st.setBrk b) h]
    · rw [toLabel_pos h, toLabel_pos (st := st.setBrk b) h]; rfl

theorem toLabel_setCont (st : Enc) (l b) : (st.toLabel l).setCont b = (st.setCont b).toLabel l := by
  cases l with
  | none => rfl
  | some l =>
    by_cases h : st.next = 0
    · rw [toLabel_zero h, toLabel_zero (st := st.setCont b) h]
    · rw [toLabel_pos h, toLabel_pos (st := st.setCont b) h]; rfl

theorem appP_setBrk {st : Enc} {P : Piece} (b) (h : Sym.brk ∉ P.code) : (appP st P).setBrk b = appP (st.setBrk b) P := by
  unfold appP
  have e : ∀ (s : Enc) n, (s.setNext n).setBrk b = (s.setBrk b).setNext n := fun _ _ => rfl
  rw [e, app_setBrk b h, toLabel_setBrk]; rfl

theorem appP_setCont {st : Enc} {P : Piece} (b) (h : Sym.cont ∉ P.code) : (appP st P).setCont b = appP (st.setCont b) P := by
  unfold appP
  have e : ∀ (s : Enc) n, (s.setNext n).setCont b = (s.setCont b).setNext n := fun _ _ => rfl
  rw [e, app_setCont b h, toLabel_setCont]; rfl

/-- Code behind a piece. -/
theorem app_appP (st : Enc) (P : Piece) (A : List Sym) : app (appP st P) A = appP st (P.join (plain A)) := by
  rw [plain_join]
  unfold appP
  rw [← app_setNext, app_app]

/-- A hole for a `break` behind code. -/
theorem brk_hole {st : Enc} {A : List Sym} (h : Sym.brk ∉ A) : (Enc.add { app st A with brk := (app st A).size } 0) = app (st.setBrk 0) (A ++ [.brk]) := by
  have e1 := app_setBrk (st := st) 0 h
  rw [← app_app, ← e1]
  simp only [Enc.add, app, conc, cell, after, step, Enc.setBrk, Enc.heads, Enc.size]
  rfl

theorem next_hole (st : Enc) : st.add 0 = app st [.next] := by
  simp [Enc.add, app, conc, cell, after, step, Enc.heads]

/-! ### The holes of statements -/

theorem noHole_not {A} (h : NoHole A) : Sym.brk ∉ A ∧ Sym.cont ∉ A ∧ Sym.next ∉ A :=
  ⟨fun m => (h _ m).1 rfl, fun m => (h _ m).2.1 rfl, fun m => (h _ m).2.2 rfl⟩

theorem codeV_noHole {D e} (wf : e.Wf) (base) : NoHole (codeV D base e) := by
  unfold codeV
  split
  · exact (codeL_shape D e base wf).2.2
  · exact noHole_voidCode (codeE_shape D e base wf).2.2

theorem emitV_app {e : Exp} {st : Enc} (wf : e.Wf) (ok : Ok st (codeV st.lay.displs st.size e)) : emitV st e = app st (codeV st.lay.displs st.size e) := by
  unfold codeV at ok ⊢
  unfold emitV
  split at ok
  · rename_i h
    rw [if_pos h, if_pos h]
    exact (emitL_app e st wf ok).1
  · rename_i h
    rw [if_neg h, if_neg h]
    have hs := codeE_shape st.lay.displs e st.size wf
    have okl : Ok st (codeE st.lay.displs st.size e) := ⟨ok.1, calm_voidCode.1 ok.2⟩
    rw [emitE_app e st wf okl, void_app okl hs.1 hs.2.1 hs.2.2]

theorem codeVar_noHole {D base d t p i} (wf : ∀ e, i = some e → Exp.Wf e) : NoHole (codeVar D base d t p i) := by
  unfold codeVar
  cases i with
  | none => exact noHole_vals _
  | some e =>
    simp only
    exact noHole_append.2 ⟨noHole_append.2 ⟨noHole_vals _, (codeE_shape D e _ (wf e rfl)).2.2⟩, noHole_vals _⟩

theorem codeArr_noHole {D0 D base d bs n em t p i} (wb : Args.Wf bs) (wf : ∀ e, i = some e → Exp.Wf e) : NoHole (codeArr D0 D base d bs n em t p i) := by
  unfold codeArr
  cases i with
  | none =>
    simp only
    exact noHole_append.2 ⟨(codeA_shape D0 bs base wb).2.2, noHole_vals _⟩
  | some e =>
    simp only
    exact noHole_append.2 ⟨noHole_append.2 ⟨noHole_append.2 ⟨(codeA_shape D0 bs base wb).2.2, noHole_vals _⟩,
      (codeE_shape D e _ (wf e rfl)).2.2⟩, noHole_vals _⟩

theorem not_mem_fill (k v A) (hk : ∀ u, k ≠ .val u) : k ∉ fill k v A := fun h => (mem_fill h hk).2 rfl

theorem noHole_add {A} (h : NoHole A) (l) : NoHole (A ++ vals l) := noHole_append.2 ⟨h, noHole_vals l⟩

/-- The test of a `case`. -/
def testPiece (base : Nat) (E : List Sym) : Piece :=
  ⟨vals [IC_DUPLICATE] ++ E ++ vals [IC_EQ, IC_BE0] ++ [.next], some base, some (some (base + 1 + E.length + 2))⟩

theorem testPiece_ok {base E} (h : NoHole E) : (testPiece base E).Ok base := by
  have hne : Sym.next ∉ vals [IC_DUPLICATE] ++ E ++ vals [IC_EQ, IC_BE0] :=
    (noHole_not (noHole_append.2 ⟨noHole_append.2 ⟨noHole_vals _, h⟩, noHole_vals _⟩)).2.2
  refine ⟨rfl, fun i hi => ?_, fun a ha => ?_⟩
  · simp only [testPiece] at hi ⊢
    rcases getElem?_snoc _ _ _ _ hi with hi | ⟨hi, _⟩
    · exact absurd (List.mem_of_getElem? hi) hne
    · subst hi
      simp; omega
  · simp only [testPiece] at ha ⊢
    refine ⟨1 + E.length + 2, ?_, ?_⟩
    · simp at ha; omega
    · rw [List.getElem?_append_right (by simp; omega)]
      have : 1 + E.length + 2 - (vals [IC_DUPLICATE] ++ E ++ vals [IC_EQ, IC_BE0]).length = 0 := by simp; omega
      rw [this]; rfl

/-- The pieces of statements hang together. -/
theorem codeS_ok : ∀ (s : Stmt) (L : Layout) (base : Nat), s.Wf → (codeS L base s).Ok base
  | .skip, _, _, _ => plain_ok (by simp)
  | .seq a b, L, base, wf => (codeS_ok a L base wf.1).join (codeS_ok b _ _ wf.2)
  | .block s, L, base, wf => codeS_ok s L base wf
  | .var _ _ _ _, _, _, wf => plain_ok (noHole_not (codeVar_noHole wf)).2.2
  | .arr _ _ _ _ _ _ _, _, _, wf => plain_ok (noHole_not (codeArr_noHole wf.1 wf.2)).2.2
  | .expr e, _, _, wf => plain_ok (noHole_not (codeV_noHole wf _)).2.2
  | .case e s, L, base, wf => by
    rw [codeS]
    refine (testPiece_ok (codeE_shape L.displs e (base + 1) wf.1).2.2).join ?_
    have : base + (testPiece base (codeE L.displs (base + 1) e)).code.length = base + 1 + (codeE L.displs (base + 1) e).length + 3 := by
      simp [testPiece]; omega
    rw [this]
    exact codeS_ok s _ _ wf.2
  | .default s, L, base, wf => by
    rw [codeS]
    refine Piece.Ok.join ⟨rfl, fun i hi => ?_, fun a ha => ?_⟩ (codeS_ok s L _ wf)
    · simp at hi
    · simp at ha
  | .if_ c s, L, base, wf => by
    rw [codeS]
    refine (plain_ok (noHole_not (noHole_add (codeE_shape L.displs c base wf.1).2.2 _)).2.2).join ?_
    have : base + (plain (codeE L.displs base c ++ vals [IC_BE0, ((base + (codeE L.displs base c).length + 2 + (codeS L (base + (codeE L.displs base c).length + 2) s).code.length : Nat) : Int)])).code.length
        = base + (codeE L.displs base c).length + 2 := by simp [plain]; omega
    rw [this]
    exact codeS_ok s _ _ wf.2
  | .ifElse c a b, L, base, wf => by
    rw [codeS]
    have hC := (codeE_shape L.displs c base wf.1).2.2
    generalize codeE L.displs base c = C at *
    have hA := codeS_ok a L (base + C.length + 2) wf.2.1
    generalize codeS L (base + C.length + 2) a = A at *
    have hB := codeS_ok b (layS L a) (base + C.length + 2 + A.code.length + 2) wf.2.2
    generalize codeS (layS L a) (base + C.length + 2 + A.code.length + 2) b = B at *
    refine (((plain_ok (noHole_not (noHole_add hC _)).2.2).join ?_).join (plain_ok (noHole_not (noHole_vals _)).2.2)).join ?_
    · have : ∀ v, base + (plain (C ++ vals [IC_BE0, v])).code.length = base + C.length + 2 := by intro v; simp [plain]; omega
      rw [this]; exact hA
    · have : ∀ v w, base + (((plain (C ++ vals [IC_BE0, v])).join A).join (plain (vals [IC_B, w]))).code.length = base + C.length + 2 + A.code.length + 2 := by
        intro v w; simp [plain, Piece.join]; omega
      rw [this]; exact hB
  | .switch c s, L, base, wf => by
    rw [codeS]
    have hC := (codeE_shape L.displs c base wf.1).2.2
    refine plain_ok ?_
    rw [List.mem_append, not_or]
    refine ⟨(noHole_not hC).2.2, fun h => ?_⟩
    exact not_mem_fill .next _ _ (by simp) (mem_fill h (by simp)).1
  | .while_ c s, L, base, wf => by
    rw [codeS]
    have hC := (codeE_shape L.displs c base wf.1).2.2
    generalize codeE L.displs base c = C at *
    have hS := codeS_ok s L (base + C.length + 2) wf.2
    generalize codeS L (base + C.length + 2) s = S at *
    refine ((plain_ok (noHole_not (noHole_add hC _)).2.2).join ?_).join (plain_ok (noHole_not (noHole_vals _)).2.2)
    have : ∀ v, base + (plain (C ++ vals [IC_BE0, v])).code.length = base + C.length + 2 := by intro v; simp [plain]; omega
    rw [this]
    exact (hS.fill _ (by simp)).fill _ (by simp)
  | .do_ s c, L, base, wf => by
    rw [codeS]
    have hS := codeS_ok s L base wf.2
    refine ((hS.fill _ (by simp)).fill _ (by simp)).join (plain_ok (noHole_not (noHole_add (codeE_shape _ c _ wf.1).2.2 _)).2.2)
  | .for_ i c n s, L, base, wf => by
    rw [codeS]
    have hI := codeS_ok i L base wf.1
    generalize codeS L base i = I at *
    have hC : NoHole (codeOpt (layS L i).displs (base + I.code.length) c) := by
      cases c with
      | none => exact noHole_nil
      | some c => exact (codeE_shape _ c _ (wf.2.1 c rfl)).2.2
    generalize (codeOpt (layS L i).displs (base + I.code.length) c) = C at *
    have hS := codeS_ok s (layS L i) (base + I.code.length + C.length + (if c.isSome then 2 else 0)) wf.2.2.2
    generalize codeS (layS L i) (base + I.code.length + C.length + (if c.isSome then 2 else 0)) s = S at *
    have hN : NoHole (codeOptV (layS (layS L i) s).displs (base + I.code.length + C.length + (if c.isSome then 2 else 0) + S.code.length) n) := by
      cases n with
      | none => exact noHole_nil
      | some e => exact codeV_noHole (wf.2.2.1 e rfl) _
    generalize (codeOptV (layS (layS L i) s).displs (base + I.code.length + C.length + (if c.isSome then 2 else 0) + S.code.length) n) = N at *
    refine ((hI.join (plain_ok (noHole_not (noHole_add hC _)).2.2)).join ?_).join (plain_ok (noHole_not (noHole_add hN _)).2.2)
    have : ∀ v : Int, base + (I.join (plain (C ++ vals (if c.isSome then [IC_BE0, v] else [])))).code.length = base + I.code.length + C.length + (if c.isSome then 2 else 0) := by
      intro v; cases c <;> simp [plain, Piece.join] <;> omega
    rw [this]
    exact (hS.fill _ (by simp)).fill _ (by simp)
  | .continue_, _, _, _ => plain_ok (by simp)
  | .break_, _, _, _ => plain_ok (by simp)
  | .return_ none, _, _, _ => plain_ok (by simp)
  | .return_ (some (e, n)), L, base, wf => plain_ok (noHole_not (noHole_add (codeE_shape L.displs e base (wf _ rfl)).2.2 _)).2.2

/-! ### Declarations -/

theorem Ok.setLay {st : Enc} {A} (h : Ok st A) (L) : Ok (st.setLay L) A := h

theorem emitVar_app {st : Enc} {id t p i} (wf : ∀ e, i = some e → Exp.Wf e)
    (ok : Ok st (codeVar (st.lay.add id t).displs st.size ((st.lay.add id t).displs id) t p i)) :
    emitVar st id t p i = (app st (codeVar (st.lay.add id t).displs st.size ((st.lay.add id t).displs id) t p i)).setLay (st.lay.add id t) := by
  have e0 : ∀ (s : Enc) (d : Int), (if p ≠ ITEM_MAX ∧ p ≠ 0 then s.adds [IC_STRUCT_WITH_ARR, d, p] else s) =
      app s (vals (if p ≠ ITEM_MAX ∧ p ≠ 0 then [IC_STRUCT_WITH_ARR, d, p] else [])) := by
    intro s d
    split
    · exact adds_app _ _
    · simp
  unfold emitVar
  simp only [e0]
  unfold codeVar at ok ⊢
  cases i with
  | none => rw [app_setLay]; rfl
  | some e =>
    simp only at ok ⊢
    have ok2 := ok.left.right
    have h := emitE_app e (app (st.setLay (st.lay.add id t)) (vals (if p ≠ ITEM_MAX ∧ p ≠ 0 then [IC_STRUCT_WITH_ARR, (st.lay.add id t).displs id, p] else [])))
      (wf e rfl) (by rw [app_size]; exact ok2)
    rw [app_size] at h
    have e1 : ∀ s : Enc, { s with lay := s.lay.add id t } = s.setLay (s.lay.add id t) := fun _ => rfl
    rw [e1, h, adds_app, app_app, app_app, app_setLay, List.append_assoc]
    rfl

theorem emitArr_app {st : Enc} {id bs n em t p i} (wb : Args.Wf bs) (wf : ∀ e, i = some e → Exp.Wf e)
    (ok : Ok st (codeArr st.lay.displs (st.lay.add id .array).displs st.size ((st.lay.add id .array).displs id) bs n em t p i)) :
    emitArr st id bs n em t p i = (app st (codeArr st.lay.displs (st.lay.add id .array).displs st.size ((st.lay.add id .array).displs id) bs n em t p i)).setLay
      (st.lay.add id .array) := by
  unfold codeArr at ok ⊢
  unfold emitArr
  have okB : Ok st (codeA st.lay.displs st.size bs) := by
    cases i with
    | none => exact ok.left
    | some e => exact ok.left.left.left
  rw [emitA_app bs st wb okB]
  generalize hB : codeA st.lay.displs st.size bs = B at *
  simp only [app_lay]
  have e1 : { app st B with lay := st.lay.add id .array } = app (st.setLay (st.lay.add id .array)) B := rfl
  rw [e1]
  simp only [adds_app, app_app, app_size, size_setLay]
  cases i with
  | none =>
    simp only [app_setLay]
    congr 1
    simp
  | some e =>
    simp only [Option.isSome_some, if_true] at ok ⊢
    generalize (if p ≠ 0 ∧ p ≠ ITEM_MAX then p else 0) = ip at *
    generalize hd : (st.lay.add id .array).displs id = d at *
    generalize hu : (if em = true then (0 : Int) else 1) = u at *
    have okE : Ok (app st (B ++ vals [IC_DEFARR, (n : Int) - 1, t.size, d, ip, u, 1, 0]))
        (codeE (st.lay.add id .array).displs (st.size + (B ++ vals [IC_DEFARR, (n : Int) - 1, t.size, d, ip, u, 1, 0]).length) e) := by
      have := ok.left.right.placeholder [IC_DEFARR, (n : Int) - 1, t.size, d, ip, u, 1, 0] rfl
      simpa using this
    have h := emitE_app e (app (st.setLay (st.lay.add id .array)) (B ++ vals [IC_DEFARR, (n : Int) - 1, t.size, d, ip, u, 1, 0])) (wf e rfl)
      (by rw [app_size]; exact okE)
    rw [app_size] at h
    have e2 : B ++ vals [IC_DEFARR, (n : Int) - 1, t.size, d, ip] ++ vals [u, 1, 0] = B ++ vals [IC_DEFARR, (n : Int) - 1, t.size, d, ip, u, 1, 0] := by simp
    rw [e2, h]
    simp only [app_app, app_lay, lay_setLay, size_setLay]
    have e3 : ∀ v : Int, (B ++ vals [IC_DEFARR, (n : Int) - 1, t.size, d, ip, v, 1, 0]).length = B.length + 8 := by intro v; simp
    simp only [e3]
    generalize codeE (st.lay.add id .array).displs (st.size + (B.length + 8)) e = E
    rw [app_setLay]
    by_cases ho : onlyStrings e = true
    · simp only [if_pos ho]
      rw [set_app_eq (X := B ++ vals [IC_DEFARR, (n : Int) - 1, t.size, d, ip]) (u := u) (v := u + 2) (Y := vals [1, 0] ++ E) (by simp) rfl (by simp)]
      rw [app_app]
      congr 1
      simp
    · simp only [if_neg ho]
      rw [app_app]

/-! ### The theorem -/

theorem setLay_self (st : Enc) : st.setLay st.lay = st := rfl
theorem setLay_setLay (st : Enc) (L M) : (st.setLay L).setLay M = st.setLay M := rfl

/-- The destination of a forward jump is set when the code behind is there. -/
theorem jump_set {st : Enc} {C : List Sym} (Q : Piece) (i : Int) {u v : Int} {a : Nat} (hC : NoHole C) (ha : a = st.size + C.length + 1) :
    (appP st ((plain (C ++ vals [i, u])).join Q)).set a v = appP st ((plain (C ++ vals [i, v])).join Q) := by
  rw [join_plain Q (noHole_not (noHole_add hC _)).2.2, join_plain Q (noHole_not (noHole_add hC _)).2.2]
  rw [appP_set (X := C ++ vals [i]) (u := u) (Y := Q.code) (by simp) (by simp; omega)]
  simp

theorem jump_set' {st : Enc} (T Q : Piece) (i : Int) {u v : Int} {a : Nat} (ha : a = st.size + T.code.length + 1) :
    (appP st ((T.join (plain (vals [i, u]))).join Q)).set a v = appP st ((T.join (plain (vals [i, v]))).join Q) := by
  have e : ∀ w, (T.join (plain (vals [i, w]))).join Q = ⟨toLabel Q.label T.code ++ vals [i] ++ .val w :: Q.code, T.label.or Q.label, Q.pend.or T.pend⟩ := by
    intro w
    rw [plain_join]
    simp only [Piece.join]
    congr 1
    cases Q.label with
    | none => simp [toLabel]
    | some l => simp [toLabel, fill_append, fill]
  rw [e u, e v]
  exact appP_set rfl (by simp; omega)

theorem shape_some (R : List (Option Nat)) : ∃ B, shape B = R := by
  induction R with
  | nil => exact ⟨[], rfl⟩
  | cons x R ih =>
    obtain ⟨B, hB⟩ := ih
    cases x with
    | none => exact ⟨.val 0 :: B, by simp [hB]⟩
    | some f => exact ⟨.fn f :: B, by simp [hB, Sym.fnOf]⟩

/-- An expression behind a piece. -/
theorem emitE_at {st : Enc} {P : Piece} {e : Exp} {A : List Sym} {base : Nat} {R : List (Option Nat)} (wf : e.Wf) (ok : OkP st A) (hP : P.Ok st.size)
    (hb : base = st.size + P.code.length) (hA : shape A = shape P.code ++ (shape (codeE st.lay.displs base e) ++ R)) :
    emitE (appP st P) e = appP st (P.join (plain (codeE st.lay.displs base e))) := by
  obtain ⟨R, rfl⟩ := shape_some R
  have h := ok.right (P := P) (B := codeE st.lay.displs base e ++ R) (by rw [hA, shape_append]) hP
  have := emitE_app e (appP st P) wf (by rw [appP_size, appP_lay, ← hb]; exact h.1.left)
  rw [this, appP_size, appP_lay, ← hb, app_appP]

theorem emitE_first {st : Enc} {e : Exp} {A : List Sym} {R : List (Option Nat)} (wf : e.Wf) (ok : OkP st A)
    (hA : shape A = shape (codeE st.lay.displs st.size e) ++ R) :
    emitE st e = appP st (plain (codeE st.lay.displs st.size e)) := by
  obtain ⟨R, rfl⟩ := shape_some R
  rw [emitE_app e st wf (ok.app_ok (codeE st.lay.displs st.size e ++ R) (by rw [hA, shape_append])).left]; rfl

/-- The same for an expression that is a statement. -/
theorem emitV_at {st : Enc} {P : Piece} {e : Exp} {A : List Sym} {base : Nat} {R : List (Option Nat)} (wf : e.Wf) (ok : OkP st A) (hP : P.Ok st.size)
    (hb : base = st.size + P.code.length) (hA : shape A = shape P.code ++ (shape (codeV st.lay.displs base e) ++ R)) :
    emitV (appP st P) e = appP st (P.join (plain (codeV st.lay.displs base e))) := by
  obtain ⟨R, rfl⟩ := shape_some R
  have h := ok.right (P := P) (B := codeV st.lay.displs base e ++ R) (by rw [hA, shape_append]) hP
  have := emitV_app (st := appP st P) wf (by rw [appP_size, appP_lay, ← hb]; exact h.1.left)
  rw [this, appP_size, appP_lay, ← hb, app_appP]

/-- The same for a statement. -/
theorem emitS_at {st : Enc} {P : Piece} {s : Stmt} {A : List Sym} {base : Nat} {R : List (Option Nat)} (wf : s.Wf)
    (ih : ∀ st, OkP st (codeS st.lay st.size s).code → emitS st s = (appP st (codeS st.lay st.size s)).setLay (layS st.lay s))
    (ok : OkP st A) (hP : P.Ok st.size) (hb : base = st.size + P.code.length)
    (hA : shape A = shape P.code ++ (shape (codeS st.lay base s).code ++ R)) :
    emitS (appP st P) s = (appP st (P.join (codeS st.lay base s))).setLay (layS st.lay s) := by
  obtain ⟨R, rfl⟩ := shape_some R
  have h := ok.right (P := P) (B := (codeS st.lay base s).code ++ R) (by rw [hA, shape_append]) hP
  have := ih (appP st P) (by rw [appP_size, appP_lay, ← hb]; exact h.prefix rfl)
  rw [this, appP_size, appP_lay, ← hb, appP_appP hP (codeS_ok s _ _ wf).1 ok.2]

theorem emitS_first {st : Enc} {s : Stmt} {A : List Sym} {R : List (Option Nat)}
    (ih : ∀ st, OkP st (codeS st.lay st.size s).code → emitS st s = (appP st (codeS st.lay st.size s)).setLay (layS st.lay s))
    (ok : OkP st A) (hA : shape A = shape (codeS st.lay st.size s).code ++ R) :
    emitS st s = (appP st (codeS st.lay st.size s)).setLay (layS st.lay s) := by
  obtain ⟨R, rfl⟩ := shape_some R
  exact ih st (ok.prefix (C := R) (by rw [hA, shape_append]))

theorem set_setLay (X : Enc) (L : Layout) (i v) : (X.setLay L).set i v = (X.set i v).setLay L := rfl
theorem shape_vals2 (a b) : shape (vals [a, b]) = [none, none] := rfl

theorem adds_at (st : Enc) (P : Piece) (l) : (appP st P).adds l = appP st (P.join (plain (vals l))) := by rw [adds_app, app_appP]
theorem add_at (st : Enc) (P : Piece) (v) : (appP st P).add v = appP st (P.join (plain (vals [v]))) := by rw [add_app, app_appP]

theorem plain_plain (A B) : (plain A).join (plain B) = plain (A ++ B) := by rw [plain_join]; rfl

theorem join_join_plain (P : Piece) (A B) : (P.join (plain A)).join (plain B) = P.join (plain (A ++ B)) := by
  rw [plain_join, plain_join, plain_join]; simp

@[simp] theorem plain_code (A) : (plain A).code = A := rfl
@[simp] theorem shape_join (P Q : Piece) : shape (P.join Q).code = shape P.code ++ shape Q.code := by simp [Piece.join]
@[simp] theorem length_join (P Q : Piece) : (P.join Q).code.length = P.code.length + Q.code.length := by simp [Piece.join]
@[simp] theorem length_fillP (P : Piece) (k v) : (P.fill k v).code.length = P.code.length := by simp [Piece.fill]
@[simp] theorem shape_fill_brk (v A) : shape (fill .brk v A) = shape A := shape_fill rfl
@[simp] theorem shape_fill_cont (v A) : shape (fill .cont v A) = shape A := shape_fill rfl
@[simp] theorem shape_fill_next (v A) : shape (fill .next v A) = shape A := shape_fill rfl
@[simp] theorem shape_fillP_brk (P : Piece) (v) : shape (P.fill .brk v).code = shape P.code := shape_fill rfl
@[simp] theorem shape_fillP_cont (P : Piece) (v) : shape (P.fill .cont v).code = shape P.code := shape_fill rfl

theorem fillP_plain {k v A} (h : k ∉ A) : (plain A).fill k v = plain A := by
  simp [Piece.fill, plain, fill_of_not_mem h]

theorem join_not_mem {P Q : Piece} {k : Sym} (hk : ∀ u, k ≠ .val u) (hP : k ∉ P.code) (hQ : k ∉ Q.code) : k ∉ (P.join Q).code := by
  simp only [Piece.join, List.mem_append, not_or]
  refine ⟨fun h => ?_, hQ⟩
  cases hl : Q.label with
  | none => rw [hl] at h; exact hP h
  | some l => rw [hl] at h; exact hP (mem_fill h hk).1

/-- The end of a `switch` for the last test. -/
def Enc.endNext (st : Enc) : Enc := if st.next > 0 then st.set st.next st.size else st

/-- The operand of the test of a loop. -/
def Enc.hole (st : Enc) : Enc := Enc.add { st with brk := st.size } 0

theorem emitS_switch (st c s) : emitS st (.switch c s) =
    (((emitS (emitE ((st.setBrk 0).setNext 0) c) s).endNext.endBreak).setBrk st.brk).setNext st.next := by
  rw [emitS]; rfl

theorem emitS_while (st c s) : emitS st (.while_ c s) =
    ((((((emitS ((emitE (st.setCont st.size) c).add IC_BE0).hole s).beginCondition st.size).add IC_B).add st.size).endBreak).setBrk st.brk).setCont st.cont := by
  rw [emitS]; rfl

theorem emitS_do (st c s) : emitS st (.do_ s c) =
    (((((emitE ((emitS ((st.setCont 0).setBrk 0) s).endCondition) c).add IC_BNE0).add st.size).endBreak).setBrk st.brk).setCont st.cont := by
  rw [emitS]; rfl

/-- The loop of a `for`, behind its first part. -/
def emitLoop (st : Enc) (c inc : Option Exp) (s : Stmt) : Enc :=
  ((((emitOptV (emitS (emitTest ((st.setCont 0).setBrk 0) c) s).endCondition inc).add IC_B).add st.size).endBreak.setBrk st.brk).setCont st.cont

theorem emitS_for (st i c n s) : emitS st (.for_ i c n s) =
    (emitLoop (emitS st i) c n s).setLay { (emitLoop (emitS st i) c n s).lay with displ := st.lay.displ } := by
  rw [emitS]; rfl

theorem endNextP {st : Enc} {P : Piece} (h : P.Ok st.size) (hw : Waits st) (hn : st.next = 0) :
    (appP st P).endNext = appP st { P with code := fill .next ((st.size + P.code.length : Nat) : Int) P.code } := by
  have e : (appP st P).endNext = (appP st P).toLabel (some (appP st P).size) := by
    by_cases h0 : (appP st P).next = 0
    · rw [toLabel_zero h0]; unfold Enc.endNext; rw [if_neg (by omega)]
    · rw [toLabel_pos h0]; unfold Enc.endNext; rw [if_pos (by omega)]
  rw [e, appP_toLabel h hw, appP_size]
  split
  · rw [toLabel_zero hn]
  · rfl

/-- The end of a loop. -/
theorem loop_end (st : Enc) (x : Nat) (L : Layout) (V W : Piece) (h0 : 0 < st.size) (hsz : st.size + V.code.length < 4611686018427387904)
    (hW : V.fill .brk ((st.size + V.code.length : Nat) : Int) = W) (hc : Sym.cont ∉ V.code) :
    ((appP (((st.setCont x).setBrk 0).setLay L) V).endBreak.setBrk st.brk).setCont st.cont = (appP st W).setLay L := by
  rw [endBreakP (((st.setCont x).setBrk 0).setLay L) V rfl h0 hsz]
  simp only [size_setLay, size_setBrk, size_setCont]
  have h1 : Sym.brk ∉ (V.fill .brk ((st.size + V.code.length : Nat) : Int)).code := not_mem_fill _ _ _ (by simp)
  have h2 : Sym.cont ∉ (V.fill .brk ((st.size + V.code.length : Nat) : Int)).code := fun h => hc (mem_fill h (by simp)).1
  rw [appP_setBrk _ h1, appP_setCont _ h2, hW, appP_setLay]
  rfl

/-- The code of the loop of a `for`. -/
def loopPiece (L : Layout) (test : Nat) (c inc : Option Exp) (s : Stmt) : Piece :=
  let C := codeOpt L.displs test c
  let body := test + C.length + (if c.isSome then 2 else 0)
  let S := codeS L body s
  let step := body + S.code.length
  let N := codeOptV (layS L s).displs step inc
  let after := step + N.length + 2
  let T := C ++ vals (if c.isSome then [IC_BE0, (after : Int)] else [])
  ((plain T).join ((S.fill .cont step).fill .brk after)).join (plain (N ++ vals [IC_B, (test : Int)]))

theorem codeS_for (L base) (i : Stmt) (c n : Option Exp) (s : Stmt) (wf : s.Wf) :
    codeS L base (.for_ i c n s) = (codeS L base i).join (loopPiece (layS L i) (base + (codeS L base i).code.length) c n s) := by
  have hcode : ∀ (P : Piece) (T N : List Sym) (Q : Piece), Q.label.isSome = Q.pend.isSome → ((P.join (plain T)).join Q).join (plain N) = P.join (((plain T).join Q).join (plain N)) := by
    intro P T N Q hQ
    rw [join_assoc P _ _ rfl, join_assoc P _ _ (by simp [Piece.join, plain, hQ])]
  rw [codeS]
  exact hcode _ _ _ _ (codeS_ok s _ _ wf).1

theorem codeOpt_noHole {D c} (wf : ∀ e, c = some e → Exp.Wf e) (base) : NoHole (codeOpt D base c) := by
  cases c with
  | none => exact noHole_nil
  | some e => exact (codeE_shape D e base (wf e rfl)).2.2

theorem codeOptV_noHole {D c} (wf : ∀ e, c = some e → Exp.Wf e) (base) : NoHole (codeOptV D base c) := by
  cases c with
  | none => exact noHole_nil
  | some e => exact codeV_noHole (wf e rfl) base

/-- The test with its hole. -/
def testHole (c : Option Exp) : List Sym := if c.isSome then [.val IC_BE0, .brk] else []

theorem emitTest_app {X : Enc} {c : Option Exp} {A R} (wf : ∀ e, c = some e → Exp.Wf e) (ok : OkP X A)
    (hA : shape A = shape (codeOpt X.lay.displs X.size c) ++ R) : emitTest (X.setBrk 0) c = app (X.setBrk 0) (codeOpt X.lay.displs X.size c ++ testHole c) := by
  cases c with
  | none => exact (app_nil _).symm
  | some e =>
    have ok1 : OkP (X.setBrk 0) A := ok.of_heads rfl rfl ok.2.2 rfl
    have hs := codeE_shape X.lay.displs e X.size (wf e rfl)
    have h : emitTest (X.setBrk 0) (some e) = ((emitE (X.setBrk 0) e).add IC_BE0).hole := rfl
    rw [h, emitE_first (st := X.setBrk 0) (wf e rfl) ok1 hA, add_at, plain_plain, appP_plain]
    have eh : ∀ (X : Enc) A, Sym.brk ∉ A → (app X A).hole = app (X.setBrk 0) (A ++ [.brk]) := fun _ _ h => brk_hole h
    simp only [lay_setBrk, size_setBrk]
    rw [eh _ _ (noHole_not (noHole_add hs.2.2 _)).1, List.append_assoc]
    rfl

theorem emitOptV_at {st : Enc} {P : Piece} {e : Option Exp} {A : List Sym} {base : Nat} {R : List (Option Nat)} (wf : ∀ x, e = some x → Exp.Wf x) (ok : OkP st A) (hP : P.Ok st.size)
    (hb : base = st.size + P.code.length) (hA : shape A = shape P.code ++ (shape (codeOptV st.lay.displs base e) ++ R)) :
    emitOptV (appP st P) e = appP st (P.join (plain (codeOptV st.lay.displs base e))) := by
  cases e with
  | none =>
    rw [emitOptV, codeOptV, plain_join]; simp
  | some e => exact emitV_at (wf e rfl) ok hP hb hA

theorem loop_app {X : Enc} {c n : Option Exp} {s : Stmt} (wc : ∀ e, c = some e → Exp.Wf e) (wn : ∀ e, n = some e → Exp.Wf e) (ws : s.Wf)
    (ih : ∀ st, OkP st (codeS st.lay st.size s).code → emitS st s = (appP st (codeS st.lay st.size s)).setLay (layS st.lay s))
    (ok : OkP X (loopPiece X.lay X.size c n s).code) : emitLoop X c n s = (appP X (loopPiece X.lay X.size c n s)).setLay (layS X.lay s) := by
  unfold loopPiece at ok ⊢
  unfold emitLoop
  simp only at ok ⊢
  have ok1 : OkP (X.setCont 0) _ := ok.of_heads (st' := X.setCont 0) rfl rfl ok.2.2 rfl
  rw [emitTest_app (X := X.setCont 0) wc ok1 (by simp only [shape_join, plain_code, shape_append, List.append_assoc]; rfl)]
  simp only [lay_setCont, size_setCont]
  have hC := codeOpt_noHole (D := X.lay.displs) wc X.size
  generalize codeOpt X.lay.displs X.size c = C at *
  have hH : testHole c = [] ∧ c.isSome = false ∨ testHole c = [.val IC_BE0, .brk] ∧ c.isSome = true := by cases c <;> simp [testHole]
  have hHl : (testHole c).length = (if c.isSome then 2 else 0) := by
    rcases hH with ⟨h1, h2⟩ | ⟨h1, h2⟩ <;> simp [h1, h2]
  have hHs : ∀ v : Int, shape (testHole c) = shape (vals (if c.isSome then [IC_BE0, v] else [])) := by
    intro v; rcases hH with ⟨h1, h2⟩ | ⟨h1, h2⟩ <;> simp [h1, h2]
  have hHn : Sym.next ∉ testHole c ∧ Sym.cont ∉ testHole c := by
    rcases hH with ⟨h1, h2⟩ | ⟨h1, h2⟩ <;> simp [h1]
  have hHf : ∀ v : Int, fill .brk v (testHole c) = vals (if c.isSome then [IC_BE0, v] else []) := by
    intro v; rcases hH with ⟨h1, h2⟩ | ⟨h1, h2⟩ <;> simp [h1, h2, fill]
  have hP : (plain (C ++ testHole c)).Ok X.size := plain_ok (by simp [(noHole_not hC).2.2, hHn.1])
  have ok2 : OkP ((X.setCont 0).setBrk 0) _ := ok.of_heads (st' := (X.setCont 0).setBrk 0) rfl rfl ok.2.2 rfl
  have e1 := emitS_at (st := (X.setCont 0).setBrk 0) (P := plain (C ++ testHole c)) (base := X.size + C.length + (if c.isSome then 2 else 0)) ws ih ok2 hP
    (by simp [hHl]; omega) (by
      simp only [shape_join, shape_fillP_brk, shape_fillP_cont, plain_code, shape_append, List.append_assoc, ← hHs]; rfl)
  rw [appP_plain] at e1
  rw [e1]
  simp only [lay_setCont, lay_setBrk]
  generalize hbody : X.size + C.length + (if c.isSome then 2 else 0) = body at *
  have hS := codeS_ok s X.lay body ws
  generalize codeS X.lay body s = S at *
  have hN := codeOptV_noHole (D := (layS X.lay s).displs) wn (body + S.code.length)
  have hsz : body + S.code.length + (codeOptV (layS X.lay s).displs (body + S.code.length) n).length + 2 < 4611686018427387904 := by
    have := ok.1.2.2
    simp only [length_join, plain_code, length_fillP, List.length_append, vals_length, List.length_cons, List.length_nil, ← shape_length (hHs _), hHl] at this
    omega
  have hW : ((plain (C ++ testHole c)).join S).Ok X.size := hP.join (by
    have : X.size + (plain (C ++ testHole c)).code.length = body := by simp [hHl]; omega
    rw [this]; exact hS)
  have hWl : X.size + ((plain (C ++ testHole c)).join S).code.length = body + S.code.length := by simp [hHl]; omega
  rw [appP_setLay, endConditionP (((X.setCont 0).setBrk 0).setLay (layS X.lay s)) _ rfl ok.2.1 (by
    simp only [size_setLay, size_setBrk, size_setCont, hWl]; omega)]
  simp only [size_setLay, size_setBrk, size_setCont, hWl]
  have ok3 : OkP (((X.setCont 0).setBrk 0).setLay (layS X.lay s)) _ := ok2.of_heads (st' := ((X.setCont 0).setBrk 0).setLay (layS X.lay s)) rfl rfl ok.2.2 rfl
  rw [emitOptV_at (st := ((X.setCont 0).setBrk 0).setLay (layS X.lay s)) (base := body + S.code.length) (R := [none, none]) wn ok3 (hW.fill _ (by simp))
    (by rw [length_fillP]; exact hWl.symm) (by
      simp only [shape_join, shape_fillP_brk, shape_fillP_cont, plain_code, shape_append, List.append_assoc, ← hHs, lay_setLay]; rfl)]
  simp only [lay_setLay]
  generalize codeOptV (layS X.lay s).displs (body + S.code.length) n = N at *
  rw [add_at, add_at, join_join_plain, join_join_plain]
  have ea : X.size + ((Piece.fill .cont ((body + S.code.length : Nat) : Int) ((plain (C ++ testHole c)).join S)).join (plain (N ++ (vals [IC_B] ++ vals [(X.size : Int)])))).code.length =
      body + S.code.length + N.length + 2 := by
    rw [length_join, length_fillP, ← Nat.add_assoc, hWl]; simp [Nat.add_assoc]
  refine loop_end X 0 (layS X.lay s) _ _ ok.2.1 (by rw [ea]; exact hsz) ?_ (join_not_mem (by simp) (not_mem_fill _ _ _ (by simp)) (by simp [(noHole_not hN).2.1]))
  rw [ea]
  rw [fill_join _ _ (by simp) (by simp), fill_join _ _ (by simp) (by simp), fill_join _ _ (by simp) (by simp)]
  rw [fillP_plain (k := .cont) (A := C ++ _) (by simp [(noHole_not hC).2.1, hHn.2]), fillP_plain (A := N ++ _) (by simp [(noHole_not hN).1])]
  have e4 : ∀ v : Int, (plain (C ++ testHole c)).fill .brk v = plain (C ++ vals (if c.isSome then [IC_BE0, v] else [])) := by
    intro v
    simp only [Piece.fill, plain, fill_append, fill_of_not_mem (noHole_not hC).1, hHf]
  rw [e4]
  rfl

/-- `emit_statement` appends the code of the statement. -/
theorem emitS_app : ∀ (s : Stmt) (st : Enc), s.Wf → OkP st (codeS st.lay st.size s).code →
    emitS st s = (appP st (codeS st.lay st.size s)).setLay (layS st.lay s)
  | .skip, st, _, _ => by
    rw [emitS, codeS, appP_plain, app_nil]; rfl
  | .seq a b, st, wf, ok => by
    rw [codeS] at ok ⊢
    have hA := codeS_ok a st.lay st.size wf.1
    have okA : OkP st (codeS st.lay st.size a).code := ok.prefix (C := (codeS (layS st.lay a) (st.size + (codeS st.lay st.size a).code.length) b).code) (by simp)
    rw [emitS, emitS_app a st wf.1 okA, appP_setLay]
    have h2 := emitS_at (st := st.setLay (layS st.lay a)) (P := codeS st.lay st.size a) (base := st.size + (codeS st.lay st.size a).code.length) (R := []) wf.2
      (fun st ok => emitS_app b st wf.2 ok) (ok.of_heads rfl rfl ok.2.2 rfl) hA rfl (by simp)
    rw [h2]
    rw [← appP_setLay, setLay_setLay]
    rfl
  | .block s, st, wf, ok => by
    rw [codeS] at ok ⊢
    rw [emitS, emitS_app s st wf ok]
    rfl
  | .var id t p i, st, wf, ok => by
    rw [codeS] at ok ⊢
    exact emitVar_app wf ok.1
  | .arr id bs n em t p i, st, wf, ok => by
    rw [codeS] at ok ⊢
    exact emitArr_app wf.1 wf.2 ok.1
  | .expr e, st, wf, ok => by
    rw [codeS] at ok ⊢
    exact emitV_app wf ok.1
  | .case e s, st, wf, ok => by
    rw [codeS] at ok ⊢
    have hE := codeE_shape st.lay.displs e (st.size + 1) wf.1
    have eL : (if st.next ≠ 0 then st.set st.next (st.size : Int) else st) = st.toLabel (some st.size) := rfl
    rw [emitS]
    simp only [eL]
    have ok1 : OkP (st.toLabel (some st.size)) _ := ok.of_heads (st' := st.toLabel (some st.size)) (congrArg Heads.fn (heads_toLabel st _)) (size_toLabel st _)
      (by rw [size_toLabel, next_toLabel]; exact ok.2.2) rfl
    have h1 := emitE_at (st := st.toLabel (some st.size)) (P := plain (vals [IC_DUPLICATE])) (e := e) (base := st.size + 1)
      (R := shape (vals [IC_EQ, IC_BE0] ++ [.next] ++ (codeS st.lay (st.size + 1 + (codeE st.lay.displs (st.size + 1) e).length + 3) s).code)) wf.1 ok1
      (plain_ok (by simp)) (by simp [plain]) (by simp)
    rw [appP_plain, ← add_app, lay_toLabel, plain_plain] at h1
    rw [h1, adds_at, plain_plain, next_hole]
    generalize hEe : codeE st.lay.displs (st.size + 1) e = E at *
    have e1 : { app (appP (st.toLabel (some st.size)) (plain (vals [IC_DUPLICATE] ++ E ++ vals [IC_EQ, IC_BE0]))) [Sym.next] with
        next := (appP (st.toLabel (some st.size)) (plain (vals [IC_DUPLICATE] ++ E ++ vals [IC_EQ, IC_BE0]))).size } = appP st (testPiece st.size E) := by
      rw [appP_plain, app_app, app_size, size_toLabel]
      have : st.size + (vals [IC_DUPLICATE] ++ E ++ vals [IC_EQ, IC_BE0]).length = st.size + 1 + E.length + 2 := by simp; omega
      rw [this]
      rfl
    rw [e1]
    exact emitS_at (R := []) wf.2 (fun st ok => emitS_app s st wf.2 ok) ok (testPiece_ok hE.2.2) (by simp [testPiece]; omega) (by simp [testPiece])
  | .default s, st, wf, ok => by
    rw [codeS] at ok ⊢
    have eL : (if st.next ≠ 0 then st.set st.next (st.size : Int) else st) = st.toLabel (some st.size) := rfl
    rw [emitS]
    simp only [eL]
    have e1 : { st.toLabel (some st.size) with next := 0 } = appP st ⟨[], some st.size, some none⟩ := by
      unfold appP
      simp only [app_nil, nextOf]
      rfl
    rw [e1]
    exact emitS_at (R := []) wf (fun st ok => emitS_app s st wf ok) ok ⟨rfl, fun i hi => by simp at hi, fun a ha => by simp at ha⟩ (by simp) (by simp)
  | .if_ c s, st, wf, ok => by
    rw [codeS] at ok ⊢
    have hC := codeE_shape st.lay.displs c st.size wf.1
    rw [emitS, emitE_first wf.1 ok (by simp only [shape_join, plain_code, shape_append, List.append_assoc]; rfl)]
    generalize codeE st.lay.displs st.size c = C at *
    have hP : ∀ v, (plain (C ++ vals [IC_BE0, v])).Ok st.size := fun v => plain_ok (noHole_not (noHole_add hC.2.2 _)).2.2
    simp only [add_at, plain_plain, List.append_assoc, appP_size]
    have e1 : C ++ (vals [IC_BE0] ++ vals [0]) = C ++ vals [IC_BE0, 0] := by simp
    have e2 := emitS_at (base := st.size + C.length + 2) (R := []) wf.2 (fun st ok => emitS_app s st wf.2 ok) ok (hP 0) (by simp; omega) (by simp)
    rw [e1, e2]
    rw [set_setLay, jump_set _ _ hC.2.2 (by simp; omega)]
    have e3 : (((appP st ((plain (C ++ vals [IC_BE0, 0])).join (codeS st.lay (st.size + C.length + 2) s))).setLay (layS st.lay s)).size : Int) =
        ((st.size + C.length + 2 + (codeS st.lay (st.size + C.length + 2) s).code.length : Nat) : Int) := by
      simp; omega
    rw [e3]
    rfl
  | .ifElse c a b, st, wf, ok => by
    rw [codeS] at ok ⊢
    have hC := codeE_shape st.lay.displs c st.size wf.1
    rw [emitS, emitE_first wf.1 ok (by simp only [shape_join, plain_code, shape_append, List.append_assoc]; rfl)]
    generalize codeE st.lay.displs st.size c = C at *
    have hP : ∀ v, (plain (C ++ vals [IC_BE0, v])).Ok st.size := fun v => plain_ok (noHole_not (noHole_add hC.2.2 _)).2.2
    simp only [add_at, plain_plain, List.append_assoc, appP_size]
    have e1 : C ++ (vals [IC_BE0] ++ vals [0]) = C ++ vals [IC_BE0, 0] := by simp
    have e2 := emitS_at (base := st.size + C.length + 2) wf.2.1 (fun st ok => emitS_app a st wf.2.1 ok) ok (hP 0) (by simp; omega) 
      (by simp only [shape_join, plain_code, shape_append, List.append_assoc, shape_vals2]; rfl)
    have hA := codeS_ok a st.lay (st.size + C.length + 2) wf.2.1
    rw [e1, e2]
    generalize codeS st.lay (st.size + C.length + 2) a = A at *
    rw [set_setLay, jump_set _ _ hC.2.2 (by simp; omega)]
    have e3 : ((((appP st ((plain (C ++ vals [IC_BE0, 0])).join A)).setLay (layS st.lay a)).size : Nat) : Int) + 2 = ((st.size + C.length + 2 + A.code.length + 2 : Nat) : Int) := by
      simp; omega
    rw [e3, appP_setLay]
    simp only [add_at, join_join_plain, appP_size, size_setLay]
    have e4 : vals [IC_B] ++ vals [0] = vals [IC_B, 0] := rfl
    rw [e4]
    generalize hT : (plain (C ++ vals [IC_BE0, ((st.size + C.length + 2 + A.code.length + 2 : Nat) : Int)])).join A = T at *
    have hTok : T.Ok st.size := by
      rw [← hT]; refine (hP _).join ?_
      have : st.size + (plain (C ++ vals [IC_BE0, ((st.size + C.length + 2 + A.code.length + 2 : Nat) : Int)])).code.length = st.size + C.length + 2 := by
        simp; omega
      rw [this]; exact hA
    have hTl : T.code.length = C.length + 2 + A.code.length := by rw [← hT]; simp
    have hT2 : ∀ v, (T.join (plain (vals [IC_B, v]))).Ok st.size := fun v => hTok.join (plain_ok (by simp))
    have ok2 : OkP (st.setLay (layS st.lay a)) _ := ok.of_heads (st' := st.setLay (layS st.lay a)) rfl rfl ok.2.2 rfl
    have e5 := emitS_at (st := st.setLay (layS st.lay a)) (P := T.join (plain (vals [IC_B, 0]))) (base := st.size + C.length + 2 + A.code.length + 2) (R := []) wf.2.2
      (fun st ok => emitS_app b st wf.2.2 ok) ok2 (hT2 0) (by simp [hTl]; omega) (by simp)
    rw [e5]
    simp only [lay_setLay]
    have hB := codeS_ok b (layS st.lay a) (st.size + C.length + 2 + A.code.length + 2) wf.2.2
    generalize codeS (layS st.lay a) (st.size + C.length + 2 + A.code.length + 2) b = B at *
    rw [set_setLay, jump_set' _ _ _ (by simp; omega)]
    have e6 : (((appP (st.setLay (layS st.lay a)) ((T.join (plain (vals [IC_B, 0]))).join B)).setLay (layS (layS st.lay a) b)).size : Int) =
        ((st.size + C.length + 2 + A.code.length + 2 + B.code.length : Nat) : Int) := by
      simp [hTl]; omega
    rw [e6, ← appP_setLay, setLay_setLay]
    rfl
  | .switch c s, st, wf, ok => by
    rw [codeS] at ok ⊢
    have hC := codeE_shape st.lay.displs c st.size wf.1
    rw [emitS_switch]
    have ok2 : OkP ((st.setBrk 0).setNext 0) _ := ok.of_heads (st' := (st.setBrk 0).setNext 0) rfl rfl ok.2.1 rfl
    rw [emitE_first (st := (st.setBrk 0).setNext 0) wf.1 ok2 (by simp only [plain_code, shape_append]; rfl)]
    simp only [lay_setNext, lay_setBrk, size_setNext, size_setBrk]
    generalize codeE st.lay.displs st.size c = C at *
    have hP : (plain C).Ok st.size := plain_ok (noHole_not hC.2.2).2.2
    have e1 := emitS_at (st := (st.setBrk 0).setNext 0) (P := plain C) (base := st.size + C.length) (R := []) wf.2 (fun st ok => emitS_app s st wf.2 ok) ok2 hP
      (by simp) (by simp)
    rw [e1]
    have hS := codeS_ok s st.lay (st.size + C.length) wf.2
    simp only [lay_setNext, lay_setBrk]
    generalize codeS st.lay (st.size + C.length) s = S at *
    have hSok : ((plain C).join S).Ok st.size := hP.join (by simpa using hS)
    have hsz : st.size + C.length + S.code.length < 4611686018427387904 := by
      have := ok.1.2.2
      simpa [Nat.add_assoc] using this
    rw [appP_setLay, endNextP (st := ((st.setBrk 0).setNext 0).setLay (layS st.lay s)) hSok ok2.2 rfl,
      endBreakP (((st.setBrk 0).setNext 0).setLay (layS st.lay s)) _ rfl ok.2.1 (by simpa [Nat.add_assoc] using hsz)]
    rw [join_plain _ (noHole_not hC.2.2).2.2]
    simp only [Piece.fill, fill_append, fill_of_not_mem (noHole_not hC.2.2).2.2, fill_of_not_mem (noHole_not hC.2.2).1, size_setLay, size_setNext, size_setBrk,
      List.length_append, fill_length]
    rw [← Nat.add_assoc]
    have hb : Sym.brk ∉ C ++ fill .brk ((st.size + C.length + S.code.length : Nat) : Int) (fill .next ((st.size + C.length + S.code.length : Nat) : Int) S.code) := by
      rw [List.mem_append, not_or]
      exact ⟨(noHole_not hC.2.2).1, not_mem_fill _ _ _ (by simp)⟩
    rw [appP_setBrk _ hb]
    have e3 : ∀ (X : Enc) (A : List Sym) l p, X.next = 0 → (appP X ⟨A, l, p⟩).setNext st.next = appP (X.setNext st.next) (plain A) := by
      intro X A l p h0
      unfold appP
      rw [toLabel_zero h0]; rfl
    rw [e3 _ _ _ _ rfl, appP_setLay]
    rfl
  | .while_ c s, st, wf, ok => by
    rw [codeS] at ok ⊢
    have hC := codeE_shape st.lay.displs c st.size wf.1
    rw [emitS_while]
    have ok1 : OkP (st.setCont st.size) _ := ok.of_heads (st' := st.setCont st.size) rfl rfl ok.2.2 rfl
    rw [emitE_first (st := st.setCont st.size) wf.1 ok1 (by simp only [shape_join, plain_code, shape_append, List.append_assoc]; rfl)]
    simp only [lay_setCont, size_setCont]
    generalize codeE st.lay.displs st.size c = C at *
    rw [add_at, plain_plain, appP_plain]
    have eh : ∀ (X : Enc) A, Sym.brk ∉ A → (app X A).hole = app (X.setBrk 0) (A ++ [.brk]) := fun _ _ h => brk_hole h
    rw [eh _ _ (noHole_not (noHole_add hC.2.2 _)).1, List.append_assoc]
    have hP : ∀ x, x ≠ .next → (plain (C ++ (vals [IC_BE0] ++ [x]))).Ok st.size := fun x hx => plain_ok (by
      simp [(noHole_not hC.2.2).2.2, Ne.symm hx])
    have ok2 : OkP ((st.setCont st.size).setBrk 0) _ := ok.of_heads (st' := (st.setCont st.size).setBrk 0) rfl rfl ok.2.2 rfl
    have e1 := emitS_at (st := (st.setCont st.size).setBrk 0) (P := plain (C ++ (vals [IC_BE0] ++ [.brk]))) (base := st.size + C.length + 2) (R := [none, none]) wf.2
      (fun st ok => emitS_app s st wf.2 ok) ok2 (hP _ (by simp)) (by simp; omega) (by simp)
    rw [appP_plain] at e1
    rw [e1]
    have hS := codeS_ok s st.lay (st.size + C.length + 2) wf.2
    simp only [lay_setCont, lay_setBrk]
    generalize codeS st.lay (st.size + C.length + 2) s = S at *
    have hsz : st.size + C.length + 2 + S.code.length + 2 < 4611686018427387904 := by
      have := ok.1.2.2
      simp only [length_join, plain_code, length_fillP, List.length_append, vals_length, List.length_cons, List.length_nil] at this
      omega
    have hcz : ((plain (C ++ (vals [IC_BE0] ++ [.brk]))).join S).code[0]? ≠ some .cont := by
      rw [join_plain _ (by simp [(noHole_not hC.2.2).2.2])]
      have hs := hC.1
      cases C with
      | nil => cases hs
      | cons x C => cases x <;> simp_all [Starts]
    rw [appP_setLay]
    have e2 := beginConditionP (((st.setCont st.size).setBrk 0).setLay (layS st.lay s)) ((plain (C ++ (vals [IC_BE0] ++ [.brk]))).join S) rfl hcz
      (by simp; omega)
    simp only [size_setLay, size_setBrk, size_setCont] at e2
    rw [e2, add_at, add_at, join_join_plain]
    refine loop_end st st.size (layS st.lay s) _ _ ok.2.1 (by simp; omega) ?_ (join_not_mem (by simp) (not_mem_fill _ _ _ (by simp)) (by simp))
    have ea : st.size + ((Piece.fill .cont (st.size : Int) ((plain (C ++ (vals [IC_BE0] ++ [Sym.brk]))).join S)).join (plain (vals [IC_B] ++ vals [(st.size : Int)]))).code.length =
        st.size + C.length + 2 + S.code.length + 2 := by simp; omega
    rw [ea]
    generalize ((st.size + C.length + 2 + S.code.length + 2 : Nat) : Int) = aft
    rw [fill_join _ _ (by simp) (by simp), fill_join _ _ (by simp) (by simp), fill_join _ _ (by simp) (by simp)]
    rw [fillP_plain (k := .cont) (A := C ++ _) (by simp [(noHole_not hC.2.2).2.1]), fillP_plain (A := vals [IC_B] ++ _) (by simp)]
    have e4 : (plain (C ++ (vals [IC_BE0] ++ [Sym.brk]))).fill .brk aft = plain (C ++ vals [IC_BE0, aft]) := by
      have : fill .brk aft (vals [IC_BE0] ++ [Sym.brk]) = vals [IC_BE0, aft] := by simp [fill]
      simp only [Piece.fill, plain, fill_append, fill_of_not_mem (noHole_not hC.2.2).1]
      rw [← fill_append, this]
    rw [e4]
    rfl
  | .do_ s c, st, wf, ok => by
    rw [codeS] at ok ⊢
    rw [emitS_do]
    have ok2 : OkP ((st.setCont 0).setBrk 0) _ := ok.of_heads (st' := (st.setCont 0).setBrk 0) rfl rfl ok.2.2 rfl
    rw [emitS_first (st := (st.setCont 0).setBrk 0) (fun st ok => emitS_app s st wf.2 ok) ok2
      (by simp only [shape_join, shape_fillP_brk, shape_fillP_cont]; rfl)]
    simp only [lay_setCont, lay_setBrk, size_setBrk, size_setCont]
    have hS := codeS_ok s st.lay st.size wf.2
    generalize codeS st.lay st.size s = S at *
    have hC := codeE_shape (layS st.lay s).displs c (st.size + S.code.length) wf.1
    have hsz : st.size + S.code.length + (codeE (layS st.lay s).displs (st.size + S.code.length) c).length + 2 < 4611686018427387904 := by
      have := ok.1.2.2
      simp only [length_join, plain_code, length_fillP, List.length_append, vals_length, List.length_cons, List.length_nil] at this
      omega
    rw [appP_setLay, endConditionP (((st.setCont 0).setBrk 0).setLay (layS st.lay s)) _ rfl ok.2.1 (by simp; omega)]
    simp only [size_setLay, size_setBrk, size_setCont]
    have ok3 : OkP (((st.setCont 0).setBrk 0).setLay (layS st.lay s)) _ := ok2.of_heads (st' := ((st.setCont 0).setBrk 0).setLay (layS st.lay s)) rfl rfl ok.2.2 rfl
    rw [emitE_at (st := ((st.setCont 0).setBrk 0).setLay (layS st.lay s)) (base := st.size + S.code.length) (R := [none, none]) wf.1 ok3 (hS.fill _ (by simp)) (by simp)
      (by simp)]
    simp only [lay_setLay]
    generalize codeE (layS st.lay s).displs (st.size + S.code.length) c = C at *
    rw [add_at, add_at, join_join_plain, join_join_plain]
    refine loop_end st 0 (layS st.lay s) _ _ ok.2.1 (by simp; omega) ?_ (join_not_mem (by simp) (not_mem_fill _ _ _ (by simp)) (by simp [(noHole_not hC.2.2).2.1]))
    have ea : st.size + ((Piece.fill .cont ((st.size + S.code.length : Nat) : Int) S).join (plain (C ++ (vals [IC_BNE0] ++ vals [(st.size : Int)])))).code.length =
        st.size + S.code.length + C.length + 2 := by simp; omega
    rw [ea, fill_join _ _ (by simp) (by simp), fillP_plain (by simp [(noHole_not hC.2.2).1])]
    rfl
  | .for_ i c n s, st, wf, ok => by
    rw [codeS_for _ _ i c n s wf.2.2.2] at ok ⊢
    rw [emitS_for]
    have hI := codeS_ok i st.lay st.size wf.1
    have hS := codeS_ok s (layS st.lay i) (st.size + (codeS st.lay st.size i).code.length + (codeOpt (layS st.lay i).displs (st.size + (codeS st.lay st.size i).code.length) c).length + (if c.isSome then 2 else 0)) wf.2.2.2
    have e0 := emitS_first (s := i) (fun st ok => emitS_app i st wf.1 ok) ok (by rw [shape_join])
    rw [e0, appP_setLay]
    have okL := ok.right (shape_join _ _) hI
    have h2 := loop_app (X := appP (st.setLay (layS st.lay i)) (codeS st.lay st.size i)) (c := c) (n := n) (s := s) wf.2.1 wf.2.2.1 wf.2.2.2
      (fun st ok => emitS_app s st wf.2.2.2 ok) (by
        have := okL.of_heads (st' := appP (st.setLay (layS st.lay i)) (codeS st.lay st.size i)) (by rw [← appP_setLay]; rfl) (by rw [← appP_setLay]; rfl)
          (by rw [← appP_setLay]; exact okL.2.2) rfl
        simp only [appP_lay, lay_setLay, appP_size, size_setLay]
        exact this)
    simp only [appP_lay, lay_setLay, appP_size, size_setLay] at h2
    rw [h2, ← appP_setLay, ← appP_setLay]
    simp only [lay_setLay, setLay_setLay]
    have hlab : (loopPiece (layS st.lay i) (st.size + (codeS st.lay st.size i).code.length) c n s).label.isSome =
        (loopPiece (layS st.lay i) (st.size + (codeS st.lay st.size i).code.length) c n s).pend.isSome := by
      simp [loopPiece, Piece.join, plain, Piece.fill, hS.1]
    rw [appP_appP hI hlab ok.2]
    rfl
  | .continue_, st, _, _ => by
    rw [codeS, emitS]
    simp [appP_plain, app, conc, cell, after, step, Enc.add, Enc.heads, Enc.size, Enc.setLay, layS]
  | .break_, st, _, _ => by
    rw [codeS, emitS]
    simp [appP_plain, app, conc, cell, after, step, Enc.add, Enc.heads, Enc.size, Enc.setLay, layS]
  | .return_ none, st, _, _ => by
    rw [codeS, emitS, add_app]; rfl
  | .return_ (some (e, n)), st, wf, ok => by
    rw [codeS] at ok ⊢
    rw [emitS, emitE_app e st (wf _ rfl) ok.1.left, adds_app, app_app]; rfl

end RuC.Codegen
