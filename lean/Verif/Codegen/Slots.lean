import Verif.Codegen.UnitSpec

/-!
# The cells of variables

Which cells a displacement means, which variables are in scope at the points of a unit, and that their cells are apart.
-/

namespace RuC.Codegen

open RuC RuC.Instr

/-! ### The meaning of displacements and scopes -/

/-- Some cells: of the globals, or of the frame of the running function. -/
structure Slot where
  global : Bool
  first : Int
  cells : Nat
  deriving DecidableEq

/-- The cells an instruction uses for a variable of the type `t` and the displacement `d`: a negative one means globals, a
positive one the frame.  A parameter that is a function is stored in the frame and has its displacement negated. -/
def slotAt (t : Ty) (d : Int) : Slot :=
  if t = .function then ⟨false, -d, t.size⟩ else if d < 0 then ⟨true, -d, t.size⟩ else ⟨false, d, t.size⟩

/-- No cell is in both. -/
def Slot.Apart (a b : Slot) : Prop := a.global ≠ b.global ∨ a.first + a.cells ≤ b.first ∨ b.first + b.cells ≤ a.first

instance (a b : Slot) : Decidable (a.Apart b) := by unfold Slot.Apart; infer_instance

/-- The cells a declaration gives to a variable. -/
def place (L : Layout) (id : Nat) (t : Ty) : Slot := slotAt t ((L.add id t).displs id)

/-- The variables in scope behind a statement, `V` being those in scope before it. -/
def seen (L : Layout) (V : List Slot) : Stmt → List Slot
  | .seq a b => seen (layS L a) (seen L V a) b
  | .var id t _ _ => place L id t :: V
  | .arr id _ _ _ _ _ _ => place L id .array :: V
  | _ => V

/-- What is in scope behind each of the declarations in a statement. -/
def points (L : Layout) (V : List Slot) : Stmt → List (List Slot)
  | .seq a b => points L V a ++ points (layS L a) (seen L V a) b
  | .var id t _ _ => [place L id t :: V]
  | .arr id _ _ _ _ _ _ => [place L id .array :: V]
  | .block s | .case _ s | .default s | .if_ _ s | .switch _ s | .while_ _ s | .do_ s _ => points L V s
  | .ifElse _ a b => points L V a ++ points (layS L a) V b
  | .for_ i _ _ s => points L V i ++ points (layS L i) (seen L V i) s
  | _ => []

/-- The parameters of a function are in scope in its body. -/
def seenParams (L : Layout) (V : List Slot) : List (Nat × Ty) → List Slot
  | [] => V
  | p :: ps => seenParams (L.add p.1 p.2) (place L p.1 p.2 :: V) ps

/-- The layout before the parameters. -/
def layBegin (L : Layout) : Layout := { L with inFunc := true, displ := DISPL_START, maxLocal := DISPL_START }

/-- What is in scope behind each of the declarations of a function, the parameters first. -/
def pointsF (L : Layout) (V : List Slot) (f : Func) : List (List Slot) :=
  let P := seenParams (layBegin L) V f.params
  P :: points (layEntry L f) P f.body

/-- The functions of a unit with the layout before them and the globals in scope. -/
def funcsIn (L : Layout) (V : List Slot) : List Top → List (Layout × List Slot × Func)
  | [] => []
  | .vars s :: rest => funcsIn (layS L s) (seen L V s) rest
  | .func f :: rest => (L, V, f) :: funcsIn (layF L f) V rest

/-! ### The invariant -/

/-- The cells are laid out. -/
structure Laid (L : Layout) (V : List Slot) : Prop where
  apart : V.Pairwise Slot.Apart
  globals : ∀ v ∈ V, v.global = true → 3 ≤ v.first ∧ v.first + v.cells ≤ L.maxGlobal
  locals : ∀ v ∈ V, v.global = false → 3 ≤ v.first ∧ v.first + v.cells ≤ L.displ
  begin_ : 3 ≤ L.displ
  max : L.displ ≤ L.maxLocal
  start : 3 ≤ L.maxGlobal

/-- The layout only grew. -/
structure Grown (L L' : Layout) : Prop where
  inFunc : L'.inFunc = true
  displ : L.displ ≤ L'.displ
  maxLocal : L.maxLocal ≤ L'.maxLocal
  maxGlobal : L'.maxGlobal = L.maxGlobal
  max : L'.displ ≤ L'.maxLocal

theorem Grown.trans {L M N} (h : Grown L M) (g : Grown M N) : Grown L N :=
  ⟨g.inFunc, Int.le_trans h.displ g.displ, Int.le_trans h.maxLocal g.maxLocal, g.maxGlobal.trans h.maxGlobal, g.max⟩

theorem Laid.grown {L L' V} (h : Laid L V) (g : Grown L L') : Laid L' V := by
  have g1 := g.displ
  have g2 := g.maxGlobal
  have g3 := g.max
  refine ⟨h.apart, fun v hv e => ?_, fun v hv e => ?_, by have := h.begin_; omega, g3, by have := h.start; omega⟩
  · have := h.globals v hv e; omega
  · have := h.locals v hv e; omega

theorem place_local {L : Layout} {V} (h : Laid L V) (hf : L.inFunc = true) (id t) : place L id t = ⟨false, L.displ, t.size⟩ := by
  have hd := h.begin_
  by_cases ht : t = .function
  · subst ht; simp [place, slotAt, Layout.add, hf, update]
  · have : ¬ L.displ < 0 := by omega
    simp [place, slotAt, Layout.add, hf, update, ht, this]

theorem Laid.add {L V} (h : Laid L V) (hf : L.inFunc = true) (id t) : Laid (L.add id t) (place L id t :: V) ∧ Grown L (L.add id t) := by
  have hp := place_local h hf id t
  have hm := h.max
  have hs : 0 ≤ (t.size : Int) := by omega
  have e1 : (L.add id t).displ = L.displ + t.size := by simp [Layout.add, hf]
  have e2 : (L.add id t).maxLocal = Max.max (L.displ + (t.size : Int)) L.maxLocal := by simp [Layout.add, hf]
  have e3 : (L.add id t).maxGlobal = L.maxGlobal := by simp [Layout.add, hf]
  have e4 : (L.add id t).inFunc = true := by simp [Layout.add, hf]
  have g : Grown L (L.add id t) := ⟨e4, by omega, by omega, e3, by omega⟩
  have h' := h.grown g
  refine ⟨⟨?_, ?_, ?_, h'.begin_, h'.max, h'.start⟩, g⟩
  · rw [List.pairwise_cons]
    refine ⟨fun v hv => ?_, h.apart⟩
    rw [hp]
    cases hg : v.global with
    | true => left; simp [hg]
    | false => right; right; exact (h.locals v hv hg).2
  · intro v hv e
    rcases List.mem_cons.1 hv with rfl | hv
    · rw [hp] at e; cases e
    · exact h'.globals v hv e
  · intro v hv e
    rcases List.mem_cons.1 hv with rfl | hv
    · rw [hp, e1]; exact ⟨h.begin_, Int.le_refl _⟩
    · exact h'.locals v hv e

/-- What a point of a function should have: the variables in scope apart, those of the frame within its size, the
globals within the globals. -/
def Fine (frame globals : Int) (W : List Slot) : Prop :=
  W.Pairwise Slot.Apart ∧ (∀ v ∈ W, v.global = false → 3 ≤ v.first ∧ v.first + v.cells ≤ frame) ∧
    (∀ v ∈ W, v.global = true → 3 ≤ v.first ∧ v.first + v.cells ≤ globals)

theorem Laid.fine {L V} (h : Laid L V) : Fine L.maxLocal L.maxGlobal V :=
  ⟨h.apart, fun v hv e => ⟨(h.locals v hv e).1, Int.le_trans (h.locals v hv e).2 h.max⟩, h.globals⟩

theorem Fine.grown {L L' V} (h : Fine L.maxLocal L.maxGlobal V) (g : Grown L L') : Fine L'.maxLocal L'.maxGlobal V := by
  have g1 := g.maxLocal
  have g2 := g.maxGlobal
  refine ⟨h.1, fun v hv e => ?_, fun v hv e => ?_⟩
  · have := h.2.1 v hv e; omega
  · have := h.2.2 v hv e; omega

theorem Grown.refl {L V} (h : Laid L V) (hf : L.inFunc = true) : Grown L L := ⟨hf, Int.le_refl _, Int.le_refl _, rfl, h.max⟩

theorem Grown.back {L L' V} (h : Laid L V) (g : Grown L L') : Grown L { L' with displ := L.displ } :=
  ⟨g.inFunc, Int.le_refl _, g.maxLocal, g.maxGlobal, Int.le_trans h.max g.maxLocal⟩

theorem points_fine : ∀ (s : Stmt) (L : Layout) (V : List Slot), Laid L V → L.inFunc = true →
    Laid (layS L s) (seen L V s) ∧ Grown L (layS L s) ∧ ∀ W ∈ points L V s, Fine (layS L s).maxLocal (layS L s).maxGlobal W
  | .skip, L, V, h, hf | .expr _, L, V, h, hf | .continue_, L, V, h, hf | .break_, L, V, h, hf | .return_ _, L, V, h, hf =>
    ⟨h, Grown.refl h hf, fun W hW => by cases hW⟩
  | .seq a b, L, V, h, hf => by
    obtain ⟨a1, a2, a3⟩ := points_fine a L V h hf
    obtain ⟨b1, b2, b3⟩ := points_fine b (layS L a) (seen L V a) a1 a2.inFunc
    refine ⟨b1, a2.trans b2, fun W hW => ?_⟩
    rcases List.mem_append.1 hW with hW | hW
    · exact (a3 W hW).grown b2
    · exact b3 W hW
  | .var id t _ _, L, V, h, hf => by
    obtain ⟨h1, h2⟩ := h.add hf id t
    refine ⟨h1, h2, fun W hW => ?_⟩
    simp only [points, List.mem_singleton] at hW
    subst hW; exact h1.fine
  | .arr id _ _ _ _ _ _, L, V, h, hf => by
    obtain ⟨h1, h2⟩ := h.add hf id .array
    refine ⟨h1, h2, fun W hW => ?_⟩
    simp only [points, List.mem_singleton] at hW
    subst hW; exact h1.fine
  | .block s, L, V, h, hf => by
    obtain ⟨h1, h2, h3⟩ := points_fine s L V h hf
    exact ⟨h.grown (h2.back h), h2.back h, h3⟩
  | .case _ s, L, V, h, hf | .default s, L, V, h, hf | .if_ _ s, L, V, h, hf | .switch _ s, L, V, h, hf | .while_ _ s, L, V, h, hf
  | .do_ s _, L, V, h, hf => by
    obtain ⟨h1, h2, h3⟩ := points_fine s L V h hf
    exact ⟨h.grown h2, h2, h3⟩
  | .ifElse _ a b, L, V, h, hf => by
    obtain ⟨a1, a2, a3⟩ := points_fine a L V h hf
    obtain ⟨b1, b2, b3⟩ := points_fine b (layS L a) V (h.grown a2) a2.inFunc
    refine ⟨h.grown (a2.trans b2), a2.trans b2, fun W hW => ?_⟩
    rcases List.mem_append.1 hW with hW | hW
    · exact (a3 W hW).grown b2
    · exact b3 W hW
  | .for_ i _ _ s, L, V, h, hf => by
    obtain ⟨a1, a2, a3⟩ := points_fine i L V h hf
    obtain ⟨b1, b2, b3⟩ := points_fine s (layS L i) (seen L V i) a1 a2.inFunc
    have g := (a2.trans b2).back h
    refine ⟨h.grown g, g, fun W hW => ?_⟩
    rcases List.mem_append.1 hW with hW | hW
    · have := (a3 W hW).grown b2
      exact this
    · exact b3 W hW

theorem params_laid : ∀ (ps : List (Nat × Ty)) (L : Layout) (V : List Slot), Laid L V → L.inFunc = true →
    Laid (ps.foldl (fun (l : Layout) (p : Nat × Ty) => l.add p.1 p.2) L) (seenParams L V ps) ∧
      Grown L (ps.foldl (fun (l : Layout) (p : Nat × Ty) => l.add p.1 p.2) L)
  | [], L, V, h, hf => ⟨h, Grown.refl h hf⟩
  | p :: ps, L, V, h, hf => by
    obtain ⟨h1, h2⟩ := h.add hf p.1 p.2
    obtain ⟨h3, h4⟩ := params_laid ps (L.add p.1 p.2) (place L p.1 p.2 :: V) h1 h2.inFunc
    exact ⟨h3, h2.trans h4⟩

/-! ### Globals -/

/-- The globals are laid out. -/
structure LaidG (L : Layout) (V : List Slot) : Prop where
  apart : V.Pairwise Slot.Apart
  globals : ∀ v ∈ V, v.global = true ∧ 3 ≤ v.first ∧ v.first + v.cells ≤ L.maxGlobal
  start : 3 ≤ L.maxGlobal
  outside : L.inFunc = false

/-- Declarations of variables, and nothing else. -/
def Stmt.Decls : Stmt → Prop
  | .skip => True
  | .seq a b => a.Decls ∧ b.Decls
  | .var _ t _ _ => t ≠ .function
  | .arr _ _ _ _ _ _ _ => True
  | _ => False

theorem LaidG.add {L V} (h : LaidG L V) (id t) (ht : t ≠ .function) : LaidG (L.add id t) (place L id t :: V) ∧ L.maxGlobal ≤ (L.add id t).maxGlobal := by
  have hf := h.outside
  have hst := h.start
  have hp : place L id t = ⟨true, L.maxGlobal, t.size⟩ := by
    have : -L.maxGlobal < 0 := by omega
    simp [place, slotAt, Layout.add, hf, update, ht]; omega
  have e : (L.add id t).maxGlobal = L.maxGlobal + t.size := by simp [Layout.add, hf]
  refine ⟨⟨?_, ?_, by omega, by simp [Layout.add, hf]⟩, by omega⟩
  · rw [List.pairwise_cons]
    refine ⟨fun v hv => ?_, h.apart⟩
    rw [hp]
    right; right; exact (h.globals v hv).2.2
  · intro v hv
    rcases List.mem_cons.1 hv with rfl | hv
    · rw [hp, e]; exact ⟨rfl, hst, Int.le_refl _⟩
    · have := h.globals v hv
      exact ⟨this.1, this.2.1, by omega⟩

theorem decls_laid : ∀ (s : Stmt) (L : Layout) (V : List Slot), LaidG L V → s.Decls → LaidG (layS L s) (seen L V s) ∧ L.maxGlobal ≤ (layS L s).maxGlobal
  | .skip, L, V, h, _ => ⟨h, Int.le_refl _⟩
  | .seq a b, L, V, h, d => by
    obtain ⟨a1, a2⟩ := decls_laid a L V h d.1
    obtain ⟨b1, b2⟩ := decls_laid b _ _ a1 d.2
    exact ⟨b1, Int.le_trans a2 b2⟩
  | .var id t _ _, L, V, h, d => h.add id t d
  | .arr id _ _ _ _ _ _, L, V, h, _ => h.add id .array (by simp)
  | .block _, _, _, _, d | .expr _, _, _, _, d | .case _ _, _, _, _, d | .default _, _, _, _, d | .if_ _ _, _, _, _, d | .ifElse _ _ _, _, _, _, d
  | .switch _ _, _, _, _, d | .while_ _ _, _, _, _, d | .do_ _ _, _, _, _, d | .for_ _ _ _ _, _, _, _, d | .continue_, _, _, _, d | .break_, _, _, _, d
  | .return_ _, _, _, _, d => d.elim

/-- The declarations of a unit. -/
def Top.Decl : Top → Prop
  | .vars s => s.Decls
  | .func _ => True

theorem laid_begin {L V} (h : LaidG L V) : Laid (layBegin L) V := by
  refine ⟨h.apart, fun v hv _ => (h.globals v hv).2, fun v hv e => ?_, by show (3 : Int) ≤ DISPL_START; decide, Int.le_refl _, h.start⟩
  rw [(h.globals v hv).1] at e; cases e

theorem func_fine {L V} (h : LaidG L V) (f : Func) :
    (∀ W ∈ pointsF L V f, Fine (layS (layEntry L f) f.body).maxLocal L.maxGlobal W) ∧ LaidG (layF L f) V ∧ (layF L f).maxGlobal = L.maxGlobal := by
  obtain ⟨p1, p2⟩ := params_laid f.params (layBegin L) V (laid_begin h) rfl
  have e : f.params.foldl (fun (l : Layout) (p : Nat × Ty) => l.add p.1 p.2) (layBegin L) = layEntry L f := rfl
  rw [e] at p1 p2
  obtain ⟨b1, b2, b3⟩ := points_fine f.body (layEntry L f) _ p1 p2.inFunc
  have hg : (layS (layEntry L f) f.body).maxGlobal = L.maxGlobal := (p2.trans b2).maxGlobal
  refine ⟨fun W hW => ?_, ⟨h.apart, fun v hv => ?_, ?_, rfl⟩, hg⟩
  · rw [← hg]
    rcases List.mem_cons.1 hW with rfl | hW
    · exact p1.fine.grown b2
    · exact b3 W hW
  · have : (layF L f).maxGlobal = L.maxGlobal := hg
    rw [this]; exact h.globals v hv
  · have : (layF L f).maxGlobal = L.maxGlobal := hg
    rw [this]; exact h.start

theorem tops_fine : ∀ (tops : List Top) (L : Layout) (V : List Slot), LaidG L V → (∀ t ∈ tops, t.Decl) →
    L.maxGlobal ≤ (tops.foldl layT L).maxGlobal ∧
      ∀ x ∈ funcsIn L V tops, ∀ W ∈ pointsF x.1 x.2.1 x.2.2, Fine (layS (layEntry x.1 x.2.2) x.2.2.body).maxLocal (tops.foldl layT L).maxGlobal W
  | [], L, V, h, _ => ⟨Int.le_refl _, fun x hx => by cases hx⟩
  | .vars s :: rest, L, V, h, d => by
    obtain ⟨s1, s2⟩ := decls_laid s L V h (d _ List.mem_cons_self)
    obtain ⟨r1, r2⟩ := tops_fine rest (layS L s) (seen L V s) s1 (fun t ht => d t (List.mem_cons_of_mem _ ht))
    exact ⟨Int.le_trans s2 r1, r2⟩
  | .func f :: rest, L, V, h, d => by
    obtain ⟨f1, f2, f3⟩ := func_fine h f
    obtain ⟨r1, r2⟩ := tops_fine rest (layF L f) V f2 (fun t ht => d t (List.mem_cons_of_mem _ ht))
    rw [f3] at r1
    refine ⟨r1, fun x hx W hW => ?_⟩
    rcases List.mem_cons.1 hx with rfl | hx
    · obtain ⟨w1, w2, w3⟩ := f1 W hW
      have r1' : L.maxGlobal ≤ (List.foldl layT L (.func f :: rest)).maxGlobal := r1
      refine ⟨w1, w2, fun v hv e => ?_⟩
      have := w3 v hv e
      omega
    · exact r2 x hx W hW

/-- The variables a statement declares. -/
def Stmt.declared : Stmt → List Nat
  | .seq a b | .ifElse _ a b | .for_ a _ _ b => a.declared ++ b.declared
  | .var id _ _ _ | .arr id _ _ _ _ _ _ => [id]
  | .block s | .case _ s | .default s | .if_ _ s | .switch _ s | .while_ _ s | .do_ s _ => s.declared
  | _ => []

theorem add_displs {L : Layout} {id j : Nat} {t : Ty} (h : j ≠ id) : (L.add id t).displs j = L.displs j := by
  unfold Layout.add
  split <;> simp [update, h]

theorem layS_displs : ∀ (s : Stmt) (L : Layout) (j : Nat), j ∉ s.declared → (layS L s).displs j = L.displs j
  | .skip, L, j, _ | .expr _, L, j, _ | .continue_, L, j, _ | .break_, L, j, _ | .return_ _, L, j, _ => rfl
  | .seq a b, L, j, h => by
    simp only [Stmt.declared, List.mem_append, not_or] at h
    exact (layS_displs b _ j h.2).trans (layS_displs a L j h.1)
  | .ifElse _ a b, L, j, h => by
    simp only [Stmt.declared, List.mem_append, not_or] at h
    exact (layS_displs b _ j h.2).trans (layS_displs a L j h.1)
  | .for_ a _ _ b, L, j, h => by
    simp only [Stmt.declared, List.mem_append, not_or] at h
    exact (layS_displs b _ j h.2).trans (layS_displs a L j h.1)
  | .var id t _ _, L, j, h => add_displs (by simpa [Stmt.declared] using h)
  | .arr id _ _ _ _ _ _, L, j, h => add_displs (by simpa [Stmt.declared] using h)
  | .block s, L, j, h | .case _ s, L, j, h | .default s, L, j, h | .if_ _ s, L, j, h | .switch _ s, L, j, h | .while_ _ s, L, j, h
  | .do_ s _, L, j, h => layS_displs s L j h

end RuC.Codegen
