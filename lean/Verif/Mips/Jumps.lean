import Verif.Mips.Labels

/-!
# Lemmas: the labels of statements and functions
-/

namespace RuC.Mips
open Llvm (Ty Arith Cmp Un Inc Exp Args Stmt Stmts Func)

/-- States with the same labels. -/
structure Near (e e' : Enc) : Prop where
  lab : e'.lab = e.lab
  cas : e'.caseLab = e.caseLab
  brk : e'.brk = e.brk
  cont : e'.cont = e.cont
  fn : e'.fn = e.fn

theorem Same.near {e e' : Enc} (h : Same e e') : Near e e' := by obtain ⟨b, rfl⟩ := h; exact ⟨rfl, rfl, rfl, rfl, rfl⟩

theorem Piece.leftN {ex : Label → Prop} {cl : List Nat} {e e1 e' : Enc} {c : List Instr} (h : Near e e1) (k : Piece ex cl e1 c e') : Piece ex cl e c e' := by
  obtain ⟨h1, h2, h3, h4, h5⟩ := h
  exact ⟨h1 ▸ k.lab, h2 ▸ k.cas, k.brk.trans h3, k.cont.trans h4, k.fn.trans h5, fun l => by have := k.once l; rw [h1, h2] at this; exact this, k.aim, k.call⟩

theorem Piece.rightN {ex : Label → Prop} {cl : List Nat} {e e1 e' : Enc} {c : List Instr} (k : Piece ex cl e c e1) (h : Near e1 e') : Piece ex cl e c e' := by
  obtain ⟨h1, h2, h3, h4, h5⟩ := h
  exact ⟨h1 ▸ k.lab, h2 ▸ k.cas, h3.trans k.brk, h4.trans k.cont, h5.trans k.fn, fun l => by have := k.once l; rw [h1, h2]; exact this, k.aim, k.call⟩

theorem near_addVar (isLocal : Nat → Bool) (e : Enc) (id : Nat) : Near e (addVar isLocal e id) := by
  unfold addVar; split <;> exact ⟨rfl, rfl, rfl, rfl, rfl⟩

theorem pieceVoid (x : Exp) (e : Enc) : Piece noEx (calledE x) e (emitVoid x e).1 (emitVoid x e).2 := by
  unfold emitVoid; split
  · exact .plain (Same.refl _) Plain.nil
  · exact (pieceE x e).right (same_freeR ..)

theorem pieceV (isLocal : Nat → Bool) (d : Nat × Ty × Option Exp) (e : Enc) : Piece noEx (calledO d.2.2) e (emitV isLocal d e).1 (emitV isLocal d e).2 := by
  obtain ⟨id, ty, x⟩ := d
  cases x with
  | none => exact (Piece.plain (Same.refl _) Plain.nil).rightN (near_addVar ..)
  | some x =>
    simp only [emitV, calledO]
    exact (((pieceE x (addVar isLocal e id)).leftN (near_addVar ..)).append (.plain (same_store ..) (plain_store ..))).right (same_freeR ..)

theorem pieceD (isLocal : Nat → Bool) : ∀ (l : List (Nat × Ty × Option Exp)) (e : Enc),
    Piece noEx (l.flatMap fun d => calledO d.2.2) e (emitD isLocal l e).1 (emitD isLocal l e).2
  | [], e => .plain (Same.refl _) Plain.nil
  | d :: l, e => by
    simp only [emitD, List.flatMap_cons]
    exact ((pieceV isLocal d e).mono (fun _ h => h) (fun f h => List.mem_append_left _ h)).append
      ((pieceD isLocal l _).mono (fun _ h => h) (fun f h => List.mem_append_right _ h))

/-- The labels outside of a statement: the end of the function, and those for `break` and `continue`. -/
def exS (b c : Bool) (e : Enc) : Label → Prop := fun l => l = ⟨.funcEnd, e.fn⟩ ∨ (b = true ∧ l = e.brk) ∨ (c = true ∧ l = e.cont)

theorem exS_mono {b c b' c' : Bool} {e e1 : Enc} (hf : e1.fn = e.fn) (hb : e1.brk = e.brk) (hc : e1.cont = e.cont) (h : b = true → b' = true) (k : c = true → c' = true) :
    ∀ l, exS b c e1 l → exS b' c' e l := by
  rintro l (rfl | ⟨h1, rfl⟩ | ⟨h1, rfl⟩)
  · exact .inl (by rw [hf])
  · exact .inr (.inl ⟨h h1, hb⟩)
  · exact .inr (.inr ⟨k h1, hc⟩)

/-- The number of cases of a `switch`. -/
def cases_ : Stmts → Nat
  | .nil => 0
  | .cons (.case_ _ _) rest => cases_ rest + 1
  | .cons (.default_ _) rest => cases_ rest + 1
  | .cons _ rest => cases_ rest

/-- The labels of cases from `k` on. -/
def caseRange (k n : Nat) : Label → Prop := fun l => l.kind = .case ∧ k ≤ l.num ∧ l.num < k + n

/-- What the jumps of a `switch` are. -/
structure Disp (n : Nat) (e : Enc) (c : List Instr) (d : Option Nat) (e' : Enc) : Prop where
  lab : e.lab ≤ e'.lab
  cas : e'.caseLab = e.caseLab + n
  brk : e'.brk = e.brk
  cont : e'.cont = e.cont
  fn : e'.fn = e.fn
  once : ∀ l, (labs c).count l ≤ quota e.lab e'.lab 0 0 l
  aim : Aim (caseRange e.caseLab n) c
  call : Calling [] c
  dflt : ∀ k, d = some k → e.caseLab ≤ k ∧ k < e.caseLab + n

theorem quota_zero {a b c x y : Nat} (h1 : a ≤ b) (h2 : b ≤ c) (l : Label) : quota a b x x l + quota b c y y l ≤ quota a c 0 0 l := by
  unfold quota
  split <;> (try split) <;> (try split) <;> (try split) <;> omega

theorem cmp_cas (e : Enc) (d a b : Rv) (o : Cmp) : (cmpOp e d a b o).2.caseLab = e.caseLab := ((same_toReg e a).trans (same_toReg (toReg e a).2.2 b)).caseLab

theorem piece_disp (cond : Rv) : ∀ (b : Stmts) (e : Enc), Disp (cases_ b) e (dispatch cond b e).1 (dispatch cond b e).2.1 (dispatch cond b e).2.2
  | .nil, e => ⟨Nat.le_refl _, rfl, rfl, rfl, rfl, fun l => by simp [dispatch, labs], fun l hl => (by cases hl), fun l hl => (by cases hl), fun k h => (by cases h)⟩
  | .cons (.case_ v s) rest, e => by
    simp only [dispatch, cases_]
    have hg := (same_get { e with caseLab := e.caseLab + 1 })
    generalize getRegister { e with caseLab := e.caseLab + 1 } = g at *
    have hc := (piece_cmp (ex := noEx) (cl := []) g.2 (.reg g.1 false) cond (literal v) .eq).left hg
    have hk : (cmpOp g.2 (.reg g.1 false) cond (literal v) .eq).2.caseLab = e.caseLab + 1 := by rw [cmp_cas, hg.caseLab]
    generalize cmpOp g.2 (.reg g.1 false) cond (literal v) .eq = c at *
    have hn := (same_free c.2 g.1).near
    generalize freeRegister c.2 g.1 = e1 at *
    have hr := piece_disp cond rest e1
    generalize dispatch cond rest e1 = y at *
    have hcas : e1.caseLab = e.caseLab + 1 := by rw [hn.cas, hk]
    have l1 := hc.lab
    have l2 := hr.lab
    rw [hn.lab] at l2
    simp only at l1
    refine ⟨by omega, by rw [hr.cas, hcas]; omega, hr.brk.trans (hn.brk.trans hc.brk), hr.cont.trans (hn.cont.trans hc.cont), hr.fn.trans (hn.fn.trans hc.fn), ?_, ?_, ?_, ?_⟩
    · intro l
      have a1 := hc.once l
      have a2 := hr.once l
      rw [hn.cas] at hcas
      rw [hn.lab] at a2
      simp only [hcas] at a1
      have := quota_zero (x := e.caseLab + 1) (y := 0) l1 l2 l
      simp only [labs_append, branch_labs, List.append_nil, List.count_append]
      omega
    · refine ((hc.aim.mono (fun _ h => h.elim)).append ((branch_aim _ _ _).mono ?_)).append (hr.aim.mono ?_)
      · rintro l rfl; exact ⟨rfl, Nat.le_refl _, by simp only; omega⟩
      · rintro l ⟨h1, h2, h3⟩; rw [hcas] at h2 h3; exact ⟨h1, by omega, by omega⟩
    · exact (hc.call.append (branch_call _ _ _ _)).append hr.call
    · intro k hk
      have := hr.dflt k hk
      omega
  | .cons (.default_ s) rest, e => by
    simp only [dispatch, cases_]
    have hr := piece_disp cond rest { e with caseLab := e.caseLab + 1 }
    generalize dispatch cond rest { e with caseLab := e.caseLab + 1 } = y at *
    have hd := hr.dflt
    simp only at hd
    refine ⟨hr.lab, by rw [hr.cas]; simp only; omega, hr.brk, hr.cont, hr.fn, hr.once, hr.aim.mono ?_, hr.call, ?_⟩
    · rintro l ⟨h1, h2, h3⟩; simp only at h2 h3; exact ⟨h1, by omega, by omega⟩
    · intro k hk
      cases hy : y.2.1 with
      | none => simp [hy] at hk; omega
      | some k' => have := hd k' hy; simp [hy] at hk; omega
  | .cons .skip rest, e => piece_disp cond rest e
  | .cons (.expr _) rest, e => piece_disp cond rest e
  | .cons (.decls _) rest, e => piece_disp cond rest e
  | .cons (.if_ _ _) rest, e => piece_disp cond rest e
  | .cons (.ifElse _ _ _) rest, e => piece_disp cond rest e
  | .cons (.while_ _ _) rest, e => piece_disp cond rest e
  | .cons (.do_ _ _) rest, e => piece_disp cond rest e
  | .cons (.for_ _ _ _ _) rest, e => piece_disp cond rest e
  | .cons (.block _) rest, e => piece_disp cond rest e
  | .cons (.switch_ _ _) rest, e => piece_disp cond rest e
  | .cons .break_ rest, e => piece_disp cond rest e
  | .cons .continue_ rest, e => piece_disp cond rest e
  | .cons (.return_ _) rest, e => piece_disp cond rest e

/-! ## Statements -/

/-- What the statements of a `switch` are. -/
structure Bodies (k n : Nat) (ex : Label → Prop) (cl : List Nat) (e : Enc) (c : List Instr) (e' : Enc) : Prop where
  lab : e.lab ≤ e'.lab
  cas : e.caseLab ≤ e'.caseLab
  brk : e'.brk = e.brk
  cont : e'.cont = e.cont
  fn : e'.fn = e.fn
  once : ∀ l, (labs c).count l ≤ quota e.lab e'.lab e.caseLab e'.caseLab l + quota 0 0 k (k + n) l
  all : ∀ l, caseRange k n l → l ∈ labs c
  aim : Aim ex c
  call : Calling cl c

theorem quota_bodies {k n : Nat} (l : Label) : (if (⟨.case, k⟩ : Label) = l then 1 else 0) + quota 0 0 (k + 1) (k + 1 + n) l ≤ quota 0 0 k (k + (n + 1)) l := by
  cases l with | mk kind m => cases kind <;> simp only [quota, Label.mk.injEq, reduceCtorEq, false_and, true_and, if_false] <;> grind

/-- A case in front of the others. -/
theorem Bodies.case_ {k n : Nat} {ex : Label → Prop} {cl : List Nat} {e e1 e2 : Enc} {c d : List Instr} (h : Piece ex cl e c e1) (r : Bodies (k + 1) n ex cl e1 d e2) :
    Bodies k (n + 1) ex cl e ([.label ⟨.case, k⟩] ++ c ++ d) e2 where
  lab := Nat.le_trans h.lab r.lab
  cas := Nat.le_trans h.cas r.cas
  brk := r.brk.trans h.brk
  cont := r.cont.trans h.cont
  fn := r.fn.trans h.fn
  once l := by
    have a1 := h.once l
    have a2 := r.once l
    have a3 := quota_append h.lab r.lab h.cas r.cas l
    have a4 := quota_bodies (k := k) (n := n) l
    simp only [labs_append, labs_label, List.count_append, List.count_cons, List.count_nil, beq_iff_eq] at *
    omega
  all l := by
    rintro ⟨h1, h2, h3⟩
    simp only [labs_append, labs_label, List.mem_append, List.mem_singleton]
    by_cases hk : l.num = k
    · left; left
      cases l
      simp only at h1 hk
      rw [h1, hk]
    · right
      exact r.all l ⟨h1, by omega, by omega⟩
  aim := Aim.append (Aim.append (by intro l hl; cases hl) h.aim) r.aim
  call := Calling.append (Calling.append (by intro l hl; cases hl) h.call) r.call

/-- Another statement in front of the others. -/
theorem Bodies.other {k n : Nat} {ex : Label → Prop} {cl : List Nat} {e e1 e2 : Enc} {c d : List Instr} (h : Piece ex cl e c e1) (r : Bodies k n ex cl e1 d e2) :
    Bodies k n ex cl e (c ++ d) e2 where
  lab := Nat.le_trans h.lab r.lab
  cas := Nat.le_trans h.cas r.cas
  brk := r.brk.trans h.brk
  cont := r.cont.trans h.cont
  fn := r.fn.trans h.fn
  once l := by
    have a1 := h.once l
    have a2 := r.once l
    have a3 := quota_append h.lab r.lab h.cas r.cas l
    simp only [labs_append, List.count_append] at *
    omega
  all l hl := by
    simp only [labs_append, List.mem_append]
    exact .inr (r.all l hl)
  aim := h.aim.append r.aim
  call := h.call.append r.call

theorem Bodies.mono {k n : Nat} {ex ex' : Label → Prop} {cl cl' : List Nat} {e e' : Enc} {a : List Instr} (h : Bodies k n ex cl e a e') (hx : ∀ l, ex l → ex' l) (m : ∀ f ∈ cl, f ∈ cl') :
    Bodies k n ex' cl' e a e' := { h with aim := h.aim.mono hx, call := h.call.mono m }

theorem Bodies.other' {k n : Nat} {b c b' c' : Bool} {cl cl' : List Nat} {e e1 e2 : Enc} {p d : List Instr} (h : Piece (exS b c e) cl e p e1)
    (r : e.caseLab ≤ e1.caseLab → Bodies k n (exS b' c' e1) cl' e1 d e2) : Bodies k n (exS (b || b') (c || c') e) (cl ++ cl') e (p ++ d) e2 :=
  Bodies.other (h.mono (exS_mono rfl rfl rfl (fun h => by simp [h]) (fun h => by simp [h])) (fun _ h => List.mem_append_left _ h))
    ((r h.cas).mono (exS_mono h.fn h.brk h.cont (fun h => by simp [h]) (fun h => by simp [h])) (fun _ h => List.mem_append_right _ h))

/-! ### Labels for cases are only put by `switch` -/

mutual
theorem same_caseE : ∀ (x : Exp) (e : Enc), (emitE x e).2.2.caseLab = e.caseLab
  | .int v, e => rfl
  | .bool v, e => rfl
  | .str v, e => rfl
  | .ident id ty, e => (same_loadLv ..).caseLab
  | .un op x, e => by
    cases op <;> simp only [emitE]
    · rw [(same_arith ..).caseLab]; exact same_caseE x e
    · rw [(same_arith ..).caseLab]; exact same_caseE x e
    · exact same_caseE x e
  | .not x, e => same_caseE x e
  | .inc op id, e => by
    simp only [emitE]
    split
    · exact (((same_loadLv ..).trans (same_arith ..)).trans (same_store ..)).caseLab
    · exact (((((same_loadLv ..).trans (same_get _)).trans (same_arith ..)).trans (same_store ..)).trans (same_free ..)).caseLab
  | .arith o a b, e => by
    simp only [emitE]
    rw [(same_freeR ..).caseLab, (same_arith ..).caseLab, same_caseE b, same_caseE a]
  | .cmp o a b, e => by
    simp only [emitE]
    rw [(same_freeR ..).caseLab, cmp_cas, same_caseE b, same_caseE a]
  | .comma a b, e => by
    simp only [emitE]
    rw [same_caseE b]
    split
    · rfl
    · rw [(same_freeR ..).caseLab, same_caseE a]
  | .logic isOr a b, e => by
    simp only [emitE]
    rw [same_caseE b, (same_freeR ..).caseLab]
    exact same_caseE a e
  | .ternary c a b, e => by
    simp only [emitE]
    rw [(same_freeR ..).caseLab, same_caseE b, (same_freeR ..).caseLab, same_caseE a, (same_get _).caseLab, (same_freeR ..).caseLab]
    exact same_caseE c e
  | .assign none id ty x, e => by
    simp only [emitE]
    rw [(same_store ..).caseLab, same_caseE x]
  | .assign (some o) id ty x, e => by
    simp only [emitE]
    split
    · rw [(same_loadLv ..).caseLab, same_caseE x]
    · rw [(same_store ..).caseLab, (same_freeR ..).caseLab, (same_arith ..).caseLab, (same_loadLv ..).caseLab, same_caseE x]
  | .call f ty args, e => by
    by_cases hf : f < 170
    · simp only [emitE, if_pos hf]
    · simp only [emitE, if_neg hf]
      rw [(same_restore ..).caseLab, same_caseA args]

theorem same_caseA : ∀ (args : Args) (i : Nat) (e : Enc), (emitA i args e).2.caseLab = e.caseLab
  | .nil, i, e => rfl
  | .cons x rest, i, e => by
    simp only [emitA]
    rw [same_caseA rest, (same_freeR ..).caseLab, (same_store ..).caseLab, (same_toReg ..).caseLab, same_caseE x]
end

/-- The text of a statement. -/
abbrev PieceS (isLocal : Nat → Bool) (st : Stmt) (e : Enc) : Prop :=
  Piece (exS (strayBreak st) (strayCont st) e) (calledS st) e (emitS isLocal st e).1 (emitS isLocal st e).2

theorem piece_condOf (n : Nat) (c : Option Exp) (e : Enc) : Piece (· = ⟨.end, n⟩) (calledO c) e (condOf ⟨.end, n⟩ c e).1 (condOf ⟨.end, n⟩ c e).2 := by
  cases c with
  | none => exact .plain (Same.refl _) Plain.nil
  | some c =>
    have hc := pieceE c e
    simp only [condOf, calledO]
    generalize emitE c e = x at *
    refine Piece.right (e1 := x.2.2) ?_ (same_freeR ..)
    exact ⟨hc.lab, hc.cas, hc.brk, hc.cont, hc.fn, fun l => by rw [labs_append, branch_labs, List.append_nil]; exact hc.once l,
      (hc.aim.mono (fun _ h => h.elim)).append (branch_aim _ _ _), hc.call.append (branch_call _ _ _ _)⟩

theorem piece_stepOf (x : Option Exp) (e : Enc) : Piece noEx (calledO x) e (stepOf x e).1 (stepOf x e).2 := by
  cases x with
  | none => exact .plain (Same.refl _) Plain.nil
  | some s => exact pieceVoid s e

theorem noCalls {cl : List Nat} {c : List Instr} (h : c.flatMap calls = []) : Calling cl c := by
  intro l hl; rw [h] at hl; cases hl

mutual
theorem pieceS (isLocal : Nat → Bool) : ∀ (st : Stmt) (e : Enc), PieceS isLocal st e
  | .skip, e => .plain (Same.refl _) Plain.nil
  | .expr x, e => (pieceVoid x e).mono (fun _ h => h.elim) (fun _ h => h)
  | .decls l, e => (pieceD isLocal l e).mono (fun _ h => h.elim) (fun _ h => h)
  | .if_ c a, e => by
    simp only [PieceS, emitS, calledS, strayBreak, strayCont]
    have hc := pieceE c e
    generalize emitE c e = x at *
    have hs := same_freeR { x.2.2 with lab := x.2.2.lab + 1 } x.2.1
    have ha := (pieceS isLocal a (freeRvalue { x.2.2 with lab := x.2.2.lab + 1 } x.2.1))
    have hm := exS_mono (b := strayBreak a) (c := strayCont a) (b' := strayBreak a) (c' := strayCont a) (hs.fn.trans hc.fn) (hs.brk.trans hc.brk) (hs.cont.trans hc.cont) id id
    unfold PieceS at ha
    replace ha := (ha.mono (ex' := exS (strayBreak a) (strayCont a) e) (cl' := calledS a) hm (fun _ h => h)).left hs
    generalize emitS isLocal a (freeRvalue { x.2.2 with lab := x.2.2.lab + 1 } x.2.1) = y at *
    have h3 := hc.lab
    have h4 := ha.lab
    simp only at h4
    refine ⟨by omega, Nat.le_trans hc.cas ha.cas, ha.brk.trans hc.brk, ha.cont.trans hc.cont, ha.fn.trans hc.fn, ?_, ?_, ?_⟩
    · intro l
      have h1 := hc.once l
      have h2 := ha.once l
      have h5 := hc.cas
      have h6 := ha.cas
      simp only [labs_append, branch_labs, labs_label, List.count_append, List.count_nil, List.count_cons, beq_iff_eq] at *
      cases l with | mk k n => cases k <;> simp only [quota, Label.mk.injEq, reduceCtorEq, false_and, true_and, if_false] at * <;> grind
    · refine Aim.close (ex' := fun l => exS (strayBreak a) (strayCont a) e l ∨ l = ⟨.end, x.2.2.lab⟩) ?_ ?_
      · refine (((hc.aim.mono (fun _ h => h.elim)).append ((branch_aim _ _ _).mono (fun _ h => .inr h))).append (ha.aim.mono (fun _ h => .inl h))).append ?_
        intro l hl; cases hl
      · rintro l (hl | rfl)
        · exact .inr hl
        · left; simp [labs_append, puts]
    · exact (((hc.call.mono (fun _ h => List.mem_append_left _ h)).append (branch_call _ _ _ _)).append (ha.call.mono (fun _ h => List.mem_append_right _ h))).append (noCalls rfl)
  | .ifElse c a b, e => by
    simp only [PieceS, emitS, calledS, strayBreak, strayCont]
    have hc := pieceE c e
    generalize emitE c e = x at *
    have hs := same_freeR { x.2.2 with lab := x.2.2.lab + 1 } x.2.1
    have ha := (pieceS isLocal a (freeRvalue { x.2.2 with lab := x.2.2.lab + 1 } x.2.1))
    have hm := exS_mono (b := strayBreak a) (c := strayCont a) (b' := strayBreak a || strayBreak b) (c' := strayCont a || strayCont b) (hs.fn.trans hc.fn) (hs.brk.trans hc.brk)
      (hs.cont.trans hc.cont) (fun h => by simp [h]) (fun h => by simp [h])
    unfold PieceS at ha
    replace ha := (ha.mono (ex' := exS (strayBreak a || strayBreak b) (strayCont a || strayCont b) e) (cl' := calledS a) hm (fun _ h => h)).left hs
    generalize emitS isLocal a (freeRvalue { x.2.2 with lab := x.2.2.lab + 1 } x.2.1) = y at *
    have hb := pieceS isLocal b y.2
    unfold PieceS at hb
    have hm2 := exS_mono (b := strayBreak b) (c := strayCont b) (b' := strayBreak a || strayBreak b) (c' := strayCont a || strayCont b) (ha.fn.trans hc.fn) (ha.brk.trans hc.brk)
      (ha.cont.trans hc.cont) (fun h => by simp [h]) (fun h => by simp [h])
    replace hb := (hb.mono (ex' := exS (strayBreak a || strayBreak b) (strayCont a || strayCont b) e) (cl' := calledS b) hm2 (fun _ h => h))
    generalize emitS isLocal b y.2 = z at *
    have h3 := hc.lab
    have h4 := ha.lab
    have h7 := hb.lab
    simp only at h4
    refine ⟨by omega, Nat.le_trans hc.cas (Nat.le_trans ha.cas hb.cas), hb.brk.trans (ha.brk.trans hc.brk), hb.cont.trans (ha.cont.trans hc.cont), hb.fn.trans (ha.fn.trans hc.fn), ?_, ?_, ?_⟩
    · intro l
      have h1 := hc.once l
      have h2 := ha.once l
      have h5 := hc.cas
      have h6 := ha.cas
      have h8 := hb.once l
      have h9 := hb.cas
      have e1 : labs [.j ⟨.end, x.2.2.lab⟩, .label ⟨.else, x.2.2.lab⟩] = [⟨.else, x.2.2.lab⟩] := rfl
      simp only [labs_append, branch_labs, labs_label, e1, List.count_append, List.count_nil, List.count_cons, beq_iff_eq] at *
      cases l with | mk k n => cases k <;> simp only [quota, Label.mk.injEq, reduceCtorEq, false_and, true_and, if_false] at * <;> grind
    · refine Aim.close (ex' := fun l => exS (strayBreak a || strayBreak b) (strayCont a || strayCont b) e l ∨ l = ⟨.else, x.2.2.lab⟩ ∨ l = ⟨.end, x.2.2.lab⟩) ?_ ?_
      · refine (((((hc.aim.mono (fun _ h => h.elim)).append ((branch_aim _ _ _).mono (fun _ h => .inr (.inl h)))).append (ha.aim.mono (fun _ h => .inl h))).append ?_).append
          (hb.aim.mono (fun _ h => .inl h))).append ?_
        · intro l hl; right; right; right; simpa [targets] using hl
        · intro l hl; cases hl
      · rintro l (hl | rfl | rfl)
        · exact .inr hl
        · left; simp [labs_append, puts]
        · left; simp [labs_append, puts]
    · exact (((((hc.call.mono (fun _ h => List.mem_append_left _ (List.mem_append_left _ h))).append (branch_call _ _ _ _)).append
        (ha.call.mono (fun _ h => List.mem_append_left _ (List.mem_append_right _ h)))).append (noCalls rfl)).append (hb.call.mono (fun _ h => List.mem_append_right _ h))).append (noCalls rfl)
  | .while_ c b, e => by
    simp only [PieceS, emitS, calledS, strayBreak, strayCont]
    have hc := pieceE c { e with lab := e.lab + 1, cont := ⟨.beginCycle, e.lab⟩, brk := ⟨.end, e.lab⟩ }
    generalize emitE c { e with lab := e.lab + 1, cont := ⟨.beginCycle, e.lab⟩, brk := ⟨.end, e.lab⟩ } = x at *
    have hs := same_freeR x.2.2 x.2.1
    have hb := pieceS isLocal b (freeRvalue x.2.2 x.2.1)
    unfold PieceS at hb
    replace hb := hb.left hs
    have hf := hs.fn.trans hc.fn
    have hbr := hs.brk.trans hc.brk
    have hct := hs.cont.trans hc.cont
    generalize freeRvalue x.2.2 x.2.1 = e1 at *
    generalize emitS isLocal b e1 = y at *
    have h3 := hc.lab
    have h4 := hb.lab
    have h5 := hc.cas
    have h6 := hb.cas
    have hfn := hb.fn.trans hc.fn
    simp only at h3 h5 hf hbr hct hfn
    refine ⟨by simp only; omega, by simp only; omega, rfl, rfl, hfn, ?_, ?_, ?_⟩
    · intro l
      have h1 := hc.once l
      have h2 := hb.once l
      have e1 : labs [.j ⟨.beginCycle, e.lab⟩, .label ⟨.end, e.lab⟩] = [⟨.end, e.lab⟩] := rfl
      simp only [labs_append, branch_labs, labs_label, e1, List.count_append, List.count_nil, List.count_cons, beq_iff_eq] at *
      cases l with | mk k n => cases k <;> simp only [quota, Label.mk.injEq, reduceCtorEq, false_and, true_and, if_false] at * <;> grind
    · refine Aim.close (ex' := fun l => exS false false e l ∨ l = ⟨.beginCycle, e.lab⟩ ∨ l = ⟨.end, e.lab⟩) ?_ ?_
      · refine (((Aim.append ?_ (hc.aim.mono (fun _ h => h.elim))).append ((branch_aim _ _ _).mono (fun _ h => .inr (.inr h)))).append (hb.aim.mono ?_)).append ?_
        · intro l hl; cases hl
        · rintro l (rfl | ⟨-, rfl⟩ | ⟨-, rfl⟩)
          · exact .inl (.inl (by rw [hf]))
          · exact .inr (.inr hbr)
          · exact .inr (.inl hct)
        · intro l hl; right; right; left; simpa [targets] using hl
      · rintro l (hl | rfl | rfl)
        · exact .inr hl
        · left; simp [labs_append, puts]
        · left; simp [labs_append, puts]
    · exact ((((noCalls rfl : Calling _ [_]).append (hc.call.mono (fun _ h => List.mem_append_left _ h))).append (branch_call _ _ _ _)).append
        (hb.call.mono (fun _ h => List.mem_append_right _ h))).append (noCalls rfl)
  | .do_ b c, e => by
    simp only [PieceS, emitS, calledS, strayBreak, strayCont]
    have hb := pieceS isLocal b { e with lab := e.lab + 1, cont := ⟨.next, e.lab⟩, brk := ⟨.end, e.lab⟩ }
    unfold PieceS at hb
    generalize emitS isLocal b { e with lab := e.lab + 1, cont := ⟨.next, e.lab⟩, brk := ⟨.end, e.lab⟩ } = y at *
    have hc := pieceE c y.2
    generalize emitE c y.2 = x at *
    have hs := same_freeR x.2.2 x.2.1
    generalize freeRvalue x.2.2 x.2.1 = e2 at *
    obtain ⟨bz, rfl⟩ := hs
    have h3 := hc.lab
    have h4 := hb.lab
    have h5 := hc.cas
    have h6 := hb.cas
    have hfn := hc.fn.trans hb.fn
    simp only at h4 h6 hfn
    refine ⟨by simp only; omega, by simp only; omega, rfl, rfl, hfn, ?_, ?_, ?_⟩
    · intro l
      have h1 := hc.once l
      have h2 := hb.once l
      simp only [labs_append, branch_labs, labs_label, List.count_append, List.count_nil, List.count_cons, beq_iff_eq] at *
      cases l with | mk k n => cases k <;> simp only [quota, Label.mk.injEq, reduceCtorEq, false_and, true_and, if_false] at * <;> grind
    · refine Aim.close (ex' := fun l => exS false false e l ∨ l = ⟨.beginCycle, e.lab⟩ ∨ l = ⟨.next, e.lab⟩ ∨ l = ⟨.end, e.lab⟩) ?_ ?_
      · refine (((((Aim.append ?_ (hb.aim.mono ?_)).append ?_).append (hc.aim.mono (fun _ h => h.elim))).append ((branch_aim _ _ _).mono (fun _ h => .inr (.inl h))))).append ?_
        · intro l hl; cases hl
        · rintro l (rfl | ⟨-, rfl⟩ | ⟨-, rfl⟩)
          · exact .inl (.inl rfl)
          · exact .inr (.inr (.inr rfl))
          · exact .inr (.inr (.inl rfl))
        · intro l hl; cases hl
        · intro l hl; cases hl
      · rintro l (hl | rfl | rfl | rfl)
        · exact .inr hl
        · left; simp [labs_append, puts]
        · left; simp [labs_append, puts]
        · left; simp [labs_append, puts]
    · exact (((((noCalls rfl : Calling _ [_]).append (hb.call.mono (fun _ h => List.mem_append_right _ h))).append (noCalls rfl)).append (hc.call.mono (fun _ h => List.mem_append_left _ h))).append
        (branch_call _ _ _ _)).append (noCalls rfl)
  | .for_ i c inc b, e => by
    simp only [PieceS, emitS, calledS, strayBreak, strayCont]
    have hi := pieceS isLocal i e
    unfold PieceS at hi
    generalize emitS isLocal i e = p at *
    have hc := piece_condOf p.2.lab c { p.2 with lab := p.2.lab + 1, cont := ⟨.beginCycle, p.2.lab⟩, brk := ⟨.end, p.2.lab⟩ }
    generalize condOf ⟨.end, p.2.lab⟩ c { p.2 with lab := p.2.lab + 1, cont := ⟨.beginCycle, p.2.lab⟩, brk := ⟨.end, p.2.lab⟩ } = q at *
    obtain ⟨d, e1⟩ := q
    have hb := pieceS isLocal b e1
    unfold PieceS at hb
    generalize emitS isLocal b e1 = y at *
    have hz := piece_stepOf inc y.2
    generalize stepOf inc y.2 = q at *
    obtain ⟨d2, e2⟩ := q
    have h3 := hi.lab
    have h4 := hc.lab
    have h5 := hb.lab
    have h6 := hz.lab
    have k3 := hi.cas
    have k4 := hc.cas
    have k5 := hb.cas
    have k6 := hz.cas
    have hf := hc.fn
    have hbr := hc.brk
    have hct := hc.cont
    simp only at h4 k4 hf hbr hct h6 k6
    refine ⟨by simp only; omega, by simp only; omega, hi.brk, hi.cont, hz.fn.trans (hb.fn.trans (hf.trans hi.fn)), ?_, ?_, ?_⟩
    · intro l
      have a1 := hi.once l
      have a2 := hc.once l
      have a3 := hb.once l
      have a4 := hz.once l
      have e1 : labs [.j ⟨.beginCycle, p.2.lab⟩, .label ⟨.end, p.2.lab⟩] = [⟨.end, p.2.lab⟩] := rfl
      simp only [labs_append, branch_labs, labs_label, e1, List.count_append, List.count_nil, List.count_cons, beq_iff_eq] at *
      cases l with | mk k n => cases k <;> simp only [quota, Label.mk.injEq, reduceCtorEq, false_and, true_and, if_false] at * <;> grind
    · refine Aim.close (ex' := fun l => exS (strayBreak i) (strayCont i) e l ∨ l = ⟨.beginCycle, p.2.lab⟩ ∨ l = ⟨.end, p.2.lab⟩) ?_ ?_
      · refine (((((hi.aim.mono (fun _ h => .inl h)).append ?_).append (hc.aim.mono (fun _ h => .inr (.inr h)))).append (hb.aim.mono ?_)).append (hz.aim.mono (fun _ h => h.elim))).append ?_
        · intro l hl; cases hl
        · rintro l (rfl | ⟨-, rfl⟩ | ⟨-, rfl⟩)
          · exact .inl (.inl (by rw [hf, hi.fn]))
          · exact .inr (.inr hbr)
          · exact .inr (.inl hct)
        · intro l hl; right; right; left; simpa [targets] using hl
      · rintro l (hl | rfl | rfl)
        · exact .inr hl
        · left; simp [labs_append, puts]
        · left; simp [labs_append, puts]
    · refine (((((hi.call.mono ?_).append (noCalls rfl)).append (hc.call.mono ?_)).append (hb.call.mono ?_)).append (hz.call.mono ?_)).append (noCalls rfl) <;>
        (intro f h; simp [h])
  | .block b, e => by
    simp only [PieceS, emitS, calledS, strayBreak, strayCont]
    exact (pieceB isLocal b e).rightN ⟨rfl, rfl, rfl, rfl, rfl⟩
  | .switch_ c b, e => by
    simp only [PieceS, emitS, calledS, strayBreak, strayCont]
    have hc := pieceE c { e with lab := e.lab + 1, brk := ⟨.end, e.lab⟩ }
    have hcas := same_caseE c { e with lab := e.lab + 1, brk := ⟨.end, e.lab⟩ }
    generalize emitE c { e with lab := e.lab + 1, brk := ⟨.end, e.lab⟩ } = x at *
    simp only at hcas
    have hv := same_toReg x.2.2 x.2.1
    have pv := plain_toReg x.2.2 x.2.1
    generalize toReg x.2.2 x.2.1 = v at *
    have hd := piece_disp v.2.1 b v.2.2
    generalize dispatch v.2.1 b v.2.2 = d at *
    have hs := (same_freeR d.2.2 v.2.1).near
    generalize freeRvalue d.2.2 v.2.1 = e1 at *
    have hb := pieceW isLocal b e.caseLab e1 (by rw [hs.cas, hd.cas, hv.caseLab, hcas]; exact Nat.le_refl _)
    generalize emitW isLocal b e.caseLab e1 = y at *
    have h3 := hc.lab
    have h4 := hd.lab
    have h5 := hb.lab
    have k5 := hb.cas
    have k6 := hd.cas
    rw [hv.caseLab, hcas] at k6
    rw [hv.lab] at h4
    have hfn : e1.fn = e.fn := hs.fn.trans (hd.fn.trans (hv.fn.trans hc.fn))
    have hbr : e1.brk = ⟨.end, e.lab⟩ := hs.brk.trans (hd.brk.trans (hv.brk.trans hc.brk))
    have hct : e1.cont = e.cont := hs.cont.trans (hd.cont.trans (hv.cont.trans hc.cont))
    simp only at h3
    have e1c : e1.caseLab = e.caseLab + cases_ b := by rw [hs.cas, k6]
    have hlab1 : e1.lab = d.2.2.lab := hs.lab
    refine ⟨by simp only; omega, by simp only; omega, rfl, hb.cont.trans hct, hb.fn.trans hfn, ?_, ?_, ?_⟩
    · intro l
      have a1 := hc.once l
      have a2 := hd.once l
      have a3 := hb.once l
      rw [hv.lab] at a2
      have e2 : ∀ k, labs [.j k] = [] := fun _ => rfl
      simp only [labs_append, labs_label, pv.1, e2, List.count_append, List.count_nil, List.count_cons, beq_iff_eq] at *
      rw [hcas] at a1
      rw [e1c, hlab1] at a3
      rw [e1c] at k5
      cases l with | mk k n => cases k <;> simp only [quota, Label.mk.injEq, reduceCtorEq, false_and, true_and, if_false] at * <;> grind
    · refine Aim.close (ex' := fun l => exS false (strayConts b) e l ∨ caseRange e.caseLab (cases_ b) l ∨ l = ⟨.end, e.lab⟩) ?_ ?_
      · refine (((((hc.aim.mono (fun _ h => h.elim)).append (pv.aim _)).append (hd.aim.mono ?_)).append ?_).append (hb.aim.mono ?_)).append ?_
        · intro l hl; rw [hv.caseLab, hcas] at hl; exact .inr (.inl hl)
        · intro l hl
          right
          simp only [List.flatMap_cons, List.flatMap_nil, targets, List.append_nil, List.mem_singleton] at hl
          subst hl
          have hdf := hd.dflt
          rw [hv.caseLab, hcas] at hdf
          cases hy : d.2.1 with
          | none => exact .inr (.inr rfl)
          | some k => exact .inr (.inl ⟨rfl, hdf k hy⟩)
        · rintro l (rfl | ⟨-, rfl⟩ | ⟨h, rfl⟩)
          · exact .inl (.inl (by rw [hfn]))
          · exact .inr (.inr hbr)
          · exact .inl (.inr (.inr ⟨h, hct⟩))
        · intro l hl; cases hl
      · rintro l (hl | hl | rfl)
        · exact .inr hl
        · left
          simp only [labs_append, List.mem_append]
          exact .inl (.inr (hb.all l hl))
        · left; simp [labs_append, puts]
    · refine (((((hc.call.mono ?_).append (pv.call _)).append (hd.call.mono ?_)).append (noCalls rfl)).append (hb.call.mono ?_)).append (noCalls rfl)
      · intro f h; simp [h]
      · intro f h; cases h
      · intro f h; simp [h]
  | .case_ _ _, e => .plain (Same.refl _) Plain.nil
  | .default_ _, e => .plain (Same.refl _) Plain.nil
  | .break_, e => ⟨Nat.le_refl _, Nat.le_refl _, rfl, rfl, rfl, fun l => by simp [emitS, labs, puts], fun l hl => .inr (.inr (.inl ⟨rfl, by simpa [emitS, targets] using hl⟩)), noCalls rfl⟩
  | .continue_, e => ⟨Nat.le_refl _, Nat.le_refl _, rfl, rfl, rfl, fun l => by simp [emitS, labs, puts], fun l hl => .inr (.inr (.inr ⟨rfl, by simpa [emitS, targets] using hl⟩)), noCalls rfl⟩
  | .return_ none, e => ⟨Nat.le_refl _, Nat.le_refl _, rfl, rfl, rfl, fun l => by simp [emitS, labs, puts], fun l hl => .inr (.inl (by simpa [emitS, targets] using hl)), noCalls rfl⟩
  | .return_ (some x), e => by
    have hx := pieceE x e
    simp only [PieceS, emitS, calledS, calledO, strayBreak, strayCont]
    generalize emitE x e = r at *
    have hs := same_store r.2.2 (.reg R_V0) r.2.1
    have hp := plain_store r.2.2 (.reg R_V0) r.2.1
    generalize store r.2.2 (.reg R_V0) r.2.1 = t at *
    have hy := (hx.append (.plain hs hp)).right (same_freeR t.2 r.2.1)
    exact ⟨hy.lab, hy.cas, hy.brk, hy.cont, hy.fn, fun l => by rw [labs_append, show labs [.j ⟨.funcEnd, e.fn⟩] = [] from rfl, List.append_nil]; exact hy.once l,
      (hy.aim.mono (fun _ h => h.elim)).append (fun l hl => .inr (.inl (by simpa [targets] using hl))), hy.call.append (noCalls rfl)⟩

theorem pieceB (isLocal : Nat → Bool) : ∀ (b : Stmts) (e : Enc), Piece (exS (strayBreaks b) (strayConts b) e) (calledB b) e (emitB isLocal b e).1 (emitB isLocal b e).2
  | .nil, e => .plain (Same.refl _) Plain.nil
  | .cons s rest, e => by
    simp only [emitB, calledB, strayBreaks, strayConts]
    have h := pieceS isLocal s e
    unfold PieceS at h
    generalize emitS isLocal s e = x at *
    have k := pieceB isLocal rest x.2
    exact (h.mono (exS_mono rfl rfl rfl (fun h => by simp [h]) (fun h => by simp [h])) (fun _ h => List.mem_append_left _ h)).append
      (k.mono (exS_mono h.fn h.brk h.cont (fun h => by simp [h]) (fun h => by simp [h])) (fun _ h => List.mem_append_right _ h))

theorem pieceW (isLocal : Nat → Bool) : ∀ (b : Stmts) (k : Nat) (e : Enc), k + cases_ b ≤ e.caseLab →
    Bodies k (cases_ b) (exS (strayBreaks b) (strayConts b) e) (calledB b) e (emitW isLocal b k e).1 (emitW isLocal b k e).2
  | .nil, k, e, _ => ⟨Nat.le_refl _, Nat.le_refl _, rfl, rfl, rfl, fun l => by simp [emitW, labs], fun l hl => (by have := hl.2; simp only [cases_] at this; omega), fun l hl => (by cases hl), noCalls rfl⟩
  | .cons (.case_ v s) rest, k, e, hk => by
    simp only [emitW, calledB, calledS, strayBreaks, strayConts, strayBreak, strayCont, cases_] at *
    have h := pieceS isLocal s e
    unfold PieceS at h
    generalize emitS isLocal s e = x at *
    have r := pieceW isLocal rest (k + 1) x.2 (by have := h.cas; omega)
    exact Bodies.case_ (h.mono (exS_mono rfl rfl rfl (fun h => by simp [h]) (fun h => by simp [h])) (fun _ h => List.mem_append_left _ h))
      (r.mono (exS_mono h.fn h.brk h.cont (fun h => by simp [h]) (fun h => by simp [h])) (fun _ h => List.mem_append_right _ h))
  | .cons (.default_ s) rest, k, e, hk => by
    simp only [emitW, calledB, calledS, strayBreaks, strayConts, strayBreak, strayCont, cases_] at *
    have h := pieceS isLocal s e
    unfold PieceS at h
    generalize emitS isLocal s e = x at *
    have r := pieceW isLocal rest (k + 1) x.2 (by have := h.cas; omega)
    exact Bodies.case_ (h.mono (exS_mono rfl rfl rfl (fun h => by simp [h]) (fun h => by simp [h])) (fun _ h => List.mem_append_left _ h))
      (r.mono (exS_mono h.fn h.brk h.cont (fun h => by simp [h]) (fun h => by simp [h])) (fun _ h => List.mem_append_right _ h))
  | .cons .skip rest, k, e, hk => by
    simp only [emitW, calledB, strayBreaks, strayConts, cases_] at *
    exact Bodies.other' (pieceS isLocal .skip e) (fun he => pieceW isLocal rest k _ (Nat.le_trans hk he))
  | .cons (.expr a) rest, k, e, hk => by
    simp only [emitW, calledB, strayBreaks, strayConts, cases_] at *
    exact Bodies.other' (pieceS isLocal (.expr a) e) (fun he => pieceW isLocal rest k _ (Nat.le_trans hk he))
  | .cons (.decls a) rest, k, e, hk => by
    simp only [emitW, calledB, strayBreaks, strayConts, cases_] at *
    exact Bodies.other' (pieceS isLocal (.decls a) e) (fun he => pieceW isLocal rest k _ (Nat.le_trans hk he))
  | .cons (.if_ a b) rest, k, e, hk => by
    simp only [emitW, calledB, strayBreaks, strayConts, cases_] at *
    exact Bodies.other' (pieceS isLocal (.if_ a b) e) (fun he => pieceW isLocal rest k _ (Nat.le_trans hk he))
  | .cons (.ifElse a b c) rest, k, e, hk => by
    simp only [emitW, calledB, strayBreaks, strayConts, cases_] at *
    exact Bodies.other' (pieceS isLocal (.ifElse a b c) e) (fun he => pieceW isLocal rest k _ (Nat.le_trans hk he))
  | .cons (.while_ a b) rest, k, e, hk => by
    simp only [emitW, calledB, strayBreaks, strayConts, cases_] at *
    exact Bodies.other' (pieceS isLocal (.while_ a b) e) (fun he => pieceW isLocal rest k _ (Nat.le_trans hk he))
  | .cons (.do_ a b) rest, k, e, hk => by
    simp only [emitW, calledB, strayBreaks, strayConts, cases_] at *
    exact Bodies.other' (pieceS isLocal (.do_ a b) e) (fun he => pieceW isLocal rest k _ (Nat.le_trans hk he))
  | .cons (.for_ a b c d) rest, k, e, hk => by
    simp only [emitW, calledB, strayBreaks, strayConts, cases_] at *
    exact Bodies.other' (pieceS isLocal (.for_ a b c d) e) (fun he => pieceW isLocal rest k _ (Nat.le_trans hk he))
  | .cons (.block a) rest, k, e, hk => by
    simp only [emitW, calledB, strayBreaks, strayConts, cases_] at *
    exact Bodies.other' (pieceS isLocal (.block a) e) (fun he => pieceW isLocal rest k _ (Nat.le_trans hk he))
  | .cons (.switch_ a b) rest, k, e, hk => by
    simp only [emitW, calledB, strayBreaks, strayConts, cases_] at *
    exact Bodies.other' (pieceS isLocal (.switch_ a b) e) (fun he => pieceW isLocal rest k _ (Nat.le_trans hk he))
  | .cons .break_ rest, k, e, hk => by
    simp only [emitW, calledB, strayBreaks, strayConts, cases_] at *
    exact Bodies.other' (pieceS isLocal .break_ e) (fun he => pieceW isLocal rest k _ (Nat.le_trans hk he))
  | .cons .continue_ rest, k, e, hk => by
    simp only [emitW, calledB, strayBreaks, strayConts, cases_] at *
    exact Bodies.other' (pieceS isLocal .continue_ e) (fun he => pieceW isLocal rest k _ (Nat.le_trans hk he))
  | .cons (.return_ a) rest, k, e, hk => by
    simp only [emitW, calledB, strayBreaks, strayConts, cases_] at *
    exact Bodies.other' (pieceS isLocal (.return_ a) e) (fun he => pieceW isLocal rest k _ (Nat.le_trans hk he))
end

/-! ## Functions -/

theorem near_params : ∀ (l : List (Nat × Ty)) (i : Nat) (e : Enc), Near e (params e i l)
  | [], _, _ => ⟨rfl, rfl, rfl, rfl, rfl⟩
  | (id, ty) :: l, i, e => by
    have h := near_params l (i + 1) { e with table := fun j => if j = id then (if i < 4 then .reg (R_A0 + i) else .stack (4 * i + 64) R_FP) else e.table j }
    exact ⟨h.lab, h.cas, h.brk, h.cont, h.fn⟩

/-- The labels of a function, besides those of its statements. -/
def own (main : Nat) (f : Nat) (l : Label) : Nat :=
  match l.kind with
  | .func | .funcEnd => if l.num = f then 1 else 0
  | .main => if f = main ∧ l.num = 0 then 1 else 0
  | _ => 0

theorem map_plain (g : Nat × Int → Instr) (hg : ∀ r, Plain [g r]) : ∀ l : List (Nat × Int), Plain (l.map g)
  | [] => Plain.nil
  | r :: l => (hg r).append (map_plain g hg l)

theorem funcF (isLocal : Nat → Bool) (main : Nat) (f : Func) (e : Enc) :
    e.lab ≤ (emitF isLocal main f e).2.lab ∧ e.caseLab ≤ (emitF isLocal main f e).2.caseLab ∧
    (∀ l, (labs (emitF isLocal main f e).1).count l ≤ quota e.lab (emitF isLocal main f e).2.lab e.caseLab (emitF isLocal main f e).2.caseLab l + own main f.id l) ∧
    (strayBreaks f.body = false → strayConts f.body = false → Aim noEx (emitF isLocal main f e).1) ∧
    Calling (calledB f.body) (emitF isLocal main f e).1 ∧ ⟨.func, f.id⟩ ∈ labs (emitF isLocal main f e).1 ∧ (f.id = main → ⟨.main, 0⟩ ∈ labs (emitF isLocal main f e).1) := by
  simp only [emitF]
  have hn := near_params f.params 0 { e with fn := f.id, maxd := 0, scope := 0 }
  generalize params { e with fn := f.id, maxd := 0, scope := 0 } 0 f.params = e0 at *
  have hb := pieceS isLocal (.block f.body) e0
  simp only [PieceS, strayBreak, strayCont, calledS] at hb
  have hfn := hb.fn
  generalize emitS isLocal (.block f.body) e0 = x at *
  have h1 := hb.lab
  have h2 := hb.cas
  rw [hn.lab] at h1
  rw [hn.cas] at h2
  have p1 : Plain (kept.map fun r => Instr.sw (.reg r.1) r.2 R_SP) := map_plain _ (fun _ => ⟨rfl, rfl, rfl⟩) _
  have p2 : Plain (takenBack.map fun r => Instr.lw r.1 r.2 R_SP) := map_plain _ (fun _ => ⟨rfl, rfl, rfl⟩) _
  generalize kept.map (fun r => Instr.sw (.reg r.1) r.2 R_SP) = c1 at *
  generalize takenBack.map (fun r => Instr.lw r.1 r.2 R_SP) = c2 at *
  refine ⟨h1, h2, ?_, ?_, ?_, ?_, ?_⟩
  · intro l
    have a := hb.once l
    rw [hn.lab, hn.cas] at a
    have e1 : labs [.label ⟨.funcEnd, f.id⟩, .op true .add (.reg R_SP) (.reg R_FP) (.imm 64)] = [⟨.funcEnd, f.id⟩] := rfl
    have e2 : labs [.op true .add (.reg R_FP) (.reg R_SP) (.imm (-64)), .op true .add (.reg R_SP) (.reg R_FP) (.imm (-(4 + x.2.maxd : Nat)))] = [] := rfl
    have e3 : labs [.jr R_RA] = [] := rfl
    have e4 : labs (if f.id = main then [.label ⟨.main, 0⟩] else []) = if f.id = main then [⟨.main, 0⟩] else [] := by split <;> rfl
    simp only [labs_append, p1.1, p2.1, e1, e2, e3, e4, labs_label, List.count_append, List.count_nil, List.count_cons, beq_iff_eq] at *
    by_cases hm : f.id = main
    · cases l with | mk k n => cases k <;> simp only [quota, own, hm, if_true, List.count_cons, List.count_nil, beq_iff_eq, Label.mk.injEq, reduceCtorEq, false_and, true_and, if_false] at * <;> grind
    · cases l with | mk k n => cases k <;> simp only [quota, own, hm, if_false, List.count_nil, beq_iff_eq, Label.mk.injEq, reduceCtorEq, false_and, true_and] at * <;> grind
  · intro h3 h4
    rw [h3, h4] at hb
    refine Aim.close (ex' := exS false false e0) ?_ ?_
    · refine ((((((Aim.append ?_ ?_).append (p1.aim _)).append ?_).append hb.aim).append ?_).append (p2.aim _)).append ?_
      · intro l hl; cases hl
      · intro l hl; split at hl <;> cases hl
      · intro l hl; cases hl
      · intro l hl; cases hl
      · intro l hl; cases hl
    · rintro l (rfl | ⟨h, -⟩ | ⟨h, -⟩)
      · left; rw [hn.fn]; simp [labs_append, puts]
      · cases h
      · cases h
  · refine (((((((noCalls rfl : Calling _ [_]).append ?_).append (p1.call _)).append (noCalls rfl)).append hb.call).append (noCalls rfl)).append (p2.call _)).append (noCalls rfl)
    split <;> exact noCalls rfl
  · simp [labs_append, puts]
  · intro h; simp [labs_append, puts, h]

/-- The labels of functions of a unit. -/
def owns (main : Nat) (fs : List Nat) (l : Label) : Nat := (fs.map fun f => own main f l).sum

theorem unitU (isLocal : Nat → Bool) (main : Nat) : ∀ (l : List Top) (e : Enc),
    e.lab ≤ (emitU isLocal main l e).2.lab ∧ e.caseLab ≤ (emitU isLocal main l e).2.caseLab ∧
    (∀ k, (labs (emitU isLocal main l e).1).count k ≤ quota e.lab (emitU isLocal main l e).2.lab e.caseLab (emitU isLocal main l e).2.caseLab k + owns main (funcs l) k) ∧
    ((∀ f, Top.func f ∈ l → strayBreaks f.body = false ∧ strayConts f.body = false) → Aim noEx (emitU isLocal main l e).1) ∧
    Calling (l.flatMap calledT) (emitU isLocal main l e).1 ∧ (∀ f ∈ funcs l, ⟨.func, f⟩ ∈ labs (emitU isLocal main l e).1) ∧
    (main ∈ funcs l → ⟨.main, 0⟩ ∈ labs (emitU isLocal main l e).1)
  | [], e => ⟨Nat.le_refl _, Nat.le_refl _, fun k => by simp [emitU, labs], fun _ l hl => (by cases hl), noCalls rfl, fun f hf => (by cases hf), fun h => (by cases h)⟩
  | .var d :: l, e => by
    have hd := pieceV isLocal d e
    simp only [emitU]
    generalize emitV isLocal d e = x at *
    obtain ⟨h1, h2, h3, h4, h5, h6, h7⟩ := unitU isLocal main l x.2
    generalize emitU isLocal main l x.2 = y at *
    have hf : funcs (.var d :: l) = funcs l := rfl
    rw [hf]
    refine ⟨Nat.le_trans hd.lab h1, Nat.le_trans hd.cas h2, ?_, ?_, ?_, ?_, ?_⟩
    · intro k
      have a1 := hd.once k
      have a2 := h3 k
      have a3 := quota_append hd.lab h1 hd.cas h2 k
      rw [labs_append, List.count_append]
      omega
    · intro hs
      exact hd.aim.append (h4 (fun f hf => hs f (List.mem_cons_of_mem _ hf)))
    · rw [List.flatMap_cons]
      exact (hd.call.mono (fun f h => List.mem_append_left _ h)).append (h5.mono (fun f h => List.mem_append_right _ h))
    · intro f hf; rw [labs_append]; exact List.mem_append_right _ (h6 f hf)
    · intro hf; rw [labs_append]; exact List.mem_append_right _ (h7 hf)
  | .func g :: l, e => by
    obtain ⟨g1, g2, g3, g4, g5, g6, g7⟩ := funcF isLocal main g e
    simp only [emitU]
    generalize emitF isLocal main g e = x at *
    obtain ⟨h1, h2, h3, h4, h5, h6, h7⟩ := unitU isLocal main l x.2
    generalize emitU isLocal main l x.2 = y at *
    have hf : funcs (.func g :: l) = g.id :: funcs l := rfl
    rw [hf]
    refine ⟨Nat.le_trans g1 h1, Nat.le_trans g2 h2, ?_, ?_, ?_, ?_, ?_⟩
    · intro k
      have a1 := g3 k
      have a2 := h3 k
      have a3 := quota_append g1 h1 g2 h2 k
      simp only [owns, List.map_cons, List.sum_cons] at *
      rw [labs_append, List.count_append]
      omega
    · intro hs
      have := hs g (List.mem_cons_self ..)
      exact (g4 this.1 this.2).append (h4 (fun f hf => hs f (List.mem_cons_of_mem _ hf)))
    · rw [List.flatMap_cons]
      exact (g5.mono (fun f h => List.mem_append_left _ h)).append (h5.mono (fun f h => List.mem_append_right _ h))
    · intro f hf
      rw [labs_append]
      rcases List.mem_cons.mp hf with rfl | hf
      · exact List.mem_append_left _ g6
      · exact List.mem_append_right _ (h6 f hf)
    · intro hf
      rw [labs_append]
      rcases List.mem_cons.mp hf with h | hf
      · exact List.mem_append_left _ (g7 h.symm)
      · exact List.mem_append_right _ (h7 hf)

theorem owns_le {main : Nat} : ∀ {fs : List Nat} (_ : fs.Nodup) (l : Label), owns main fs l ≤ match l.kind with | .func | .funcEnd | .main => 1 | _ => 0
  | [], _, l => by simp [owns]
  | f :: fs, h, l => by
    have ih := owns_le (main := main) (List.nodup_cons.mp h).2 l
    have hz : ∀ gs : List Nat, f ∉ gs → own main f l = 1 → owns main gs l = 0 := by
      intro gs
      induction gs with
      | nil => intro _ _; rfl
      | cons g gs ihg =>
        intro hg ho
        have := ihg (fun h => hg (List.mem_cons_of_mem _ h)) ho
        simp only [owns, List.map_cons, List.sum_cons] at *
        rw [this]
        have hne : g ≠ f := fun h => hg (h ▸ List.mem_cons_self ..)
        cases l with | mk k n => cases k <;> simp only [own] at * <;> grind
    have := hz fs (List.nodup_cons.mp h).1
    simp only [owns, List.map_cons, List.sum_cons] at *
    cases l with | mk k n => cases k <;> simp only [own] at * <;> grind

end RuC.Mips
