import Verif.Machine.Stmts

/-!
The machine follows `switch`.
-/

namespace RuC.Machine

open RuC RuC.Codegen RuC.Instr
open RuC.Expr (Unary Binary)

/-! ### No test is left open -/

mutual
theorem fitsS_wf {ok : Layout → Nat → Prop} {global : Nat → Bool} : ∀ (s : Stmt) (L : Layout), FitsS ok global L s → s.Wf
  | .skip, _, _ | .continue_, _, _ | .break_, _, _ => trivial
  | .return_ none, _, _ => by intro p h; cases h
  | .return_ (some (e, m)), L, f => by
    simp only [FitsS] at f
    intro p h
    cases h
    exact fits_wf e _ f.2
  | .expr e, L, f => by simp only [FitsS] at f; exact left_wf f
  | .var _ _ _ i, L, f => by
    simp only [FitsS] at f
    intro e h
    exact fits_wf e _ (f.2.2.2.2 e h)
  | .seq a b, L, f => by simp only [FitsS] at f; exact ⟨fitsS_wf a L f.1, fitsS_wf b _ f.2.1⟩
  | .block s, L, f => by simp only [FitsS] at f; exact fitsS_wf s L f
  | .if_ c s, L, f => by simp only [FitsS] at f; exact ⟨fits_wf c _ f.1, fitsS_wf s L f.2.2⟩
  | .ifElse c a b, L, f => by simp only [FitsS] at f; exact ⟨fits_wf c _ f.1, fitsS_wf a L f.2.2.2.1, fitsS_wf b _ f.2.2.2.2.1⟩
  | .while_ c s, L, f => by simp only [FitsS] at f; exact ⟨fits_wf c _ f.1, fitsS_wf s L f.2.2⟩
  | .do_ s c, L, f => by simp only [FitsS] at f; exact ⟨fits_wf c _ f.1, fitsS_wf s L f.2.2⟩
  | .for_ i c m s, L, f => by
    simp only [FitsS] at f
    exact ⟨fitsS_wf i L f.1, fun e h => fits_wf e _ (f.2.1 e h), fun e h => left_wf (f.2.2.1 e h), fitsS_wf s _ f.2.2.2.2.1⟩
  | .switch c s, L, f => by simp only [FitsS] at f; exact ⟨fits_wf c _ f.1, fitsArms_wf s L f.2⟩
  | .arr _ _ _ _ _ _ _, _, f | .case _ _, _, f | .default _, _, f => by simp [FitsS] at f

theorem fitsArms_wf {ok : Layout → Nat → Prop} {global : Nat → Bool} : ∀ (s : Stmt) (L : Layout), FitsArms ok global L s → s.Wf
  | .skip, _, _ => trivial
  | .case e x, L, f => by
    simp only [FitsArms] at f
    obtain ⟨k, rfl⟩ := f.1
    exact ⟨trivial, fitsS_wf x L f.2.2⟩
  | .default x, L, f => by simp only [FitsArms] at f; exact fitsS_wf x L f.2
  | .seq (.case e x) r, L, f => by
    simp only [FitsArms] at f
    obtain ⟨k, rfl⟩ := f.1
    exact ⟨⟨trivial, fitsS_wf x L f.2.2.1⟩, fitsArms_wf r _ f.2.2.2.2.1⟩
  | .block b, L, f => by simp only [FitsArms] at f; exact fitsArms_wf b L f
  | .var _ _ _ _, _, f | .arr _ _ _ _ _ _ _, _, f | .expr _, _, f | .if_ _ _, _, f | .ifElse _ _ _, _, f | .switch _ _, _, f | .while_ _ _, _, f | .do_ _ _, _, f | .for_ _ _ _ _, _, f | .continue_, _, f | .break_, _, f | .return_ _, _, f | .seq .skip _, _, f | .seq (.seq _ _) _, _, f | .seq (.block _) _, _, f | .seq (.var _ _ _ _) _, _, f | .seq (.arr _ _ _ _ _ _ _) _, _, f | .seq (.expr _) _, _, f | .seq (.if_ _ _) _, _, f | .seq (.ifElse _ _ _) _, _, f | .seq (.switch _ _) _, _, f | .seq (.while_ _ _) _, _, f | .seq (.do_ _ _) _, _, f | .seq (.for_ _ _ _ _) _, _, f | .seq .continue_ _, _, f | .seq .break_ _, _, f | .seq (.return_ _) _, _, f | .seq (.default _) _, _, f => by
    simp [FitsArms] at f
end

theorem fits_next {ok : Layout → Nat → Prop} {global : Nat → Bool} {s : Stmt} {L : Layout} (L' : Layout) (base : Nat) (f : FitsS ok global L s) :
    Sym.next ∉ (codeS L' base s).code := by
  have h := codeS_ok s L' base (fitsS_wf s L f)
  have hl := fits_label s L L' base f
  intro hm
  obtain ⟨i, hi⟩ := List.mem_iff_getElem?.1 hm
  have h1 := h.1
  rw [hl, h.2.1 i hi] at h1
  cases h1

/-- The first label of the body of a `switch` stands at its beginning. -/
theorem arms_label {ok : Layout → Nat → Prop} {global : Nat → Bool} : ∀ (s : Stmt) (L L' : Layout) (base : Nat), FitsArms ok global L s →
    (codeS L' base s).label = some base ∨ ((codeS L' base s).label = none ∧ (codeS L' base s).code = [])
  | .skip, _, _, _, _ => .inr ⟨rfl, rfl⟩
  | .case _ _, _, _, _, _ | .default _, _, _, _, _ | .seq (.case _ _) _, _, _, _, _ => .inl rfl
  | .block b, L, L', base, f => by simp only [FitsArms] at f; exact arms_label b L L' base f
  | .var _ _ _ _, _, _, _, f | .arr _ _ _ _ _ _ _, _, _, _, f | .expr _, _, _, _, f | .if_ _ _, _, _, _, f | .ifElse _ _ _, _, _, _, f | .switch _ _, _, _, _, f | .while_ _ _, _, _, _, f | .do_ _ _, _, _, _, f | .for_ _ _ _ _, _, _, _, f | .continue_, _, _, _, f | .break_, _, _, _, f | .return_ _, _, _, _, f | .seq .skip _, _, _, _, f | .seq (.seq _ _) _, _, _, _, f | .seq (.block _) _, _, _, _, f | .seq (.var _ _ _ _) _, _, _, _, f | .seq (.arr _ _ _ _ _ _ _) _, _, _, _, f | .seq (.expr _) _, _, _, _, f | .seq (.if_ _ _) _, _, _, _, f | .seq (.ifElse _ _ _) _, _, _, _, f | .seq (.switch _ _) _, _, _, _, f | .seq (.while_ _ _) _, _, _, _, f | .seq (.do_ _ _) _, _, _, _, f | .seq (.for_ _ _ _ _) _, _, _, _, f | .seq .continue_ _, _, _, _, f | .seq .break_ _, _, _, _, f | .seq (.return_ _) _, _, _, _, f | .seq (.default _) _, _, _, _, f => by
    simp [FitsArms] at f

/-! ### Statements that do not end in front of the next one -/

theorem bind_ok {α β : Type} {r : Res α} {f : α → Src → Res β} {y s'} (h : r.bind f = .ok y s') : ∃ x s, r = .ok x s ∧ f x s = .ok y s' := by
  cases r with
  | ok x s => exact ⟨x, s, rfl, h⟩
  | wrong => cases h
  | more o => cases h

theorem leaves_not {call : Calls} {n : Nat} : ∀ (x : Stmt) (s s' : Src) (f : Flow), Leaves x → execS call n x s = .ok f s' → f ≠ .normal
  | .break_, s, s', f, _, h => by rw [execS] at h; cases h; simp
  | .continue_, s, s', f, _, h => by rw [execS] at h; cases h; simp
  | .return_ none, s, s', f, _, h => by rw [execS] at h; cases h; simp
  | .return_ (some (e, m)), s, s', f, _, h => by
    rw [execS] at h
    cases hv : evalE call e s with
    | ok x s1 =>
      rw [hv] at h
      cases x with
      | none => cases h
      | some x => cases h; simp
    | wrong => rw [hv] at h; cases h
    | more o => rw [hv] at h; cases h
  | .seq a b, s, s', f, hl, h => by
    rw [execS] at h
    obtain ⟨g, s1, h1, h2⟩ := bind_ok h
    by_cases hg : g = .normal
    · rw [if_pos hg] at h2
      rcases hl with hl | hl
      · exact absurd hg (leaves_not a s s1 g hl h1)
      · exact leaves_not b s1 s' f hl h2
    · rw [if_neg hg] at h2
      cases h2
      exact hg
  | .block a, s, s', f, hl, h => by
    rw [execS] at h
    obtain ⟨g, s1, h1, h2⟩ := bind_ok h
    cases h2
    exact leaves_not a s s1 f hl h1
  | .ifElse c a b, s, s', f, hl, h => by
    rw [execS] at h
    cases hv : evalE call c s with
    | ok x s1 =>
      rw [hv] at h
      cases x with
      | none => cases h
      | some x =>
        have h' : (if x ≠ 0 then execS call n a s1 else execS call n b s1) = .ok f s' := h
        split at h'
        · exact leaves_not a s1 s' f hl.1 h'
        · exact leaves_not b s1 s' f hl.2 h'
    | wrong => rw [hv] at h; cases h
    | more o => rw [hv] at h; cases h
  | .skip, _, _, _, hl, _ | .var _ _ _ _, _, _, _, hl, _ | .arr _ _ _ _ _ _ _, _, _, _, hl, _ | .expr _, _, _, _, hl, _ | .case _ _, _, _, _, hl, _
  | .default _, _, _, _, hl, _ | .if_ _ _, _, _, _, hl, _ | .switch _ _, _, _, _, hl, _ | .while_ _ _, _, _, _, hl, _ | .do_ _ _, _, _, _, hl, _
  | .for_ _ _ _ _, _, _, _, hl, _ => hl.elim

section
variable {C : Ctx} {n : Nat} {call : Calls}

/-- The code of the body of a `switch` has its effects: the value is on the stack, and a test that fails last goes behind it. -/
def ClaimArms (C : Ctx) (n : Nat) (call : Calls) (st : Stmt) : Prop :=
  ∀ (L : Layout) (b c : Int) (f : Frame) (fs : List Frame) (s : Src) (v : State) (base : Nat) (x : Int) (k : List Int),
    FitsArms (okId C) C.global L st → Laid L [] → L.inFunc = true → (layS L st).maxLocal ≤ v.size → Fresh s st.declared →
    v.frames = f :: fs → Holds C b c base (Codegen.fill .next ((base + (codeS L base st).code.length : Nat) : Int) (codeS L base st).code) →
    v.pc = base → v.stack = x :: k → Inv C L s v →
    Follows C n v (AtEnd C (layS L st) b c f fs [] st.declared v (base + (codeS L base st).code.length) s) (execArms call n st x false s)

/-- The test of a `case`: the value stays on the stack. -/
theorem test_follows {L : Layout} {b c : Int} {s : Src} {v : State} {base to_ : Nat} {x k : Int} {st : List Int}
    (hh : Holds C b c base (vals [IC_DUPLICATE, IC_LI, k, IC_EQ, IC_BE0, (to_ : Int)])) (hpc : v.pc = base) (hs : v.stack = x :: st) (inv : Inv C L s v) :
    ∃ v', Reach C.M 0 v v' ∧ Inv C L s v' ∧ Upto v v' (if x = k then base + 6 else to_) v.stack := by
  obtain ⟨c0, hh⟩ := holds_vals_cons.1 hh
  obtain ⟨c1, hh⟩ := holds_vals_cons.1 hh
  obtain ⟨c2, hh⟩ := holds_vals_cons.1 hh
  obtain ⟨c3, hh⟩ := holds_vals_cons.1 hh
  obtain ⟨c4, hh⟩ := holds_vals_cons.1 hh
  obtain ⟨c5, _⟩ := holds_vals_cons.1 hh
  subst hpc
  have s1 := step_dup (M := C.M) (v := v) c0 hs
  have s2 := step_li (M := C.M) (v := { v with pc := v.pc + 1, stack := x :: x :: st }) c1 c2
  have s3 := step_binary (M := C.M) (v := { v with pc := v.pc + 1 + 2, stack := k :: x :: x :: st }) (i := IC_EQ) (w := truth (x == k)) c3 rfl rfl rfl
  have s4 := step_be0 (M := C.M) (v := { v with pc := v.pc + 1 + 2 + 1, stack := truth (x == k) :: x :: st }) c4 c5 rfl
  refine ⟨_, ((reach1 s1).trans ((reach1 s2).trans ((reach1 s3).trans (reach1 s4)))).weaken (Nat.zero_le _), inv.congr rfl rfl rfl rfl, ?_⟩
  refine ⟨?_, hs.symm, rfl, rfl, rfl⟩
  simp only
  by_cases e : x = k
  · rw [if_pos e, if_neg (by simp [truth, e])]
  · rw [if_neg e, if_pos (by simp [truth, e])]
    exact Int.toNat_natCast _

/-- The code of a `case`. -/
theorem case_code {L : Layout} {base : Nat} {k : Int} {x : Stmt} (f : FitsS (okId C) C.global L x) :
    (codeS L base (.case (.lit k) x)).code = vals [IC_DUPLICATE, IC_LI, k, IC_EQ, IC_BE0] ++ .next :: (codeS L (base + 6) x).code := by
  simp only [codeS, Piece.join]
  rw [fits_label x L L _ f]
  rfl

theorem fill_case {L : Layout} {base : Nat} {k a : Int} {x : Stmt} (f : FitsS (okId C) C.global L x) :
    Codegen.fill .next a (codeS L base (.case (.lit k) x)).code = vals [IC_DUPLICATE, IC_LI, k, IC_EQ, IC_BE0, a] ++ (codeS L (base + 6) x).code := by
  rw [case_code f, fill_append, fill_vals _ _ _ (by simp)]
  show _ ++ (Sym.val a :: Codegen.fill .next a (codeS L (base + 6) x).code) = _
  rw [fill_of_not_mem (fits_next L (base + 6) f)]
  rfl

theorem arms_skip : ClaimArms C n call .skip := by
  intro L b c f fs s v base x k _ _ _ _ _ _ _ hpc _ inv
  exact Follows.end Reach.refl (AtEnd.normal (junk := []) inv Scoped.refl ⟨hpc, rfl, rfl, rfl, rfl⟩)

theorem arms_default (y : Stmt) (ihy : ClaimS C n call y) : ClaimArms C n call (.default y) := by
  intro L b c f fs s v base x k hf hl hif hm hfr hv hh hpc hs inv
  simp only [FitsArms] at hf
  have hc : (codeS L base (.default y)).code = (codeS L base y).code := by
    simp only [codeS, Piece.join]
    rw [fits_label y L L _ hf.2]
    rfl
  rw [hc, fill_of_not_mem (fits_next L base hf.2)] at hh
  rw [hc, execArms]
  have := ihy L b c f fs s v base hf.2 hl hif hm hfr hv hh hpc inv
  rw [hf.1] at this
  exact this

theorem arms_block (y : Stmt) (ihy : ClaimArms C n call y) : ClaimArms C n call (.block y) := by
  intro L b c f fs s v base x k hf hl hif hm hfr hv hh hpc hs inv
  simp only [FitsArms] at hf
  rw [execArms]
  refine Follows.bind (ihy L b c f fs s v base x k hf hl hif hm hfr hv hh hpc hs inv) ?_
  intro fl s1 v1 h
  refine Follows.end Reach.refl ?_
  cases fl with
  | ret r =>
    obtain ⟨h1, h2⟩ := h
    exact ⟨⟨h1.out, fun i x g e => h1.glob i x g (leave_var e), h1.pc, h1.stack, h1.pend, h1.cells, h1.size, h1.frames⟩, (leave_scoped h2).weaken (by simp)⟩
  | normal | brk | cont =>
    obtain ⟨h1, h2, h3⟩ := h
    exact ⟨h1.closed y inv hfr, leave_scoped h2, h3⟩

theorem arms_case (e : Exp) (y : Stmt) (ihy : ClaimS C n call y) : ClaimArms C n call (.case e y) := by
  intro L b c f fs s v base x st hf hl hif hm hfr hv hh hpc hs inv
  simp only [FitsArms] at hf
  obtain ⟨⟨k, rfl⟩, ho, fy⟩ := hf
  have len : (codeS L base (.case (.lit k) y)).code.length = 6 + (codeS L (base + 6) y).code.length := by
    rw [case_code fy]; simp; omega
  rw [fill_case fy] at hh
  obtain ⟨h1, h2⟩ := holds_append.1 hh
  have el : (vals [IC_DUPLICATE, IC_LI, k, IC_EQ, IC_BE0, ((base + (codeS L base (.case (.lit k) y)).code.length : Nat) : Int)]).length = 6 := rfl
  rw [el] at h2
  obtain ⟨v1, r1, inv1, up1⟩ := test_follows h1 hpc hs inv
  refine Follows.start (r1.weaken (Nat.zero_le _)) ?_
  have hex : execArms call n (.case (.lit k) y) x false s = if x = k then execS call n y s else .ok .normal s := by
    rw [execArms]; simp [litOf]
  rw [hex]
  by_cases hx : x = k
  · rw [if_pos hx] at up1 ⊢
    have f2 := ihy L b c f fs s v1 (base + 6) fy hl hif (by rw [up1.size]; exact hm) hfr (up1.frames.trans hv) h2 up1.pc inv1
    refine f2.mono ?_
    intro fl s3 v3 h
    refine h.from (junk := []) ⟨rfl, up1.stack, up1.pend, up1.size, up1.frames⟩ (by rw [ho]; simp) (fun _ h => h) Scoped.refl Scoped.refl (fun _ h => h) ?_
    rw [len]; omega
  · rw [if_neg hx] at up1 ⊢
    exact Follows.end Reach.refl (AtEnd.normal (junk := []) (inv1.after y hl hif hfr) Scoped.refl up1)

theorem arms_seq (e : Exp) (y r : Stmt) (ihy : ClaimS C n call y) (ihr : ClaimArms C n call r) : ClaimArms C n call (.seq (.case e y) r) := by
  intro L b c f fs s v base x st hf hl hif hm hfr hv hh hpc hs inv
  simp only [FitsArms] at hf
  obtain ⟨⟨k, rfl⟩, ho, fy, hlv, fr, dis⟩ := hf
  have gy := grown y hl hif
  have gr := grown r gy.1 gy.2.inFunc
  obtain ⟨fry, frr⟩ : Fresh s y.declared ∧ Fresh s r.declared := Fresh.append.1 hfr
  have lenP : (codeS L base (.case (.lit k) y)).code.length = 6 + (codeS L (base + 6) y).code.length := by
    rw [case_code fy]; simp; omega
  have hcode : ∀ a : Nat, a = base + (codeS L base (.seq (.case (.lit k) y) r)).code.length →
      Codegen.fill .next (a : Int) (codeS L base (.seq (.case (.lit k) y) r)).code =
        (vals [IC_DUPLICATE, IC_LI, k, IC_EQ, IC_BE0, ((base + 6 + (codeS L (base + 6) y).code.length : Nat) : Int)] ++ (codeS L (base + 6) y).code) ++
        Codegen.fill .next (a : Int) (codeS (layS L y) (base + 6 + (codeS L (base + 6) y).code.length) r).code := by
    intro a ha
    have e1 : codeS L base (.seq (.case (.lit k) y) r) =
        (codeS L base (.case (.lit k) y)).join (codeS (layS L y) (base + (codeS L base (.case (.lit k) y)).code.length) r) := rfl
    rw [lenP, ← Nat.add_assoc] at e1
    rw [e1] at ha ⊢
    simp only [Piece.join] at ha ⊢
    rcases arms_label r (layS L y) (layS L y) (base + 6 + (codeS L (base + 6) y).code.length) fr with hlab | ⟨hlab, hnil⟩
    · rw [hlab]
      show Codegen.fill .next _ (Codegen.fill .next _ _ ++ _) = _
      rw [fill_append, fill_of_not_mem (not_mem_fill .next _ _ (by simp)), fill_case fy]
    · rw [hlab] at ha ⊢
      rw [hnil] at ha ⊢
      have ha : a = base + 6 + (codeS L (base + 6) y).code.length := by
        rw [ha]
        show base + ((codeS L base (.case (.lit k) y)).code ++ []).length = _
        rw [List.append_nil, lenP, ← Nat.add_assoc]
      show Codegen.fill .next _ ((codeS L base (.case (.lit k) y)).code ++ []) = _
      rw [List.append_nil, fill_case fy, ← ha]
      simp [Codegen.fill]
  have hlen : (codeS L base (.seq (.case (.lit k) y) r)).code.length =
      6 + (codeS L (base + 6) y).code.length + (codeS (layS L y) (base + 6 + (codeS L (base + 6) y).code.length) r).code.length := by
    have := congrArg List.length (hcode _ rfl)
    rw [fill_length, List.length_append, List.length_append, fill_length, length_vals] at this
    exact this
  have hend : base + (codeS L base (.seq (.case (.lit k) y) r)).code.length =
      base + 6 + (codeS L (base + 6) y).code.length + (codeS (layS L y) (base + 6 + (codeS L (base + 6) y).code.length) r).code.length := by
    rw [hlen]; omega
  rw [hcode _ rfl] at hh
  rw [hend] at hh ⊢
  obtain ⟨hh, h3⟩ := holds_append.1 hh
  obtain ⟨h1, h2⟩ := holds_append.1 hh
  have e2 : base + (vals [IC_DUPLICATE, IC_LI, k, IC_EQ, IC_BE0, ((base + 6 + (codeS L (base + 6) y).code.length : Nat) : Int)]).length = base + 6 := rfl
  have e3 : base + (vals [IC_DUPLICATE, IC_LI, k, IC_EQ, IC_BE0, ((base + 6 + (codeS L (base + 6) y).code.length : Nat) : Int)] ++ (codeS L (base + 6) y).code).length =
      base + 6 + (codeS L (base + 6) y).code.length := by
    rw [List.length_append, ← Nat.add_assoc, e2]
  rw [e2] at h2
  rw [e3] at h3
  generalize hmid : base + 6 + (codeS L (base + 6) y).code.length = mid at *
  obtain ⟨v1, r1, inv1, up1⟩ := test_follows h1 hpc hs inv
  refine Follows.start (r1.weaken (Nat.zero_le _)) ?_
  have hex : execArms call n (.seq (.case (.lit k) y) r) x false s =
      if x = k then (execS call n y s).bind fun f s => if f = .normal then execArms call n r x true s else .ok f s
      else execArms call n r x false s := by
    rw [execArms]; simp [litOf]
  rw [hex]
  by_cases hx : x = k
  · rw [if_pos hx] at up1 ⊢
    have f2 := ihy L b c f fs s v1 (base + 6) fy hl hif (by rw [up1.size]; exact Int.le_trans gr.2.maxLocal hm) fry (up1.frames.trans hv) h2 up1.pc inv1
    rw [hmid] at f2
    have done : ∀ fl s3 v3, AtEnd C (layS L y) b c f fs (opens y) y.declared v1 mid s fl s3 v3 → fl ≠ .normal →
        AtEnd C (layS L (.seq (.case (.lit k) y) r)) b c f fs [] (Stmt.seq (.case (.lit k) y) r).declared v
          (mid + (codeS (layS L y) mid r).code.length) s fl s3 v3 := by
      intro fl s3 v3 h hne
      have h' := h.from (L' := layS L (.seq (.case (.lit k) y) r)) (O' := []) (D' := (Stmt.seq (.case (.lit k) y) r).declared) (junk := []) (v := v) (s0 := s)
        ⟨rfl, up1.stack, up1.pend, up1.size, up1.frames⟩ (by rw [ho]; simp)
        (fun _ h => List.mem_append_left _ h) Scoped.refl Scoped.refl
        (fun sc h => h.after r gy.1 gy.2.inFunc (fresh_after sc frr dis)) rfl
      cases fl with
      | normal => exact absurd rfl hne
      | brk | cont | ret r => exact h'
    rcases hlv with hlv | hlv
    · cases hy : execS call n y s with
      | ok fl s3 =>
        have hne := leaves_not y s s3 fl hlv hy
        show Follows C n v1 _ (if fl = .normal then execArms call n r x true s3 else .ok fl s3)
        rw [if_neg hne]
        rw [hy] at f2
        obtain ⟨v3, r3, h⟩ := f2
        exact Follows.end r3 (done fl s3 v3 h hne)
      | wrong => trivial
      | more o => rw [hy] at f2; exact f2
    · subst hlv
      refine Follows.bind f2 ?_
      intro fl s3 v3 h
      by_cases hne : fl = .normal
      · subst hne
        rw [if_pos rfl, execArms]
        refine Follows.end Reach.refl ?_
        have h' := h.from (L' := layS L (.seq (.case (.lit k) y) .skip)) (O' := []) (D' := (Stmt.seq (.case (.lit k) y) .skip).declared) (junk := []) (v := v) (s0 := s)
          ⟨rfl, up1.stack, up1.pend, up1.size, up1.frames⟩ (by rw [ho]; simp)
          (fun _ h => List.mem_append_left _ h) Scoped.refl Scoped.refl (fun _ h => h) rfl
        exact h'
      · rw [if_neg hne]
        exact Follows.end Reach.refl (done fl s3 v3 h hne)
  · rw [if_neg hx] at up1 ⊢
    have f2 := ihr (layS L y) b c f fs s v1 mid x st fr gy.1 gy.2.inFunc (by rw [up1.size]; exact hm) frr (up1.frames.trans hv) h3 up1.pc
      (up1.stack.trans hs) (inv1.after y hl hif fry)
    refine f2.mono ?_
    intro fl s3 v3 h
    exact h.from (junk := []) ⟨rfl, up1.stack, up1.pend, up1.size, up1.frames⟩ (fun _ h => h) (fun _ h => List.mem_append_right _ h) Scoped.refl Scoped.refl (fun _ h => h) rfl

theorem claim_switch (ok : C.Ok) (okc : CallsOk C n call) (d : Exp) (y : Stmt) (ihy : ClaimArms C n call y) : ClaimS C n call (.switch d y) := by
  intro L b c f fs s v base hf hl hif hm hfr hv hh hpc inv
  simp only [FitsS] at hf
  obtain ⟨fd, fy⟩ := hf
  have hcode : ∃ A Y, A = codeE L.displs base d ∧ Y = (codeS L (base + A.length) y).code ∧
      (codeS L base (.switch d y)).code = A ++ Codegen.fill .brk ((base + A.length + Y.length : Nat) : Int) (Codegen.fill .next ((base + A.length + Y.length : Nat) : Int) Y) :=
    ⟨_, _, rfl, rfl, rfl⟩
  obtain ⟨A, Y, eA, eY, hcode⟩ := hcode
  rw [hcode] at hh ⊢
  obtain ⟨h1, h2⟩ := holds_append.1 hh
  have el : base + (A ++ Codegen.fill .brk ((base + A.length + Y.length : Nat) : Int) (Codegen.fill .next ((base + A.length + Y.length : Nat) : Int) Y)).length =
      base + A.length + Y.length := by
    simp [Codegen.fill]; omega
  rw [el]
  have h2 := holds_fill (.inl rfl) h2
  simp only [if_true] at h2
  rw [if_neg (by simp)] at h2
  rw [execS]
  have f1 := (claimE ok okc d).1 false s v base fd (by rw [← eA]; exact h1) hpc inv
  rw [← eA] at f1
  refine Follows.value f1 ?_
  rintro w s1 v1 ⟨inv1, sm1, w', rep, up⟩
  rw [rep.exact] at up
  have fr1 : Fresh s1 y.declared := fun id h a => hfr id h ((sm1.alive id).1 a)
  rw [eY] at h2 ⊢
  refine Follows.bind (ihy L _ c f fs s1 v1 (base + A.length) w v.stack fy hl hif (by rw [up.size]; exact hm) fr1 (up.frames.trans hv) h2 up.pc up.stack inv1) ?_
  intro fl s2 v2 h
  refine Follows.end Reach.refl ?_
  have h' := h.from (L' := layS L (.switch d y)) (O' := []) (D' := (Stmt.switch d y).declared) (junk := [w]) (v := v) (s0 := s)
    ⟨rfl, up.stack, up.pend, up.size, up.frames⟩ (fun _ h => h) (fun _ h => h) sm1.scoped sm1.scoped (fun _ h => h) rfl
  cases fl with
  | normal => exact h'
  | cont => exact h'
  | ret r => exact h'
  | brk => exact h'

end

end RuC.Machine
