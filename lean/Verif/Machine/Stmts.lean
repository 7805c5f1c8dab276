import Verif.Machine.Loops

/-!
The machine follows statements.
-/

namespace RuC.Machine

open RuC RuC.Codegen RuC.Instr
open RuC.Expr (Unary Binary)

/-- Back from the running function with the values `r`; `f` waits. -/
structure Returned (C : Ctx) (f : Frame) (fs : List Frame) (r : List Int) (s : Src) (v' : State) : Prop where
  out : v'.out = s.out
  glob : ∀ i x, C.global i = true → s.var i = some (some x) → v'.globals (C.D i) = x
  pc : v'.pc = f.pc
  stack : v'.stack = r ++ f.stack
  pend : v'.pend = f.pend
  cells : v'.cells = f.cells
  size : v'.size = f.size
  frames : v'.frames = fs

/-- Where the machine is after a statement: `e` is the address behind it, `b` and `c` where `break` and `continue` go. -/
def target (b c : Int) (e : Nat) : Flow → Nat
  | .brk => b.toNat
  | .cont => c.toNat
  | _ => e

/-- After a statement. -/
def AtEnd (C : Ctx) (L : Layout) (b c : Int) (f : Frame) (fs : List Frame) (O D : List Nat) (v : State) (e : Nat) (s0 : Src) (fl : Flow) (s' : Src) (v' : State) : Prop :=
  match fl with
  | .ret r => Returned C f fs r.toList s' v' ∧ Scoped s0 s' D
  | fl => Inv C L s' v' ∧ Scoped s0 s' O ∧ ∃ junk, Upto v v' (target b c e fl) (junk ++ v.stack)

/-- The code of `st` has its effects. -/
def ClaimS (C : Ctx) (n : Nat) (call : Calls) (st : Stmt) : Prop :=
  ∀ (L : Layout) (b c : Int) (f : Frame) (fs : List Frame) (s : Src) (v : State) (base : Nat),
    FitsS (okId C) C.global L st → Laid L [] → L.inFunc = true → (layS L st).maxLocal ≤ v.size → Fresh s st.declared →
    v.frames = f :: fs → Holds C b c base (codeS L base st).code → v.pc = base → Inv C L s v →
    Follows C n v (AtEnd C (layS L st) b c f fs (opens st) st.declared v (base + (codeS L base st).code.length) s) (execS call n st s)

section
variable {C : Ctx} {n : Nat} {call : Calls}

/-- A statement that does not jump. -/
theorem AtEnd.normal {L b c f fs O D v e s0 s' v'} {junk : List Int} (inv : Inv C L s' v') (sc : Scoped s0 s' O) (up : Upto v v' e (junk ++ v.stack)) :
    AtEnd C L b c f fs O D v e s0 .normal s' v' := ⟨inv, sc, junk, up⟩

/-- The end of one statement and the end of all. -/
theorem AtEnd.from {L L' b c f fs O D O' D' v v1 e e' s0 s1 fl s' v'} {junk : List Int} (h : AtEnd C L b c f fs O D v1 e s1 fl s' v')
    (up : Upto v v1 v1.pc (junk ++ v.stack)) (hO : ∀ id ∈ O, id ∈ O') (hD : ∀ id ∈ D, id ∈ D') (sc : Scoped s0 s1 O') (scD : Scoped s0 s1 D')
    (hinv : Scoped s1 s' O → Inv C L s' v' → Inv C L' s' v') (he : e' = e) : AtEnd C L' b c f fs O' D' v e' s0 fl s' v' := by
  subst he
  cases fl with
  | ret r =>
    obtain ⟨h1, h2⟩ := h
    exact ⟨h1, scD.trans h2 (fun _ x => x) hD⟩
  | normal | brk | cont =>
    obtain ⟨h1, h2, j, h3⟩ := h
    refine ⟨hinv h2 h1, sc.trans h2 (fun _ x => x) hO, j ++ junk, ?_⟩
    rw [up.stack, ← List.append_assoc] at h3
    exact up.trans h3

theorem claim_skip : ClaimS C n call .skip := by
  intro L b c f fs s v base _ _ _ _ _ _ _ hpc inv
  exact Follows.end Reach.refl (AtEnd.normal (junk := []) inv Scoped.refl ⟨hpc, rfl, rfl, rfl, rfl⟩)

theorem claim_seq (x y : Stmt) (ihx : ClaimS C n call x) (ihy : ClaimS C n call y) : ClaimS C n call (.seq x y) := by
  intro L b c f fs s v base hf hl hif hm hfr hv hh hpc inv
  simp only [FitsS] at hf
  obtain ⟨fx, fy, dis⟩ := hf
  have gx := grown x hl hif
  have gy := grown y gx.1 gx.2.inFunc
  obtain ⟨frx, fry⟩ := Fresh.append.1 hfr
  have hcode : (codeS L base (.seq x y)).code = (codeS L base x).code ++ (codeS (layS L x) (base + (codeS L base x).code.length) y).code := by
    simp only [codeS, Piece.join]
    rw [fits_label y _ _ _ fy]; rfl
  rw [hcode] at hh ⊢
  obtain ⟨h1, h2⟩ := holds_append.1 hh
  rw [execS]
  refine Follows.bind (ihx L b c f fs s v base fx hl hif (Int.le_trans gy.2.maxLocal hm) frx hv h1 hpc inv) ?_
  intro fl s1 v1 h
  have hO : ∀ id ∈ opens x, id ∈ opens (.seq x y) := fun id h => List.mem_append_left _ h
  have hD : ∀ id ∈ x.declared, id ∈ (Stmt.seq x y).declared := fun id h => List.mem_append_left _ h
  have stop : fl ≠ .normal → Follows C n v1 (AtEnd C (layS L (.seq x y)) b c f fs (opens (.seq x y)) (Stmt.seq x y).declared v
      (base + ((codeS L base x).code ++ (codeS (layS L x) (base + (codeS L base x).code.length) y).code).length) s) (.ok fl s1) := by
    intro hne
    refine Follows.end Reach.refl ?_
    cases fl with
    | normal => exact absurd rfl hne
    | ret r =>
      obtain ⟨h1, h2⟩ := h
      exact ⟨h1, h2.weaken hD⟩
    | brk | cont =>
      obtain ⟨h1, h2, h3⟩ := h
      exact ⟨h1.after y gx.1 gx.2.inFunc (fresh_after h2 fry dis), h2.weaken hO, h3⟩
  by_cases hn : fl = .normal
  · subst hn
    rw [if_pos rfl]
    obtain ⟨inv1, sc1, junk, up1⟩ := h
    refine (ihy (layS L x) b c f fs s1 v1 _ fy gx.1 gx.2.inFunc (by rw [up1.size]; exact hm) (fresh_after sc1 fry dis) (up1.frames.trans hv) h2 up1.pc inv1).mono ?_
    intro fl2 s2 v2 h
    refine h.from (junk := junk) ⟨rfl, up1.stack, up1.pend, up1.size, up1.frames⟩ (fun id h => List.mem_append_right _ h) (fun id h => List.mem_append_right _ h)
      (sc1.weaken hO) (sc1.weaken fun id h => hD id (opens_declared x id h)) (fun _ h => h) ?_
    rw [List.length_append, Nat.add_assoc]
  · rw [if_neg hn]
    exact stop hn

theorem claim_block (x : Stmt) (ihx : ClaimS C n call x) : ClaimS C n call (.block x) := by
  intro L b c f fs s v base hf hl hif hm hfr hv hh hpc inv
  simp only [FitsS] at hf
  have gx := grown x hl hif
  rw [execS]
  refine Follows.bind (ihx L b c f fs s v base hf hl hif hm hfr hv hh hpc inv) ?_
  intro fl s1 v1 h
  refine Follows.end Reach.refl ?_
  cases fl with
  | ret r =>
    obtain ⟨h1, h2⟩ := h
    exact ⟨⟨h1.out, fun i x g e => h1.glob i x g (leave_var e), h1.pc, h1.stack, h1.pend, h1.cells, h1.size, h1.frames⟩, (leave_scoped h2).weaken (by simp)⟩
  | normal | brk | cont =>
    obtain ⟨h1, h2, h3⟩ := h
    exact ⟨h1.closed x inv hfr, leave_scoped h2, h3⟩

theorem codeVar_scalar {D base d t p i} (ht : Scalar t) (hp : p = 0 ∨ p = ITEM_MAX) :
    codeVar D base d t p i = match i with
      | none => []
      | some e => codeE D base e ++ vals [IC_ASSIGN_V, d] := by
  have h : ¬ (p ≠ ITEM_MAX ∧ p ≠ 0) := by rintro ⟨h1, h2⟩; rcases hp with h | h <;> contradiction
  unfold codeVar
  simp only [if_neg h]
  cases i with
  | none => rfl
  | some e => rcases ht with rfl | rfl <;> simp [vals]

theorem claim_var (ok : C.Ok) (okc : CallsOk C n call) (id : Nat) (t : Ty) (p : Int) (i : Option Exp) : ClaimS C n call (.var id t p i) := by
  intro L b c f fs s v base hf hl hif hm hfr hv hh hpc inv
  simp only [FitsS] at hf
  obtain ⟨hg, ht, hp, hok, hi⟩ := hf
  have fr : ¬ s.alive id := hfr id (by simp [Stmt.declared])
  have inv0 : Inv C (L.add id t) (s.set id (some none)) v := inv.declare hl hif hg ht fr hm
  have sc0 : Scoped s (s.set id (some none)) [id] := by
    refine ⟨fun j a => ?_, fun j a => ?_⟩
    · by_cases hj : j = id
      · subst hj; exact absurd a fr
      · unfold Src.alive Src.set at *; simpa [hj] using a
    · by_cases hj : j = id
      · simp [hj]
      · left; unfold Src.alive Src.set at *; simpa [hj] using a
  show Follows C n v _ (if (s.var id).isSome then .wrong
    else match i with
      | none => .ok Flow.normal (s.set id (some none))
      | some e => (evalE call e (s.set id (some none))).value fun v s => .ok Flow.normal (s.set id (some (some v))))
  rw [if_neg (by unfold Src.alive at fr; exact fr)]
  simp only [codeS, plain] at hh ⊢
  rw [codeVar_scalar ht hp] at hh ⊢
  cases i with
  | none =>
    exact Follows.end Reach.refl (AtEnd.normal (junk := []) inv0 sc0 ⟨hpc, rfl, rfl, rfl, rfl⟩)
  | some e =>
    simp only at hh ⊢
    obtain ⟨h1, h2⟩ := holds_append.1 hh
    refine Follows.value ((claimE ok okc e).1 false _ v base (hi e rfl) h1 hpc inv0) ?_
    rintro x s1 v1 ⟨inv1, sm1, x', rep, up⟩
    rw [rep.exact] at up
    have al : s1.alive id := (sm1.alive id).2 (by simp [Src.alive, Src.set])
    obtain ⟨old, ho⟩ := Option.isSome_iff_exists.1 al
    obtain ⟨v2, r2, inv2, up2⟩ := assign_step (op := .assign) (void := true) (w := x) ok ⟨fun _ => rfl, fun _ _ _ _ h => by cases h⟩ h2 hok inv1 up ho rfl
    refine Follows.end (r2.weaken (Nat.zero_le _)) (AtEnd.normal (junk := []) inv2 ?_ ?_)
    · exact sc0.trans ((sm1.trans (same_set al)).scoped (D := [])) (fun _ h => h) (by simp)
    · rw [List.length_append, length_vals, ← Nat.add_assoc]
      exact up2

theorem claim_expr (ok : C.Ok) (okc : CallsOk C n call) (e : Exp) : ClaimS C n call (.expr e) := by
  intro L b c f fs s v base hf hl hif hm hfr hv hh hpc inv
  simp only [FitsS] at hf
  rw [execS]
  refine Follows.bind (claim_left e (claimE ok okc e).2 s v base hf (left_wf hf) hh hpc inv) ?_
  rintro r s1 v1 ⟨inv1, sm1, junk, up, _⟩
  exact Follows.end Reach.refl (AtEnd.normal (junk := junk) inv1 sm1.scoped up)

theorem claim_if (ok : C.Ok) (okc : CallsOk C n call) (d : Exp) (x : Stmt) (ihx : ClaimS C n call x) : ClaimS C n call (.if_ d x) := by
  intro L b c f fs s v base hf hl hif hm hfr hv hh hpc inv
  simp only [FitsS] at hf
  obtain ⟨fd, ho, fx⟩ := hf
  have gx := grown x hl hif
  have hcode : ∃ A X, A = codeE L.displs base d ∧ X = (codeS L (base + A.length + 2) x).code ∧
      (codeS L base (.if_ d x)).code = A ++ vals [IC_BE0, ((base + A.length + 2 + X.length : Nat) : Int)] ++ X := by
    refine ⟨_, _, rfl, rfl, ?_⟩
    simp only [codeS, Piece.join, plain]
    rw [fits_label x _ _ _ fx]; rfl
  obtain ⟨A, X, eA, eX, hcode⟩ := hcode
  rw [hcode] at hh ⊢
  obtain ⟨hh, h3⟩ := holds_append.1 hh
  obtain ⟨h1, h2⟩ := holds_append.1 hh
  rw [execS]
  have f1 := (claimE ok okc d).1 true s v base fd (by rw [← eA]; exact h1) hpc inv
  rw [← eA] at f1
  refine Follows.value f1 ?_
  rintro w s1 v1 ⟨inv1, sm1, w', rep, up⟩
  obtain ⟨v2, r2, inv2, up2⟩ := branch_zero h2 inv1 rep up
  refine Follows.start (r2.weaken (Nat.zero_le _)) ?_
  have fr1 : Fresh s1 x.declared := fun id h a => hfr id h ((sm1.alive id).1 a)
  have el : base + (A ++ vals [IC_BE0, ((base + A.length + 2 + X.length : Nat) : Int)] ++ X).length = base + A.length + 2 + X.length := by
    simp [length_vals]; omega
  rw [el]
  by_cases hw : w = 0
  · rw [if_neg (fun h => h hw)]
    rw [if_pos hw] at up2
    exact Follows.end Reach.refl (AtEnd.normal (junk := []) (inv2.after x hl hif fr1) sm1.scoped up2)
  · rw [if_pos hw]
    rw [if_neg hw] at up2
    have e3 : base + (A ++ vals [IC_BE0, ((base + A.length + 2 + X.length : Nat) : Int)]).length = base + A.length + 2 := by
      simp [length_vals]; omega
    rw [e3] at h3
    have f2 := ihx L b c f fs s1 v2 (base + A.length + 2) fx hl hif (by rw [up2.size]; exact hm) fr1 (up2.frames.trans hv) (by rw [← eX]; exact h3) up2.pc inv2
    rw [← eX] at f2
    refine f2.mono ?_
    intro fl s3 v3 h
    refine h.from (junk := []) ⟨rfl, up2.stack, up2.pend, up2.size, up2.frames⟩ (by rw [ho]; simp) (fun _ h => h) sm1.scoped sm1.scoped (fun _ h => h) rfl

theorem claim_ifElse (ok : C.Ok) (okc : CallsOk C n call) (d : Exp) (x y : Stmt) (ihx : ClaimS C n call x) (ihy : ClaimS C n call y) : ClaimS C n call (.ifElse d x y) := by
  intro L b c f fs s v base hf hl hif hm hfr hv hh hpc inv
  simp only [FitsS] at hf
  obtain ⟨fd, hox, hoy, fx, fy, dis⟩ := hf
  have gx := grown x hl hif
  have gy := grown y gx.1 gx.2.inFunc
  obtain ⟨frx, fry⟩ := Fresh.append.1 hfr
  have hcode : ∃ A X, A = codeE L.displs base d ∧ X = (codeS L (base + A.length + 2) x).code ∧
      ∃ Y, Y = (codeS (layS L x) (base + A.length + 2 + X.length + 2) y).code ∧
      (codeS L base (.ifElse d x y)).code = A ++ vals [IC_BE0, ((base + A.length + 2 + X.length + 2 : Nat) : Int)] ++ X ++
        vals [IC_B, ((base + A.length + 2 + X.length + 2 + Y.length : Nat) : Int)] ++ Y := by
    refine ⟨_, _, rfl, rfl, _, rfl, ?_⟩
    simp only [codeS, Piece.join, plain]
    rw [fits_label x _ _ _ fx, fits_label y _ _ _ fy]; rfl
  obtain ⟨A, X, eA, eX, Y, eY, hcode⟩ := hcode
  rw [hcode] at hh ⊢
  obtain ⟨hh, h5⟩ := holds_append.1 hh
  obtain ⟨hh, h4⟩ := holds_append.1 hh
  obtain ⟨hh, h3⟩ := holds_append.1 hh
  obtain ⟨h1, h2⟩ := holds_append.1 hh
  rw [execS]
  have f1 := (claimE ok okc d).1 true s v base fd (by rw [← eA]; exact h1) hpc inv
  rw [← eA] at f1
  refine Follows.value f1 ?_
  rintro w s1 v1 ⟨inv1, sm1, w', rep, up⟩
  obtain ⟨v2, r2, inv2, up2⟩ := branch_zero h2 inv1 rep up
  refine Follows.start (r2.weaken (Nat.zero_le _)) ?_
  have frx1 : Fresh s1 x.declared := fun id h a => frx id h ((sm1.alive id).1 a)
  have fry1 : Fresh s1 y.declared := fun id h a => fry id h ((sm1.alive id).1 a)
  have el : base + (A ++ vals [IC_BE0, ((base + A.length + 2 + X.length + 2 : Nat) : Int)] ++ X ++
      vals [IC_B, ((base + A.length + 2 + X.length + 2 + Y.length : Nat) : Int)] ++ Y).length = base + A.length + 2 + X.length + 2 + Y.length := by
    simp [length_vals]; omega
  rw [el]
  have e3 : base + (A ++ vals [IC_BE0, ((base + A.length + 2 + X.length + 2 : Nat) : Int)]).length = base + A.length + 2 := by
    simp [length_vals]; omega
  have e4 : base + (A ++ vals [IC_BE0, ((base + A.length + 2 + X.length + 2 : Nat) : Int)] ++ X).length = base + A.length + 2 + X.length := by
    simp [length_vals]; omega
  have e5 : base + (A ++ vals [IC_BE0, ((base + A.length + 2 + X.length + 2 : Nat) : Int)] ++ X ++
      vals [IC_B, ((base + A.length + 2 + X.length + 2 + Y.length : Nat) : Int)]).length = base + A.length + 2 + X.length + 2 := by
    simp [length_vals]; omega
  rw [e3] at h3
  rw [e4] at h4
  rw [e5] at h5
  by_cases hw : w = 0
  · rw [if_neg (fun h => h hw)]
    rw [if_pos hw] at up2
    have f2 := ihy (layS L x) b c f fs s1 v2 _ fy gx.1 gx.2.inFunc (by rw [up2.size]; exact hm) fry1 (up2.frames.trans hv) (by rw [← eY]; exact h5) up2.pc
      (inv2.after x hl hif frx1)
    rw [← eY] at f2
    refine f2.mono ?_
    intro fl s3 v3 h
    refine h.from (junk := []) ⟨rfl, up2.stack, up2.pend, up2.size, up2.frames⟩ (by rw [hoy]; simp) (fun _ h => List.mem_append_right _ h) sm1.scoped sm1.scoped (fun _ h => h) rfl
  · rw [if_pos hw]
    rw [if_neg hw] at up2
    have f2 := ihx L b c f fs s1 v2 (base + A.length + 2) fx hl hif (by rw [up2.size]; exact Int.le_trans gy.2.maxLocal hm) frx1 (up2.frames.trans hv) (by rw [← eX]; exact h3) up2.pc inv2
    rw [← eX] at f2
    refine Follows.also f2 ?_
    intro fl s3 v3 h
    have h' := h.from (L' := layS L (.ifElse d x y)) (O' := opens (.ifElse d x y)) (D' := (Stmt.ifElse d x y).declared) (junk := []) (v := v) (s0 := s)
      ⟨rfl, up2.stack, up2.pend, up2.size, up2.frames⟩ (by rw [hox]; simp)
      (fun _ h => List.mem_append_left _ h) sm1.scoped sm1.scoped
      (fun sc h => h.after y gx.1 gx.2.inFunc (fresh_after sc fry1 dis)) rfl
    cases fl with
    | normal =>
      obtain ⟨inv3, sc3, junk, up3⟩ := h'
      obtain ⟨v4, r4, inv4, up4⟩ := branch h4 inv3 up3
      exact ⟨v4, r4.weaken (Nat.zero_le _), inv4, sc3, junk, up4⟩
    | brk | cont | ret r => exact ⟨v3, Reach.refl, h'⟩

theorem claim_jump (st : Stmt) (h : st = .break_ ∨ st = .continue_) : ClaimS C n call st := by
  intro L b c f fs s v base hf hl hif hm hfr hv hh hpc inv
  rcases h with rfl | rfl
  all_goals
    rw [execS]
    simp only [codeS, plain] at hh
    obtain ⟨g0, g1⟩ := holds_cons.1 hh
    have g1 := (holds_cons.1 g1).1
    rw [← hpc] at g0 g1
    exact Follows.end (reach1 (step_jump g0 g1)) ⟨inv.congr rfl rfl rfl rfl, Scoped.refl, [], ⟨rfl, rfl, rfl, rfl, rfl⟩⟩

theorem step_retVoid {M : Load} {v : State} {f fs} (h0 : M.code[v.pc]? = some IC_RETURN_VOID) (hf : v.frames = f :: fs) :
    step M v = some { v with pc := f.pc, stack := f.stack, pend := f.pend, cells := f.cells, size := f.size, frames := fs } := by
  rw [step_at h0]
  show v.leave [] = _
  unfold State.leave
  rw [hf]; rfl

theorem step_retVal {M : Load} {v : State} {f fs x k} (h0 : M.code[v.pc]? = some IC_RETURN_VAL) (h1 : M.code[v.pc + 1]? = some 1) (hs : v.stack = x :: k) (hf : v.frames = f :: fs) :
    step M v = some { v with pc := f.pc, stack := x :: f.stack, pend := f.pend, cells := f.cells, size := f.size, frames := fs } := by
  rw [step_at h0, h1]
  show (match v.stack with | x :: _ => if (1 : Int) = 1 then v.leave [x] else none | [] => none) = _
  rw [hs]
  show v.leave [x] = _
  unfold State.leave
  rw [hf]; rfl

theorem claim_return (ok : C.Ok) (okc : CallsOk C n call) (o : Option (Exp × Nat)) : ClaimS C n call (.return_ o) := by
  intro L b c f fs s v base hf hl hif hm hfr hv hh hpc inv
  cases o with
  | none =>
    rw [execS]
    simp only [codeS, plain] at hh
    have g0 := holds_one hh
    rw [← hpc] at g0
    exact Follows.end (reach1 (step_retVoid g0 hv)) ⟨⟨inv.out, inv.glob, rfl, rfl, rfl, rfl, rfl, rfl⟩, Scoped.refl⟩
  | some p =>
    obtain ⟨e, m⟩ := p
    simp only [FitsS] at hf
    obtain ⟨hm1, fe⟩ := hf
    subst hm1
    rw [execS]
    simp only [codeS, plain] at hh
    obtain ⟨h1, h2⟩ := holds_append.1 hh
    refine Follows.value ((claimE ok okc e).1 false s v base fe h1 hpc inv) ?_
    rintro x s1 v1 ⟨inv1, sm1, x', rep, up⟩
    rw [rep.exact] at up
    obtain ⟨g0, g1⟩ := holds_two h2
    rw [← up.pc] at g0 g1
    exact Follows.end (reach1 (step_retVal g0 g1 up.stack (up.frames.trans hv))) ⟨⟨inv1.out, inv1.glob, rfl, rfl, rfl, rfl, rfl, rfl⟩, sm1.scoped⟩

end

end RuC.Machine
