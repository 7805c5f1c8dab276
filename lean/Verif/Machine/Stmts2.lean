import Verif.Machine.Switch

/-!
The machine follows statements: loops, and all statements together.
-/

namespace RuC.Machine

open RuC RuC.Codegen RuC.Instr
open RuC.Expr (Unary Binary)

section
variable {C : Ctx} {n : Nat} {call : Calls}

/-- At a point of a loop: what is in scope is what was before the loop. -/
def AtPoint (C : Ctx) (L : Layout) (v : State) (pc : Nat) (s0 : Src) (s : Src) (v' : State) : Prop :=
  Inv C L s v' ∧ Scoped s0 s [] ∧ ∃ junk, Upto v v' pc (junk ++ v.stack)

theorem holds_body {b c base x} {k : Int} {j : Int} {A : List Sym} (h : Holds C b c base (Codegen.fill .brk k (Codegen.fill .cont j A))) (_ : x = base) :
    Holds C k j base A := by
  have h1 := holds_fill (.inl rfl) h
  simp only [if_true] at h1
  have h2 := holds_fill (.inr rfl) h1
  simpa using h2

theorem holds_body' {b c base} {k j : Int} {A : List Sym} (h : Holds C b c base (Codegen.fill .brk k (Codegen.fill .cont j A))) : Holds C k j base A :=
  holds_body h rfl

theorem Upto.here {v v' pc k} (h : Upto v v' pc k) : Upto v v' v'.pc k := ⟨rfl, h.stack, h.pend, h.size, h.frames⟩

/-- The body of a loop. -/
theorem body_follows {x : Stmt} (ihx : ClaimS C n call x) {L : Layout} {f fs s0 v0 v base pb pc e} (fx : FitsS (okId C) C.global L x) (ho : opens x = []) (hl : Laid L []) (hif : L.inFunc = true)
    (hm : (layS L x).maxLocal ≤ v0.size) (hfr : Fresh s0 x.declared) (hv : v0.frames = f :: fs) (hh : Holds C ((pb : Nat) : Int) ((pc : Nat) : Int) base (codeS L base x).code)
    (he : e = base + (codeS L base x).code.length) {s : Src} (h : AtPoint C L v0 base s0 s v) :
    Follows C n v (fun fl s' v' => match fl with
      | .brk => AtPoint C (layS L x) v0 pb s0 s' v'
      | .cont => AtPoint C (layS L x) v0 pc s0 s' v'
      | .normal => AtPoint C (layS L x) v0 e s0 s' v'
      | .ret r => Returned C f fs r.toList s' v' ∧ Scoped s0 s' x.declared) (execS call n x s) := by
  obtain ⟨inv, sc, junk, up⟩ := h
  refine (ihx L _ _ f fs s v base fx hl hif (by rw [up.size]; exact hm) (fresh_scoped sc hfr) (up.frames.trans hv) hh up.pc inv).mono ?_
  intro fl s' v' h
  rw [ho, ← he] at h
  have h' := h.from (L' := layS L x) (O' := []) (D' := x.declared) (junk := junk) (v := v0) (s0 := s0) up.here (fun _ h => h)
    (fun _ h => h) sc (sc.weaken (by simp)) (fun _ h => h) rfl
  cases fl with
  | ret r => exact h'
  | normal => exact h'
  | brk => exact h'
  | cont => exact h'

theorem claim_while (ok : C.Ok) (okc : CallsOk C n call) (d : Exp) (x : Stmt) (ihx : ClaimS C n call x) : ClaimS C n call (.while_ d x) := by
  intro L b c f fs s v base hf hl hif hm hfr hv hh hpc inv
  simp only [FitsS] at hf
  obtain ⟨fd, ho, fx⟩ := hf
  have hcode : ∃ A X, A = codeE L.displs base d ∧ X = (codeS L (base + A.length + 2) x).code ∧
      (codeS L base (.while_ d x)).code = A ++ vals [IC_BE0, ((base + A.length + 2 + X.length + 2 : Nat) : Int)] ++
        Codegen.fill .brk ((base + A.length + 2 + X.length + 2 : Nat) : Int) (Codegen.fill .cont (base : Int) X) ++ vals [IC_B, (base : Int)] := by
    refine ⟨_, _, rfl, rfl, ?_⟩
    simp only [codeS, Piece.join, plain, Piece.fill]
    rw [fits_label x _ _ _ fx]; rfl
  obtain ⟨A, X, eA, eX, hcode⟩ := hcode
  rw [hcode] at hh ⊢
  have el : base + (A ++ vals [IC_BE0, ((base + A.length + 2 + X.length + 2 : Nat) : Int)] ++
        Codegen.fill .brk ((base + A.length + 2 + X.length + 2 : Nat) : Int) (Codegen.fill .cont (base : Int) X) ++ vals [IC_B, (base : Int)]).length = base + A.length + 2 + X.length + 2 := by
    simp [length_vals, Codegen.fill]; omega
  rw [el]
  obtain ⟨hh, h4⟩ := holds_append.1 hh
  obtain ⟨hh, h3⟩ := holds_append.1 hh
  obtain ⟨h1, h2⟩ := holds_append.1 hh
  have e3 : base + (A ++ vals [IC_BE0, ((base + A.length + 2 + X.length + 2 : Nat) : Int)]).length = base + A.length + 2 := by
    simp [length_vals]; omega
  have e4 : base + (A ++ vals [IC_BE0, ((base + A.length + 2 + X.length + 2 : Nat) : Int)] ++
        Codegen.fill .brk ((base + A.length + 2 + X.length + 2 : Nat) : Int) (Codegen.fill .cont (base : Int) X)).length = base + A.length + 2 + X.length := by
    simp [length_vals, Codegen.fill]; omega
  rw [e3] at h3
  rw [e4] at h4
  have h3 := holds_body' h3
  rw [execS]
  generalize hafter : base + A.length + 2 + X.length + 2 = after at *
  have toEnd : ∀ s' v', AtPoint C (layS L x) v after s s' v' → AtEnd C (layS L (.while_ d x)) b c f fs (opens (.while_ d x)) (Stmt.while_ d x).declared v after s .normal s' v' := by
    rintro s' v' ⟨h1, h2, j, h3⟩
    exact ⟨h1, h2, j, h3⟩
  have start : AtPoint C L v base s s v := ⟨inv, Scoped.refl, [], hpc, rfl, rfl, rfl, rfl⟩
  refine loopT_follows (a := 1) (e := 0) (by omega) (At := AtPoint C L v base s) (AtBody := AtPoint C L v (base + A.length + 2) s)
    (AtNext := fun s' v' => AtPoint C (layS L x) v base s s' v' ∨ AtPoint C (layS L x) v (base + A.length + 2 + X.length) s s' v') (fun s v h => h.1.out) ?_ ?_ ?_ n (Nat.le_refl _) s v start
  · rintro s1 v1 ⟨inv1, sc1, junk, up1⟩
    have f1 := (claimE ok okc d).1 true s1 v1 base fd (by rw [← eA]; exact h1) up1.pc inv1
    rw [← eA, up1.stack] at f1
    refine f1.mono ?_
    rintro r s2 v2 ⟨inv2, sm2, hr⟩ w rfl
    · obtain ⟨w', rep, up2⟩ := hr
      obtain ⟨v3, r3, inv3, up3⟩ := branch_zero h2 inv2 rep up2
      refine ⟨v3, r3, ?_⟩
      have sc3 : Scoped s s2 [] := sc1.trans sm2.scoped (fun _ h => h) (fun _ h => h)
      by_cases hw : w = 0
      · rw [if_pos hw]
        rw [if_pos hw] at up3
        exact toEnd _ _ ⟨inv3.after x hl hif (fresh_scoped sc3 hfr), sc3, junk, up1.trans up3⟩
      · rw [if_neg hw]
        rw [if_neg hw] at up3
        exact ⟨inv3, sc3, junk, up1.trans up3⟩
  · intro s1 v1 h
    refine (body_follows ihx (base := base + A.length + 2) (pb := after) (pc := base) fx ho hl hif hm hfr hv (by rw [← eX]; exact h3) (by rw [← eX]) h).mono ?_
    intro fl s2 v2 h
    cases fl with
    | ret r => exact h
    | brk => exact toEnd _ _ h
    | normal => exact .inr h
    | cont => exact .inl h
  · intro s1 v1 h
    refine Follows.end Reach.refl ?_
    rcases h with ⟨inv1, sc1, junk, up1⟩ | ⟨inv1, sc1, junk, up1⟩
    · exact ⟨v1, Reach.refl, inv1.back x inv hfr (fun id a => (sc1.new id a).resolve_right (by simp)), sc1, junk, up1⟩
    · obtain ⟨v2, r2, inv2, up2⟩ := branch h4 inv1 up1
      exact ⟨v2, r2.weaken (Nat.zero_le _), inv2.back x inv hfr (fun id a => (sc1.new id a).resolve_right (by simp)), sc1, junk, up2⟩

theorem claim_do (ok : C.Ok) (okc : CallsOk C n call) (d : Exp) (x : Stmt) (ihx : ClaimS C n call x) : ClaimS C n call (.do_ x d) := by
  intro L b c f fs s v base hf hl hif hm hfr hv hh hpc inv
  simp only [FitsS] at hf
  obtain ⟨fd, ho, fx⟩ := hf
  have hcode : ∃ X A, X = (codeS L base x).code ∧ A = codeE (layS L x).displs (base + X.length) d ∧
      (codeS L base (.do_ x d)).code = Codegen.fill .brk ((base + X.length + A.length + 2 : Nat) : Int) (Codegen.fill .cont ((base + X.length : Nat) : Int) X) ++
        (A ++ vals [IC_BNE0, (base : Int)]) := by
    refine ⟨_, _, rfl, rfl, ?_⟩
    simp only [codeS, Piece.join, plain, Piece.fill, toLabel]
  obtain ⟨X, A, eX, eA, hcode⟩ := hcode
  rw [hcode] at hh ⊢
  have el : base + (Codegen.fill .brk ((base + X.length + A.length + 2 : Nat) : Int) (Codegen.fill .cont ((base + X.length : Nat) : Int) X) ++
        (A ++ vals [IC_BNE0, (base : Int)])).length = base + X.length + A.length + 2 := by
    simp [length_vals, Codegen.fill]; omega
  rw [el]
  obtain ⟨h1, hh⟩ := holds_append.1 hh
  obtain ⟨h2, h3⟩ := holds_append.1 hh
  have e2 : base + (Codegen.fill .brk ((base + X.length + A.length + 2 : Nat) : Int) (Codegen.fill .cont ((base + X.length : Nat) : Int) X)).length = base + X.length := by
    simp [Codegen.fill]
  rw [e2] at h2 h3
  have h1 := holds_body' h1
  rw [execS]
  have toEnd : ∀ s' v', AtPoint C (layS L x) v (base + X.length + A.length + 2) s s' v' → AtEnd C (layS L (.do_ x d)) b c f fs (opens (.do_ x d)) (Stmt.do_ x d).declared v (base + X.length + A.length + 2) s .normal s' v' := by
    rintro s' v' ⟨h1, h2, j, h3⟩
    exact ⟨h1, h2, j, h3⟩
  have start : AtPoint C L v base s s v := ⟨inv, Scoped.refl, [], hpc, rfl, rfl, rfl, rfl⟩
  refine loopB_follows (At := AtPoint C L v base s) (AtTest := AtPoint C (layS L x) v (base + X.length) s) (fun s v h => h.1.out) ?_ ?_ n (Nat.le_refl _) s v start
  · intro s1 v1 h
    refine (body_follows ihx (base := base) (pb := base + X.length + A.length + 2) (pc := base + X.length) fx ho hl hif hm hfr hv (by rw [← eX]; exact h1) (by rw [← eX]) h).mono ?_
    intro fl s2 v2 h
    cases fl with
    | ret r => exact h
    | brk => exact toEnd _ _ h
    | normal => exact h
    | cont => exact h
  · rintro s1 v1 ⟨inv1, sc1, junk, up1⟩
    have f1 := (claimE ok okc d).1 true s1 v1 (base + X.length) fd (by rw [← eA]; exact h2) up1.pc inv1
    rw [← eA, up1.stack] at f1
    refine f1.mono ?_
    rintro r s2 v2 ⟨inv2, sm2, hr⟩ w rfl
    obtain ⟨w', rep, up2⟩ := hr
    obtain ⟨v3, r3, inv3, up3⟩ := branch_nonzero h3 inv2 rep up2
    refine ⟨v3, r3, ?_⟩
    have sc3 : Scoped s s2 [] := sc1.trans sm2.scoped (fun _ h => h) (fun _ h => h)
    by_cases hw : w = 0
    · rw [if_pos hw]
      rw [if_pos hw] at up3
      exact toEnd _ _ ⟨inv3, sc3, junk, up1.trans up3⟩
    · rw [if_neg hw]
      rw [if_neg hw] at up3
      exact ⟨inv3.back x inv hfr (fun id a => (sc3.new id a).resolve_right (by simp)), sc3, junk, up1.trans up3⟩

/-- The test, the body and the step of `for`. -/
theorem for_loop (ok : C.Ok) (okc : CallsOk C n call) (d inc : Option Exp) (x : Stmt) (ihx : ClaimS C n call x) (L : Layout) (f : Frame) (fs : List Frame)
    (b c : Int) (s : Src) (v : State) (test : Nat) (A X N : List Sym)
    (fd : ∀ e, d = some e → FitsE (okId C L) true e) (fn : ∀ e, inc = some e → FitsV (okId C (layS L x)) e) (ho : opens x = []) (fx : FitsS (okId C) C.global L x)
    (hl : Laid L []) (hif : L.inFunc = true) (hm : (layS L x).maxLocal ≤ v.size) (hfr : Fresh s x.declared) (hv : v.frames = f :: fs)
    (eA : A = codeOpt L.displs test d) (m : Nat) (em : m = if d.isSome then 2 else 0) (eX : X = (codeS L (test + A.length + m) x).code)
    (eN : N = codeOptV (layS L x).displs (test + A.length + m + X.length) inc)
    (h1 : Holds C b c test (A ++ vals (if d.isSome then [IC_BE0, ((test + A.length + m + X.length + N.length + 2 : Nat) : Int)] else [])))
    (h2 : Holds C ((test + A.length + m + X.length + N.length + 2 : Nat) : Int) ((test + A.length + m + X.length : Nat) : Int) (test + A.length + m) X)
    (h3 : Holds C b c (test + A.length + m + X.length) (N ++ vals [IC_B, (test : Int)])) (hpc : v.pc = test) (inv : Inv C L s v) :
    Follows C n v (fun fl s' v' => match fl with
      | .normal => AtPoint C (layS L x) v (test + A.length + m + X.length + N.length + 2) s s' v'
      | .ret r => Returned C f fs r.toList s' v' ∧ Scoped s s' x.declared
      | _ => False)
      (loopT (evalOpt call d) (execS call n x) (evalStep call inc) n s) := by
  have start : AtPoint C L v test s s v := ⟨inv, Scoped.refl, [], hpc, rfl, rfl, rfl, rfl⟩
  obtain ⟨h11, h12⟩ := holds_append.1 h1
  obtain ⟨h31, h32⟩ := holds_append.1 h3
  refine loopT_follows (a := 0) (e := 1) (by omega) (At := AtPoint C L v test s) (AtBody := AtPoint C L v (test + A.length + m) s)
    (AtNext := AtPoint C (layS L x) v (test + A.length + m + X.length) s) (fun s v h => h.1.out) ?_ ?_ ?_ n (Nat.le_refl _) s v start
  · rintro s1 v1 ⟨inv1, sc1, junk, up1⟩
    cases d with
    | none =>
      refine Follows.end Reach.refl ?_
      intro x hx
      cases hx
      refine ⟨v1, Reach.refl, ?_⟩
      rw [if_neg (by decide)]
      refine ⟨inv1, sc1, junk, ?_⟩
      have : test + A.length + m = test := by rw [eA, em]; rfl
      rw [this]; exact up1
    | some d =>
      have em : m = 2 := em
      have f1 := (claimE ok okc d).1 true s1 v1 test (fd d rfl) (by rw [eA] at h11; exact h11) up1.pc inv1
      have eA' : codeE L.displs test d = A := eA.symm
      rw [eA', up1.stack] at f1
      refine Follows.also f1 ?_
      rintro r s2 v2 ⟨inv2, sm2, hr⟩
      cases r with
      | none => exact ⟨v2, Reach.refl, fun x h => by cases h⟩
      | some w =>
        obtain ⟨w', rep, up2⟩ := hr
        obtain ⟨v3, r3, inv3, up3⟩ := branch_zero h12 inv2 rep up2
        refine ⟨v3, r3.weaken (Nat.zero_le _), ?_⟩
        intro y hy
        cases hy
        refine ⟨v3, Reach.refl, ?_⟩
        have sc3 : Scoped s s2 [] := sc1.trans sm2.scoped (fun _ h => h) (fun _ h => h)
        by_cases hw : w = 0
        · rw [if_pos hw]
          rw [if_pos hw] at up3
          exact ⟨inv3.after x hl hif (fresh_scoped sc3 hfr), sc3, junk, up1.trans up3⟩
        · rw [if_neg hw]
          rw [if_neg hw] at up3
          rw [em]
          exact ⟨inv3, sc3, junk, up1.trans up3⟩
  · intro s1 v1 h
    refine (body_follows ihx (base := test + A.length + m) (pb := test + A.length + m + X.length + N.length + 2) (pc := test + A.length + m + X.length) fx ho hl hif hm hfr hv (by rw [← eX]; exact h2) (by rw [← eX]) h).mono ?_
    intro fl s2 v2 h
    cases fl with
    | ret r => exact h
    | brk => exact h
    | normal => exact h
    | cont => exact h
  · rintro s1 v1 ⟨inv1, sc1, junk, up1⟩
    have back : ∀ s2 v2 junk2, Inv C (layS L x) s2 v2 → Same s1 s2 → Upto v1 v2 (test + A.length + m + X.length + N.length) (junk2 ++ v1.stack) →
        ∃ v3, Reach C.M 1 v2 v3 ∧ AtPoint C L v test s s2 v3 := by
      intro s2 v2 junk2 inv2 sm2 up2
      obtain ⟨v3, r3, inv3, up3⟩ := branch h32 inv2 up2
      have sc3 : Scoped s s2 [] := sc1.trans sm2.scoped (fun _ h => h) (fun _ h => h)
      rw [up1.stack, ← List.append_assoc] at up3
      exact ⟨v3, r3, inv3.back x inv hfr (fun id a => (sc3.new id a).resolve_right (by simp)), sc3, _, up1.trans up3⟩
    cases inc with
    | none =>
      have : N.length = 0 := by rw [eN]; rfl
      refine Follows.end Reach.refl (back s1 v1 [] inv1 Same.refl ⟨?_, rfl, rfl, rfl, rfl⟩)
      rw [up1.pc, this]; rfl
    | some e =>
      have fe := fn e rfl
      have hN : N = codeV (layS L x).displs (test + A.length + m + X.length) e := eN
      have f1 := claim_left e (claimE ok okc e).2 s1 v1 (test + A.length + m + X.length) fe (left_wf fe) (by rw [← hN]; exact h31) up1.pc inv1
      rw [← hN] at f1
      refine f1.mono ?_
      rintro r s2 v2 ⟨inv2, sm2, junk2, up2, _⟩
      exact back s2 v2 junk2 inv2 sm2 up2

theorem claim_for (ok : C.Ok) (okc : CallsOk C n call) (i : Stmt) (d inc : Option Exp) (x : Stmt) (ihi : ClaimS C n call i) (ihx : ClaimS C n call x) : ClaimS C n call (.for_ i d inc x) := by
  intro L b c f fs s v base hf hl hif hm hfr hv hh hpc inv
  simp only [FitsS] at hf
  obtain ⟨fi, fd, fn, ho, fx, dis⟩ := hf
  have gi := grown i hl hif
  have gx := grown x gi.1 gi.2.inFunc
  obtain ⟨fri, frx⟩ := Fresh.append.1 hfr
  have hcode : ∃ I A m, I = (codeS L base i).code ∧ A = codeOpt (layS L i).displs (base + I.length) d ∧ m = (if d.isSome then 2 else 0) ∧
      ∃ X, X = (codeS (layS L i) (base + I.length + A.length + m) x).code ∧
      ∃ N, N = codeOptV (layS (layS L i) x).displs (base + I.length + A.length + m + X.length) inc ∧
      (codeS L base (.for_ i d inc x)).code = I ++ (A ++ vals (if d.isSome then [IC_BE0, ((base + I.length + A.length + m + X.length + N.length + 2 : Nat) : Int)] else [])) ++
        Codegen.fill .brk ((base + I.length + A.length + m + X.length + N.length + 2 : Nat) : Int) (Codegen.fill .cont ((base + I.length + A.length + m + X.length : Nat) : Int) X) ++
        (N ++ vals [IC_B, ((base + I.length : Nat) : Int)]) := by
    refine ⟨_, _, _, rfl, rfl, rfl, _, rfl, _, rfl, ?_⟩
    simp only [codeS, Piece.join, plain, Piece.fill, toLabel]
    rw [fits_label x _ _ _ fx]
  obtain ⟨I, A, m, eI, eA, em, X, eX, N, eN, hcode⟩ := hcode
  rw [hcode] at hh ⊢
  have hT : (vals (if d.isSome then [IC_BE0, ((base + I.length + A.length + m + X.length + N.length + 2 : Nat) : Int)] else [])).length = m := by
    rw [em]; split <;> rfl
  have el : base + (I ++ (A ++ vals (if d.isSome then [IC_BE0, ((base + I.length + A.length + m + X.length + N.length + 2 : Nat) : Int)] else [])) ++
        Codegen.fill .brk ((base + I.length + A.length + m + X.length + N.length + 2 : Nat) : Int) (Codegen.fill .cont ((base + I.length + A.length + m + X.length : Nat) : Int) X) ++
        (N ++ vals [IC_B, ((base + I.length : Nat) : Int)])).length = base + I.length + A.length + m + X.length + N.length + 2 := by
    simp only [List.length_append, hT, length_vals, Codegen.fill, List.length_map, List.length_cons, List.length_nil]; omega
  rw [el]
  obtain ⟨hh, h4⟩ := holds_append.1 hh
  obtain ⟨hh, h3⟩ := holds_append.1 hh
  obtain ⟨h1, h2⟩ := holds_append.1 hh
  have e3 : base + (I ++ (A ++ vals (if d.isSome then [IC_BE0, ((base + I.length + A.length + m + X.length + N.length + 2 : Nat) : Int)] else []))).length = base + I.length + A.length + m := by
    simp only [List.length_append, hT]; omega
  have e4 : base + (I ++ (A ++ vals (if d.isSome then [IC_BE0, ((base + I.length + A.length + m + X.length + N.length + 2 : Nat) : Int)] else [])) ++
        Codegen.fill .brk ((base + I.length + A.length + m + X.length + N.length + 2 : Nat) : Int) (Codegen.fill .cont ((base + I.length + A.length + m + X.length : Nat) : Int) X)).length =
        base + I.length + A.length + m + X.length := by
    simp only [List.length_append, hT, Codegen.fill, List.length_map]; omega
  rw [e3] at h3
  rw [e4] at h4
  have h3 := holds_body' h3
  have hexec : execS call n (.for_ i d inc x) s = ((execS call n i s).bind fun fl s => if fl = .normal then loopT (evalOpt call d) (execS call n x) (evalStep call inc) n s else .wrong).leave s := by rw [execS]
  rw [hexec]
  refine Follows.bind (P := fun fl s' v' => match fl with
      | .normal => AtPoint C (layS (layS L i) x) v (base + I.length + A.length + m + X.length + N.length + 2) s' s' v' ∧ Scoped s s' (opens i)
      | .ret r => Returned C f fs r.toList s' v' ∧ Scoped s s' (Stmt.for_ i d inc x).declared
      | _ => False) ?_ ?_
  · refine Follows.bind (ihi L b c f fs s v base fi hl hif (Int.le_trans gx.2.maxLocal hm) fri hv (by rw [← eI]; exact h1) hpc inv) ?_
    intro fl s1 v1 h
    by_cases hn : fl = .normal
    · subst hn
      rw [if_pos rfl]
      obtain ⟨inv1, sc1, junk, up1⟩ := h
      have up1 : Upto v v1 (base + I.length) (junk ++ v.stack) := by rw [eI]; exact up1
      have frx1 := fresh_after sc1 frx dis
      refine (for_loop ok okc d inc x ihx (layS L i) f fs b c s1 v1 (base + I.length) A X N fd fn ho fx gi.1 gi.2.inFunc (by rw [up1.size]; exact hm) frx1
        (up1.frames.trans hv) eA m em eX eN h2 h3 h4 up1.pc inv1).mono ?_
      intro fl s2 v2 h
      cases fl with
      | brk => exact h
      | cont => exact h
      | ret r =>
        exact ⟨h.1, sc1.trans h.2 (fun id h => List.mem_append_left _ (opens_declared i id h)) (fun id h => List.mem_append_right _ h)⟩
      | normal =>
        obtain ⟨inv2, sc2, junk2, up2⟩ := h
        refine ⟨⟨inv2, Scoped.refl, junk2 ++ junk, ?_⟩, sc1.trans sc2 (fun _ h => h) (by simp)⟩
        rw [up1.stack, ← List.append_assoc] at up2
        exact up1.trans up2
    · rw [if_neg hn]; trivial
  · intro fl s1 v1 h
    refine Follows.end Reach.refl ?_
    cases fl with
    | brk => exact h.elim
    | cont => exact h.elim
    | ret r =>
      obtain ⟨h1, h2⟩ := h
      exact ⟨⟨h1.out, fun i x g e => h1.glob i x g (leave_var e), h1.pc, h1.stack, h1.pend, h1.cells, h1.size, h1.frames⟩, (leave_scoped h2).weaken (by simp)⟩
    | normal =>
      obtain ⟨⟨inv1, _, junk, up1⟩, sc1⟩ := h
      exact ⟨Inv.closed (.seq i x) inv1 inv hfr, leave_scoped sc1, junk, up1⟩

mutual
/-- The machine follows every statement of the fragment. -/
theorem claimS (ok : C.Ok) (okc : CallsOk C n call) : ∀ st : Stmt, ClaimS C n call st
  | .skip => claim_skip
  | .seq x y => claim_seq x y (claimS ok okc x) (claimS ok okc y)
  | .block x => claim_block x (claimS ok okc x)
  | .var id t p i => claim_var ok okc id t p i
  | .expr e => claim_expr ok okc e
  | .if_ d x => claim_if ok okc d x (claimS ok okc x)
  | .ifElse d x y => claim_ifElse ok okc d x y (claimS ok okc x) (claimS ok okc y)
  | .while_ d x => claim_while ok okc d x (claimS ok okc x)
  | .do_ x d => claim_do ok okc d x (claimS ok okc x)
  | .for_ i d inc x => claim_for ok okc i d inc x (claimS ok okc i) (claimS ok okc x)
  | .continue_ => claim_jump _ (.inr rfl)
  | .break_ => claim_jump _ (.inl rfl)
  | .return_ o => claim_return ok okc o
  | .switch d x => claim_switch ok okc d x (claimArms ok okc x)
  | .arr _ _ _ _ _ _ _ | .case _ _ | .default _ => fun _ _ _ _ _ _ _ _ h => by simp [FitsS] at h

/-- The machine follows every body of a `switch` of the fragment. -/
theorem claimArms (ok : C.Ok) (okc : CallsOk C n call) : ∀ st : Stmt, ClaimArms C n call st
  | .skip => arms_skip
  | .case e x => arms_case e x (claimS ok okc x)
  | .default x => arms_default x (claimS ok okc x)
  | .seq (.case e x) r => arms_seq e x r (claimS ok okc x) (claimArms ok okc r)
  | .block x => arms_block x (claimArms ok okc x)
  | .var _ _ _ _ | .arr _ _ _ _ _ _ _ | .expr _ | .if_ _ _ | .ifElse _ _ _ | .switch _ _ | .while_ _ _ | .do_ _ _ | .for_ _ _ _ _ | .continue_ | .break_ | .return_ _ | .seq .skip _ | .seq (.seq _ _) _ | .seq (.block _) _ | .seq (.var _ _ _ _) _ | .seq (.arr _ _ _ _ _ _ _) _ | .seq (.expr _) _ | .seq (.if_ _ _) _ | .seq (.ifElse _ _ _) _ | .seq (.switch _ _) _ | .seq (.while_ _ _) _ | .seq (.do_ _ _) _ | .seq (.for_ _ _ _ _) _ | .seq .continue_ _ | .seq .break_ _ | .seq (.return_ _) _ | .seq (.default _) _ =>
    fun _ _ _ _ _ _ _ _ _ _ h => by simp [FitsArms] at h
end

end

end RuC.Machine
