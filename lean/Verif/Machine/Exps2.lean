import Verif.Machine.Exps

/-!
The machine follows the evaluation of expressions, continued.
-/

namespace RuC.Machine

open RuC RuC.Codegen RuC.Instr
open RuC.Expr (Unary Binary)

section
variable {C : Ctx} {n : Nat} {call : Calls} {L : Layout} {b c : Int}

theorem claim_arith (op : Binary) (l r : Exp) (fl : Bool) (h1 : op ≠ .logAnd) (h2 : op ≠ .logOr) (ihl : ClaimE C n call L b c l) (ihr : ClaimE C n call L b c r) :
    ClaimE C n call L b c (.binary op l r fl) := by
  intro tr s v base hf hh hpc inv
  simp only [FitsE, if_neg h1, if_neg h2] at hf
  obtain ⟨rfl, ho1, ho2, fl, fr⟩ := hf
  have hlog : ¬ (op = .logAnd ∨ op = .logOr) := by simp [h1, h2]
  have hcode : codeE L.displs base (.binary op l r false) =
      codeE L.displs base l ++ codeE L.displs (base + (codeE L.displs base l).length) r ++ vals [binaryToInstruction op] := by
    rw [codeE]; simp only; rw [if_neg hlog]; rfl
  rw [hcode] at hh ⊢
  obtain ⟨hh, h3⟩ := holds_append.1 hh
  obtain ⟨hl, hr⟩ := holds_append.1 hh
  rw [evalE]
  refine Follows.value (ihl _ s v base fl hl hpc inv) ?_
  rintro x s1 v1 ⟨inv1, sm1, x', rep, up⟩
  rw [if_neg (by simp [h1]), if_neg (by simp [h2])]
  refine Follows.value (ihr _ s1 v1 _ fr hr up.pc inv1) ?_
  rintro y s2 v2 ⟨inv2, sm2, y', rep2, up2⟩
  rw [if_neg hlog]
  cases hw : arith op x y with
  | none => trivial
  | some w =>
    rw [rep.exact] at up
    rw [rep2.exact, up.stack] at up2
    obtain ⟨f, hd, hfw⟩ := decode_binary hw
    have h0 := holds_one h3
    rw [List.length_append, ← Nat.add_assoc, ← up2.pc] at h0
    refine follows_done (step_binary h0 hd up2.stack hfw) ⟨inv2.congr rfl rfl rfl rfl, sm1.trans sm2, w, Rep.refl, ?_⟩
    exact (up.trans up2).trans ⟨by rw [up2.pc]; simp [length_vals]; omega, rfl, rfl, rfl, rfl⟩

theorem claim_logical (op : Binary) (l r : Exp) (fl : Bool) (ho : op = .logAnd ∨ op = .logOr) (ihl : ClaimE C n call L b c l) (ihr : ClaimE C n call L b c r) :
    ClaimE C n call L b c (.binary op l r fl) := by
  intro tr s v base hf hh hpc inv
  simp only [FitsE] at hf
  obtain ⟨rfl, ho1, ho2, hf⟩ := hf
  have hf' : FitsE (okId C L) (if op = .logAnd then true else tr) l ∧ (op = .logOr → tr = false → Exp.Logical l) ∧ FitsE (okId C L) true r := by
    rcases ho with rfl | rfl
    · simp only [if_true] at hf; exact ⟨hf.1, by simp, hf.2⟩
    · simp only [reduceCtorEq, if_false, if_true] at hf; exact ⟨hf.1, fun _ => hf.2.1, hf.2.2⟩
  obtain ⟨fl, flog, fr⟩ := hf'
  have hcode : codeE L.displs base (.binary op l r false) =
      codeE L.displs base l ++ vals [IC_DUPLICATE, (if op = .logAnd then IC_BE0 else IC_BNE0), ((base + (codeE L.displs base l).length + 3 +
        (codeE L.displs (base + (codeE L.displs base l).length + 3) r).length + 1 : Nat) : Int)] ++
        codeE L.displs (base + (codeE L.displs base l).length + 3) r ++ vals [binaryToInstruction op] := by
    rw [codeE]; simp only; rw [if_pos ho]; rfl
  rw [hcode] at hh ⊢
  generalize hA : codeE L.displs base l = A at hh ⊢
  generalize hB : codeE L.displs (base + A.length + 3) r = B at hh ⊢
  obtain ⟨hh, h4⟩ := holds_append.1 hh
  obtain ⟨hh, h3⟩ := holds_append.1 hh
  obtain ⟨h1, h2⟩ := holds_append.1 hh
  obtain ⟨d0, h2⟩ := holds_vals_cons.1 h2
  obtain ⟨d1, d2⟩ := holds_two h2
  rw [evalE]
  have ihl' := ihl _ s v base fl (by rw [hA]; exact h1) hpc inv
  rw [hA] at ihl'
  refine Follows.valueEq ihl' ?_
  rintro x s1 v1 he ⟨inv1, sm1, x', rep, up⟩
  -- the copy and the test
  rw [← up.pc] at d0 d1 d2
  have st1 := step_dup d0 up.stack
  have hz := rep.zero
  have st2 : ∃ pc, step C.M { v1 with pc := v1.pc + 1, stack := x' :: x' :: v.stack } = some { v1 with pc := pc, stack := x' :: v.stack } ∧
      pc = (if (op = .logAnd ∧ x = 0) ∨ (op = .logOr ∧ x ≠ 0) then base + A.length + 3 + B.length + 1 else v1.pc + 3) := by
    rcases ho with rfl | rfl
    · rw [if_pos rfl] at d1
      refine ⟨_, step_be0 d1 d2 rfl, ?_⟩
      simp [hz]
      have := up.pc
      split <;> omega
    · rw [if_neg (by simp)] at d1
      refine ⟨_, step_bne0 d1 d2 rfl, ?_⟩
      simp [hz]
      have := up.pc
      split <;> omega
  obtain ⟨pc, st2, hpc2⟩ := st2
  refine Follows.start (reach1 st1) (Follows.start (reach1 st2) ?_)
  have hlen : ∀ m, m = A.length + 3 + B.length + 1 → base + (A ++ vals [IC_DUPLICATE, (if op = .logAnd then IC_BE0 else IC_BNE0), ((base + A.length + 3 + B.length + 1 : Nat) : Int)] ++ B ++ vals [binaryToInstruction op]).length = base + m := by
    intro m hm; simp [length_vals]; omega
  rw [hlen _ rfl]
  by_cases hc1 : op = .logAnd ∧ x = 0
  · rw [if_pos hc1]
    rw [if_pos (.inl hc1)] at hpc2
    obtain ⟨rfl, rfl⟩ := hc1
    refine ⟨_, Reach.refl, inv1.congr rfl rfl rfl rfl, sm1, 0, Rep.refl, ?_⟩
    exact up.trans ⟨by show pc = _; rw [hpc2]; omega, by rw [hz.2 rfl], rfl, rfl, rfl⟩
  · rw [if_neg hc1]
    by_cases hc2 : op = .logOr ∧ x ≠ 0
    · rw [if_pos hc2]
      rw [if_pos (.inr hc2)] at hpc2
      obtain ⟨rfl, hx⟩ := hc2
      have rep' : Rep tr 1 x' := by
        cases tr with
        | true => exact .inr ⟨rfl, by decide, fun e => hx (hz.1 e)⟩
        | false =>
          rw [if_neg (by simp)] at rep
          have := logical_value l s s1 x (flog rfl rfl) he
          rw [rep.exact]
          rcases this with h | h
          · exact absurd h hx
          · exact .inl h
      refine ⟨_, Reach.refl, inv1.congr rfl rfl rfl rfl, sm1, x', rep', ?_⟩
      exact up.trans ⟨by show pc = _; rw [hpc2]; omega, rfl, rfl, rfl, rfl⟩
    · rw [if_neg hc2]
      rw [if_neg (by rintro (h | h) <;> contradiction)] at hpc2
      have hb3 : pc = base + A.length + 3 := by rw [hpc2, up.pc]
      have h3' : Holds C b c (base + A.length + 3) B := by
        have e : base + (A ++ vals [IC_DUPLICATE, (if op = .logAnd then IC_BE0 else IC_BNE0), ((base + A.length + 3 + B.length + 1 : Nat) : Int)]).length = base + A.length + 3 := by
          simp [length_vals]; omega
        rw [e] at h3; exact h3
      have ihr' := ihr true s1 { v1 with pc := pc, stack := x' :: v.stack } _ fr (by rw [hB]; exact h3') hb3 (inv1.congr rfl rfl rfl rfl)
      rw [hB] at ihr'
      refine Follows.value ihr' ?_
      rintro y s2 v2 ⟨inv2, sm2, y', rep2, up2⟩
      rw [if_pos ho]
      have hz2 := rep2.zero
      have h0 := holds_one h4
      have e : base + (A ++ vals [IC_DUPLICATE, (if op = .logAnd then IC_BE0 else IC_BNE0), ((base + A.length + 3 + B.length + 1 : Nat) : Int)] ++ B).length = v2.pc := by
        rw [up2.pc]; simp [length_vals]; omega
      rw [e] at h0
      have hval : ∃ f, decode (binaryToInstruction op) = .binary f ∧ f x' y' = some (if y = 0 then 0 else 1) := by
        rcases ho with rfl | rfl
        · refine ⟨_, rfl, ?_⟩
          have hx : x ≠ 0 := fun h => hc1 ⟨rfl, h⟩
          have hx' : x' ≠ 0 := fun h => hx (hz.1 h)
          by_cases hy : y = 0
          · have : y' = 0 := hz2.2 hy
            simp [truth, hy, this]
          · have : y' ≠ 0 := fun h => hy (hz2.1 h)
            simp [truth, hy, this, hx']
        · refine ⟨_, rfl, ?_⟩
          have hx : x = 0 := Classical.byContradiction fun h => hc2 ⟨rfl, h⟩
          have hx' : x' = 0 := hz.2 hx
          by_cases hy : y = 0
          · have : y' = 0 := hz2.2 hy
            simp [truth, hy, this, hx']
          · have : y' ≠ 0 := fun h => hy (hz2.1 h)
            simp [truth, hy, this]
      obtain ⟨f, hd, hfw⟩ := hval
      refine follows_done (step_binary h0 hd up2.stack hfw) ⟨inv2.congr rfl rfl rfl rfl, sm1.trans sm2, _, Rep.refl, ?_⟩
      exact ⟨by rw [up2.pc]; show base + A.length + 3 + B.length + 1 = _; omega, rfl, up2.pend.trans up.pend, up2.size.trans up.size, up2.frames.trans up.frames⟩

theorem claim_binary (op : Binary) (l r : Exp) (fl : Bool) (ihl : ClaimE C n call L b c l) (ihr : ClaimE C n call L b c r) :
    ClaimE C n call L b c (.binary op l r fl) ∧ ClaimV C n call L b c (.binary op l r fl) := by
  have hE : ClaimE C n call L b c (.binary op l r fl) := by
    by_cases ho : op = .logAnd ∨ op = .logOr
    · exact claim_logical op l r fl ho ihl ihr
    · exact claim_arith op l r fl (fun h => ho (.inl h)) (fun h => ho (.inr h)) ihl ihr
  refine ⟨hE, ?_⟩
  intro s v base hf wf hh hpc inv
  have hf0 := hf
  simp only [FitsE] at hf
  obtain ⟨rfl, ho1, ho2, _⟩ := hf
  have hv : voidCode (codeE L.displs base (.binary op l r false)) = codeE L.displs base (.binary op l r false) := by
    rw [codeE]; simp only
    have e : binaryCell op false = binaryToInstruction op := rfl
    rw [e]
    split <;> rw [voidCode_one _ _ (binary_ge op), toVoid_binary ho1 ho2]
  rw [hv] at hh
  refine (hE true s v base hf0 hh hpc inv).mono ?_
  rintro r s' v' ⟨inv', sm, hr⟩
  refine ⟨inv', sm, ?_⟩
  cases r with
  | none => exact ⟨[], hr, fun _ => rfl⟩
  | some x =>
    obtain ⟨x', _, up⟩ := hr
    exact ⟨[x'], up, fun h => by
      rcases h with ⟨h, _⟩ | h
      · exact h.elim
      · cases h⟩

theorem claim_left (l : Exp) (ih : ClaimV C n call L b c l) (s : Src) (v : State) (base : Nat) (hf : (∃ id t, l = .ident id t) ∨ FitsE (okId C L) true l)
    (wf : l.Wf) (hh : Holds C b c base (codeV L.displs base l)) (hpc : v.pc = base) (inv : Inv C L s v) :
    Follows C n v (AtVoid C L (Exp.Quiet l) v (base + (codeV L.displs base l).length) v.stack s) (evalE call l s) := by
  by_cases hl : ∃ id t, l = .ident id t
  · obtain ⟨id, t, rfl⟩ := hl
    have : codeV L.displs base (.ident id t) = [] := rfl
    rw [this, evalE]
    cases s.var id with
    | none => trivial
    | some o =>
      cases o with
      | none => trivial
      | some x => exact ⟨v, Reach.refl, inv, Same.refl, [], ⟨hpc, rfl, rfl, rfl, rfl⟩, fun _ => rfl⟩
  · have hf : FitsE (okId C L) true l := hf.resolve_left hl
    have hlv : l.isLvalue = false := by
      cases h : l.isLvalue with
      | false => rfl
      | true => exact absurd (fits_lvalue hf h) hl
    rw [codeV, if_neg (by simp [hlv])] at hh ⊢
    rw [voidCode_length]
    refine (ih s v base hf wf hh hpc inv).mono ?_
    rintro r s' v' ⟨inv', sm, junk, up, hj⟩
    exact ⟨inv', sm, junk, up, fun h => hj (h.imp (fun q => ⟨q, hlv⟩) id)⟩

mutual
theorem fits_wf {ok : Nat → Prop} : ∀ (e : Exp) (tr : Bool), FitsE ok tr e → e.Wf
  | .lit _, _, _ => trivial
  | .ident _ _, _, _ => trivial
  | .cast _ e, tr, h => by simp only [FitsE] at h; exact fits_wf e _ h.2
  | .unary _ e _, tr, h => by simp only [FitsE] at h; exact fits_wf e _ h.2
  | .binary op l r _, tr, h => by
    simp only [FitsE] at h
    obtain ⟨_, _, _, h⟩ := h
    split at h
    · exact ⟨fits_wf l _ h.1, fits_wf r _ h.2⟩
    · split at h
      · exact ⟨fits_wf l _ h.1, fits_wf r _ h.2.2⟩
      · exact ⟨fits_wf l _ h.1, fits_wf r _ h.2⟩
  | .comma l r, tr, h => by
    simp only [FitsE] at h
    refine ⟨?_, fits_wf r _ h.2.2⟩
    rcases h.1 with ⟨_, _, e⟩ | h
    · rw [e]; trivial
    · exact fits_wf l _ h
  | .ternary c a b, tr, h => by simp only [FitsE] at h; exact ⟨fits_wf c _ h.1, fits_wf a _ h.2.1, fits_wf b _ h.2.2⟩
  | .assign _ l r _, tr, h => by
    simp only [FitsE] at h
    obtain ⟨⟨_, _, e, _⟩, _, h⟩ := h
    exact ⟨by rw [e]; trivial, fits_wf r _ h⟩
  | .incdec _ l _, tr, h => by
    simp only [FitsE] at h
    obtain ⟨⟨_, _, e, _⟩, _⟩ := h
    show l.Wf
    rw [e]; trivial
  | .call _ args, tr, h => by simp only [FitsE] at h; exact fitsA_wf args h
  | .print e _, tr, h => by simp only [FitsE] at h; exact fits_wf e _ h.2
  | .printf f args _, tr, h => by
    simp only [FitsE] at h
    obtain ⟨⟨_, e⟩, _, _, h⟩ := h
    exact ⟨by rw [e]; trivial, fitsA_wf args h⟩
  | .flit _, _, h | .str _, _, h | .subscript _ _ _, _, h | .arrow _ _ _, _, h
  | .dot _ _ _ _, _, h | .deref _ _, _, h | .callParam _ _, _, h | .builtin _ _, _, h
  | .both _ _, _, h | .address _, _, h
  | .upb _, _, h | .init _ _ _, _, h | .funArg _, _, h | .paramArg _, _, h
  | .initArg _ _, _, h => by simp [FitsE] at h
theorem fitsA_wf {ok : Nat → Prop} : ∀ (as : Args), FitsA ok as → as.Wf
  | .nil, _ => trivial
  | .cons e rest, h => by simp only [FitsA] at h; exact ⟨fits_wf e _ h.1, fitsA_wf rest h.2⟩
end

theorem left_wf {ok : Nat → Prop} {l : Exp} (h : (∃ id t, l = .ident id t) ∨ FitsE ok true l) : l.Wf := by
  rcases h with ⟨_, _, e⟩ | h
  · rw [e]; trivial
  · exact fits_wf l _ h

theorem claim_comma (l r : Exp) (ihl : ClaimV C n call L b c l) (ihr : ClaimE C n call L b c r ∧ ClaimV C n call L b c r) :
    ClaimE C n call L b c (.comma l r) ∧ ClaimV C n call L b c (.comma l r) := by
  have hcode : ∀ base, codeE L.displs base (.comma l r) = codeV L.displs base l ++ codeE L.displs (base + (codeV L.displs base l).length) r := by
    intro base; rw [codeE]; rfl
  constructor
  · intro tr s v base hf hh hpc inv
    simp only [FitsE] at hf
    obtain ⟨fl, fq, fr⟩ := hf
    rw [hcode] at hh ⊢
    obtain ⟨h1, h2⟩ := holds_append.1 hh
    rw [evalE]
    refine Follows.bind (claim_left l ihl s v base fl (left_wf fl) h1 hpc inv) ?_
    rintro a s1 v1 ⟨inv1, sm1, junk, up, hj⟩
    rw [hj (.inl fq), List.nil_append] at up
    refine (ihr.1 tr s1 v1 _ fr h2 up.pc inv1).mono ?_
    rintro r s2 v2 ⟨inv2, sm2, hr⟩
    refine ⟨inv2, sm1.trans sm2, ?_⟩
    rw [List.length_append, ← Nat.add_assoc]
    rw [up.stack] at hr
    cases r with
    | none => exact up.trans hr
    | some x =>
      obtain ⟨x', rep, up2⟩ := hr
      exact ⟨x', rep, up.trans up2⟩
  · intro s v base hf wf hh hpc inv
    simp only [FitsE] at hf
    obtain ⟨fl, fq, fr⟩ := hf
    rw [hcode] at hh ⊢
    rw [voidCode_append (codeE_shape _ r _ wf.2).1] at hh
    obtain ⟨h1, h2⟩ := holds_append.1 hh
    rw [evalE]
    refine Follows.bind (claim_left l ihl s v base fl wf.1 h1 hpc inv) ?_
    rintro a s1 v1 ⟨inv1, sm1, junk, up, hj⟩
    rw [hj (.inl fq), List.nil_append] at up
    refine (ihr.2 s1 v1 _ fr wf.2 h2 up.pc inv1).mono ?_
    rintro x s2 v2 ⟨inv2, sm2, junk2, up2, hj2⟩
    rw [up.stack] at up2
    refine ⟨inv2, sm1.trans sm2, junk2, ?_, fun h => hj2 ?_⟩
    · rw [List.length_append, ← Nat.add_assoc]
      exact up.trans up2
    · rcases h with ⟨h, _⟩ | h
      · left
        have hq : Exp.Quiet r := by cases r <;> first | exact h | exact h.elim
        refine ⟨hq, ?_⟩
        cases hlv : r.isLvalue with
        | false => rfl
        | true =>
          obtain ⟨_, _, e⟩ := fits_lvalue fr hlv
          subst e; exact h.elim
      · exact .inr h

/-- A test that jumps when the value is zero. -/
theorem branch_zero {tr : Bool} {s : Src} {v v1 : State} {pc a : Nat} {w w' : Int} {k : List Int} (h : Holds C b c pc (vals [IC_BE0, (a : Int)]))
    (inv : Inv C L s v1) (rep : Rep tr w w') (up : Upto v v1 pc (w' :: k)) :
    ∃ v2, Reach C.M 1 v1 v2 ∧ Inv C L s v2 ∧ Upto v v2 (if w = 0 then a else pc + 2) k := by
  obtain ⟨g0, g1⟩ := holds_two h
  rw [← up.pc] at g0 g1
  refine ⟨_, reach_step (step_be0 g0 g1 up.stack), inv.congr rfl rfl rfl rfl, up.trans ⟨?_, rfl, rfl, rfl, rfl⟩⟩
  show (if w' = 0 then (a : Int).toNat else v1.pc + 2) = _
  rw [Int.toNat_natCast, up.pc]
  have := rep.zero
  by_cases hw : w = 0
  · rw [if_pos hw, if_pos (this.2 hw)]
  · rw [if_neg hw, if_neg (fun h => hw (this.1 h))]

/-- A test that jumps when the value is not zero. -/
theorem branch_nonzero {tr : Bool} {s : Src} {v v1 : State} {pc a : Nat} {w w' : Int} {k : List Int} (h : Holds C b c pc (vals [IC_BNE0, (a : Int)]))
    (inv : Inv C L s v1) (rep : Rep tr w w') (up : Upto v v1 pc (w' :: k)) :
    ∃ v2, Reach C.M 1 v1 v2 ∧ Inv C L s v2 ∧ Upto v v2 (if w = 0 then pc + 2 else a) k := by
  obtain ⟨g0, g1⟩ := holds_two h
  rw [← up.pc] at g0 g1
  refine ⟨_, reach_step (step_bne0 g0 g1 up.stack), inv.congr rfl rfl rfl rfl, up.trans ⟨?_, rfl, rfl, rfl, rfl⟩⟩
  show (if w' ≠ 0 then (a : Int).toNat else v1.pc + 2) = _
  rw [Int.toNat_natCast, up.pc]
  have := rep.zero
  by_cases hw : w = 0
  · rw [if_pos hw, if_neg (fun h => h (this.2 hw))]
  · rw [if_neg hw, if_pos (fun h => hw (this.1 h))]

/-- A jump. -/
theorem branch {s : Src} {v v1 : State} {pc a : Nat} {k : List Int} (h : Holds C b c pc (vals [IC_B, (a : Int)]))
    (inv : Inv C L s v1) (up : Upto v v1 pc k) :
    ∃ v2, Reach C.M 1 v1 v2 ∧ Inv C L s v2 ∧ Upto v v2 a k := by
  obtain ⟨g0, g1⟩ := holds_two h
  rw [← up.pc] at g0 g1
  exact ⟨_, reach_step (step_jump g0 g1), inv.congr rfl rfl rfl rfl, up.trans ⟨Int.toNat_natCast a, up.stack, rfl, rfl, rfl⟩⟩

theorem Follows.end {v v1 : State} {α} {P : α → Src → State → Prop} {a : α} {s : Src} (h : Reach C.M 0 v v1) (g : P a s v1) : Follows C n v P (.ok a s) := ⟨v1, h, g⟩

/-- Something done behind a result. -/
theorem Follows.also {v : State} {α} {P Q : α → Src → State → Prop} {r : Res α} (h : Follows C n v P r)
    (g : ∀ a s v1, P a s v1 → ∃ v2, Reach C.M 0 v1 v2 ∧ Q a s v2) : Follows C n v Q r := by
  cases r with
  | wrong => trivial
  | more out => exact h
  | ok a s =>
    obtain ⟨v1, h1, h2⟩ := h
    obtain ⟨v2, h3, h4⟩ := g a s v1 h2
    exact ⟨v2, h1.then h3, h4⟩

theorem claim_ternary (d x y : Exp) (ihd : ClaimE C n call L b c d) (ihx : ClaimE C n call L b c x) (ihy : ClaimE C n call L b c y ∧ ClaimV C n call L b c y) :
    ClaimE C n call L b c (.ternary d x y) ∧ ClaimV C n call L b c (.ternary d x y) := by
  have hcode : ∀ base, ∃ A X, A = codeE L.displs base d ∧ X = codeE L.displs (base + A.length + 2) x ∧
      ∃ Y, Y = codeE L.displs (base + A.length + 2 + X.length + 2) y ∧
      codeE L.displs base (.ternary d x y) = A ++ vals [IC_BE0, ((base + A.length + 2 + X.length + 2 : Nat) : Int)] ++ X ++
      vals [IC_B, ((base + A.length + 2 + X.length + 2 + Y.length : Nat) : Int)] ++ Y := by
    intro base
    exact ⟨_, _, rfl, rfl, _, rfl, by rw [codeE]⟩
  -- up to the choice, and the first choice
  have key : ∀ (s : Src) (v : State) (base : Nat) (A X Y : List Sym) (tr : Bool) (Q : Option Int → Src → State → Prop),
      A = codeE L.displs base d → X = codeE L.displs (base + A.length + 2) x →
      FitsE (okId C L) true d → FitsE (okId C L) tr x →
      Holds C b c base (A ++ vals [IC_BE0, ((base + A.length + 2 + X.length + 2 : Nat) : Int)] ++ X ++
        vals [IC_B, ((base + A.length + 2 + X.length + 2 + Y.length : Nat) : Int)]) →
      v.pc = base → Inv C L s v →
      (∀ r s' v', AtValue C L tr v (base + A.length + 2 + X.length + 2 + Y.length) v.stack s r s' v' → Q r s' v') →
      (∀ s1 v1, Inv C L s1 v1 → Same s s1 → Upto v v1 (base + A.length + 2 + X.length + 2) v.stack → Follows C n v1 Q (evalE call y s1)) →
      Follows C n v Q (evalE call (.ternary d x y) s) := by
    intro s v base A X Y tr Q eA eX fd fx hh hpc inv hQ hy
    obtain ⟨hh, h4⟩ := holds_append.1 hh
    obtain ⟨hh, h3⟩ := holds_append.1 hh
    obtain ⟨h1, h2⟩ := holds_append.1 hh
    rw [evalE]
    have f1 := ihd true s v base fd (by rw [← eA]; exact h1) hpc inv
    rw [← eA] at f1
    refine Follows.value f1 ?_
    rintro w s1 v1 ⟨inv1, sm1, w', rep, up⟩
    obtain ⟨v2, r2, inv2, up2⟩ := branch_zero h2 inv1 rep up
    refine Follows.start (r2.weaken (Nat.zero_le _)) ?_
    by_cases hw : w = 0
    · rw [if_neg (fun h => h hw)]
      rw [if_pos hw] at up2
      exact hy s1 v2 inv2 sm1 up2
    · rw [if_pos hw]
      rw [if_neg hw] at up2
      have e3 : base + (A ++ vals [IC_BE0, ((base + A.length + 2 + X.length + 2 : Nat) : Int)]).length = base + A.length + 2 := by
        simp [length_vals]; omega
      rw [e3] at h3
      have e4 : base + (A ++ vals [IC_BE0, ((base + A.length + 2 + X.length + 2 : Nat) : Int)] ++ X).length = base + A.length + 2 + X.length := by
        simp [length_vals]; omega
      rw [e4] at h4
      have f2 := ihx tr s1 v2 (base + A.length + 2) fx (by rw [← eX]; exact h3) up2.pc inv2
      rw [← eX, up2.stack] at f2
      refine Follows.also f2 ?_
      rintro r s3 v3 ⟨inv3, sm3, hr⟩
      cases r with
      | none =>
        obtain ⟨v4, r4, inv4, up4⟩ := branch h4 inv3 (up2.trans hr)
        exact ⟨v4, r4.weaken (Nat.zero_le _), hQ _ _ _ ⟨inv4, sm1.trans sm3, up4⟩⟩
      | some z =>
        obtain ⟨z', rep3, up3⟩ := hr
        obtain ⟨v4, r4, inv4, up4⟩ := branch h4 inv3 (up2.trans up3)
        exact ⟨v4, r4.weaken (Nat.zero_le _), hQ _ _ _ ⟨inv4, sm1.trans sm3, z', rep3, up4⟩⟩
  constructor
  · intro tr s v base hf hh hpc inv
    simp only [FitsE] at hf
    obtain ⟨fd, fx, fy⟩ := hf
    obtain ⟨A, X, eA, eX, Y, eY, e⟩ := hcode base
    rw [e] at hh ⊢
    have el : base + (A ++ vals [IC_BE0, ((base + A.length + 2 + X.length + 2 : Nat) : Int)] ++ X ++
      vals [IC_B, ((base + A.length + 2 + X.length + 2 + Y.length : Nat) : Int)] ++ Y).length = base + A.length + 2 + X.length + 2 + Y.length := by
      simp [length_vals]; omega
    rw [el]
    obtain ⟨h1, h2⟩ := holds_append.1 hh
    have el2 : base + (A ++ vals [IC_BE0, ((base + A.length + 2 + X.length + 2 : Nat) : Int)] ++ X ++
      vals [IC_B, ((base + A.length + 2 + X.length + 2 + Y.length : Nat) : Int)]).length = base + A.length + 2 + X.length + 2 := by
      simp [length_vals]; omega
    rw [el2] at h2
    refine key s v base A X Y tr _ eA eX fd fx h1 hpc inv (fun _ _ _ h => h) ?_
    intro s1 v1 inv1 sm1 up1
    have f := ihy.1 tr s1 v1 _ fy (by rw [← eY]; exact h2) up1.pc inv1
    rw [← eY, up1.stack] at f
    refine f.mono ?_
    rintro r s2 v2 ⟨inv2, sm2, hr⟩
    refine ⟨inv2, sm1.trans sm2, ?_⟩
    cases r with
    | none => exact up1.trans hr
    | some z =>
      obtain ⟨z', rep, up⟩ := hr
      exact ⟨z', rep, up1.trans up⟩
  · intro s v base hf wf hh hpc inv
    simp only [FitsE] at hf
    obtain ⟨fd, fx, fy⟩ := hf
    obtain ⟨A, X, eA, eX, Y, eY, e⟩ := hcode base
    rw [e] at hh ⊢
    have el : base + (A ++ vals [IC_BE0, ((base + A.length + 2 + X.length + 2 : Nat) : Int)] ++ X ++
      vals [IC_B, ((base + A.length + 2 + X.length + 2 + Y.length : Nat) : Int)] ++ Y).length = base + A.length + 2 + X.length + 2 + Y.length := by
      simp [length_vals]; omega
    rw [el]
    rw [voidCode_append (by rw [eY]; exact (codeE_shape _ y _ wf.2.2).1)] at hh
    obtain ⟨h1, h2⟩ := holds_append.1 hh
    have el2 : base + (A ++ vals [IC_BE0, ((base + A.length + 2 + X.length + 2 : Nat) : Int)] ++ X ++
      vals [IC_B, ((base + A.length + 2 + X.length + 2 + Y.length : Nat) : Int)]).length = base + A.length + 2 + X.length + 2 := by
      simp [length_vals]; omega
    rw [el2] at h2
    refine key s v base A X Y true _ eA eX fd fx h1 hpc inv ?_ ?_
    · rintro r s' v' ⟨inv', sm, hr⟩
      refine ⟨inv', sm, ?_⟩
      cases r with
      | none => exact ⟨[], hr, fun _ => rfl⟩
      | some z =>
        obtain ⟨z', _, up⟩ := hr
        exact ⟨[z'], up, fun h => by
          rcases h with ⟨h, _⟩ | h
          · exact h.elim
          · cases h⟩
    · intro s1 v1 inv1 sm1 up1
      have f := ihy.2 s1 v1 _ fy wf.2.2 (by rw [← eY]; exact h2) up1.pc inv1
      rw [← eY, up1.stack] at f
      refine f.mono ?_
      rintro r s2 v2 ⟨inv2, sm2, junk, up, hj⟩
      refine ⟨inv2, sm1.trans sm2, junk, up1.trans up, fun h => ?_⟩
      rcases h with ⟨h, _⟩ | h
      · exact h.elim
      · exact hj (.inr h)

end

end RuC.Machine
