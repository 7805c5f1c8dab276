import Verif.Machine.Exps2

/-!
The machine follows the evaluation of expressions: assignments, calls and prints, and all expressions together.
-/

namespace RuC.Machine

open RuC RuC.Codegen RuC.Instr
open RuC.Expr (Unary Binary)

section
variable {C : Ctx} {n : Nat} {call : Calls} {L : Layout} {b c : Int}

/-! ### Assignments -/

theorem assign_cells {op : Binary} {t : Ty} (ht : Scalar t) (d : Int) (t') : assignCells op t (.var d t') = [binaryToInstruction op, d] := by
  rcases ht with rfl | rfl <;> rfl

/-- What an instruction that assigns does. -/
def Assigns (op : Binary) (i : Int) (void : Bool) : Prop :=
  (op = .assign → decode i = .assign void) ∧
  ∀ o a x w, compound op = some o → arith o a x = some w → ∃ f, decode i = .update f void ∧ f a x = some w

theorem assign_step (ok : C.Ok) {op : Binary} {i : Int} {void : Bool} (hi : Assigns op i void) {s : Src} {v v1 : State} {pc : Nat} {id : Nat} {old : Option Int}
    {x w : Int} {k : List Int} (h : Holds C b c pc (vals [i, L.displs id])) (hid : okId C L id) (inv : Inv C L s v1) (up : Upto v v1 pc (x :: k))
    (ho : s.var id = some old) (hw : assigned op old x = some w) :
    ∃ v2, Reach C.M 1 v1 v2 ∧ Inv C L (s.set id (some (some w))) v2 ∧ Upto v v2 (pc + 2) (if void then k else w :: k) := by
  obtain ⟨g0, g1⟩ := holds_two h
  rw [← up.pc] at g0 g1
  obtain ⟨v2, hset, kept, inv2⟩ := set_var ok inv hid (by rw [ho]; rfl) w
  refine ⟨{ v2 with pc := v1.pc + 2, stack := if void then k else w :: k }, reach_step ?_, inv2.congr rfl rfl rfl rfl,
    up.trans ⟨by show v1.pc + 2 = _; rw [up.pc], rfl, kept.pend, kept.size, kept.frames⟩⟩
  unfold assigned at hw
  by_cases ha : op = .assign
  · rw [if_pos ha] at hw
    cases hw
    exact step_assign g0 (hi.1 ha) g1 up.stack hset
  · rw [if_neg ha] at hw
    cases hc : compound op with
    | none => rw [hc] at hw; cases hw
    | some o =>
      rw [hc] at hw
      cases old with
      | none => cases hw
      | some a =>
        obtain ⟨f, hd, hf⟩ := hi.2 o a x w hc hw
        exact step_update g0 hd g1 up.stack (get_var ok inv hid ho) hf hset

theorem assign_follows (ok : C.Ok) {op : Binary} {r : Exp} {t : Ty} (ihr : ClaimE C n call L b c r) {i : Int} {void : Bool} (hi : Assigns op i void)
    (s : Src) (v : State) (base : Nat) (id : Nat) (t' : Ty) (hid : okId C L id) (fr : FitsE (okId C L) false r)
    (hh : Holds C b c base (codeE L.displs base r ++ vals [i, L.displs id])) (hpc : v.pc = base) (inv : Inv C L s v) :
    Follows C n v (fun res s' v' => Inv C L s' v' ∧ Same s s' ∧ ∃ w, res = some w ∧
        Upto v v' (base + (codeE L.displs base r).length + 2) (if void then v.stack else w :: v.stack))
      (evalE call (.assign op (.ident id t') r t) s) := by
  obtain ⟨h1, h2⟩ := holds_append.1 hh
  rw [evalE]
  refine Follows.value (ihr false s v base fr h1 hpc inv) ?_
  rintro x s1 v1 ⟨inv1, sm1, x', rep, up⟩
  rw [rep.exact] at up
  cases ho : s1.var id with
  | none => trivial
  | some old =>
    simp only
    cases hw : assigned op old x with
    | none => trivial
    | some w =>
      obtain ⟨v2, r2, inv2, up2⟩ := assign_step ok hi h2 hid inv1 up ho hw
      exact Follows.end (r2.weaken (Nat.zero_le _)) ⟨inv2, sm1.trans (same_set (by rw [ho]; rfl)), w, rfl, up2⟩

theorem assigns_value (op : Binary) : Assigns op (binaryToInstruction op) false :=
  ⟨fun h => by rw [h]; rfl, fun _ _ _ _ ho h => decode_compound ho h⟩

theorem assigns_void (op : Binary) : Assigns op (toVoid (binaryToInstruction op)) (decide (op ∈ quietOps)) :=
  ⟨fun h => by rw [h]; rfl, fun _ _ _ _ ho h => decode_compound_void ho h⟩

theorem claim_assign (ok : C.Ok) (op : Binary) (l r : Exp) (t : Ty) (ihr : ClaimE C n call L b c r) :
    ClaimE C n call L b c (.assign op l r t) ∧ ClaimV C n call L b c (.assign op l r t) := by
  have hcode : ∀ base id t', Scalar t → l = .ident id t' → codeE L.displs base (.assign op l r t) = codeE L.displs base r ++ vals [binaryToInstruction op, L.displs id] := by
    intro base id t' ht e
    subst e
    rw [codeE]
    simp only [codeL, List.length_nil, Nat.add_zero, List.nil_append]
    rw [assign_cells ht]
  constructor
  · intro tr s v base hf hh hpc inv
    simp only [FitsE] at hf
    obtain ⟨⟨id, t', e, hid⟩, ht, fr⟩ := hf
    rw [hcode base id t' ht e] at hh ⊢
    subst e
    refine (assign_follows ok ihr (assigns_value op) s v base id t' hid fr hh hpc inv).mono ?_
    rintro res s' v' ⟨inv', sm, w, rfl, up⟩
    refine ⟨inv', sm, w, Rep.refl, ?_⟩
    rw [List.length_append, length_vals, ← Nat.add_assoc]
    exact up
  · intro s v base hf wf hh hpc inv
    simp only [FitsE] at hf
    obtain ⟨⟨id, t', e, hid⟩, ht, fr⟩ := hf
    rw [hcode base id t' ht e] at hh ⊢
    rw [voidCode_two _ _ _ hid.2] at hh
    subst e
    refine (assign_follows ok ihr (assigns_void op) s v base id t' hid fr hh hpc inv).mono ?_
    rintro res s' v' ⟨inv', sm, w, rfl, up⟩
    refine ⟨inv', sm, if op ∈ quietOps then [] else [w], ?_, ?_⟩
    · rw [List.length_append, length_vals, ← Nat.add_assoc]
      by_cases hq : op ∈ quietOps
      · simpa [hq] using up
      · simpa [hq] using up
    · rintro (⟨h, _⟩ | h)
      · exact if_pos h
      · cases h

theorem incdec_follows (ok : C.Ok) {op : Unary} {t : Ty} {i : Int} {void : Bool}
    (hi : ∀ j post, incdec op = some (j, post) → decode i = .step j post void)
    (s : Src) (v : State) (base : Nat) (id : Nat) (t' : Ty) (hid : okId C L id)
    (hh : Holds C b c base (vals [i, L.displs id])) (hpc : v.pc = base) (inv : Inv C L s v) :
    Follows C n v (fun res s' v' => Inv C L s' v' ∧ Same s s' ∧ ∃ w, res = some w ∧
        Upto v v' (base + 2) (if void then v.stack else w :: v.stack))
      (evalE call (.incdec op (.ident id t') t) s) := by
  rw [evalE]
  cases ho : s.var id with
  | none => trivial
  | some old =>
    cases old with
    | none => trivial
    | some a =>
      cases hd : incdec op with
      | none => trivial
      | some p =>
        obtain ⟨j, post⟩ := p
        simp only
        cases hw : fit (a + j) with
        | none => trivial
        | some w =>
          obtain ⟨g0, g1⟩ := holds_two hh
          rw [← hpc] at g0 g1
          obtain ⟨v2, hset, kept, inv2⟩ := set_var ok inv hid (by rw [ho]; rfl) w
          exact Follows.end (reach1 (step_step g0 (hi j post hd) g1 (get_var ok inv hid ho) hw hset))
            ⟨inv2.congr rfl rfl rfl rfl, same_set (by rw [ho]; rfl), _, rfl, by show v.pc + 2 = _; rw [hpc], rfl, kept.pend, kept.size, kept.frames⟩

theorem claim_incdec (ok : C.Ok) (op : Unary) (l : Exp) (t : Ty) :
    ClaimE C n call L b c (.incdec op l t) ∧ ClaimV C n call L b c (.incdec op l t) := by
  have hcode : ∀ base id t', Scalar t → l = .ident id t' → codeE L.displs base (.incdec op l t) = vals [unaryToInstruction op, L.displs id] := by
    intro base id t' ht e
    subst e
    rw [codeE]
    rcases ht with rfl | rfl <;> rfl
  constructor
  · intro tr s v base hf hh hpc inv
    simp only [FitsE] at hf
    obtain ⟨⟨id, t', e, hid⟩, ht⟩ := hf
    rw [hcode base id t' ht e] at hh ⊢
    subst e
    refine (incdec_follows ok (void := false) (fun j post h => (decode_step h).1) s v base id t' hid hh hpc inv).mono ?_
    rintro res s' v' ⟨inv', sm, w, rfl, up⟩
    exact ⟨inv', sm, w, Rep.refl, up⟩
  · intro s v base hf wf hh hpc inv
    simp only [FitsE] at hf
    obtain ⟨⟨id, t', e, hid⟩, ht⟩ := hf
    rw [hcode base id t' ht e] at hh ⊢
    have e2 : voidCode (vals [unaryToInstruction op, L.displs id]) = vals [toVoid (unaryToInstruction op), L.displs id] := voidCode_two [] _ _ hid.2
    rw [e2] at hh
    subst e
    refine (incdec_follows ok (void := true) (fun j post h => (decode_step h).2) s v base id t' hid hh hpc inv).mono ?_
    rintro res s' v' ⟨inv', sm, w, rfl, up⟩
    exact ⟨inv', sm, [], up, fun _ => rfl⟩

/-! ### Calls and prints -/

theorem claim_call (ok : CallsOk C n call) (f : Nat) (args : Args) (iha : ClaimA C n call L b c args) :
    ClaimE C n call L b c (.call f args) ∧ ClaimV C n call L b c (.call f args) := by
  have hcode : ∀ base, codeE L.displs base (.call f args) = vals [IC_CALL1] ++ codeA L.displs (base + 1) args ++ [.val IC_CALL2, .fn f] := by
    intro base; rw [codeE]
  have hE : ClaimE C n call L b c (.call f args) := by
    intro tr s v base hf hh hpc inv
    simp only [FitsE] at hf
    rw [hcode] at hh ⊢
    obtain ⟨hh, h3⟩ := holds_append.1 hh
    obtain ⟨h1, h2⟩ := holds_append.1 hh
    have h0 := holds_one h1
    rw [← hpc] at h0
    rw [evalE]
    refine Follows.start (reach1 (step_call1 h0)) ?_
    refine Follows.bind (iha s _ (base + 1) hf h2 (by show v.pc + 1 = _; rw [hpc]) (inv.congr rfl rfl rfl rfl)) ?_
    rintro vs s1 v1 ⟨inv1, sm1, up⟩
    obtain ⟨g0, g1⟩ := holds_cons.1 h3
    have g1 := (holds_cons.1 g1).1
    have e : base + (vals [IC_CALL1] ++ codeA L.displs (base + 1) args).length = v1.pc := by
      rw [up.pc]; simp [length_vals]; omega
    rw [e] at g0 g1
    refine (ok L f vs s1 v1 v.stack v.pend inv1 g0 g1 (by rw [up.stack]; simp) up.pend).mono ?_
    rintro r s2 v2 ⟨inv2, sm2, hpc2, hst, hpd, hsz, hfr⟩
    refine ⟨inv2, sm1.trans sm2, ?_⟩
    have hpc3 : v2.pc = base + (vals [IC_CALL1] ++ codeA L.displs (base + 1) args ++ [Sym.val IC_CALL2, Sym.fn f]).length := by
      rw [hpc2, ← e]; simp; omega
    cases r with
    | none => exact ⟨hpc3, hst, hpd, hsz.trans up.size, hfr.trans up.frames⟩
    | some x => exact ⟨x, Rep.refl, hpc3, hst, hpd, hsz.trans up.size, hfr.trans up.frames⟩
  refine ⟨hE, hE.void (fun base => ?_) (fun h => h.elim)⟩
  rw [hcode]
  have : ∀ A : List Sym, A ++ [.val IC_CALL2, .fn f] = (A ++ vals [IC_CALL2]) ++ [.fn f] := by intro A; simp [vals]
  rw [this, voidCode_fn]

theorem claim_print (e : Exp) (t : Int) (ih : ClaimE C n call L b c e) : ClaimE C n call L b c (.print e t) ∧ ClaimV C n call L b c (.print e t) := by
  have hE : ClaimE C n call L b c (.print e t) := by
    intro tr s v base hf hh hpc inv
    simp only [FitsE] at hf
    rw [codeE] at hh ⊢
    obtain ⟨h1, h2⟩ := holds_append.1 hh
    rw [evalE]
    refine Follows.value (ih false s v base hf.2 h1 hpc inv) ?_
    rintro x s1 v1 ⟨inv1, sm1, x', rep, up⟩
    rw [rep.exact] at up
    obtain ⟨g0, g1⟩ := holds_two h2
    rw [← up.pc] at g0 g1
    refine follows_done (step_print g0 g1 up.stack) ⟨⟨?_, inv1.glob, inv1.loc, inv1.range, inv1.inj⟩, fun id => sm1 id, ?_⟩
    · show v1.out ++ _ = _
      rw [inv1.out]; rfl
    · exact up.trans ⟨by show v1.pc + 2 = _; rw [up.pc, List.length_append, length_vals]; rfl, rfl, rfl, rfl, rfl⟩
  refine ⟨hE, ?_⟩
  intro s v base hf wf hh hpc inv
  have ht : t < MIN_INSTRUCTION_CODE := by simp only [FitsE] at hf; exact hf.1
  have e1 : voidCode (codeE L.displs base (.print e t)) = codeE L.displs base (.print e t) := by
    rw [codeE, voidCode_two _ _ _ ht]
    rfl
  rw [e1] at hh
  refine (hE true s v base hf hh hpc inv).monoEq ?_
  rintro r s' v' he ⟨inv', sm, hr⟩
  refine ⟨inv', sm, ?_⟩
  cases r with
  | none => exact ⟨[], hr, fun _ => rfl⟩
  | some x =>
    rw [evalE] at he
    cases h : evalE call e s with
    | wrong => rw [h] at he; cases he
    | more o => rw [h] at he; cases he
    | ok a s1 => rw [h] at he; cases a <;> cases he

theorem table_follows {s : Src} {v v1 : State} {pc : Nat} {chars : List Int} {k : List Int} (h : Holds C b c pc (tableCode pc chars.length chars))
    (inv : Inv C L s v1) (up : Upto v v1 pc k) :
    ∃ v2, Reach C.M 0 v1 v2 ∧ Inv C L s v2 ∧ Upto v v2 (pc + (tableCode pc chars.length chars).length) (((pc + 5 : Nat) : Int) :: k) ∧
      stringAt C.M ((pc + 5 : Nat) : Int) = some chars := by
  have hsplit : tableCode pc chars.length chars = vals [IC_LI, ((pc + 5 : Nat) : Int)] ++ vals [IC_B, ((pc + 5 + chars.length : Nat) : Int)] ++ vals [(chars.length : Int)] ++ vals chars := by
    simp [tableCode, vals]
  have hlen : pc + (tableCode pc chars.length chars).length = pc + 5 + chars.length := by
    rw [hsplit]; simp [length_vals]; omega
  rw [hlen]
  rw [hsplit] at h
  obtain ⟨h, h4⟩ := holds_append.1 h
  obtain ⟨h, h3⟩ := holds_append.1 h
  obtain ⟨h1, h2⟩ := holds_append.1 h
  have h3 := holds_one h3
  simp only [List.length_append, length_vals, List.length_cons, List.length_nil, Nat.zero_add, Nat.reduceAdd] at h2 h3 h4
  obtain ⟨g0, g1⟩ := holds_two h1
  rw [← up.pc] at g0 g1
  have st : step C.M v1 = some { v1 with pc := v1.pc + 2, stack := ((pc + 5 : Nat) : Int) :: v1.stack } := by
    rw [step_li g0 g1, up.pc]
  have up1 : Upto v { v1 with pc := v1.pc + 2, stack := ((pc + 5 : Nat) : Int) :: v1.stack } (pc + 2) (((pc + 5 : Nat) : Int) :: k) :=
    up.trans ⟨by show v1.pc + 2 = _; rw [up.pc], by rw [up.stack], rfl, rfl, rfl⟩
  obtain ⟨v2, r2, inv2, up2⟩ := branch (s := s) (L := L) (v1 := { v1 with pc := v1.pc + 2, stack := ((pc + 5 : Nat) : Int) :: v1.stack }) h2 (inv.congr rfl rfl rfl rfl) up1
  refine ⟨v2, (reach1 st).then (r2.weaken (Nat.zero_le _)), inv2, up2, ?_⟩
  · have hsub : ((pc + 5 : Nat) : Int).toNat - 1 = pc + 4 := by rw [Int.toNat_natCast]; omega
    rw [stringAt, hsub, show pc + 4 = pc + (2 + 2) from rfl, h3]
    have hcells : ∀ i, i < chars.length → C.M.code[pc + 5 + i]? = chars[i]? := by
      intro i hi
      have := h4 i (.val chars[i]) (by simp [vals, hi])
      rw [show pc + 5 + i = pc + (2 + 2 + 1) + i from rfl, this, List.getElem?_eq_getElem hi]
      rfl
    have hle : pc + 5 + chars.length ≤ C.M.code.length := by
      cases hc : chars.length with
      | zero =>
        have : pc + 4 < C.M.code.length := (List.getElem?_eq_some_iff.1 h3).1
        omega
      | succ m =>
        have := hcells m (by omega)
        rw [List.getElem?_eq_getElem (show m < chars.length by omega)] at this
        have := (List.getElem?_eq_some_iff.1 this).1
        omega
    simp only
    rw [Int.toNat_natCast, Int.toNat_natCast]
    rw [if_pos ⟨by omega, hle⟩]
    congr 1
    apply List.ext_getElem?
    intro i
    rw [List.getElem?_take]
    by_cases hi : i < chars.length
    · rw [if_pos hi, List.getElem?_drop, hcells i hi]
    · rw [if_neg hi, List.getElem?_eq_none (by omega)]

theorem evalA_length : ∀ (as : Args) (s s' : Src) (vs : List Int), evalA call as s = .ok vs s' → vs.length = argsLength as
  | .nil, s, s', vs, h => by rw [evalA] at h; cases h; rfl
  | .cons e rest, s, s', vs, h => by
    rw [evalA] at h
    cases he : evalE call e s with
    | wrong => rw [he] at h; cases h
    | more o => rw [he] at h; cases h
    | ok a s1 =>
      rw [he] at h
      cases a with
      | none => cases h
      | some a =>
        simp only [Res.value, Res.bind] at h
        cases hr : evalA call rest s1 with
        | wrong => rw [hr] at h; cases h
        | more o => rw [hr] at h; cases h
        | ok ws s2 =>
          rw [hr] at h
          cases h
          simp [argsLength, evalA_length rest s1 s' ws hr]

theorem claim_printf (f : Exp) (args : Args) (m : Nat) (iha : ClaimA C n call L b c args) :
    ClaimE C n call L b c (.printf f args m) ∧ ClaimV C n call L b c (.printf f args m) := by
  have hE : ClaimE C n call L b c (.printf f args m) := by
    intro tr s v base hf hh hpc inv
    simp only [FitsE] at hf
    obtain ⟨⟨chars, rfl⟩, hm, _, fa⟩ := hf
    rw [codeE] at hh ⊢
    obtain ⟨hh, h3⟩ := holds_append.1 hh
    obtain ⟨h1, h2⟩ := holds_append.1 hh
    rw [evalE]
    refine Follows.bindEq (iha s v base fa h1 hpc inv) ?_
    rintro vs s1 v1 he ⟨inv1, sm1, up⟩
    have hl := evalA_length args s s1 vs he
    rw [codeE] at h2 h3 ⊢
    obtain ⟨v2, r2, inv2, up2, hst⟩ := table_follows h2 inv1 up
    refine Follows.start r2 ?_
    obtain ⟨g0, g1⟩ := holds_two h3
    rw [List.length_append, ← Nat.add_assoc, ← up2.pc] at g0 g1
    have hm2 : (m : Int).toNat = vs.length := by rw [hm, hl, Int.toNat_natCast]
    refine follows_done (step_printf g0 g1 up2.stack hst ⟨by omega, by rw [hm2]; simp⟩) ⟨⟨?_, inv2.glob, inv2.loc, inv2.range, inv2.inj⟩, fun id => sm1 id, ?_⟩
    · show v2.out ++ _ = s1.out ++ _
      rw [inv2.out, hm2, List.take_append_of_le_length (by simp), List.take_of_length_le (by simp), List.reverse_reverse]
    · refine up2.trans ⟨by show v2.pc + 2 = _; rw [up2.pc]; simp [length_vals]; omega, ?_, rfl, rfl, rfl⟩
      show List.drop _ _ = _
      rw [hm2, List.drop_append_of_le_length (by simp), List.drop_of_length_le (by simp)]
      rfl
  refine ⟨hE, ?_⟩
  intro s v base hf wf hh hpc inv
  have ht : (m : Int) < MIN_INSTRUCTION_CODE := by simp only [FitsE] at hf; exact hf.2.2.1
  obtain ⟨chars, rfl⟩ : ∃ chars, f = .str chars := by simp only [FitsE] at hf; exact hf.1
  have e1 : voidCode (codeE L.displs base (.printf (.str chars) args m)) = codeE L.displs base (.printf (.str chars) args m) := by
    rw [codeE, voidCode_two _ _ _ ht]
    rfl
  rw [e1] at hh
  refine (hE true s v base hf hh hpc inv).monoEq ?_
  rintro r s' v' he ⟨inv', sm, hr⟩
  refine ⟨inv', sm, ?_⟩
  cases r with
  | none => exact ⟨[], hr, fun _ => rfl⟩
  | some x =>
    rw [evalE] at he
    cases h : evalA call args s with
    | wrong => rw [h] at he; cases he
    | more o => rw [h] at he; cases he
    | ok a s1 => rw [h] at he; cases he

/-! ### All of them -/

theorem claim_nil : ClaimA C n call L b c .nil := by
  intro s v base _ _ hpc inv
  rw [evalA]
  exact Follows.end Reach.refl ⟨inv, Same.refl, hpc, rfl, rfl, rfl, rfl⟩

theorem claim_cons (e : Exp) (rest : Args) (ihe : ClaimE C n call L b c e) (ihr : ClaimA C n call L b c rest) : ClaimA C n call L b c (.cons e rest) := by
  intro s v base hf hh hpc inv
  simp only [FitsA] at hf
  rw [codeA] at hh ⊢
  obtain ⟨h1, h2⟩ := holds_append.1 hh
  rw [evalA]
  refine Follows.value (ihe false s v base hf.1 h1 hpc inv) ?_
  rintro x s1 v1 ⟨inv1, sm1, x', rep, up⟩
  rw [rep.exact] at up
  refine Follows.bind (ihr s1 v1 _ hf.2 h2 up.pc inv1) ?_
  rintro vs s2 v2 ⟨inv2, sm2, up2⟩
  rw [up.stack] at up2
  refine Follows.end Reach.refl ⟨inv2, sm1.trans sm2, ?_⟩
  have := up.trans up2
  rw [List.length_append, ← Nat.add_assoc]
  refine ⟨this.pc, by rw [this.stack]; simp, this.pend, this.size, this.frames⟩

theorem claim_not {e : Exp} (h : ∀ ok tr, ¬ FitsE ok tr e) : ClaimE C n call L b c e ∧ ClaimV C n call L b c e :=
  ⟨fun _ _ _ _ hf => absurd hf (h _ _), fun _ _ _ hf => absurd hf (h _ _)⟩

mutual
/-- The machine follows every expression of the fragment. -/
theorem claimE (ok : C.Ok) (okc : CallsOk C n call) : ∀ e : Exp, ClaimE C n call L b c e ∧ ClaimV C n call L b c e
  | .lit x => claim_lit x
  | .ident id t => claim_ident ok id t
  | .cast w e => claim_cast w e (claimE ok okc e)
  | .unary op e t => claim_unary op e t (claimE ok okc e).1
  | .binary op l r fl => claim_binary op l r fl (claimE ok okc l).1 (claimE ok okc r).1
  | .comma l r => claim_comma l r (claimE ok okc l).2 (claimE ok okc r)
  | .ternary d x y => claim_ternary d x y (claimE ok okc d).1 (claimE ok okc x).1 (claimE ok okc y)
  | .assign op l r t => claim_assign ok op l r t (claimE ok okc r).1
  | .incdec op l t => claim_incdec ok op l t
  | .call f args => claim_call okc f args (claimA ok okc args)
  | .print e t => claim_print e t (claimE ok okc e).1
  | .printf f args m => claim_printf f args m (claimA ok okc args)
  | .flit _ | .str _ | .subscript _ _ _ | .arrow _ _ _
  | .dot _ _ _ _ | .deref _ _ | .callParam _ _ | .builtin _ _
  | .both _ _ | .address _
  | .upb _ | .init _ _ _ | .funArg _ | .paramArg _
  | .initArg _ _ => claim_not (by intro ok tr; simp [FitsE])
theorem claimA (ok : C.Ok) (okc : CallsOk C n call) : ∀ as : Args, ClaimA C n call L b c as
  | .nil => claim_nil
  | .cons e rest => claim_cons e rest (claimE ok okc e).1 (claimA ok okc rest)
end

end

end RuC.Machine
