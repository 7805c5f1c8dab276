import Verif.Machine.Held

/-!
The machine follows the evaluation of expressions.
-/

namespace RuC.Machine

open RuC RuC.Codegen RuC.Instr
open RuC.Expr (Unary Binary)

section
variable {C : Ctx} {n : Nat} {call : Calls} {L : Layout} {b c : Int}

/-- The code of `e` computes its value. -/
def ClaimE (C : Ctx) (n : Nat) (call : Calls) (L : Layout) (b c : Int) (e : Exp) : Prop :=
  ∀ tr s v base, FitsE (okId C L) tr e → Holds C b c base (codeE L.displs base e) → v.pc = base → Inv C L s v →
    Follows C n v (AtValue C L tr v (base + (codeE L.displs base e).length) v.stack s) (evalE call e s)

/-- The code of the statement `e` has its effects. -/
def ClaimV (C : Ctx) (n : Nat) (call : Calls) (L : Layout) (b c : Int) (e : Exp) : Prop :=
  ∀ s v base, FitsE (okId C L) true e → e.Wf → Holds C b c base (voidCode (codeE L.displs base e)) → v.pc = base → Inv C L s v →
    Follows C n v (AtVoid C L (Exp.Quiet e ∧ e.isLvalue = false) v (base + (codeE L.displs base e).length) v.stack s) (evalE call e s)

/-- The code of arguments pushes their values. -/
def ClaimA (C : Ctx) (n : Nat) (call : Calls) (L : Layout) (b c : Int) (as : Args) : Prop :=
  ∀ s v base, FitsA (okId C L) as → Holds C b c base (codeA L.displs base as) → v.pc = base → Inv C L s v →
    Follows C n v (AtValues C L v (base + (codeA L.displs base as).length) v.stack s) (evalA call as s)

theorem follows_done {α} {P : α → Src → State → Prop} {v v' : State} {a : α} {s : Src} (h : step C.M v = some v') (hp : P a s v') :
    Follows C n v P (.ok a s) := ⟨v', (reach_step h).weaken (Nat.zero_le _), hp⟩

theorem reach1 {M : Load} {v v' : State} (h : step M v = some v') : Reach M 0 v v' := (reach_step h).weaken (Nat.zero_le _)

/-! ### Steps -/

theorem step_li {M : Load} {v : State} {x : Int} (h0 : M.code[v.pc]? = some IC_LI) (h1 : M.code[v.pc + 1]? = some x) :
    step M v = some { v with pc := v.pc + 2, stack := x :: v.stack } := by rw [step_at h0, h1]; rfl

theorem step_load {M : Load} {v : State} {d x : Int} (h0 : M.code[v.pc]? = some IC_LOAD) (h1 : M.code[v.pc + 1]? = some d) (hg : v.get M d = some x) :
    step M v = some { v with pc := v.pc + 2, stack := x :: v.stack } := by
  rw [step_at h0, h1]
  show (v.get M d).bind _ = _
  rw [hg]; rfl

theorem step_dup {M : Load} {v : State} {x : Int} {k} (h0 : M.code[v.pc]? = some IC_DUPLICATE) (hs : v.stack = x :: k) :
    step M v = some { v with pc := v.pc + 1, stack := x :: x :: k } := by
  rw [step_at h0]
  show (match v.stack with | x :: k => _ | [] => _) = _
  rw [hs]

theorem step_be0 {M : Load} {v : State} {x a : Int} {k} (h0 : M.code[v.pc]? = some IC_BE0) (h1 : M.code[v.pc + 1]? = some a) (hs : v.stack = x :: k) :
    step M v = some { v with pc := if x = 0 then a.toNat else v.pc + 2, stack := k } := by
  rw [step_at h0, h1]
  show (match v.stack with | x :: k => _ | [] => _) = _
  rw [hs]

theorem step_bne0 {M : Load} {v : State} {x a : Int} {k} (h0 : M.code[v.pc]? = some IC_BNE0) (h1 : M.code[v.pc + 1]? = some a) (hs : v.stack = x :: k) :
    step M v = some { v with pc := if x ≠ 0 then a.toNat else v.pc + 2, stack := k } := by
  rw [step_at h0, h1]
  show (match v.stack with | x :: k => _ | [] => _) = _
  rw [hs]

theorem step_jump {M : Load} {v : State} {a : Int} (h0 : M.code[v.pc]? = some IC_B) (h1 : M.code[v.pc + 1]? = some a) :
    step M v = some { v with pc := a.toNat } := by rw [step_at h0, h1]; rfl

theorem step_binary {M : Load} {v : State} {i x y w : Int} {f k} (h0 : M.code[v.pc]? = some i) (hd : decode i = .binary f)
    (hs : v.stack = y :: x :: k) (hf : f x y = some w) : step M v = some { v with pc := v.pc + 1, stack := w :: k } := by
  rw [step_at h0, hd]
  show (match v.stack with | b :: a :: k => (f a b).bind fun v_1 => _ | _ => none) = _
  rw [hs]
  show (f x y).bind _ = _
  rw [hf]; rfl

theorem step_unary {M : Load} {v : State} {i x w : Int} {f k} (h0 : M.code[v.pc]? = some i) (hd : decode i = .unary f)
    (hs : v.stack = x :: k) (hf : f x = some w) : step M v = some { v with pc := v.pc + 1, stack := w :: k } := by
  rw [step_at h0, hd]
  show (match v.stack with | a :: k => (f a).bind fun v_1 => _ | [] => none) = _
  rw [hs]
  show (f x).bind _ = _
  rw [hf]; rfl

theorem step_assign {M : Load} {v v1 : State} {i x d : Int} {void k} (h0 : M.code[v.pc]? = some i) (hd : decode i = .assign void)
    (h1 : M.code[v.pc + 1]? = some d) (hs : v.stack = x :: k) (hset : v.set M d x = some v1) :
    step M v = some { v1 with pc := v.pc + 2, stack := if void then k else x :: k } := by
  rw [step_at h0, hd, h1]
  show (match v.stack with | x :: k => (v.set M d x).bind fun s' => _ | [] => none) = _
  rw [hs]
  show (v.set M d x).bind _ = _
  rw [hset]; rfl

theorem step_update {M : Load} {v v1 : State} {i x a w d : Int} {f void k} (h0 : M.code[v.pc]? = some i) (hd : decode i = .update f void)
    (h1 : M.code[v.pc + 1]? = some d) (hs : v.stack = x :: k) (hget : v.get M d = some a) (hf : f a x = some w) (hset : v.set M d w = some v1) :
    step M v = some { v1 with pc := v.pc + 2, stack := if void then k else w :: k } := by
  rw [step_at h0, hd, h1]
  show (match v.stack with | x :: k => (v.get M d).bind fun a => _ | [] => none) = _
  rw [hs]
  show (v.get M d).bind _ = _
  rw [hget]
  show (f a x).bind _ = _
  rw [hf]
  show (v.set M d w).bind _ = _
  rw [hset]; rfl

theorem step_step {M : Load} {v v1 : State} {i by_ a w d : Int} {post void} (h0 : M.code[v.pc]? = some i) (hd : decode i = .step by_ post void)
    (h1 : M.code[v.pc + 1]? = some d) (hget : v.get M d = some a) (hf : fit (a + by_) = some w) (hset : v.set M d w = some v1) :
    step M v = some { v1 with pc := v.pc + 2, stack := if void then v.stack else (if post then a else w) :: v.stack } := by
  rw [step_at h0, hd, h1]
  show (v.get M d).bind _ = _
  rw [hget]
  show (fit (a + by_)).bind _ = _
  rw [hf]
  show (v.set M d w).bind _ = _
  rw [hset]; rfl

theorem step_call1 {M : Load} {v : State} (h0 : M.code[v.pc]? = some IC_CALL1) :
    step M v = some { v with pc := v.pc + 1, stack := [], pend := v.stack :: v.pend } := by rw [step_at h0]; rfl

theorem step_print {M : Load} {v : State} {t x : Int} {k} (h0 : M.code[v.pc]? = some IC_PRINT) (h1 : M.code[v.pc + 1]? = some t) (hs : v.stack = x :: k) :
    step M v = some { v with pc := v.pc + 2, stack := k, out := v.out ++ [.print t x] } := by
  rw [step_at h0, h1]
  show (match v.stack with | x :: k => _ | [] => _) = _
  rw [hs]

theorem step_printf {M : Load} {v : State} {m a : Int} {k f} (h0 : M.code[v.pc]? = some IC_PRINTF) (h1 : M.code[v.pc + 1]? = some m) (hs : v.stack = a :: k)
    (hf : stringAt M a = some f) (hm : 0 ≤ m ∧ m.toNat ≤ k.length) :
    step M v = some { v with pc := v.pc + 2, stack := k.drop m.toNat, out := v.out ++ [.printf f (k.take m.toNat).reverse] } := by
  rw [step_at h0, h1]
  show (match v.stack with | x :: k => (stringAt M x).bind fun f => _ | [] => _) = _
  rw [hs]
  show (stringAt M a).bind _ = _
  rw [hf]
  show (if _ then _ else _) = _
  rw [if_pos hm]

/-! ### Void code -/

theorem voidCode_append {A B : List Sym} (h : Starts B) : voidCode (A ++ B) = A ++ voidCode B := by
  have hB : B ≠ [] := h.ne
  have e : B = B.dropLast ++ [B.getLast hB] := (List.dropLast_concat_getLast hB).symm
  generalize B.dropLast = B0 at e
  generalize B.getLast hB = x at e
  subst e
  unfold voidCode
  simp only [List.reverse_append, List.reverse_cons, List.reverse_nil, List.nil_append, List.singleton_append, List.cons_append]
  cases x
  case val w =>
    simp only
    by_cases hw : w < MIN_INSTRUCTION_CODE
    · rw [if_pos hw, if_pos hw]
      cases hr : B0.reverse with
      | nil =>
        have : B0 = [] := by simpa using congrArg List.reverse hr
        subst this
        have h' : MIN_INSTRUCTION_CODE ≤ w := h
        omega
      | cons y t =>
        cases y <;> simp [voidHead]
    · rw [if_neg hw, if_neg hw]; simp
  all_goals simp

theorem voidCode_two (A : List Sym) (i d : Int) (hd : d < MIN_INSTRUCTION_CODE) : voidCode (A ++ vals [i, d]) = A ++ vals [toVoid i, d] := by
  simp [voidCode, vals, hd, voidHead]

theorem voidCode_one (A : List Sym) (i : Int) (hd : MIN_INSTRUCTION_CODE ≤ i) : voidCode (A ++ vals [i]) = A ++ vals [toVoid i] := by
  have : ¬ i < MIN_INSTRUCTION_CODE := by omega
  simp [voidCode, vals, this]

theorem voidCode_fn (A : List Sym) (f : Nat) : voidCode (A ++ [.fn f]) = A ++ [.fn f] := by simp [voidCode]

/-- When the code is not changed, the value is left. -/
theorem ClaimE.void {e : Exp} (h : ClaimE C n call L b c e) (hv : ∀ base, voidCode (codeE L.displs base e) = codeE L.displs base e) (hq : Exp.Quiet e → ∀ s x s', evalE call e s ≠ .ok (some x) s') :
    ClaimV C n call L b c e := by
  intro s v base hf _ hh hpc inv
  rw [hv] at hh
  refine (h true s v base hf hh hpc inv).monoEq ?_
  rintro r s' v' he ⟨inv', sm, hr⟩
  refine ⟨inv', sm, ?_⟩
  cases r with
  | none => exact ⟨[], hr, fun _ => rfl⟩
  | some x =>
    obtain ⟨x', _, up⟩ := hr
    exact ⟨[x'], up, fun h => by rcases h with ⟨h, _⟩ | h; exact absurd he (hq h _ _ _); cases h⟩

/-! ### The expressions -/

theorem claim_lit (x : Int) : ClaimE C n call L b c (.lit x) ∧ ClaimV C n call L b c (.lit x) := by
  constructor
  · intro tr s v base _ hh hpc inv
    subst hpc
    obtain ⟨h0, h1⟩ := holds_two hh
    exact follows_done (step_li h0 h1) ⟨inv.congr rfl rfl rfl rfl, Same.refl, x, Rep.refl, ⟨rfl, rfl, rfl, rfl, rfl⟩⟩
  · intro s v base _ _ hh hpc inv
    subst hpc
    have : ∃ y, voidCode (codeE L.displs v.pc (.lit x)) = vals [IC_LI, y] := by
      by_cases hx : x < MIN_INSTRUCTION_CODE
      · exact ⟨x, voidCode_two [] IC_LI x hx⟩
      · exact ⟨_, voidCode_one (vals [IC_LI]) x (by omega)⟩
    obtain ⟨y, hy⟩ := this
    rw [hy] at hh
    obtain ⟨h0, h1⟩ := holds_two hh
    exact follows_done (step_li h0 h1) ⟨inv.congr rfl rfl rfl rfl, Same.refl, [y], ⟨rfl, rfl, rfl, rfl, rfl⟩, fun h => by
      rcases h with ⟨h, _⟩ | h
      · exact h.elim
      · cases h⟩

theorem load_scalar {t : Ty} (h : Scalar t) (d : Int) : loadCells (.var d t) = [IC_LOAD, d] := by
  rcases h with rfl | rfl <;> rfl

theorem claim_ident (ok : C.Ok) (id : Nat) (t : Ty) : ClaimE C n call L b c (.ident id t) ∧ ClaimV C n call L b c (.ident id t) := by
  have key : ∀ (s : Src) (v : State), okId C L id → C.M.code[v.pc]? = some IC_LOAD → C.M.code[v.pc + 1]? = some (L.displs id) → Inv C L s v →
      ∀ tr, Follows C n v (AtValue C L tr v (v.pc + 2) v.stack s) (evalE call (.ident id t) s) := by
    intro s v hid h0 h1 inv tr
    rw [evalE]
    cases hx : s.var id with
    | none => trivial
    | some o =>
      cases o with
      | none => trivial
      | some x =>
        exact follows_done (step_load h0 h1 (get_var ok inv hid hx)) ⟨inv.congr rfl rfl rfl rfl, Same.refl, x, Rep.refl, ⟨rfl, rfl, rfl, rfl, rfl⟩⟩
  constructor
  · intro tr s v base hf hh hpc inv
    subst hpc
    rw [codeE, load_scalar hf.2] at hh ⊢
    obtain ⟨h0, h1⟩ := holds_two hh
    exact key s v hf.1 h0 h1 inv tr
  · intro s v base hf _ hh hpc inv
    subst hpc
    rw [codeE, load_scalar hf.2] at hh ⊢
    have e : voidCode (vals [IC_LOAD, L.displs id]) = vals [IC_LOAD, L.displs id] := voidCode_two [] IC_LOAD _ hf.1.2
    rw [e] at hh
    obtain ⟨h0, h1⟩ := holds_two hh
    refine (key s v hf.1 h0 h1 inv true).mono ?_
    rintro r s' v' ⟨inv', sm, hr⟩
    refine ⟨inv', sm, ?_⟩
    cases r with
    | none => exact ⟨[], hr, fun _ => rfl⟩
    | some x =>
      obtain ⟨x', _, up⟩ := hr
      exact ⟨[x'], up, fun h => by
        rcases h with ⟨_, h⟩ | h
        · cases h
        · cases h⟩

theorem claim_cast (w : Bool) (e : Exp) (ih : ClaimE C n call L b c e ∧ ClaimV C n call L b c e) :
    ClaimE C n call L b c (.cast w e) ∧ ClaimV C n call L b c (.cast w e) := by
  have hc : ∀ base, w = false → codeE L.displs base (.cast w e) = codeE L.displs base e := by
    intro base hw; subst hw; simp [codeE, vals]
  constructor
  · intro tr s v base hf hh hpc inv
    obtain ⟨hw, hf⟩ := hf
    rw [hc base hw] at hh ⊢
    subst hw
    exact ih.1 tr s v base hf hh hpc inv
  · intro s v base hf wf hh hpc inv
    obtain ⟨hw, hf⟩ := hf
    rw [hc base hw] at hh ⊢
    subst hw
    refine (ih.2 s v base hf wf hh hpc inv).mono ?_
    rintro r s' v' ⟨inv', sm, junk, up, hj⟩
    refine ⟨inv', sm, junk, up, fun h => hj ?_⟩
    rcases h with ⟨h, _⟩ | h
    · left
      cases e <;> first | exact ⟨h, rfl⟩ | exact h.elim
    · exact .inr h

theorem unary_ge_cell (op t) : MIN_INSTRUCTION_CODE ≤ unaryCell op t := by
  unfold unaryCell
  cases op <;> simp only <;> (try split) <;> decide

theorem toVoid_unaryCell (op t) : toVoid (unaryCell op t) = unaryCell op t := by
  unfold unaryCell
  cases op <;> simp only <;> (try split) <;> decide

theorem claim_unary (op : Unary) (e : Exp) (t : Ty) (ih : ClaimE C n call L b c e) :
    ClaimE C n call L b c (.unary op e t) ∧ ClaimV C n call L b c (.unary op e t) := by
  have hE : ClaimE C n call L b c (.unary op e t) := by
    intro tr s v base hf hh hpc inv
    obtain ⟨ht, hf⟩ := hf
    rw [codeE] at hh ⊢
    rw [evalE]
    obtain ⟨h1, h2⟩ := holds_append.1 hh
    refine Follows.value (ih _ s v base hf h1 hpc inv) ?_
    rintro x s1 v1 ⟨inv1, sm1, x', rep, up⟩
    cases hx : arith1 op x with
    | none => trivial
    | some w =>
      have hx' : arith1 op x' = some w := by
        by_cases ho : op = .logNot
        · subst ho
          have := rep.zero
          simp only [arith1, this]
          exact hx
        · rw [decide_eq_false ho] at rep
          rw [rep.exact]; exact hx
      obtain ⟨f, hd, hfw⟩ := decode_unary ht hx'
      have h0 := holds_one h2
      rw [← up.pc] at h0
      refine follows_done (step_unary h0 hd up.stack hfw) ⟨inv1.congr rfl rfl rfl rfl, sm1, w, Rep.refl, ?_⟩
      exact up.trans ⟨by rw [up.pc]; simp [length_vals]; omega, rfl, rfl, rfl, rfl⟩
  refine ⟨hE, hE.void (fun base => ?_) (fun h => h.elim)⟩
  rw [codeE, voidCode_one _ _ (unary_ge_cell op t), toVoid_unaryCell]

theorem fits_lvalue {ok : Nat → Prop} {tr : Bool} {e : Exp} (h : FitsE ok tr e) (hl : e.isLvalue = true) : ∃ id t, e = .ident id t := by
  cases e <;> first
    | exact ⟨_, _, rfl⟩
    | (cases hl; done)
    | (simp [FitsE] at h; done)

theorem toVoid_binary {op : Binary} (h1 : op ≠ .assign) (h2 : compound op = none) : toVoid (binaryToInstruction op) = binaryToInstruction op := by
  cases op <;> first
    | exact absurd rfl h1
    | (cases h2; done)
    | decide

/-- An expression that is 0 or 1. -/
theorem logical_value : ∀ (e : Exp) (s s' : Src) (x : Int), Exp.Logical e → evalE call e s = .ok (some x) s' → x = 0 ∨ x = 1
  | .lit v, s, s', x, h, he => by
    rw [evalE] at he; cases he; exact h
  | .cast false e, s, s', x, h, he => by
    rw [evalE] at he; exact logical_value e s s' x h he
  | .cast true e, s, s', x, h, he => by
    rw [evalE] at he
    · cases he
    all_goals (intros; simp_all)
  | .unary op e _, s, s', x, h, he => by
    have h : op = .logNot := h
    subst h
    rw [evalE] at he
    cases hr : evalE call e s with
    | more o => rw [hr] at he; cases he
    | wrong => rw [hr] at he; cases he
    | ok a s1 =>
      rw [hr] at he
      cases a with
      | none => cases he
      | some a =>
        simp only [Res.value, Res.bind, arith1] at he
        cases he
        split <;> simp
  | .binary op l r _, s, s', x, h, he => by
    rw [evalE] at he
    cases hl : evalE call l s with
    | more o => rw [hl] at he; cases he
    | wrong => rw [hl] at he; cases he
    | ok a s1 =>
      rw [hl] at he
      cases a with
      | none => cases he
      | some a =>
        simp only [Res.value, Res.bind] at he
        split at he
        · cases he; simp
        · split at he
          · cases he; simp
          · cases hr : evalE call r s1 with
            | more o => rw [hr] at he; cases he
            | wrong => rw [hr] at he; cases he
            | ok b s2 =>
              rw [hr] at he
              cases b with
              | none => cases he
              | some b =>
                simp only at he
                split at he
                · cases he; split <;> simp
                · simp only [Exp.Logical, List.mem_cons, List.not_mem_nil, or_false] at h
                  rcases h with rfl | rfl | rfl | rfl | rfl | rfl | rfl | rfl <;> simp only [arith] at he
                  all_goals first
                    | (cases he; done)
                    | (cases he; split <;> simp)
  | .comma l r, s, s', x, h, he => by
    rw [evalE] at he
    cases hl : evalE call l s with
    | more o => rw [hl] at he; cases he
    | wrong => rw [hl] at he; cases he
    | ok a s1 => rw [hl] at he; exact logical_value r s1 s' x h he
  | .ternary d l r, s, s', x, h, he => by
    rw [evalE] at he
    cases hl : evalE call d s with
    | more o => rw [hl] at he; cases he
    | wrong => rw [hl] at he; cases he
    | ok a s1 =>
      rw [hl] at he
      cases a with
      | none => cases he
      | some a =>
        simp only [Res.value, Res.bind] at he
        split at he
        · exact logical_value l s1 s' x h.1 he
        · exact logical_value r s1 s' x h.2 he
  | .flit _, _, _, _, h, _ | .str _, _, _, _, h, _ | .ident _ _, _, _, _, h, _ | .subscript _ _ _, _, _, _, h, _ | .arrow _ _ _, _, _, _, h, _
  | .dot _ _ _ _, _, _, _, h, _ | .deref _ _, _, _, _, h, _ | .call _ _, _, _, _, h, _ | .callParam _ _, _, _, _, h, _ | .builtin _ _, _, _, _, h, _
  | .printf _ _ _, _, _, _, h, _ | .print _ _, _, _, _, h, _ | .both _ _, _, _, _, h, _ | .incdec _ _ _, _, _, _, h, _ | .address _, _, _, _, h, _
  | .upb _, _, _, _, h, _ | .assign _ _ _ _, _, _, _, h, _ | .init _ _ _, _, _, _, h, _ | .funArg _, _, _, _, h, _ | .paramArg _, _, _, _, h, _
  | .initArg _ _, _, _, _, h, _ => h.elim

end

end RuC.Machine
