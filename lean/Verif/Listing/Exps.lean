import Verif.Listing.Lemmas
import Verif.Codegen.Exps

/-!
# Helper lemmas: the code of expressions is made of whole instructions
-/

namespace RuC.Listing
open RuC RuC.Instr RuC.Codegen
open RuC.Expr (Unary Binary)

/-! ### The pieces -/

theorem lands_lats (b : Bool) (T : Int → Prop) : Lands T (vals (latIf b)) := by
  unfold latIf
  cases b
  · exact .nil
  · exact lands_ins (show plainOp _ 0 = true by decide +kernel) T

theorem lands_load (a : LV) (T : Int → Prop) : Lands T (vals (loadCells a)) := by
  have h1 : plainOp IC_LOAD 1 = true := by decide +kernel
  have h2 : plainOp IC_LOADD 1 = true := by decide +kernel
  have h3 : plainOp IC_COPY0ST 2 = true := by decide +kernel
  have h4 : plainOp IC_COPY1ST 1 = true := by decide +kernel
  have h5 : plainOp IC_LAT 0 = true := by decide +kernel
  have h6 : plainOp IC_LATD 0 = true := by decide +kernel
  cases a with
  | var d t =>
    cases t
    case «structure» n => exact lands_ins (v := IC_COPY0ST) (l := [d, (n : Int)]) h3 T
    case floating => exact lands_ins (v := IC_LOADD) (l := [d]) h2 T
    all_goals exact lands_ins (v := IC_LOAD) (l := [d]) h1 T
  | addr t =>
    cases t
    case «structure» n => exact lands_ins (v := IC_COPY1ST) (l := [(n : Int)]) h4 T
    case array => exact .nil
    case pointer => exact .nil
    case integer => exact lands_ins (v := IC_LAT) (l := []) h5 T
    all_goals exact lands_ins (v := IC_LATD) (l := []) h6 T

theorem step_plain : ∀ (op : Unary) (fl : Bool), isStep op = true →
    plainOp (if fl then toFloating (unaryToInstruction op) else unaryToInstruction op) 1 = true ∧
      plainOp (if fl then toFloating (toAddress (unaryToInstruction op)) else toAddress (unaryToInstruction op)) 0 = true ∧
      9000 ≤ (if fl then toFloating (toAddress (unaryToInstruction op)) else toAddress (unaryToInstruction op)) := by
  intro op fl h
  cases op <;> cases fl <;> first | exact ⟨by decide +kernel, by decide +kernel, by decide +kernel⟩ | cases h

theorem assign_plain : ∀ (op : Binary) (fl : Bool), isAssign op = true →
    plainOp (if fl then toFloating (binaryToInstruction op) else binaryToInstruction op) 1 = true ∧
      plainOp (if fl then toFloating (toAddress (binaryToInstruction op)) else toAddress (binaryToInstruction op)) 0 = true ∧
      9000 ≤ (if fl then toFloating (toAddress (binaryToInstruction op)) else toAddress (binaryToInstruction op)) := by
  intro op fl h
  cases op <;> cases fl <;> first | exact ⟨by decide +kernel, by decide +kernel, by decide +kernel⟩ | cases h

theorem binary_plain (op : Binary) (fl : Bool) (h : isAssign op = false) : plainOp (binaryCell op fl) 0 = true ∧ 9000 ≤ binaryCell op fl := by
  cases op <;> cases fl <;> first | exact ⟨by decide +kernel, by decide +kernel⟩ | cases h

theorem unary_plain (op : Unary) (t : Ty) : plainOp (unaryCell op t) 0 = true ∧ 9000 ≤ unaryCell op t := by
  have h2 : ∀ b : Bool, (plainOp (if b then IC_UNMINUS else IC_UNMINUS_R) 0 = true ∧ 9000 ≤ (if b then IC_UNMINUS else IC_UNMINUS_R)) ∧
      (plainOp (if b then IC_ABSI else IC_ABS) 0 = true ∧ 9000 ≤ (if b then IC_ABSI else IC_ABS)) := by decide +kernel
  have h3 := h2 (decide (t = .integer))
  simp only [decide_eq_true_eq] at h3
  cases op <;> first | exact h3.1 | exact h3.2 | exact (show plainOp IC_NOT 0 = true ∧ 9000 ≤ IC_NOT by decide +kernel) | exact (show plainOp IC_LOG_NOT 0 = true ∧ 9000 ≤ IC_LOG_NOT by decide +kernel)

/-- An instruction without operands. -/
def Bare (v : Int) : Prop := plainOp v 0 = true ∧ 9000 ≤ v

theorem bare_ite {c : Prop} [Decidable c] {a b : Int} (ha : Bare a) (hb : Bare b) : Bare (if c then a else b) := by
  split
  · exact ha
  · exact hb

theorem builtin_plain (f : Nat) : Bare (builtinToInstruction f) := by
  unfold builtinToInstruction
  repeat' apply bare_ite
  all_goals exact ⟨by decide +kernel, by decide +kernel⟩

/-- The cells of one instruction that leads nowhere. -/
def Single (l : List Int) : Prop := ∃ v r, l = v :: r ∧ plainOp v r.length = true ∧ (r ≠ [] ∨ 9000 ≤ v)

theorem Single.lands {l : List Int} (h : Single l) (T : Int → Prop) : Lands T (vals l) := by
  obtain ⟨v, r, rfl, h1, _⟩ := h
  exact lands_ins h1 T

theorem Single.quiet {l : List Int} (h : Single l) {A : List Sym} (hA : Whole A) : Quiet (A ++ vals l) := by
  obtain ⟨v, r, rfl, h1, h2⟩ := h
  refine quiet_op (args := vals r) hA (by simpa [vals] using h1) ?_
  rcases h2 with h2 | h2
  · left; cases r <;> simp_all [vals]
  · exact .inr h2

theorem single_step {op : Unary} (h : isStep op = true) (t : Ty) (a : LV) : Single (incdecCells op t a) := by
  obtain ⟨h1, h2, h3⟩ := step_plain op (decide (t = .floating)) h
  simp only [decide_eq_true_eq] at h1 h2 h3
  cases a with
  | var d _ => exact ⟨_, [d], rfl, h1, .inl (by simp)⟩
  | addr _ => exact ⟨_, [], rfl, h2, .inr h3⟩

theorem single_assign {op : Binary} (h : isAssign op = true) (t : Ty) (a : LV) : Single (assignCells op t a) := by
  obtain ⟨h1, h2, h3⟩ := assign_plain op false h
  obtain ⟨g1, g2, g3⟩ := assign_plain op true h
  simp only [Bool.false_eq_true, if_false, if_true] at h1 h2 h3 g1 g2 g3
  cases a with
  | var d s =>
    cases t
    case «structure» n => exact ⟨_, [d, n], rfl, show plainOp _ 2 = true by decide +kernel, .inl (by simp)⟩
    case floating => exact ⟨_, [d], rfl, g1, .inl (by simp)⟩
    all_goals exact ⟨_, [d], rfl, h1, .inl (by simp)⟩
  | addr s =>
    cases t
    case «structure» n => exact ⟨_, [(n : Int)], rfl, show plainOp _ 1 = true by decide +kernel, .inl (by simp)⟩
    case floating => exact ⟨_, [], rfl, g2, .inr g3⟩
    all_goals exact ⟨_, [], rfl, h2, .inr h3⟩

/-- Several single cells. -/
theorem lands_low : ∀ {l : List Int}, (∀ c ∈ l, Low c) → ∀ T : Int → Prop, Lands T (vals l)
  | [], _, T => .nil
  | c :: l, h, T => by
    have : vals (c :: l) = vals [c] ++ vals l := rfl
    rw [this]
    exact (lands_ins (by simpa using low_plain (h c (by simp))) T).append (lands_low (fun x hx => h x (by simp [hx])) T)

theorem G.table {base n : Nat} {cells : List Int} (hn : Low n) (hc : ∀ c ∈ cells, Low c) : G Non base (tableCode base n cells) := by
  have e : tableCode base n cells = vals [IC_LI, ((base + 5 : Nat) : Int)] ++ vals [IC_B, ((base + 5 + cells.length : Nat) : Int)] ++ vals ((n : Int) :: cells) := by
    simp [tableCode, vals]
  have h3 : ∀ T : Int → Prop, Lands T (vals ((n : Int) :: cells)) := lands_low (by
    intro c hc'
    rcases List.mem_cons.1 hc' with rfl | h
    · exact hn
    · exact hc c h)
  have h1 : G (fun v => v = ((base + 5 + cells.length : Nat) : Int)) base
      (vals [IC_LI, ((base + 5 : Nat) : Int)] ++ vals [IC_B, ((base + 5 + cells.length : Nat) : Int)] ++ vals ((n : Int) :: cells)) :=
    G.tail (G.append (b := base + 2) (.of_all (lands_ins (show plainOp _ 1 = true by decide +kernel))) (.jump (by decide +kernel) rfl) rfl) h3
  rw [e]
  refine h1.close fun v hv => .inr (on_end h1.whole ?_)
  rw [hv]
  simp [vals]
  omega

/-! ### Expressions -/

theorem memberCode_G {base : Nat} {off : Int} {t : Ty} {r : List Sym × LV} (h : G Non base r.1) : G Non base (memberCode off t r).1 := by
  obtain ⟨B, a⟩ := r
  cases a with
  | var d s => exact h
  | addr s => exact h.tail (lands_vals_append (l := [IC_SELECT, off]) (lands_ins (show plainOp _ 1 = true by decide +kernel)) (lands_lats _))

theorem indirectionCode_G {base : Nat} {t : Ty} {r : List Sym × LV} (h : G Non base r.1) : G Non base (indirectionCode t r).1 := by
  obtain ⟨B, a⟩ := r
  cases a with
  | var d s => exact h.tail (lands_ins (show plainOp _ 1 = true by decide +kernel))
  | addr s => exact h

theorem lands_address (a : LV) (T : Int → Prop) : Lands T (vals (addressCells a)) := by
  cases a with
  | var d t => exact lands_ins (show plainOp _ 1 = true by decide +kernel) T
  | addr t => exact .nil

theorem single_cons {v : Int} {r : List Int} (h : plainOp v r.length = true) (hr : r ≠ [] ∨ 9000 ≤ v) : Single (v :: r) := ⟨v, r, rfl, h, hr⟩

theorem slice_lands (t : Ty) (T : Int → Prop) : Lands T (vals ([IC_SLICE, (t.size : Int)] ++ latIf (t = .array))) :=
  lands_vals_append (l := [IC_SLICE, (t.size : Int)]) (lands_ins (show plainOp _ 1 = true by decide +kernel)) (lands_lats _) T

theorem select_lands (off : Int) (b : Bool) (T : Int → Prop) : Lands T (vals ([IC_SELECT, off] ++ latIf b)) :=
  lands_vals_append (l := [IC_SELECT, off]) (lands_ins (show plainOp _ 1 = true by decide +kernel)) (lands_lats _) T

mutual

theorem codeE_G (D : Nat → Int) : ∀ (e : Exp) (base : Nat), e.Fine → G Non base (codeE D base e) ∧ (e.solid = true → Quiet (codeE D base e))
  | .lit v, base, _ =>
    have s : Single [IC_LI, v] := single_cons (show plainOp _ 1 = true by decide +kernel) (.inl (by simp))
    ⟨.of_all s.lands, fun _ => s.quiet (A := []) .nil⟩
  | .flit cells, base, h => by
    have hl : cells.length = 2 := h
    have s : Single (IC_LID :: cells) := single_cons (by rw [hl]; decide +kernel) (.inl (by rintro rfl; cases hl))
    exact ⟨.of_all s.lands, fun _ => by exact s.quiet (A := []) .nil⟩
  | .str chars, base, h => ⟨.table h.1 h.2, by simp [Exp.solid]⟩
  | .ident id t, base, _ => ⟨.of_all (lands_load _), by simp [Exp.solid]⟩
  | .subscript b i t, base, h => by
    have hb := (codeE_G D b base h.1).1
    have hi := (codeE_G D i (base + (codeE D base b).length) h.2).1
    refine ⟨?_, by simp [Exp.solid]⟩
    rw [codeE]
    exact (hb.append hi rfl).tail (lands_vals_append (slice_lands t) (lands_load _))
  | .arrow b off t, base, h => by
    refine ⟨?_, by simp [Exp.solid]⟩
    rw [codeE]
    exact (codeE_G D b base h).1.tail (lands_vals_append (select_lands off _) (lands_load _))
  | .dot b off n t, base, h => by
    rw [codeE]
    by_cases hl : b.isLvalue = true
    · rw [if_pos hl]
      exact ⟨(memberCode_G (codeL_G D b base h)).tail (lands_load _), by simp [Exp.solid, hl]⟩
    · rw [if_neg hl]
      have s : Single [IC_COPYST, off, t.size, n] := single_cons (show plainOp _ 3 = true by decide +kernel) (.inl (by simp))
      have hb := (codeE_G D b base h).1
      exact ⟨hb.tail s.lands, fun _ => s.quiet hb.whole⟩
  | .deref e t, base, h => by
    refine ⟨?_, by simp [Exp.solid]⟩
    rw [codeE]
    exact (indirectionCode_G (codeL_G D e base h)).tail (lands_load _)
  | .call f args, base, h => by
    rw [codeE]
    have h1 : G Non base (vals [IC_CALL1] ++ codeA D (base + 1) args) :=
      G.append (.of_all (lands_ins (show plainOp _ 0 = true by decide +kernel))) (codeA_G D args (base + 1) h) rfl
    have hp : plainOp IC_CALL2 [Sym.fn f].length = true := show plainOp _ 1 = true by decide +kernel
    exact ⟨h1.tail fun T => lands_op hp, fun _ => quiet_op h1.whole hp (.inl (by simp))⟩
  | .callParam p args, base, h => by
    rw [codeE]
    have h1 : G Non base (vals [IC_CALL1] ++ codeA D (base + 1) args) :=
      G.append (.of_all (lands_ins (show plainOp _ 0 = true by decide +kernel))) (codeA_G D args (base + 1) h) rfl
    have s : Single [IC_CALL2, D p] := single_cons (show plainOp _ 1 = true by decide +kernel) (.inl (by simp))
    exact ⟨h1.tail s.lands, fun _ => s.quiet h1.whole⟩
  | .builtin f args, base, h => by
    rw [codeE]
    have s : Single [builtinToInstruction f] := single_cons (builtin_plain f).1 (.inr (builtin_plain f).2)
    have h1 := codeA_G D args base h
    exact ⟨h1.tail s.lands, fun _ => s.quiet h1.whole⟩
  | .printf fmt args n, base, h => by
    rw [codeE]
    have s : Single [IC_PRINTF, (n : Int)] := single_cons (show plainOp _ 1 = true by decide +kernel) (.inl (by simp))
    have h1 := (codeA_G D args base h.2).append (codeE_G D fmt (base + (codeA D base args).length) h.1).1 rfl
    exact ⟨h1.tail s.lands, fun _ => s.quiet h1.whole⟩
  | .print e t, base, h => by
    rw [codeE]
    have s : Single [IC_PRINT, t] := single_cons (show plainOp _ 1 = true by decide +kernel) (.inl (by simp))
    have h1 := (codeE_G D e base h).1
    exact ⟨h1.tail s.lands, fun _ => s.quiet h1.whole⟩
  | .both a b, base, h => by
    rw [codeE]
    have ha := (codeE_G D a base h.1).1
    have hb := codeE_G D b (base + (codeE D base a).length) h.2
    exact ⟨ha.append hb.1 rfl, fun hs => (hb.2 hs).left ha.whole⟩
  | .cast w e, base, h => by
    rw [codeE]
    have he := codeE_G D e base h
    cases w with
    | false => simpa [vals, Exp.solid] using he
    | true =>
      have s : Single [IC_WIDEN] := single_cons (show plainOp _ 0 = true by decide +kernel) (.inr (by decide +kernel))
      exact ⟨he.1.tail s.lands, fun _ => s.quiet he.1.whole⟩
  | .incdec op e t, base, h => by
    rw [codeE]
    have h1 := codeL_G D e base h.2
    have s := single_step h.1 t (codeL D base e).2
    exact ⟨h1.tail s.lands, fun _ => s.quiet h1.whole⟩
  | .address e, base, h => by
    refine ⟨?_, by simp [Exp.solid]⟩
    rw [codeE]
    exact (codeL_G D e base h).tail (lands_address _)
  | .unary op e t, base, h => by
    rw [codeE]
    have h1 := (codeE_G D e base h).1
    have s : Single [unaryCell op t] := single_cons (unary_plain op t).1 (.inr (unary_plain op t).2)
    exact ⟨h1.tail s.lands, fun _ => s.quiet h1.whole⟩
  | .upb e, base, h => by
    rw [codeE]
    have h1 : G Non base (vals [IC_LI, 0] ++ codeE D (base + 2) e) :=
      G.append (.of_all (lands_ins (show plainOp _ 1 = true by decide +kernel))) (codeE_G D e (base + 2) h).1 rfl
    have s : Single [IC_UPB] := single_cons (show plainOp _ 0 = true by decide +kernel) (.inr (by decide +kernel))
    exact ⟨h1.tail s.lands, fun _ => s.quiet h1.whole⟩
  | .binary op l r fl, base, h => by
    have hl := (codeE_G D l base h.2.1).1
    have s : Single [binaryCell op fl] := single_cons (binary_plain op fl h.1).1 (.inr (binary_plain op fl h.1).2)
    rw [codeE]
    by_cases ho : op = .logAnd ∨ op = .logOr
    · rw [if_pos ho]
      show G Non base (codeE D base l ++ vals [IC_DUPLICATE, (if op = .logAnd then IC_BE0 else IC_BNE0),
          ((base + (codeE D base l).length + 3 + (codeE D (base + (codeE D base l).length + 3) r).length + 1 : Nat) : Int)] ++
          codeE D (base + (codeE D base l).length + 3) r ++ vals [binaryCell op fl]) ∧ (_ → Quiet (codeE D base l ++ vals [IC_DUPLICATE, (if op = .logAnd then IC_BE0 else IC_BNE0),
          ((base + (codeE D base l).length + 3 + (codeE D (base + (codeE D base l).length + 3) r).length + 1 : Nat) : Int)] ++
          codeE D (base + (codeE D base l).length + 3) r ++ vals [binaryCell op fl]))
      have hr := (codeE_G D r (base + (codeE D base l).length + 3) h.2.2).1
      have hj : isJump (if op = .logAnd then IC_BE0 else IC_BNE0) = true := by split <;> decide +kernel
      generalize hd : ((base + (codeE D base l).length + 3 + (codeE D (base + (codeE D base l).length + 3) r).length + 1 : Nat) : Int) = d
      generalize (if op = Binary.logAnd then IC_BE0 else IC_BNE0) = j at hj ⊢
      have e3 : vals [IC_DUPLICATE, j, d] = vals [IC_DUPLICATE] ++ vals [j, d] := rfl
      have h3 : G (fun v => v = d) (base + (codeE D base l).length) (vals [IC_DUPLICATE, j, d]) := by
        rw [e3]
        exact G.append (.of_all (lands_ins (show plainOp _ 0 = true by decide +kernel))) (.jump hj rfl) rfl
      have h1 : G (fun v => v = d) base (codeE D base l ++ vals [IC_DUPLICATE, j, d] ++ codeE D (base + (codeE D base l).length + 3) r) :=
        G.append (G.append hl.of_non h3 rfl) hr.of_non (by simp [vals]; omega)
      have h2 := h1.tail s.lands
      refine ⟨h2.close fun v hv => .inr (on_end h2.whole ?_), fun _ => s.quiet h1.whole⟩
      rw [hv, ← hd]
      simp [vals]
      omega
    · rw [if_neg ho]
      have h1 := hl.append (codeE_G D r (base + (codeE D base l).length) h.2.2).1 rfl
      exact ⟨h1.tail s.lands, fun _ => s.quiet h1.whole⟩
  | .comma l r, base, h => by
    rw [codeE]
    have hA : G Non base (if l.isLvalue then (codeL D base l).1 else voidCode (codeE D base l)) := by
      by_cases hl : l.isLvalue = true
      · rw [if_pos hl]; exact codeL_G D l base h.1
      · rw [if_neg hl]
        have he := codeE_G D l base h.1
        have hq := he.2 (h.2.2.resolve_left hl)
        exact he.1.void hq
    generalize (if l.isLvalue then (codeL D base l).1 else voidCode (codeE D base l)) = A at hA ⊢
    have hr := codeE_G D r (base + A.length) h.2.1
    exact ⟨hA.append hr.1 rfl, fun hs => (hr.2 hs).left hA.whole⟩
  | .ternary c a b, base, h => by
    rw [codeE]
    generalize hC : codeE D base c = C
    generalize hA : codeE D (base + C.length + 2) a = A
    generalize hB : codeE D (base + C.length + 2 + A.length + 2) b = B
    generalize hd1 : ((base + C.length + 2 + A.length + 2 : Nat) : Int) = d1
    generalize hd2 : ((base + C.length + 2 + A.length + 2 + B.length : Nat) : Int) = d2
    have h1 := (codeE_G D c base h.1).1
    have h2 := (codeE_G D a (base + C.length + 2) h.2.1).1
    have h3 := codeE_G D b (base + C.length + 2 + A.length + 2) h.2.2
    rw [hC] at h1; rw [hA] at h2; rw [hB] at h3
    have g : G (fun v => v = d1 ∨ v = d2) base (C ++ vals [IC_BE0, d1] ++ A ++ vals [IC_B, d2] ++ B) := by
      refine G.append (G.append (G.append (G.append h1.of_non (.jump (by decide +kernel) (.inl rfl)) rfl) h2.of_non ?_) (.jump (by decide +kernel) (.inr rfl)) rfl) h3.1.of_non ?_
      · simp [vals]; omega
      · simp [vals]; omega
    have g0 : Whole (C ++ vals [IC_BE0, d1] ++ A ++ vals [IC_B, d2]) :=
      ((h1.whole.append (G.jump (T := fun _ => True) (base := 0) (by decide +kernel) trivial).whole).append h2.whole).append
        (G.jump (T := fun _ => True) (base := 0) (by decide +kernel) trivial).whole
    refine ⟨g.close fun v hv => .inr ?_, fun hs => (h3.2 hs).left g0⟩
    rcases hv with hv | hv
    · refine on_split g0 h3.1.whole ?_
      rw [hv, ← hd1]; simp [vals]; omega
    · refine on_end g.whole ?_
      rw [hv, ← hd2]; simp [vals]; omega
  | .assign op l r t, base, h => by
    rw [codeE]
    have h1 := (codeL_G D l base h.2.1).append (codeE_G D r (base + (codeL D base l).1.length) h.2.2).1 rfl
    have s := single_assign h.1 t (codeL D base l).2
    exact ⟨h1.tail s.lands, fun _ => s.quiet h1.whole⟩
  | .init array n items, base, h => by
    refine ⟨?_, by simp [Exp.solid]⟩
    rw [codeE]
    refine G.append ?_ (codeA_G D items _ h) rfl
    cases array
    · exact .nil
    · exact .of_all (lands_ins (show plainOp _ 1 = true by decide +kernel))
  | .funArg f, base, _ => by
    rw [codeE]
    exact ⟨.of_all fun T => .one (by rfl) (by intro y hy; cases hy), fun _ => ⟨[], .fnOp f, [.fnArg f], rfl, .nil, .inr ⟨⟨f, rfl⟩, rfl⟩⟩⟩
  | .paramArg p, base, _ => by
    rw [codeE]
    have s : Single [(if D p ≥ 0 then IC_LI else IC_LOAD), ((D p).natAbs : Int)] :=
      single_cons (show plainOp _ 1 = true by split <;> decide +kernel) (.inl (by simp))
    exact ⟨.of_all s.lands, fun _ => by exact s.quiet (A := []) .nil⟩
  | .initArg n cells, base, h => ⟨.table h.1 h.2, by simp [Exp.solid]⟩

theorem codeL_G (D : Nat → Int) : ∀ (e : Exp) (base : Nat), e.Fine → G Non base (codeL D base e).1
  | .ident id t, base, _ => .nil
  | .subscript b i t, base, h => by
    rw [codeL]
    exact ((codeE_G D b base h.1).1.append (codeE_G D i (base + (codeE D base b).length) h.2).1 rfl).tail (slice_lands t)
  | .arrow b off t, base, h => by
    rw [codeL]
    exact (codeE_G D b base h).1.tail (select_lands off _)
  | .dot b off n t, base, h => by rw [codeL]; exact memberCode_G (codeL_G D b base h)
  | .deref e t, base, h => by rw [codeL]; exact indirectionCode_G (codeL_G D e base h)
  | .incdec _ e t, base, h => by rw [codeL]; exact indirectionCode_G (codeL_G D e base h.2)
  | .unary _ e t, base, h => by rw [codeL]; exact indirectionCode_G (codeL_G D e base h)
  | .address e, base, h => by rw [codeL]; exact indirectionCode_G (codeL_G D e base h)
  | .upb e, base, h => by rw [codeL]; exact indirectionCode_G (codeL_G D e base h)
  | .lit _, _, _ | .flit _, _, _ | .str _, _, _ | .call _ _, _, _ | .callParam _ _, _, _ | .builtin _ _, _, _ | .printf _ _ _, _, _ | .print _ _, _, _
  | .both _ _, _, _ | .cast _ _, _, _ | .binary _ _ _ _, _, _ | .comma _ _, _, _ | .ternary _ _ _, _, _ | .assign _ _ _ _, _, _ | .init _ _ _, _, _
  | .funArg _, _, _ | .paramArg _, _, _ | .initArg _ _, _, _ => .nil

theorem codeA_G (D : Nat → Int) : ∀ (as : Args) (base : Nat), as.Fine → G Non base (codeA D base as)
  | .nil, base, _ => .nil
  | .cons e rest, base, h => by
    rw [codeA]
    exact (codeE_G D e base h.1).1.append (codeA_G D rest _ h.2) rfl

end

end RuC.Listing
