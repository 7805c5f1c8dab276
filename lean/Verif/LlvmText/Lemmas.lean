import Verif.LlvmText.Words

/-! Helper lemmas: the words of the instructions, and how they are read. -/

set_option linter.unusedSimpArgs false

namespace RuC.LlvmText
open RuC RuC.Llvm RuC.Locator RuC.Listing

/-! ## The words of the formats -/

theorem lit0 : words (codes "i8* getelementptr inbounds ([") = [.kw .i8, .star, .kw .getelementptr, .kw .inbounds, .lpar, .lbr] := by decide +kernel
theorem lit1 : words (codes " x i8], [") = [.kw .x, .kw .i8, .rbr, .comma, .lbr] := by decide +kernel
theorem lit2 : words (codes " x i8]* ") = [.kw .x, .kw .i8, .rbr, .star] := by decide +kernel
theorem lit3 : words (codes ", i32 0, i32 0)") = [.comma, .kw .i32, .int 0, .comma, .kw .i32, .int 0, .rpar] := by decide +kernel
theorem lit4 : words (codes ")\n") = [.rpar] := by decide +kernel
theorem lit5 : words (codes ", ") = [.comma] := by decide +kernel
theorem lit6 : words (codes " ]\n") = [.rbr] := by decide +kernel
theorem lit7 : words (codes "  i32 ") = [.kw .i32] := by decide +kernel
theorem lit8 : words (codes ", label ") = [.comma, .kw .label] := by decide +kernel
theorem lit9 : words (codes "\n") = [] := by decide +kernel
theorem lit10 : words (codes " ") = [] := by decide +kernel
theorem lit11 : words (codes " = ") = [.eq] := by decide +kernel
theorem lit12 : words (codes "i32 ") = [.kw .i32] := by decide +kernel
theorem lit13 : words (codes "i1 ") = [.kw .i1] := by decide +kernel
theorem lit14 : words (codes " = call ") = [.eq, .kw .call] := by decide +kernel
theorem lit15 : words (codes "@abs(") = [.fn (chars "abs"), .lpar] := by decide +kernel
theorem lit16 : words (codes " = load ") = [.eq, .kw .load] := by decide +kernel
theorem lit17 : words (codes ", align 4\n") = [.comma, .kw .align, .int 4] := by decide +kernel
theorem lit18 : words (codes " store ") = [.kw .store] := by decide +kernel
theorem lit19 : words (codes " = alloca ") = [.eq, .kw .alloca] := by decide +kernel
theorem lit20 : words (codes "align 4\n") = [.kw .align, .int 4] := by decide +kernel
theorem lit21 : words (codes " br label ") = [.kw .br, .kw .label] := by decide +kernel
theorem lit22 : words (codes " br i1 ") = [.kw .br, .kw .i1] := by decide +kernel
theorem lit23 : words (codes " = phi ") = [.eq, .kw .phi] := by decide +kernel
theorem lit24 : words (codes "[ ") = [.lbr] := by decide +kernel
theorem lit25 : words (codes " ], [ ") = [.rbr, .comma, .lbr] := by decide +kernel
theorem lit26 : words (codes " call ") = [.kw .call] := by decide +kernel
theorem lit27 : words (codes "(") = [.lpar] := by decide +kernel
theorem lit28 : words (codes " ret void\n") = [.kw .ret, .kw .void] := by decide +kernel
theorem lit29 : words (codes " ret ") = [.kw .ret] := by decide +kernel
theorem lit30 : words (codes " unreachable\n") = [.kw .unreachable] := by decide +kernel
theorem lit31 : words (codes " = alloca i8*, align 4\n") = [.eq, .kw .alloca, .kw .i8, .star, .comma, .kw .align, .int 4] := by decide +kernel
theorem lit32 : words (codes " = call i8* @llvm.stacksave()\n") = [.eq, .kw .call, .kw .i8, .star, .kw .stacksave, .lpar, .rpar] := by decide +kernel
theorem lit33 : words (codes " store i8* ") = [.kw .store, .kw .i8, .star] := by decide +kernel
theorem lit34 : words (codes ", i8** ") = [.comma, .kw .i8, .star, .star] := by decide +kernel
theorem lit35 : words (codes " = load i8*, i8** ") = [.eq, .kw .load, .kw .i8, .star, .comma, .kw .i8, .star, .star] := by decide +kernel
theorem lit36 : words (codes " call void @llvm.stackrestore(i8* ") = [.kw .call, .kw .void, .kw .stackrestore, .lpar, .kw .i8, .star] := by decide +kernel
theorem lit37 : words (codes " switch ") = [.kw .switch] := by decide +kernel
theorem lit38 : words (codes " [\n") = [.lbr] := by decide +kernel
theorem lit39 : words (codes "define ") = [.kw .define] := by decide +kernel
theorem lit40 : words (codes " {\n") = [.lcurl] := by decide +kernel
theorem lit41 : words (codes "}\n\n") = [.rcurl] := by decide +kernel
theorem lit42 : words (codes ")") = [.rpar] := by decide +kernel

/-- The words of a type. -/
def tyTok : Ty → List Tok
  | .int => [.kw .i32]
  | .bool => [.kw .i1]
  | .str => [.kw .i8, .star]

/-- The words of an operation. -/
def opTok : Arith → List Tok
  | .mul => [.kw .mul, .kw .nsw]
  | .div => [.kw .sdiv]
  | .rem => [.kw .srem]
  | .add => [.kw .add, .kw .nsw]
  | .sub => [.kw .sub, .kw .nsw]
  | .shl => [.kw .shl]
  | .shr => [.kw .ashr]
  | .and => [.kw .and]
  | .xor => [.kw .xor]
  | .or => [.kw .or]

/-- The words of a comparison. -/
def cmpTok : Cmp → List Tok
  | .lt => [.kw .icmp, .kw .slt]
  | .gt => [.kw .icmp, .kw .sgt]
  | .le => [.kw .icmp, .kw .sle]
  | .ge => [.kw .icmp, .kw .sge]
  | .eq => [.kw .icmp, .kw .eq]
  | .ne => [.kw .icmp, .kw .ne]

theorem ty_sp (t : Ty) : words (codes (tyText t ++ " ")) = tyTok t := by cases t <;> decide +kernel
theorem ty_comma (t : Ty) : words (codes (tyText t ++ ", ")) = tyTok t ++ [.comma] := by cases t <;> decide +kernel
theorem ty_star (t : Ty) : words (codes (tyText t ++ "* ")) = tyTok t ++ [.star] := by cases t <;> decide +kernel
theorem ty_rpar (t : Ty) : words (codes (tyText t ++ ")")) = tyTok t ++ [.rpar] := by cases t <;> decide +kernel
theorem op_sp (o : Arith) : words (codes (opText o ++ " ")) = opTok o := by cases o <;> decide +kernel
theorem cmp_sp (o : Cmp) : words (codes (cmpText o ++ " ")) = cmpTok o := by cases o <;> decide +kernel

theorem ty_sp' (t : Ty) : ends (codes (tyText t ++ " ")) = true := by cases t <;> decide +kernel
theorem ty_comma' (t : Ty) : ends (codes (tyText t ++ ", ")) = true := by cases t <;> decide +kernel
theorem ty_star' (t : Ty) : ends (codes (tyText t ++ "* ")) = true := by cases t <;> decide +kernel
theorem ty_rpar' (t : Ty) : ends (codes (tyText t ++ ")")) = true := by cases t <;> decide +kernel
theorem op_sp' (o : Arith) : ends (codes (opText o ++ " ")) = true := by cases o <;> decide +kernel
theorem cmp_sp' (o : Cmp) : ends (codes (cmpText o ++ " ")) = true := by cases o <;> decide +kernel

/-- The words of a result. -/
def retTok : Option Ty → List Tok
  | some t => tyTok t
  | none => [.kw .void]

theorem ret_sp (t : Option Ty) : words (codes (retText t ++ " ")) = retTok t := by
  cases t with
  | none => decide +kernel
  | some t => cases t <;> decide +kernel
theorem ret_par (t : Option Ty) : words (codes (retText t ++ " (")) = retTok t ++ [.lpar] := by
  cases t with
  | none => decide +kernel
  | some t => cases t <;> decide +kernel
theorem ret_sp' (t : Option Ty) : ends (codes (retText t ++ " ")) = true := by
  cases t with
  | none => decide +kernel
  | some t => cases t <;> decide +kernel
theorem ret_par' (t : Option Ty) : ends (codes (retText t ++ " (")) = true := by
  cases t with
  | none => decide +kernel
  | some t => cases t <;> decide +kernel

/-! ## The words of the arguments -/

theorem word_pre {p w : List Nat} (hp : p ≠ []) (h : p.all (fun c => (separator c).isNone) = true) (hw : ∀ c ∈ w, separator c = none) :
    Word (p ++ w) := by
  refine ⟨by simp [hp], fun c hc => ?_⟩
  rcases List.mem_append.1 hc with hc | hc
  · simpa using List.all_eq_true.1 h c hc
  · exact hw c hc

theorem w_reg (n : Nat) : Word (codes "%." ++ showNat n) := word_pre (by decide) (by decide +kernel) (showNat_word n)
theorem w_lab (n : Nat) : Word (codes "%label" ++ showNat n) := word_pre (by decide) (by decide +kernel) (showNat_word n)
theorem w_dyn (n : Nat) : Word (codes "%dyn." ++ showNat n) := word_pre (by decide) (by decide +kernel) (showNat_word n)
theorem w_arg (n : Nat) : Word (codes "%" ++ showNat n) := word_pre (by decide) (by decide +kernel) (showNat_word n)
theorem w_str (n : Nat) : Word (codes "@.str" ++ showNat n) := word_pre (by decide) (by decide +kernel) (showNat_word n)
theorem w_nat (n : Nat) : Word (showNat n) := ⟨(showNat_digits n).1, showNat_word n⟩
theorem w_int (v : Int) : Word (showInt v) := by
  unfold showInt
  by_cases hv : v < 0
  · rw [if_pos hv]
    exact word_pre (p := [45]) (by decide) (by decide +kernel) (showNat_word _)
  · rw [if_neg hv]
    exact w_nat _
theorem w_true : Word (codes "true") := by
  have := word_pre (p := codes "true") (w := []) (by decide) (by decide +kernel) (by simp)
  simpa using this
theorem w_false : Word (codes "false") := by
  have := word_pre (p := codes "false") (w := []) (by decide) (by decide +kernel) (by simp)
  simpa using this
theorem w_labDef (n : Nat) : Word (codes "label" ++ showNat n ++ codes ":") := by
  rw [List.append_assoc]
  refine word_pre (by decide) (by decide +kernel) fun c hc => ?_
  rcases List.mem_append.1 hc with hc | hc
  · exact showNat_word n c hc
  · rw [c_colon] at hc
    simp only [List.mem_singleton] at hc
    subst hc
    decide
theorem w_fn {name : List Nat} (h : NameOk name) : Word (codes "@" ++ name) := by
  refine word_pre (by decide) (by decide +kernel) fun c hc => ?_
  have := h.2 c hc
  unfold Names.Plain Names.Latin Names.Digit at this
  unfold separator
  repeat rw [if_neg (by omega)]
theorem w_place (loc : Bool) (n : Nat) : Word (codes (if loc then "%var." else "@var.") ++ showNat n) := by
  cases loc
  · exact word_pre (by decide) (by decide +kernel) (showNat_word n)
  · exact word_pre (by decide) (by decide +kernel) (showNat_word n)

/-- The word of a place. -/
def plTok (loc : Bool) (n : Nat) : Tok := if loc then .var n else .glob n

/-- The word of an operand. -/
def opdTok : Opd → Tok
  | .reg r => .reg r
  | .int v => .int v
  | .bool true => .kw .true
  | .bool false => .kw .false
  | .str _ => .bad

/-- The word of a label in `phi`. -/
def fromTok (l : Nat) : Tok := if l = 0 then .arg 0 else .lab l

theorem t_reg (r : Nat) (l : List Seg) : toks (reg r :: l) = .reg r :: toks l := by
  simp only [reg, toks, classify_reg]
theorem t_lab (r : Nat) (l : List Seg) : toks (lab r :: l) = .lab r :: toks l := by
  simp only [lab, toks, classify_lab]
theorem t_dyn (r : Nat) (l : List Seg) : toks (dyn r :: l) = .dyn r :: toks l := by
  simp only [dyn, toks, classify_dyn]
theorem t_place (b : Bool) (r : Nat) (l : List Seg) : toks (place b r :: l) = plTok b r :: toks l := by
  cases b
  · exact congrArg (· :: toks l) (classify_glob r)
  · exact congrArg (· :: toks l) (classify_var r)
theorem t_from (r : Nat) (l : List Seg) : toks (from_ r :: l) = fromTok r :: toks l := by
  unfold from_ fromTok
  by_cases h : r = 0
  · rw [if_pos h, if_pos h]
    exact congrArg (· :: toks l) (classify_arg 0)
  · rw [if_neg h, if_neg h, t_lab]
theorem t_opd {o : Opd} (h : Value o) (l : List Seg) : toks (opd o :: l) = opdTok o :: toks l := by
  cases o with
  | reg r => exact t_reg r l
  | int v => exact congrArg (· :: toks l) (classify_int v)
  | bool b =>
    cases b
    · exact congrArg (· :: toks l) classify_false
    · exact congrArg (· :: toks l) classify_true
  | str i => exact h.elim

/-- A word before a piece of a format. -/
theorem ok_reg {r : Nat} {s : String} {l : List Seg} (h : begins (codes s) = true) (hl : Ok (.lit s :: l)) : Ok (reg r :: .lit s :: l) :=
  ⟨w_reg r, h, hl⟩
theorem ok_lab {r : Nat} {s : String} {l : List Seg} (h : begins (codes s) = true) (hl : Ok (.lit s :: l)) : Ok (lab r :: .lit s :: l) :=
  ⟨w_lab r, h, hl⟩
theorem ok_dyn {r : Nat} {s : String} {l : List Seg} (h : begins (codes s) = true) (hl : Ok (.lit s :: l)) : Ok (dyn r :: .lit s :: l) :=
  ⟨w_dyn r, h, hl⟩
theorem ok_place {b : Bool} {r : Nat} {s : String} {l : List Seg} (h : begins (codes s) = true) (hl : Ok (.lit s :: l)) :
    Ok (place b r :: .lit s :: l) := ⟨w_place b r, h, hl⟩
theorem ok_from {r : Nat} {s : String} {l : List Seg} (h : begins (codes s) = true) (hl : Ok (.lit s :: l)) : Ok (from_ r :: .lit s :: l) := by
  unfold from_
  by_cases h0 : r = 0
  · rw [if_pos h0]
    exact ⟨w_arg 0, h, hl⟩
  · rw [if_neg h0]
    exact ok_lab h hl
theorem ok_opd {o : Opd} (ho : Value o) {s : String} {l : List Seg} (h : begins (codes s) = true) (hl : Ok (.lit s :: l)) :
    Ok (opd o :: .lit s :: l) := by
  cases o with
  | reg r => exact ok_reg h hl
  | int v => exact ⟨w_int v, h, hl⟩
  | bool b =>
    cases b
    · exact ⟨w_false, h, hl⟩
    · exact ⟨w_true, h, hl⟩
  | str i => exact ho.elim
theorem ok_wd {w : List Nat} (hw : Word w) {s : String} {l : List Seg} (h : begins (codes s) = true) (hl : Ok (.lit s :: l)) :
    Ok (.wd w :: .lit s :: l) := ⟨hw, h, hl⟩
theorem ok_lit {s : String} {l : List Seg} (h : ends (codes s) = true) (hl : Ok l) : Ok (.lit s :: l) := ⟨h, hl⟩
theorem ok_nil : Ok [] := trivial

/-- Proves that pieces are cut where they meet. -/
syntax "ok_tac" : tactic
macro_rules
  | `(tactic| ok_tac) => `(tactic| repeat' (first
      | with_reducible exact ok_nil
      | with_reducible assumption
      | with_reducible apply ok_lit
      | with_reducible apply ok_reg
      | with_reducible apply ok_lab
      | with_reducible apply ok_dyn
      | with_reducible apply ok_place
      | with_reducible apply ok_from
      | with_reducible apply ok_opd
      | with_reducible apply ok_wd
      | decide +kernel
      | with_reducible exact ty_sp' _
      | with_reducible exact ty_comma' _
      | with_reducible exact ty_star' _
      | with_reducible exact ty_rpar' _
      | with_reducible exact op_sp' _
      | with_reducible exact cmp_sp' _
      | with_reducible exact ret_sp' _
      | with_reducible exact ret_par' _
      | with_reducible exact w_arg _
      | with_reducible exact w_str _
      | with_reducible exact w_nat _
      | with_reducible exact w_int _
      | with_reducible exact w_true
      | with_reducible exact w_labDef _))

/-- What the reader is told: the tables of the compiler, and who has a name. -/
def tabOf (env : Env) (ref : List Nat → Option Nat) : Tab := ⟨ref, env.sig, fun i => env.len i + 1⟩

/-! ## Reading the parts -/

theorem read_ty (t : Ty) (r : List Tok) : readTy (tyTok t ++ r) = some (t, r) := by cases t <;> rfl

theorem read_ret (t : Option Ty) (r : List Tok) : readRet (retTok t ++ r) = some (t, r) := by
  cases t with
  | none => rfl
  | some t => cases t <;> rfl

theorem read_opd {o : Opd} (h : Value o) (r : List Tok) : readOpd (opdTok o :: r) = some (o, r) := by
  cases o with
  | reg n => rfl
  | int v => rfl
  | bool b => cases b <;> rfl
  | str i => exact h.elim

theorem read_place (b : Bool) (n : Nat) (r : List Tok) : readPlace (plTok b n :: r) = some ((b, n), r) := by cases b <;> rfl

theorem read_from (n : Nat) (r : List Tok) : readFrom (fromTok n :: r) = some (n, r) := by
  unfold fromTok
  by_cases h : n = 0
  · rw [if_pos h, h]; rfl
  · rw [if_neg h]; rfl

theorem expect_nil (r : List Tok) : expect [] r = some r := by
  cases r <;> rfl

theorem expect_cons (t : Tok) (ts r : List Tok) : expect (t :: ts) (t :: r) = expect ts r := by
  simp only [expect, if_true]

theorem bind_some' {α β : Type} (x : α) (f : α → Option β) : (some x >>= f) = f x := rfl

/-! ## Parameters -/

theorem ok_params : ∀ (ps : List (Option Ty)) (l : List Seg), Ok l → Ok (paramSegs ps ++ l)
  | [], l, h => ok_lit (by decide +kernel) h
  | [p], l, h => by
    cases p
    · exact ok_lit (by decide +kernel) h
    · exact ok_lit (ty_rpar' _) h
  | p :: q :: ps, l, h => by
    cases p
    · exact ok_lit (by decide +kernel) (ok_params (q :: ps) l h)
    · exact ok_lit (ty_comma' _) (ok_params (q :: ps) l h)

theorem lit_dots_par : words (codes "...)") = [.kw .dots, .rpar] := by decide +kernel
theorem lit_dots_comma : words (codes "..., ") = [.kw .dots, .comma] := by decide +kernel

theorem read_params : ∀ (ps : List (Option Ty)) (n : Nat) (r : List Tok), ps.length < n →
    readParams n (toks (paramSegs ps) ++ r) = some (ps, r)
  | [], n + 1, r, _ => by
    simp only [paramSegs, toks, lit0, lit1, lit2, lit3, lit4, lit5, lit6, lit7, lit8, lit9, lit10, lit11, lit12, lit13, lit14, lit15, lit16, lit17, lit18, lit19, lit20, lit21, lit22, lit23, lit24, lit25, lit26, lit27, lit28, lit29, lit30, lit31, lit32, lit33, lit34, lit35, lit36, lit37, lit38, lit39, lit40, lit41, lit42, List.append_nil, List.cons_append, List.nil_append, readParams]
  | [p], n + 1, r, h => by
    cases p with
    | none =>
      simp only [paramSegs, toks, lit_dots_par, List.append_nil, List.cons_append, List.nil_append]
      rfl
    | some t =>
      simp only [paramSegs, toks, ty_rpar, List.append_nil, List.append_assoc, List.cons_append, List.nil_append]
      cases t <;> rfl
  | p :: q :: ps, n + 1, r, h => by
    have ih := read_params (q :: ps) n r (by simp only [List.length_cons] at h ⊢; omega)
    cases p with
    | none =>
      simp only [paramSegs, toks, lit_dots_comma, List.append_assoc, List.cons_append, List.nil_append]
      show (readParams n (toks (paramSegs (q :: ps)) ++ r)).bind _ = _
      rw [ih]; rfl
    | some t =>
      simp only [paramSegs, toks, ty_comma, List.append_assoc, List.cons_append, List.nil_append]
      cases t <;>
      · show (readParams n (toks (paramSegs (q :: ps)) ++ r)).bind _ = _
        rw [ih]; rfl

theorem params_length : ∀ ps : List (Option Ty), ps.length ≤ (toks (paramSegs ps)).length
  | [] => by simp
  | [p] => by
    cases p with
    | none => simp only [paramSegs, toks, lit_dots_par]; simp
    | some t => simp only [paramSegs, toks, ty_rpar]; simp
  | p :: q :: ps => by
    have ih := params_length (q :: ps)
    cases p with
    | none => simp only [paramSegs, toks, lit_dots_comma, List.length_append, List.length_cons, List.length_nil] at ih ⊢; omega
    | some t => simp only [paramSegs, toks, ty_comma, List.length_append, List.length_cons, List.length_nil] at ih ⊢; omega

/-! ## Arguments -/

theorem ok_arg (env : Env) {a : Ty × Opd} (ha : Arg a) {s : String} {l : List Seg} (hs : begins (codes s) = true) (h : Ok (.lit s :: l)) :
    Ok (argSegs env a ++ .lit s :: l) := by
  obtain ⟨t, o⟩ := a
  cases o with
  | str i => simp only [argSegs, List.cons_append, List.nil_append]; ok_tac
  | reg r => exact ok_lit (ty_sp' _) (ok_opd (o := .reg r) trivial hs h)
  | int r => exact ok_lit (ty_sp' _) (ok_opd (o := .int r) trivial hs h)
  | bool r => exact ok_lit (ty_sp' _) (ok_opd (o := .bool r) trivial hs h)

theorem ok_args (env : Env) : ∀ (as : List (Ty × Opd)), (∀ a ∈ as, Arg a) → Ok (argsSegs env as)
  | [], _ => ok_lit (by decide +kernel) ok_nil
  | [a], h => ok_arg env (h a (by simp)) (by decide +kernel) (ok_lit (by decide +kernel) ok_nil)
  | a :: b :: l, h => ok_arg env (h a (by simp)) (by decide +kernel)
      (ok_lit (by decide +kernel) (ok_args env (b :: l) fun x hx => h x (by simp at hx ⊢; exact Or.inr hx)))

theorem read_arg (env : Env) (ref : List Nat → Option Nat) {a : Ty × Opd} (ha : Arg a) (l : List Seg) (r : List Tok) :
    readArg (tabOf env ref) (toks (argSegs env a ++ l) ++ r) = some (a, toks l ++ r) := by
  obtain ⟨t, o⟩ := a
  cases o with
  | str i =>
    have ht : t = .str := ha
    subst ht
    simp only [argSegs, List.cons_append, List.nil_append, toks, lit0, lit1, lit2, lit3, lit4, lit5, lit6, lit7, lit8, lit9, lit10, lit11, lit12, lit13, lit14, lit15, lit16, lit17, lit18, lit19, lit20, lit21, lit22, lit23, lit24, lit25, lit26, lit27, lit28, lit29, lit30, lit31, lit32, lit33, lit34, lit35, lit36, lit37, lit38, lit39, lit40, lit41, lit42, classify_nat, classify_str]
    simp only [readArg, readTy, bind_some', List.cons_append, List.nil_append, expect_cons, expect_nil, tabOf]
    simp
  | reg n =>
    simp only [argSegs, List.cons_append, List.nil_append, toks, ty_sp, List.append_assoc]
    rw [t_opd (o := .reg n) trivial l]
    cases t <;> rfl
  | int n =>
    simp only [argSegs, List.cons_append, List.nil_append, toks, ty_sp, List.append_assoc]
    rw [t_opd (o := .int n) trivial l]
    cases t <;> rfl
  | bool n =>
    simp only [argSegs, List.cons_append, List.nil_append, toks, ty_sp, List.append_assoc]
    rw [t_opd (o := .bool n) trivial l]
    cases t <;> cases n <;> rfl

/-- The first word of an argument is not a bracket. -/
theorem arg_head (env : Env) (a : Ty × Opd) (l : List Seg) (r : List Tok) : ∃ k q, toks (argSegs env a ++ l) ++ r = .kw k :: q := by
  obtain ⟨t, o⟩ := a
  cases o with
  | str i =>
    simp only [argSegs, List.cons_append, List.nil_append, toks, lit0, lit1, lit2, lit3, lit4, lit5, lit6, lit7, lit8, lit9, lit10, lit11, lit12, lit13, lit14, lit15, lit16, lit17, lit18, lit19, lit20, lit21, lit22, lit23, lit24, lit25, lit26, lit27, lit28, lit29, lit30, lit31, lit32, lit33, lit34, lit35, lit36, lit37, lit38, lit39, lit40, lit41, lit42]
    exact ⟨_, _, rfl⟩
  | reg n =>
    simp only [argSegs, List.cons_append, List.nil_append, toks, ty_sp, List.append_assoc]
    cases t <;> exact ⟨_, _, rfl⟩
  | int n =>
    simp only [argSegs, List.cons_append, List.nil_append, toks, ty_sp, List.append_assoc]
    cases t <;> exact ⟨_, _, rfl⟩
  | bool n =>
    simp only [argSegs, List.cons_append, List.nil_append, toks, ty_sp, List.append_assoc]
    cases t <;> exact ⟨_, _, rfl⟩

theorem readArgs_kw (tab : Tab) (n : Nat) (k : Kw) (q : List Tok) : readArgs tab (n + 1) (.kw k :: q) = (do
    let (a, r) ← readArg tab (.kw k :: q)
    match r with
    | .comma :: r =>
      let (l, r) ← readArgs tab n r
      some (a :: l, r)
    | .rpar :: r => some ([a], r)
    | _ => none) := rfl

theorem read_args (env : Env) (ref : List Nat → Option Nat) : ∀ (as : List (Ty × Opd)) (n : Nat) (r : List Tok), (∀ a ∈ as, Arg a) → as.length < n →
    readArgs (tabOf env ref) n (toks (argsSegs env as) ++ r) = some (as, r)
  | [], n + 1, r, _, _ => by
    simp only [argsSegs, toks, lit0, lit1, lit2, lit3, lit4, lit5, lit6, lit7, lit8, lit9, lit10, lit11, lit12, lit13, lit14, lit15, lit16, lit17, lit18, lit19, lit20, lit21, lit22, lit23, lit24, lit25, lit26, lit27, lit28, lit29, lit30, lit31, lit32, lit33, lit34, lit35, lit36, lit37, lit38, lit39, lit40, lit41, lit42, List.append_nil, List.cons_append, List.nil_append, readArgs]
  | [a], n + 1, r, ha, h => by
    have hr := read_arg env ref (ha a (by simp)) [.lit ")\n"] r
    obtain ⟨k, q, e⟩ := arg_head env a [.lit ")\n"] r
    simp only [argsSegs]
    rw [e] at hr ⊢
    rw [readArgs_kw, hr]
    simp only [toks, lit0, lit1, lit2, lit3, lit4, lit5, lit6, lit7, lit8, lit9, lit10, lit11, lit12, lit13, lit14, lit15, lit16, lit17, lit18, lit19, lit20, lit21, lit22, lit23, lit24, lit25, lit26, lit27, lit28, lit29, lit30, lit31, lit32, lit33, lit34, lit35, lit36, lit37, lit38, lit39, lit40, lit41, lit42]
    rfl
  | a :: b :: l, n + 1, r, ha, h => by
    have ih := read_args env ref (b :: l) n r (fun x hx => ha x (by simp at hx ⊢; exact Or.inr hx)) (by simp only [List.length_cons] at h ⊢; omega)
    have hr := read_arg env ref (ha a (by simp)) (.lit ", " :: argsSegs env (b :: l)) r
    obtain ⟨k, q, e⟩ := arg_head env a (.lit ", " :: argsSegs env (b :: l)) r
    rw [argsSegs]
    rw [e] at hr ⊢
    rw [readArgs_kw, hr]
    simp only [toks, lit0, lit1, lit2, lit3, lit4, lit5, lit6, lit7, lit8, lit9, lit10, lit11, lit12, lit13, lit14, lit15, lit16, lit17, lit18, lit19, lit20, lit21, lit22, lit23, lit24, lit25, lit26, lit27, lit28, lit29, lit30, lit31, lit32, lit33, lit34, lit35, lit36, lit37, lit38, lit39, lit40, lit41, lit42, List.cons_append, List.nil_append]
    show (readArgs (tabOf env ref) n _).bind _ = _
    rw [ih]; rfl

theorem args_length (env : Env) : ∀ as : List (Ty × Opd), as.length ≤ (toks (argsSegs env as)).length
  | [] => by simp
  | [a] => by
    obtain ⟨k, q, e⟩ := arg_head env a [.lit ")\n"] []
    rw [List.append_nil] at e
    simp only [argsSegs, e]; simp
  | a :: b :: l => by
    have ih := args_length env (b :: l)
    rw [argsSegs, toks_append]
    simp only [toks, lit0, lit1, lit2, lit3, lit4, lit5, lit6, lit7, lit8, lit9, lit10, lit11, lit12, lit13, lit14, lit15, lit16, lit17, lit18, lit19, lit20, lit21, lit22, lit23, lit24, lit25, lit26, lit27, lit28, lit29, lit30, lit31, lit32, lit33, lit34, lit35, lit36, lit37, lit38, lit39, lit40, lit41, lit42, List.length_append, List.length_cons, List.length_nil] at ih ⊢
    omega

/-! ## Rows -/

theorem ok_cases : ∀ t : List (Int × Nat), Ok (caseSegs t)
  | [] => ok_lit (by decide +kernel) ok_nil
  | (v, l) :: t => by
    have ih := ok_cases t
    rw [caseSegs]
    ok_tac

theorem read_cases : ∀ (t : List (Int × Nat)) (n : Nat) (r : List Tok), t.length < n → readCases n (toks (caseSegs t) ++ r) = some (t, r)
  | [], n + 1, r, _ => by
    simp only [caseSegs, toks, lit0, lit1, lit2, lit3, lit4, lit5, lit6, lit7, lit8, lit9, lit10, lit11, lit12, lit13, lit14, lit15, lit16, lit17, lit18, lit19, lit20, lit21, lit22, lit23, lit24, lit25, lit26, lit27, lit28, lit29, lit30, lit31, lit32, lit33, lit34, lit35, lit36, lit37, lit38, lit39, lit40, lit41, lit42]
    rfl
  | (v, l) :: t, n + 1, r, h => by
    have ih := read_cases t n r (by simp only [List.length_cons] at h; omega)
    rw [caseSegs]
    simp only [toks, t_lab, lit0, lit1, lit2, lit3, lit4, lit5, lit6, lit7, lit8, lit9, lit10, lit11, lit12, lit13, lit14, lit15, lit16, lit17, lit18, lit19, lit20, lit21, lit22, lit23, lit24, lit25, lit26, lit27, lit28, lit29, lit30, lit31, lit32, lit33, lit34, lit35, lit36, lit37, lit38, lit39, lit40, lit41, lit42, classify_int, List.cons_append, List.nil_append]
    show (readCases n _).bind _ = _
    rw [ih]; rfl

theorem cases_length : ∀ t : List (Int × Nat), t.length ≤ (toks (caseSegs t)).length
  | [] => by simp
  | (v, l) :: t => by
    have ih := cases_length t
    rw [caseSegs]
    simp only [toks, t_lab, lit0, lit1, lit2, lit3, lit4, lit5, lit6, lit7, lit8, lit9, lit10, lit11, lit12, lit13, lit14, lit15, lit16, lit17, lit18, lit19, lit20, lit21, lit22, lit23, lit24, lit25, lit26, lit27, lit28, lit29, lit30, lit31, lit32, lit33, lit34, lit35, lit36, lit37, lit38, lit39, lit40, lit41, lit42, List.cons_append, List.nil_append, List.length_cons]
    omega

/-! ## Instructions -/

theorem ok_segs (env : Env) (ref : List Nat → Option Nat) (i : Instr) (h : Printable env.name ref i) : Ok (segs env i) := by
  cases i with
  | float r => exact h.elim
  | arith r op a b => obtain ⟨h1, h2⟩ := h; rw [segs]; ok_tac
  | cmp r op t a b => obtain ⟨h1, h2⟩ := h; rw [segs]; ok_tac
  | flip r a => rw [segs]; ok_tac
  | abs r a => rw [segs]; ok_tac
  | load r t loc id => rw [segs]; ok_tac
  | store t a loc id => have h1 : Value a := h; rw [segs]; ok_tac
  | alloca id t => rw [segs]; ok_tac
  | param t i id => rw [segs]; ok_tac
  | label l => rw [segs]; ok_tac
  | br l => rw [segs]; ok_tac
  | cbr r a b => rw [segs]; ok_tac
  | phi r t a x b y => obtain ⟨h1, h2⟩ := h; rw [segs]; ok_tac
  | call r f args =>
    obtain ⟨hn, _, ha⟩ := h
    have h1 := ok_args env args ha
    have h2 : Ok (.lit " " :: .wd (codes "@" ++ env.name f) :: .lit "(" :: argsSegs env args) :=
      ok_lit (by decide +kernel) (ok_wd (w_fn hn) (by decide +kernel) (ok_lit (by decide +kernel) h1))
    have h3 := ok_lit (ret_par' (env.sig f).1) (ok_params (env.sig f).2 _ h2)
    cases r with
    | none =>
      exact ok_lit (s := " call ") (by decide +kernel) h3
    | some r =>
      exact ok_lit (s := " ") (by decide +kernel) (ok_reg (by decide +kernel) (ok_lit (by decide +kernel) h3))
  | ret x =>
    cases x with
    | none => rw [segs]; ok_tac
    | some p => obtain ⟨t, a⟩ := p; have h1 : Value a := h; rw [segs]; ok_tac
  | unreachable => rw [segs]; ok_tac
  | save k r => rw [segs]; ok_tac
  | restore k r => rw [segs]; ok_tac
  | switch r d t =>
    have h1 := ok_cases t
    rw [segs]
    ok_tac

theorem read_call (env : Env) {ref : List Nat → Option Nat} (d : Option Nat) {f : Nat} {args : List (Ty × Opd)} (hn : NameOk (env.name f))
    (hr : ref (env.name f) = some f) (ha : ∀ a ∈ args, Arg a) (r : List Tok) :
    readCall (tabOf env ref) d (toks (.lit (retText (env.sig f).1 ++ " (") :: paramSegs (env.sig f).2 ++
      .lit " " :: .wd (codes "@" ++ env.name f) :: .lit "(" :: argsSegs env args) ++ r) = some (.call d f args, r) := by
  simp only [List.cons_append, toks, toks_append, ret_par, lit0, lit1, lit2, lit3, lit4, lit5, lit6, lit7, lit8, lit9, lit10, lit11, lit12, lit13, lit14, lit15, lit16, lit17, lit18, lit19, lit20, lit21, lit22, lit23, lit24, lit25, lit26, lit27, lit28, lit29, lit30, lit31, lit32, lit33, lit34, lit35, lit36, lit37, lit38, lit39, lit40, lit41, lit42, classify_fn hn, List.append_assoc, List.nil_append]
  unfold readCall
  rw [read_ret]
  simp only [bind_some', List.cons_append, List.nil_append]
  rw [read_params _ _ _ (by have := params_length (env.sig f).2; simp only [List.length_append]; omega)]
  simp only [bind_some', List.cons_append, List.nil_append]
  rw [show (tabOf env ref).fn (env.name f) = some f from hr]
  simp only [bind_some']
  rw [if_neg (fun hne => hne rfl), read_args env ref args _ _ ha (by have := args_length env args; simp only [List.length_append]; omega)]
  rfl

theorem read_segs (env : Env) {ref : List Nat → Option Nat} (i : Instr) (h : Printable env.name ref i) (r : List Tok) :
    readI (tabOf env ref) (toks (segs env i) ++ r) = some (i, r) := by
  cases i with
  | float r => exact h.elim
  | arith d op a b =>
    obtain ⟨h1, h2⟩ := h
    rw [segs]
    simp only [toks, t_reg, t_opd h1, t_opd h2, lit0, lit1, lit2, lit3, lit4, lit5, lit6, lit7, lit8, lit9, lit10, lit11, lit12, lit13, lit14, lit15, lit16, lit17, lit18, lit19, lit20, lit21, lit22, lit23, lit24, lit25, lit26, lit27, lit28, lit29, lit30, lit31, lit32, lit33, lit34, lit35, lit36, lit37, lit38, lit39, lit40, lit41, lit42, op_sp, List.cons_append, List.nil_append, List.append_assoc]
    cases op <;> simp only [opTok, List.cons_append, List.nil_append, readI, readRhs, readOp, readTy, bind_some', read_opd h1, read_opd h2, expect_cons, expect_nil]
  | cmp d op t a b =>
    obtain ⟨h1, h2⟩ := h
    rw [segs]
    simp only [toks, t_reg, t_opd h1, t_opd h2, lit0, lit1, lit2, lit3, lit4, lit5, lit6, lit7, lit8, lit9, lit10, lit11, lit12, lit13, lit14, lit15, lit16, lit17, lit18, lit19, lit20, lit21, lit22, lit23, lit24, lit25, lit26, lit27, lit28, lit29, lit30, lit31, lit32, lit33, lit34, lit35, lit36, lit37, lit38, lit39, lit40, lit41, lit42, cmp_sp, ty_sp, List.cons_append, List.nil_append, List.append_assoc]
    cases op <;> simp only [cmpTok, List.cons_append, List.nil_append, readI, readRhs, readCmp, read_ty, bind_some', read_opd h1, read_opd h2, expect_cons, expect_nil]
  | flip d a =>
    rw [segs]
    simp only [toks, t_reg, lit0, lit1, lit2, lit3, lit4, lit5, lit6, lit7, lit8, lit9, lit10, lit11, lit12, lit13, lit14, lit15, lit16, lit17, lit18, lit19, lit20, lit21, lit22, lit23, lit24, lit25, lit26, lit27, lit28, lit29, lit30, lit31, lit32, lit33, lit34, lit35, lit36, lit37, lit38, lit39, lit40, lit41, lit42, op_sp, classify_true, List.cons_append, List.nil_append, List.append_assoc]
    rfl
  | abs d a =>
    rw [segs]
    simp only [toks, t_reg, lit0, lit1, lit2, lit3, lit4, lit5, lit6, lit7, lit8, lit9, lit10, lit11, lit12, lit13, lit14, lit15, lit16, lit17, lit18, lit19, lit20, lit21, lit22, lit23, lit24, lit25, lit26, lit27, lit28, lit29, lit30, lit31, lit32, lit33, lit34, lit35, lit36, lit37, lit38, lit39, lit40, lit41, lit42, List.cons_append, List.nil_append, List.append_assoc]
    rfl
  | load d t loc id =>
    rw [segs]
    simp only [toks, t_reg, t_place, lit0, lit1, lit2, lit3, lit4, lit5, lit6, lit7, lit8, lit9, lit10, lit11, lit12, lit13, lit14, lit15, lit16, lit17, lit18, lit19, lit20, lit21, lit22, lit23, lit24, lit25, lit26, lit27, lit28, lit29, lit30, lit31, lit32, lit33, lit34, lit35, lit36, lit37, lit38, lit39, lit40, lit41, lit42, ty_comma, ty_star, List.cons_append, List.nil_append, List.append_assoc]
    cases t <;> cases loc <;> rfl
  | store t a loc id =>
    have h1 : Value a := h
    rw [segs]
    simp only [toks, t_place, t_opd h1, lit0, lit1, lit2, lit3, lit4, lit5, lit6, lit7, lit8, lit9, lit10, lit11, lit12, lit13, lit14, lit15, lit16, lit17, lit18, lit19, lit20, lit21, lit22, lit23, lit24, lit25, lit26, lit27, lit28, lit29, lit30, lit31, lit32, lit33, lit34, lit35, lit36, lit37, lit38, lit39, lit40, lit41, lit42, ty_sp, ty_star, List.cons_append, List.nil_append, List.append_assoc]
    cases a with
    | str i => exact h.elim
    | bool b => cases b <;> cases t <;> cases loc <;> rfl
    | int v => cases t <;> cases loc <;> rfl
    | reg n => cases t <;> cases loc <;> rfl
  | alloca id t =>
    rw [segs]
    simp only [toks, t_place, lit0, lit1, lit2, lit3, lit4, lit5, lit6, lit7, lit8, lit9, lit10, lit11, lit12, lit13, lit14, lit15, lit16, lit17, lit18, lit19, lit20, lit21, lit22, lit23, lit24, lit25, lit26, lit27, lit28, lit29, lit30, lit31, lit32, lit33, lit34, lit35, lit36, lit37, lit38, lit39, lit40, lit41, lit42, ty_comma, List.cons_append, List.nil_append, List.append_assoc]
    cases t <;> rfl
  | param t i id =>
    rw [segs]
    simp only [toks, t_place, classify_arg, lit0, lit1, lit2, lit3, lit4, lit5, lit6, lit7, lit8, lit9, lit10, lit11, lit12, lit13, lit14, lit15, lit16, lit17, lit18, lit19, lit20, lit21, lit22, lit23, lit24, lit25, lit26, lit27, lit28, lit29, lit30, lit31, lit32, lit33, lit34, lit35, lit36, lit37, lit38, lit39, lit40, lit41, lit42, ty_sp, ty_star, List.cons_append, List.nil_append, List.append_assoc]
    cases t <;> rfl
  | label l =>
    rw [segs]
    simp only [toks, classify_labDef, lit0, lit1, lit2, lit3, lit4, lit5, lit6, lit7, lit8, lit9, lit10, lit11, lit12, lit13, lit14, lit15, lit16, lit17, lit18, lit19, lit20, lit21, lit22, lit23, lit24, lit25, lit26, lit27, lit28, lit29, lit30, lit31, lit32, lit33, lit34, lit35, lit36, lit37, lit38, lit39, lit40, lit41, lit42, List.cons_append, List.nil_append]
    rfl
  | br l =>
    rw [segs]
    simp only [toks, t_lab, lit0, lit1, lit2, lit3, lit4, lit5, lit6, lit7, lit8, lit9, lit10, lit11, lit12, lit13, lit14, lit15, lit16, lit17, lit18, lit19, lit20, lit21, lit22, lit23, lit24, lit25, lit26, lit27, lit28, lit29, lit30, lit31, lit32, lit33, lit34, lit35, lit36, lit37, lit38, lit39, lit40, lit41, lit42, List.cons_append, List.nil_append, List.append_assoc]
    rfl
  | cbr d a b =>
    rw [segs]
    simp only [toks, t_lab, t_reg, lit0, lit1, lit2, lit3, lit4, lit5, lit6, lit7, lit8, lit9, lit10, lit11, lit12, lit13, lit14, lit15, lit16, lit17, lit18, lit19, lit20, lit21, lit22, lit23, lit24, lit25, lit26, lit27, lit28, lit29, lit30, lit31, lit32, lit33, lit34, lit35, lit36, lit37, lit38, lit39, lit40, lit41, lit42, List.cons_append, List.nil_append, List.append_assoc]
    rfl
  | phi d t a x b y =>
    obtain ⟨h1, h2⟩ := h
    rw [segs]
    simp only [toks, t_reg, t_from, t_opd h1, t_opd h2, lit0, lit1, lit2, lit3, lit4, lit5, lit6, lit7, lit8, lit9, lit10, lit11, lit12, lit13, lit14, lit15, lit16, lit17, lit18, lit19, lit20, lit21, lit22, lit23, lit24, lit25, lit26, lit27, lit28, lit29, lit30, lit31, lit32, lit33, lit34, lit35, lit36, lit37, lit38, lit39, lit40, lit41, lit42, ty_sp, List.cons_append, List.nil_append, List.append_assoc]
    simp only [readI, readRhs, read_ty, bind_some', read_opd h1, read_opd h2, read_from, expect_cons, expect_nil]
  | call d f args =>
    obtain ⟨hn, hr, ha⟩ := h
    have hc := read_call env d hn hr ha r
    cases d with
    | none =>
      rw [segs]
      rw [List.append_assoc] 
      simp only [List.cons_append, List.nil_append] at hc ⊢
      rw [toks, lit26]
      exact hc
    | some d =>
      rw [segs]
      simp only [List.cons_append, List.nil_append] at hc ⊢
      rw [toks, lit10, t_reg, toks, lit14]
      exact hc
  | ret x =>
    cases x with
    | none =>
      rw [segs]
      simp only [toks, lit0, lit1, lit2, lit3, lit4, lit5, lit6, lit7, lit8, lit9, lit10, lit11, lit12, lit13, lit14, lit15, lit16, lit17, lit18, lit19, lit20, lit21, lit22, lit23, lit24, lit25, lit26, lit27, lit28, lit29, lit30, lit31, lit32, lit33, lit34, lit35, lit36, lit37, lit38, lit39, lit40, lit41, lit42, List.cons_append, List.nil_append, List.append_assoc]
      rfl
    | some p =>
      obtain ⟨t, a⟩ := p
      have h1 : Value a := h
      rw [segs]
      simp only [toks, t_opd h1, lit0, lit1, lit2, lit3, lit4, lit5, lit6, lit7, lit8, lit9, lit10, lit11, lit12, lit13, lit14, lit15, lit16, lit17, lit18, lit19, lit20, lit21, lit22, lit23, lit24, lit25, lit26, lit27, lit28, lit29, lit30, lit31, lit32, lit33, lit34, lit35, lit36, lit37, lit38, lit39, lit40, lit41, lit42, ty_sp, List.cons_append, List.nil_append, List.append_assoc]
      cases a with
      | str i => exact h.elim
      | bool b => cases b <;> cases t <;> rfl
      | int v => cases t <;> rfl
      | reg n => cases t <;> rfl
  | unreachable =>
    rw [segs]
    simp only [toks, lit0, lit1, lit2, lit3, lit4, lit5, lit6, lit7, lit8, lit9, lit10, lit11, lit12, lit13, lit14, lit15, lit16, lit17, lit18, lit19, lit20, lit21, lit22, lit23, lit24, lit25, lit26, lit27, lit28, lit29, lit30, lit31, lit32, lit33, lit34, lit35, lit36, lit37, lit38, lit39, lit40, lit41, lit42, List.cons_append, List.nil_append, List.append_assoc]
    rfl
  | save k d =>
    rw [segs]
    simp only [toks, t_reg, t_dyn, lit0, lit1, lit2, lit3, lit4, lit5, lit6, lit7, lit8, lit9, lit10, lit11, lit12, lit13, lit14, lit15, lit16, lit17, lit18, lit19, lit20, lit21, lit22, lit23, lit24, lit25, lit26, lit27, lit28, lit29, lit30, lit31, lit32, lit33, lit34, lit35, lit36, lit37, lit38, lit39, lit40, lit41, lit42, List.cons_append, List.nil_append, List.append_assoc]
    simp only [readI, aligned, List.cons_append, List.nil_append, bind_some', expect_cons, expect_nil]
  | restore k d =>
    rw [segs]
    simp only [toks, t_reg, t_dyn, lit0, lit1, lit2, lit3, lit4, lit5, lit6, lit7, lit8, lit9, lit10, lit11, lit12, lit13, lit14, lit15, lit16, lit17, lit18, lit19, lit20, lit21, lit22, lit23, lit24, lit25, lit26, lit27, lit28, lit29, lit30, lit31, lit32, lit33, lit34, lit35, lit36, lit37, lit38, lit39, lit40, lit41, lit42, List.cons_append, List.nil_append, List.append_assoc]
    simp only [readI, readRhs, readTy, aligned, List.cons_append, List.nil_append, bind_some', expect_cons, expect_nil]
  | switch c d t =>
    rw [segs]
    simp only [toks, t_reg, t_lab, lit0, lit1, lit2, lit3, lit4, lit5, lit6, lit7, lit8, lit9, lit10, lit11, lit12, lit13, lit14, lit15, lit16, lit17, lit18, lit19, lit20, lit21, lit22, lit23, lit24, lit25, lit26, lit27, lit28, lit29, lit30, lit31, lit32, lit33, lit34, lit35, lit36, lit37, lit38, lit39, lit40, lit41, lit42, List.cons_append, List.nil_append, List.append_assoc]
    show (readCases _ _).bind _ = _
    rw [read_cases t _ _ (by have := cases_length t; simp only [List.length_append]; omega)]
    rfl

/-! ## Functions -/

/-- What the reader answers for a function. -/
def Fn.read (f : Fn) : Nat × Option Ty × List (Option Ty) × List Instr := (f.id, f.ret, f.params.map some, f.code)

/-- A function that is printed. -/
def PrintableFn (env : Env) (ref : List Nat → Option Nat) (f : Fn) : Prop :=
  NameOk (env.name f.id) ∧ ref (env.name f.id) = some f.id ∧ ∀ i ∈ f.code, Printable env.name ref i

theorem ok_code (env : Env) (ref : List Nat → Option Nat) : ∀ (c : List Instr) (l : List Seg), (∀ i ∈ c, Printable env.name ref i) → Ok l →
    Ok (c.flatMap (segs env) ++ l)
  | [], _, _, hl => hl
  | i :: c, l, h, hl => by
    rw [List.flatMap_cons, List.append_assoc]
    exact ok_append (ok_segs env ref i (h i (by simp))) (ok_code env ref c l (fun j hj => h j (by simp [hj])) hl)

theorem ok_fn (env : Env) (ref : List Nat → Option Nat) (f : Fn) (h : PrintableFn env ref f) : Ok (fnSegs env f) := by
  have h1 := ok_code env ref f.code [.lit "}\n\n"] h.2.2 (ok_lit (by decide +kernel) ok_nil)
  have h2 := ok_params (f.params.map some) _ (ok_lit (s := " {\n") (by decide +kernel) h1)
  have h3 := ok_lit (ret_sp' f.ret) (ok_wd (w_fn h.1) (s := "(") (by decide +kernel) (ok_lit (by decide +kernel) h2))
  have h4 := ok_lit (s := "define ") (by decide +kernel) h3
  unfold fnSegs
  simpa only [List.cons_append, List.append_assoc] using h4

/-- An instruction does not begin with a bracket. -/
theorem readBody_step {tab : Tab} {r r' : List Tok} {i : Instr} (h : readI tab r = some (i, r')) (n : Nat) :
    readBody tab (n + 1) r = (readBody tab n r').bind fun x => some (i :: x.1, x.2) := by
  cases r with
  | nil => exact absurd h (by simp [readI])
  | cons t r =>
    have hb : t ≠ .rcurl := by
      rintro rfl
      exact absurd h (by simp [readI])
    rw [readBody]
    · rw [h]; rfl
    · intro q e
      exact hb (List.cons.inj e).1

theorem read_body (env : Env) {ref : List Nat → Option Nat} (r : List Tok) : ∀ (c : List Instr) (n : Nat),
    (∀ i ∈ c, Printable env.name ref i) → c.length < n →
    readBody (tabOf env ref) n (toks (c.flatMap (segs env)) ++ .rcurl :: r) = some (c, r)
  | [], n + 1, _, _ => rfl
  | i :: c, n + 1, h, hn => by
    rw [List.flatMap_cons, toks_append, List.append_assoc, readBody_step (read_segs env i (h i (by simp)) _),
      read_body env r c n (fun j hj => h j (by simp [hj])) (by simp only [List.length_cons] at hn; omega)]
    rfl

/-- Every instruction has words. -/
theorem segs_length (env : Env) {ref : List Nat → Option Nat} (i : Instr) (h : Printable env.name ref i) : 1 ≤ (toks (segs env i)).length := by
  have hr := read_segs env i h []
  cases e : toks (segs env i) with
  | nil => rw [e] at hr; exact absurd hr (by simp [readI])
  | cons _ _ => simp

theorem code_length (env : Env) {ref : List Nat → Option Nat} : ∀ c : List Instr, (∀ i ∈ c, Printable env.name ref i) →
    c.length ≤ (toks (c.flatMap (segs env))).length
  | [], _ => by simp
  | i :: c, h => by
    have h1 := segs_length env i (h i (by simp))
    have h2 := code_length env c fun j hj => h j (by simp [hj])
    rw [List.flatMap_cons, toks_append, List.length_append, List.length_cons]
    omega

theorem read_fn (env : Env) {ref : List Nat → Option Nat} (f : Fn) (h : PrintableFn env ref f) (r : List Tok) :
    readFn (tabOf env ref) (toks (fnSegs env f) ++ r) = some (f.read, r) := by
  unfold fnSegs
  simp only [List.cons_append, toks, toks_append, ret_sp, lit0, lit1, lit2, lit3, lit4, lit5, lit6, lit7, lit8, lit9, lit10, lit11, lit12, lit13, lit14, lit15, lit16, lit17, lit18, lit19, lit20, lit21, lit22, lit23, lit24, lit25, lit26, lit27, lit28, lit29, lit30, lit31, lit32, lit33, lit34, lit35, lit36, lit37, lit38, lit39, lit40, lit41, lit42, classify_fn h.1, List.append_assoc, List.nil_append, List.append_nil]
  simp only [readFn]
  rw [read_ret]
  simp only [bind_some']
  rw [show (tabOf env ref).fn (env.name f.id) = some f.id from h.2.1]
  simp only [bind_some']
  rw [read_params _ _ _ (by have := params_length (f.params.map some); simp only [List.length_append]; omega)]
  simp only [bind_some', expect_cons, expect_nil]
  rw [read_body env r f.code _ h.2.2 (by have := code_length env f.code h.2.2; simp only [List.length_append]; omega)]
  rfl

theorem ok_fns (env : Env) (ref : List Nat → Option Nat) : ∀ fs : List Fn, (∀ f ∈ fs, PrintableFn env ref f) → Ok (fs.flatMap (fnSegs env))
  | [], _ => trivial
  | f :: fs, h => by
    rw [List.flatMap_cons]
    exact ok_append (ok_fn env ref f (h f (by simp))) (ok_fns env ref fs fun g hg => h g (by simp [hg]))

theorem fn_head (env : Env) (f : Fn) : ∃ q, toks (fnSegs env f) = .kw .define :: q := by
  unfold fnSegs
  simp only [List.cons_append, toks, lit0, lit1, lit2, lit3, lit4, lit5, lit6, lit7, lit8, lit9, lit10, lit11, lit12, lit13, lit14, lit15, lit16, lit17, lit18, lit19, lit20, lit21, lit22, lit23, lit24, lit25, lit26, lit27, lit28, lit29, lit30, lit31, lit32, lit33, lit34, lit35, lit36, lit37, lit38, lit39, lit40, lit41, lit42, List.nil_append]
  exact ⟨_, rfl⟩

theorem read_fns (env : Env) {ref : List Nat → Option Nat} : ∀ (fs : List Fn) (n : Nat), (∀ f ∈ fs, PrintableFn env ref f) → fs.length ≤ n →
    readFns (tabOf env ref) n (toks (fs.flatMap (fnSegs env))) = some (fs.map Fn.read)
  | [], n, _, _ => by cases n <;> rfl
  | f :: fs, n + 1, h, hn => by
    rw [List.flatMap_cons, toks_append]
    have hr := read_fn env f (h f (by simp)) (toks (fs.flatMap (fnSegs env)))
    obtain ⟨q, e⟩ := fn_head env f
    rw [e, List.cons_append] at hr ⊢
    rw [readFns, hr]
    simp only [bind_some']
    rw [read_fns env fs n (fun g hg => h g (by simp [hg])) (by simp only [List.length_cons] at hn; omega)]
    rfl

theorem fns_length (env : Env) : ∀ fs : List Fn, fs.length ≤ (toks (fs.flatMap (fnSegs env))).length
  | [] => by simp
  | f :: fs => by
    have ih := fns_length env fs
    obtain ⟨q, e⟩ := fn_head env f
    rw [List.flatMap_cons, toks_append, e]
    simp only [List.length_append, List.length_cons]
    omega

end RuC.LlvmText
