import Verif.Codegen.Units

/-!
# The functions the code of a unit refers to
-/

namespace RuC.Codegen

open RuC RuC.Instr
open RuC.Expr (Unary Binary)

/-- A cell refers to functions of these lists only: called ones and passed ones. -/
def SymIn (C P : List Nat) : Sym → Prop
  | .fn f => f ∈ C
  | .fnOp f | .fnArg f => f ∈ P
  | _ => True

def AllIn (C P : List Nat) (A : List Sym) : Prop := ∀ x ∈ A, SymIn C P x

theorem SymIn.mono {C P C' P' x} (h : SymIn C P x) (hc : ∀ f ∈ C, f ∈ C') (hp : ∀ f ∈ P, f ∈ P') : SymIn C' P' x := by
  cases x <;> simp_all [SymIn]

theorem AllIn.mono {C P C' P' A} (h : AllIn C P A) (hc : ∀ f ∈ C, f ∈ C') (hp : ∀ f ∈ P, f ∈ P') : AllIn C' P' A :=
  fun x hx => (h x hx).mono hc hp

theorem AllIn.append {C P A B} (hA : AllIn C P A) (hB : AllIn C P B) : AllIn C P (A ++ B) := by
  intro x hx
  rcases List.mem_append.1 hx with h | h
  · exact hA x h
  · exact hB x h

theorem allIn_vals (C P l) : AllIn C P (vals l) := by
  intro x hx
  simp only [vals, List.mem_map] at hx
  obtain ⟨v, _, rfl⟩ := hx
  trivial

theorem allIn_nil (C P) : AllIn C P [] := by intro x hx; cases hx

theorem AllIn.left {C P A} (h : AllIn C P A) (C' P') : AllIn (C ++ C') (P ++ P') A :=
  h.mono (fun _ hf => List.mem_append_left _ hf) (fun _ hf => List.mem_append_left _ hf)

theorem AllIn.right {C P A} (h : AllIn C P A) (C' P') : AllIn (C' ++ C) (P' ++ P) A :=
  h.mono (fun _ hf => List.mem_append_right _ hf) (fun _ hf => List.mem_append_right _ hf)

theorem AllIn.add {C P A} (h : AllIn C P A) (l) : AllIn C P (A ++ vals l) := h.append (allIn_vals _ _ _)

/-- One behind the other. -/
theorem AllIn.both {C P A C' P' B} (hA : AllIn C P A) (hB : AllIn C' P' B) : AllIn (C ++ C') (P ++ P') (A ++ B) :=
  (hA.left _ _).append (hB.right _ _)

theorem AllIn.voidCode {C P A} (h : AllIn C P A) : AllIn C P (voidCode A) := by
  intro x hx
  obtain ⟨i, hi⟩ := List.getElem?_of_mem hx
  cases x
  case val => trivial
  all_goals exact h _ (List.mem_of_getElem? ((voidCode_get A i _ (by simp)).1 hi))

theorem AllIn.fill {C P A} (h : AllIn C P A) (k v) : AllIn C P (fill k v A) := by
  intro x hx
  cases x
  case val => trivial
  all_goals exact h _ (mem_fill hx (by simp)).1

theorem AllIn.toLabel {C P A} (h : AllIn C P A) (l) : AllIn C P (toLabel l A) := by
  cases l with
  | none => exact h
  | some l => exact h.fill _ _

theorem AllIn.member {C P p} (h : AllIn C P p.1) (off t) : AllIn C P (memberCode off t p).1 := by
  obtain ⟨B, lv⟩ := p
  cases lv with
  | var _ _ => exact h
  | addr _ => exact h.add _

theorem AllIn.indirection {C P p} (h : AllIn C P p.1) (t) : AllIn C P (indirectionCode t p).1 := by
  obtain ⟨B, lv⟩ := p
  cases lv with
  | var _ _ => exact h.add _
  | addr _ => exact h

mutual
theorem codeE_in (D : Nat → Int) : ∀ (e : Exp) (base : Nat), AllIn e.calls e.passes (codeE D base e)
  | .lit v, base | .flit cells, base | .str chars, base | .ident id t, base | .paramArg p, base | .initArg n cells, base => allIn_vals _ _ _
  | .subscript b i t, base => by
    rw [codeE, Exp.calls, Exp.passes]
    exact ((codeE_in D b base).both (codeE_in D i _)).add _
  | .arrow b off t, base => by rw [codeE, Exp.calls, Exp.passes]; exact (codeE_in D b base).add _
  | .dot b off n t, base => by
    rw [codeE, Exp.calls, Exp.passes]
    split
    · exact ((codeL_in D b base).member off t).add _
    · exact (codeE_in D b base).add _
  | .deref e t, base => by rw [codeE, Exp.calls, Exp.passes]; exact ((codeL_in D e base).indirection t).add _
  | .call f args, base => by
    rw [codeE, Exp.calls, Exp.passes]
    refine AllIn.append (AllIn.append (allIn_vals _ _ _) ((codeA_in D args _).mono (fun _ h => List.mem_cons_of_mem _ h) (fun _ h => h))) ?_
    intro x hx
    simp at hx
    rcases hx with rfl | rfl
    · trivial
    · exact List.mem_cons_self
  | .callParam p args, base => by
    rw [codeE, Exp.calls, Exp.passes]; exact (AllIn.append (allIn_vals _ _ _) (codeA_in D args _)).add _
  | .builtin f args, base => by rw [codeE, Exp.calls, Exp.passes]; exact (codeA_in D args _).add _
  | .printf fmt args n, base => by rw [codeE, Exp.calls, Exp.passes]; exact ((codeA_in D args base).both (codeE_in D fmt _)).add _
  | .print e t, base => by rw [codeE, Exp.calls, Exp.passes]; exact (codeE_in D e base).add _
  | .both a b, base => by rw [codeE, Exp.calls, Exp.passes]; exact (codeE_in D a base).both (codeE_in D b _)
  | .cast w e, base => by rw [codeE, Exp.calls, Exp.passes]; exact (codeE_in D e base).add _
  | .incdec op e t, base => by rw [codeE, Exp.calls, Exp.passes]; exact (codeL_in D e base).add _
  | .address e, base => by rw [codeE, Exp.calls, Exp.passes]; exact (codeL_in D e base).add _
  | .unary op e t, base => by rw [codeE, Exp.calls, Exp.passes]; exact (codeE_in D e base).add _
  | .upb e, base => by rw [codeE, Exp.calls, Exp.passes]; exact (AllIn.append (allIn_vals _ _ _) (codeE_in D e _)).add _
  | .binary op l r fl, base => by
    rw [codeE, Exp.calls, Exp.passes]
    simp only
    split
    · exact (((codeE_in D l base).add _).both (codeE_in D r _)).add _
    · exact ((codeE_in D l base).both (codeE_in D r _)).add _
  | .comma l r, base => by
    rw [codeE, Exp.calls, Exp.passes]
    refine AllIn.both ?_ (codeE_in D r _)
    split
    · exact codeL_in D l base
    · exact (codeE_in D l base).voidCode
  | .ternary c a b, base => by
    rw [codeE, Exp.calls, Exp.passes]
    exact ((((codeE_in D c base).add _).both (codeE_in D a _)).add _).both (codeE_in D b _)
  | .assign op l r t, base => by rw [codeE, Exp.calls, Exp.passes]; exact ((codeL_in D l base).both (codeE_in D r _)).add _
  | .init array n items, base => by rw [codeE, Exp.calls, Exp.passes]; exact AllIn.append (allIn_vals _ _ _) (codeA_in D items _)
  | .funArg f, base => by
    intro x hx
    simp [codeE] at hx
    rcases hx with rfl | rfl <;> exact List.mem_cons_self

theorem codeL_in (D : Nat → Int) : ∀ (e : Exp) (base : Nat), AllIn e.calls e.passes (codeL D base e).1
  | .ident id t, base => allIn_nil _ _
  | .subscript b i t, base => by
    rw [codeL, Exp.calls, Exp.passes]
    exact ((codeE_in D b base).both (codeE_in D i _)).add _
  | .arrow b off t, base => by rw [codeL, Exp.calls, Exp.passes]; exact (codeE_in D b base).add _
  | .dot b off n t, base => by rw [codeL, Exp.calls, Exp.passes]; exact (codeL_in D b base).member off t
  | .deref e t, base => by rw [codeL, Exp.calls, Exp.passes]; exact (codeL_in D e base).indirection t
  | .incdec op e t, base => by rw [codeL, Exp.calls, Exp.passes]; exact (codeL_in D e base).indirection t
  | .unary op e t, base => by rw [codeL, Exp.calls, Exp.passes]; exact (codeL_in D e base).indirection t
  | .address e, base => by rw [codeL, Exp.calls, Exp.passes]; exact (codeL_in D e base).indirection _
  | .upb e, base => by rw [codeL, Exp.calls, Exp.passes]; exact (codeL_in D e base).indirection _
  | .lit _, base | .flit _, base | .str _, base | .call _ _, base | .callParam _ _, base | .builtin _ _, base | .printf _ _ _, base | .print _ _, base
  | .both _ _, base | .cast _ _, base | .binary _ _ _ _, base | .comma _ _, base | .ternary _ _ _, base | .assign _ _ _ _, base | .init _ _ _, base
  | .funArg _, base | .paramArg _, base | .initArg _ _, base => allIn_nil _ _

theorem codeA_in (D : Nat → Int) : ∀ (as : Args) (base : Nat), AllIn as.calls as.passes (codeA D base as)
  | .nil, base => allIn_nil _ _
  | .cons e rest, base => by
    rw [codeA, Args.calls, Args.passes]
    exact (codeE_in D e base).both (codeA_in D rest _)
end

theorem codeV_in (D : Nat → Int) (e : Exp) (base : Nat) : AllIn e.calls e.passes (codeV D base e) := by
  unfold codeV
  split
  · exact codeL_in D e base
  · exact (codeE_in D e base).voidCode

theorem codeOpt_in (D : Nat → Int) (o : Option Exp) (base : Nat) : AllIn (callsO o) (passesO o) (codeOpt D base o) := by
  cases o with
  | none => exact allIn_nil _ _
  | some e => exact codeE_in D e base

theorem codeOptV_in (D : Nat → Int) (o : Option Exp) (base : Nat) : AllIn (callsO o) (passesO o) (codeOptV D base o) := by
  cases o with
  | none => exact allIn_nil _ _
  | some e => exact codeV_in D e base

theorem AllIn.join {C P C' P' X Y} (hX : AllIn C P X.code) (hY : AllIn C' P' Y.code) : AllIn (C ++ C') (P ++ P') (Piece.join X Y).code :=
  (hX.toLabel _).both hY

theorem AllIn.joinVals {C P X l} (hX : AllIn C P X.code) : AllIn C P (Piece.join X (plain (vals l))).code :=
  (hX.toLabel _).add _

theorem codeS_in : ∀ (s : Stmt) (L : Layout) (base : Nat), AllIn s.calls s.passes (codeS L base s).code
  | .skip, L, base => allIn_nil _ _
  | .seq x y, L, base => by rw [codeS, Stmt.calls, Stmt.passes]; exact (codeS_in x L base).join (codeS_in y _ _)
  | .block s, L, base => by rw [codeS, Stmt.calls, Stmt.passes]; exact codeS_in s L base
  | .var id t p i, L, base => by
    rw [codeS, Stmt.calls, Stmt.passes]
    show AllIn _ _ (codeVar _ _ _ _ _ _)
    unfold codeVar
    cases i with
    | none => exact allIn_vals _ _ _
    | some e => exact (AllIn.append (allIn_vals _ _ _) (codeE_in _ e _)).add _
  | .arr id bs n em t p i, L, base => by
    rw [codeS, Stmt.calls, Stmt.passes]
    show AllIn _ _ (codeArr _ _ _ _ _ _ _ _ _ _)
    unfold codeArr
    cases i with
    | none => exact ((codeA_in _ bs _).left _ _).add _
    | some e => exact (((codeA_in _ bs _).add _).both (codeE_in _ e _)).add _
  | .expr e, L, base => by rw [codeS, Stmt.calls, Stmt.passes]; exact codeV_in _ e base
  | .case e s, L, base => by
    rw [codeS, Stmt.calls, Stmt.passes]
    refine AllIn.join ?_ (codeS_in s L _)
    refine AllIn.append ((AllIn.append (allIn_vals _ _ _) (codeE_in _ e _)).add _) ?_
    intro x hx
    simp at hx; subst hx; trivial
  | .default s, L, base => by
    rw [codeS, Stmt.calls, Stmt.passes]
    exact AllIn.join (C := []) (P := []) (allIn_nil _ _) (codeS_in s L _)
  | .if_ e s, L, base => by
    rw [codeS, Stmt.calls, Stmt.passes]
    exact AllIn.join ((codeE_in _ e _).add _) (codeS_in s L _)
  | .ifElse e x y, L, base => by
    rw [codeS, Stmt.calls, Stmt.passes]
    exact AllIn.join (AllIn.joinVals (AllIn.join ((codeE_in _ e _).add _) (codeS_in x L _))) (codeS_in y _ _)
  | .switch e s, L, base => by
    rw [codeS, Stmt.calls, Stmt.passes]
    exact (codeE_in _ e _).both (((codeS_in s L _).fill _ _).fill _ _)
  | .while_ e s, L, base => by
    rw [codeS, Stmt.calls, Stmt.passes]
    exact AllIn.joinVals (AllIn.join ((codeE_in _ e _).add _) (((codeS_in s L _).fill _ _).fill _ _))
  | .do_ s e, L, base => by
    rw [codeS, Stmt.calls, Stmt.passes]
    exact AllIn.append ((((codeS_in s L _).fill _ _).fill _ _).toLabel _ |>.right _ _) (((codeE_in _ e _).add _).left _ _)
  | .for_ i e n s, L, base => by
    rw [codeS, Stmt.calls, Stmt.passes]
    refine AllIn.append (((AllIn.append (((AllIn.join (codeS_in i L _) ((codeOpt_in _ e _).add _)).toLabel _).left _ _ |>.left _ _)
      ((((codeS_in s _ _).fill _ _).fill _ _).right _ _))).toLabel _) ?_
    exact (((codeOptV_in _ n _).add _).right _ _).left _ _
  | .continue_, L, base => by
    intro x hx
    simp [codeS, plain] at hx; rcases hx with rfl | rfl <;> trivial
  | .break_, L, base => by
    intro x hx
    simp [codeS, plain] at hx; rcases hx with rfl | rfl <;> trivial
  | .return_ none, L, base => allIn_vals _ _ _
  | .return_ (some (e, n)), L, base => by rw [codeS, Stmt.calls, Stmt.passes]; exact (codeE_in _ e _).add _

theorem codeT_in (t : Top) (L : Layout) (base : Nat) : AllIn t.calls t.passes (codeT L base t) := by
  cases t with
  | vars s => exact codeS_in s L base
  | func f => exact (AllIn.append (allIn_vals _ _ _) (codeS_in f.body _ _)).add _

end RuC.Codegen
