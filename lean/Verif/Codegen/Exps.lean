import Verif.Codegen.Lemmas

/-!
# Emitting an expression appends its code
-/

namespace RuC.Codegen

open RuC RuC.Instr
open RuC.Expr (Unary Binary)

mutual
/-- The initialisers are not empty, as the parser demands. -/
def Exp.Wf : Exp → Prop
  | .subscript b i _ => b.Wf ∧ i.Wf
  | .arrow b _ _ | .dot b _ _ _ => b.Wf
  | .deref e _ | .print e _ | .cast _ e | .incdec _ e _ | .address e | .unary _ e _ | .upb e => e.Wf
  | .call _ args | .callParam _ args | .builtin _ args => args.Wf
  | .printf fmt args _ => fmt.Wf ∧ args.Wf
  | .both a b | .comma a b | .binary _ a b _ | .assign _ a b _ => a.Wf ∧ b.Wf
  | .ternary c a b => c.Wf ∧ a.Wf ∧ b.Wf
  | .init array _ items => (array = true ∨ items ≠ .nil) ∧ items.Wf
  | _ => True
/-- The same of a list. -/
def Args.Wf : Args → Prop
  | .nil => True
  | .cons e rest => e.Wf ∧ rest.Wf
end

/-! ### How the code of an expression starts and ends -/

/-- The code starts with an instruction. -/
def Starts : List Sym → Prop
  | .val v :: _ => MIN_INSTRUCTION_CODE ≤ v
  | .fnOp _ :: _ => True
  | _ => False

theorem Starts.append {A : List Sym} (h : Starts A) (B) : Starts (A ++ B) := by
  cases A with
  | nil => cases h
  | cons x A => cases x <;> simp_all [Starts]

theorem Starts.ne {A : List Sym} (h : Starts A) : A ≠ [] := by
  rintro rfl; cases h

theorem starts_vals {v : Int} {A} (h : MIN_INSTRUCTION_CODE ≤ v) : Starts (.val v :: A) := h

/-- The code ends with a number, with a call, or with a function as a value. -/
def EndOk (A : List Sym) : Prop :=
  ∀ B x, A = B ++ [x] → (∃ v, x = .val v) ∨ (∃ f C, x = .fn f ∧ B = C ++ [.val IC_CALL2]) ∨ (∃ f C, x = .fnArg f ∧ B = C ++ [.fnOp f])

theorem EndOk.append {B : List Sym} (h : EndOk B) (hne : B ≠ []) (A) : EndOk (A ++ B) := by
  intro C x e
  have hB : B = B.dropLast ++ [B.getLast hne] := (List.dropLast_concat_getLast hne).symm
  rw [hB, ← List.append_assoc] at e
  have e2 := List.append_inj' e (by simp)
  have ex : B.getLast hne = x := by simpa using e2.2
  rcases h _ _ hB with ⟨v, hv⟩ | ⟨f, D, h1, h2⟩ | ⟨f, D, h1, h2⟩
  · exact .inl ⟨v, ex ▸ hv⟩
  · exact .inr (.inl ⟨f, A ++ D, ex ▸ h1, by rw [← e2.1, h2, List.append_assoc]⟩)
  · exact .inr (.inr ⟨f, A ++ D, ex ▸ h1, by rw [← e2.1, h2, List.append_assoc]⟩)

theorem endOk_nil : EndOk [] := by
  intro B x e; simp at e

theorem endOk_vals (l) : EndOk (vals l) := by
  intro B x e
  refine .inl ?_
  have : x ∈ vals l := by rw [e]; simp
  simp only [vals, List.mem_map] at this
  obtain ⟨v, _, h⟩ := this
  exact ⟨v, h.symm⟩

theorem EndOk.vals {A : List Sym} (h : EndOk A) (l) : EndOk (A ++ vals l) := by
  cases l with
  | nil => simpa using h
  | cons x l => exact (endOk_vals (x :: l)).append (by simp) A

theorem endOk_vals_append (A) (v) (l) : EndOk (A ++ Codegen.vals (v :: l)) := (endOk_vals (v :: l)).append (by simp) A

/-- No holes but those of functions. -/
def NoHole (A : List Sym) : Prop := ∀ x ∈ A, x ≠ .brk ∧ x ≠ .cont ∧ x ≠ .next

theorem noHole_append {A B} : NoHole (A ++ B) ↔ NoHole A ∧ NoHole B := by
  simp only [NoHole, List.mem_append]
  constructor
  · intro h; exact ⟨fun x hx => h x (.inl hx), fun x hx => h x (.inr hx)⟩
  · rintro ⟨h1, h2⟩ x (hx | hx)
    · exact h1 x hx
    · exact h2 x hx

@[simp] theorem noHole_vals (l) : NoHole (vals l) := by
  intro x hx
  simp only [vals, List.mem_map] at hx
  obtain ⟨v, _, rfl⟩ := hx
  simp

@[simp] theorem noHole_nil : NoHole [] := by intro x hx; cases hx

theorem voidHead_cases (r : List Sym) : (∃ u t, r = .val u :: t ∧ voidHead r = .val (toVoid u) :: t) ∨ (voidHead r = r ∧ ∀ u t, r ≠ .val u :: t) := by
  cases r with
  | nil => right; simp [voidHead]
  | cons x t =>
    cases x
    case val v => left; exact ⟨v, t, rfl, rfl⟩
    all_goals right; simp [voidHead]

/-- The ways `voidCode` goes. -/
theorem voidCode_cases (A : List Sym) :
    voidCode A = A ∧ (∀ B v, A ≠ B ++ [.val v]) ∨
    (∃ B v, A = B ++ [.val v] ∧ MIN_INSTRUCTION_CODE ≤ v ∧ voidCode A = B ++ [.val (toVoid v)]) ∨
    (∃ B u v, A = B ++ [.val u, .val v] ∧ v < MIN_INSTRUCTION_CODE ∧ voidCode A = B ++ [.val (toVoid u), .val v]) ∨
    (∃ B v, A = B ++ [.val v] ∧ v < MIN_INSTRUCTION_CODE ∧ voidCode A = A ∧ ∀ C u, B ≠ C ++ [.val u]) := by
  have key : ∀ R : List Sym, A.reverse = R → A = R.reverse := by
    intro R h; rw [← h, List.reverse_reverse]
  cases hR : A.reverse with
  | nil =>
    left
    have := key _ hR
    subst this
    refine ⟨rfl, ?_⟩
    intro B v; simp
  | cons x r =>
    have hA : A = r.reverse ++ [x] := by rw [key _ hR]; simp
    cases x
    case val v =>
      right
      by_cases hv : v < MIN_INSTRUCTION_CODE
      · right
        rcases voidHead_cases r with ⟨u, t, hr, hvh⟩ | ⟨hvh, hno⟩
        · left
          refine ⟨t.reverse, u, v, ?_, hv, ?_⟩
          · rw [hA, hr]; simp
          · rw [voidCode, hR]; simp only; rw [if_pos hv, hvh]; simp
        · right
          refine ⟨r.reverse, v, hA, hv, ?_, ?_⟩
          · rw [voidCode, hR]; simp only; rw [if_pos hv, hvh, ← hR, List.reverse_reverse]
          · intro C u e
            apply hno u C.reverse
            have := congrArg List.reverse e
            simpa using this
      · left
        refine ⟨r.reverse, v, hA, by omega, ?_⟩
        rw [voidCode, hR]; simp only; rw [if_neg hv]; simp
    all_goals
      left
      refine ⟨by rw [voidCode, hR], ?_⟩
      intro B v e
      rw [hA] at e
      have := List.append_inj' e (by simp)
      simp at this

theorem voidCode_length (A) : (voidCode A).length = A.length := by
  rcases voidCode_cases A with ⟨e, _⟩ | ⟨B, v, e1, _, e2⟩ | ⟨B, u, v, e1, _, e2⟩ | ⟨B, v, e1, _, e2, _⟩
  · rw [e]
  · rw [e2, e1]; simp
  · rw [e2, e1]; simp
  · rw [e2]

theorem toVoid_ge {v : Int} (h : MIN_INSTRUCTION_CODE ≤ v) : MIN_INSTRUCTION_CODE ≤ toVoid v := by
  unfold toVoid; split <;> omega

theorem voidCode_starts {A : List Sym} (h : Starts A) : Starts (voidCode A) := by
  rcases voidCode_cases A with ⟨e, _⟩ | ⟨B, v, e1, hv, e2⟩ | ⟨B, u, v, e1, _, e2⟩ | ⟨B, v, e1, _, e2, _⟩
  · rwa [e]
  · rw [e2]
    cases B with
    | nil => exact toVoid_ge hv
    | cons x B => rw [e1] at h; cases x <;> simp_all [Starts]
  · rw [e2]
    cases B with
    | nil => rw [e1] at h; exact toVoid_ge h
    | cons x B => rw [e1] at h; cases x <;> simp_all [Starts]
  · rwa [e2]

theorem getElem?_snoc {α} (B : List α) (x y : α) (i : Nat) (h : (B ++ [x])[i]? = some y) : B[i]? = some y ∨ i = B.length ∧ x = y := by
  rw [List.getElem?_append] at h
  split at h
  · exact .inl h
  · rename_i hi
    right
    cases hj : i - B.length with
    | zero => rw [hj] at h; simp at h; exact ⟨by omega, h⟩
    | succ n => rw [hj] at h; simp at h

/-- `voidCode` changes numbers only. -/
theorem voidCode_get (A : List Sym) (i : Nat) (y : Sym) (hy : ∀ v, y ≠ .val v) : (voidCode A)[i]? = some y ↔ A[i]? = some y := by
  have one : ∀ (B : List Sym) (u v : Int), (B ++ [.val u])[i]? = some y → (B ++ [.val v])[i]? = some y := by
    intro B u v h
    rcases getElem?_snoc _ _ _ _ h with h | ⟨_, h⟩
    · rw [List.getElem?_append_left]
      · exact h
      · rw [List.getElem?_eq_some_iff] at h; exact h.1
    · exact absurd h.symm (hy u)
  have two : ∀ (B : List Sym) (u v w : Int), (B ++ [.val u, .val w])[i]? = some y → (B ++ [.val v, .val w])[i]? = some y := by
    intro B u v w h
    have e1 : B ++ [.val u, .val w] = (B ++ [.val u]) ++ [.val w] := by simp
    have e2 : B ++ [.val v, .val w] = (B ++ [.val v]) ++ [.val w] := by simp
    rw [e1] at h
    rw [e2]
    rcases getElem?_snoc _ _ _ _ h with h | ⟨_, h⟩
    · have h2 := one _ _ v h
      rw [List.getElem?_append_left]
      · exact h2
      · rw [List.getElem?_eq_some_iff] at h2; exact h2.1
    · exact absurd h.symm (hy w)
  rcases voidCode_cases A with ⟨e, _⟩ | ⟨B, v, e1, _, e2⟩ | ⟨B, u, v, e1, _, e2⟩ | ⟨B, v, e1, _, e2, _⟩
  · rw [e]
  · rw [e2, e1]; exact ⟨one _ _ _, one _ _ _⟩
  · rw [e2, e1]; exact ⟨two _ _ _ _, two _ _ _ _⟩
  · rw [e2]

theorem noHole_voidCode {A} (h : NoHole A) : NoHole (voidCode A) := by
  intro x hx
  obtain ⟨i, hi⟩ := List.getElem?_of_mem hx
  cases x
  case val => simp
  all_goals
    have := (voidCode_get A i _ (by simp)).1 hi
    exact h _ (List.mem_of_getElem? this)

/-! ### Instructions are no small numbers -/

theorem builtin_ge (f) : MIN_INSTRUCTION_CODE ≤ builtinToInstruction f := by
  have key : ∀ (c : Prop) [Decidable c] (a b : Int), MIN_INSTRUCTION_CODE ≤ a → MIN_INSTRUCTION_CODE ≤ b → MIN_INSTRUCTION_CODE ≤ if c then a else b := by
    intro c _ a b ha hb; split <;> assumption
  unfold builtinToInstruction
  repeat' (refine key _ _ _ (by decide) ?_)
  decide

theorem unary_ge (op) : MIN_INSTRUCTION_CODE ≤ unaryToInstruction op := by cases op <;> decide

theorem binary_ge (op) : MIN_INSTRUCTION_CODE ≤ binaryToInstruction op := by cases op <;> decide

theorem incdec_starts (op t lv) : ∃ v l, incdecCells op t lv = v :: l ∧ MIN_INSTRUCTION_CODE ≤ v := by
  cases lv with
  | var d _ => refine ⟨_, _, rfl, ?_⟩; split <;> cases op <;> decide
  | addr _ => refine ⟨_, _, rfl, ?_⟩; split <;> cases op <;> decide

theorem load_var_starts (d t) : ∃ v l, loadCells (.var d t) = v :: l ∧ MIN_INSTRUCTION_CODE ≤ v := by
  cases t <;> exact ⟨_, _, rfl, by decide⟩

/-- What holds of the code of a place. -/
def LShape (p : List Sym × LV) : Prop := (Starts p.1 ∨ p.1 = [] ∧ ∃ d t, p.2 = .var d t) ∧ EndOk p.1 ∧ NoHole p.1

theorem LShape.vals {p} (h1 : LShape p) (l : List Int) (h : (∃ d t, p.2 = .var d t) → ∃ v r, l = v :: r ∧ MIN_INSTRUCTION_CODE ≤ v) :
    Starts (p.1 ++ Codegen.vals l) ∧ EndOk (p.1 ++ Codegen.vals l) ∧ NoHole (p.1 ++ Codegen.vals l) := by
  refine ⟨?_, h1.2.1.vals _, noHole_append.2 ⟨h1.2.2, noHole_vals _⟩⟩
  rcases h1.1 with h' | ⟨h', hv⟩
  · exact h'.append _
  · obtain ⟨v, r, rfl, hv⟩ := h hv
    rw [h']; exact starts_vals hv

theorem LShape.indirection {p : List Sym × LV} (h1 : LShape p) (t : Ty) : LShape (indirectionCode t p) := by
  obtain ⟨B, lv⟩ := p
  cases lv with
  | var d t' =>
    have := h1.vals [IC_LOAD, d] (fun _ => ⟨_, _, rfl, by decide⟩)
    exact ⟨.inl this.1, this.2⟩
  | addr t' =>
    refine ⟨?_, h1.2.1, h1.2.2⟩
    rcases h1.1 with h | ⟨_, d, t2, h⟩
    · exact .inl h
    · simp at h

theorem LShape.member {p : List Sym × LV} (h1 : LShape p) (off t) : LShape (memberCode off t p) := by
  obtain ⟨B, lv⟩ := p
  cases lv with
  | var d t' =>
    refine ⟨?_, h1.2.1, h1.2.2⟩
    rcases h1.1 with h | ⟨h, _⟩
    · exact .inl h
    · exact .inr ⟨h, _, _, rfl⟩
  | addr t' =>
    have := h1.vals ([IC_SELECT, off] ++ latIf (t = .array ∨ t = .pointer)) (fun _ => ⟨_, _, rfl, by decide⟩)
    exact ⟨.inl this.1, this.2⟩

theorem load_starts {lv : LV} (h : ∃ d t, lv = .var d t) : ∃ v r, loadCells lv = v :: r ∧ MIN_INSTRUCTION_CODE ≤ v := by
  obtain ⟨d, t, rfl⟩ := h; exact load_var_starts d t

mutual
theorem codeE_shape (D : Nat → Int) : ∀ (e : Exp) (base : Nat), e.Wf → Starts (codeE D base e) ∧ EndOk (codeE D base e) ∧ NoHole (codeE D base e)
  | .lit v, base, _ => ⟨starts_vals (by decide), endOk_vals _, noHole_vals _⟩
  | .flit cells, base, _ => ⟨starts_vals (by decide), endOk_vals _, noHole_vals _⟩
  | .str chars, base, _ => ⟨starts_vals (by decide), endOk_vals _, noHole_vals _⟩
  | .ident id t, base, _ => by
    obtain ⟨v, l, e, hv⟩ := load_var_starts (D id) t
    refine ⟨?_, endOk_vals _, noHole_vals _⟩
    show Starts (vals _)
    rw [e]; exact starts_vals hv
  | .subscript b i t, base, wf => by
    have h1 := codeE_shape D b base wf.1
    have h2 := codeE_shape D i (base + (codeE D base b).length) wf.2
    refine ⟨(h1.1.append _).append _, ?_, ?_⟩
    · exact endOk_vals_append _ _ _
    · exact noHole_append.2 ⟨noHole_append.2 ⟨h1.2.2, h2.2.2⟩, noHole_vals _⟩
  | .arrow b off t, base, wf => by
    have h1 := codeE_shape D b base wf
    exact ⟨h1.1.append _, endOk_vals_append _ _ _, noHole_append.2 ⟨h1.2.2, noHole_vals _⟩⟩
  | .dot b off n t, base, wf => by
    rw [codeE]
    split
    · exact ((codeL_shape D b base wf).member off t).vals _ load_starts
    · have h1 := codeE_shape D b base wf
      exact ⟨h1.1.append _, endOk_vals_append _ _ _, noHole_append.2 ⟨h1.2.2, noHole_vals _⟩⟩
  | .deref e t, base, wf => by
    rw [codeE]
    exact ((codeL_shape D e base wf).indirection t).vals _ load_starts
  | .call f args, base, wf => by
    have h1 := codeA_shape D args (base + 1) wf
    refine ⟨starts_vals (by decide), ?_, ?_⟩
    · show EndOk (_ ++ [Sym.val IC_CALL2, Sym.fn f])
      intro B x e
      have e' : (vals [IC_CALL1] ++ codeA D (base + 1) args ++ [Sym.val IC_CALL2]) ++ [Sym.fn f] = B ++ [x] := by
        rw [List.append_assoc _ [Sym.val IC_CALL2]]; exact e
      have e2 := List.append_inj' e' (by simp)
      have ex : Sym.fn f = x := by simpa using e2.2
      exact .inr (.inl ⟨f, _, ex.symm, e2.1.symm⟩)
    · refine noHole_append.2 ⟨noHole_append.2 ⟨noHole_vals _, h1.2.2⟩, ?_⟩
      intro x hx; simp at hx; rcases hx with rfl | rfl <;> simp
  | .callParam p args, base, wf => by
    have h1 := codeA_shape D args (base + 1) wf
    exact ⟨starts_vals (by decide), endOk_vals_append _ _ _, noHole_append.2 ⟨noHole_append.2 ⟨noHole_vals _, h1.2.2⟩, noHole_vals _⟩⟩
  | .builtin f args, base, wf => by
    have h1 := codeA_shape D args base wf
    refine ⟨?_, endOk_vals_append _ _ _, noHole_append.2 ⟨h1.2.2, noHole_vals _⟩⟩
    rw [codeE]
    rcases h1.1 with h | ⟨h, _⟩
    · exact h.append _
    · rw [h]; exact starts_vals (builtin_ge f)
  | .printf fmt args n, base, wf => by
    have h1 := codeA_shape D args base wf.2
    have h2 := codeE_shape D fmt (base + (codeA D base args).length) wf.1
    refine ⟨?_, endOk_vals_append _ _ _, noHole_append.2 ⟨noHole_append.2 ⟨h1.2.2, h2.2.2⟩, noHole_vals _⟩⟩
    rw [codeE]
    rcases h1.1 with h | ⟨h, _⟩
    · exact (h.append _).append _
    · simp only [h] at h2 ⊢; exact (h2.1.append _)
  | .print e t, base, wf => by
    have h1 := codeE_shape D e base wf
    exact ⟨h1.1.append _, endOk_vals_append _ _ _, noHole_append.2 ⟨h1.2.2, noHole_vals _⟩⟩
  | .both a b, base, wf => by
    have h1 := codeE_shape D a base wf.1
    have h2 := codeE_shape D b (base + (codeE D base a).length) wf.2
    exact ⟨h1.1.append _, h2.2.1.append h2.1.ne _, noHole_append.2 ⟨h1.2.2, h2.2.2⟩⟩
  | .cast w e, base, wf => by
    have h1 := codeE_shape D e base wf
    exact ⟨h1.1.append _, h1.2.1.vals _, noHole_append.2 ⟨h1.2.2, noHole_vals _⟩⟩
  | .incdec op e t, base, wf => by
    rw [codeE]
    exact (codeL_shape D e base wf).vals _ (fun _ => incdec_starts op t _)
  | .address e, base, wf => by
    rw [codeE]
    refine (codeL_shape D e base wf).vals _ ?_
    rintro ⟨d, t, h⟩
    rw [h]
    exact ⟨_, _, rfl, by decide⟩
  | .unary op e t, base, wf => by
    have h1 := codeE_shape D e base wf
    exact ⟨h1.1.append _, endOk_vals_append _ _ _, noHole_append.2 ⟨h1.2.2, noHole_vals _⟩⟩
  | .upb e, base, wf => by
    have h1 := codeE_shape D e (base + 2) wf
    exact ⟨starts_vals (by decide), endOk_vals_append _ _ _, noHole_append.2 ⟨noHole_append.2 ⟨noHole_vals _, h1.2.2⟩, noHole_vals _⟩⟩
  | .binary op l r fl, base, wf => by
    have h1 := codeE_shape D l base wf.1
    rw [codeE]
    simp only
    split
    · have h2 := codeE_shape D r (base + (codeE D base l).length + 3) wf.2
      exact ⟨((h1.1.append _).append _).append _, endOk_vals_append _ _ _,
        noHole_append.2 ⟨noHole_append.2 ⟨noHole_append.2 ⟨h1.2.2, noHole_vals _⟩, h2.2.2⟩, noHole_vals _⟩⟩
    · have h2 := codeE_shape D r (base + (codeE D base l).length) wf.2
      exact ⟨(h1.1.append _).append _, endOk_vals_append _ _ _, noHole_append.2 ⟨noHole_append.2 ⟨h1.2.2, h2.2.2⟩, noHole_vals _⟩⟩
  | .comma l r, base, wf => by
    rw [codeE]
    split
    · have h1 := codeL_shape D l base wf.1
      have h2 := codeE_shape D r (base + (codeL D base l).1.length) wf.2
      refine ⟨?_, h2.2.1.append h2.1.ne _, noHole_append.2 ⟨h1.2.2, h2.2.2⟩⟩
      rcases h1.1 with h | ⟨h, _⟩
      · exact h.append _
      · simp only [h] at h2 ⊢; exact h2.1
    · have h1 := codeE_shape D l base wf.1
      have h2 := codeE_shape D r (base + (voidCode (codeE D base l)).length) wf.2
      refine ⟨?_, h2.2.1.append h2.1.ne _, noHole_append.2 ⟨noHole_voidCode h1.2.2, h2.2.2⟩⟩
      apply Starts.append
      exact voidCode_starts h1.1
  | .ternary c a b, base, wf => by
    have h1 := codeE_shape D c base wf.1
    have h2 := codeE_shape D a (base + (codeE D base c).length + 2) wf.2.1
    have h3 := codeE_shape D b (base + (codeE D base c).length + 2 + (codeE D (base + (codeE D base c).length + 2) a).length + 2) wf.2.2
    exact ⟨(((h1.1.append _).append _).append _).append _, h3.2.1.append h3.1.ne _,
      noHole_append.2 ⟨noHole_append.2 ⟨noHole_append.2 ⟨noHole_append.2 ⟨h1.2.2, noHole_vals _⟩, h2.2.2⟩, noHole_vals _⟩, h3.2.2⟩⟩
  | .assign op l r t, base, wf => by
    have h1 := codeL_shape D l base wf.1
    have h2 := codeE_shape D r (base + (codeL D base l).1.length) wf.2
    have hne : ∃ v r, assignCells op t (codeL D base l).2 = v :: r := by
      cases t <;> cases (codeL D base l).2 <;> exact ⟨_, _, rfl⟩
    obtain ⟨v, r', ev⟩ := hne
    rw [codeE]
    rw [ev]
    refine ⟨?_, endOk_vals_append _ _ _, noHole_append.2 ⟨noHole_append.2 ⟨h1.2.2, h2.2.2⟩, noHole_vals _⟩⟩
    rcases h1.1 with h | ⟨h, _⟩
    · exact (h.append _).append _
    · simp only [h] at h2 ⊢; exact h2.1.append _
  | .init array n items, base, wf => by
    rw [codeE]
    cases array with
    | true =>
      have h1 := codeA_shape D items (base + 2) wf.2
      refine ⟨starts_vals (by decide), ?_, noHole_append.2 ⟨noHole_vals _, h1.2.2⟩⟩
      by_cases hn : codeA D (base + 2) items = []
      · simp only [if_true, vals_length, List.length_cons, List.length_nil, Nat.zero_add]
        rw [hn, List.append_nil]
        exact endOk_vals _
      · exact h1.2.1.append hn _
    | false =>
      have h1 := codeA_shape D items base wf.2
      simp only [Bool.false_eq_true, if_false, vals_nil, List.nil_append, List.length_nil, Nat.add_zero]
      refine ⟨?_, h1.2.1, h1.2.2⟩
      rcases h1.1 with h | ⟨_, h⟩
      · exact h
      · rcases wf.1 with h' | h'
        · cases h'
        · exact absurd h h'
  | .funArg f, base, _ => by
    refine ⟨trivial, ?_, ?_⟩
    · intro B x e
      have e' : [Sym.fnOp f] ++ [Sym.fnArg f] = B ++ [x] := e
      have e2 := List.append_inj' e' (by simp)
      have ex : Sym.fnArg f = x := by simpa using e2.2
      exact .inr (.inr ⟨f, [], ex.symm, by simp [← e2.1]⟩)
    · intro x hx; simp [codeE] at hx; rcases hx with rfl | rfl <;> simp
  | .paramArg p, base, _ => by
    refine ⟨starts_vals ?_, endOk_vals _, noHole_vals _⟩
    split <;> decide
  | .initArg n cells, base, _ => ⟨starts_vals (by decide), endOk_vals _, noHole_vals _⟩

theorem codeL_shape (D : Nat → Int) : ∀ (e : Exp) (base : Nat), e.Wf → LShape (codeL D base e)
  | .ident id t, base, _ => ⟨.inr ⟨rfl, _, _, rfl⟩, endOk_nil, noHole_nil⟩
  | .subscript b i t, base, wf => by
    have h1 := codeE_shape D b base wf.1
    have h2 := codeE_shape D i (base + (codeE D base b).length) wf.2
    refine ⟨.inl ((h1.1.append _).append _), ?_, ?_⟩
    · exact endOk_vals_append _ _ _
    · exact noHole_append.2 ⟨noHole_append.2 ⟨h1.2.2, h2.2.2⟩, noHole_vals _⟩
  | .arrow b off t, base, wf => by
    have h1 := codeE_shape D b base wf
    exact ⟨.inl (h1.1.append _), endOk_vals_append _ _ _, noHole_append.2 ⟨h1.2.2, noHole_vals _⟩⟩
  | .dot b off n t, base, wf => by rw [codeL]; exact (codeL_shape D b base wf).member off t
  | .deref e t, base, wf => by rw [codeL]; exact (codeL_shape D e base wf).indirection _
  | .incdec op e t, base, wf => by rw [codeL]; exact (codeL_shape D e base wf).indirection _
  | .unary op e t, base, wf => by rw [codeL]; exact (codeL_shape D e base wf).indirection _
  | .address e, base, wf => by rw [codeL]; exact (codeL_shape D e base wf).indirection _
  | .upb e, base, wf => by rw [codeL]; exact (codeL_shape D e base wf).indirection _
  | .lit _, base, _ | .flit _, base, _ | .str _, base, _ | .call _ _, base, _ | .callParam _ _, base, _ | .builtin _ _, base, _ | .printf _ _ _, base, _ | .print _ _, base, _
  | .both _ _, base, _ | .cast _ _, base, _ | .binary _ _ _ _, base, _ | .comma _ _, base, _ | .ternary _ _ _, base, _ | .assign _ _ _ _, base, _ | .init _ _ _, base, _
  | .funArg _, base, _ | .paramArg _, base, _ | .initArg _ _, base, _ => ⟨.inr ⟨rfl, _, _, rfl⟩, endOk_nil, noHole_nil⟩

theorem codeA_shape (D : Nat → Int) : ∀ (as : Args) (base : Nat), as.Wf →
    (Starts (codeA D base as) ∨ codeA D base as = [] ∧ as = .nil) ∧ EndOk (codeA D base as) ∧ NoHole (codeA D base as)
  | .nil, base, _ => ⟨.inr ⟨rfl, rfl⟩, endOk_nil, noHole_nil⟩
  | .cons e rest, base, wf => by
    have h1 := codeE_shape D e base wf.1
    have h2 := codeA_shape D rest (base + (codeE D base e).length) wf.2
    rw [codeA]
    refine ⟨.inl (h1.1.append _), ?_, noHole_append.2 ⟨h1.2.2, h2.2.2⟩⟩
    by_cases hn : codeA D (base + (codeE D base e).length) rest = []
    · rw [hn, List.append_nil]; exact h1.2.1
    · exact h2.2.1.append hn _
end

/-! ### Links that no patch of an expression statement changes -/

/-- The heads of the chains of calls are no instructions that have a version without a value. -/
def CalmH (h : Heads) : Prop := ∀ f, toVoid ((h.fn f).natAbs : Int) = ((h.fn f).natAbs : Int)

/-- No call of a function that is not defined yet has its operand at the address of such a number, and the code is not
larger than memory can be. -/
def Calm (base : Nat) (A : List Sym) : Prop :=
  (∀ i f, A[i]? = some (.fn f) → toVoid ((base + i : Nat) : Int) = ((base + i : Nat) : Int)) ∧ base + A.length < 4611686018427387904

theorem calm_append {base A B} (h : Calm base (A ++ B)) : Calm base A ∧ Calm (base + A.length) B := by
  obtain ⟨h1, h2⟩ := h
  rw [List.length_append] at h2
  refine ⟨⟨fun i f hi => h1 i f ?_, by omega⟩, ⟨fun i f hi => ?_, by omega⟩⟩
  · rw [List.getElem?_append_left]
    · exact hi
    · rw [List.getElem?_eq_some_iff] at hi; exact hi.1
  · have := h1 (A.length + i) f (by rw [List.getElem?_append_right (by omega)]; rw [Nat.add_sub_cancel_left]; exact hi)
    rwa [← Nat.add_assoc] at this

theorem calm_voidCode {base A} : Calm base (voidCode A) ↔ Calm base A := by
  unfold Calm
  rw [voidCode_length]
  constructor
  · rintro ⟨h1, h2⟩; exact ⟨fun i f hi => h1 i f ((voidCode_get A i _ (by simp)).2 hi), h2⟩
  · rintro ⟨h1, h2⟩; exact ⟨fun i f hi => h1 i f ((voidCode_get A i _ (by simp)).1 hi), h2⟩

theorem calmH_after {A : List Sym} : ∀ {h : Heads} {base : Nat}, CalmH h → Calm base A → CalmH (after h base A) := by
  induction A with
  | nil => intro h base hc _; exact hc
  | cons x A ih =>
    intro h base hc hA
    have e : x :: A = [x] ++ A := rfl
    rw [e] at hA
    obtain ⟨h1, h2⟩ := calm_append hA
    refine ih ?_ h2
    cases x
    case fn f =>
      simp only [step]
      split
      · intro g
        simp only [update]
        split
        · have := h1.1 0 f rfl
          simpa using this
        · exact hc g
      · exact hc
    all_goals exact hc

/-- The state allows the code to be appended. -/
def Ok (st : Enc) (A : List Sym) : Prop := CalmH st.heads ∧ Calm st.size A

theorem Ok.left {st A B} (h : Ok st (A ++ B)) : Ok st A := ⟨h.1, (calm_append h.2).1⟩
theorem Ok.placeholder {st A l B} (l') (h : Ok (app st (A ++ vals l)) B) (hl : l.length = l'.length) : Ok (app st (A ++ vals l')) B := by
  obtain ⟨h1, h2⟩ := h
  simp only [app_heads, after_append, after_vals, app_size, List.length_append, vals_length, hl] at h1 h2
  exact ⟨by simpa only [app_heads, after_append, after_vals] using h1, by simpa only [app_size, List.length_append, vals_length] using h2⟩

theorem Ok.right {st A B} (h : Ok st (A ++ B)) : Ok (app st A) B :=
  ⟨calmH_after h.1 (calm_append h.2).1, by rw [app_size]; exact (calm_append h.2).2⟩

theorem get_app (st : Enc) (X : List Sym) (x : Sym) (Y : List Sym) :
    (app st (X ++ x :: Y)).get (st.size + X.length) = cell (after st.heads st.size X) x := by
  have hlen : (st.mem ++ conc st.heads st.size X).length = st.size + X.length := by simp [Enc.size]
  simp only [Enc.get, app, conc_append, conc, List.getD_eq_getElem?_getD]
  rw [← List.append_assoc, ← hlen, List.getElem?_append_right (Nat.le_refl _), Nat.sub_self]
  rfl

/-- Setting a cell to what it is. -/
theorem set_same (st : Enc) (i : Nat) : st.set i (st.get i) = st := by
  simp only [Enc.set, Enc.get]
  congr 1
  apply List.ext_getElem?
  intro j
  rw [List.getElem?_set]
  split
  · rename_i h; subst h
    split
    · rename_i h; simp [List.getD_eq_getElem?_getD, List.getElem?_eq_getElem h]
    · rename_i h; simp at h; simp [h]
  · rfl

/-- The patch of an expression statement. -/
theorem void_app {st : Enc} {A : List Sym} (h : Ok st A) (hs : Starts A) (he : EndOk A) (hn : NoHole A) :
    (app st A).void = app st (voidCode A) := by
  have hsz : (app st A).size = st.size + A.length := app_size st A
  have hb : st.size + A.length < 4611686018427387904 := h.2.2
  have hne : 0 < A.length := List.length_pos_iff.2 hs.ne
  -- cells that are no numbers do not change
  have fixed : ∀ (X : List Sym) (x : Sym) (Y : List Sym), A = X ++ x :: Y → (∀ v, x ≠ .val v) →
      (app st A).set (st.size + X.length) (toVoid ((app st A).get (st.size + X.length))) = app st A := by
    intro X x Y e hx
    have hg := get_app st X x Y
    rw [← e] at hg
    have ht : toVoid ((app st A).get (st.size + X.length)) = (app st A).get (st.size + X.length) := by
      rw [hg]
      have hok : Ok st X := by rw [e] at h; exact h.left
      have hcalm : CalmH (after st.heads st.size X) := calmH_after hok.1 hok.2
      have hmem : x ∈ A := by rw [e]; simp
      have := hn x hmem
      cases x
      case val v => exact absurd rfl (hx v)
      case fn f => exact hcalm f
      case fnArg f => exact hcalm f
      case fnOp f => simp only [cell]; split <;> decide
      all_goals simp at this
    rw [ht, set_same]
  have u1 : usub (app st A).size 1 = st.size + A.length - 1 := by rw [hsz, usub_of_le (by omega) (by omega)]
  rcases voidCode_cases A with ⟨e, hno⟩ | ⟨B, v, e1, hv, e2⟩ | ⟨B, u, v, e1, hv, e2⟩ | ⟨B, v, e1, hv, e2, hno⟩
  · -- the last cell is no number
    rw [e]
    have hA : A = A.dropLast ++ [A.getLast hs.ne] := (List.dropLast_concat_getLast hs.ne).symm
    have hx : ∀ v, A.getLast hs.ne ≠ .val v := by
      intro v hv; rw [hv] at hA; exact hno _ _ hA
    have hl : A.dropLast.length = A.length - 1 := by simp
    unfold Enc.void
    simp only
    split
    · -- the cell before
      have : ∃ C y, A.dropLast = C ++ [y] ∧ ((∃ v, y = .val v ∧ toVoid v = v) ∨ ∀ v, y ≠ .val v) := by
        rcases he _ _ hA with ⟨v, hv⟩ | ⟨f, C, h1, h2⟩ | ⟨f, C, h1, h2⟩
        · exact absurd hv (hx v)
        · exact ⟨C, _, h2, .inl ⟨_, rfl, by decide⟩⟩
        · exact ⟨C, _, h2, .inr (by simp)⟩
      obtain ⟨C, y, hC, hy⟩ := this
      have hA2 : A = C ++ y :: [A.getLast hs.ne] := by
        have : A = (C ++ [y]) ++ [A.getLast hs.ne] := by rw [← hC]; exact hA
        simpa using this
      have hlC : A.length = C.length + 2 := by
        have := congrArg List.length hA2
        simpa using this
      have ui : usub (app st A).size 2 = st.size + C.length := by rw [hsz, usub_of_le (by omega) (by omega)]; omega
      rw [ui]
      rcases hy with ⟨v, rfl, hv⟩ | hy
      · have hg := get_app st C (.val v) [A.getLast hs.ne]
        rw [← hA2] at hg
        have : toVoid ((app st A).get (st.size + C.length)) = (app st A).get (st.size + C.length) := by
          rw [hg]; exact hv
        rw [this, set_same]
      · exact fixed C y _ hA2 hy
    · have ui : usub (app st A).size 1 = st.size + A.dropLast.length := by rw [u1, hl]; omega
      rw [ui]
      exact fixed _ _ _ hA hx
  · -- it is an instruction
    have hl : A.length = B.length + 1 := by rw [e1]; simp
    have ui : usub (app st A).size 1 = st.size + B.length := by rw [u1, hl]; omega
    have hg := get_app st B (.val v) []
    rw [← e1] at hg
    unfold Enc.void
    simp only
    rw [ui, hg, cell_val, if_neg (by omega), hg, cell_val, e2]
    conv => lhs; arg 1; rw [e1]
    exact set_app st B v (toVoid v) [] _ rfl
  · -- it is the operand of an instruction
    have hl : A.length = B.length + 2 := by rw [e1]; simp
    have ui1 : usub (app st A).size 1 = st.size + (B ++ [Sym.val u]).length := by rw [u1, hl, List.length_append]; simp
    have ui : usub (app st A).size 2 = st.size + B.length := by rw [hsz, usub_of_le (by omega) (by omega)]; omega
    have e1' : A = (B ++ [.val u]) ++ [.val v] := by rw [e1]; simp
    have hg1 := get_app st (B ++ [.val u]) (.val v) []
    rw [← e1'] at hg1
    have hg := get_app st B (.val u) [.val v]
    rw [← e1] at hg
    unfold Enc.void
    simp only
    rw [ui1, hg1, cell_val, if_pos hv, ui, hg, cell_val, e2]
    conv => lhs; arg 1; rw [e1]
    exact set_app st B u (toVoid u) [.val v] _ rfl
  · -- it is an operand behind a cell that is no number
    have hl : A.length = B.length + 1 := by rw [e1]; simp
    have ui1 : usub (app st A).size 1 = st.size + B.length := by rw [u1, hl]; omega
    have hg1 := get_app st B (.val v) []
    rw [← e1] at hg1
    have hBne : B ≠ [] := by
      rintro rfl
      rw [e1] at hs
      have : MIN_INSTRUCTION_CODE ≤ v := hs
      omega
    have hB : B = B.dropLast ++ [B.getLast hBne] := (List.dropLast_concat_getLast hBne).symm
    have hA2 : A = B.dropLast ++ B.getLast hBne :: [.val v] := by
      rw [e1]; conv => lhs; rw [hB]
      simp
    have hlB : B.dropLast.length = B.length - 1 := by simp
    have hB0 : 0 < B.length := List.length_pos_iff.2 hBne
    have ui : usub (app st A).size 2 = st.size + B.dropLast.length := by rw [hsz, usub_of_le (by omega) (by omega), hlB]; omega
    unfold Enc.void
    simp only
    rw [ui1, hg1, cell_val, if_pos hv, ui, e2]
    refine fixed _ _ _ hA2 ?_
    intro u hu
    exact hno B.dropLast u (by rw [← hu]; exact hB)

/-! ### The code is appended -/

theorem member_ok {st : Enc} {p : List Sym × LV} {off t} (h : Ok st (memberCode off t p).1) : Ok st p.1 := by
  obtain ⟨B, lv⟩ := p
  cases lv with
  | var => exact h
  | addr => exact Ok.left h

theorem indirection_ok {st : Enc} {p : List Sym × LV} {t} (h : Ok st (indirectionCode t p).1) : Ok st p.1 := by
  obtain ⟨B, lv⟩ := p
  cases lv with
  | var => exact Ok.left h
  | addr => exact h

theorem member_app {st : Enc} {r : Enc × LV} {p : List Sym × LV} {off t} (h : r.1 = app st p.1 ∧ r.2 = p.2) :
    (member off t r).1 = app st (memberCode off t p).1 ∧ (member off t r).2 = (memberCode off t p).2 := by
  obtain ⟨s, l⟩ := r
  obtain ⟨B, lv⟩ := p
  obtain ⟨h1, h2⟩ := h
  simp only at h1 h2
  subst h2
  cases l with
  | var => exact ⟨h1, rfl⟩
  | addr => simp [member, memberCode, h1, adds_app, app_app, vals_append]

theorem indirection_app {st : Enc} {r : Enc × LV} {p : List Sym × LV} {t} (h : r.1 = app st p.1 ∧ r.2 = p.2) :
    (indirection t r).1 = app st (indirectionCode t p).1 ∧ (indirection t r).2 = (indirectionCode t p).2 := by
  obtain ⟨s, l⟩ := r
  obtain ⟨B, lv⟩ := p
  obtain ⟨h1, h2⟩ := h
  simp only at h1 h2
  subst h2
  cases l with
  | var => simp [indirection, indirectionCode, h1, adds_app, app_app]
  | addr => exact ⟨h1, rfl⟩


theorem set_app_eq {st : Enc} {A B X : List Sym} {u v : Int} {Y : List Sym} {i : Nat} (hA : A = X ++ .val u :: Y) (hB : B = X ++ .val v :: Y)
    (hi : i = st.size + X.length) : (app st A).set i v = app st B := by
  rw [hA, hB]; exact set_app st X u v Y i hi

theorem table_app (st : Enc) (n : Nat) (cells : List Int) :
    (let st1 := st.add IC_LI
     let reserved := st1.size + 4
     let st2 := ((st1.add reserved).add IC_B).adds [0, 0]
     let st3 := st2.adds cells
     let st4 := st3.set (reserved - 1) n
     st4.set (reserved - 2) st4.size) = app st (tableCode st.size n cells) := by
  simp only [add_app, adds_app, app_app, app_size, size_set]
  rw [set_app_eq (X := vals [IC_LI, ((st.size + 5 : Nat) : Int), IC_B, 0]) (u := 0) (Y := vals cells)
    (B := vals [IC_LI, ((st.size + 5 : Nat) : Int), IC_B, 0] ++ .val n :: vals cells) (by simp; omega) rfl (by simp)]
  refine set_app_eq (X := vals [IC_LI, ((st.size + 5 : Nat) : Int), IC_B]) (u := 0) (Y := vals (n :: cells)) (by simp) ?_ (by simp)
  simp [tableCode]
  omega

mutual
/-- `emit_expression` appends the code of the value. -/
theorem emitE_app : ∀ (e : Exp) (st : Enc), e.Wf → Ok st (codeE st.lay.displs st.size e) →
    emitE st e = app st (codeE st.lay.displs st.size e)
  | .lit v, st, _, _ => adds_app _ _
  | .flit cells, st, _, _ => by
    rw [emitE, add_app, adds_app, app_app]; rfl
  | .str chars, st, _, _ => table_app st chars.length chars
  | .ident id t, st, _, _ => adds_app _ _
  | .subscript b i t, st, wf, ok => by
    rw [codeE] at ok ⊢
    rw [emitE, emitE_app b st wf.1 ok.left.left]
    have h2 := emitE_app i (app st (codeE st.lay.displs st.size b)) wf.2 (by rw [app_size]; exact ok.left.right)
    rw [h2]
    simp only [app_lay, app_size, app_app, adds_app, vals_append, List.append_assoc]
  | .arrow b off t, st, wf, ok => by
    rw [codeE] at ok ⊢
    rw [emitE, emitE_app b st wf ok.left]
    simp only [app_app, adds_app, vals_append, List.append_assoc]
  | .dot b off n t, st, wf, ok => by
    rw [codeE] at ok ⊢
    rw [emitE]
    split at ok
    · rename_i hl
      rw [if_pos hl, if_pos hl]
      have h := member_app (off := off) (t := t) (emitL_app b st wf (member_ok ok.left))
      simp only
      rw [h.1, h.2]
      simp only [app_app, adds_app]
    · rename_i hl
      rw [if_neg hl, if_neg hl, emitE_app b st wf ok.left]
      simp only [app_app, adds_app]
  | .deref e t, st, wf, ok => by
    rw [codeE] at ok ⊢
    rw [emitE]
    have h := indirection_app (t := t) (emitL_app e st wf (indirection_ok ok.left))
    rw [h.1, h.2]
    simp only [app_app, adds_app]
  | .call f args, st, wf, ok => by
    rw [codeE] at ok ⊢
    rw [emitE, add_app st]
    have h2 := emitA_app args (app st (vals [IC_CALL1])) wf (by rw [app_size]; exact ok.left.right)
    rw [h2]
    simp only [functionsGet_app]
    simp only [add_app, app_app, app_size, app_lay, List.append_assoc]
    rfl
  | .callParam p args, st, wf, ok => by
    rw [codeE] at ok ⊢
    rw [emitE, add_app st]
    have h2 := emitA_app args (app st (vals [IC_CALL1])) wf (by rw [app_size]; exact ok.left.right)
    rw [h2]
    simp only [add_app, app_app, app_size, app_lay, List.append_assoc]
    rfl
  | .builtin f args, st, wf, ok => by
    rw [codeE] at ok ⊢
    rw [emitE, emitA_app args st wf ok.left, add_app, app_app]
  | .printf fmt args n, st, wf, ok => by
    rw [codeE] at ok ⊢
    rw [emitE, emitA_app args st wf.2 ok.left.left]
    have h2 := emitE_app fmt (app st (codeA st.lay.displs st.size args)) wf.1 (by rw [app_size]; exact ok.left.right)
    rw [h2]
    simp only [app_lay, app_size, app_app, adds_app, List.append_assoc]
  | .print e t, st, wf, ok => by
    rw [codeE] at ok ⊢
    rw [emitE, emitE_app e st wf ok.left, adds_app, app_app]
  | .both a b, st, wf, ok => by
    rw [codeE] at ok ⊢
    rw [emitE, emitE_app a st wf.1 ok.left]
    have h2 := emitE_app b (app st (codeE st.lay.displs st.size a)) wf.2 (by rw [app_size]; exact ok.right)
    rw [h2]
    simp only [app_lay, app_size, app_app]
  | .cast w e, st, wf, ok => by
    rw [codeE] at ok ⊢
    rw [emitE, emitE_app e st wf ok.left]
    cases w
    · simp
    · simp only [if_true, add_app, app_app]
  | .incdec op e t, st, wf, ok => by
    rw [codeE] at ok ⊢
    have h := emitL_app e st wf ok.left
    rw [emitE, h.1, h.2]
    simp only [app_app, adds_app]
  | .address e, st, wf, ok => by
    rw [codeE] at ok ⊢
    have h := emitL_app e st wf ok.left
    rw [emitE, h.1, h.2]
    simp only [app_app, adds_app]
  | .unary op e t, st, wf, ok => by
    rw [codeE] at ok ⊢
    rw [emitE, emitE_app e st wf ok.left, add_app, app_app]
  | .upb e, st, wf, ok => by
    rw [codeE] at ok ⊢
    rw [emitE, adds_app]
    have h2 := emitE_app e (app st (vals [IC_LI, 0])) wf (by rw [app_size]; exact ok.left.right)
    rw [h2]
    simp only [app_lay, app_size, app_app, add_app]
    rfl
  | .binary op l r fl, st, wf, ok => by
    rw [codeE] at ok ⊢
    rw [emitE]
    simp only
    split at ok
    · rename_i hl
      simp only [if_pos hl]
      rw [emitE_app l st wf.1 ok.left.left.left]
      simp only [add_app, app_app, app_size]
      have ok2 := ok.left.right.placeholder [IC_DUPLICATE, (if op = .logAnd then IC_BE0 else IC_BNE0), 0] rfl
      have e1 : codeE st.lay.displs st.size l ++ vals [IC_DUPLICATE] ++ vals [if op = .logAnd then IC_BE0 else IC_BNE0] ++ vals [0] =
        codeE st.lay.displs st.size l ++ vals [IC_DUPLICATE, (if op = .logAnd then IC_BE0 else IC_BNE0), 0] := by simp
      have es : (app st (codeE st.lay.displs st.size l ++ vals [IC_DUPLICATE, (if op = .logAnd then IC_BE0 else IC_BNE0), 0])).size =
          st.size + (codeE st.lay.displs st.size l).length + 3 := by simp [Nat.add_assoc]
      have h2 := emitE_app r _ wf.2 (by rw [es]; exact ok2)
      rw [es] at h2
      rw [e1, h2]
      simp only [app_app, app_lay]
      rw [set_app_eq (X := codeE st.lay.displs st.size l ++ vals [IC_DUPLICATE, (if op = .logAnd then IC_BE0 else IC_BNE0)]) (u := 0)
        (Y := codeE st.lay.displs (st.size + (codeE st.lay.displs st.size l).length + 3) r) (by simp) rfl (by simp)]
      rw [app_app]
      have e3 : ((st.size + (codeE st.lay.displs st.size l).length + 3 + (codeE st.lay.displs (st.size + (codeE st.lay.displs st.size l).length + 3) r).length + 1 : Nat) : Int) =
        ((app st (codeE st.lay.displs st.size l ++ vals [IC_DUPLICATE, (if op = .logAnd then IC_BE0 else IC_BNE0), 0] ++ codeE st.lay.displs (st.size + (codeE st.lay.displs st.size l).length + 3) r)).size : Int) + 1 := by
        simp; omega
      rw [e3]
      simp [binaryCell]
    · rename_i hl
      simp only [if_neg hl]
      rw [emitE_app l st wf.1 ok.left.left]
      have h2 := emitE_app r (app st (codeE st.lay.displs st.size l)) wf.2 (by rw [app_size]; exact ok.left.right)
      rw [h2]
      simp only [add_app, app_app, app_lay, app_size]
      rfl
  | .comma l r, st, wf, ok => by
    rw [codeE] at ok ⊢
    rw [emitE]
    by_cases hl : l.isLvalue = true
    · simp only [if_pos hl] at ok ⊢
      rw [(emitL_app l st wf.1 ok.left).1]
      have h2 := emitE_app r (app st (codeL st.lay.displs st.size l).1) wf.2 (by rw [app_size]; exact ok.right)
      rw [h2]
      simp only [app_app, app_lay, app_size]
    · simp only [if_neg hl] at ok ⊢
      have hs := codeE_shape st.lay.displs l st.size wf.1
      have okl : Ok st (codeE st.lay.displs st.size l) := ⟨ok.1, calm_voidCode.1 (calm_append ok.2).1⟩
      rw [emitE_app l st wf.1 okl, void_app okl hs.1 hs.2.1 hs.2.2]
      have h2 := emitE_app r (app st (voidCode (codeE st.lay.displs st.size l))) wf.2 (by rw [app_size]; exact ok.right)
      rw [h2]
      simp only [app_app, app_lay, app_size]
  | .ternary c a b, st, wf, ok => by
    rw [codeE] at ok ⊢
    rw [emitE]
    rw [emitE_app c st wf.1 ok.left.left.left.left]
    simp only [add_app, app_app, app_size]
    have ok2 := ok.left.left.right.placeholder [IC_BE0, 0] rfl
    have e1 : codeE st.lay.displs st.size c ++ vals [IC_BE0] ++ vals [0] = codeE st.lay.displs st.size c ++ vals [IC_BE0, 0] := by simp
    have ok3 := ok.right.placeholder [IC_B, 0] rfl
    generalize hC : codeE st.lay.displs st.size c = C at *
    have es : (app st (C ++ vals [IC_BE0, 0])).size = st.size + C.length + 2 := by simp [Nat.add_assoc]
    have h2 := emitE_app a _ wf.2.1 (by rw [es]; exact ok2)
    rw [es] at h2
    rw [e1, h2]
    simp only [app_app, app_lay]
    generalize hA : codeE st.lay.displs (st.size + C.length + 2) a = A at *
    rw [set_app_eq (X := C ++ vals [IC_BE0]) (u := 0) (Y := A) (by simp) rfl (by simp)]
    simp only [add_app, app_app, app_size]
    have e2 : C ++ vals [IC_BE0] ++ Sym.val ((st.size + (C ++ vals [IC_BE0, 0] ++ A).length : Nat) + 2 : Int) :: A ++ (vals [IC_B] ++ vals [0]) =
        C ++ vals [IC_BE0, ((st.size + C.length + 2 + A.length + 2 : Nat) : Int)] ++ A ++ vals [IC_B, 0] := by
      simp; omega
    have es2 : (app st (C ++ vals [IC_BE0, ((st.size + C.length + 2 + A.length + 2 : Nat) : Int)] ++ A ++ vals [IC_B, 0])).size = st.size + C.length + 2 + A.length + 2 := by
      simp; omega
    have h3 := emitE_app b _ wf.2.2 (by rw [es2]; exact ok3)
    rw [es2] at h3
    rw [e2, h3]
    simp only [app_app, app_lay]
    refine set_app_eq (X := C ++ vals [IC_BE0, ((st.size + C.length + 2 + A.length + 2 : Nat) : Int)] ++ A ++ vals [IC_B]) (u := 0)
      (Y := codeE st.lay.displs (st.size + C.length + 2 + A.length + 2) b) (by simp) ?_ (by simp; omega)
    simp; omega
  | .assign op l r t, st, wf, ok => by
    rw [codeE] at ok ⊢
    have h := emitL_app l st wf.1 ok.left.left
    rw [emitE, h.1, h.2]
    have h2 := emitE_app r (app st (codeL st.lay.displs st.size l).1) wf.2 (by rw [app_size]; exact ok.left.right)
    rw [h2]
    simp only [app_app, adds_app, app_lay, app_size]
  | .init array n items, st, wf, ok => by
    rw [codeE] at ok ⊢
    rw [emitE]
    have e1 : (if array then st.adds [IC_BEG_INIT, (n : Int)] else st) = app st (vals (if array then [IC_BEG_INIT, (n : Int)] else [])) := by
      cases array
      · simp
      · simp only [if_true, adds_app]
    rw [e1]
    have h2 := emitA_app items (app st (vals (if array then [IC_BEG_INIT, (n : Int)] else []))) wf.2 (by rw [app_size]; exact ok.right)
    rw [h2]
    simp only [app_app, app_lay, app_size]
  | .funArg f, st, _, _ => funArg_app st f
  | .paramArg p, st, _, _ => adds_app _ _
  | .initArg n cells, st, _, _ => table_app st n cells

/-- `emit_lvalue` appends the code that finds the place. -/
theorem emitL_app : ∀ (e : Exp) (st : Enc), e.Wf → Ok st (codeL st.lay.displs st.size e).1 →
    (emitL st e).1 = app st (codeL st.lay.displs st.size e).1 ∧ (emitL st e).2 = (codeL st.lay.displs st.size e).2
  | .ident id t, st, _, _ => ⟨(app_nil st).symm, rfl⟩
  | .subscript b i t, st, wf, ok => by
    rw [codeL] at ok ⊢
    rw [emitL, emitE_app b st wf.1 ok.left.left]
    have h2 := emitE_app i (app st (codeE st.lay.displs st.size b)) wf.2 (by rw [app_size]; exact ok.left.right)
    rw [h2]
    simp only [app_lay, app_size, app_app, adds_app, vals_append, List.append_assoc, and_self]
  | .arrow b off t, st, wf, ok => by
    rw [codeL] at ok ⊢
    rw [emitL, emitE_app b st wf ok.left]
    simp only [app_app, adds_app, vals_append, List.append_assoc, and_self]
  | .dot b off n t, st, wf, ok => by
    rw [codeL] at ok ⊢
    rw [emitL]
    exact member_app (emitL_app b st wf (member_ok ok))
  | .deref e t, st, wf, ok => by
    rw [codeL] at ok ⊢
    rw [emitL]
    exact indirection_app (emitL_app e st wf (indirection_ok ok))
  | .incdec op e t, st, wf, ok => by
    rw [codeL] at ok ⊢
    rw [emitL]
    exact indirection_app (emitL_app e st wf (indirection_ok ok))
  | .unary op e t, st, wf, ok => by
    rw [codeL] at ok ⊢
    rw [emitL]
    exact indirection_app (emitL_app e st wf (indirection_ok ok))
  | .address e, st, wf, ok => by
    rw [codeL] at ok ⊢
    rw [emitL]
    exact indirection_app (emitL_app e st wf (indirection_ok ok))
  | .upb e, st, wf, ok => by
    rw [codeL] at ok ⊢
    rw [emitL]
    exact indirection_app (emitL_app e st wf (indirection_ok ok))
  | .lit _, st, _, _ | .flit _, st, _, _ | .str _, st, _, _ | .call _ _, st, _, _ | .callParam _ _, st, _, _ | .builtin _ _, st, _, _ | .printf _ _ _, st, _, _
  | .print _ _, st, _, _ | .both _ _, st, _, _ | .cast _ _, st, _, _ | .binary _ _ _ _, st, _, _ | .comma _ _, st, _, _ | .ternary _ _ _, st, _, _
  | .assign _ _ _ _, st, _, _ | .init _ _ _, st, _, _ | .funArg _, st, _, _ | .paramArg _, st, _, _ | .initArg _ _, st, _, _ => ⟨(app_nil st).symm, rfl⟩

theorem emitA_app : ∀ (as : Args) (st : Enc), as.Wf → Ok st (codeA st.lay.displs st.size as) →
    emitA st as = app st (codeA st.lay.displs st.size as)
  | .nil, st, _, _ => (app_nil st).symm
  | .cons e rest, st, wf, ok => by
    rw [codeA] at ok ⊢
    rw [emitA, emitE_app e st wf.1 ok.left]
    have h2 := emitA_app rest (app st (codeE st.lay.displs st.size e)) wf.2 (by rw [app_size]; exact ok.right)
    rw [h2]
    simp only [app_app, app_lay, app_size]
end

end RuC.Codegen
