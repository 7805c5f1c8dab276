import Verif.Machine.Fragment
import Verif.Codegen.Stmts

/-!
Runs of the machine, the code in its memory, and how the variables of a program are held by it.
-/

namespace RuC.Machine

open RuC RuC.Codegen RuC.Instr
open RuC.Expr (Unary Binary)

/-! ### Runs -/

theorem run_add (M : Load) : ∀ (a b : Nat) (s : State), run M (a + b) s = (run M a s).bind (run M b)
  | 0, b, s => by simp [run]
  | a + 1, b, s => by
    rw [Nat.add_right_comm, run, run]
    cases step M s with
    | none => rfl
    | some s1 => exact run_add M a b s1

/-- In at least `n` steps. -/
def Reach (M : Load) (n : Nat) (v v' : State) : Prop := ∃ k, n ≤ k ∧ run M k v = some v'

theorem Reach.refl {M v} : Reach M 0 v v := ⟨0, Nat.le_refl _, rfl⟩

theorem Reach.trans {M a b v v1 v2} (h : Reach M a v v1) (g : Reach M b v1 v2) : Reach M (a + b) v v2 := by
  obtain ⟨j, hj, h⟩ := h
  obtain ⟨k, hk, g⟩ := g
  refine ⟨j + k, by omega, ?_⟩
  rw [run_add, h]; exact g

theorem Reach.weaken {M a b v v'} (h : Reach M a v v') (hb : b ≤ a) : Reach M b v v' := by
  obtain ⟨k, hk, h⟩ := h
  exact ⟨k, by omega, h⟩

theorem Reach.then {M a b v v1 v2} (h : Reach M a v v1) (g : Reach M b v1 v2) : Reach M b v v2 := (h.trans g).weaken (by omega)

theorem Reach.before {M a b v v1 v2} (h : Reach M a v v1) (g : Reach M b v1 v2) : Reach M a v v2 := (h.trans g).weaken (by omega)

theorem reach_step {M v v'} (h : step M v = some v') : Reach M 1 v v' := ⟨1, Nat.le_refl _, by simp [run, h]⟩

/-- Goes on for at least `n` steps, and has then printed `out`. -/
def Far (M : Load) (n : Nat) (v : State) (out : List Event) : Prop := ∃ v', Reach M n v v' ∧ v'.out = out

theorem Far.weaken {M a b v out} (h : Far M a v out) (hb : b ≤ a) : Far M b v out := by
  obtain ⟨v', h, e⟩ := h
  exact ⟨v', h.weaken hb, e⟩

theorem Far.after {M a b v v1 out} (h : Reach M a v v1) (g : Far M b v1 out) : Far M (a + b) v out := by
  obtain ⟨v', g, e⟩ := g
  exact ⟨v', h.trans g, e⟩

theorem Far.then {M a b v v1 out} (h : Reach M a v v1) (g : Far M b v1 out) : Far M b v out := (Far.after h g).weaken (by omega)

/-! ### The code in memory -/

/-- What the machine is loaded with and what the program is about: the numbers of functions, the globals and their
displacements. -/
structure Ctx where
  M : Load
  F : Nat → Int
  global : Nat → Bool
  D : Nat → Int

/-- The number in a cell of code. -/
def cell (C : Ctx) (b c : Int) : Sym → Int
  | .val v => v
  | .fn f | .fnArg f => C.F f
  | .fnOp _ => IC_LI
  | .brk => b
  | .cont => c
  | _ => 0

/-- The code stands at an address. -/
def Holds (C : Ctx) (b c : Int) (base : Nat) (A : List Sym) : Prop :=
  ∀ i y, A[i]? = some y → C.M.code[base + i]? = some (cell C b c y)

theorem holds_append {C b c base A B} : Holds C b c base (A ++ B) ↔ Holds C b c base A ∧ Holds C b c (base + A.length) B := by
  constructor
  · intro h
    refine ⟨fun i y hi => h i y ?_, fun i y hi => ?_⟩
    · rw [List.getElem?_append_left]
      · exact hi
      · rw [List.getElem?_eq_some_iff] at hi; exact hi.1
    · have := h (A.length + i) y (by rw [List.getElem?_append_right (by omega), Nat.add_sub_cancel_left]; exact hi)
      rwa [← Nat.add_assoc] at this
  · rintro ⟨h1, h2⟩ i y hi
    rw [List.getElem?_append] at hi
    split at hi
    · exact h1 i y hi
    · have := h2 _ y hi
      rwa [show base + A.length + (i - A.length) = base + i by omega] at this

theorem holds_cons {C b c base x A} : Holds C b c base (x :: A) ↔ C.M.code[base]? = some (cell C b c x) ∧ Holds C b c (base + 1) A := by
  constructor
  · intro h
    refine ⟨h 0 x rfl, fun i y hi => ?_⟩
    have := h (i + 1) y (by simpa using hi)
    rwa [show base + (i + 1) = base + 1 + i by omega] at this
  · rintro ⟨h1, h2⟩ i y hi
    cases i with
    | zero => simp at hi; subst hi; exact h1
    | succ i =>
      have := h2 i y (by simpa using hi)
      rwa [show base + 1 + i = base + (i + 1) by omega] at this

theorem holds_vals_cons {C b c base v l} : Holds C b c base (vals (v :: l)) ↔ C.M.code[base]? = some v ∧ Holds C b c (base + 1) (vals l) :=
  holds_cons

theorem holds_nil {C b c base} : Holds C b c base [] := by intro i y h; simp at h

theorem holds_one {C b c base v} (h : Holds C b c base (vals [v])) : C.M.code[base]? = some v := (holds_vals_cons.1 h).1

theorem holds_two {C b c base v w} (h : Holds C b c base (vals [v, w])) : C.M.code[base]? = some v ∧ C.M.code[base + 1]? = some w :=
  ⟨(holds_vals_cons.1 h).1, (holds_vals_cons.1 (holds_vals_cons.1 h).2).1⟩

theorem holds_fill {C : Ctx} {b c base A} {k : Sym} {v : Int} (hk : k = .brk ∨ k = .cont) (h : Holds C b c base (fill k v A)) :
    Holds C (if k = .brk then v else b) (if k = .cont then v else c) base A := by
  intro i y hi
  have := h i (if y = k then .val v else y) (by simp [fill, hi])
  rw [this]
  by_cases hy : y = k
  · rw [if_pos hy]; subst hy
    rcases hk with rfl | rfl <;> simp [cell]
  · rw [if_neg hy]
    cases y
    case brk => simp [cell]; intro e; exact absurd e.symm hy
    case cont => simp [cell]; intro e; exact absurd e.symm hy
    all_goals rfl

theorem length_vals (l : List Int) : (vals l).length = l.length := by simp [vals]

/-! ### Steps -/

theorem step_at {M : Load} {v : State} {i : Int} (h : M.code[v.pc]? = some i) : step M v = exec M v (M.code[v.pc + 1]?) (decode i) := by
  simp [step, h]

theorem decode_binary {op : Binary} {a b w : Int} (h : arith op a b = some w) : ∃ f, decode (binaryToInstruction op) = .binary f ∧ f a b = some w := by
  cases op <;> simp only [arith] at h <;> first
    | (cases h; done)
    | (refine ⟨_, rfl, ?_⟩; first
        | exact h
        | (rw [← h]; simp only [truth, decide_eq_true_eq, beq_iff_eq, bne_iff_ne]))

theorem decode_unary {op : Unary} {t : Ty} {a w : Int} (ht : (op = .minus ∨ op = .abs) → t = .integer) (h : arith1 op a = some w) :
    ∃ f, decode (unaryCell op t) = .unary f ∧ f a = some w := by
  cases op <;> simp only [arith1] at h <;> first
    | (cases h; done)
    | (first
        | (rw [ht (.inl rfl)]; refine ⟨_, rfl, h⟩)
        | (rw [ht (.inr rfl)]; refine ⟨_, rfl, h⟩)
        | (refine ⟨_, rfl, ?_⟩; first
            | exact h
            | (rw [← h]; simp only [truth, beq_iff_eq])))

theorem decode_compound {op o : Binary} (ho : compound op = some o) {a b w : Int} (h : arith o a b = some w) :
    ∃ f, decode (binaryToInstruction op) = .update f false ∧ f a b = some w := by
  cases op <;> simp only [compound] at ho <;> first
    | (cases ho; done)
    | (cases ho; exact ⟨_, rfl, h⟩)

/-- The operators whose void version leaves nothing. -/
def quietOps : List Binary := [.assign, .addAssign, .subAssign, .mulAssign, .divAssign]

theorem decode_compound_void {op o : Binary} (ho : compound op = some o) {a b w : Int} (h : arith o a b = some w) :
    ∃ f, decode (toVoid (binaryToInstruction op)) = .update f (decide (op ∈ quietOps)) ∧ f a b = some w := by
  cases op <;> simp only [compound] at ho <;> first
    | (cases ho; done)
    | (cases ho; exact ⟨_, rfl, h⟩)

theorem decode_step {op : Unary} {i : Int} {post : Bool} (h : incdec op = some (i, post)) :
    decode (unaryToInstruction op) = .step i post false ∧ decode (toVoid (unaryToInstruction op)) = .step i post true := by
  cases op <;> simp only [incdec] at h <;> first
    | (cases h; done)
    | (cases h; exact ⟨rfl, rfl⟩)

end RuC.Machine
