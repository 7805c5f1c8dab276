import Verif.Mips.Pool

/-!
# Properties of the MIPS generator

What is proved of libs/compiler/mipsgen.c for functions over variables of the types int and bool.
-/

namespace RuC.Mips.Props
open RuC.Mips
open RuC.Llvm (Ty Arith Cmp Un Inc Exp Args Stmt Stmts Func)

/-! ## C79: a register in use is not given away -/

/-- Whoever asks for registers and gives them back, and never has more than eight of them: no register is given twice, and all of them are `$t0` to `$t7`.  Missing: more than eight
registers, see `saved_lost` and `exhausted`. -/
theorem pool_partial (e : Enc) (he : ∀ i, i < 8 → e.busy i = false) (l : List Ask) (e' : Enc) (held : List Nat) (h : asks 8 (e, []) l = some (e', held)) :
    held.Nodup ∧ (∀ r ∈ held, R_T0 ≤ r ∧ r < R_T0 + 8) ∧ ∀ i, i < 8 → (e'.busy i = true ↔ i + R_T0 ∈ held) := by
  have := Pool.asks (s := (e, [])) ⟨List.nodup_nil, fun r hr => (by cases hr), fun i hi => by simp [he i hi]⟩ h
  exact ⟨this.nodup, this.range, this.busy⟩

/-- Every expression, in every state: a register in use before is not set by an instruction of the text, and it is in use afterwards. -/
theorem used_kept (par : Nat → Bool) (x : Exp) (e : Enc) (hp : placed par e) (r : Nat) (hr : used e r) : r ∉ (emitE x e).1.flatMap sets ∧ used (emitE x e).2.2 r := by
  obtain ⟨h, -⟩ := useE par false x e ⟨fun id => (hp id).1, fun id => (hp id).2⟩ (by simp)
  obtain ⟨i, hi, rfl, hb⟩ := hr
  refine ⟨fun hm => ?_, i, hi, rfl, h.keep i (by omega) hb⟩
  rcases h.sets _ hm with (h | h | h | h) | ⟨j, hj, he, hf⟩
  · simp only [R_T0, R_V0] at h; omega
  · simp only [R_T0] at h; omega
  · simp only [R_T0, R_SP] at h; omega
  · simp only [R_T0, R_RA] at h; omega
  · simp only [R_T0] at he
    have : j = i := by omega
    subst this
    rw [hf hi] at hb; cases hb

/-- Every expression, in every state: its value is a constant, in the register of a variable or in that of the answer of a function, or in a register that was not in use and now is;
or all registers for temporary values have been given away, which is marked. -/
theorem value_register (par : Nat → Bool) (x : Exp) (e : Enc) (hp : placed par e) (r : Nat) (hv : (emitE x e).2.1 = .reg r false) :
    r = R_V0 ∨ (¬ used e r ∧ used (emitE x e).2.2 r) ∨ (r = R_T0 + 10 ∧ (emitE x e).2.2.busy 10 = true) := by
  obtain ⟨-, v⟩ := useE par false x e ⟨fun id => (hp id).1, fun id => (hp id).2⟩ (by simp)
  rcases v.new r hv with h | ⟨i, hi, rfl, hf⟩
  · exact .inl h
  · have hh := v.hold i hi hv
    by_cases h10 : i < 10
    · refine .inr (.inl ⟨?_, i, h10, rfl, hh⟩)
      rintro ⟨j, hj, he, hb⟩
      simp only [R_T0] at he
      have : j = i := by omega
      subst this
      rw [hf hj] at hb; cases hb
    · have : i = 10 := by omega
      subst this
      exact .inr (.inr ⟨rfl, hh⟩)

/-- The places of variables are as asked for in these theorems at every point: the declarations of a unit keep them so. -/
theorem places (par : Nat → Bool) (isLocal : Nat → Bool) (main : Nat) (l : List Top) (e : Enc) (hp : placed par e) (hl : ∀ x ∈ l, parT par x) : placed par (emitU isLocal main l e).2 := by
  obtain ⟨h, -, -⟩ := unit_run (t := false) isLocal main l e ⟨fun id => (hp id).1, fun id => (hp id).2⟩ hl (by simp)
  exact fun id => ⟨h.ok id, h.par id⟩

/-- A unit whose expressions ask for no register for a constant, `tidyT`, gives back what it took, as long as `$t0` to `$t7` were enough.  Missing: other units, see `leak`. -/
theorem given_back_partial (par : Nat → Bool) (isLocal : Nat → Bool) (main : Nat) (l : List Top) (e : Enc) (hp : placed par e) (hl : ∀ x ∈ l, parT par x) (ht : ∀ x ∈ l, tidyT par x)
    (h8 : (emitU isLocal main l e).2.busy 8 = false) (i : Nat) (hi : i < 8) : (emitU isLocal main l e).2.busy i = e.busy i := by
  obtain ⟨-, h2, h3⟩ := unit_run (t := true) isLocal main l e ⟨fun id => (hp id).1, fun id => (hp id).2⟩ hl (fun _ => ht)
  cases hb : (emitU isLocal main l e).2.busy i with
  | true => rw [h3 rfl h8 i hi hb]
  | false =>
    cases hx : e.busy i with
    | false => rfl
    | true => rw [h2 i (by omega) hx] at hb; cases hb

/-! Some trees -/

/-- The variable with the number `i`, of the type int. -/
abbrev var (i : Nat) : Exp := .ident i .int

/-- `i = e`. -/
abbrev set (i : Nat) (e : Exp) : Exp := .assign none i .int e

/-- `int i = e;` -/
abbrev let_ (i : Nat) (e : Exp) : Stmt := .decls [(i, .int, some e)]

/-- Statements one after the other. -/
def seq : List Stmt → Stmts
  | [] => .nil
  | s :: l => .cons s (seq l)

/-- The state at the beginning. -/
def e0 : Enc := start ⟨.end, 0⟩ ⟨.beginCycle, 0⟩ 0 0 fun _ => .stack 0 R_GP

/-- Variables below 100 are local. -/
def loc (i : Nat) : Bool := i < 100

theorem e0_placed : placed (fun i => i == 0 || i == 1) e0 := fun _ => ⟨.inr rfl, fun _ h => (by cases h)⟩

/-- Nine registers, the ninth given back: the next one is the tenth.  `$s0` is never given again. -/
theorem saved_lost : ((asks 10 (e0, []) [.get, .get, .get, .get, .get, .get, .get, .get, .get, .free R_S0, .get]).map (·.2)) = some [17, 15, 14, 13, 12, 11, 10, 9, 8] := by decide +kernel

/-- The eleventh register is also the twelfth. -/
theorem exhausted : ((asks 12 (e0, []) (List.replicate 12 .get)).map (·.2)) = some [18, 18, 17, 16, 15, 14, 13, 12, 11, 10, 9, 8] := by decide +kernel

example : ((asks 8 (e0, []) [.get, .get, .free 8, .get, .get]).map (·.2)) = some [10, 8, 9] := by decide +kernel

/-- `int f(int a, int b) { int x = a + b; while (x) { x = x - a; if (!b) break; x++; } return x; }` -/
def f1 : Func := ⟨200, [(0, .int), (1, .int)], some .int, seq [
  let_ 2 (.arith .add (var 0) (var 1)),
  .while_ (var 2) (.block (seq [.expr (set 2 (.arith .sub (var 2) (var 0))), .if_ (.not (var 1)) .break_, .expr (.inc .postInc 2)])),
  .return_ (some (var 2))]⟩

/-- `int main() { return f(f(1, 2), 3); }` -/
def f2 : Func := ⟨201, [], some .int, seq [.return_ (some (.call 200 (some .int) (.cons (.call 200 (some .int) (.cons (.int 1) (.cons (.int 2) .nil))) (.cons (.int 3) .nil))))]⟩

/-- `int u = 5;` and the two functions. -/
def u1 : List Top := [.var (100, .int, some (.int 5)), .func f1, .func f2]

/-- The unit meets what is asked for. -/
theorem u1_par : ∀ x ∈ u1, parT (fun i => i == 0 || i == 1) x := by
  intro x hx
  simp only [u1, List.mem_cons, List.not_mem_nil, or_false] at hx
  rcases hx with rfl | rfl | rfl
  · trivial
  · intro p hp
    simp only [f1, List.mem_cons, List.not_mem_nil, or_false] at hp
    rcases hp with rfl | rfl <;> rfl
  · intro p hp; cases hp

theorem u1_tidy : ∀ x ∈ u1, tidyT (fun i => i == 0 || i == 1) x := by
  intro x hx
  simp only [u1, List.mem_cons, List.not_mem_nil, or_false] at hx
  rcases hx with rfl | rfl | rfl <;> (unfold tidyT; decide)

example : (emitU loc 201 u1 e0).2.busy 8 = false := by decide +kernel

example (i : Nat) (hi : i < 8) : (emitU loc 201 u1 e0).2.busy i = false := by
  rw [given_back_partial _ loc 201 u1 e0 e0_placed u1_par u1_tidy (by decide +kernel) i hi]; rfl

/-- The second operand is in another register than the first. -/
example : (emitE (.arith .mul (var 2) (.arith .add (var 3) (var 4))) e0).1 =
    [.lw 8 0 R_GP, .lw 9 0 R_GP, .lw 10 0 R_GP, .op false .add (.reg 9) (.reg 9) (.reg 10), .op false .mul (.reg 8) (.reg 8) (.reg 9)] := by decide +kernel

/-- `x = x - 1;`: the register for the constant is in use afterwards. -/
theorem leak : (emitS loc (.expr (set 2 (.arith .sub (var 2) (.int 1)))) e0).2.busy 1 = true ∧ e0.busy 1 = false := by decide +kernel

/-- After ten such statements there are no registers left. -/
theorem leak_exhausts : (emitB loc (seq (List.replicate 10 (.expr (set 2 (.arith .sub (var 2) (.int 1)))))) e0).2.busy 10 = true := by decide +kernel

/-! ## C80: labels -/

/-- In the text of a unit no label is put twice. -/
theorem labels_once (isLocal : Nat → Bool) (main : Nat) (l : List Top) (e : Enc) (hf : (funcs l).Nodup) : ((text isLocal main l e).flatMap puts).Nodup := by
  obtain ⟨-, -, h, -⟩ := unitU isLocal main l e
  rw [List.nodup_iff_count]
  intro k
  have h1 := h k
  have h2 := owns_le (main := main) hf k
  have h3 : (text isLocal main l e).flatMap puts = labs (emitU isLocal main l e).1 := rfl
  rw [h3]
  refine Nat.le_trans h1 ?_
  cases k with | mk k n => cases k <;> simp only [quota] at * <;> grind

/-- Every jump and every branch leads to a label of the text, when `break` and `continue` are inside of loops (or `switch`). -/
theorem jumps_lead (isLocal : Nat → Bool) (main : Nat) (l : List Top) (e : Enc) (hs : ∀ f, Top.func f ∈ l → strayBreaks f.body = false ∧ strayConts f.body = false)
    (k : Label) (hk : k ∈ (text isLocal main l e).flatMap targets) : k ∈ (text isLocal main l e).flatMap puts := by
  obtain ⟨-, -, -, h, -⟩ := unitU isLocal main l e
  exact (h hs k hk).elim id (fun h => h.elim)

/-- The jumps of a function stay in it. -/
theorem jumps_stay (isLocal : Nat → Bool) (main : Nat) (f : Func) (e : Enc) (hb : strayBreaks f.body = false) (hc : strayConts f.body = false)
    (k : Label) (hk : k ∈ (emitF isLocal main f e).1.flatMap targets) : k ∈ (emitF isLocal main f e).1.flatMap puts := by
  obtain ⟨-, -, -, h, -⟩ := funcF isLocal main f e
  exact (h hb hc k hk).elim id (fun h => h.elim)

/-- Every call leads to a label of the text, when all functions called are defined, `main` among them. -/
theorem calls_lead (isLocal : Nat → Bool) (main : Nat) (l : List Top) (e : Enc) (hm : main ∈ funcs l) (hc : ∀ x ∈ l, ∀ f ∈ calledT x, f ∈ funcs l)
    (k : Label) (hk : k ∈ (text isLocal main l e).flatMap calls) : k ∈ (text isLocal main l e).flatMap puts := by
  obtain ⟨-, -, -, -, h5, h6, h7⟩ := unitU isLocal main l e
  have h3 : (text isLocal main l e).flatMap puts = labs (emitU isLocal main l e).1 := rfl
  have h4 : (text isLocal main l e).flatMap calls = ⟨.main, 0⟩ :: (emitU isLocal main l e).1.flatMap calls := rfl
  rw [h3]
  rw [h4] at hk
  rcases List.mem_cons.mp hk with rfl | hk
  · exact h7 hm
  · obtain ⟨f, hf, rfl⟩ := h5 k hk
    obtain ⟨x, hx, hf⟩ := List.mem_flatMap.mp hf
    exact h6 f (hc x hx f hf)

example : (funcs u1).Nodup ∧ 201 ∈ funcs u1 := by decide
example : strayBreaks f1.body = false ∧ strayConts f1.body = false ∧ strayBreaks f2.body = false ∧ strayConts f2.body = false := by decide
example : calledT (.func f2) = [200, 200] ∧ calledT (.func f1) = [] := by decide
example : (text loc 201 u1 e0).flatMap puts = [⟨.func, 200⟩, ⟨.beginCycle, 1⟩, ⟨.end, 2⟩, ⟨.end, 1⟩, ⟨.funcEnd, 200⟩, ⟨.func, 201⟩, ⟨.main, 0⟩, ⟨.funcEnd, 201⟩] := by decide +kernel

/-- `break` outside of a loop leads nowhere. -/
theorem stray : ∃ k ∈ (emitF loc 201 ⟨200, [], none, seq [.break_]⟩ e0).1.flatMap targets, k ∉ (emitF loc 201 ⟨200, [], none, seq [.break_]⟩ e0).1.flatMap puts :=
  ⟨⟨.end, 0⟩, by decide +kernel, by decide +kernel⟩

end RuC.Mips.Props
