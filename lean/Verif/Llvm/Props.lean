import Verif.Llvm.Interp

/-!
# Properties of the LLVM generator

What is proved of libs/compiler/llvmgen.c for functions over variables of the types int and bool.
-/

namespace RuC.Llvm.Props
open RuC.Llvm

/-! ## C74: the text computes what the source means -/

/-- For every unit whose functions are of the kind `okF` (Frag.lean says which trees these are), every function called in every state: when the source gives a value and has
effects on what is shared, so does the text, and it gives nothing else.  Missing: the trees that are not `okF`, for which the theorems below show that it is not so. -/
theorem unit_refines_partial (isLocal : Nat → Bool) (lib : Calls) (main : Nat) (fs : List Func) (g : Gen) (hok : ∀ f ∈ fs, okF main f = true)
    (n f : Nat) (vs : List V) (w : World) (v : Option V) (w' : World) (h : callF isLocal lib main fs n f vs w = some (v, w')) :
    callL lib (emitU isLocal main fs g.start) n f vs w v w' ∧ ∀ m v2 w2, callL lib (emitU isLocal main fs g.start) m f vs w v2 w2 → v2 = v ∧ w2 = w' := by
  have h1 := unit_ok (isLocal := isLocal) (lib := lib) (g := g.start) hok (by simp [Gen.start]) rfl n f vs w v w' h
  refine ⟨h1, ?_⟩
  intro m v2 w2 h2
  rcases Nat.le_total n m with hle | hle
  · have := callL_det m f vs w _ _ _ _ (callL_le h1 hle) h2
    exact ⟨this.1.symm, this.2.symm⟩
  · have := callL_det n f vs w _ _ _ _ h1 (callL_le h2 hle)
    exact ⟨this.1.symm, this.2.symm⟩

/-! Some trees -/

/-- A world without globals. -/
def w0 : World := ⟨fun _ => none, []⟩

/-- A library that only writes down what is asked. -/
def lib0 : Calls := fun f vs w => some (none, { w with trace := w.trace ++ [(f, vs)] })

/-- A state of the generator. -/
def g0 : Gen := Gen.start ⟨0, 0, 0, .reg, .const, 0, 0, false, 0, 0, 0, 0, 0, 0, 0, 0, false⟩

/-- The variable with the number `i`, of the type int. -/
abbrev var (i : Nat) : Exp := .ident i .int

/-- The variable with the number `i`, of the type bool. -/
abbrev flag (i : Nat) : Exp := .ident i .bool

/-- `i = e`. -/
abbrev set (i : Nat) (e : Exp) : Exp := .assign none i .int e

/-- `int i = e;` -/
abbrev let_ (i : Nat) (e : Exp) : Stmt := .decls [(i, .int, some e)]

/-- Statements one after the other. -/
def seq : List Stmt → Stmts
  | [] => .nil
  | s :: l => .cons s (seq l)

/-- `int fact(int n) { if (n <= 1) return 1; return n * fact(n - 1); }` -/
def fact : Func := ⟨10, [(0, .int)], some .int, seq [
  .if_ (.cmp .le (var 0) (.int 1)) (.return_ (some (.int 1))),
  .return_ (some (.arith .mul (var 0) (.call 10 (some .int) (.cons (.arith .sub (var 0) (.int 1)) .nil))))]⟩

/-- `int count(int n) { int s = 0; int i; for (i = 0; i < n && s < 100; i++) { int k = i % 2 == 0 ? i : -i; if (!k) break; s += k; do s--; while (s > 50); } return s; }` -/
def count : Func := ⟨11, [(0, .int)], some .int, seq [
  let_ 1 (.int 0), .decls [(2, .int, none)],
  .for_ (.expr (set 2 (.int 1))) (some (.logic false (.cmp .lt (var 2) (var 0)) (.cmp .lt (var 1) (.int 100)))) (some (.inc .postInc 2)) (.block (seq [
    let_ 3 (.ternary (.cmp .eq (.arith .rem (var 2) (.int 2)) (.int 0)) (var 2) (.un .minus (var 2))),
    .if_ (.not (var 3)) .break_,
    .expr (.assign (some .add) 1 .int (var 3)),
    .do_ (.expr (.inc .preDec 1)) (.cmp .gt (var 1) (.int 50))])),
  .return_ (some (var 1))]⟩

/-- `int main() { print(fact(5), count(6)); return 0; }` -/
def prog : Func := ⟨12, [], some .int, seq [
  .expr (.call 20 none (.cons (.call 10 (some .int) (.cons (.int 5) .nil)) (.cons (.call 11 (some .int) (.cons (.int 6) .nil)) .nil))),
  .return_ (some (.int 0))]⟩

/-- The functions are of the kind asked for. -/
theorem prog_ok : ∀ f ∈ [fact, count, prog], okF 12 f = true := by decide

/-- The program runs, and asks the library for what it should. -/
theorem prog_runs : (callF (fun _ => true) lib0 12 [fact, count, prog] 9 12 [] w0).map (fun x => (x.1, x.2.trace)) = some (some (.i32 0), [(20, [.i32 120, .i32 (-8)])]) := by
  decide +kernel

/-- So does its text. -/
example : ∃ w', w'.trace = [(20, [.i32 120, .i32 (-8)])] ∧ callL lib0 (emitU (fun _ => true) 12 [fact, count, prog] g0) 9 12 [] w0 (some (.i32 0)) w' := by
  obtain ⟨⟨v, w'⟩, h, h2⟩ := Option.map_eq_some_iff.mp prog_runs
  simp only [Prod.mk.injEq] at h2
  obtain ⟨rfl, h2⟩ := h2
  exact ⟨w', h2, (unit_refines_partial (fun _ => true) lib0 12 _ g0 prog_ok 9 12 [] w0 _ w' h).1⟩

/-! ### Trees for which it is not so -/

/-- The source gives a value that the text does not give, at whatever depth of calls. -/
def Wrong (f : Func) (vs : List V) : Prop :=
  ∃ v w', callF (fun _ => true) lib0 99 [f] 9 f.id vs w0 = some (v, w') ∧ ∀ m w'', ¬ callL lib0 (emitU (fun _ => true) 99 [f] g0) m f.id vs w0 v w''

/-- `int f() { int i = 0; int n = 0; while (i < 1) { i++; n++; if (n < 3) continue; } return n; }`: `continue` goes to the body without asking the condition. -/
theorem continue_wrong : Wrong ⟨1, [], some .int, seq [let_ 0 (.int 0), let_ 1 (.int 0),
    .while_ (.cmp .lt (var 0) (.int 1)) (.block (seq [.expr (.inc .postInc 0), .expr (.inc .postInc 1), .if_ (.cmp .lt (var 1) (.int 3)) .continue_])),
    .return_ (some (var 1))]⟩ [] :=
  wrong 9 200 (v := some (.i32 1)) (by decide +kernel) (by decide +kernel)

/-- `int main() { if (1) return 5; return 0; }`: nothing is printed for `return` in `main`. -/
theorem return_main_wrong : Wrong ⟨99, [], some .int, seq [.if_ (.int 1) (.return_ (some (.int 5))), .return_ (some (.int 0))]⟩ [] :=
  wrong 9 200 (v := some (.i32 5)) (by decide +kernel) (by decide +kernel)

/-- `int f(int y) { int x = 0; if (x = y) return 1; return 2; }`: an assignment as a condition is false. -/
theorem assign_test_wrong : Wrong ⟨1, [(0, .int)], some .int, seq [let_ 1 (.int 0), .if_ (set 1 (var 0)) (.return_ (some (.int 1))), .return_ (some (.int 2))]⟩ [.i32 7] :=
  wrong 9 200 (v := some (.i32 1)) (by decide +kernel) (by decide +kernel)

/-- `int f() { int i; for (i = 0; ; i++) break; return i; }`: without a condition the step is made first. -/
theorem for_wrong : Wrong ⟨1, [], some .int, seq [.decls [(0, .int, none)], .for_ (.expr (set 0 (.int 0))) none (some (.inc .postInc 0)) .break_, .return_ (some (var 0))]⟩ [] :=
  wrong 9 200 (v := some (.i32 0)) (by decide +kernel) (by decide +kernel)

/-- `int f(bool b) { if (!b) return 1; return 2; }`: the condition goes the wrong way. -/
theorem not_wrong : Wrong ⟨1, [(0, .bool)], some .int, seq [.if_ (.not (flag 0)) (.return_ (some (.int 1))), .return_ (some (.int 2))]⟩ [.i1 false] :=
  wrong 9 200 (v := some (.i32 1)) (by decide +kernel) (by decide +kernel)

/-- `bool f(int x) { bool b = true; b = !(x < 5); return b; }`: what is stored is not negated. -/
theorem not_stored_wrong : Wrong ⟨1, [(0, .int)], some .bool, seq [.decls [(1, .bool, some (.bool true))], .expr (.assign none 1 .bool (.not (.cmp .lt (var 0) (.int 5)))),
    .return_ (some (flag 1))]⟩ [.i32 7] :=
  wrong 9 200 (v := some (.i1 true)) (by decide +kernel) (by decide +kernel)

/-- `int f() { int x = 0; int y = 0; y = (x = 1) + 2; return y; }`: no instruction is printed for two constants. -/
theorem constants_wrong : Wrong ⟨1, [], some .int, seq [let_ 0 (.int 0), let_ 1 (.int 0), .expr (set 1 (.arith .add (set 0 (.int 1)) (.int 2))), .return_ (some (var 1))]⟩ [] :=
  wrong 9 200 (v := some (.i32 3)) (by decide +kernel) (by decide +kernel)

/-- `int f(int z) { int x = z; int y = 0; y = -(x = 1); return y; }`: the operand is taken from the register of an answer before. -/
theorem unary_wrong : Wrong ⟨1, [(2, .int)], some .int, seq [let_ 0 (var 2), let_ 1 (.int 0), .expr (set 1 (.un .minus (set 0 (.int 1)))), .return_ (some (var 1))]⟩ [.i32 7] :=
  wrong 9 200 (v := some (.i32 (-1))) (by decide +kernel) (by decide +kernel)

/-- `int f(int x) { return x ? (x ? 1 : 2) + x : 3; }`: the `phi` is given the wrong block. -/
theorem ternary_wrong : Wrong ⟨1, [(0, .int)], some .int, seq [.return_ (some (.ternary (var 0) (.arith .add (.ternary (var 0) (.int 1) (.int 2)) (var 0)) (.int 3)))]⟩ [.i32 7] :=
  wrong 9 200 (v := some (.i32 8)) (by decide +kernel) (by decide +kernel)

/-- `bool f(int x, int y) { return x < y; }`: nothing is printed for `return`. -/
theorem return_cmp_wrong : Wrong ⟨1, [(0, .int), (1, .int)], some .bool, seq [.return_ (some (.cmp .lt (var 0) (var 1)))]⟩ [.i32 1, .i32 2] :=
  wrong 9 200 (v := some (.i1 true)) (by decide +kernel) (by decide +kernel)

/-- `bool f(int x, int y) { bool b = x < y; return b; }`: nothing is stored. -/
theorem declared_cmp_wrong : Wrong ⟨1, [(0, .int), (1, .int)], some .bool, seq [.decls [(2, .bool, some (.cmp .lt (var 0) (var 1)))], .return_ (some (flag 2))]⟩ [.i32 1, .i32 2] :=
  wrong 9 200 (v := some (.i1 true)) (by decide +kernel) (by decide +kernel)

/-- `int f(bool b) { int n = 0; do { b = !b; n++; } while (n < 2); return n; }`: behind `!` the labels are exchanged, and the loop ends when it should go on. -/
theorem swapped_wrong : Wrong ⟨1, [(0, .bool)], some .int, seq [let_ 1 (.int 0),
    .do_ (.block (seq [.expr (.assign none 0 .bool (.not (flag 0))), .expr (.inc .postInc 1)])) (.cmp .lt (var 1) (.int 2)), .return_ (some (var 1))]⟩ [.i1 true] :=
  wrong 9 200 (v := some (.i32 2)) (by decide +kernel) (by decide +kernel)

/-- `bool f(bool a, bool b) { bool c = true; c = a && b; return c; }`: the `phi` names the first block of a function without parameters. -/
theorem logic_stored_wrong : Wrong ⟨1, [(0, .bool), (1, .bool)], some .bool, seq [.decls [(2, .bool, some (.bool true))], .expr (.assign none 2 .bool (.logic false (flag 0) (flag 1))),
    .return_ (some (flag 2))]⟩ [.i1 false, .i1 true] :=
  wrong 9 200 (v := some (.i1 false)) (by decide +kernel) (by decide +kernel)

/-- `int f(int x) { int r = 0; switch (x) { case 1: r = 1; break; default: r = 2; } return r; }`: `default` is not taken. -/
theorem switch_wrong : Wrong ⟨1, [(0, .int)], some .int, seq [let_ 1 (.int 0),
    .switch_ (var 0) (seq [.case_ (.int 1) (.expr (set 1 (.int 1))), .break_, .default_ (.expr (set 1 (.int 2)))]), .return_ (some (var 1))]⟩ [.i32 5] :=
  wrong 9 200 (v := some (.i32 2)) (by decide +kernel) (by decide +kernel)

/-! ## C75: registers -/

/-- In the text of a unit no register is set by two instructions; for all trees. -/
theorem registers_once (isLocal : Nat → Bool) (main : Nat) (fs : List Func) (g : Gen) : ((emitU isLocal main fs g.start).flatMap fun d => d.2.flatMap defs).Nodup := by
  obtain ⟨n, -, h⟩ := regU isLocal main fs g.start
  exact h.nodup

example : ((emitU (fun _ => true) 12 [fact, count, prog] g0).flatMap fun d => d.2.flatMap defs).length = 37 := by decide +kernel

/-! ## C76: labels -/

/-- In the text of a unit no label is put twice.  Missing: trees that are not `okF`. -/
theorem labels_once_partial (isLocal : Nat → Bool) (main : Nat) (fs : List Func) (g : Gen) (hok : ∀ f ∈ fs, okF main f = true) :
    ((emitU isLocal main fs g.start).flatMap fun d => d.2.flatMap puts).Nodup := by
  obtain ⟨n, -, h⟩ := labU isLocal main fs g.start hok rfl
  simp only [labels_puts] at h
  exact h.nodup

/-- Every label that a jump or a `phi` of a function names is put in the same function, when no `break` is outside of a loop.  Missing: trees that are not `okF`. -/
theorem targets_exist_partial (isLocal : Nat → Bool) (main : Nat) (fs : List Func) (g : Gen) (hok : ∀ f ∈ fs, okF main f = true) (hb : ∀ f ∈ fs, strayB f.body = false) :
    ∀ d ∈ emitU isLocal main fs g.start, ∀ i ∈ d.2, ∀ l ∈ targets i, ∃ j ∈ d.2, l ∈ puts j := by
  intro d hd i hi l hl
  obtain ⟨h1, g', h2, h3⟩ := unit_texts (isLocal := isLocal) fs g.start hok rfl d hd
  have h := aimF (isLocal := isLocal) (hok _ h1) (hb _ h1) h2 l
  rw [← h3, labels_puts] at h
  simp only [List.not_mem_nil, or_false] at h
  exact List.mem_flatMap.mp (h (List.mem_flatMap.mpr ⟨i, hi, hl⟩))

example : (∀ f ∈ [fact, count, prog], okF 12 f = true) ∧ (∀ f ∈ [fact, count, prog], strayB f.body = false) ∧
    ((emitU (fun _ => true) 12 [fact, count, prog] g0).map fun d => (d.2.flatMap puts, d.2.flatMap targets)) =
      [([1, 2, 3], [1, 2, 3, 3]), ([4, 8, 6, 5, 9, 10, 11, 12, 13, 14, 15, 16, 7],
        [4, 8, 7, 5, 7, 5, 7, 4, 9, 10, 11, 11, 9, 10, 13, 12, 13, 12, 7, 14, 14, 15, 15, 16, 6]), ([], [])] := by
  decide +kernel

/-- `bool f(bool a, bool b, bool c) { bool d = true; d = a && (b && c); return d; }`: a label is put twice. -/
theorem labels_twice : ¬ ((emitU (fun _ => true) 99 [⟨1, [(0, .bool), (1, .bool), (2, .bool)], some .bool, seq [.decls [(3, .bool, some (.bool true))],
    .expr (.assign none 3 .bool (.logic false (flag 0) (.logic false (flag 1) (flag 2)))), .return_ (some (flag 3))]⟩] g0).flatMap fun d => d.2.flatMap puts).Nodup := by
  decide +kernel

/-- Two `switch` statements one after the other: a label is put twice. -/
theorem switches_twice : ¬ ((emitU (fun _ => true) 99 [⟨1, [(0, .int)], none, seq [
    .switch_ (var 0) (seq [.case_ (.int 1) .break_]), .switch_ (var 0) (seq [.case_ (.int 1) .break_])]⟩] g0).flatMap fun d => d.2.flatMap puts).Nodup := by
  decide +kernel

/-- `bool f(bool a) { bool d = false; d = a && true; return d; }`: a jump goes to a label that is not there. -/
theorem target_missing : ∃ d ∈ emitU (fun _ => true) 99 [⟨1, [(0, .bool)], some .bool, seq [.decls [(3, .bool, some (.bool false))],
    .expr (.assign none 3 .bool (.logic false (flag 0) (.bool true))), .return_ (some (flag 3))]⟩] g0, ∃ l ∈ d.2.flatMap targets, l ≠ 0 ∧ l ∉ d.2.flatMap puts := by
  decide +kernel

end RuC.Llvm.Props
