import Verif.Mips.UnitOk
import Verif.Mips.Props

/-!
# Properties of the MIPS generator: what the text does

For units of functions over variables of the types int and bool; what they mean is said in Llvm/Spec.lean, what the instructions do in Mips/Spec.lean.
-/

namespace RuC.Mips.Props
open RuC.Mips
open RuC.Llvm (Ty Arith Cmp Un Inc Exp Args Stmt Stmts Func V World callF)

/-- There are no functions of the library. -/
abbrev noLib : Llvm.Calls := fun _ _ _ => none

/-- The globals are in memory from `G` on, one word for each in the order of their declarations. -/
def globalsAt (isLocal : Nat → Bool) (vs : List (Nat × Ty × Option Exp)) (G : Nat) (w : World) (m : M) : Prop :=
  ∀ id v, isLocal id = false → w.glob id = some v → ∃ (k : Nat) (ty : Ty) (i : Option Exp), vs[k]? = some (id, ty, i) ∧ stands v (m.mem ((G : Int) + 4 * (k : Nat)))

/-- A function may be called: the arguments are in `$a0` to `$a3` and in the words from `$sp` + 16 on, the globals are at `$gp`, and there are `n` times the room of a frame down to `L`, which
is above the globals. -/
structure Called (isLocal : Nat → Bool) (main : Nat) (gs : List (Nat × Ty × Option Exp)) (fs : List Func) (e : Enc) (n G L P : Nat) (vs : List V) (w : World) (m : M) : Prop where
  sp : (m.reg R_SP).toNat = P
  aligned : P % 4 = 0 ∧ G % 4 = 0
  gp : (m.reg R_GP).toNat = G
  low : G + 4 * gs.length ≤ L
  room : L + n * roomOf isLocal main gs fs e ≤ P + 4 * vs.length
  high : P + 4 * vs.length < 2147483648
  args : ∀ (k : Nat) (u : V), vs[k]? = some u → stands u (if k < 4 then m.reg (4 + k) else m.mem ((P : Int) + 4 * (k : Nat)))
  globals : globalsAt isLocal gs G w m

/-- The state in which the generator starts: no place of a variable is a register, and no global has a word. -/
def fresh (e : Enc) : Prop := (∀ id, ∃ d b, e.table id = .stack d b ∧ (b = R_FP ∨ b = R_GP)) ∧ e.gdispl = 0

section
variable {isLocal : Nat → Bool} {main : Nat} {gs : List (Nat × Ty × Option Exp)} {fs : List Func} {e : Enc}

theorem globals_ok (he : e.gdispl = 0)
    (ht : ∀ (k id : Nat) (ty : Ty) (i : Option Exp), gs[k]? = some (id, ty, i) → (emitU isLocal main (gs.map .var) e).2.table id = .stack (e.gdispl + 4 * k : Nat) R_GP)
    {G : Nat} {w : World} {m : M} (h : globalsAt isLocal gs G w m) : GOk isLocal G (4 * gs.length) (emitU isLocal main (gs.map .var) e).2.table w m := by
  have hk : ∀ id, isLocal id = false → (w.glob id).isSome = true → ∃ (k : Nat) (ty : Ty) (i : Option Exp), gs[k]? = some (id, ty, i) := fun id hl hs => by
    obtain ⟨v, hv⟩ := Option.isSome_iff_exists.1 hs
    obtain ⟨k, ty, i, h1, -⟩ := h id v hl hv
    exact ⟨k, ty, i, h1⟩
  refine ⟨fun id hl hs => ?_, fun id id' hl hl' hs hs' heq => ?_, fun id d v hl hv hT => ?_⟩
  · obtain ⟨k, ty, i, h1⟩ := hk id hl hs
    have hlt := (List.getElem?_eq_some_iff.1 h1).1
    exact ⟨_, ht k id ty i h1, by omega, by omega, by omega⟩
  · obtain ⟨k, ty, i, h1⟩ := hk id hl hs
    obtain ⟨k', ty', i', h1'⟩ := hk id' hl' hs'
    rw [ht k id ty i h1, ht k' id' ty' i' h1'] at heq
    simp only [Lv.stack.injEq, and_true] at heq
    have : k = k' := by omega
    subst this
    rw [h1] at h1'
    simp only [Option.some.injEq, Prod.mk.injEq] at h1'
    exact h1'.1
  · obtain ⟨k, ty, i, h1, h2⟩ := h id v hl hv
    rw [ht k id ty i h1] at hT
    simp only [Lv.stack.injEq, and_true] at hT
    have : d = 4 * (k : Nat) := by omega
    rw [this]; exact h2

theorem globals_back (he : e.gdispl = 0)
    (ht : ∀ (k id : Nat) (ty : Ty) (i : Option Exp), gs[k]? = some (id, ty, i) → (emitU isLocal main (gs.map .var) e).2.table id = .stack (e.gdispl + 4 * k : Nat) R_GP)
    {G : Nat} {w w' : World} {m m' : M} (h : globalsAt isLocal gs G w m) (h' : GOk isLocal G (4 * gs.length) (emitU isLocal main (gs.map .var) e).2.table w' m')
    (hd : ∀ id, isLocal id = false → (w'.glob id).isSome = (w.glob id).isSome) : globalsAt isLocal gs G w' m' := fun id v hl hv => by
  have hs : (w.glob id).isSome = true := by rw [← hd id hl, hv]; rfl
  obtain ⟨u, hu⟩ := Option.isSome_iff_exists.1 hs
  obtain ⟨k, ty, i, h1, -⟩ := h id u hl hu
  have := h'.vals id _ v hl hv (ht k id ty i h1)
  refine ⟨k, ty, i, h1, ?_⟩
  rw [he] at this
  have heq : ((0 + 4 * k : Nat) : Int) = 4 * (k : Nat) := by omega
  rw [heq] at this
  exact this

theorem call_all (he : fresh e) (hok : okU isLocal main gs fs = true) (hsmall : (text isLocal main (unit gs fs) e).length < 4294967296)
    (hten : (emitU isLocal main (unit gs fs) e).2.busy 10 = false) {n f G L P : Nat} {vs : List V} {w w' : World} {v : Option V} {l : Label} {m : M} (hl : entry main f l)
    (hev : callF isLocal noLib main fs n f vs w = some (v, w')) (hm : Called isLocal main gs fs e n G L P vs w m) (hpc : find l (text isLocal main (unit gs fs) e) = some m.pc) :
    ∃ m', Reach (text isLocal main (unit gs fs) e) m m' ∧ Ret isLocal G (4 * gs.length) L P vs.length (emitU isLocal main (gs.map .var) e).2.table v w w' m m' ∧ globalsAt isLocal gs G w' m' := by
  obtain ⟨hF, ht⟩ := unit_funcs he.1 hok hsmall hten
  obtain ⟨-, p, hp, hrun⟩ := called hF hm.aligned.2 hm.low n f vs w v w' l hl hev
  rw [hpc] at hp
  obtain ⟨m', r1, r2⟩ := hrun m P (Option.some.inj hp) hm.sp hm.aligned.1 hm.room hm.high hm.gp hm.args (globals_ok he.2 ht hm.globals)
  exact ⟨m', r1, r2, globals_back he.2 ht hm.globals r2.glob r2.dom⟩
end

/-! ## C81: the text computes what the source means -/

/-- A unit of `okU` whose functions have enough registers: when a function, called with arguments and values of the globals, gives an answer, then from its label the instructions come to the
address in `$ra`, the answer is in `$v0` and the globals have their new values.  Missing: units that are not `okU`, see the theorems below, and calls of the library. -/
theorem call_partial (isLocal : Nat → Bool) (main : Nat) (gs : List (Nat × Ty × Option Exp)) (fs : List Func) (e : Enc) (he : fresh e) (hok : okU isLocal main gs fs = true)
    (hsmall : (text isLocal main (unit gs fs) e).length < 4294967296) (hten : (emitU isLocal main (unit gs fs) e).2.busy 10 = false) (n f G L P : Nat) (vs : List V) (w w' : World)
    (v : Option V) (m : M) (hev : callF isLocal noLib main fs n f vs w = some (v, w')) (hm : Called isLocal main gs fs e n G L P vs w m)
    (hpc : find ⟨.func, f⟩ (text isLocal main (unit gs fs) e) = some m.pc) :
    ∃ m', Reach (text isLocal main (unit gs fs) e) m m' ∧ m'.pc = (m.reg R_RA).toNat ∧ (∀ u, v = some u → stands u (m'.reg R_V0)) ∧ globalsAt isLocal gs G w' m' := by
  obtain ⟨m', r1, r2, r3⟩ := call_all he hok hsmall hten (.inl rfl) hev hm hpc
  exact ⟨m', r1, r2.pc, r2.val, r3⟩

/-- The whole program: from the first instruction the text comes back to where it was started from, with the answer of `main` in `$v0` and the globals as `main` left them.  Missing: as above;
and the globals are taken as they are in memory, since their initial values never get there, see `initial_lost`. -/
theorem program_partial (isLocal : Nat → Bool) (main : Nat) (gs : List (Nat × Ty × Option Exp)) (fs : List Func) (e : Enc) (he : fresh e) (hok : okU isLocal main gs fs = true)
    (hsmall : (text isLocal main (unit gs fs) e).length < 4294967296) (hten : (emitU isLocal main (unit gs fs) e).2.busy 10 = false) (n G L P : Nat) (w w' : World)
    (v : Option V) (m : M) (hev : callF isLocal noLib main fs n main [] w = some (v, w')) (hpc : m.pc = 0) (hsp : (m.reg R_SP).toNat = P) (hal : P % 4 = 0 ∧ G % 4 = 0)
    (hgp : (m.reg R_GP).toNat = G) (hG : 8060 ≤ G) (hlow : G + 4 * gs.length ≤ L) (hroom : L + n * roomOf isLocal main gs fs e + 4 ≤ P) (hhigh : P < 2147483648)
    (hgl : globalsAt isLocal gs G w m) :
    ∃ m', Reach (text isLocal main (unit gs fs) e) m m' ∧ m'.pc = (m.reg R_RA).toNat ∧ (∀ u, v = some u → stands u (m'.reg R_V0)) ∧ globalsAt isLocal gs G w' m' := by
  obtain ⟨hF, -⟩ := unit_funcs he.1 hok hsmall hten
  obtain ⟨-, p, hp, -⟩ := called hF hal.2 hlow n main [] w v w' _ (.inr ⟨rfl, rfl⟩) hev
  obtain ⟨m1, a1, a2, a3, a4, a5, a6, a7⟩ := head_ok (rest := (emitU isLocal main (unit gs fs) e).1) rfl hpc hsp hal.1 (by omega) hhigh hgp hal.2 hG hp
  have hm1 : Called isLocal main gs fs e n G L (P - 4) [] w m1 := by
    refine ⟨by omega, by omega, by rw [a5 R_GP (by decide) (by decide) (by decide) (by decide)]; exact hgp, hlow, by simp only [List.length_nil]; omega,
      by simp only [List.length_nil]; omega, fun k u hk => by simp at hk, fun id u hl hu => ?_⟩
    obtain ⟨k, ty, i, h1, h2⟩ := hgl id u hl hu
    have hlt := (List.getElem?_eq_some_iff.1 h1).1
    exact ⟨k, ty, i, h1, by rw [a7 _ (by omega) (by omega)]; exact h2⟩
  obtain ⟨m2, r1, r2, r3⟩ := call_all he hok hsmall hten (.inr ⟨rfl, rfl⟩) hev hm1 (by rw [a2]; exact hp)
  have hsp2 : (m2.reg R_SP).toNat = P - 4 := by rw [r2.sp]; omega
  have hmem : m2.mem ((P - 4 : Nat) : Int) = m.reg R_RA := by
    rw [r2.mem _ (by omega) (by simp only [List.length_nil]; omega) (by omega), ← a6]
    congr 1; omega
  have r4 := tail_ok (code := text isLocal main (unit gs fs) e) (rest := (emitU isLocal main (unit gs fs) e).1) rfl (r2.pc.trans a4) hsp2 (by omega) hmem
  refine ⟨_, (a1.trans r1).trans r4, rfl, fun u hu => ?_, r3⟩
  exact r2.val u hu

/-! ## C82: what a call leaves alone -/

/-- A call comes back with `$sp`, `$fp`, `$gp` and `$s0` to `$s7` as they were, and with the registers of arguments it does not have; memory outside of the room below `$sp`, of the words of
its own arguments and of the globals is as it was.  Missing: units that are not `okU`. -/
theorem frame_partial (isLocal : Nat → Bool) (main : Nat) (gs : List (Nat × Ty × Option Exp)) (fs : List Func) (e : Enc) (he : fresh e) (hok : okU isLocal main gs fs = true)
    (hsmall : (text isLocal main (unit gs fs) e).length < 4294967296) (hten : (emitU isLocal main (unit gs fs) e).2.busy 10 = false) (n f G L P : Nat) (vs : List V) (w w' : World)
    (v : Option V) (m : M) (hev : callF isLocal noLib main fs n f vs w = some (v, w')) (hm : Called isLocal main gs fs e n G L P vs w m)
    (hpc : find ⟨.func, f⟩ (text isLocal main (unit gs fs) e) = some m.pc) :
    ∃ m', Reach (text isLocal main (unit gs fs) e) m m' ∧ m'.pc = (m.reg R_RA).toNat ∧ (∀ r ∈ [R_SP, R_FP, R_GP, 16, 17, 18, 19, 20, 21, 22, 23], m'.reg r = m.reg r) ∧
      (∀ r, 4 + vs.length ≤ r → r < 8 → m'.reg r = m.reg r) ∧
      ∀ a : Int, ¬ (L ≤ a ∧ a < P) → ¬ (P + 16 ≤ a ∧ a < P + 4 * vs.length) → ¬ (G ≤ a ∧ a < G + 4 * gs.length) → m'.mem a = m.mem a := by
  obtain ⟨m', r1, r2, r3⟩ := call_all he hok hsmall hten (.inl rfl) hev hm hpc
  refine ⟨m', r1, r2.pc, fun r hr => ?_, r2.arg, fun a h1 h2 h3 => r2.mem a h1 h2 (by omega)⟩
  simp only [List.mem_cons, List.not_mem_nil, or_false] at hr
  rcases hr with rfl | rfl | rfl | hr
  · exact r2.sp
  · exact r2.fp
  · exact r2.gp
  · exact r2.saved r (by omega) (by omega)

/-! ## A program that meets what is asked for -/

/-- The processor at the beginning: the stack is below 0x10000, the globals are at 0x4000, the text was called from the address 0xfffff0. -/
def machine : M := ⟨0, fun r => if r = R_SP then 0x10000#32 else if r = R_GP then 0x4000#32 else if r = R_RA then 0xfffff0#32 else 0#32, fun _ => 0#32⟩

/-- Where the text is after `n` instructions, and what is in `$v0`. -/
def outcome (code : List Instr) (n : Nat) : Option (Nat × Int) := (steps code n machine).map fun m => (m.pc, (m.reg R_V0).toInt)

/-- The only global, 100, is 0. -/
def world : World := ⟨fun i => if i = 100 then some (.i32 0) else none, []⟩

/-- The text of a unit whose function 201 is `main`. -/
def textOf (gs : List (Nat × Ty × Option Exp)) (fs : List Func) : List Instr := text loc 201 (unit gs fs) e0

/-- What `main` gives. -/
def answer (fs : List Func) : Option Int := (callF loc noLib 201 fs 20 201 [] world).bind fun r => match r.1 with | some (.i32 x) => some x.toInt | _ => none

/-- `int main() { … }` -/
def mainF (l : List Stmt) : Func := ⟨201, [], some .int, seq l⟩

/-- `int sum(int n) { int m = n; total = total + m; if (m) { m = m + -1; int r = sum(m); return r + n; } return 0; }` -/
def sumF : Func := ⟨200, [(0, .int)], some .int, seq [let_ 1 (var 0), .expr (set 100 (.arith .add (var 100) (var 1))),
  .if_ (var 1) (.block (seq [.expr (set 1 (.arith .add (var 1) (.int (-1)))), let_ 2 (.call 200 (some .int) (.cons (var 1) .nil)), .return_ (some (.arith .add (var 2) (var 0)))])),
  .return_ (some (.int 0))]⟩

/-- `int total = 5;`, `sum` and `int main() { int s = sum(4); return s | total; }` -/
def total : List (Nat × Ty × Option Exp) := [(100, .int, some (.int 5))]
def sums : List Func := [sumF, mainF [let_ 3 (.call 200 (some .int) (.cons (.int 4) .nil)), .return_ (some (.arith .or (var 3) (var 100)))]]

theorem e0_fresh : fresh e0 := ⟨fun _ => ⟨0, R_GP, rfl, .inr rfl⟩, rfl⟩

theorem world_at (m : M) (h : m.mem 0x4000 = 0#32) : globalsAt loc total 0x4000 world m := fun id v _ hv => by
  unfold world at hv
  simp only at hv
  split at hv
  · rename_i hid
    subst hid
    obtain rfl := Option.some.inj hv
    exact ⟨0, .int, some (.int 5), rfl, h⟩
  · cases hv

theorem sums_ok : okU loc 201 total sums = true ∧ (textOf total sums).length = 120 ∧ (emitU loc 201 (unit total sums) e0).2.busy 10 = false ∧ roomOf loc 201 total sums e0 = 80 := by decide +kernel

theorem sums_answer : answer sums = some 10 := by decide +kernel

/-- The program runs to its end with the answer. -/
example : ∃ m', Reach (textOf total sums) machine m' ∧ m'.pc = 0xfffff0 ∧ m'.reg R_V0 = 10#32 := by
  have h := sums_answer
  unfold answer at h
  obtain ⟨⟨v, w'⟩, hev, hv⟩ := Option.bind_eq_some_iff.1 h
  obtain ⟨m', r1, r2, r3, -⟩ := program_partial loc 201 total sums e0 e0_fresh sums_ok.1 (by have := sums_ok.2.1; unfold textOf at this; omega) sums_ok.2.2.1 20 0x4000 0x4004 0x10000 world w' v machine hev
    rfl (by decide) (by decide) (by decide) (by decide) (by decide) (by rw [sums_ok.2.2.2]; decide) (by decide) (world_at machine rfl)
  refine ⟨m', r1, r2, ?_⟩
  cases v with
  | none => cases hv
  | some u =>
    cases u with
    | i32 x =>
      have hx : x.toInt = 10 := Option.some.inj hv
      have h1 : m'.reg R_V0 = x := r3 _ rfl
      rw [h1]
      exact BitVec.eq_of_toInt_eq (by rw [hx]; decide)
    | i1 b => cases hv
    | str s => cases hv

example : outcome (textOf total sums) 331 = some (0xfffff0, 10) := by decide +kernel

/-- A call of `sum` from outside: one argument, 300 bytes below the stack pointer for three calls. -/
def inside : M := ⟨10, fun r => if r = R_SP then 0x10000#32 else if r = R_GP then 0x4000#32 else if r = 4 then 2#32 else if r = R_RA then 0xfffff0#32 else 0#32, fun _ => 0#32⟩

theorem inside_called : Called loc 201 total sums e0 3 0x4000 0x4004 0x10000 [.i32 2#32] world inside :=
  ⟨by decide, by decide, by decide, by decide, by rw [sums_ok.2.2.2]; decide, by decide, fun k u hk => by
    cases k with
    | zero => obtain rfl := Option.some.inj hk; rfl
    | succ k => simp at hk, world_at inside rfl⟩

theorem inside_at : find ⟨.func, 200⟩ (textOf total sums) = some 10 ∧ (callF loc noLib 201 sums 3 200 [.i32 2#32] world).isSome = true := by decide +kernel

example : ∃ m', Reach (textOf total sums) inside m' ∧ m'.reg R_SP = 0x10000#32 ∧ ∀ a : Int, 0x10000 ≤ a → m'.mem a = 0#32 := by
  obtain ⟨⟨v, w'⟩, hev⟩ := Option.isSome_iff_exists.1 inside_at.2
  obtain ⟨m', r1, -, r3, -, r5⟩ := frame_partial loc 201 total sums e0 e0_fresh sums_ok.1 (by have := sums_ok.2.1; unfold textOf at this; omega) sums_ok.2.2.1 3 200 0x4000 0x4004 0x10000 _ world w' v inside hev
    inside_called inside_at.1
  refine ⟨m', r1, by rw [r3 R_SP (by decide)]; rfl, fun a ha => ?_⟩
  rw [r5 a (by omega) (by simp only [List.length_cons, List.length_nil]; omega) (by simp only [total, List.length_cons, List.length_nil]; omega)]
  rfl

example : ∃ m' v w', callF loc noLib 201 sums 3 200 [.i32 2#32] world = some (v, w') ∧ Reach (textOf total sums) inside m' ∧ m'.pc = 0xfffff0 ∧ globalsAt loc total 0x4000 w' m' := by
  obtain ⟨⟨v, w'⟩, hev⟩ := Option.isSome_iff_exists.1 inside_at.2
  obtain ⟨m', r1, r2, -, r4⟩ := call_partial loc 201 total sums e0 e0_fresh sums_ok.1 (by have := sums_ok.2.1; unfold textOf at this; omega) sums_ok.2.2.1 3 200 0x4000 0x4004 0x10000 _ world w' v inside hev
    inside_called inside_at.1
  exact ⟨m', v, w', hev, r1, r2, r4⟩

/-! ## What the text gets wrong -/

/-- After `n` instructions the text has come to its end with another answer than `main` of the source. -/
abbrev differs (fs : List Func) (n : Nat) (text source : Int) : Prop := outcome (textOf [] fs) n = some (0xfffff0, text) ∧ answer fs = some source

/-- `int u = 5; int main() { return u; }` gives 0: the instructions that set `u` are behind the jump at the end of the beginning, and no label leads to them. -/
theorem initial_lost : outcome (textOf total [mainF [.return_ (some (var 100))]]) 47 = some (0xfffff0, 0) ∧
    (textOf total [mainF [.return_ (some (var 100))]]).take 12 = head ++ [.li (.reg R_T0) (.imm 5), .sw (.reg R_T0) 0 R_GP, .label ⟨.func, 201⟩, .label ⟨.main, 0⟩] := by decide +kernel

/-- `int a = 3; return 10 - a;` is refused by the assembler: the difference is to be put into the constant. -/
theorem constant_first : (steps (textOf [] [mainF [let_ 3 (.int 3), .return_ (some (.arith .sub (.int 10) (var 3)))]]) 60 machine).isNone = true ∧
    answer [mainF [let_ 3 (.int 3), .return_ (some (.arith .sub (.int 10) (var 3)))]] = some 7 := by decide +kernel

/-- `int a = 3; int b = 4; if (a > b) return 1; return 0;` gives 1: a comparison is true whatever the operands are. -/
theorem greater_wrong : differs (text := 1) (source := 0) ([mainF [let_ 3 (.int 3), let_ 4 (.int 4), .if_ (.cmp .gt (var 3) (var 4)) (.return_ (some (.int 1))), .return_ (some (.int 0))]]) 58 := by decide +kernel

/-- `int a = 3; int b = 3; if (a == b) return 1; return 0;` gives 0: `==` is true when the operands differ. -/
theorem equal_wrong : differs (text := 0) (source := 1) ([mainF [let_ 3 (.int 3), let_ 4 (.int 3), .if_ (.cmp .eq (var 3) (var 4)) (.return_ (some (.int 1))), .return_ (some (.int 0))]]) 58 := by decide +kernel

/-- `return 2;` does not set `$v0`: the number of the register is taken for the constant. -/
theorem return_two : differs (text := 0) (source := 2) ([mainF [.return_ (some (.int 2))]]) 46 := by decide +kernel

/-- `int f(int a) { a = 4; return a; }`, called with 1, gives 1: a constant does not get into a parameter that is in a register. -/
theorem parameter_lost : differs (text := 1) (source := 4) ([⟨200, [(0, .int)], some .int, seq [.expr (set 0 (.int 4)), .return_ (some (var 0))]⟩,
    mainF [.return_ (some (.call 200 (some .int) (.cons (.int 1) .nil)))]]) 90 := by decide +kernel

/-- `int f(int a) { int b = a + 1; return a; }`, called with 1, gives 2: the sum is put into the register of the parameter. -/
theorem parameter_changed : differs (text := 2) (source := 1) ([⟨200, [(0, .int)], some .int, seq [let_ 1 (.arith .add (var 0) (.int 1)), .return_ (some (var 0))]⟩,
    mainF [.return_ (some (.call 200 (some .int) (.cons (.int 1) .nil)))]]) 91 := by decide +kernel

/-- `int g(int a, int b) { return b; } int f(int a) { return g(1, a); }`, `f` called with 7, gives 1: the first argument is put over `a` before `a` is read. -/
theorem argument_overwritten : differs (text := 1) (source := 7) ([⟨202, [(0, .int), (1, .int)], some .int, seq [.return_ (some (var 1))]⟩,
    ⟨200, [(2, .int)], some .int, seq [.return_ (some (.call 202 (some .int) (.cons (.int 1) (.cons (var 2) .nil))))]⟩, mainF [.return_ (some (.call 200 (some .int) (.cons (.int 7) .nil)))]]) 138 := by decide +kernel

/-- `int a = 1; int b = a ? 5 : 6; return b;` gives 6. -/
theorem choice_reversed : differs (text := 6) (source := 5) ([mainF [let_ 3 (.int 1), let_ 4 (.ternary (var 3) (.int 5) (.int 6)), .return_ (some (var 4))]]) 55 := by decide +kernel

/-- `int a = 7; a %= 4; return a;` gives 7. -/
theorem remainder_lost : differs (text := 7) (source := 3) ([mainF [let_ 3 (.int 7), .expr (.assign (some .rem) 3 .int (.int 4)), .return_ (some (var 3))]]) 50 := by decide +kernel

/-- `int f() { int a = 1; int b = a; return b; }`, `int a = 9; int b = a + f(); return b;` gives 2: the first operand is in a register that the function uses. -/
theorem operand_lost : differs (text := 2) (source := 10) ([⟨200, [], some .int, seq [let_ 5 (.int 1), let_ 6 (var 5), .return_ (some (var 6))]⟩,
    mainF [let_ 3 (.int 9), let_ 4 (.arith .add (var 3) (.call 200 (some .int) .nil)), .return_ (some (var 4))]]) 98 := by decide +kernel

/-- `int f(int a) { int b = a++; return b; }`, called with 1, gives 2. -/
theorem stepped_early : differs (text := 2) (source := 1) ([⟨200, [(0, .int)], some .int, seq [let_ 1 (.inc .postInc 0), .return_ (some (var 1))]⟩,
    mainF [.return_ (some (.call 200 (some .int) (.cons (.int 1) .nil)))]]) 93 := by decide +kernel

end RuC.Mips.Props
