import Verif.Machine.Unit2
import Verif.Machine.Meaning
import Verif.Codegen.Props

/-!
# Compiled programs compute what they mean (C37), and expression statements leave the stack as it was (C39)

The machine is an assumption (`Machine.Model`): it is not part of the repository.  The meaning of programs is in
`Machine.Spec`, the programs the theorems speak of in `Machine.Fragment`.
-/

namespace RuC.Machine

open RuC RuC.Codegen RuC.Codegen.Props RuC.Instr
open RuC.Expr (Unary Binary)

/-! ### C37 -/

/-- A unit of the fragment, as the parser accepts it: `Program` says that calls and functions fit together, `InU` that it
has only what `Machine.Fragment` allows, and that globals are used behind their declarations. -/
structure Source (tops : List Top) (main : Nat) : Prop where
  program : Program tops main
  fits : InU (globalsOf tops) [] tops
  once : (globalsOf tops).Nodup

/-- The machine loaded with the code of a unit; `fresh` is what cells have in them before they are written. -/
def load (tops : List Top) (main : Nat) (fresh : State → Int → Int) : Load :=
  ⟨(emitU tops main).mem, (emitU tops main).funcs, (emitU tops main).lay.maxGlobal, fresh⟩

/-- The machine before the first step: at the address 4, and nothing done.  The cells may have anything in them. -/
structure Initial (v : State) : Prop where
  pc : v.pc = 4
  stack : v.stack = []
  pend : v.pend = []
  frames : v.frames = []
  out : v.out = []

/-- What the machine is about when it runs a unit. -/
def ctx (tops : List Top) (main : Nat) (fresh : State → Int → Int) : Ctx :=
  ⟨load tops main fresh, fun f => number tops f, fun id => decide (id ∈ globalsOf tops), (tops.foldl layT start.lay).displs⟩

theorem cell_resolve {tops main fresh} (y : Sym) : cell (ctx tops main fresh) 0 0 y = resolve (number tops) y := by
  cases y <;> rfl

theorem at_start {tops main fresh} (h : Source tops main) : At (ctx tops main fresh) (globalsOf tops) start.lay [] tops := by
  refine ⟨h.fits, fun _ => rfl, ⟨by simp, by simp, by decide, rfl⟩, by simpa using h.once, by simp, fun id => ?_, rfl⟩
  show (0 : Int) < MIN_INSTRUCTION_CODE
  decide

/-- The machine has the code, the functions and the cells of the globals. -/
structure Runs (tops : List Top) (main : Nat) (fresh : State → Int → Int) : Prop where
  ok : (ctx tops main fresh).Ok
  hold : Holds (ctx tops main fresh) 0 0 4 (codeTops start.lay 4 tops)
  tail : ∀ j, j < 4 → (emitU tops main).mem[4 + (codeTops start.lay 4 tops).length + j]? = [IC_CALL1, IC_CALL2, (number tops main : Int), IC_STOP][j]?
  loaded : Loaded (ctx tops main fresh) (defs tops)

theorem runs {tops main fresh} (h : Source tops main) : Runs tops main fresh := by
  obtain ⟨hm, _, hf, hlay⟩ := emitU_all h.program.good h.program.linked h.program.called h.program.main h.program.calm h.program.few
  have hA := at_start (main := main) (fresh := fresh) h
  obtain ⟨hP, _⟩ := placed_tops tops start.lay [] h.fits hA.placed hA.nodup hA.sub
  simp only [List.nil_append] at hP
  have ok : (ctx tops main fresh).Ok := by
    refine ⟨fun i g => ?_, fun i j gi gj e => ?_⟩
    · have := hP.range i (by simpa [ctx] using g)
      show 3 ≤ - (tops.foldl layT start.lay).displs i ∧ - (tops.foldl layT start.lay).displs i < (emitU tops main).lay.maxGlobal
      rw [hlay]; exact this
    · exact hP.inj i (by simpa [ctx] using gi) j (by simpa [ctx] using gj) e
  have hold : Holds (ctx tops main fresh) 0 0 4 (codeTops start.lay 4 tops) := by
    intro i y hi
    rw [cell_resolve]
    show (emitU tops main).mem[4 + i]? = _
    have hil : i < (codeTops start.lay 4 tops).length := by rw [List.getElem?_eq_some_iff] at hi; exact hi.1
    rw [hm, List.append_assoc, List.getElem?_append_right (by simp)]
    have e : 4 + i - [(0 : Int), 0, 0, 0].length = i := by simp
    rw [e, List.getElem?_append_left (by simpa using hil)]
    simp [hi]
  have tail : ∀ j, j < 4 → (emitU tops main).mem[4 + (codeTops start.lay 4 tops).length + j]? = [IC_CALL1, IC_CALL2, (number tops main : Int), IC_STOP][j]? := by
    intro j _
    rw [hm, List.getElem?_append_right (by simp; omega)]
    congr 1
    simp; omega
  have hl : Loaded (ctx tops main fresh) (defs tops) := by
    intro f d hd
    have hlt : (defs tops).findIdx (fun g => decide (g.id = f ∨ g.prev = some f)) < (defs tops).length := by
      rw [List.findIdx_lt_length]
      exact ⟨d, List.mem_of_find?_eq_some hd, by simpa using List.find?_some hd⟩
    have hget : (defs tops)[(defs tops).findIdx (fun g => decide (g.id = f ∨ g.prev = some f))]? = some d := by
      rw [List.getElem?_eq_getElem hlt, ← hd, List.find?_eq_getElem?_findIdx, List.getElem?_eq_getElem hlt]
    obtain ⟨a, L', e1, e2, e3, e4⟩ := loaded_tops tops start.lay [] 4 hA hold _ d hget
    refine ⟨a, L', Int.natCast_nonneg _, ?_, e2, e3, e4⟩
    show (emitU tops main).funcs[((number tops f : Nat) : Int).toNat]? = _
    rw [hf, Int.toNat_natCast, List.getElem?_append_right (by simp [number])]
    have : number tops f - [(0 : Int), 0].length = (defs tops).findIdx (fun g => decide (g.id = f ∨ g.prev = some f)) := by simp [number]
    rw [this, List.getElem?_map, e1]
    rfl
  exact ⟨ok, hold, tail, hl⟩

theorem calls_ok {tops main fresh} (h : Source tops main) (n : Nat) :
    CallsOk (ctx tops main fresh) n (callF (fun id => decide (id ∈ globalsOf tops)) (defs tops) n) := callsOk (runs h).ok (runs h).loaded n

theorem unit_follows {tops main fresh} (h : Source tops main) (v : State) (hv : Initial v) (n : Nat) :
    Follows (ctx tops main fresh) n v (fun r s v' => (load tops main fresh).code[v'.pc]? = some IC_STOP ∧ InvG (ctx tops main fresh) s v' ∧ v'.stack = r.toList)
      (execU tops main n) := by
  have hA := at_start (main := main) (fresh := fresh) h
  obtain ⟨ok, hold, tail, hl⟩ := runs (fresh := fresh) h
  have okc : CallsOk (ctx tops main fresh) n (callF (ctx tops main fresh).global (defs tops) n) := callsOk ok hl n
  have inv0 : InvG (ctx tops main fresh) ⟨fun _ => none, []⟩ v := ⟨hv.out, by simp, fun i a => by simp [Src.alive] at a⟩
  refine Follows.bind (claimT ok okc tops start.lay [] _ v 4 hA hold hv.pc inv0) ?_
  rintro _ s1 v1 ⟨inv1, up⟩
  have t0 : (load tops main fresh).code[v1.pc]? = some IC_CALL1 := by rw [up.pc]; exact tail 0 (by omega)
  refine Follows.start ((reach_step (step_call1 t0)).weaken (Nat.zero_le _)) ?_
  have t1 : (load tops main fresh).code[v1.pc + 1]? = some IC_CALL2 := by rw [up.pc]; exact tail 1 (by omega)
  have t2 : (load tops main fresh).code[v1.pc + 1 + 1]? = some ((ctx tops main fresh).F main) := by rw [up.pc]; exact tail 2 (by omega)
  have t3 : (load tops main fresh).code[v1.pc + 1 + 2]? = some IC_STOP := by rw [up.pc]; exact tail 3 (by omega)
  refine (okc start.lay main [] s1 { v1 with pc := v1.pc + 1, stack := [], pend := v1.stack :: v1.pend } v1.stack v1.pend
    ((inv1.inv start.lay).congr rfl rfl rfl rfl) t1 t2 rfl rfl).mono ?_
  rintro r s2 v2 ⟨inv2, sm, hpc, hst, _⟩
  refine ⟨?_, ⟨inv2.out, inv2.glob, fun i a => inv1.only i ((sm.alive i).1 a)⟩, ?_⟩
  · rw [hpc]; exact t3
  · rw [hst, up.stack, hv.stack]; simp

/-- C37: when the run of a unit is finished, so is the one of its code: the machine gets to `STOP`, has printed the same,
holds the value `main` returned, and has the values of the globals in their cells.  What is missing for all of C37 is in
`Machine.Fragment` and at the head of `Machine.Spec`: floating, structures, arrays, pointers, the functions of
the library; and some expressions whose code does not compute their value, and `switch`es that fall through from one label to
the next or have labels behind their `default`, see the witnesses below. -/
theorem C37_unit_partial (tops : List Top) (main : Nat) (h : Source tops main) (fresh : State → Int → Int) (v0 : State) (hv : Initial v0)
    (n : Nat) (r : Option Int) (s : Src) (hr : execU tops main n = .ok r s) :
    ∃ k v, run (load tops main fresh) k v0 = some v ∧ (load tops main fresh).code[v.pc]? = some IC_STOP ∧ v.out = s.out ∧ v.stack = r.toList ∧
      ∀ g ∈ globalsOf tops, ∀ x, s.var g = some (some x) → v.globals ((emitU tops main).lay.displs g) = x := by
  have f := unit_follows (fresh := fresh) h v0 hv n
  rw [hr] at f
  obtain ⟨v, ⟨k, _, hk⟩, h1, h2, h3⟩ := f
  obtain ⟨_, _, _, hlay⟩ := emitU_all h.program.good h.program.linked h.program.called h.program.main h.program.calm h.program.few
  refine ⟨k, v, hk, h1, h2.out, h3, fun g hg x hx => ?_⟩
  rw [hlay]
  exact h2.glob g x (by simpa [ctx] using hg) hx

/-- C37: as long as the run of a unit goes on, so does the one of its code, and it prints the same. -/
theorem C37_goes_on_partial (tops : List Top) (main : Nat) (h : Source tops main) (fresh : State → Int → Int) (v0 : State) (hv : Initial v0)
    (n : Nat) (out : List Event) (hr : execU tops main n = .more out) : ∃ k v, n ≤ k ∧ run (load tops main fresh) k v0 = some v ∧ v.out = out := by
  have f := unit_follows (fresh := fresh) h v0 hv n
  rw [hr] at f
  obtain ⟨v, ⟨k, hn, hk⟩, h1⟩ := f
  exact ⟨k, v, hn, hk, h1⟩

/-- C37: a unit that never ends is compiled to code that never stops. -/
theorem C37_forever_partial (tops : List Top) (main : Nat) (h : Source tops main) (fresh : State → Int → Int) (v0 : State) (hv : Initial v0)
    (hr : ∀ n, ∃ out, execU tops main n = .more out) (k : Nat) : ∃ v, run (load tops main fresh) k v0 = some v := by
  obtain ⟨out, ho⟩ := hr k
  obtain ⟨j, v, hj, hrun, _⟩ := C37_goes_on_partial tops main h fresh v0 hv k out ho
  obtain ⟨i, rfl⟩ := Nat.exists_eq_add_of_le hj
  rw [run_add] at hrun
  cases hk : run (load tops main fresh) k v0 with
  | none => rw [hk] at hrun; cases hrun
  | some w => exact ⟨w, rfl⟩

/-- C37: what a unit means is one result: it does not depend on how many rounds and calls were allowed. -/
theorem C37_one_result (tops : List Top) (main n n' : Nat) (r r' : Option Int) (s s' : Src) (h : execU tops main n = .ok r s) (h' : execU tops main n' = .ok r' s') :
    r = r' ∧ s = s' := by
  rcases Nat.le_total n n' with hn | hn
  · rcases execU_le tops main hn with ⟨out, e⟩ | e
    · rw [h] at e; cases e
    · rw [h, h'] at e; cases e; exact ⟨rfl, rfl⟩
  · rcases execU_le tops main hn with ⟨out, e⟩ | e
    · rw [h'] at e; cases e
    · rw [h, h'] at e; cases e; exact ⟨rfl, rfl⟩

theorem step_stop {M : Load} {v : State} (h : M.code[v.pc]? = some IC_STOP) : step M v = none := by
  rw [step_at h]; rfl

/-- C37: a unit that does nothing undefined ends just when its code does. -/
theorem C37_ends_partial (tops : List Top) (main : Nat) (h : Source tops main) (fresh : State → Int → Int) (v0 : State) (hv : Initial v0)
    (hw : ∀ n, execU tops main n ≠ .wrong) :
    (∃ n r s, execU tops main n = .ok r s) ↔ ∃ k, run (load tops main fresh) k v0 = none := by
  constructor
  · rintro ⟨n, r, s, hr⟩
    obtain ⟨k, v, hk, hs, _⟩ := C37_unit_partial tops main h fresh v0 hv n r s hr
    refine ⟨k + 1, ?_⟩
    rw [run_add, hk]
    show (step _ v).bind _ = none
    rw [step_stop hs]; rfl
  · rintro ⟨k, hk⟩
    cases hr : execU tops main k with
    | ok r s => exact ⟨k, r, s, hr⟩
    | wrong => exact absurd hr (hw k)
    | more out =>
      obtain ⟨j, v, hj, hrun, _⟩ := C37_goes_on_partial tops main h fresh v0 hv k out hr
      obtain ⟨i, rfl⟩ := Nat.exists_eq_add_of_le hj
      rw [run_add, hk] at hrun
      cases hrun

/-- `int sum = 0; int f(int n) { if (n <= 1) return 1; return n * f(n - 1); }
void main() { for (int i = 0; i < 5; i++) sum += f(i); print(sum); }` -/
def factorials : List Top :=
  [.vars (.var 1 .integer 0 (some (.lit 0))),
   .func ⟨10, none, [(11, .integer)],
     .seq (.if_ (.binary .le (.ident 11 .integer) (.lit 1) false) (.return_ (some (.lit 1, 1))))
       (.return_ (some (.binary .mul (.ident 11 .integer) (.call 10 (.cons (.binary .sub (.ident 11 .integer) (.lit 1) false) .nil)) false, 1)))⟩,
   .func ⟨20, none, [],
     .seq (.for_ (.var 21 .integer 0 (some (.lit 0))) (some (.binary .lt (.ident 21 .integer) (.lit 5) false)) (some (.incdec .postInc (.ident 21 .integer) .integer))
         (.expr (.assign .addAssign (.ident 1 .integer) (.call 10 (.cons (.ident 21 .integer) .nil)) .integer)))
       (.expr (.print (.ident 1 .integer) (-3)))⟩]

theorem factorials_source : Source factorials 20 := by
  refine ⟨⟨?_, ?_, ?_, ?_, calm_small (by decide +kernel), by decide⟩, ?_, by decide⟩
  · intro t ht
    simp [factorials] at ht
    rcases ht with rfl | rfl | rfl <;> simp [Top.Good, Top.stmt, Stmt.Wf, Stmt.Placed, Exp.Wf, Args.Wf]
  · simp [factorials, Linked, Stmt.calls, Stmt.passes, Exp.calls, Exp.passes, Args.calls, Args.passes, callsO, passesO]
  · simp [factorials, callsT, Top.calls, Stmt.calls, Exp.calls, Args.calls, callsO, defs]
  · simp [factorials, defs]
  · refine ⟨?_, ⟨?_, ?_, ?_, ?_, ?_, ?_⟩, ⟨?_, ?_, ?_, ?_, ?_, ?_⟩, trivial⟩
    all_goals simp [globalsOf, factorials, Stmt.declared, InG, InS, FitsE, FitsA, FitsV, Scalar, compound, opens, Disjoint, MIN_INSTRUCTION_CODE]

/-- What is printed. -/
def printed {α} : Res α → Option (List Event)
  | .ok _ s => some s.out
  | _ => none

/-- A machine before the first step. -/
def fresh0 : State → Int → Int := fun _ _ => 77
def initial : State := ⟨4, [], [], fun _ => 55, fun _ => 66, 0, [], []⟩

example : printed (execU factorials 20 7) = some [.print (-3) 34] := by decide +kernel
example : Initial initial := ⟨rfl, rfl, rfl, rfl, rfl⟩
example : (run (load factorials 20 fresh0) 167 initial).map (fun v => (v.out, v.stack, (load factorials 20 fresh0).code[v.pc]?)) = some ([.print (-3) 34], [], some IC_STOP) := by
  decide +kernel

/-- `int f(int n) { switch (n) { case 1: return 10; case 2: { int k = 7; print(k); break; } case 4: if (n) break; else return 3; default: print(0); } return n; }
void main() { for (int i = 0; i < 5; i++) { switch (i) { case 3: continue; } print(f(i)); } }` -/
def switches : List Top :=
  [.func ⟨10, none, [(11, .integer)],
     .seq (.switch (.ident 11 .integer) (.block
         (.seq (.case (.lit 1) (.return_ (some (.lit 10, 1))))
         (.seq (.case (.lit 2) (.block (.seq (.var 12 .integer 0 (some (.lit 7))) (.seq (.expr (.print (.ident 12 .integer) (-3))) .break_))))
         (.seq (.case (.lit 4) (.ifElse (.ident 11 .integer) .break_ (.return_ (some (.lit 3, 1)))))
         (.default (.expr (.print (.lit 0) (-3)))))))))
       (.return_ (some (.ident 11 .integer, 1)))⟩,
   .func ⟨20, none, [],
     .for_ (.var 21 .integer 0 (some (.lit 0))) (some (.binary .lt (.ident 21 .integer) (.lit 5) false)) (some (.incdec .postInc (.ident 21 .integer) .integer))
       (.block (.seq (.switch (.ident 21 .integer) (.block (.seq (.case (.lit 3) .continue_) .skip)))
         (.expr (.print (.call 10 (.cons (.ident 21 .integer) .nil)) (-3)))))⟩]

theorem switches_source : Source switches 20 := by
  refine ⟨⟨?_, ?_, ?_, ?_, calm_small (by decide +kernel), by decide⟩, ?_, by decide⟩
  · intro t ht
    simp [switches] at ht
    rcases ht with rfl | rfl <;> simp [Top.Good, Top.stmt, Stmt.Wf, Stmt.Placed, Exp.Wf, Args.Wf]
  · simp [switches, Linked, Stmt.calls, Stmt.passes, Exp.calls, Exp.passes, Args.calls, Args.passes, callsO, passesO]
  · simp [switches, callsT, Top.calls, Stmt.calls, Exp.calls, Args.calls, callsO, defs]
  · simp [switches, defs]
  · refine ⟨⟨?_, ?_, ?_, ?_, ?_, ?_⟩, ⟨?_, ?_, ?_, ?_, ?_, ?_⟩, trivial⟩
    all_goals simp [globalsOf, switches, Stmt.declared, InS, InArms, Leaves, FitsE, FitsA, FitsV, Scalar, compound, opens, Disjoint, MIN_INSTRUCTION_CODE]

example : printed (execU switches 20 7) = some [.print (-3) 0, .print (-3) 0, .print (-3) 10, .print (-3) 7, .print (-3) 2, .print (-3) 4] := by decide +kernel

/-- To the emitter it is the same whether the statements behind a label stand under it or behind it. -/
example (st : Enc) (e : Exp) (x y r : Stmt) : emitS st (.seq (.case e x) (.seq y r)) = emitS st (.seq (.case e (.seq x y)) r) := by
  simp only [emitS]

def isWrong {α} : Res α → Bool
  | .wrong => true
  | _ => false

/-- The hypotheses of `C37_ends_partial` can be met. -/
example : ∀ n, execU factorials 20 n ≠ .wrong := by
  intro n hn
  have h7 : (printed (execU factorials 20 7)).isSome = true := by decide +kernel
  by_cases h : 7 ≤ n
  · rcases execU_le factorials 20 h with ⟨out, e⟩ | e
    · rw [e] at h7; cases h7
    · rw [e, hn] at h7; cases h7
  · have : ∀ m < 7, isWrong (execU factorials 20 m) = false := by decide +kernel
    have := this n (by omega)
    rw [hn] at this
    cases this

/-- `void main() { while (1) print(7); }` -/
def endless : List Top := [.func ⟨20, none, [], .while_ (.lit 1) (.expr (.print (.lit 7) (-3)))⟩]

theorem endless_source : Source endless 20 := by
  refine ⟨⟨?_, ?_, ?_, ?_, calm_small (by decide +kernel), by decide⟩, ?_, by decide⟩
  · intro t ht
    simp [endless] at ht
    subst ht
    simp [Top.Good, Top.stmt, Stmt.Wf, Stmt.Placed, Exp.Wf]
  · simp [endless, Linked, Stmt.calls, Stmt.passes, Exp.calls, Exp.passes]
  · simp [endless, callsT, Top.calls, Stmt.calls, Exp.calls]
  · simp [endless, defs]
  · refine ⟨⟨?_, ?_, ?_, ?_, ?_, ?_⟩, trivial⟩
    all_goals simp [globalsOf, endless, Stmt.declared, InS, FitsE, FitsV, opens, MIN_INSTRUCTION_CODE]

theorem endless_loop (call : Calls) (next : Src → Res (Option Int)) (hn : next = fun s => .ok none s) : ∀ (m n : Nat) (s : Src),
    ∃ out, loopT (evalE call (.lit 1)) (execS call n (.expr (.print (.lit 7) (-3)))) next m s = .more out
  | 0, _, s => ⟨s.out, rfl⟩
  | m + 1, n, s => by
    obtain ⟨out, h⟩ := endless_loop call next hn m n (s.print (.print (-3) 7))
    refine ⟨out, ?_⟩
    rw [loopT]
    simp only [evalE, execS, Res.value, Res.bind]
    rw [if_neg (by decide)]
    simp only [hn]
    rw [hn] at h
    exact h

/-- The hypotheses of `C37_forever_partial` can be met. -/
example : ∀ n, ∃ out, execU endless 20 n = .more out
  | 0 => ⟨[], rfl⟩
  | n + 1 => by
    obtain ⟨out, h⟩ := endless_loop (callF (fun id => decide (id ∈ globalsOf endless)) (defs endless) n) _ rfl n n
      ⟨bindParams [] [] fun id => if decide (id ∈ globalsOf endless) then none else none, []⟩
    refine ⟨out, ?_⟩
    have e : execU endless 20 (n + 1) = (execS (callF (fun id => decide (id ∈ globalsOf endless)) (defs endless) n) n (.while_ (.lit 1) (.expr (.print (.lit 7) (-3))))
        ⟨bindParams [] [] fun id => if decide (id ∈ globalsOf endless) then none else none, []⟩).bind fun f s1 =>
          match f with
          | .ret v => .ok v ⟨fun id => if decide (id ∈ globalsOf endless) then s1.var id else none, s1.out⟩
          | .normal => .ok none ⟨fun id => if decide (id ∈ globalsOf endless) then s1.var id else none, s1.out⟩
          | _ => .wrong := rfl
    rw [e, execS, h]
    rfl

/-! #### What the fragment leaves out -/

/-- `void main() { e }` -/
def mainOf (body : Stmt) : List Top := [.func ⟨20, none, [], body⟩]

/-- Where the machine is after `k` steps: what it printed, its stack, the instruction it is at. -/
def after (tops : List Top) (main k : Nat) : Option (List Event × List Int × Option Int) :=
  (run (load tops main fresh0) k initial).map fun v => (v.out, v.stack, (load tops main fresh0).code[v.pc]?)

/-- `print(5 || 0)` prints 5, and not 1. -/
theorem C37_or_witness :
    printed (execU (mainOf (.expr (.print (.binary .logOr (.lit 5) (.lit 0) false) (-3)))) 20 1) = some [.print (-3) 1] ∧
    after (mainOf (.expr (.print (.binary .logOr (.lit 5) (.lit 0) false) (-3)))) 20 8 = some ([.print (-3) 5], [], some IC_STOP) := by decide +kernel

/-- `print(1 + (2, 3))` prints 5, and not 4: the 2 is left on the stack. -/
theorem C37_comma_witness :
    printed (execU (mainOf (.expr (.print (.binary .add (.lit 1) (.comma (.lit 2) (.lit 3)) false) (-3)))) 20 1) = some [.print (-3) 4] ∧
    after (mainOf (.expr (.print (.binary .add (.lit 1) (.comma (.lit 2) (.lit 3)) false) (-3)))) 20 9 = some ([.print (-3) 5], [], some IC_STOP) := by decide +kernel

/-- `switch (1) { case 1: print(1); case 2: print(2); }` prints 1 only: the test of the second label is made again. -/
theorem C37_fall_through_witness :
    printed (execU (mainOf (.switch (.lit 1) (.block (.seq (.case (.lit 1) (.expr (.print (.lit 1) (-3)))) (.case (.lit 2) (.expr (.print (.lit 2) (-3)))))))) 20 1) =
      some [.print (-3) 1, .print (-3) 2] ∧
    after (mainOf (.switch (.lit 1) (.block (.seq (.case (.lit 1) (.expr (.print (.lit 1) (-3)))) (.case (.lit 2) (.expr (.print (.lit 2) (-3)))))))) 20 15 =
      some ([.print (-3) 1], [], some IC_STOP) := by decide +kernel

/-- `switch (2) { default: print(0); break; case 2: print(2); }` prints 0, and not 2. -/
theorem C37_default_first_witness :
    printed (execU (mainOf (.switch (.lit 2) (.block (.seq (.default (.seq (.expr (.print (.lit 0) (-3))) .break_)) (.case (.lit 2) (.expr (.print (.lit 2) (-3)))))))) 20 1) =
      some [.print (-3) 2] ∧
    after (mainOf (.switch (.lit 2) (.block (.seq (.default (.seq (.expr (.print (.lit 0) (-3))) .break_)) (.case (.lit 2) (.expr (.print (.lit 2) (-3)))))))) 20 8 =
      some ([.print (-3) 0], [], some IC_STOP) := by decide +kernel

/-- The value of a `switch` is left on the stack when it is over. -/
theorem C37_switch_leaves_witness :
    after (mainOf (.switch (.lit 8) (.block (.seq (.case (.lit 8) .break_) .skip)))) 20 9 = some ([], [8], some IC_RETURN_VOID) := by decide +kernel

/-! ### C39 -/

/-- C39: an expression statement of the fragment leaves the stack as it was, when it is of the kind `Exp.Quiet`, or has no
value.  What is missing: the other kinds, see the witnesses, and what `Machine.Fragment` leaves out. -/
theorem C39_balanced_partial (tops : List Top) (main : Nat) (h : Source tops main) (fresh : State → Int → Int) (n : Nat) (L : Layout) (e : Exp)
    (fits : FitsV (okId (ctx tops main fresh) L) e) (b c : Int) (s s' : Src) (v : State) (r : Option Int)
    (code : Holds (ctx tops main fresh) b c v.pc (codeV L.displs v.pc e)) (inv : Inv (ctx tops main fresh) L s v)
    (run : evalE (callF (fun id => decide (id ∈ globalsOf tops)) (defs tops) n) e s = .ok r s') (quiet : Exp.Quiet e ∨ r = none) :
    ∃ k v', Machine.run (load tops main fresh) k v = some v' ∧ v'.pc = v.pc + (codeV L.displs v.pc e).length ∧ v'.stack = v.stack ∧ v'.pend = v.pend ∧
      v'.frames = v.frames ∧ Inv (ctx tops main fresh) L s' v' := by
  have f := claim_left e (claimE (runs (fresh := fresh) h).ok (calls_ok h n) e).2 s v v.pc fits (left_wf fits) code rfl inv
  rw [run] at f
  obtain ⟨v', ⟨k, _, hk⟩, inv', _, junk, up, hj⟩ := f
  have hs := up.stack
  rw [hj quiet] at hs
  exact ⟨k, v', hk, up.pc, hs, up.pend, up.frames, inv'⟩

/-- The statement `print(7);` of `endless` stands at 11 and leaves the stack as it was. -/
example (k : List Int) : ∃ m v', Machine.run (load endless 20 fresh0) m { initial with pc := 11, stack := k } = some v' ∧ v'.pc = 15 ∧ v'.stack = k := by
  have code : Holds (ctx endless 20 fresh0) 0 0 11 (vals [IC_LI, 7, IC_PRINT, -3]) := by
    have c : ∀ (i : Nat) (x : Int), (emitU endless 20).mem[i]? = some x → (ctx endless 20 fresh0).M.code[i]? = some x := fun _ _ h => h
    exact holds_vals_cons.2 ⟨c _ _ (by decide +kernel), holds_vals_cons.2 ⟨c _ _ (by decide +kernel), holds_vals_cons.2 ⟨c _ _ (by decide +kernel),
      holds_vals_cons.2 ⟨c _ _ (by decide +kernel), holds_nil⟩⟩⟩⟩
  have e : codeV start.lay.displs 11 (.print (.lit 7) (-3)) = vals [IC_LI, 7, IC_PRINT, -3] := by decide +kernel
  rw [← e] at code
  obtain ⟨m, v', h1, h2, h3, _⟩ := C39_balanced_partial endless 20 endless_source fresh0 0 start.lay (.print (.lit 7) (-3))
    (.inr (by simp [FitsE, MIN_INSTRUCTION_CODE])) 0 0 ⟨fun _ => none, []⟩ _ { initial with pc := 11, stack := k } none code
    ⟨rfl, by simp, by simp, by simp, by simp⟩ rfl (.inl trivial)
  exact ⟨m, v', h1, by rw [h2]; show 11 + (codeV start.lay.displs 11 (.print (.lit 7) (-3))).length = 15; rw [e]; rfl, h3⟩

/-- At the end of a function the value of `1 + 2;` is on the stack. -/
theorem C39_pure_witness :
    after (mainOf (.expr (.binary .add (.lit 1) (.lit 2) false))) 20 6 = some ([], [3], some IC_RETURN_VOID) := by decide +kernel

/-- `int x = 5; x %= 3;` leaves 2. -/
theorem C39_rem_assign_witness :
    after (mainOf (.seq (.var 1 .integer 0 (some (.lit 5))) (.expr (.assign .remAssign (.ident 1 .integer) (.lit 3) .integer)))) 20 7 =
      some ([], [2], some IC_RETURN_VOID) := by decide +kernel

/-- `int x = 5; x ? (x = 1) : (x = 2);` leaves 1. -/
theorem C39_ternary_witness :
    after (mainOf (.seq (.var 1 .integer 0 (some (.lit 5))) (.expr (.ternary (.ident 1 .integer) (.assign .assign (.ident 1 .integer) (.lit 1) .integer)
      (.assign .assign (.ident 1 .integer) (.lit 2) .integer))))) 20 10 = some ([], [1], some IC_RETURN_VOID) := by decide +kernel

/-- `int x = 5; x && (x = 1);` leaves 1. -/
theorem C39_and_witness :
    after (mainOf (.seq (.var 1 .integer 0 (some (.lit 5))) (.expr (.binary .logAnd (.ident 1 .integer) (.assign .assign (.ident 1 .integer) (.lit 1) .integer) false)))) 20 11 =
      some ([], [1], some IC_RETURN_VOID) := by decide +kernel

/-- `int f() { return 8; } void main() { f(); }` leaves 8. -/
theorem C39_call_witness :
    after [.func ⟨10, none, [], .return_ (some (.lit 8, 1))⟩, .func ⟨20, none, [], .expr (.call 10 .nil)⟩] 20 8 = some ([], [8], some IC_RETURN_VOID) := by decide +kernel

/-- `void main() { while (1) 1; }` -/
def leaking : List Top := mainOf (.while_ (.lit 1) (.expr (.lit 1)))

theorem leaking_round (v : State) (h : v.pc = 7) : run (load leaking 20 fresh0) 4 v = some { v with stack := 1 :: v.stack } := by
  have c : ∀ (i : Nat) (x : Int), (emitU leaking 20).mem[i]? = some x → (load leaking 20 fresh0).code[i]? = some x := fun _ _ h => h
  have s1 := step_li (M := load leaking 20 fresh0) (v := v) (x := 1) (by rw [h]; exact c _ _ (by decide +kernel)) (by rw [h]; exact c _ _ (by decide +kernel))
  have s2 := step_be0 (M := load leaking 20 fresh0) (v := { v with pc := v.pc + 2, stack := 1 :: v.stack }) (x := 1) (a := 15) (k := v.stack)
    (by simp only [h]; exact c _ _ (by decide +kernel)) (by simp only [h]; exact c _ _ (by decide +kernel)) rfl
  have s3 := step_li (M := load leaking 20 fresh0) (v := { v with pc := v.pc + 2 + 2 }) (x := 1) (by simp only [h]; exact c _ _ (by decide +kernel)) (by simp only [h]; exact c _ _ (by decide +kernel))
  have s4 := step_jump (M := load leaking 20 fresh0) (v := { v with pc := v.pc + 2 + 2 + 2, stack := 1 :: v.stack }) (a := 7)
    (by simp only [h]; exact c _ _ (by decide +kernel)) (by simp only [h]; exact c _ _ (by decide +kernel))
  rw [if_neg (by decide)] at s2
  simp only [run, s1, Option.bind_some]
  rw [s2, Option.bind_some, s3, Option.bind_some, s4, Option.bind_some]
  show some { v with pc := (7 : Int).toNat, stack := 1 :: v.stack } = _
  rw [show (7 : Int).toNat = v.pc by rw [h]; rfl]

/-- So a loop may make the stack as large as one likes. -/
theorem C39_unbounded_witness : ∀ m : Nat, ∃ k v, run (load leaking 20 fresh0) k initial = some v ∧ v.pc = 7 ∧ v.stack.length = m
  | 0 => by
    have h : (run (load leaking 20 fresh0) 3 initial).map (fun v => (v.pc, v.stack)) = some (7, []) := by decide +kernel
    cases hr : run (load leaking 20 fresh0) 3 initial with
    | none => rw [hr] at h; cases h
    | some v =>
      rw [hr] at h
      have h' := Option.some.inj h
      exact ⟨3, v, hr, congrArg Prod.fst h', by rw [show v.stack = [] from congrArg Prod.snd h']; rfl⟩
  | m + 1 => by
    obtain ⟨k, v, h1, h2, h3⟩ := C39_unbounded_witness m
    exact ⟨k + 4, { v with stack := 1 :: v.stack }, by rw [run_add, h1]; exact leaking_round v h2, h2, by simp [h3]⟩

end RuC.Machine
