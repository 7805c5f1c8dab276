import Verif.Mips.Lin

/-!
# Lemmas: places of variables on the machine, and single steps of expressions
-/

namespace RuC.Mips
open Llvm (Ty Arith Cmp Un Inc Exp Args Stmt Stmts Func V World S arithV unV incV fit)

/-- A frame: `$fp`, `$gp`, the lowest address of the stack, the size of the locals, the number of parameters, the size of the globals. -/
structure Lay where
  F : Nat
  G : Nat
  L : Nat
  lo : Nat
  np : Nat
  gd : Nat

/-- The parts of a frame lie apart and within the memory. -/
structure Lay.Ok (y : Lay) : Prop where
  fa : y.F % 4 = 0
  ga : y.G % 4 = 0
  low : y.L + y.lo ≤ y.F
  high : y.F + 64 + 4 * y.np ≤ 2147483648
  glob : y.G + y.gd ≤ y.L

/-- The address of a place in memory. -/
def Lay.adr (y : Lay) (d : Int) (b : Nat) : Int := (if b = R_FP then (y.F : Int) else y.G) + d

/-- The word at a place. -/
def Lay.at (y : Lay) (m : M) : Lv → BitVec 32
  | .reg r => m.reg r
  | .stack d b => m.mem (y.adr d b)

/-- Places of variables: registers for arguments, locals, parameters on the stack, globals. -/
def Lay.fits (y : Lay) : Lv → Prop
  | .reg r => 4 ≤ r ∧ r < 8 ∧ r < 4 + y.np
  | .stack d b => d % 4 = 0 ∧ ((b = R_FP ∧ (-(y.lo : Int) ≤ d ∧ d ≤ -4 ∨ 80 ≤ d ∧ d < 64 + 4 * y.np)) ∨ (b = R_GP ∧ 0 ≤ d ∧ d + 4 ≤ y.gd))

/-- The words a function may change. -/
def Lay.own (y : Lay) (a : Int) : Prop := (y.L ≤ a ∧ a < y.F) ∨ (y.F + 80 ≤ a ∧ a < y.F + 64 + 4 * y.np) ∨ (y.G ≤ a ∧ a < y.G + y.gd)

/-- The registers of addresses. -/
structure Base (y : Lay) (m : M) : Prop where
  fp : (m.reg R_FP).toNat = y.F
  gp : (m.reg R_GP).toNat = y.G

theorem addr_ok {y : Lay} (hy : y.Ok) {m : M} (hb : Base y m) {d : Int} {b : Nat} (h : y.fits (.stack d b)) : m.addr d b = some (y.adr d b) := by
  obtain ⟨h4, h⟩ := h
  have := hy.fa; have := hy.ga; have := hy.low; have := hy.high; have := hy.glob
  rcases h with ⟨rfl, h⟩ | ⟨rfl, h⟩
  · unfold M.addr Lay.adr
    rw [hb.fp, if_pos ⟨by omega, by omega, by omega⟩, if_pos rfl]
  · unfold M.addr Lay.adr
    rw [hb.gp, if_pos ⟨by omega, by omega, by omega⟩, if_neg (by decide)]

theorem adr_own {y : Lay} (hy : y.Ok) {d : Int} {b : Nat} (h : y.fits (.stack d b)) : y.own (y.adr d b) := by
  obtain ⟨h4, h⟩ := h
  have := hy.low
  unfold Lay.own Lay.adr
  rcases h with ⟨rfl, h⟩ | ⟨rfl, h⟩
  · rw [if_pos rfl]
    rcases h with h | h
    · left; omega
    · right; left; omega
  · rw [if_neg (by decide)]; right; right; omega

theorem adr_ne {y : Lay} (hy : y.Ok) {d d' : Int} {b b' : Nat} (h : y.fits (.stack d b)) (h' : y.fits (.stack d' b')) (hne : Lv.stack d b ≠ .stack d' b') : y.adr d b ≠ y.adr d' b' := by
  obtain ⟨h4, h⟩ := h
  obtain ⟨h4', h'⟩ := h'
  have := hy.low; have := hy.glob
  unfold Lay.adr
  rcases h with ⟨rfl, h⟩ | ⟨rfl, h⟩ <;> rcases h' with ⟨rfl, h'⟩ | ⟨rfl, h'⟩
  · rw [if_pos rfl]; intro he; apply hne; rw [show d = d' by omega]
  · rw [if_pos rfl, if_neg (by decide)]; omega
  · rw [if_pos rfl, if_neg (by decide)]; omega
  · rw [if_neg (by decide)]; intro he; apply hne; rw [show d = d' by omega]

/-- Only registers for temporary values were set. -/
structure Tmp (m m' : M) : Prop where
  mem : m'.mem = m.mem
  reg : ∀ r, r < 8 ∨ 19 ≤ r → m'.reg r = m.reg r

theorem Tmp.refl (m : M) : Tmp m m := ⟨rfl, fun _ _ => rfl⟩
theorem Tmp.trans {a b c : M} (h : Tmp a b) (k : Tmp b c) : Tmp a c := ⟨k.mem.trans h.mem, fun r hr => (k.reg r hr).trans (h.reg r hr)⟩
theorem Tmp.set (m : M) {r : Nat} (h : 8 ≤ r) (h' : r < 19) (v : BitVec 32) : Tmp m (m.set r v) :=
  ⟨rfl, fun q hq => (by simp only [M.set]; rw [if_neg (by omega)])⟩

theorem Tmp.base {y : Lay} {m m' : M} (h : Tmp m m') (hb : Base y m) : Base y m' :=
  ⟨by rw [h.reg R_FP (.inr (by decide))]; exact hb.fp, by rw [h.reg R_GP (.inr (by decide))]; exact hb.gp⟩

theorem Tmp.at {y : Lay} {m m' : M} (h : Tmp m m') {p : Lv} (hp : y.fits p) : y.at m' p = y.at m p := by
  cases p with
  | reg r => exact h.reg r (.inl hp.2.1)
  | stack d b => simp only [Lay.at, h.mem]

/-- What stays as it was: `X`: registers for arguments that are not to be touched. -/
structure Keep (y : Lay) (X : Nat → Prop) (m m' : M) : Prop where
  sp : m'.reg R_SP = m.reg R_SP
  fp : m'.reg R_FP = m.reg R_FP
  gp : m'.reg R_GP = m.reg R_GP
  arg : ∀ r, 4 ≤ r → r < 8 → X r ∨ 4 + y.np ≤ r → m'.reg r = m.reg r
  mem : ∀ a, ¬ y.own a → m'.mem a = m.mem a

theorem Keep.refl (y : Lay) (X : Nat → Prop) (m : M) : Keep y X m m := ⟨rfl, rfl, rfl, fun _ _ _ _ => rfl, fun _ _ => rfl⟩
theorem Keep.trans {y : Lay} {X : Nat → Prop} {a b c : M} (h : Keep y X a b) (k : Keep y X b c) : Keep y X a c :=
  ⟨k.sp.trans h.sp, k.fp.trans h.fp, k.gp.trans h.gp, fun r h1 h2 h3 => (k.arg r h1 h2 h3).trans (h.arg r h1 h2 h3), fun p hp => (k.mem p hp).trans (h.mem p hp)⟩
theorem Tmp.keep {m m' : M} (h : Tmp m m') (y : Lay) (X : Nat → Prop) : Keep y X m m' :=
  ⟨h.reg _ (.inr (by decide)), h.reg _ (.inr (by decide)), h.reg _ (.inr (by decide)), fun r _ h2 _ => h.reg r (.inl h2), fun a _ => by rw [h.mem]⟩
theorem Keep.base {y : Lay} {X : Nat → Prop} {m m' : M} (h : Keep y X m m') (hb : Base y m) : Base y m' :=
  ⟨by rw [h.fp]; exact hb.fp, by rw [h.gp]; exact hb.gp⟩
theorem Keep.weak {y : Lay} {X Y : Nat → Prop} {m m' : M} (h : Keep y X m m') (k : ∀ r, Y r → X r) : Keep y Y m m' :=
  { h with arg := fun r h1 h2 h3 => h.arg r h1 h2 (h3.imp_left (k r)) }

/-! ## Variables of the source -/

/-- The value of a variable. -/
def val (isLocal : Nat → Bool) (s : S) (id : Nat) : Option V := if isLocal id then (s.var id).join else s.w.glob id

/-- A variable is in scope. -/
def dom (isLocal : Nat → Bool) (s : S) (id : Nat) : Bool := if isLocal id then (s.var id).isSome else (s.w.glob id).isSome

theorem get_val {isLocal : Nat → Bool} {s : S} {id : Nat} {ty : Ty} {v : V} (h : s.get isLocal id ty = some v) : val isLocal s id = some v ∧ v.ty = ty := by
  unfold S.get at h
  unfold val
  split at h
  · rename_i u hu
    split at h
    · rename_i ht
      simp only [Option.some.injEq] at h
      subst h
      refine ⟨?_, ht⟩
      split at hu
      · rename_i hl; rw [if_pos hl, hu]; rfl
      · rename_i hl
        rw [if_neg hl]
        cases hg : s.w.glob id with
        | none => rw [hg] at hu; cases hu
        | some g => rw [hg] at hu; simpa using hu
    · cases h
  · cases h

theorem val_dom {isLocal : Nat → Bool} {s : S} {id : Nat} {v : V} (h : val isLocal s id = some v) : dom isLocal s id = true := by
  unfold val at h
  unfold dom
  split at h
  · rename_i hl
    rw [if_pos hl]
    cases hv : s.var id with
    | none => rw [hv] at h; cases h
    | some _ => rfl
  · rename_i hl
    rw [if_neg hl, h]; rfl

theorem set_dom {isLocal : Nat → Bool} {s s' : S} {id : Nat} {v : V} (h : s.set isLocal id v = some s') : dom isLocal s id = true := by
  unfold S.set at h
  unfold dom
  split at h
  · rename_i hl
    rw [if_pos hl]
    split at h
    · rename_i hs; exact hs
    · cases h
  · rename_i hl
    rw [if_neg hl]
    split at h
    · rename_i hs; exact hs
    · cases h

theorem set_val {isLocal : Nat → Bool} {s s' : S} {id : Nat} {v : V} (h : s.set isLocal id v = some s') (j : Nat) :
    val isLocal s' j = (if j = id then some v else val isLocal s j) ∧ dom isLocal s' j = dom isLocal s j ∧ (s'.var j).isSome = (s.var j).isSome := by
  have hd := set_dom h
  unfold S.set at h
  unfold dom at hd ⊢
  unfold val
  split at h
  · rename_i hl
    rw [if_pos hl] at hd
    split at h
    · simp only [Option.some.injEq] at h
      subst h
      by_cases hj : j = id
      · subst hj; simp [hl, hd]
      · simp [hj]
    · rename_i hs; exact absurd hd hs
  · rename_i hl
    rw [if_neg hl] at hd
    split at h
    · simp only [Option.some.injEq] at h
      subst h
      by_cases hj : j = id
      · subst hj; simp [hl, hd]
      · simp [hj]
    · rename_i hs; exact absurd hd hs

/-- Where the variables in scope are: `T`: their places, `sc`: the size of the locals in scope. -/
structure Geo (isLocal : Nat → Bool) (y : Lay) (T : Nat → Lv) (sc : Nat) (s : S) : Prop where
  fits : ∀ id, dom isLocal s id = true → y.fits (T id)
  loc : ∀ id, dom isLocal s id = true → isLocal id = true → ∀ d b, T id = .stack d b → b = R_FP ∧ -(sc : Int) ≤ d
  glo : ∀ id, dom isLocal s id = true → isLocal id = false → ∃ d, T id = .stack d R_GP
  inj : ∀ id id', dom isLocal s id = true → dom isLocal s id' = true → T id = T id' → id = id'

theorem Geo.dom {isLocal : Nat → Bool} {y : Lay} {T : Nat → Lv} {sc : Nat} {s s' : S} (h : Geo isLocal y T sc s) (k : ∀ id, dom isLocal s' id = true → dom isLocal s id = true) :
    Geo isLocal y T sc s' :=
  ⟨fun id hd => h.fits id (k id hd), fun id hd => h.loc id (k id hd), fun id hd => h.glo id (k id hd), fun id id' hd hd' => h.inj id id' (k id hd) (k id' hd')⟩

/-- The words at the places of variables stand for their values, except in the registers `X`. -/
def Vals (isLocal : Nat → Bool) (y : Lay) (X : Nat → Prop) (T : Nat → Lv) (s : S) (m : M) : Prop :=
  ∀ id v, val isLocal s id = some v → (∀ r, T id = .reg r → ¬ X r) → stands v (y.at m (T id))

theorem Vals.tmp {isLocal : Nat → Bool} {y : Lay} {X : Nat → Prop} {T : Nat → Lv} {sc : Nat} {s : S} {m m' : M} (h : Vals isLocal y X T s m) (hg : Geo isLocal y T sc s) (k : Tmp m m') :
    Vals isLocal y X T s m' := fun id v hv hx => by
  rw [k.at (hg.fits id (val_dom hv))]
  exact h id v hv hx

/-! ## Values -/

/-- What the generator takes for a value stands for it. -/
def vok (u : V) (m : M) : Rv → Prop
  | .const k => ∃ x, imm32 k = some x ∧ stands u x
  | .reg r _ => stands u (m.reg r)
  | .void => False

theorem vok.mono {u : V} {m m' : M} {v : Rv} (h : vok u m v) (k : ∀ r b, v = .reg r b → m'.reg r = m.reg r) : vok u m' v := by
  cases v with
  | const v => exact h
  | void => exact h
  | reg r b =>
    have := k r b rfl
    simp only [vok] at h ⊢
    rw [this]; exact h

theorem vok.int {u : V} {m : M} {r : Nat} {b : Bool} {x : BitVec 32} (h : vok u m (.reg r b)) (hu : V.int u = some x) : m.reg r = x := by
  cases u <;> simp only [V.int, Option.some.injEq, reduceCtorEq] at hu
  subst hu
  exact h

theorem get_lt {e : Enc} (h : (getRegister e).2.busy 10 = false) : ∃ i, i < 10 ∧ (getRegister e).1 = i + 8 ∧ e.busy i = false := by
  obtain ⟨-, h2, h3, -⟩ := search_spec e.busy 10 0
  have hne : search e.busy 1 10 0 ≠ 10 := by
    intro he
    simp [getRegister, Enc.mark, he] at h
  exact ⟨search e.busy 1 10 0, by omega, rfl, h3 (by omega)⟩

theorem get_le (e : Enc) : 8 ≤ (getRegister e).1 ∧ (getRegister e).1 < 19 := by
  obtain ⟨-, h2, -, -⟩ := search_spec e.busy 10 0
  simp only [getRegister, R_T0]; omega

theorem run_one {i : Instr} {m m' : M} (hf : flat i = true) (h : exec [] m i = some m') : runL [i] m = some m' := by
  simp only [runL, hf, if_true, h, Option.bind_some]

theorem toReg_ok {u : V} {m : M} {v : Rv} (e : Enc) (h : vok u m v) :
    ∃ m', runL (toReg e v).1 m = some m' ∧ Tmp m m' ∧ vok u m' (toReg e v).2.1 ∧ (toReg e v).2.1.isConst = false := by
  unfold toReg
  split
  · cases v with
    | reg r b => rename_i hc; cases hc
    | void => exact h.elim
    | const k =>
      obtain ⟨x, hx, hs⟩ := h
      refine ⟨m.set (getRegister e).1 x, run_one rfl ?_, Tmp.set m (get_le e).1 (get_le e).2 x, ?_, rfl⟩
      · simp only [Rv.opd, exec, hx, Option.map_some]
      · simpa [vok, loadImm, M.set] using hs
  · rename_i hc
    exact ⟨m, rfl, Tmp.refl m, h, by simpa using hc⟩

theorem loadLv_ok {y : Lay} (hy : y.Ok) {m : M} (hb : Base y m) (e : Enc) {p : Lv} (hp : y.fits p) :
    ∃ m' r b, runL (loadLv e p).1 m = some m' ∧ Tmp m m' ∧ (loadLv e p).2.1 = .reg r b ∧ m'.reg r = y.at m p := by
  cases p with
  | reg r => exact ⟨m, r, true, rfl, Tmp.refl m, rfl, rfl⟩
  | stack d b =>
    refine ⟨m.set (getRegister e).1 (m.mem (y.adr d b)), _, _, run_one rfl ?_, Tmp.set m (get_le e).1 (get_le e).2 _, rfl, ?_⟩
    · simp only [exec, addr_ok hy hb hp, Option.map_some]
    · simp [M.set, Lay.at]

/-- Arithmetic with the first operand in a register. -/
theorem arith_run {m : M} {e : Enc} {rd ra : Nat} {fd fa : Bool} {b : Rv} {o : Arith} {x z w : BitVec 32} {u : V} (hx : m.reg ra = x) (hb : vok u m b) (hu : V.int u = some w)
    (hz : arithV o x w = some z) (hl : ∀ i, i < 10 → ra = i + 8 → e.busy i = true) (hr : ra < 8 ∨ ∃ i, i < 10 ∧ ra = i + 8)
    (h10 : (arithOp e (.reg rd fd) (.reg ra fa) b o).2.busy 10 = false) :
    ∃ m', runL (arithOp e (.reg rd fd) (.reg ra fa) b o).1 m = some m' ∧ m'.reg rd = z ∧ m'.mem = m.mem ∧ ∀ r, r ≠ rd → r < 8 ∨ 19 ≤ r → m'.reg r = m.reg r := by
  obtain rfl : u = .i32 w := by
    cases u <;> simp only [V.int, Option.some.injEq, reduceCtorEq] at hu
    rw [hu]
  cases b with
  | void => exact hb.elim
  | reg rb fb =>
    refine ⟨m.set rd z, ?_, by simp [M.set], rfl, fun r hr _ => by simp [M.set, hr]⟩
    simp only [arithOp, Rv.isConst, and_self, if_true]
    apply run_one rfl
    have hb' : m.reg rb = w := hb
    simp only [Rv.opd, exec, M.regOf, M.last, Bool.false_eq_true, if_false, Option.bind_some, hx, hb', arithM_ok false hz, Option.map_some]
  | const k =>
    obtain ⟨w', hk, hw⟩ := hb
    have hw : w' = w := hw
    subst hw
    have himm : ∀ o', arithV o' x w' = some z → runL [.op true o' (.reg rd) (.reg ra) (.imm k)] m = some (m.set rd z) := fun o' hz => by
      apply run_one rfl
      simp only [exec, M.regOf, M.last, if_true, Option.bind_some, hx, hk, arithM_ok true hz, Option.map_some]
    have hreg : ∀ o', arithV o' x w' = some z → (getRegister e).2.busy 10 = false →
        runL ([.li (.reg (getRegister e).1) (.imm k)] ++ [.op false o' (.reg rd) (.reg ra) (.reg (getRegister e).1)]) m = some ((m.set (getRegister e).1 w').set rd z) := fun o' hz h10 => by
      obtain ⟨i, hi, hg, hbi⟩ := get_lt h10
      have hne : ra ≠ (getRegister e).1 := fun he => by
        rw [hl i hi (by rw [he, hg])] at hbi; cases hbi
      refine runL_some (m1 := m.set (getRegister e).1 w') (run_one rfl ?_) (run_one rfl ?_)
      · simp only [exec, hk, Option.map_some]
      · have h1 : (m.set (getRegister e).1 w').reg ra = x := by simp only [M.set]; rw [if_neg hne]; exact hx
        have h2 : (m.set (getRegister e).1 w').reg (getRegister e).1 = w' := by simp [M.set]
        simp only [exec, M.regOf, M.last, Bool.false_eq_true, if_false, Option.bind_some, h1, h2, arithM_ok false hz, Option.map_some]
    have hA : ∃ m', runL [.op true o (.reg rd) (.reg ra) (.imm k)] m = some m' ∧ m'.reg rd = z ∧ m'.mem = m.mem ∧ ∀ r, r ≠ rd → r < 8 ∨ 19 ≤ r → m'.reg r = m.reg r :=
      ⟨m.set rd z, himm o hz, by simp [M.set], rfl, fun r hr _ => by simp [M.set, hr]⟩
    have hB : (getRegister e).2.busy 10 = false → ∃ m', runL ([.li (.reg (getRegister e).1) (.imm k)] ++ [.op false o (.reg rd) (.reg ra) (.reg (getRegister e).1)]) m = some m' ∧
        m'.reg rd = z ∧ m'.mem = m.mem ∧ ∀ r, r ≠ rd → r < 8 ∨ 19 ≤ r → m'.reg r = m.reg r := fun h =>
      ⟨_, hreg o hz h, by simp [M.set], rfl, fun r hr hq => by
        have := get_le e
        simp only [M.set]
        rw [if_neg hr, if_neg (by omega)]⟩
    cases o <;> first
      | exact hA
      | exact hB h10

/-- A value is stored at a place. -/
theorem store_ok {y : Lay} (hy : y.Ok) {m : M} (hb : Base y m) {e : Enc} {p : Lv} {v : Rv} {u : V} (hv : vok u m v) (hp : (∃ r, p = .reg r ∧ r < 8) ∨ y.fits p)
    (hc : ∀ r, p = .reg r → v.isConst = true → v.num ≠ r) :
    ∃ m', runL (store e p v).1 m = some m' ∧ stands u (y.at m' p) ∧ (∀ r, p ≠ .reg r → r < 8 ∨ 19 ≤ r → m'.reg r = m.reg r) ∧
      (∀ a, (∀ d b, p = .stack d b → a ≠ y.adr d b) → m'.mem a = m.mem a) ∧ vok u m' v := by
  obtain ⟨m1, h1, ht, hv1, hr⟩ := toReg_ok e hv
  have hq : ∃ q b, (toReg e v).2.1 = .reg q b := by
    cases h : (toReg e v).2.1 with
    | reg q b => exact ⟨q, b, rfl⟩
    | const k => rw [h] at hr; cases hr
    | void => rw [h] at hr; cases hr
  obtain ⟨q, fb, hq⟩ := hq
  rw [hq] at hv1
  cases p with
  | reg r =>
    have hr8 : r < 8 := by
      rcases hp with ⟨r', h, h'⟩ | h
      · cases h; exact h'
      · exact h.2.1
    simp only [store, hq]
    by_cases hn : v.num ≠ r
    · rw [if_pos hn]
      refine ⟨m1.set r (m1.reg q), runL_some h1 (run_one rfl (by simp only [Rv.opd, exec, M.regOf, Option.map_some])), ?_, ?_, ?_, ?_⟩
      · simp only [Lay.at, M.set, if_true]; exact hv1
      · intro r' hr' hlt
        simp only [M.set]
        rw [if_neg (fun h => hr' (by rw [h]))]
        exact ht.reg r' hlt
      · intro a _
        simp only [M.set]; rw [ht.mem]
      · cases v with
        | const k => exact hv
        | void => exact hv
        | reg q' b' =>
          have hne : q' ≠ r := fun h => hn (by simp [Rv.num, h])
          simp only [toReg, Rv.isConst, Bool.false_eq_true, if_false, runL, Option.some.injEq] at h1
          subst h1
          refine hv.mono (fun r' b'' h => ?_)
          cases h
          simp only [M.set]; rw [if_neg hne]
    · rw [if_neg hn, List.append_nil]
      have hcf : v.isConst = false := by
        cases hx : v.isConst with
        | false => rfl
        | true => exact absurd (Decidable.not_not.1 hn) (hc r rfl hx)
      cases v with
      | const k => cases hcf
      | void => cases hcf
      | reg q' b' =>
        simp only [toReg, Rv.isConst, Bool.false_eq_true, if_false, runL, Option.some.injEq] at h1
        subst h1
        have : q' = r := by
          have := Decidable.not_not.1 hn
          simp only [Rv.num] at this; omega
        subst this
        exact ⟨m, by simp [toReg, Rv.isConst, runL], hv, fun _ _ _ => rfl, fun _ _ => rfl, hv⟩
  | stack d b =>
    have hf : y.fits (.stack d b) := by
      rcases hp with ⟨r', h, h'⟩ | h
      · cases h
      · exact h
    have ha := addr_ok hy (ht.base hb) hf
    simp only [store, hq]
    refine ⟨{ m1 with pc := m1.pc + 1, mem := fun a => if a = y.adr d b then m1.reg q else m1.mem a }, runL_some h1 (run_one rfl ?_), ?_, ?_, ?_, ?_⟩
    · simp only [Rv.opd, exec, M.regOf, Option.bind_some, ha, Option.map_some]
    · simp only [Lay.at, if_true]; exact hv1
    · intro r _ hlt
      exact ht.reg r hlt
    · intro a hne
      simp only
      rw [if_neg (hne d b rfl), ht.mem]
    · cases v with
      | const k => exact hv
      | void => exact hv
      | reg q' b' =>
        simp only [toReg, Rv.isConst, Bool.false_eq_true, if_false, runL, Option.some.injEq] at h1
        subst h1
        exact hv

/-- A variable gets a value: what the source and the machine do. -/
theorem set_store {isLocal : Nat → Bool} {y : Lay} (hy : y.Ok) {X : Nat → Prop} {T : Nat → Lv} {sc : Nat} {s s' : S} {m m' : M} {id : Nat} {u : V} (hg : Geo isLocal y T sc s)
    (hV : Vals isLocal y X T s m) (hs : s.set isLocal id u = some s') (hu : stands u (y.at m' (T id)))
    (hreg : ∀ r, T id ≠ .reg r → r < 8 ∨ 19 ≤ r → m'.reg r = m.reg r) (hmem : ∀ a, (∀ d b, T id = .stack d b → a ≠ y.adr d b) → m'.mem a = m.mem a)
    (hX : ∀ r, T id = .reg r → ¬ X r) :
    Vals isLocal y X T s' m' ∧ Keep y X m m' := by
  have hd := set_dom hs
  have hfi := hg.fits id hd
  refine ⟨fun j v hv hx => ?_, ?_⟩
  · rw [(set_val hs j).1] at hv
    by_cases hj : j = id
    · subst hj
      rw [if_pos rfl] at hv
      cases hv
      exact hu
    · rw [if_neg hj] at hv
      have hdj := val_dom hv
      have hfj := hg.fits j hdj
      have hne : T j ≠ T id := fun h => hj (hg.inj j id hdj hd h)
      have : y.at m' (T j) = y.at m (T j) := by
        cases hp : T j with
        | reg r =>
          rw [hp] at hfj
          exact hreg r (fun h => hne (by rw [hp, h])) (.inl hfj.2.1)
        | stack d b =>
          rw [hp] at hfj
          apply hmem
          intro d' b' h
          rw [h] at hfi
          exact adr_ne hy hfj hfi (by rw [← hp, ← h]; exact hne)
      rw [this]
      exact hV j v hv hx
  · have hns : ∀ r, T id = .reg r → 4 ≤ r ∧ r < 8 ∧ r < 4 + y.np := fun r h => by rw [h] at hfi; exact hfi
    refine ⟨hreg _ (fun h => ?_) (.inr (by decide)), hreg _ (fun h => ?_) (.inr (by decide)), hreg _ (fun h => ?_) (.inr (by decide)), fun r h1 h2 h3 => hreg _ (fun h => ?_) (.inl h2), fun a ha => hmem a ?_⟩
    · have := hns _ h; simp only [R_SP] at this; omega
    · have := hns _ h; simp only [R_FP] at this; omega
    · have := hns _ h; simp only [R_GP] at this; omega
    · have := hns _ h
      rcases h3 with h3 | h3
      · exact hX r h h3
      · omega
    · intro d b h he
      rw [h] at hfi
      exact ha (he ▸ adr_own hy hfi)

end RuC.Mips
