import Verif.Mips.Lay

/-!
# Lemmas: expressions without calls compute what they mean
-/

namespace RuC.Mips
open Llvm (Ty Arith Cmp Un Inc Exp Args Stmt Stmts Func V World S Calls arithV unV incV fit evalE)

theorem flag_mono {t : Bool} {e e' : Enc} {c : List Instr} {vs : List Rv} (h : Use t e c vs e') (k : e'.busy 10 = false) : e.busy 10 = false := by
  cases hx : e.busy 10 with
  | false => rfl
  | true => rw [h.keep 10 (by omega) hx] at k; cases k

theorem free_10 {e0 : Enc} {v : Rv} (h : New e0 v) (e : Enc) : (freeRvalue e v).busy 10 = e.busy 10 := by
  cases v with
  | const k => rfl
  | void => rfl
  | reg r b =>
    cases b with
    | true => rfl
    | false =>
      simp only [freeRvalue, freeRegister]
      rcases h r rfl with rfl | ⟨i, hi, rfl, -⟩
      · rfl
      · rw [place_i hi]
        by_cases h8 : i < 8
        · rw [if_pos h8]; simp only [Enc.mark]; rw [if_neg (by omega)]
        · rw [if_neg h8]

/-- Where a value can be when no register was missing. -/
def Live (e : Enc) (v : Rv) : Prop := ∀ r f, v = .reg r f → r < 8 ∨ ∃ i, i < 10 ∧ r = i + 8 ∧ e.busy i = true

theorem Val.live {e0 e : Enc} {v : Rv} (h : Val e0 v e) (k : e.busy 10 = false) : Live e v := by
  rintro r f rfl
  cases f with
  | true =>
    left
    rcases h.var r rfl with h | h
    · omega
    · rw [h]; decide
  | false =>
    rcases h.new r rfl with h1 | ⟨i, hi, rfl, -⟩
    · left; simp only [R_V0] at h1; omega
    · right
      have hh := h.hold i hi rfl
      by_cases h10 : i = 10
      · subst h10; rw [hh] at k; cases k
      · exact ⟨i, by omega, rfl, hh⟩

/-- A live value is not touched by a text that asks for its own registers. -/
theorem Live.keep {t : Bool} {e e' : Enc} {c : List Instr} {vs : List Rv} (h : Use t e c vs e') {i : Nat} (hi : i < 10) (hb : e.busy i = true) : i + 8 ∉ c.flatMap sets := by
  intro hm
  rcases h.sets _ hm with hf | ⟨j, hj, he, hn⟩
  · unfold fixed at hf; simp only [R_V0, R_SP, R_RA] at hf; omega
  · have : i = j := by omega
    subst this
    rw [hn hi] at hb; cases hb

theorem arith_10 {e : Enc} {d a b : Rv} {o : Arith} (h : (arithOp e d a b o).2.busy 10 = false) : e.busy 10 = false := by
  obtain ⟨_, _, _, _, h3⟩ := arith_split false e d a b o (by simp)
  exact flag_mono h3 h

theorem temp_reg {par : Nat → Bool} : ∀ (x : Exp) (e : Enc), okE par x = true → tempE par x = true → Tabs par e → ∃ i, i ≤ 10 ∧ (emitE x e).2.1 = .reg (i + 8) false := by
  have load : ∀ (e : Enc) (id : Nat), par id = false → Tabs par e → ∃ i, i ≤ 10 ∧ (loadLv e (e.table id)).2.1 = .reg (i + 8) false := fun e id hp hT => by
    cases h : e.table id with
    | reg r => rw [hT.par id r h] at hp; cases hp
    | stack d b =>
      have := get_le e
      exact ⟨(getRegister e).1 - 8, by omega, by simp only [loadLv]; rw [Nat.sub_add_cancel this.1]⟩
  intro x
  induction x using Exp.rec (motive_2 := fun _ => True) with
  | int v => intro e _ h; cases h
  | bool v => intro e _ h; cases h
  | str v => intro e _ h; cases h
  | ident id ty => intro e _ h hT; exact load e id (by simpa [tempE] using h) hT
  | un op x ih =>
    intro e hk h hT
    simp only [okE, Bool.and_eq_true] at hk
    obtain ⟨i, hi, hx⟩ := ih e hk.1 hk.2 hT
    cases op <;> exact ⟨i, hi, hx⟩
  | not x ih =>
    intro e hk h hT
    simp only [okE, Bool.and_eq_true] at hk
    exact ih e hk.1 hk.2 hT
  | inc op id =>
    intro e _ h hT
    obtain ⟨i, hi, hx⟩ := load e id (by simpa [tempE] using h) hT
    simp only [emitE]
    split <;> exact ⟨i, hi, hx⟩
  | arith o a b iha ihb =>
    intro e hk h hT
    simp only [okE, Bool.and_eq_true] at hk
    exact iha e hk.1.1 hk.2 hT
  | cmp o a b => intro e hk; cases hk
  | logic o a b => intro e hk; cases hk
  | comma a b iha ihb =>
    intro e hk h hT
    simp only [okE, Bool.and_eq_true] at hk
    refine ihb _ hk.2 h ?_
    split
    · exact hT
    · exact hT.fix ((fixE a e).trans (same_freeR ..).fix)
  | ternary c a b => intro e hk; cases hk
  | assign o id ty x ih =>
    intro e hk h hT
    cases o with
    | none =>
      simp only [okE, Bool.and_eq_true] at hk
      exact ih e hk.1 h hT
    | some o =>
      simp only [okE, Bool.and_eq_true, decide_eq_true_eq] at hk
      have hf := fixE x e
      obtain ⟨i, hi, hx⟩ := load (emitE x e).2.2 id (by simpa [tempE] using h) (hT.fix hf)
      rw [hf.table] at hx
      refine ⟨i, hi, ?_⟩
      simp only [emitE]
      rw [if_neg hk.2]
      exact hx
  | call f ty a => intro e hk; cases hk
  | nil => trivial
  | cons x r _ _ => trivial

/-- A variable is read, changed by an operator and stored. -/
theorem arith_store {y : Lay} (hy : y.Ok) {m : M} (hB : Base y m) {e e' : Enc} {p : Lv} (hp : y.fits p) {b : Rv} {u : V} {w x z : BitVec 32} {o : Arith} (hb : vok u m b)
    (hu : V.int u = some w) (hlive : Live e b) (hx : y.at m p = x) (hz : arithV o x w = some z)
    (h10 : (arithOp (loadLv e p).2.2 (loadLv e p).2.1 (loadLv e p).2.1 b o).2.busy 10 = false) :
    ∃ m', runL ((loadLv e p).1 ++ (arithOp (loadLv e p).2.2 (loadLv e p).2.1 (loadLv e p).2.1 b o).1 ++ (store e' p (loadLv e p).2.1).1) m = some m' ∧ stands (.i32 z) (y.at m' p) ∧
      (∀ r, p ≠ .reg r → r < 8 ∨ 19 ≤ r → m'.reg r = m.reg r) ∧ (∀ a, (∀ d b, p = .stack d b → a ≠ y.adr d b) → m'.mem a = m.mem a) ∧ vok (.i32 z) m' (loadLv e p).2.1 := by
  cases p with
  | reg r =>
    simp only [loadLv] at h10 ⊢
    obtain ⟨m1, h1, h2, h3, h4⟩ := arith_run (rd := r) (fd := true) (fa := true) hx hb hu hz (fun i hi h => by have := hp.2.1; omega) (.inl hp.2.1) h10
    refine ⟨m1, ?_, h2, fun q hq hlt => h4 q (fun h => hq (by rw [h])) hlt, fun a _ => by rw [h3], h2⟩
    have : (store e' (.reg r) (.reg r true)).1 = [] := by simp [store, toReg, Rv.isConst, Rv.num]
    rw [this, List.append_nil, List.nil_append]
    exact h1
  | stack d q =>
    have hbase : place q = none := by
      rcases hp.2 with ⟨rfl, -⟩ | ⟨rfl, -⟩ <;> rfl
    simp only [loadLv, free_base _ hbase] at h10 ⊢
    obtain ⟨i, hi, hg, hbi⟩ := get_lt (arith_10 h10)
    have hhold := get_hold e
    have hld : runL [.lw (getRegister e).1 d q] m = some (m.set (getRegister e).1 (m.mem (y.adr d q))) := run_one rfl (by simp only [exec, addr_ok hy hB hp, Option.map_some])
    have htm := Tmp.set m (get_le e).1 (get_le e).2 (m.mem (y.adr d q))
    have hb1 : vok u (m.set (getRegister e).1 (m.mem (y.adr d q))) b := hb.mono (fun r f h => by
      simp only [M.set]
      rw [if_neg]
      rw [hg]
      intro he
      rcases hlive r f h with h' | ⟨j, _, h', hj⟩
      · omega
      · have : i = j := by omega
        subst this; rw [hbi] at hj; cases hj)
    have hx1 : (m.set (getRegister e).1 (m.mem (y.adr d q))).reg (getRegister e).1 = x := by simp only [M.set, if_true]; exact hx
    obtain ⟨m1, h1, h2, h3, h4⟩ := arith_run (rd := (getRegister e).1) (fd := false) (fa := false) hx1 hb1 hu hz
      (fun j hj h => hhold j (by omega) (by rw [h])) (.inr ⟨i, hi, hg⟩) h10
    have ht1 : Tmp m m1 := htm.trans ⟨h3, fun r hr => h4 r (by have := get_le e; omega) hr⟩
    obtain ⟨m2, k1, k2, k3, k4, k5⟩ := store_ok hy (ht1.base hB) (e := e') (p := .stack d q) (v := .reg (getRegister e).1 false) (u := .i32 z) h2 (.inr hp) (fun r h => by cases h)
    refine ⟨m2, runL_some (runL_some hld h1) k1, k2, fun r hr hlt => (k3 r hr hlt).trans (ht1.reg r hlt), fun a ha => (k4 a ha).trans (by rw [ht1.mem]), k5⟩

/-- What a piece of text for an expression does. -/
structure Done (isLocal : Nat → Bool) (y : Lay) (X : Nat → Prop) (T : Nat → Lv) (s s' : S) (m m' : M) : Prop where
  vals : Vals isLocal y X T s' m'
  keep : Keep y X m m'
  dom : ∀ id, dom isLocal s' id = dom isLocal s id
  var : ∀ id, (s'.var id).isSome = (s.var id).isSome

theorem Done.trans {isLocal : Nat → Bool} {y : Lay} {X : Nat → Prop} {T : Nat → Lv} {s s1 s2 : S} {m m1 m2 : M} (h : Done isLocal y X T s s1 m m1) (k : Done isLocal y X T s1 s2 m1 m2) :
    Done isLocal y X T s s2 m m2 :=
  ⟨k.vals, h.keep.trans k.keep, fun id => (k.dom id).trans (h.dom id), fun id => (k.var id).trans (h.var id)⟩

theorem Done.tmp {isLocal : Nat → Bool} {y : Lay} {X : Nat → Prop} {T : Nat → Lv} {sc : Nat} {s : S} {m m' : M} (hg : Geo isLocal y T sc s) (hV : Vals isLocal y X T s m) (h : Tmp m m') :
    Done isLocal y X T s s m m' := ⟨hV.tmp hg h, h.keep y X, fun _ => rfl, fun _ => rfl⟩

theorem Done.geo {isLocal : Nat → Bool} {y : Lay} {X : Nat → Prop} {T : Nat → Lv} {sc : Nat} {s s' : S} {m m' : M} (h : Done isLocal y X T s s' m m') (hg : Geo isLocal y T sc s) :
    Geo isLocal y T sc s' := hg.dom (fun id hd => by rw [← h.dom id]; exact hd)

theorem Done.set {isLocal : Nat → Bool} {y : Lay} (hy : y.Ok) {X : Nat → Prop} {T : Nat → Lv} {sc : Nat} {s s' : S} {m m' : M} {id : Nat} {u : V} (hg : Geo isLocal y T sc s)
    (hV : Vals isLocal y X T s m) (hs : s.set isLocal id u = some s') (hu : stands u (y.at m' (T id)))
    (hreg : ∀ r, T id ≠ .reg r → r < 8 ∨ 19 ≤ r → m'.reg r = m.reg r) (hmem : ∀ a, (∀ d b, T id = .stack d b → a ≠ y.adr d b) → m'.mem a = m.mem a)
    (hX : ∀ r, T id = .reg r → ¬ X r) : Done isLocal y X T s s' m m' := by
  obtain ⟨h1, h2⟩ := set_store hy hg hV hs hu hreg hmem hX
  exact ⟨h1, h2, fun j => (set_val hs j).2.1, fun j => (set_val hs j).2.2⟩

theorem minus_mul {a b : BitVec 32} (h : unV .minus a = some b) : arithV .mul a (-1) = some b := by
  simp only [unV] at h
  simp only [arithV]
  rw [show (-1 : BitVec 32).toInt = -1 from by decide]
  rw [show a.toInt * -1 = -a.toInt by omega]
  exact h

theorem not_xor {a b : BitVec 32} (h : unV .not a = some b) : arithV .xor a (-1) = some b := by
  have := Llvm.not_ok h
  exact this

theorem inc_add {op : Inc} {a b : BitVec 32} (h : fit (a.toInt + (incV op).1) = some b) : ∃ w, imm32 (incBy op) = some w ∧ arithV .add a w = some b := by
  cases op <;> simp only [incV] at h
  · exact ⟨1, by decide, by simp only [arithV]; rw [show (1 : BitVec 32).toInt = 1 from by decide]; exact h⟩
  · exact ⟨-1, by decide, by simp only [arithV]; rw [show (-1 : BitVec 32).toInt = -1 from by decide]; exact h⟩
  · exact ⟨1, by decide, by simp only [arithV]; rw [show (1 : BitVec 32).toInt = 1 from by decide]; exact h⟩
  · exact ⟨-1, by decide, by simp only [arithV]; rw [show (-1 : BitVec 32).toInt = -1 from by decide]; exact h⟩

theorem truth_zero {u : V} {b : Bool} {x : BitVec 32} (h : V.truth u = some b) (k : stands u x) : x = 0 ↔ b = false := by
  cases u <;> simp only [V.truth, Option.some.injEq, reduceCtorEq] at h
  · have : x = _ := k
    subst this
    rw [← h]; simp
  · subst h; exact k

/-- A register for a temporary value is changed. -/
theorem tmp_of {m m' : M} {i : Nat} (hi : i ≤ 10) (h3 : m'.mem = m.mem) (h4 : ∀ r, r ≠ i + 8 → r < 8 ∨ 19 ≤ r → m'.reg r = m.reg r) : Tmp m m' :=
  ⟨h3, fun r hr => h4 r (by omega) hr⟩

section
variable {isLocal : Nat → Bool} {y : Lay} {X : Nat → Prop} {sc : Nat} {call : Calls} {par : Nat → Bool}

theorem expE (hy : y.Ok) : ∀ (x : Exp) (e : Enc) (s s' : S) (m : M) (v : Option V), okE par x = true → Tabs par e → (∀ id ∈ idsE x, ∀ r, e.table id = .reg r → ¬ X r) →
    Geo isLocal y e.table sc s → Vals isLocal y X e.table s m → Base y m → evalE isLocal call x s = some (v, s') → (emitE x e).2.2.busy 10 = false →
    ∃ m' u, v = some u ∧ runL (emitE x e).1 m = some m' ∧ Done isLocal y X e.table s s' m m' ∧ vok u m' (emitE x e).2.1
  | .int k, e, s, s', m, v, _, _, _, hg, hV, _, hev, _ => by
    simp only [evalE, Option.map_eq_some_iff, Prod.mk.injEq] at hev
    obtain ⟨w, hw, rfl, rfl⟩ := hev
    exact ⟨m, .i32 w, rfl, rfl, Done.tmp hg hV (Tmp.refl m), w, imm_fit hw, rfl⟩
  | .bool b, e, s, s', m, v, _, _, _, hg, hV, _, hev, _ => by
    simp only [evalE, Option.some.injEq, Prod.mk.injEq] at hev
    obtain ⟨rfl, rfl⟩ := hev
    refine ⟨m, .i1 b, rfl, rfl, Done.tmp hg hV (Tmp.refl m), ?_⟩
    cases b
    · exact ⟨0, by decide, by simp [stands]⟩
    · exact ⟨1, by decide, by simp [stands]⟩
  | .ident id ty, e, s, s', m, v, _, _, hX, hg, hV, hB, hev, _ => by
    simp only [evalE, Option.map_eq_some_iff, Prod.mk.injEq] at hev
    obtain ⟨w, hw, rfl, rfl⟩ := hev
    obtain ⟨hv, -⟩ := get_val hw
    obtain ⟨m', r, b, h1, h2, h3, h4⟩ := loadLv_ok hy hB e (hg.fits id (val_dom hv))
    refine ⟨m', w, rfl, h1, Done.tmp hg hV h2, ?_⟩
    simp only [emitE, h3, vok, h4]
    exact hV id w hv (hX id (by simp [idsE]))
  | .un op x, e, s, s', m, v, hk, hT, hX, hg, hV, hB, hev, h10 => by
    simp only [okE, Bool.and_eq_true] at hk
    simp only [evalE, Option.bind_eq_bind, Option.bind_eq_some_iff, Option.some.injEq, Prod.mk.injEq, Prod.exists] at hev
    obtain ⟨v1, s1, hev, a, ⟨u1, rfl, ha⟩, b, hb, rfl, rfl⟩ := hev
    have hx10 : (emitE x e).2.2.busy 10 = false := by
      cases op
      · exact arith_10 h10
      · exact arith_10 h10
      · exact h10
    obtain ⟨m1, u, hu, h1, hd, hv⟩ := expE hy x e s s1 m _ hk.1 hT hX hg hV hB hev hx10
    cases hu
    obtain ⟨i, hi, hr⟩ := temp_reg x e hk.1 hk.2 hT
    obtain ⟨-, hval⟩ := useE par false x e hT (by simp)
    have hlive := hval.live hx10
    rw [hr] at hv hlive
    have hra := hv.int ha
    have hlr := hlive (i + 8) false rfl
    have hlr' : i + 8 < 8 ∨ ∃ j, j < 10 ∧ i + 8 = j + 8 := hlr.imp_right (fun ⟨j, h1, h2, _⟩ => ⟨j, h1, h2⟩)
    have hbusy : ∀ j, j < 10 → i + 8 = j + 8 → (emitE x e).2.2.busy j = true := fun j hj h => by
      rcases hlr with h' | ⟨k, hk, h', hb⟩
      · omega
      · rw [show j = k by omega]; exact hb
    cases op
    · simp only [emitE, hr] at h10 ⊢
      obtain ⟨m2, k1, k2, k3, k4⟩ := arith_run (u := .i32 (-1)) (b := .const (-1)) hra ⟨-1, by decide, rfl⟩ rfl (minus_mul hb) hbusy hlr' h10
      exact ⟨m2, .i32 b, rfl, runL_some h1 k1, hd.trans (Done.tmp (hd.geo hg) hd.vals (tmp_of hi k3 k4)), k2⟩
    · simp only [emitE, hr] at h10 ⊢
      obtain ⟨m2, k1, k2, k3, k4⟩ := arith_run (u := .i32 (-1)) (b := .const (-1)) hra ⟨-1, by decide, rfl⟩ rfl (not_xor hb) hbusy hlr' h10
      exact ⟨m2, .i32 b, rfl, runL_some h1 k1, hd.trans (Done.tmp (hd.geo hg) hd.vals (tmp_of hi k3 k4)), k2⟩
    · simp only [emitE, hr]
      have htm := Tmp.set m1 (r := i + 8) (by omega) (by omega) b
      refine ⟨m1.set (i + 8) b, .i32 b, rfl, runL_some h1 (run_one rfl ?_), hd.trans (Done.tmp (hd.geo hg) hd.vals htm), ?_⟩
      · simp only [Rv.opd, exec, M.regOf, hra, Option.bind_some]
        simp only [unV] at hb
        rw [hb, Option.map_some]
      · simp [vok, stands, M.set]
  | .not x, e, s, s', m, v, hk, hT, hX, hg, hV, hB, hev, h10 => by
    simp only [okE, Bool.and_eq_true] at hk
    simp only [evalE, Option.bind_eq_bind, Option.bind_eq_some_iff, Option.some.injEq, Prod.mk.injEq, Prod.exists] at hev
    obtain ⟨v1, s1, hev, a, ⟨u1, rfl, ha⟩, rfl, rfl⟩ := hev
    obtain ⟨m1, u, hu, h1, hd, hv⟩ := expE hy x e s s1 m _ hk.1 hT hX hg hV hB hev h10
    cases hu
    obtain ⟨i, hi, hr⟩ := temp_reg x e hk.1 hk.2 hT
    rw [hr] at hv
    have hz := truth_zero ha hv
    simp only [emitE, hr]
    have htm := Tmp.set m1 (r := i + 8) (by omega) (by omega) (if m1.reg (i + 8) = 0 then 1 else 0)
    refine ⟨m1.set (i + 8) (if m1.reg (i + 8) = 0 then 1 else 0), .i1 !a, rfl, runL_some h1 (run_one rfl ?_), hd.trans (Done.tmp (hd.geo hg) hd.vals htm), ?_⟩
    · simp only [Rv.opd, exec, M.regOf, Option.map_some]
    · simp only [vok, stands, M.set, if_true]
      cases a
      · rw [if_pos (hz.2 rfl)]; simp
      · rw [if_neg (fun h => by have := hz.1 h; cases this)]; simp
  | .inc op id, e, s, s', m, v, hk, hT, hX, hg, hV, hB, hev, h10 => by
    simp only [evalE, Option.bind_eq_bind, Option.bind_eq_some_iff, Option.some.injEq, Prod.mk.injEq] at hev
    obtain ⟨a, ⟨u1, hget, ha⟩, b, hb, s1, hset, rfl, rfl⟩ := hev
    obtain ⟨hval, -⟩ := get_val hget
    have hfi := hg.fits id (val_dom hval)
    obtain rfl : u1 = .i32 a := by
      cases u1 <;> simp only [V.int, Option.some.injEq, reduceCtorEq] at ha
      rw [ha]
    have hXi := hX id (by simp [idsE])
    have hat : y.at m (e.table id) = a := hV id _ hval hXi
    obtain ⟨w, hw, hadd⟩ := inc_add hb
    by_cases hpre : isPrefix op = true
    · simp only [emitE, hpre, if_true] at h10 ⊢
      have hstore := use_store false (arithOp (loadLv e (e.table id)).2.2 (loadLv e (e.table id)).2.1 (loadLv e (e.table id)).2.1 (.const (incBy op)) .add).2 (hT.ok id).lv
        (v := (loadLv e (e.table id)).2.1) (by simp)
      obtain ⟨m', k1, k2, k3, k4, k5⟩ := arith_store hy hB (e' := (arithOp (loadLv e (e.table id)).2.2 (loadLv e (e.table id)).2.1 (loadLv e (e.table id)).2.1 (.const (incBy op)) .add).2)
        hfi (b := .const (incBy op)) (u := .i32 w) ⟨w, hw, rfl⟩ rfl (fun r f h => by cases h) hat hadd (flag_mono hstore h10)
      refine ⟨m', .i32 b, ?_, k1, Done.set hy hg hV hset k2 k3 k4 hXi, k5⟩
      cases op <;> simp [isPrefix] at hpre <;> rfl
    · simp only [okE, Bool.or_eq_true, Bool.not_eq_true'] at hk
      have hpar : par id = false := hk.resolve_left hpre
      simp only [emitE, hpre, if_false, Bool.false_eq_true] at h10 ⊢
      cases hp : e.table id with
      | reg r => rw [hT.par id r hp] at hpar; cases hpar
      | stack d q =>
        rw [hp] at hfi hat h10
        have hbase : place q = none := by
          rcases hfi.2 with ⟨rfl, -⟩ | ⟨rfl, -⟩ <;> rfl
        have hst : ∀ (e1 : Enc) (r : Nat), store e1 (.stack d q) (.reg r false) = ([.sw (.reg r) d q], e1) := fun e1 r => by
          simp [store, toReg, Rv.isConst, Rv.opd, free_base _ hbase]
        have har : ∀ (e1 : Enc) (r r' : Nat), arithOp e1 (.reg r false) (.reg r' false) (.const (incBy op)) .add = ([.op true .add (.reg r) (.reg r') (.imm (incBy op))], e1) := fun e1 r r' => by
          simp [arithOp, Rv.isConst, operandLoad, swaps, needsBoth, Rv.opd]
        simp only [loadLv, free_base _ hbase, har, hst] at h10 ⊢
        have hg1 : (getRegister (getRegister e).2).2.busy 10 = false := by
          have := free_10 (get_new (getRegister e).2 false) (getRegister (getRegister e).2).2
          simp only [freeRvalue] at this
          rw [← this]; exact h10
        obtain ⟨j, hj, hgj, hbj⟩ := get_lt hg1
        have hne : (getRegister e).1 ≠ (getRegister (getRegister e).2).1 := fun h => by
          have := get_hold e j (by omega) (by rw [h, hgj])
          rw [this] at hbj; cases hbj
        have hle := get_le e
        have hle2 := get_le (getRegister e).2
        generalize hg1' : (getRegister e).1 = r1 at *
        generalize hg2' : (getRegister (getRegister e).2).1 = r2 at *
        have ha1 := addr_ok hy hB hfi
        let m1 := m.set r1 (m.mem (y.adr d q))
        have hr1 : m1.reg r1 = a := by simp only [m1, M.set, if_true]; exact hat
        let m2 := m1.set r2 b
        have ht2 : Tmp m m2 := (Tmp.set m hle.1 hle.2 _).trans (Tmp.set m1 hle2.1 hle2.2 b)
        have hr2 : m2.reg r2 = b := by simp [m2, M.set]
        have hr1' : m2.reg r1 = a := by simp only [m2, M.set]; rw [if_neg hne]; exact hr1
        have e1 : runL [.lw r1 d q] m = some m1 := run_one rfl (by simp only [exec, ha1, Option.map_some]; rfl)
        have e2 : runL [.op true .add (.reg r2) (.reg r1) (.imm (incBy op))] m1 = some m2 := run_one rfl (by
          simp only [exec, M.regOf, M.last, if_true, Option.bind_some, hr1, hw, arithM_ok true hadd, Option.map_some]; rfl)
        obtain ⟨m3, k1, k2, k3, k4, k5⟩ := store_ok hy (ht2.base hB) (e := e) (p := .stack d q) (v := .reg r2 false) (u := .i32 b) hr2 (.inr hfi) (fun r h => by cases h)
        rw [hst] at k1
        have hreg3 : m3.reg r1 = m2.reg r1 := runL_regs k1 (by simp [sets])
        refine ⟨m3, .i32 a, ?_, runL_some (runL_some e1 e2) k1, ?_, ?_⟩
        · cases op <;> simp [isPrefix] at hpre <;> rfl
        · have := Done.tmp hg hV ht2
          rw [← hp] at k2 k3 k4
          exact this.trans (Done.set hy (this.geo hg) this.vals hset k2 k3 k4 hXi)
        · simp only [vok, stands]; rw [hreg3, hr1']
  | .arith o a b, e, s, s', m, v, hk, hT, hX, hg, hV, hB, hev, h10 => by
    simp only [okE, Bool.and_eq_true] at hk
    simp only [evalE, Option.bind_eq_bind, Option.bind_eq_some_iff, Option.some.injEq, Prod.mk.injEq, Prod.exists] at hev
    obtain ⟨v1, s1, hev1, wa, ⟨u1, rfl, ha⟩, v2, s2, hev2, wb, ⟨u2, rfl, hb⟩, wc, hc, rfl, rfl⟩ := hev
    have hfa := fixE a e
    have hTb := hT.fix hfa
    obtain ⟨hua, hva⟩ := useE par false a e hT (by simp)
    obtain ⟨hub, hvb⟩ := useE par false b (emitE a e).2.2 hTb (by simp)
    simp only [emitE] at h10 ⊢
    rw [free_10 hvb.new] at h10
    have h10b := arith_10 h10
    have h10a := flag_mono hub h10b
    obtain ⟨m1, u, hu, h1, hd, hv⟩ := expE hy a e s s1 m _ hk.1.1 hT (fun id hi => hX id (by simp [idsE, hi])) hg hV hB hev1 h10a
    cases hu
    obtain ⟨i, hi, hr⟩ := temp_reg a e hk.1.1 hk.2 hT
    have hlive := hva.live h10a
    rw [hr] at hv hlive h10 ⊢
    rcases hlive _ _ rfl with h' | ⟨j, hj, hij, hbj⟩
    · omega
    have : i = j := by omega
    subst this
    obtain ⟨m2, u, hu, h2, hd2, hv2⟩ := expE hy b (emitE a e).2.2 s1 s2 m1 _ hk.1.2 hTb (fun id hi => by rw [hfa.table]; exact hX id (by simp [idsE, hi]))
      (by rw [hfa.table]; exact hd.geo hg) (by rw [hfa.table]; exact hd.vals) (hd.keep.base hB) hev2 h10b
    cases hu
    rw [hfa.table] at hd2
    have hrl : m2.reg (i + 8) = m1.reg (i + 8) := runL_regs h2 (Live.keep hub hj hbj)
    have hra : m2.reg (i + 8) = wa := by rw [hrl]; exact hv.int ha
    have hbl : ∀ j, j < 10 → i + 8 = j + 8 → (emitE b (emitE a e).2.2).2.2.busy j = true := fun j hj h => by
      rw [show j = i by omega]; exact hub.keep i (by omega) hbj
    obtain ⟨m3, k1, k2, k3, k4⟩ := arith_run hra hv2 hb hc hbl (.inr ⟨i, hj, rfl⟩) h10
    have hdd := hd.trans hd2
    exact ⟨m3, .i32 wc, rfl, runL_some (runL_some h1 h2) k1, hdd.trans (Done.tmp (hdd.geo hg) hdd.vals (tmp_of hi k3 k4)), k2⟩
  | .comma a b, e, s, s', m, v, hk, hT, hX, hg, hV, hB, hev, h10 => by
    simp only [okE, Bool.and_eq_true] at hk
    simp only [evalE, Option.bind_eq_bind, Option.bind_eq_some_iff, Prod.exists] at hev
    obtain ⟨v1, s1, hev1, hev2⟩ := hev
    simp only [emitE] at h10 ⊢
    by_cases hl : isLvalue a = true
    · simp only [hl, if_true, List.nil_append] at h10 ⊢
      have hs : s1 = s := by
        cases a <;> simp only [isLvalue, Bool.false_eq_true] at hl
        simp only [evalE, Option.map_eq_some_iff, Prod.mk.injEq] at hev1
        obtain ⟨_, _, _, rfl⟩ := hev1; rfl
      subst hs
      exact expE hy b e s1 s' m v hk.2 hT (fun id hi => hX id (by simp [idsE, hi])) hg hV hB hev2 h10
    · simp only [hl, if_false] at h10 ⊢
      obtain ⟨hua, hva⟩ := useE par false a e hT (by simp)
      have hfa := (fixE a e).trans (same_freeR (emitE a e).2.2 (emitE a e).2.1).fix
      have hTb := hT.fix hfa
      obtain ⟨hub, -⟩ := useE par false b (freeRvalue (emitE a e).2.2 (emitE a e).2.1) hTb (by simp)
      have h10a := flag_mono hub h10
      rw [free_10 hva.new] at h10a
      obtain ⟨m1, u, hu, h1, hd, hv⟩ := expE hy a e s s1 m _ hk.1 hT (fun id hi => hX id (by simp [idsE, hi])) hg hV hB hev1 h10a
      obtain ⟨m2, u2, hu2, h2, hd2, hv2⟩ := expE hy b (freeRvalue (emitE a e).2.2 (emitE a e).2.1) s1 s' m1 v hk.2 hTb (fun id hi => by rw [hfa.table]; exact hX id (by simp [idsE, hi]))
        (by rw [hfa.table]; exact hd.geo hg) (by rw [hfa.table]; exact hd.vals) (hd.keep.base hB) hev2 h10
      rw [hfa.table] at hd2
      exact ⟨m2, u2, hu2, runL_some h1 h2, hd.trans hd2, hv2⟩
  | .assign none id ty x, e, s, s', m, v, hk, hT, hX, hg, hV, hB, hev, h10 => by
    simp only [okE, Bool.and_eq_true, Bool.not_eq_true', Bool.and_eq_false_iff] at hk
    simp only [evalE, Option.bind_eq_bind, Option.bind_eq_some_iff, Prod.exists] at hev
    obtain ⟨v1, s1, hev1, u1, rfl, hev⟩ := hev
    split at hev
    · simp only [Option.bind_eq_some_iff, Option.some.injEq, Prod.mk.injEq] at hev
      obtain ⟨s2, hset, rfl, rfl⟩ := hev
      simp only [emitE] at h10 ⊢
      have hfx := fixE x e
      have hT2 := hT.fix hfx
      have h10x := flag_mono (use_store false (emitE x e).2.2 (hT.ok id).lv (v := (emitE x e).2.1) (by simp)) h10
      obtain ⟨m1, u, hu, h1, hd, hv⟩ := expE hy x e s s1 m _ hk.1 hT (fun id hi => hX id (by simp [idsE, hi])) hg hV hB hev1 h10x
      cases hu
      have hfi : y.fits (e.table id) := (hd.geo hg).fits id (set_dom hset)
      obtain ⟨m2, k1, k2, k3, k4, k5⟩ := store_ok hy (hd.keep.base hB) (e := (emitE x e).2.2) hv (.inr hfi) (fun r hr hc => by
        rw [isConst_eq] at hc
        have := hT.par id r hr
        rcases hk.2 with h | h
        · rw [hc] at h; cases h
        · rw [this] at h; cases h)
      exact ⟨m2, u1, rfl, runL_some h1 k1, hd.trans (Done.set hy (hd.geo hg) hd.vals hset k2 k3 k4 (hX id (by simp [idsE]))), k5⟩
    · cases hev
  | .assign (some o) id ty x, e, s, s', m, v, hk, hT, hX, hg, hV, hB, hev, h10 => by
    simp only [okE, Bool.and_eq_true, decide_eq_true_eq] at hk
    simp only [evalE, Option.bind_eq_bind, Option.bind_eq_some_iff, Option.some.injEq, Prod.mk.injEq, Prod.exists] at hev
    obtain ⟨v1, s1, hev1, wb, ⟨u1, rfl, hb⟩, wa, ⟨u2, hget, ha⟩, wc, hc, s2, hset, rfl, rfl⟩ := hev
    simp only [emitE] at h10 ⊢
    rw [if_neg hk.2] at h10 ⊢
    have hfx := fixE x e
    have hT2 := hT.fix hfx
    obtain ⟨hux, hvx⟩ := useE par false x e hT (by simp)
    have h10s := flag_mono (use_store false _ (hT.ok id).lv (by simp)) h10
    rw [free_10 hvx.new] at h10s
    have h10l := arith_10 h10s
    have h10x := flag_mono (use_loadLv false (emitE x e).2.2 (hT.ok id).lv).1 h10l
    obtain ⟨m1, u, hu, h1, hd, hv⟩ := expE hy x e s s1 m _ hk.1 hT (fun id hi => hX id (by simp [idsE, hi])) hg hV hB hev1 h10x
    cases hu
    obtain ⟨hval, -⟩ := get_val hget
    have hfi : y.fits (e.table id) := (hd.geo hg).fits id (set_dom hset)
    have hXi := hX id (by simp [idsE])
    obtain rfl : u2 = .i32 wa := by
      cases u2 <;> simp only [V.int, Option.some.injEq, reduceCtorEq] at ha
      rw [ha]
    have hat : y.at m1 (e.table id) = wa := hd.vals id _ hval hXi
    obtain ⟨m2, k1, k2, k3, k4, k5⟩ := arith_store hy (hd.keep.base hB) hfi hv hb (hvx.live h10x) hat hc h10s
      (e' := freeRvalue (arithOp (loadLv (emitE x e).2.2 (e.table id)).2.2 (loadLv (emitE x e).2.2 (e.table id)).2.1 (loadLv (emitE x e).2.2 (e.table id)).2.1 (emitE x e).2.1 o).2 (emitE x e).2.1)
    refine ⟨m2, .i32 wc, rfl, ?_, hd.trans (Done.set hy (hd.geo hg) hd.vals hset k2 k3 k4 hXi), k5⟩
    simp only [List.append_assoc] at k1 ⊢
    exact runL_some h1 k1
  | .str _, _, _, _, _, _, hk, _, _, _, _, _, _, _ => by cases hk
  | .cmp .., _, _, _, _, _, hk, _, _, _, _, _, _, _ => by cases hk
  | .logic .., _, _, _, _, _, hk, _, _, _, _, _, _, _ => by cases hk
  | .ternary .., _, _, _, _, _, hk, _, _, _, _, _, _, _ => by cases hk
  | .call .., _, _, _, _, _, hk, _, _, _, _, _, _, _ => by cases hk

end

end RuC.Mips
