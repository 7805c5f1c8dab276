import Verif.Mips.Here

/-!
# Lemmas: the text of a statement does what the statement does
-/

namespace RuC.Mips
open Llvm (Ty Arith Cmp Un Inc Exp Args Stmt Stmts Func V World S Flow arithV unV incV fit evalE evalA execS execB execD leave Calls loopT loopB evalOpt evalStep)

theorem leave_var (s s' : S) (id : Nat) : ((leave s s').var id).isSome = ((s.var id).isSome && (s'.var id).isSome) := by
  unfold leave
  simp only
  split
  · rename_i h; rw [h, Bool.true_and]
  · rename_i h
    rw [Bool.not_eq_true] at h
    rw [h]; rfl

section
variable {isLocal : Nat → Bool} {y : Lay} {call : Calls} {par : Nat → Bool} {pos : Nat → Option Nat} {TG : Nat → Lv} {room : Nat} {code : List Instr}

/-- One statement after another. -/
theorem Went.seq {N1 N2 : List Nat} {sb sc sb1 sc1 sb2 sc2 : Bool} {e e1 e2 : Enc} {n1 n2 : Nat} {s s1 s2 : S} {m m1 m2 : M} {flow : Flow}
    (h1 : Went isLocal y code N1 sb1 sc1 e e1 n1 s s1 m m1 .normal) (h2 : Went isLocal y code N2 sb2 sc2 e1 e2 n2 s1 s2 m1 m2 flow)
    (hT : ∀ id, dom isLocal s id = true → e1.table id = e.table id) (hb : e1.brk = e.brk) (hc : e1.cont = e.cont) (hf : e1.fn = e.fn) (hsb : sb2 = true → sb = true)
    (hsc : sc2 = true → sc = true) : Went isLocal y code (N1 ++ N2) sb sc e e2 n2 s s2 m m2 flow := by
  have v1 : ∀ id, (s.var id).isSome = true → (s1.var id).isSome = true := fun id h => by
    have := h1.done.var id; rw [leave_var, h] at this; simpa using this
  have v2 : ∀ id, (s1.var id).isSome = true → (s2.var id).isSome = true := fun id h => by
    have := h2.done.var id; rw [leave_var, h] at this; simpa using this
  have hv : ∀ id, ((leave s s2).var id).isSome = (s.var id).isSome := fun id => by
    rw [leave_var]
    cases h : (s.var id).isSome with
    | false => rfl
    | true => rw [v2 id (v1 id h)]; rfl
  have hd : ∀ id, dom isLocal (leave s s2) id = dom isLocal s id := fun id => by
    have d1 := h1.done.dom id
    have d2 := h2.done.dom id
    unfold dom at d1 d2 ⊢
    cases hl : isLocal id with
    | true => exact hv id
    | false =>
      rw [hl] at d1 d2
      exact d2.trans d1
  refine ⟨h1.reach.trans h2.reach, ⟨fun id u hu hx => ?_, h1.done.keep.trans h2.done.keep, hd, hv⟩, fun id hi => ?_, h2.norm, ?_⟩
  · have hdi := val_dom hu
    rw [hd id] at hdi
    have : val isLocal (leave s1 s2) id = some u := by
      unfold val at hu ⊢
      cases hl : isLocal id with
      | false => rw [hl] at hu; exact hu
      | true =>
        rw [hl] at hu
        unfold dom at hdi
        rw [hl] at hdi
        simp only [leave, if_true] at hu hdi ⊢
        rw [if_pos hdi] at hu
        rw [if_pos (v1 id hdi)]; exact hu
    have := h2.done.vals id u this (fun _ _ h => h)
    rw [hT id hdi] at this
    exact this
  · rcases h2.only id hi with h | h
    · rcases h1.only id h with h | h
      · exact .inl h
      · exact .inr (List.mem_append_left _ h)
    · exact .inr (List.mem_append_right _ h)
  · have := h2.there
    cases flow with
    | normal => exact this
    | brk => exact ⟨hsb this.1, by rw [← hb]; exact this.2⟩
    | cont => exact ⟨hsc this.1, by rw [← hc]; exact this.2⟩
    | ret v => exact ⟨by rw [← hf]; exact this.1, this.2⟩

/-! ## Expressions -/

theorem value_ok (cx : Ctx isLocal y call TG room code) {x : Exp} {e : Enc} {s s' : S} {m : M} {v : Option V} {pre post : List Instr} (hk : okE par x = true ∨ okCall par pos x = true)
    (hs : Stat isLocal par pos TG e) (hh : Here isLocal y e s m) (hev : evalE isLocal call x s = some (v, s')) (h10 : (emitE x e).2.2.busy 10 = false)
    (hc : code = pre ++ (emitE x e).1 ++ post) (hpc : m.pc = pre.length) :
    ∃ m', Reach code m m' ∧ m'.pc = (pre ++ (emitE x e).1).length ∧ Done isLocal y (fun _ => False) e.table s s' m m' ∧ ∀ u, v = some u → vok u m' (emitE x e).2.1 := by
  rcases hk with hk | hk
  · obtain ⟨m', u, rfl, h1, h2, h3⟩ := expE (X := fun _ => False) cx.ok x e s s' m v hk hs.tabs (fun _ _ _ _ h => h) hh.geo hh.vals hh.base hev h10
    obtain ⟨h4, h5⟩ := reach_runL hc hpc h1
    exact ⟨m', h4, h5, h2, fun u' hu => by cases hu; exact h3⟩
  · obtain ⟨m', h1, h2, h3, h4, h5⟩ := call_ok cx.ok cx.callee cx.room cx.mod cx.small hk hs.tabs hs.pos hs.glob hh.geo hh.vals hh.base hh.sp hev h10 hc hpc
    exact ⟨m', h1, h2, h3, fun u hu => by rw [h4]; exact h5 u hu⟩

/-- A variable gets a value. -/
theorem set_ok (cx : Ctx isLocal y call TG room code) {e e2 : Enc} {s s' : S} {m : M} {u : V} {rv : Rv} {id : Nat} (hh : Here isLocal y e s m) (hv : vok u m rv)
    (hset : s.set isLocal id u = some s') (hr : ∀ r, e.table id = .reg r → rv.isConst = false) :
    ∃ m', runL (store e2 (e.table id) rv).1 m = some m' ∧ Done isLocal y (fun _ => False) e.table s s' m m' := by
  obtain ⟨m', h1, h2, h3, h4, -⟩ := store_ok cx.ok hh.base (e := e2) (p := e.table id) hv (.inr (hh.geo.fits id (set_dom hset))) (fun r h hcn => by rw [hr r h] at hcn; cases hcn)
  exact ⟨m', h1, Done.set cx.ok hh.geo hh.vals hset h2 h3 h4 (fun _ _ h => h)⟩

theorem ten_cond {x : Exp} {e : Enc} (hT : Tabs par e) (n : Nat) (h : (freeRvalue { (emitE x e).2.2 with lab := n } (emitE x e).2.1).busy 10 = false) : (emitE x e).2.2.busy 10 = false := by
  rw [free_10 (useE par false x e hT (fun h => by cases h)).2.new] at h
  exact h

theorem ten_free {x : Exp} {e : Enc} (hT : Tabs par e) (h : (freeRvalue (emitE x e).2.2 (emitE x e).2.1).busy 10 = false) : (emitE x e).2.2.busy 10 = false := by
  rw [free_10 (useE par false x e hT (fun h => by cases h)).2.new] at h
  exact h

theorem void_ok (cx : Ctx isLocal y call TG room code) {x : Exp} {e : Enc} {s s' : S} {m : M} {v : Option V} {pre post : List Instr} (hk : okX par pos x = true)
    (hs : Stat isLocal par pos TG e) (hh : Here isLocal y e s m) (hev : evalE isLocal call x s = some (v, s')) (h10 : (emitVoid x e).2.busy 10 = false)
    (hc : code = pre ++ (emitVoid x e).1 ++ post) (hpc : m.pc = pre.length) :
    ∃ m', Reach code m m' ∧ m'.pc = (pre ++ (emitVoid x e).1).length ∧ Done isLocal y (fun _ => False) e.table s s' m m' := by
  unfold emitVoid at hc h10 ⊢
  by_cases hl : isLvalue x = true
  · simp only [hl, if_true] at hc h10 ⊢
    cases x <;> simp only [isLvalue, Bool.false_eq_true] at hl
    simp only [evalE, Option.map_eq_some_iff, Prod.mk.injEq] at hev
    obtain ⟨w, -, -, rfl⟩ := hev
    exact ⟨m, Reach.refl .., by simpa using hpc, hh.refl⟩
  · simp only [hl, Bool.false_eq_true, if_false] at hc h10 ⊢
    have h10 := ten_free hs.tabs h10
    have hcase : (okE par x = true ∨ okCall par pos x = true) ∨ ∃ id ty z, x = .assign none id ty z ∧ okCall par pos z = true := by
      unfold okX at hk
      split at hk
      · rename_i id ty z _
        rw [Bool.or_eq_true] at hk
        rcases hk with hk | hk
        · exact .inl (.inl hk)
        · exact .inr ⟨id, ty, z, rfl, hk⟩
      · rw [Bool.or_eq_true] at hk
        exact .inl hk
    clear hk
    rcases hcase with hk | ⟨id, ty, z, rfl, hk⟩
    · obtain ⟨m', h1, h2, h3, -⟩ := value_ok cx hk hs hh hev h10 hc hpc
      exact ⟨m', h1, h2, h3⟩
    · simp only [evalE, Option.bind_eq_bind, Option.bind_eq_some_iff, Prod.exists] at hev
      obtain ⟨w, s1, hev, u, rfl, hev2⟩ := hev
      split at hev2
      · simp only [Option.bind_eq_some_iff, Option.some.injEq, Prod.mk.injEq] at hev2
        obtain ⟨s2, hset, -, rfl⟩ := hev2
        simp only [emitE] at hc h10 ⊢
        have hz : (emitE z e).2.1.isConst = false := by
          rw [isConst_eq]
          cases z <;> simp only [okCall, Bool.false_eq_true] at hk
          simp only [Bool.and_eq_true, decide_eq_true_eq] at hk
          simp only [isConstE, decide_eq_false_iff_not]; omega
        have h10z : (emitE z e).2.2.busy 10 = false := flag_mono (use_store false _ (hs.tabs.ok id).lv (fun h => by cases h)) h10
        obtain ⟨m1, h1, h2, h3, h4⟩ := value_ok cx (.inr hk) hs hh hev h10z (pre := pre) (post := (store (emitE z e).2.2 (e.table id) (emitE z e).2.1).1 ++ post) (by rw [hc]; simp) hpc
        obtain ⟨m2, h5, h6⟩ := set_ok cx (e2 := (emitE z e).2.2) (hh.done h3 (Fix.refl e)) (h4 u rfl) hset (fun _ _ => hz)
        obtain ⟨h7, h8⟩ := reach_runL (code := code) (pre := pre ++ (emitE z e).1) (post := post) (by rw [hc]; simp) h2 h5
        exact ⟨m2, h1.trans h7, by rw [h8]; simp, h3.trans h6⟩
      · cases hev2

theorem toInt_zero (x : BitVec 32) : x.toInt = 0 ↔ x = 0 := by
  constructor
  · intro h
    apply BitVec.eq_of_toInt_eq
    rw [h]; rfl
  · rintro rfl; rfl

theorem imm_zero {k : Int} {x : BitVec 32} (h : imm32 k = some x) : x = 0 ↔ k = 0 := by
  unfold imm32 at h
  split at h
  · rename_i hk
    cases h
    constructor
    · intro h
      have := congrArg BitVec.toNat h
      simp only [BitVec.toNat_ofInt] at this
      have h0 : (0 : BitVec 32).toNat = 0 := rfl
      rw [h0] at this
      omega
    · rintro rfl; rfl
  · cases h

/-- A condition that leads to `l` if it is false. -/
theorem cond_ok (cx : Ctx isLocal y call TG room code) {x : Exp} {e : Enc} {s s' : S} {m : M} {u : V} {t : Bool} {pre post : List Instr} {l : Label} {k : Nat} (hk : okE par x = true)
    (hs : Stat isLocal par pos TG e) (hh : Here isLocal y e s m) (hev : evalE isLocal call x s = some (some u, s')) (ht : V.truth u = some t) (h10 : (emitE x e).2.2.busy 10 = false)
    (hc : code = pre ++ ((emitE x e).1 ++ condBranch .eq (emitE x e).2.1 l) ++ post) (hpc : m.pc = pre.length) (hf : find l code = some k) :
    ∃ m', Reach code m m' ∧ m'.pc = (if t then (pre ++ ((emitE x e).1 ++ condBranch .eq (emitE x e).2.1 l)).length else k) ∧ Done isLocal y (fun _ => False) e.table s s' m m' := by
  obtain ⟨m1, h1, h2, h3, h4⟩ := value_ok cx (.inl hk) hs hh hev h10 (pre := pre) (post := condBranch .eq (emitE x e).2.1 l ++ post) (by rw [hc]; simp) hpc
  have h4 := h4 u rfl
  have hc' : code = (pre ++ (emitE x e).1) ++ (condBranch .eq (emitE x e).2.1 l ++ post) := by rw [hc]; simp
  generalize (emitE x e).2.1 = rv at *
  cases rv with
  | void => exact h4.elim
  | const q =>
    obtain ⟨z, hz, hst⟩ := h4
    have hzz := (imm_zero hz).symm.trans (truth_zero ht hst)
    cases t with
    | false =>
      have hcb : condBranch .eq (.const q) l = [.j l] := by rw [hzz.2 rfl]; rfl
      rw [hcb] at hc'
      exact ⟨{ m1 with pc := k }, h1.trans (reach_j (post := post) (by rw [hc']; simp) h2 hf), by simp, h3.pc k⟩
    | true =>
      have hq : q ≠ 0 := fun h => by cases hzz.1 h
      have hcb : condBranch .eq (.const q) l = [] := by simp [condBranch, Rv.num, hq]
      rw [hcb]
      exact ⟨m1, h1, by rw [h2]; simp, h3⟩
  | reg r b =>
    have hzz := (toInt_zero (m1.reg r)).trans (truth_zero ht h4)
    simp only [condBranch] at hc' ⊢
    have hst : step code m1 = exec code m1 (.br .eq r l) := step_at (post := post) (by rw [hc']; simp) h2
    cases t with
    | false =>
      refine ⟨{ m1 with pc := k }, h1.trans (Reach.one ?_), by simp, h3.pc k⟩
      rw [hst]
      simp only [exec, Llvm.cmpV, hzz.2 rfl, decide_true, if_true, hf, Option.map_some]
    | true =>
      have hq : (m1.reg r).toInt ≠ 0 := fun h => by cases hzz.1 h
      refine ⟨{ m1 with pc := m1.pc + 1 }, h1.trans (Reach.one ?_), by simp [h2]; omega, h3.pc _⟩
      rw [hst]
      simp only [exec, Llvm.cmpV, hq, decide_false, Bool.false_eq_true, if_false]

/-- A condition that leads to `l` if it is true. -/
theorem cond_ne (cx : Ctx isLocal y call TG room code) {x : Exp} {e : Enc} {s s' : S} {m : M} {u : V} {t : Bool} {pre post : List Instr} {l : Label} {k : Nat} (hk : okE par x = true)
    (hn : isConstE x = false) (hs : Stat isLocal par pos TG e) (hh : Here isLocal y e s m) (hev : evalE isLocal call x s = some (some u, s')) (ht : V.truth u = some t)
    (h10 : (emitE x e).2.2.busy 10 = false) (hc : code = pre ++ ((emitE x e).1 ++ condBranch .ne (emitE x e).2.1 l) ++ post) (hpc : m.pc = pre.length) (hf : find l code = some k) :
    ∃ m', Reach code m m' ∧ m'.pc = (if t then k else (pre ++ ((emitE x e).1 ++ condBranch .ne (emitE x e).2.1 l)).length) ∧ Done isLocal y (fun _ => False) e.table s s' m m' := by
  obtain ⟨m1, h1, h2, h3, h4⟩ := value_ok cx (.inl hk) hs hh hev h10 (pre := pre) (post := condBranch .ne (emitE x e).2.1 l ++ post) (by rw [hc]; simp) hpc
  have h4 := h4 u rfl
  have hc' : code = (pre ++ (emitE x e).1) ++ (condBranch .ne (emitE x e).2.1 l ++ post) := by rw [hc]; simp
  rw [← isConst_eq x e] at hn
  generalize (emitE x e).2.1 = rv at *
  cases rv with
  | void => exact h4.elim
  | const q => cases hn
  | reg r b =>
    have hzz := (toInt_zero (m1.reg r)).trans (truth_zero ht h4)
    simp only [condBranch] at hc' ⊢
    have hst : step code m1 = exec code m1 (.br .ne r l) := step_at (post := post) (by rw [hc']; simp) h2
    cases t with
    | true =>
      have hq : (m1.reg r).toInt ≠ 0 := fun h => by cases hzz.1 h
      refine ⟨{ m1 with pc := k }, h1.trans (Reach.one ?_), by simp, h3.pc k⟩
      rw [hst]
      simp only [exec, Llvm.cmpV, ne_eq, hq, not_false_eq_true, decide_true, if_true, hf, Option.map_some]
    | false =>
      refine ⟨{ m1 with pc := m1.pc + 1 }, h1.trans (Reach.one ?_), by simp [h2]; omega, h3.pc _⟩
      rw [hst]
      simp only [exec, Llvm.cmpV, hzz.2 rfl, ne_eq, not_true_eq_false, decide_false, Bool.false_eq_true, if_false]

/-! ## Declarations -/

/-- A variable comes into scope. -/
theorem here_add {e : Enc} {s : S} {m : M} {id : Nat} (hs : Stat isLocal par pos TG e) (hh : Here isLocal y e s m) (hl : isLocal id = true) (hlo : (addVar isLocal e id).maxd ≤ y.lo) :
    Here isLocal y (addVar isLocal e id) { s with var := fun j => if j = id then some none else s.var j } m := by
  have hT : (addVar isLocal e id).table = fun j => if j = id then .stack (-(e.scope + 4 : Nat)) R_FP else e.table j := by unfold addVar; rw [if_pos hl]
  have hS : (addVar isLocal e id).scope = e.scope + 4 := by unfold addVar; rw [if_pos hl]
  have hM : (addVar isLocal e id).maxd = max (e.scope + 4) e.maxd := by unfold addVar; rw [if_pos hl]
  have hmod := hs.mod
  have hdom : ∀ j, j ≠ id → dom isLocal { s with var := fun j => if j = id then some none else s.var j } j = dom isLocal s j := fun j hj => by
    unfold dom; simp only [hj, if_false]
  have hne : ∀ j, j ≠ id → dom isLocal s j = true → e.table j ≠ .stack (-(e.scope + 4 : Nat)) R_FP := fun j hj hd he => by
    cases hlj : isLocal j with
    | true =>
      have := (hh.geo.loc j hd hlj _ _ he).2
      omega
    | false =>
      obtain ⟨d, hd'⟩ := hh.geo.glo j hd hlj
      rw [hd'] at he; cases he
  refine ⟨⟨fun j hd => ?_, fun j hd hlj d b ht => ?_, fun j hd hlj => ?_, fun j j' hd hd' he => ?_⟩, fun j v hv hx => ?_, hh.base, hh.sp⟩
  · rw [hT]
    by_cases hj : j = id
    · simp only [hj, if_true]
      exact ⟨by omega, .inl ⟨rfl, .inl ⟨by omega, by omega⟩⟩⟩
    · simp only [hj, if_false]
      rw [hdom j hj] at hd
      exact hh.geo.fits j hd
  · rw [hT] at ht
    rw [hS]
    by_cases hj : j = id
    · simp only [hj, if_true, Lv.stack.injEq] at ht
      exact ⟨ht.2.symm, by omega⟩
    · simp only [hj, if_false] at ht
      rw [hdom j hj] at hd
      obtain ⟨h1, h2⟩ := hh.geo.loc j hd hlj d b ht
      exact ⟨h1, by omega⟩
  · rw [hT]
    have hj : j ≠ id := fun h => by rw [h, hl] at hlj; cases hlj
    simp only [hj, if_false]
    rw [hdom j hj] at hd
    exact hh.geo.glo j hd hlj
  · rw [hT] at he
    by_cases hj : j = id <;> by_cases hj' : j' = id
    · rw [hj, hj']
    · simp only [hj, hj', if_true, if_false] at he
      rw [hdom j' hj'] at hd'
      exact absurd he.symm (hne j' hj' hd')
    · simp only [hj, hj', if_true, if_false] at he
      rw [hdom j hj] at hd
      exact absurd he (hne j hj hd)
    · simp only [hj, hj', if_false] at he
      rw [hdom j hj] at hd
      rw [hdom j' hj'] at hd'
      exact hh.geo.inj j j' hd hd' he
  · have hj : j ≠ id := by
      rintro rfl
      unfold val at hv
      simp [hl] at hv
    rw [hT]
    simp only [hj, if_false]
    refine hh.vals j v ?_ (fun _ _ h => h)
    unfold val at hv ⊢
    simpa only [hj, if_false] using hv

theorem Here.pc {e : Enc} {s : S} {m : M} (h : Here isLocal y e s m) (k : Nat) : Here isLocal y e s { m with pc := k } := h.done (h.refl.pc k) (Fix.refl e)

/-- A variable is declared. -/
theorem decl_ok (cx : Ctx isLocal y call TG room code) {id : Nat} {ty : Ty} {i : Option Exp} {e : Enc} {s s' : S} {m : M} {pre post : List Instr} {sb sc : Bool}
    (hk : okD par pos i = true) (hr : Ready isLocal y par pos TG code [id] sb sc e (emitV isLocal (id, ty, i) e).2 s m) (hc : code = pre ++ (emitV isLocal (id, ty, i) e).1 ++ post)
    (hpc : m.pc = pre.length) (hev : execD isLocal call [(id, ty, i)] s = some s') :
    ∃ m', Went isLocal y code [id] sb sc e (emitV isLocal (id, ty, i) e).2 (pre ++ (emitV isLocal (id, ty, i) e).1).length s s' m m' .normal := by
  simp only [execD] at hev
  split at hev
  · cases hev
  · rename_i hn
    simp only [not_or, Bool.not_eq_true, Option.isSome_eq_false_iff, Option.isNone_iff_eq_none, Bool.not_eq_false] at hn
    obtain ⟨hnone, hl⟩ := hn
    have hlo : (addVar isLocal e id).maxd ≤ y.lo := by
      have := hr.lo
      cases i with
      | none => exact this
      | some x => 
        have hf : Fix (addVar isLocal e id) (emitV isLocal (id, ty, some x) e).2 := ((fixE x _).trans (same_store _ _ _).fix).trans (same_freeR _ _).fix
        rw [← hf.maxd]; exact this
    have h0 := here_add hr.stat hr.here hl hlo
    have hT1 : ∀ j, j ≠ id → (addVar isLocal e id).table j = e.table j := fun j hj => (grow_add isLocal e id).table j (by simpa using hj)
    have hst : Stat isLocal par pos TG (addVar isLocal e id) := hr.stat.grow (grow_add isLocal e id) (tabs_add hr.stat.tabs isLocal id).1 (by simpa using hl)
    -- what follows from the state behind
    have key : ∀ (s2 : S) (m2 : M), Reach code m m2 → m2.pc = (pre ++ (emitV isLocal (id, ty, i) e).1).length → Fix (addVar isLocal e id) (emitV isLocal (id, ty, i) e).2 →
        Done isLocal y (fun _ => False) (addVar isLocal e id).table { s with var := fun j => if j = id then some none else s.var j } s2 m m2 →
        Went isLocal y code [id] sb sc e (emitV isLocal (id, ty, i) e).2 (pre ++ (emitV isLocal (id, ty, i) e).1).length s s2 m m2 .normal := fun s2 m2 hre hp hfx hd => by
      have hvar : ∀ j, j ≠ id → (s2.var j).isSome = (s.var j).isSome := fun j hj => by
        rw [hd.var j]; simp only [hj, if_false]
      have hlv : ∀ j, ((leave s s2).var j).isSome = (s.var j).isSome := fun j => by
        rw [leave_var]
        by_cases hj : j = id
        · rw [hj, hnone]; rfl
        · rw [hvar j hj, Bool.and_self]
      refine ⟨hre, ⟨fun j u hu hx => ?_, hd.keep, fun j => ?_, hlv⟩, fun j hj => ?_, fun _ => h0.done hd hfx, hp⟩
      · have hj : j ≠ id := by
          rintro rfl
          unfold val at hu
          simp [hl, leave, hnone] at hu
        have := hd.vals j u (by
          unfold val at hu ⊢
          split
          · rename_i hlj
            rw [if_pos hlj] at hu
            simp only [leave] at hu
            split at hu
            · exact hu
            · cases hu
          · rename_i hlj
            rw [if_neg hlj] at hu
            exact hu) (fun _ _ h => h)
        rw [hT1 j hj] at this
        exact this
      · have := hd.dom j
        unfold dom at this ⊢
        split
        · exact hlv j
        · rename_i hlj
          rw [if_neg hlj, if_neg hlj] at this
          exact this
      · by_cases hji : j = id
        · exact .inr (by simp [hji])
        · rw [hvar j hji] at hj
          exact .inl hj
    cases i with
    | none =>
      simp only [execD, Option.some.injEq] at hev
      subst hev
      simp only [emitV, List.append_nil] at hc key ⊢
      exact ⟨m, key _ m (Reach.refl ..) hpc (Fix.refl _) h0.refl⟩
    | some x =>
      simp only [Option.bind_eq_bind, Option.bind_eq_some_iff, Prod.exists] at hev
      obtain ⟨v, s1, hev, u, rfl, h⟩ := hev
      split at h
      · simp only [execD, Option.bind_eq_some_iff, Option.some.injEq, exists_eq_right] at h
        have hset : s1.set isLocal id u = some s' := h
        simp only [okD, Bool.or_eq_true] at hk
        have hten := hr.ten
        simp only [emitV] at hc hten key ⊢
        rw [free_10 (useE par false x _ hst.tabs (fun h => by cases h)).2.new] at hten
        have h10 : (emitE x (addVar isLocal e id)).2.2.busy 10 = false := flag_mono (use_store false _ (hst.tabs.ok id).lv (fun h => by cases h)) hten
        obtain ⟨m1, h1, h2, h3, h4⟩ := value_ok cx hk hst h0 hev h10 (pre := pre)
          (post := (store (emitE x (addVar isLocal e id)).2.2 ((addVar isLocal e id).table id) (emitE x (addVar isLocal e id)).2.1).1 ++ post) (by rw [hc]; simp) hpc
        obtain ⟨q, b, hq⟩ := (tabs_add hr.stat.tabs isLocal id).2
        obtain ⟨m2, h5, h6⟩ := set_ok cx (e2 := (emitE x (addVar isLocal e id)).2.2) (h0.done h3 (Fix.refl _)) (h4 u rfl) hset (fun r h => by rw [hq] at h; cases h)
        obtain ⟨h7, h8⟩ := reach_runL (code := code) (pre := pre ++ (emitE x (addVar isLocal e id)).1) (post := post) (by rw [hc]; simp) h2 h5
        exact ⟨m2, key _ m2 (h1.trans h7) (by rw [h8]; simp) (((fixE x _).trans (same_store _ _ _).fix).trans (same_freeR _ _).fix) (h3.trans h6)⟩
      · cases h

theorem execD_cons {d : Nat × Ty × Option Exp} {l : List (Nat × Ty × Option Exp)} {s s' : S} (h : execD isLocal call (d :: l) s = some s') :
    ∃ s1, execD isLocal call [d] s = some s1 ∧ execD isLocal call l s1 = some s' := by
  obtain ⟨id, ty, i⟩ := d
  simp only [execD] at h ⊢
  split at h
  · cases h
  · rename_i hn
    rw [if_neg hn]
    cases i with
    | none => exact ⟨_, rfl, h⟩
    | some x =>
      simp only [Option.bind_eq_bind, Option.bind_eq_some_iff, Prod.exists] at h ⊢
      obtain ⟨v, s1, h1, u, rfl, h⟩ := h
      split at h
      · rename_i hty
        simp only [Option.bind_eq_some_iff] at h
        obtain ⟨s2, h2, h3⟩ := h
        exact ⟨s2, ⟨some u, s1, h1, u, rfl, by rw [if_pos hty]; simp [h2]⟩, h3⟩
      · cases h

theorem decls_ok (cx : Ctx isLocal y call TG room code) : ∀ (l : List (Nat × Ty × Option Exp)) (e : Enc) (s s' : S) (m : M) (pre post : List Instr) (sb sc : Bool),
    (l.all fun d => okD par pos d.2.2) = true → Ready isLocal y par pos TG code (l.map (·.1)) sb sc e (emitD isLocal l e).2 s m → code = pre ++ (emitD isLocal l e).1 ++ post →
    m.pc = pre.length → execD isLocal call l s = some s' →
    ∃ m', Went isLocal y code (l.map (·.1)) sb sc e (emitD isLocal l e).2 (pre ++ (emitD isLocal l e).1).length s s' m m' .normal
  | [], e, s, s', m, pre, post, sb, sc, hk, hr, hc, hpc, hev => by
    simp only [execD, Option.some.injEq] at hev
    subst hev
    exact ⟨m, Went.of_done hr (.of_fix (Fix.refl e)) rfl (Reach.refl ..) hr.here.refl (by simpa [Where, emitD] using hpc)⟩
  | (id, ty, i) :: l, e, s, s', m, pre, post, sb, sc, hk, hr, hc, hpc, hev => by
    obtain ⟨s1, hev1, hev2⟩ := execD_cons hev
    simp only [List.all_cons, Bool.and_eq_true] at hk
    have hg1 := grow_V isLocal (id, ty, i) e
    have hg2 := grow_D isLocal l (emitV isLocal (id, ty, i) e).2
    have ht1 := run_V (t := false) isLocal (id, ty, i) hr.stat.tabs (fun h => by cases h)
    have ht2 := run_D (t := false) isLocal l _ ht1.tabs (fun h => by cases h)
    have hp := pieceV isLocal (id, ty, i) e
    have hfr : ∀ j ∈ [id], isLocal j = true ∧ s.var j = none := fun j hj => hr.fresh j (by simp only [List.mem_singleton] at hj; simp [hj])
    have hnd := hr.nodup
    have hlo := hr.lo
    have hten := hr.ten
    simp only [emitD] at hc hlo hten ⊢
    simp only [List.map_cons, List.nodup_cons] at hnd ⊢
    obtain ⟨m1, w1⟩ := decl_ok cx (sb := sb) (sc := sc) (pre := pre) (post := (emitD isLocal l (emitV isLocal (id, ty, i) e).2).1 ++ post) hk.1
      ⟨hr.stat, hr.here, hfr, by simp, Nat.le_trans hg2.maxd hlo, flag_mono ht2.use hten, hr.brk, hr.cont, hr.fin⟩ (by rw [hc]; simp) hpc hev1
    have hfr2 : ∀ j ∈ l.map (·.1), isLocal j = true ∧ s1.var j = none := fun j hj => by
      have hfj := hr.fresh j (by simp only [List.map_cons, List.mem_cons]; exact .inr hj)
      refine ⟨hfj.1, ?_⟩
      cases hv : s1.var j with
      | none => rfl
      | some z =>
        rcases w1.only j (by rw [hv]; rfl) with h | h
        · rw [hfj.2] at h; cases h
        · simp only [List.mem_singleton] at h
          rw [h] at hj
          exact absurd hj hnd.1
    obtain ⟨m2, w2⟩ := decls_ok cx l _ s1 s' m1 (pre ++ (emitV isLocal (id, ty, i) e).1) post sb sc hk.2
      ⟨hr.stat.grow hg1 ht1.tabs (fun j hj => (hfr j hj).1), w1.norm rfl, hfr2, hnd.2, hlo, hten, by rw [hp.brk]; exact hr.brk, by rw [hp.cont]; exact hr.cont,
        by rw [hp.fn]; exact hr.fin⟩ (by rw [hc]; simp) w1.there hev2
    refine ⟨m2, ?_⟩
    have := w1.seq (sb := sb) (sc := sc) w2 (fun j hd => hg1.table j (fresh_dom hfr hd)) hp.brk hp.cont hp.fn (fun h => h) (fun h => h)
    rw [List.append_assoc] at this
    exact this

end

end RuC.Mips
