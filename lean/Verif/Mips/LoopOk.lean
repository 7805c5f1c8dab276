import Verif.Mips.StmtOk

/-!
# Lemmas: the text of loops does what they do
-/

namespace RuC.Mips
open Llvm (Ty Arith Cmp Un Inc Exp Args Stmt Stmts Func V World S Flow arithV unV incV fit evalE evalA execS execB execD leave Calls loopT loopB evalOpt evalStep)

/-- Where the body of a loop ends: at the step, behind the loop, at the test, or at the end of the function. -/
def LoopAt (pn ps pb : Nat) (free : Prop) (R : Option V → M → Prop) (m : M) : Flow → Prop
  | .normal => m.pc = pn
  | .brk => m.pc = ps
  | .cont => m.pc = pb ∧ free
  | .ret v => R v m

/-- Where a loop ends. -/
def EndAt (ps : Nat) (R : Option V → M → Prop) (m : M) : Flow → Prop
  | .normal => m.pc = ps
  | .ret v => R v m
  | _ => False

theorem loopT_ok {code : List Instr} {I : S → M → Prop} {pb pbody pn ps : Nat} {R : Option V → M → Prop} {test next : S → Option (Option V × S)} {body : S → Option (Flow × S)}
    (hT : ∀ s v t s' m, I s m → m.pc = pb → test s = some (some v, s') → V.truth v = some t → ∃ m', Reach code m m' ∧ I s' m' ∧ m'.pc = if t then pbody else ps)
    (hB : ∀ s flow s' m, I s m → m.pc = pbody → body s = some (flow, s') → ∃ m', Reach code m m' ∧ I s' m' ∧ LoopAt pn ps pb (∀ s, next s = some (none, s)) R m' flow)
    (hN : ∀ s x s' m, I s m → m.pc = pn → next s = some (x, s') → ∃ m', Reach code m m' ∧ I s' m' ∧ m'.pc = pb) :
    ∀ (n : Nat) (s : S) (flow : Flow) (s' : S) (m : M), I s m → m.pc = pb → loopT test body next n s = some (flow, s') → ∃ m', Reach code m m' ∧ I s' m' ∧ EndAt ps R m' flow
  | 0, s, flow, s', m, hi, hp, h => by simp [loopT] at h
  | n + 1, s, flow, s', m, hi, hp, h => by
    simp only [loopT, Option.bind_eq_bind, Option.bind_eq_some_iff] at h
    obtain ⟨⟨x, s1⟩, h1, t, ⟨v, rfl, ht⟩, h⟩ := h
    simp only at h
    obtain ⟨m1, r1, i1, p1⟩ := hT s v t s1 m hi hp h1 ht
    cases t
    · simp only [if_true, Option.some.injEq, Prod.mk.injEq] at h
      obtain ⟨rfl, rfl⟩ := h
      exact ⟨m1, r1, i1, by simpa [EndAt] using p1⟩
    · simp only [Bool.true_eq_false, if_false, Option.bind_eq_some_iff] at h
      obtain ⟨⟨f, s2⟩, h2, h⟩ := h
      simp only at h
      simp only [if_true] at p1
      obtain ⟨m2, r2, i2, p2⟩ := hB s1 f s2 m1 i1 p1 h2
      cases f with
      | brk =>
        simp only [Option.some.injEq, Prod.mk.injEq] at h
        obtain ⟨rfl, rfl⟩ := h
        exact ⟨m2, r1.trans r2, i2, p2⟩
      | ret u =>
        simp only [Option.some.injEq, Prod.mk.injEq] at h
        obtain ⟨rfl, rfl⟩ := h
        exact ⟨m2, r1.trans r2, i2, p2⟩
      | cont =>
        simp only [Option.bind_eq_some_iff] at h
        obtain ⟨⟨y, s3⟩, h3, h⟩ := h
        rw [p2.2 s2] at h3
        simp only [Option.some.injEq, Prod.mk.injEq] at h3
        obtain ⟨-, rfl⟩ := h3
        obtain ⟨m4, r4, i4, p4⟩ := loopT_ok hT hB hN n s2 flow s' m2 i2 p2.1 h
        exact ⟨m4, r1.trans (r2.trans r4), i4, p4⟩
      | normal =>
        simp only [Option.bind_eq_some_iff] at h
        obtain ⟨⟨y, s3⟩, h3, h⟩ := h
        obtain ⟨m3, r3, i3, p3⟩ := hN s2 y s3 m2 i2 p2 h3
        obtain ⟨m4, r4, i4, p4⟩ := loopT_ok hT hB hN n s3 flow s' m3 i3 p3 h
        exact ⟨m4, r1.trans (r2.trans (r3.trans r4)), i4, p4⟩

theorem loopB_ok {code : List Instr} {I : S → M → Prop} {pb pn ps : Nat} {R : Option V → M → Prop} {test : S → Option (Option V × S)} {body : S → Option (Flow × S)}
    (hB : ∀ s flow s' m, I s m → m.pc = pb → body s = some (flow, s') → ∃ m', Reach code m m' ∧ I s' m' ∧ LoopAt pn ps pn True R m' flow)
    (hT : ∀ s v t s' m, I s m → m.pc = pn → test s = some (some v, s') → V.truth v = some t → ∃ m', Reach code m m' ∧ I s' m' ∧ m'.pc = if t then pb else ps) :
    ∀ (n : Nat) (s : S) (flow : Flow) (s' : S) (m : M), I s m → m.pc = pb → loopB body test n s = some (flow, s') → ∃ m', Reach code m m' ∧ I s' m' ∧ EndAt ps R m' flow
  | 0, s, flow, s', m, hi, hp, h => by simp [loopB] at h
  | n + 1, s, flow, s', m, hi, hp, h => by
    simp only [loopB, Option.bind_eq_bind, Option.bind_eq_some_iff] at h
    obtain ⟨⟨f, s2⟩, h2, h⟩ := h
    simp only at h
    obtain ⟨m2, r2, i2, p2⟩ := hB s f s2 m hi hp h2
    have key : m2.pc = pn → ((test s2).bind fun x => (x.1.bind V.truth).bind fun t => if t = false then some (Flow.normal, x.2) else loopB body test n x.2) = some (flow, s') →
        ∃ m', Reach code m m' ∧ I s' m' ∧ EndAt ps R m' flow := fun p2 h => by
      simp only [Option.bind_eq_some_iff] at h
      obtain ⟨⟨x, s3⟩, h3, t, ⟨v, hv, ht⟩, h⟩ := h
      simp only at hv h
      subst hv
      obtain ⟨m3, r3, i3, p3⟩ := hT s2 v t s3 m2 i2 p2 h3 ht
      cases t
      · simp only [if_true, Option.some.injEq, Prod.mk.injEq] at h
        obtain ⟨rfl, rfl⟩ := h
        exact ⟨m3, r2.trans r3, i3, by simpa [EndAt] using p3⟩
      · simp only [Bool.true_eq_false, if_false] at h
        simp only [if_true] at p3
        obtain ⟨m4, r4, i4, p4⟩ := loopB_ok hB hT n s3 flow s' m3 i3 p3 h
        exact ⟨m4, r2.trans (r3.trans r4), i4, p4⟩
    cases f with
    | brk =>
      simp only [Option.some.injEq, Prod.mk.injEq] at h
      obtain ⟨rfl, rfl⟩ := h
      exact ⟨m2, r2, i2, p2⟩
    | ret u =>
      simp only [Option.some.injEq, Prod.mk.injEq] at h
      obtain ⟨rfl, rfl⟩ := h
      exact ⟨m2, r2, i2, p2⟩
    | cont => exact key p2.1 h
    | normal => exact key p2 h

theorem okX_of {par : Nat → Bool} {pos : Nat → Option Nat} {x : Exp} (h : okE par x = true) : okX par pos x = true := by
  unfold okX
  split <;> simp [h]

/-- The variables a statement may leave behind. -/
def newS (st : Stmt) : List Nat := if single st then [] else declsS st

section
variable {isLocal : Nat → Bool} {y : Lay} {call : Calls} {par : Nat → Bool} {pos : Nat → Option Nat} {TG : Nat → Lv} {room : Nat} {code : List Instr}

/-- The text of a statement does what the statement does. -/
def SOk (isLocal : Nat → Bool) (y : Lay) (call : Calls) (par : Nat → Bool) (pos : Nat → Option Nat) (TG : Nat → Lv) (code : List Instr) (n : Nat) (st : Stmt) : Prop :=
  ∀ (e : Enc) (s s' : S) (m : M) (flow : Flow) (pre post : List Instr),
    Ready isLocal y par pos TG code (declsS st) (strayBreak st) (strayCont st) e (emitS isLocal st e).2 s m → code = pre ++ (emitS isLocal st e).1 ++ post → m.pc = pre.length →
    execS isLocal call n st s = some (flow, s') →
    ∃ m', Went isLocal y code (newS st) (strayBreak st) (strayCont st) e (emitS isLocal st e).2 (pre ++ (emitS isLocal st e).1).length s s' m m' flow

/-- Behind a loop, or at the end of the function. -/
def LoopEnd (code : List Instr) (fn n : Nat) (m' : M) : Flow → Prop :=
  EndAt n (fun v m => find ⟨.funcEnd, fn⟩ code = some m.pc ∧ ∀ u, v = some u → stands u (m.reg R_V0)) m'

/-- `while`, and `for` behind its first part. -/
theorem for_core (cx : Ctx isLocal y call TG room code) {n k l : Nat} {b : Stmt} {c inc : Option Exp} {g : Enc} {s s' : S} {m : M} {flow : Flow} {pre post : List Instr}
    (hb : SOk isLocal y call par pos TG code n b) (hob : okS par pos b = true) (hsb : single b = true) (hoc : okO par c = true) (hoi : okO par inc = true)
    (hcont : (inc.isNone || !strayCont b) = true) (hgc : g.cont = ⟨.beginCycle, l⟩) (hgb : g.brk = ⟨.end, l⟩) (hst : Stat isLocal par pos TG g) (hh : Here isLocal y g s m)
    (hfr : ∀ id ∈ declsS b, isLocal id = true ∧ s.var id = none) (hnd : (declsS b).Nodup)
    (hlo : (stepOf inc (emitS isLocal b (condOf ⟨.end, l⟩ c g).2).2).2.maxd ≤ y.lo) (hten : (stepOf inc (emitS isLocal b (condOf ⟨.end, l⟩ c g).2).2).2.busy 10 = false)
    (hfin : ⟨.funcEnd, g.fn⟩ ∈ labs code)
    (hc : code = pre ++ ([Instr.label ⟨.beginCycle, l⟩] ++ (condOf ⟨.end, l⟩ c g).1 ++ (emitS isLocal b (condOf ⟨.end, l⟩ c g).2).1 ++
      (stepOf inc (emitS isLocal b (condOf ⟨.end, l⟩ c g).2).2).1 ++ [Instr.j ⟨.beginCycle, l⟩, Instr.label ⟨.end, l⟩]) ++ post)
    (hpc : m.pc = pre.length) (hev : loopT (evalOpt isLocal call c) (execS isLocal call n b) (evalStep isLocal call inc) k s = some (flow, s')) :
    ∃ m', Reach code m m' ∧ Done isLocal y (fun _ => False) g.table s s' m m' ∧ LoopEnd code g.fn (pre ++ ([Instr.label ⟨.beginCycle, l⟩] ++ (condOf ⟨.end, l⟩ c g).1 ++
      (emitS isLocal b (condOf ⟨.end, l⟩ c g).2).1 ++ (stepOf inc (emitS isLocal b (condOf ⟨.end, l⟩ c g).2).2).1 ++ [Instr.j ⟨.beginCycle, l⟩, Instr.label ⟨.end, l⟩])).length m' flow := by
  have hfx := fix_condOf ⟨.end, l⟩ c g
  have hst1 : Stat isLocal par pos TG (condOf ⟨.end, l⟩ c g).2 := hst.fix hfx
  have hpx := piece_condOf l c g
  have hgr := growS isLocal b (condOf ⟨.end, l⟩ c g).2 hob
  have hrb := runS par false isLocal b (condOf ⟨.end, l⟩ c g).2 hst1.tabs (fun h => by cases h)
  have hfz := fix_stepOf inc (emitS isLocal b (condOf ⟨.end, l⟩ c g).2).2
  have hrz := run_stepOf (t := false) inc hrb.tabs (fun h => by cases h)
  have hst2 : Stat isLocal par pos TG (emitS isLocal b (condOf ⟨.end, l⟩ c g).2).2 := hst1.grow hgr.1 hrb.tabs (fun id hd => (hfr id hd).1)
  have hten2 := flag_mono hrz.use hten
  have hten1 := flag_mono hrb.use hten2
  have hTb : ∀ id, dom isLocal s id = true → (emitS isLocal b (condOf ⟨.end, l⟩ c g).2).2.table id = g.table id := fun id hd => by
    rw [hgr.1.table id (fresh_dom hfr hd), hfx.table]
  -- the labels
  have hfb : find ⟨.beginCycle, l⟩ code = some pre.length := by
    have : code = pre ++ Instr.label ⟨.beginCycle, l⟩ :: ((condOf ⟨.end, l⟩ c g).1 ++ (emitS isLocal b (condOf ⟨.end, l⟩ c g).2).1 ++
      (stepOf inc (emitS isLocal b (condOf ⟨.end, l⟩ c g).2).2).1 ++ [Instr.j ⟨.beginCycle, l⟩, Instr.label ⟨.end, l⟩] ++ post) := by rw [hc]; simp
    have ho := cx.once
    rw [this] at ho ⊢
    exact find_at ho
  have hce : code = (pre ++ [Instr.label ⟨.beginCycle, l⟩] ++ (condOf ⟨.end, l⟩ c g).1 ++ (emitS isLocal b (condOf ⟨.end, l⟩ c g).2).1 ++
      (stepOf inc (emitS isLocal b (condOf ⟨.end, l⟩ c g).2).2).1 ++ [Instr.j ⟨.beginCycle, l⟩]) ++ Instr.label ⟨.end, l⟩ :: post := by rw [hc]; simp
  have hfe : find ⟨.end, l⟩ code = some (pre ++ [Instr.label ⟨.beginCycle, l⟩] ++ (condOf ⟨.end, l⟩ c g).1 ++ (emitS isLocal b (condOf ⟨.end, l⟩ c g).2).1 ++
      (stepOf inc (emitS isLocal b (condOf ⟨.end, l⟩ c g).2).2).1 ++ [Instr.j ⟨.beginCycle, l⟩]).length := by
    have ho := cx.once
    generalize (pre ++ [Instr.label ⟨.beginCycle, l⟩] ++ (condOf ⟨.end, l⟩ c g).1 ++ (emitS isLocal b (condOf ⟨.end, l⟩ c g).2).1 ++
      (stepOf inc (emitS isLocal b (condOf ⟨.end, l⟩ c g).2).2).1 ++ [Instr.j ⟨.beginCycle, l⟩]) = A at *
    rw [hce] at ho ⊢
    exact find_at ho
  have hmb : ∀ q p : List Instr, ∀ l : Label, code = q ++ .label l :: p → l ∈ labs code := fun q p l h => by rw [h]; simp [labs, puts]
  obtain ⟨m1, r1, i1, p1⟩ := loopT_ok (code := code) (I := fun s2 m2 => Done isLocal y (fun _ => False) g.table s s2 m m2) (pb := pre.length)
    (pbody := (pre ++ ([Instr.label ⟨.beginCycle, l⟩] ++ (condOf ⟨.end, l⟩ c g).1)).length)
    (pn := (pre ++ ([Instr.label ⟨.beginCycle, l⟩] ++ (condOf ⟨.end, l⟩ c g).1) ++ (emitS isLocal b (condOf ⟨.end, l⟩ c g).2).1).length)
    (ps := (pre ++ [Instr.label ⟨.beginCycle, l⟩] ++ (condOf ⟨.end, l⟩ c g).1 ++ (emitS isLocal b (condOf ⟨.end, l⟩ c g).2).1 ++
      (stepOf inc (emitS isLocal b (condOf ⟨.end, l⟩ c g).2).2).1 ++ [Instr.j ⟨.beginCycle, l⟩]).length)
    (R := fun v m => find ⟨.funcEnd, g.fn⟩ code = some m.pc ∧ ∀ u, v = some u → stands u (m.reg R_V0))
    (test := evalOpt isLocal call c) (body := execS isLocal call n b) (next := evalStep isLocal call inc)
    (by
      intro s1 v t s2 m1 hd hp he ht
      have hl := reach_label (code := code) (pre := pre) (post := (condOf ⟨.end, l⟩ c g).1 ++ (emitS isLocal b (condOf ⟨.end, l⟩ c g).2).1 ++
        (stepOf inc (emitS isLocal b (condOf ⟨.end, l⟩ c g).2).2).1 ++ [Instr.j ⟨.beginCycle, l⟩, Instr.label ⟨.end, l⟩] ++ post) (l := ⟨.beginCycle, l⟩) (by rw [hc]; simp) hp
      cases c with
      | none =>
        simp only [evalOpt, Option.some.injEq, Prod.mk.injEq] at he
        obtain ⟨rfl, rfl⟩ := he
        simp only [V.truth, Option.some.injEq] at ht
        subst ht
        exact ⟨_, hl, hd.pc _, by simp [condOf, hp]⟩
      | some x =>
        simp only [evalOpt] at he
        simp only [okO] at hoc
        obtain ⟨m2, r2, p2, d2⟩ := cond_ok cx (pre := pre ++ [Instr.label ⟨.beginCycle, l⟩]) (post := (emitS isLocal b (condOf ⟨.end, l⟩ (some x) g).2).1 ++
          (stepOf inc (emitS isLocal b (condOf ⟨.end, l⟩ (some x) g).2).2).1 ++ [Instr.j ⟨.beginCycle, l⟩, Instr.label ⟨.end, l⟩] ++ post) (l := ⟨.end, l⟩) hoc hst
          ((hh.done hd (Fix.refl g)).pc (m1.pc + 1)) he ht (ten_free hst.tabs hten1) (by rw [hc]; simp [condOf]) (by simp [hp]) hfe
        refine ⟨m2, hl.trans r2, ?_, ?_⟩
        · exact (hd.pc (m1.pc + 1)).trans d2
        · rw [p2]
          simp only [condOf, List.append_assoc])
    (by
      intro s1 f s2 m1 hd hp he
      obtain ⟨m2, w⟩ := hb (condOf ⟨.end, l⟩ c g).2 s1 s2 m1 f (pre ++ ([Instr.label ⟨.beginCycle, l⟩] ++ (condOf ⟨.end, l⟩ c g).1))
        ((stepOf inc (emitS isLocal b (condOf ⟨.end, l⟩ c g).2).2).1 ++ [Instr.j ⟨.beginCycle, l⟩, Instr.label ⟨.end, l⟩] ++ post)
        ⟨hst1, hh.done hd hfx, fun id hid => ⟨(hfr id hid).1, by
            have := hd.var id
            rw [(hfr id hid).2] at this
            exact Option.isNone_iff_eq_none.1 (by simpa using this)⟩, hnd, by rw [← hfz.maxd]; exact hlo, hten2,
          fun _ => by rw [hpx.brk, hgb]; exact hmb _ _ _ hce, fun _ => by rw [hpx.cont, hgc]; exact hmb pre _ _ (by rw [hc]; simp only [List.append_assoc, List.singleton_append]; rfl),
          by rw [hpx.fn]; exact hfin⟩ (by rw [hc]; simp) hp he
      rw [show newS b = [] from by simp [newS, hsb]] at w
      have wd := w.same
      rw [hfx.table] at wd
      refine ⟨m2, w.reach, hd.trans wd, ?_⟩
      have := w.there
      cases f with
      | normal => exact this
      | brk =>
        have := this.2
        rw [hpx.brk, hgb, hfe] at this
        exact (Option.some.inj this).symm
      | cont =>
        obtain ⟨hsc, this⟩ := this
        rw [hpx.cont, hgc, hfb] at this
        refine ⟨(Option.some.inj this).symm, fun s => ?_⟩
        rw [hsc] at hcont
        cases inc with
        | none => rfl
        | some x => cases hcont
      | ret v => exact ⟨by rw [← hpx.fn]; exact this.1, this.2⟩)
    (by
      intro s1 x s2 m1 hd hp he
      have hj : ∀ m3 : M, m3.pc = (pre ++ ([Instr.label ⟨.beginCycle, l⟩] ++ (condOf ⟨.end, l⟩ c g).1) ++ (emitS isLocal b (condOf ⟨.end, l⟩ c g).2).1 ++
          (stepOf inc (emitS isLocal b (condOf ⟨.end, l⟩ c g).2).2).1).length → Reach code m3 { m3 with pc := pre.length } := fun m3 hp3 =>
        reach_j (post := Instr.label ⟨.end, l⟩ :: post) (by rw [hc]; simp) hp3 hfb
      cases inc with
      | none =>
        simp only [evalStep, Option.some.injEq, Prod.mk.injEq] at he
        obtain ⟨-, rfl⟩ := he
        exact ⟨_, hj m1 (by rw [hp]; simp [stepOf]), hd.pc _, rfl⟩
      | some z =>
        simp only [evalStep] at he
        simp only [okO] at hoi
        have hhm : Here isLocal y (emitS isLocal b (condOf ⟨.end, l⟩ c g).2).2 s1 m1 := by
          have h4 := hh.done hd (Fix.refl g)
          have hdd : ∀ id, dom isLocal s1 id = true → (emitS isLocal b (condOf ⟨.end, l⟩ c g).2).2.table id = g.table id := fun id h => hTb id (by rw [← hd.dom id]; exact h)
          exact ⟨by rw [hgr.2 hsb, hfx.scope]; exact geo_move h4.geo hdd (Nat.le_refl _), vals_move h4.vals hdd, h4.base, h4.sp⟩
        obtain ⟨m2, r2, p2, d2⟩ := void_ok cx (pre := pre ++ ([Instr.label ⟨.beginCycle, l⟩] ++ (condOf ⟨.end, l⟩ c g).1) ++ (emitS isLocal b (condOf ⟨.end, l⟩ c g).2).1)
          (post := [Instr.j ⟨.beginCycle, l⟩, Instr.label ⟨.end, l⟩] ++ post) (okX_of hoi) hst2 hhm he hten (by rw [hc]; simp [stepOf]) hp
        refine ⟨_, r2.trans (hj m2 (by rw [p2]; simp [stepOf])), ?_, rfl⟩
        refine (hd.trans (done_move d2 (fun id h => (hTb id (by rw [← hd.dom id]; exact h)).symm))).pc _)
    k s flow s' m hh.refl hpc hev
  cases flow with
  | brk => exact p1.elim
  | cont => exact p1.elim
  | ret v => exact ⟨m1, r1, i1, p1⟩
  | normal =>
    have hl := reach_label hce p1
    refine ⟨_, r1.trans hl, i1.pc _, ?_⟩
    have p1 : m1.pc = _ := p1
    show m1.pc + 1 = _
    rw [p1]; simp; omega

/-- `do`. -/
theorem do_core (cx : Ctx isLocal y call TG room code) {n k l : Nat} {b : Stmt} {c : Exp} {g : Enc} {s s' : S} {m : M} {flow : Flow} {pre post : List Instr}
    (hb : SOk isLocal y call par pos TG code n b) (hob : okS par pos b = true) (hsb : single b = true) (hoc : okE par c = true) (hcn : isConstE c = false)
    (hgc : g.cont = ⟨.next, l⟩) (hgb : g.brk = ⟨.end, l⟩) (hst : Stat isLocal par pos TG g) (hh : Here isLocal y g s m)
    (hfr : ∀ id ∈ declsS b, isLocal id = true ∧ s.var id = none) (hnd : (declsS b).Nodup) (hlo : (emitS isLocal b g).2.maxd ≤ y.lo)
    (hten : (emitE c (emitS isLocal b g).2).2.2.busy 10 = false) (hfin : ⟨.funcEnd, g.fn⟩ ∈ labs code)
    (hc : code = pre ++ ([Instr.label ⟨.beginCycle, l⟩] ++ (emitS isLocal b g).1 ++ [Instr.label ⟨.next, l⟩] ++ (emitE c (emitS isLocal b g).2).1 ++
      condBranch .ne (emitE c (emitS isLocal b g).2).2.1 ⟨.beginCycle, l⟩ ++ [Instr.label ⟨.end, l⟩]) ++ post)
    (hpc : m.pc = pre.length) (hev : loopB (execS isLocal call n b) (evalE isLocal call c) k s = some (flow, s')) :
    ∃ m', Reach code m m' ∧ Done isLocal y (fun _ => False) g.table s s' m m' ∧ LoopEnd code g.fn (pre ++ ([Instr.label ⟨.beginCycle, l⟩] ++ (emitS isLocal b g).1 ++ [Instr.label ⟨.next, l⟩] ++
      (emitE c (emitS isLocal b g).2).1 ++ condBranch .ne (emitE c (emitS isLocal b g).2).2.1 ⟨.beginCycle, l⟩ ++ [Instr.label ⟨.end, l⟩])).length m' flow := by
  have hgr := growS isLocal b g hob
  have hrb := runS par false isLocal b g hst.tabs (fun h => by cases h)
  have hst2 : Stat isLocal par pos TG (emitS isLocal b g).2 := hst.grow hgr.1 hrb.tabs (fun id hd => (hfr id hd).1)
  have hten2 := flag_mono (useE par false c _ hrb.tabs (fun h => by cases h)).1 hten
  have hTb : ∀ id, dom isLocal s id = true → (emitS isLocal b g).2.table id = g.table id := fun id hd => hgr.1.table id (fresh_dom hfr hd)
  generalize hB : condBranch .ne (emitE c (emitS isLocal b g).2).2.1 ⟨.beginCycle, l⟩ = B at *
  have hcb : code = pre ++ Instr.label ⟨.beginCycle, l⟩ :: ((emitS isLocal b g).1 ++ [Instr.label ⟨.next, l⟩] ++ (emitE c (emitS isLocal b g).2).1 ++ B ++ [Instr.label ⟨.end, l⟩] ++ post) := by rw [hc]; simp
  have hcn' : code = (pre ++ ([Instr.label ⟨.beginCycle, l⟩] ++ (emitS isLocal b g).1)) ++ Instr.label ⟨.next, l⟩ :: ((emitE c (emitS isLocal b g).2).1 ++ B ++ [Instr.label ⟨.end, l⟩] ++ post) := by rw [hc]; simp
  have hce : code = (pre ++ ([Instr.label ⟨.beginCycle, l⟩] ++ (emitS isLocal b g).1 ++ [Instr.label ⟨.next, l⟩]) ++ ((emitE c (emitS isLocal b g).2).1 ++ B)) ++ Instr.label ⟨.end, l⟩ :: post := by
    rw [hc]; simp
  have hat : ∀ {q p : List Instr} {l : Label}, code = q ++ .label l :: p → find l code = some q.length := fun {q p l} h => by
    have ho := cx.once
    rw [h] at ho ⊢
    exact find_at ho
  have hmb : ∀ {q p : List Instr} {l : Label}, code = q ++ .label l :: p → l ∈ labs code := fun {q p l} h => by rw [h]; simp [labs, puts]
  have hpos1 : (pre ++ [Instr.label ⟨.beginCycle, l⟩]).length = pre.length + 1 := by simp
  obtain ⟨m1, r1, i1, p1⟩ := loopB_ok (code := code) (I := fun s2 m2 => Done isLocal y (fun _ => False) g.table s s2 m m2) (pb := pre.length)
    (pn := (pre ++ ([Instr.label ⟨.beginCycle, l⟩] ++ (emitS isLocal b g).1)).length)
    (ps := (pre ++ ([Instr.label ⟨.beginCycle, l⟩] ++ (emitS isLocal b g).1 ++ [Instr.label ⟨.next, l⟩]) ++ ((emitE c (emitS isLocal b g).2).1 ++ B)).length)
    (R := fun v m => find ⟨.funcEnd, g.fn⟩ code = some m.pc ∧ ∀ u, v = some u → stands u (m.reg R_V0)) (test := evalE isLocal call c) (body := execS isLocal call n b)
    (by
      intro s1 f s2 m1 hd hp he
      have hl := reach_label hcb hp
      obtain ⟨m2, w⟩ := hb g s1 s2 { m1 with pc := m1.pc + 1 } f (pre ++ [Instr.label ⟨.beginCycle, l⟩])
        ([Instr.label ⟨.next, l⟩] ++ (emitE c (emitS isLocal b g).2).1 ++ B ++ [Instr.label ⟨.end, l⟩] ++ post)
        ⟨hst, (hh.done hd (Fix.refl g)).pc _, fun id hid => ⟨(hfr id hid).1, by
            have := hd.var id
            rw [(hfr id hid).2] at this
            exact Option.isNone_iff_eq_none.1 (by simpa using this)⟩, hnd, hlo, hten2, fun _ => by rw [hgb]; exact hmb hce, fun _ => by rw [hgc]; exact hmb hcn', hfin⟩
        (by rw [hc]; simp) (by simp [hp]) he
      rw [show newS b = [] from by simp [newS, hsb]] at w
      refine ⟨m2, hl.trans w.reach, (hd.pc _).trans w.same, ?_⟩
      have := w.there
      cases f with
      | normal =>
        have this : m2.pc = _ := this
        show m2.pc = _
        rw [this]; simp
      | brk =>
        have := this.2
        rw [hgb, hat hce] at this
        exact (Option.some.inj this).symm
      | cont =>
        have := this.2
        rw [hgc, hat hcn'] at this
        exact ⟨(Option.some.inj this).symm, trivial⟩
      | ret v => exact this)
    (by
      intro s1 v t s2 m1 hd hp he ht
      have hl := reach_label hcn' hp
      have hhm : Here isLocal y (emitS isLocal b g).2 s1 m1 := by
        have h4 := hh.done hd (Fix.refl g)
        have hdd : ∀ id, dom isLocal s1 id = true → (emitS isLocal b g).2.table id = g.table id := fun id h => hTb id (by rw [← hd.dom id]; exact h)
        exact ⟨by rw [hgr.2 hsb]; exact geo_move h4.geo hdd (Nat.le_refl _), vals_move h4.vals hdd, h4.base, h4.sp⟩
      obtain ⟨m2, r2, p2, d2⟩ := cond_ne cx (pre := pre ++ ([Instr.label ⟨.beginCycle, l⟩] ++ (emitS isLocal b g).1 ++ [Instr.label ⟨.next, l⟩])) (post := [Instr.label ⟨.end, l⟩] ++ post)
        (l := ⟨.beginCycle, l⟩) hoc hcn hst2 (hhm.pc (m1.pc + 1)) he ht hten (by rw [hB, hc]; simp) (by simp [hp]; omega) (hat hcb)
      rw [hB] at p2
      exact ⟨m2, hl.trans r2, (hd.pc (m1.pc + 1)).trans (done_move d2 (fun id h => (hTb id (by rw [← hd.dom id]; exact h)).symm)), p2⟩)
    k s flow s' m hh.refl hpc hev
  cases flow with
  | brk => exact p1.elim
  | cont => exact p1.elim
  | ret v => exact ⟨m1, r1, i1, p1⟩
  | normal =>
    have hl := reach_label hce p1
    refine ⟨_, r1.trans hl, i1.pc _, ?_⟩
    have p1 : m1.pc = _ := p1
    show m1.pc + 1 = _
    rw [p1]; simp; omega

end

end RuC.Mips
