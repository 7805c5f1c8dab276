import Verif.Mips.LoopOk

/-!
# Lemmas: the text of every statement does what the statement does
-/

namespace RuC.Mips
open Llvm (Ty Arith Cmp Un Inc Exp Args Stmt Stmts Func V World S Flow arithV unV incV fit evalE evalA execS execB execD leave Calls loopT loopB evalOpt evalStep)

section
variable {isLocal : Nat → Bool} {y : Lay} {call : Calls} {par : Nat → Bool} {pos : Nat → Option Nat} {TG : Nat → Lv} {room : Nat} {code : List Instr}

theorem at_label (cx : Ctx isLocal y call TG room code) {q p : List Instr} {l : Label} (h : code = q ++ .label l :: p) : find l code = some q.length := by
  have ho := cx.once
  rw [h] at ho ⊢
  exact find_at ho

theorem in_labs {q p : List Instr} {l : Label} (h : code = q ++ .label l :: p) : l ∈ labs code := by rw [h]; simp [labs, puts]

theorem Where.to {e e1 : Enc} {sb sc sb1 sc1 : Bool} {n n1 : Nat} {m : M} {flow : Flow} (h : Where code e1 sb1 sc1 n1 m flow) (hb : e1.brk = e.brk) (hc : e1.cont = e.cont) (hf : e1.fn = e.fn)
    (hsb : sb1 = true → sb = true) (hsc : sc1 = true → sc = true) (hn : flow = .normal → n1 = n) : Where code e sb sc n m flow := by
  cases flow with
  | normal => have h : m.pc = n1 := h; rw [hn rfl] at h; exact h
  | brk => exact ⟨hsb h.1, by rw [← hb]; exact h.2⟩
  | cont => exact ⟨hsc h.1, by rw [← hc]; exact h.2⟩
  | ret v => exact ⟨by rw [← hf]; exact h.1, h.2⟩

theorem LoopEnd.there {e : Enc} {sb sc : Bool} {n : Nat} {m : M} {flow : Flow} (h : LoopEnd code e.fn n m flow) : Where code e sb sc n m flow := by
  cases flow with
  | normal => exact h
  | brk => exact h.elim
  | cont => exact h.elim
  | ret v => exact h

/-- `return` with a value. -/
theorem ret_ok (cx : Ctx isLocal y call TG room code) {x : Exp} {n : Nat} (hk : okRet par pos x = true) : SOk isLocal y call par pos TG code n (.return_ (some x)) := by
  intro e s s' m flow pre post hr hc hpc hev
  have hgr := growS (par := par) (pos := pos) isLocal (.return_ (some x)) e hk
  simp only [execS, Option.bind_eq_bind, Option.bind_eq_some_iff, Option.some.injEq, Prod.mk.injEq] at hev
  obtain ⟨⟨v, s1⟩, h1, u, hu, rfl, rfl⟩ := hev
  simp only at hu h1
  subst hu
  have hten := hr.ten
  simp only [emitS] at hten hc
  have h10 : (emitE x e).2.2.busy 10 = false := by
    rw [free_10 (useE par false x e hr.stat.tabs (fun h => by cases h)).2.new] at hten
    exact flag_mono (use_store false (emitE x e).2.2 (l := .reg R_V0) (.inl rfl) (v := (emitE x e).2.1) (fun h => by cases h)) hten
  have hno : ∀ r, Lv.reg R_V0 = .reg r → (emitE x e).2.1.isConst = true → (emitE x e).2.1.num ≠ r := fun r hr hcn => by
    cases hr
    rw [isConst_eq] at hcn
    unfold okRet at hk
    split at hk
    · simpa [emitE, Rv.num, R_V0] using hk
    · rename_i b
      cases b <;> simp [emitE, Rv.num, R_V0]
    · rw [hcn] at hk
      cases x <;> simp only [okCall, Bool.and_false, Bool.not_true, Bool.or_self, Bool.false_eq_true, Bool.false_or, Bool.and_eq_true, decide_eq_true_eq] at hk
      simp only [isConstE, decide_eq_true_eq] at hcn
      omega
  have hval : okE par x = true ∨ okCall par pos x = true := by
    unfold okRet at hk
    split at hk
    · exact .inl rfl
    · exact .inl rfl
    · simp only [Bool.or_eq_true, Bool.and_eq_true] at hk
      exact hk.imp (fun h => h.1) (fun h => h)
  obtain ⟨m1, r1, p1, d1, v1⟩ := value_ok cx (pre := pre) (post := (store (emitE x e).2.2 (.reg R_V0) (emitE x e).2.1).1 ++ [.j ⟨.funcEnd, e.fn⟩] ++ post) hval hr.stat hr.here h1 h10
    (by rw [hc]; simp) hpc
  obtain ⟨m2, h2, st2, rg2, mm2, -⟩ := store_ok cx.ok (d1.keep.base hr.here.base) (e := (emitE x e).2.2) (p := .reg R_V0) (v1 u rfl) (.inl ⟨R_V0, rfl, by decide⟩) hno
  obtain ⟨r2, p2⟩ := reach_runL (code := code) (pre := pre ++ (emitE x e).1) (post := [.j ⟨.funcEnd, e.fn⟩] ++ post) (by rw [hc]; simp) p1 h2
  obtain ⟨k, hk⟩ := find_mem hr.fin
  have r3 := reach_j (code := code) (post := post) (by rw [hc]; simp) p2 hk
  have hreg : ∀ r, r ≠ R_V0 → r < 8 ∨ 19 ≤ r → m2.reg r = m1.reg r := fun r hne h => rg2 r (fun h' => hne (by cases h'; rfl)) h
  have hmem : ∀ a, m2.mem a = m1.mem a := fun a => mm2 a (fun d b h => by cases h)
  have d2 : Done isLocal y (fun _ => False) e.table s1 s1 m1 m2 := by
    have h4 := hr.here.done d1 (Fix.refl e)
    refine ⟨fun id w hw hx => ?_, ⟨hreg _ (by decide) (.inr (by decide)), hreg _ (by decide) (.inr (by decide)), hreg _ (by decide) (.inr (by decide)),
      fun r h1 h2 _ => hreg r (by simp only [R_V0]; omega) (.inl h2), fun a _ => hmem a⟩, fun _ => rfl, fun _ => rfl⟩
    have h5 := h4.vals id w hw hx
    have h6 := h4.geo.fits id (val_dom hw)
    generalize e.table id = p at *
    cases p with
    | reg r =>
      simp only [Lay.fits] at h6
      simp only [Lay.at] at h5 ⊢
      rw [hreg r (by simp only [R_V0]; omega) (by omega)]
      exact h5
    | stack d b =>
      simp only [Lay.at] at h5 ⊢
      rw [hmem]; exact h5
  exact ⟨_, Went.of_done hr hgr.1 (hgr.2 rfl) (r1.trans (r2.trans r3)) ((d1.trans d2).pc k) ⟨hk, fun w hw => by cases hw; exact st2⟩⟩

/-- `if` without `else`. -/
theorem if_ok (cx : Ctx isLocal y call TG room code) {c : Exp} {a : Stmt} {n : Nat} (hk : okS par pos (.if_ c a) = true) (ha : SOk isLocal y call par pos TG code n a) :
    SOk isLocal y call par pos TG code n (.if_ c a) := by
  intro e s s' m flow pre post hr hc hpc hev
  have hgr := growS (par := par) (pos := pos) isLocal (.if_ c a) e hk
  simp only [okS, Bool.and_eq_true] at hk
  simp only [execS, Option.bind_eq_bind, Option.bind_eq_some_iff] at hev
  obtain ⟨⟨v, s1⟩, h1, t, ⟨u, hu, ht⟩, hev⟩ := hev
  simp only at hu h1 hev
  subst hu
  have hten := hr.ten
  have hlo := hr.lo
  simp only [emitS] at hten hc hlo
  have hfx : Fix e (freeRvalue { (emitE c e).2.2 with lab := (emitE c e).2.2.lab + 1 } (emitE c e).2.1) :=
      Fix.trans (b := { (emitE c e).2.2 with lab := (emitE c e).2.2.lab + 1 }) ⟨(fixE c e).table, (fixE c e).scope, (fixE c e).maxd, (fixE c e).gdispl⟩ (same_freeR _ _).fix
  have hst1 := hr.stat.fix hfx
  have hsm := same_freeR { (emitE c e).2.2 with lab := (emitE c e).2.2.lab + 1 } (emitE c e).2.1
  have hpE := pieceE c e
  have hb1 := hsm.brk.trans hpE.brk
  have hc1 := hsm.cont.trans hpE.cont
  have hf1 := hsm.fn.trans hpE.fn
  have hra := runS par false isLocal a _ hst1.tabs (fun h => by cases h)
  have hten1 := flag_mono hra.use hten
  have hend : code = (pre ++ ((emitE c e).1 ++ condBranch .eq (emitE c e).2.1 ⟨.end, (emitE c e).2.2.lab⟩) ++
      (emitS isLocal a (freeRvalue { (emitE c e).2.2 with lab := (emitE c e).2.2.lab + 1 } (emitE c e).2.1)).1) ++ .label ⟨.end, (emitE c e).2.2.lab⟩ :: post := by rw [hc]; simp
  have hfe := at_label cx hend
  obtain ⟨m1, r1, p1, d1⟩ := cond_ok cx (pre := pre) (post := (emitS isLocal a (freeRvalue { (emitE c e).2.2 with lab := (emitE c e).2.2.lab + 1 } (emitE c e).2.1)).1 ++
    [.label ⟨.end, (emitE c e).2.2.lab⟩] ++ post) hk.1.1 hr.stat hr.here h1 ht (ten_cond hr.stat.tabs _ hten1) (by rw [hc]; simp) hpc hfe
  cases t with
  | false =>
    simp only [Bool.false_eq_true, if_false, Option.some.injEq, Prod.mk.injEq] at hev p1
    obtain ⟨rfl, rfl⟩ := hev
    have r2 := reach_label hend p1
    refine ⟨_, Went.of_done hr hgr.1 (hgr.2 rfl) (r1.trans r2) (d1.pc _) ?_⟩
    show m1.pc + 1 = _
    rw [p1]; simp [emitS]; omega
  | true =>
    simp only [if_true] at hev p1
    obtain ⟨m2, w⟩ := ha _ s1 s' m1 flow _ (.label ⟨.end, (emitE c e).2.2.lab⟩ :: post)
      ⟨hst1, hr.here.done d1 hfx, fun id hid => ⟨(hr.fresh id hid).1, by
            have := d1.var id
            rw [(hr.fresh id hid).2] at this
            exact Option.isNone_iff_eq_none.1 (by simpa using this)⟩, hr.nodup, hlo, hten, by rw [hb1]; exact hr.brk, by rw [hc1]; exact hr.cont, by rw [hf1]; exact hr.fin⟩
      hend p1 hev
    rw [show newS a = [] from by simp [newS, hk.1.2]] at w
    have d2 := w.same
    rw [hfx.table] at d2
    have d := d1.trans d2
    by_cases hf : flow = .normal
    · subst hf
      have p2 : m2.pc = _ := w.there
      refine ⟨_, Went.of_done hr hgr.1 (hgr.2 rfl) (r1.trans (w.reach.trans (reach_label hend p2))) (d.pc _) ?_⟩
      show m2.pc + 1 = _
      rw [p2]; simp [emitS]; omega
    · exact ⟨m2, Went.of_done hr hgr.1 (hgr.2 rfl) (r1.trans w.reach) d (w.there.to hb1 hc1 hf1 (fun h => h) (fun h => h) (fun h => absurd h hf))⟩

/-- `if` with `else`. -/
theorem ifElse_ok (cx : Ctx isLocal y call TG room code) {c : Exp} {a b : Stmt} {n : Nat} (hk : okS par pos (.ifElse c a b) = true) (ha : SOk isLocal y call par pos TG code n a)
    (hb : SOk isLocal y call par pos TG code n b) : SOk isLocal y call par pos TG code n (.ifElse c a b) := by
  intro e s s' m flow pre post hr hc hpc hev
  have hgr := growS (par := par) (pos := pos) isLocal (.ifElse c a b) e hk
  simp only [okS, Bool.and_eq_true] at hk
  simp only [execS, Option.bind_eq_bind, Option.bind_eq_some_iff] at hev
  obtain ⟨⟨v, s1⟩, h1, t, ⟨u, hu, ht⟩, hev⟩ := hev
  simp only at hu h1 hev
  subst hu
  have hten := hr.ten
  have hlo := hr.lo
  simp only [emitS] at hten hc hlo
  have hfx : Fix e (freeRvalue { (emitE c e).2.2 with lab := (emitE c e).2.2.lab + 1 } (emitE c e).2.1) :=
      Fix.trans (b := { (emitE c e).2.2 with lab := (emitE c e).2.2.lab + 1 }) ⟨(fixE c e).table, (fixE c e).scope, (fixE c e).maxd, (fixE c e).gdispl⟩ (same_freeR _ _).fix
  have hst1 := hr.stat.fix hfx
  have hsm := same_freeR { (emitE c e).2.2 with lab := (emitE c e).2.2.lab + 1 } (emitE c e).2.1
  have hpE := pieceE c e
  have hb1 := hsm.brk.trans hpE.brk
  have hc1 := hsm.cont.trans hpE.cont
  have hf1 := hsm.fn.trans hpE.fn
  generalize hg : freeRvalue { (emitE c e).2.2 with lab := (emitE c e).2.2.lab + 1 } (emitE c e).2.1 = g at *
  have hra := runS par false isLocal a g hst1.tabs (fun h => by cases h)
  have hga := growS isLocal a g hk.1.2
  have hpa := pieceS isLocal a g
  unfold PieceS at hpa
  have hrb := runS par false isLocal b (emitS isLocal a g).2 hra.tabs (fun h => by cases h)
  have hgb := growS isLocal b (emitS isLocal a g).2 hk.2
  have htena := flag_mono hrb.use hten
  have hten1 := flag_mono hra.use htena
  have hfr := hr.fresh
  have hnd := hr.nodup
  simp only [declsS, List.mem_append, List.nodup_append] at hfr hnd
  have hels : code = (pre ++ ((emitE c e).1 ++ condBranch .eq (emitE c e).2.1 ⟨.else, (emitE c e).2.2.lab⟩) ++ (emitS isLocal a g).1 ++ [.j ⟨.end, (emitE c e).2.2.lab⟩]) ++
      .label ⟨.else, (emitE c e).2.2.lab⟩ :: ((emitS isLocal b (emitS isLocal a g).2).1 ++ .label ⟨.end, (emitE c e).2.2.lab⟩ :: post) := by rw [hc]; simp
  have hend : code = (pre ++ ((emitE c e).1 ++ condBranch .eq (emitE c e).2.1 ⟨.else, (emitE c e).2.2.lab⟩) ++ (emitS isLocal a g).1 ++
      [.j ⟨.end, (emitE c e).2.2.lab⟩, .label ⟨.else, (emitE c e).2.2.lab⟩] ++ (emitS isLocal b (emitS isLocal a g).2).1) ++ .label ⟨.end, (emitE c e).2.2.lab⟩ :: post := by rw [hc]; simp
  have hfl := at_label cx hels
  have hfe := at_label cx hend
  have hlast : ∀ m2 : M, m2.pc = (pre ++ ((emitE c e).1 ++ condBranch .eq (emitE c e).2.1 ⟨.else, (emitE c e).2.2.lab⟩) ++ (emitS isLocal a g).1 ++
      [Instr.j ⟨.end, (emitE c e).2.2.lab⟩, Instr.label ⟨.else, (emitE c e).2.2.lab⟩] ++ (emitS isLocal b (emitS isLocal a g).2).1).length →
      Reach code m2 { m2 with pc := m2.pc + 1 } ∧ m2.pc + 1 = (pre ++ (emitS isLocal (.ifElse c a b) e).1).length := fun m2 p2 => by
    refine ⟨reach_label hend p2, ?_⟩
    rw [p2]; simp [emitS, hg]; omega
  obtain ⟨m1, r1, p1, d1⟩ := cond_ok cx (pre := pre) (post := (emitS isLocal a g).1 ++ [.j ⟨.end, (emitE c e).2.2.lab⟩, .label ⟨.else, (emitE c e).2.2.lab⟩] ++
    (emitS isLocal b (emitS isLocal a g).2).1 ++ [.label ⟨.end, (emitE c e).2.2.lab⟩] ++ post) hk.1.1.1.1 hr.stat hr.here h1 ht (ten_cond hr.stat.tabs _ (by rw [hg]; exact hten1))
    (by rw [hc]; simp) hpc hfl
  have hf1' : ∀ id, (isLocal id = true ∧ s.var id = none) → isLocal id = true ∧ s1.var id = none := fun id h => ⟨h.1, by
    have := d1.var id
    rw [h.2] at this
    exact Option.isNone_iff_eq_none.1 (by simpa using this)⟩
  have hh1 := hr.here.done d1 hfx
  cases t with
  | false =>
    simp only [Bool.false_eq_true, if_false] at hev p1
    have r2 := reach_label hels p1
    have hT : ∀ id, dom isLocal s1 id = true → (emitS isLocal a g).2.table id = e.table id := fun id hd => by
      rw [hga.1.table id (fresh_dom (D := declsS a) (s := s1) (fun id h => hf1' id (hfr id (.inl h))) hd), hfx.table]
    have hst2 : Stat isLocal par pos TG (emitS isLocal a g).2 := hst1.grow hga.1 hra.tabs (fun id h => (hfr id (.inl h)).1)
    have hh2 : Here isLocal y (emitS isLocal a g).2 s1 { m1 with pc := m1.pc + 1 } := by
      have h4 := hh1.pc (m1.pc + 1)
      have hT' : ∀ id, dom isLocal s1 id = true → (emitS isLocal a g).2.table id = g.table id := fun id hd => by rw [hT id hd, hfx.table]
      exact ⟨by rw [hga.2 hk.1.1.1.2]; exact geo_move h4.geo hT' (Nat.le_refl _), vals_move h4.vals hT', h4.base, h4.sp⟩
    obtain ⟨m2, w⟩ := hb _ s1 s' _ flow (pre ++ ((emitE c e).1 ++ condBranch .eq (emitE c e).2.1 ⟨.else, (emitE c e).2.2.lab⟩) ++ (emitS isLocal a g).1 ++
      [.j ⟨.end, (emitE c e).2.2.lab⟩, .label ⟨.else, (emitE c e).2.2.lab⟩]) (.label ⟨.end, (emitE c e).2.2.lab⟩ :: post)
      ⟨hst2, hh2, fun id h => hf1' id (hfr id (.inr h)), hnd.2.1, hlo, hten, fun h => by rw [hpa.brk, hb1]; exact hr.brk (by simp [strayBreak, h]),
        fun h => by rw [hpa.cont, hc1]; exact hr.cont (by simp [strayCont, h]), by rw [hpa.fn, hf1]; exact hr.fin⟩ hend (by simp [p1]; omega) hev
    rw [show newS b = [] from by simp [newS, hk.1.1.2]] at w
    have d2 := done_move w.same (T' := e.table) (fun id hd => (hT id hd).symm)
    have d := (d1.pc (m1.pc + 1)).trans d2
    by_cases hf : flow = .normal
    · subst hf
      obtain ⟨r3, p3⟩ := hlast m2 w.there
      exact ⟨_, Went.of_done hr hgr.1 (hgr.2 rfl) (r1.trans (r2.trans (w.reach.trans r3))) (d.pc _) p3⟩
    · exact ⟨m2, Went.of_done hr hgr.1 (hgr.2 rfl) (r1.trans (r2.trans w.reach)) d (w.there.to (hpa.brk.trans hb1) (hpa.cont.trans hc1) (hpa.fn.trans hf1)
        (fun h => by simp [strayBreak, h]) (fun h => by simp [strayCont, h]) (fun h => absurd h hf))⟩
  | true =>
    simp only [if_true] at hev p1
    obtain ⟨m2, w⟩ := ha g s1 s' m1 flow _ ([.j ⟨.end, (emitE c e).2.2.lab⟩, .label ⟨.else, (emitE c e).2.2.lab⟩] ++ (emitS isLocal b (emitS isLocal a g).2).1 ++
      .label ⟨.end, (emitE c e).2.2.lab⟩ :: post)
      ⟨hst1, hh1, fun id h => hf1' id (hfr id (.inl h)), hnd.1, Nat.le_trans hgb.1.maxd hlo, htena, fun h => by rw [hb1]; exact hr.brk (by simp [strayBreak, h]),
        fun h => by rw [hc1]; exact hr.cont (by simp [strayCont, h]), by rw [hf1]; exact hr.fin⟩ (by rw [hc]; simp) p1 hev
    rw [show newS a = [] from by simp [newS, hk.1.1.1.2]] at w
    have d2 := w.same
    rw [hfx.table] at d2
    have d := d1.trans d2
    by_cases hf : flow = .normal
    · subst hf
      have r3 := reach_j (code := code) (post := .label ⟨.else, (emitE c e).2.2.lab⟩ :: ((emitS isLocal b (emitS isLocal a g).2).1 ++ .label ⟨.end, (emitE c e).2.2.lab⟩ :: post))
        (by rw [hc]; simp) w.there hfe
      obtain ⟨r4, p4⟩ := hlast { m2 with pc := _ } rfl
      exact ⟨_, Went.of_done hr hgr.1 (hgr.2 rfl) (r1.trans (w.reach.trans (r3.trans r4))) (d.pc _) p4⟩
    · exact ⟨m2, Went.of_done hr hgr.1 (hgr.2 rfl) (r1.trans w.reach) d (w.there.to hb1 hc1 hf1 (fun h => by simp [strayBreak, h]) (fun h => by simp [strayCont, h]) (fun h => absurd h hf))⟩

/-- `while`. -/
theorem while_ok (cx : Ctx isLocal y call TG room code) {c : Exp} {b : Stmt} {n : Nat} (hk : okS par pos (.while_ c b) = true) (hb : SOk isLocal y call par pos TG code n b) :
    SOk isLocal y call par pos TG code n (.while_ c b) := by
  intro e s s' m flow pre post hr hc hpc hev
  have hgr := growS (par := par) (pos := pos) isLocal (.while_ c b) e hk
  simp only [okS, Bool.and_eq_true] at hk
  have hg : Fix e { e with lab := e.lab + 1, cont := ⟨.beginCycle, e.lab⟩, brk := ⟨.end, e.lab⟩ } := ⟨rfl, rfl, rfl, rfl⟩
  obtain ⟨m', r, d, w⟩ := for_core cx (n := n) (k := n) (l := e.lab) (b := b) (c := some c) (inc := none) (g := { e with lab := e.lab + 1, cont := ⟨.beginCycle, e.lab⟩, brk := ⟨.end, e.lab⟩ })
    (flow := flow) (s := s) (s' := s') (m := m) (pre := pre) (post := post) hb hk.2 hk.1.2 hk.1.1 rfl rfl rfl rfl (hr.stat.fix hg) (hr.here.done hr.here.refl hg) hr.fresh hr.nodup hr.lo hr.ten hr.fin
    (by rw [hc]; simp [emitS, condOf, stepOf]) hpc hev
  refine ⟨m', Went.of_done hr hgr.1 (hgr.2 rfl) r d (LoopEnd.there (e := e) ?_)⟩
  simpa [emitS, condOf, stepOf] using w

/-- `do`. -/
theorem do_ok (cx : Ctx isLocal y call TG room code) {c : Exp} {b : Stmt} {n : Nat} (hk : okS par pos (.do_ b c) = true) (hb : SOk isLocal y call par pos TG code n b) :
    SOk isLocal y call par pos TG code n (.do_ b c) := by
  intro e s s' m flow pre post hr hc hpc hev
  have hgr := growS (par := par) (pos := pos) isLocal (.do_ b c) e hk
  simp only [okS, Bool.and_eq_true, Bool.not_eq_true'] at hk
  have hg : Fix e { e with lab := e.lab + 1, cont := ⟨.next, e.lab⟩, brk := ⟨.end, e.lab⟩ } := ⟨rfl, rfl, rfl, rfl⟩
  have hst := hr.stat.fix hg
  have hrb := runS par false isLocal b _ hst.tabs (fun h => by cases h)
  have hlo := hr.lo
  have hten := hr.ten
  simp only [emitS] at hlo hten
  rw [(same_freeR _ _).fix.maxd, (fixE c _).maxd] at hlo
  obtain ⟨m', r, d, w⟩ := do_core cx (n := n) (k := n) (l := e.lab) (b := b) (c := c) (g := { e with lab := e.lab + 1, cont := ⟨.next, e.lab⟩, brk := ⟨.end, e.lab⟩ })
    (flow := flow) (s := s) (s' := s') (m := m) (pre := pre) (post := post) hb hk.2 hk.1.2 hk.1.1.1 hk.1.1.2 rfl rfl hst (hr.here.done hr.here.refl hg) hr.fresh hr.nodup hlo
    (ten_free hrb.tabs hten) hr.fin (by rw [hc]; simp [emitS]) hpc hev
  refine ⟨m', Went.of_done hr hgr.1 (hgr.2 rfl) r d (LoopEnd.there (e := e) ?_)⟩
  simpa [emitS] using w

theorem newS_sub {st : Stmt} {id : Nat} (h : id ∈ newS st) : id ∈ declsS st := by
  unfold newS at h
  split at h
  · cases h
  · exact h

/-- What is declared behind a statement is still not there behind it. -/
theorem Went.fresh {N D : List Nat} {sb sc : Bool} {e e' : Enc} {n : Nat} {s s' : S} {m m' : M} {flow : Flow} (w : Went isLocal y code N sb sc e e' n s s' m m' flow)
    (h : ∀ id ∈ D, isLocal id = true ∧ s.var id = none) (hd : ∀ id ∈ D, id ∉ N) : ∀ id ∈ D, isLocal id = true ∧ s'.var id = none := fun id hid => ⟨(h id hid).1, by
  cases hv : s'.var id with
  | none => rfl
  | some z =>
    rcases w.only id (by rw [hv]; rfl) with h' | h'
    · rw [(h id hid).2] at h'; cases h'
    · exact absurd h' (hd id hid)⟩

/-- `for`. -/
theorem for_ok (cx : Ctx isLocal y call TG room code) {i : Stmt} {c inc : Option Exp} {b : Stmt} {n : Nat} (hk : okS par pos (.for_ i c inc b) = true)
    (hi : SOk isLocal y call par pos TG code n i) (hb : SOk isLocal y call par pos TG code n b) : SOk isLocal y call par pos TG code n (.for_ i c inc b) := by
  intro e s s' m flow pre post hr hc hpc hev
  have hgr := growS (par := par) (pos := pos) isLocal (.for_ i c inc b) e hk
  simp only [okS, Bool.and_eq_true] at hk
  simp only [execS, Option.bind_eq_bind, Option.bind_eq_some_iff] at hev
  obtain ⟨⟨f, s1⟩, h1, hev⟩ := hev
  simp only at h1 hev
  split at hev
  · rename_i hf
    subst hf
    simp only [Option.bind_eq_some_iff, Option.some.injEq, Prod.mk.injEq] at hev
    obtain ⟨⟨f, s2⟩, h2, rfl, rfl⟩ := hev
    simp only at h2 ⊢
    have hlo := hr.lo
    have hten := hr.ten
    have hfr := hr.fresh
    have hnd := hr.nodup
    simp only [declsS, List.mem_append, List.nodup_append] at hfr hnd
    have htx : (emitS isLocal (.for_ i c inc b) e).1 = (emitS isLocal (.for_ i c inc b) e).1 := rfl
    conv at htx => rhs; simp only [emitS]
    simp only [emitS] at hlo hten hc
    have hgi := growS isLocal i e hk.1.1.1.1.1
    have hri := runS par false isLocal i e hr.stat.tabs (fun h => by cases h)
    have hpi := pieceS isLocal i e
    unfold PieceS at hpi
    have hst1 : Stat isLocal par pos TG (emitS isLocal i e).2 := hr.stat.grow hgi.1 hri.tabs (fun id h => (hfr id (.inl h)).1)
    generalize hG : (⟨(emitS isLocal i e).2.busy, (emitS isLocal i e).2.lab + 1, (emitS isLocal i e).2.caseLab, ⟨.end, (emitS isLocal i e).2.lab⟩, ⟨.beginCycle, (emitS isLocal i e).2.lab⟩,
      (emitS isLocal i e).2.fn, (emitS isLocal i e).2.scope, (emitS isLocal i e).2.maxd, (emitS isLocal i e).2.gdispl, (emitS isLocal i e).2.table⟩ : Enc) = g at hlo hten hc htx
    have hg : Fix (emitS isLocal i e).2 g := by rw [← hG]; exact ⟨rfl, rfl, rfl, rfl⟩
    have hgb : g.brk = ⟨.end, (emitS isLocal i e).2.lab⟩ := by rw [← hG]
    have hgc : g.cont = ⟨.beginCycle, (emitS isLocal i e).2.lab⟩ := by rw [← hG]
    have hgf : g.fn = (emitS isLocal i e).2.fn := by rw [← hG]
    have hgu : g.busy = (emitS isLocal i e).2.busy := by rw [← hG]
    clear hG
    generalize (emitS isLocal i e).2.lab = l at *
    have hstg := hst1.fix hg
    have hfc := fix_condOf ⟨.end, l⟩ c g
    have hrc := run_condOf (t := false) ⟨.end, l⟩ c hstg.tabs (fun h => by cases h)
    have hgrb := growS isLocal b (condOf ⟨.end, l⟩ c g).2 hk.1.2
    have hrb := runS par false isLocal b _ hrc.tabs (fun h => by cases h)
    have hrz := run_stepOf (t := false) inc hrb.tabs (fun h => by cases h)
    have hti := flag_mono hrc.use (flag_mono hrb.use (flag_mono hrz.use hten))
    rw [hgu] at hti
    have hmi : (emitS isLocal i e).2.maxd ≤ y.lo := by
      have h3 := (fix_stepOf inc (emitS isLocal b (condOf ⟨.end, l⟩ c g).2).2).maxd
      have h4 := hgrb.1.maxd
      have h5 := hfc.maxd
      have h6 := hg.maxd
      omega
    obtain ⟨m1, w1⟩ := hi e s s1 m .normal pre ([.label ⟨.beginCycle, l⟩] ++ (condOf ⟨.end, l⟩ c g).1 ++ (emitS isLocal b (condOf ⟨.end, l⟩ c g).2).1 ++
      (stepOf inc (emitS isLocal b (condOf ⟨.end, l⟩ c g).2).2).1 ++ [.j ⟨.beginCycle, l⟩, .label ⟨.end, l⟩] ++ post)
      ⟨hr.stat, hr.here, fun id h => hfr id (.inl h), hnd.1, hmi, hti, hr.brk, hr.cont, hr.fin⟩ (by rw [hc]; simp) hpc h1
    have hh1 := w1.norm rfl
    obtain ⟨m2, r2, d2, e2⟩ := for_core cx (n := n) (k := n) (l := l) (b := b) (c := c) (inc := inc) (g := g) (flow := f) (s := s1) (s' := s2) (m := m1) (pre := pre ++ (emitS isLocal i e).1)
      (post := post) hb hk.1.2 hk.1.1.2 hk.1.1.1.1.2 hk.1.1.1.2 hk.2 hgc hgb hstg (hh1.done hh1.refl hg)
      (w1.fresh (fun id h => hfr id (.inr h)) (fun id h h' => hnd.2.2 id (newS_sub h') id h rfl)) hnd.2.1 hlo hten (by rw [hgf, hpi.fn]; exact hr.fin)
      (by rw [hc]; simp) w1.there h2
    rw [hg.table] at d2
    rw [hgf] at e2
    have hs : ∀ id, (s2.var id).isSome = true → (s1.var id).isSome = true := fun id h => by rw [← d2.var id]; exact h
    have w2 : Went isLocal y code [] false false (emitS isLocal i e).2 (emitS isLocal i e).2 (pre ++ (emitS isLocal (.for_ i c inc b) e).1).length s1 s2 m1 m2 f :=
      ⟨r2, by rw [leave_same hs]; exact d2, fun id h => .inl (hs id h), fun _ => hh1.done d2 (Fix.refl _), LoopEnd.there (e := (emitS isLocal i e).2) (by rw [htx]; simpa using e2)⟩
    have w := w1.seq (sb := strayBreak (.for_ i c inc b)) (sc := strayCont (.for_ i c inc b)) w2 (fun id hd => hgi.1.table id (fresh_dom (fun id h => hfr id (.inl h)) hd)) hpi.brk hpi.cont hpi.fn
      (fun h => by cases h) (fun h => by cases h)
    exact ⟨m2, Went.of_done hr hgr.1 (hgr.2 rfl) w.reach w.done w.there⟩
  · cases hev

/-- The text of statements does what the statements do. -/
def BOk (isLocal : Nat → Bool) (y : Lay) (call : Calls) (par : Nat → Bool) (pos : Nat → Option Nat) (TG : Nat → Lv) (code : List Instr) (n : Nat) (b : Stmts) : Prop :=
  ∀ (e : Enc) (s s' : S) (m : M) (flow : Flow) (pre post : List Instr),
    Ready isLocal y par pos TG code (declsB b) (strayBreaks b) (strayConts b) e (emitB isLocal b e).2 s m → code = pre ++ (emitB isLocal b e).1 ++ post → m.pc = pre.length →
    execB isLocal call n b s = some (flow, s') →
    ∃ m', Went isLocal y code (declsB b) (strayBreaks b) (strayConts b) e (emitB isLocal b e).2 (pre ++ (emitB isLocal b e).1).length s s' m m' flow

theorem cons_ok (cx : Ctx isLocal y call TG room code) {a : Stmt} {b : Stmts} {n : Nat} (hk : okS par pos a = true) (hkb : okB par pos b = true) (ha : SOk isLocal y call par pos TG code n a)
    (hb : BOk isLocal y call par pos TG code n b) : BOk isLocal y call par pos TG code n (.cons a b) := by
  intro e s s' m flow pre post hr hc hpc hev
  simp only [execB, Option.bind_eq_bind, Option.bind_eq_some_iff] at hev
  obtain ⟨⟨f, s1⟩, h1, hev⟩ := hev
  simp only at h1 hev
  have hlo := hr.lo
  have hten := hr.ten
  have hfr := hr.fresh
  have hnd := hr.nodup
  simp only [declsB, List.mem_append, List.nodup_append] at hfr hnd
  simp only [emitB] at hlo hten hc ⊢
  have hga := growS isLocal a e hk
  have hra := runS par false isLocal a e hr.stat.tabs (fun h => by cases h)
  have hpa := pieceS isLocal a e
  unfold PieceS at hpa
  have hgb := growB isLocal b (emitS isLocal a e).2 hkb
  have hrb := runB par false isLocal b _ hra.tabs (fun h => by cases h)
  obtain ⟨m1, w1⟩ := ha e s s1 m f pre ((emitB isLocal b (emitS isLocal a e).2).1 ++ post)
    ⟨hr.stat, hr.here, fun id h => hfr id (.inl h), hnd.1, Nat.le_trans hgb.maxd hlo, flag_mono hrb.use hten, fun h => hr.brk (by simp [strayBreaks, h]),
      fun h => hr.cont (by simp [strayConts, h]), hr.fin⟩ (by rw [hc]; simp) hpc h1
  split at hev
  · rename_i hf
    subst hf
    obtain ⟨m2, w2⟩ := hb (emitS isLocal a e).2 s1 s' m1 flow (pre ++ (emitS isLocal a e).1) post
      ⟨hr.stat.grow hga.1 hra.tabs (fun id h => (hfr id (.inl h)).1), w1.norm rfl, w1.fresh (fun id h => hfr id (.inr h)) (fun id h h' => hnd.2.2 id (newS_sub h') id h rfl), hnd.2.1, hlo, hten,
        fun h => by rw [hpa.brk]; exact hr.brk (by simp [strayBreaks, h]), fun h => by rw [hpa.cont]; exact hr.cont (by simp [strayConts, h]), by rw [hpa.fn]; exact hr.fin⟩
      (by rw [hc]; simp) w1.there hev
    have w := w1.seq (sb := strayBreaks (.cons a b)) (sc := strayConts (.cons a b)) w2 (fun id hd => hga.1.table id (fresh_dom (fun id h => hfr id (.inl h)) hd)) hpa.brk hpa.cont hpa.fn
      (fun h => by simp [strayBreaks, h]) (fun h => by simp [strayConts, h])
    rw [List.append_assoc] at w
    refine ⟨m2, { w with only := fun id h => (w.only id h).imp (fun h => h) (fun h => ?_) }⟩
    simp only [declsB, List.mem_append] at h ⊢
    exact h.imp newS_sub (fun h => h)
  · rename_i hf
    simp only [Option.some.injEq, Prod.mk.injEq] at hev
    obtain ⟨rfl, rfl⟩ := hev
    refine ⟨m1, w1.reach, w1.done, fun id h => (w1.only id h).imp (fun h => h) (fun h => ?_), fun h => absurd h hf, ?_⟩
    · simp only [declsB, List.mem_append]
      exact .inl (newS_sub h)
    · exact w1.there.to rfl rfl rfl (fun h => by simp [strayBreaks, h]) (fun h => by simp [strayConts, h]) (fun h => absurd h hf)

mutual
theorem stmt_ok (cx : Ctx isLocal y call TG room code) (n : Nat) : ∀ (st : Stmt), okS par pos st = true → SOk isLocal y call par pos TG code n st
  | .skip, _ => fun e s s' m flow pre post hr hc hpc hev => by
    simp only [execS, Option.some.injEq, Prod.mk.injEq] at hev
    obtain ⟨rfl, rfl⟩ := hev
    exact ⟨m, Went.of_done hr (.of_fix (Fix.refl e)) rfl (Reach.refl ..) hr.here.refl (by simpa [Where, emitS] using hpc)⟩
  | .break_, _ => fun e s s' m flow pre post hr hc hpc hev => by
    simp only [execS, Option.some.injEq, Prod.mk.injEq] at hev
    obtain ⟨rfl, rfl⟩ := hev
    obtain ⟨k, hk⟩ := find_mem (hr.brk rfl)
    exact ⟨_, Went.of_done hr (.of_fix (Fix.refl e)) rfl (reach_j (post := post) (by rw [hc]; simp [emitS]) hpc hk) (hr.here.refl.pc k) ⟨rfl, hk⟩⟩
  | .continue_, _ => fun e s s' m flow pre post hr hc hpc hev => by
    simp only [execS, Option.some.injEq, Prod.mk.injEq] at hev
    obtain ⟨rfl, rfl⟩ := hev
    obtain ⟨k, hk⟩ := find_mem (hr.cont rfl)
    exact ⟨_, Went.of_done hr (.of_fix (Fix.refl e)) rfl (reach_j (post := post) (by rw [hc]; simp [emitS]) hpc hk) (hr.here.refl.pc k) ⟨rfl, hk⟩⟩
  | .return_ none, _ => fun e s s' m flow pre post hr hc hpc hev => by
    simp only [execS, Option.some.injEq, Prod.mk.injEq] at hev
    obtain ⟨rfl, rfl⟩ := hev
    obtain ⟨k, hk⟩ := find_mem hr.fin
    exact ⟨_, Went.of_done hr (.of_fix (Fix.refl e)) rfl (reach_j (post := post) (by rw [hc]; simp [emitS]) hpc hk) (hr.here.refl.pc k) ⟨hk, fun u h => by cases h⟩⟩
  | .return_ (some x), hk => ret_ok cx hk
  | .expr x, hk => fun e s s' m flow pre post hr hc hpc hev => by
    simp only [okS] at hk
    simp only [execS, Option.map_eq_some_iff] at hev
    obtain ⟨⟨v, s1⟩, h1, h2⟩ := hev
    simp only [Prod.mk.injEq] at h2
    obtain ⟨rfl, rfl⟩ := h2
    obtain ⟨m', r, p, d⟩ := void_ok cx hk hr.stat hr.here h1 hr.ten hc hpc
    exact ⟨m', Went.of_done hr (.of_fix (fix_void x e)) (fix_void x e).scope r d p⟩
  | .decls l, hk => fun e s s' m flow pre post hr hc hpc hev => by
    simp only [okS] at hk
    simp only [execS, Option.map_eq_some_iff] at hev
    obtain ⟨s1, h1, h2⟩ := hev
    simp only [Prod.mk.injEq] at h2
    obtain ⟨rfl, rfl⟩ := h2
    exact decls_ok cx l e s s1 m pre post _ _ hk hr hc hpc h1
  | .if_ c a, hk => if_ok cx hk (stmt_ok cx n a (by simp only [okS, Bool.and_eq_true] at hk; exact hk.2))
  | .ifElse c a b, hk => ifElse_ok cx hk (stmt_ok cx n a (by simp only [okS, Bool.and_eq_true] at hk; exact hk.1.2)) (stmt_ok cx n b (by simp only [okS, Bool.and_eq_true] at hk; exact hk.2))
  | .while_ c b, hk => while_ok cx hk (stmt_ok cx n b (by simp only [okS, Bool.and_eq_true] at hk; exact hk.2))
  | .do_ b c, hk => do_ok cx hk (stmt_ok cx n b (by simp only [okS, Bool.and_eq_true] at hk; exact hk.2))
  | .for_ i c inc b, hk => for_ok cx hk (stmt_ok cx n i (by simp only [okS, Bool.and_eq_true] at hk; exact hk.1.1.1.1.1)) (stmt_ok cx n b (by simp only [okS, Bool.and_eq_true] at hk; exact hk.1.2))
  | .block b, hk => fun e s s' m flow pre post hr hc hpc hev => by
    have hgr := growS (par := par) (pos := pos) isLocal (.block b) e hk
    simp only [okS] at hk
    simp only [execS, Option.bind_eq_bind, Option.bind_eq_some_iff, Option.some.injEq, Prod.mk.injEq] at hev
    obtain ⟨⟨f, s1⟩, h1, rfl, rfl⟩ := hev
    simp only at h1 ⊢
    have hlo := hr.lo
    simp only [emitS] at hlo
    obtain ⟨m', w⟩ := block_ok cx n b hk e s s1 m f pre post ⟨hr.stat, hr.here, hr.fresh, hr.nodup, Nat.le_trans (Nat.le_max_right ..) hlo, hr.ten, hr.brk, hr.cont, hr.fin⟩ hc hpc h1
    exact ⟨m', Went.of_done hr hgr.1 (hgr.2 rfl) w.reach w.done w.there⟩
  | .switch_ _ _, hk => by simp [okS] at hk
  | .case_ _ _, hk => by simp [okS] at hk
  | .default_ _, hk => by simp [okS] at hk

theorem block_ok (cx : Ctx isLocal y call TG room code) (n : Nat) : ∀ (b : Stmts), okB par pos b = true → BOk isLocal y call par pos TG code n b
  | .nil, _ => fun e s s' m flow pre post hr hc hpc hev => by
    simp only [execB, Option.some.injEq, Prod.mk.injEq] at hev
    obtain ⟨rfl, rfl⟩ := hev
    exact ⟨m, Went.of_done hr (.of_fix (Fix.refl e)) rfl (Reach.refl ..) hr.here.refl (by simpa [Where, emitB] using hpc)⟩
  | .cons a b, hk => by
    simp only [okB, Bool.and_eq_true] at hk
    exact cons_ok cx hk.1 hk.2 (stmt_ok cx n a hk.1) (block_ok cx n b hk.2)
end

end

end RuC.Mips
