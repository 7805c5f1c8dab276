import Verif.Llvm.Labels

/-!
# Lemmas: functions and units
-/

namespace RuC.Llvm

section
variable {isLocal : Nat → Bool} {call : Calls} {crel : CallRel}

/-! ## Parameters -/

theorem params_ok {code : List Instr} {w : World} : ∀ (ps : List (Nat × Ty)) (vs : List V) (i : Nat) (f var : Nat → Option (Option V)) (fr : Frame) (post : List Instr),
    bind ps vs = some f → fr.args.drop i = vs → Match var fr →
    ∃ fr', Star crel code (emitP i ps ++ post, fr, w) (post, fr', w) ∧ Match (fun j => (f j).or (var j)) fr' ∧ fr'.args = fr.args
  | [], [], i, f, var, fr, post, h, ha, hm => by
    simp only [bind, Option.some.injEq] at h
    subst h
    exact ⟨fr, .refl, by simpa using hm, rfl⟩
  | [], _ :: _, i, f, var, fr, post, h, ha, hm => by simp [bind] at h
  | _ :: _, [], i, f, var, fr, post, h, ha, hm => by simp [bind] at h
  | (id, ty) :: ps, v :: vs, i, f, var, fr, post, h, ha, hm => by
    simp only [bind, Option.bind_eq_bind, Option.bind_eq_some_iff] at h
    obtain ⟨f', h1, h⟩ := h
    split at h
    · rename_i hc
      simp only [Option.some.injEq] at h
      subst h
      have m0 := match_alloca hm id
      obtain ⟨fr1, hs, m1, k1, -⟩ := @set_ok (fun _ => true) ⟨fun j => if j = id then some none else var j, w⟩
        ⟨fun j => if j = id then some (some v) else var j, w⟩ _ id v m0
        (by simp only [S.set, if_true, Option.isSome_some]; congr 2; funext j; by_cases h : j = id <;> simp [h])
      have hargs : fr1.args = fr.args := (k1 0).args
      have hi : fr.args[i]? = some v := by
        have : (fr.args.drop i)[0]? = some v := by rw [ha]; rfl
        simpa using this
      obtain ⟨fr2, t2, m2, e2⟩ := params_ok (code := code) (w := w) ps vs (i + 1) f' _ fr1 post h1
        (by rw [hargs, ← List.drop_drop, ha]; rfl) m1
      refine ⟨fr2, .step .alloca (.step (.param hi hc.1 hs) t2), ?_, e2.trans hargs⟩
      have : (fun j => (if j = id then some (some v) else f' j).or (var j)) = fun j => (f' j).or (if j = id then some (some v) else var j) := by
        funext j
        by_cases hj : j = id
        · subst hj
          have : f' j = none := Option.isNone_iff_eq_none.mp hc.2
          simp [this]
        · simp [hj]
      rw [this]
      exact m2
    · cases h

/-! ## The body of `main` -/

theorem okMain_cons {st : Stmt} {b : Stmts} (h : okMain (.cons st b) = true) :
    (st = .return_ (some (.int 0)) ∧ b = .nil) ∨ (okS true st = true ∧ okMain b = true) := by
  rw [okMain.eq_def] at h
  split at h
  · rename_i h'; cases h'
  · rename_i h'
    cases h'
    simp only [beq_iff_eq] at h
    subst h
    exact Or.inl ⟨rfl, rfl⟩
  · rename_i h'
    cases h'
    simp only [Bool.and_eq_true] at h
    exact Or.inr h

theorem ret_main (isLocal : Nat → Bool) (e : Option Exp) (g : Gen) (h : g.isMain = true) : emitB isLocal none (.cons (.return_ e) .nil) g = ([], g) := by
  simp [emitB, emitS, h, restoreOf, Stmt.isCase, quiet, Out.then]

theorem emitB_one {main : Bool} {st : Stmt} (h : okS main st = true) (g : Gen) : emitB isLocal none (.cons st .nil) g = emitS isLocal st g := by
  simp [emitB, restoreOf, not_case h, quiet, Out.then]

theorem growMain (isLocal : Nat → Bool) : ∀ (b : Stmts), okMain b = true → ∀ (g : Gen), g.isMain = true → GrowS g (emitB isLocal none b g).2
  | .nil, _, g, _ => GrowS.refl g
  | .cons st .nil, h, g, hm => by
    rcases okMain_cons h with ⟨rfl, -⟩ | ⟨h1, -⟩
    · rw [ret_main isLocal _ g hm]; exact GrowS.refl g
    · rw [emitB_one h1]; exact (growS isLocal true st h1 g).1
  | .cons st (.cons st' b), h, g, hm => by
    rcases okMain_cons h with ⟨-, h'⟩ | ⟨h1, h2⟩
    · cases h'
    · rw [emitB_cons]
      have := (growS isLocal true st h1 g).1
      exact this.trans (growMain isLocal (.cons st' b) h2 _ (this.isMain.trans hm))

theorem labMain (isLocal : Nat → Bool) : ∀ (b : Stmts), okMain b = true → ∀ (g : Gen), g.isMain = true → Ran g.label (emitB isLocal none b g).2.label (labels (emitB isLocal none b g).1)
  | .nil, _, g, _ => Ran.nil _ _
  | .cons st .nil, h, g, hm => by
    rcases okMain_cons h with ⟨rfl, -⟩ | ⟨h1, -⟩
    · rw [ret_main isLocal _ g hm]; exact Ran.nil _ _
    · rw [emitB_one h1]; exact labS isLocal true st h1 g
  | .cons st (.cons st' b), h, g, hm => by
    rcases okMain_cons h with ⟨-, h'⟩ | ⟨h1, h2⟩
    · cases h'
    · rw [emitB_cons]
      simp only [then_fst, then_snd, labels_append]
      have g1 := (growS isLocal true st h1 g).1
      have l1 := labS isLocal true st h1 g
      generalize emitS isLocal st g = x at *
      have hm' := g1.isMain.trans hm
      exact l1.append (labMain isLocal (.cons st' b) h2 x.2 hm') g1.label (Nat.le_refl _) (growMain isLocal (.cons st' b) h2 x.2 hm').label

/-- Where the body of a function ends up. -/
def BodyReach (main : Bool) (post : List Instr) (flow : Flow) (rest : List Instr) (fr : Frame) : Prop :=
  match flow with
  | .normal => rest = post
  | .ret v => (∃ a r, rest = .ret a :: r ∧ fr.result a = some v) ∨ (main = true ∧ rest = post ∧ v = some (.i32 0))
  | _ => True

theorem main_ok (hc : ∀ f vs w v w', call f vs w = some (v, w') → crel f vs w v w') (n : Nat) : ∀ (b : Stmts), okMain b = true →
    ∀ (g : Gen) (s : S) (flow : Flow) (s' : S) (fr : Frame) (post code : List Instr),
    0 < g.label → g.isMain = true → (labels code).Nodup → ((emitB isLocal none b g).1 ++ post) <:+ code → Match s.var fr → execB isLocal call n b s = some (flow, s') →
    flow ≠ .brk → ∃ rest fr', Star crel code ((emitB isLocal none b g).1 ++ post, fr, s.w) (rest, fr', s'.w) ∧ BodyReach true post flow rest fr'
  | .nil, _, g, s, flow, s', fr, post, code, h0, hmain, hn, hs, hm, he, hb => by
    simp only [execB, Option.some.injEq, Prod.mk.injEq] at he
    obtain ⟨rfl, rfl⟩ := he
    exact ⟨post, fr, .refl, rfl⟩
  | .cons st b, h, g, s, flow, s', fr, post, code, h0, hmain, hn, hs, hm, he, hb => by
    rcases okMain_cons h with ⟨rfl, rfl⟩ | ⟨h1, h2⟩
    · rw [ret_main isLocal _ g hmain]
      simp [execB, execS, evalE, fit] at he
      obtain ⟨rfl, rfl⟩ := he
      exact ⟨post, fr, .refl, Or.inr ⟨rfl, rfl, rfl⟩⟩
    · rw [execB] at he
      simp only [Option.bind_eq_bind, Option.bind_eq_some_iff] at he
      obtain ⟨⟨f, s1⟩, e1, he⟩ := he
      simp only at he
      have hgr := (growS isLocal true st h1 g).1
      have eb : (emitB isLocal none (.cons st b) g).1 = (emitS isLocal st g).1 ++ (emitB isLocal none b (emitS isLocal st g).2).1 := by
        cases b with
        | nil => rw [emitB_one h1]; simp [emitB]
        | cons st' b => rw [emitB_cons]; rfl
      rw [eb, List.append_assoc] at hs ⊢
      have hst := all_stmt (isLocal := isLocal) hc true n st h1 g s f s1 fr _ code h0 hmain hn hs hm e1
      by_cases hf : f = .normal
      · subst hf
        rw [if_pos rfl] at he
        obtain ⟨rest, fr1, t, r, a⟩ := hst (by intro h; cases h)
        simp only [Reach] at r
        subst r
        obtain ⟨rest2, fr2, t2, r2⟩ := main_ok hc n b h2 _ s1 flow s' fr1 post code (Nat.lt_of_lt_of_le h0 hgr.label) (hgr.isMain.trans hmain) hn (suf_right hs) a.mat he hb
        exact ⟨rest2, fr2, t.trans t2, r2⟩
      · rw [if_neg hf] at he
        simp only [Option.some.injEq, Prod.mk.injEq] at he
        obtain ⟨rfl, rfl⟩ := he
        obtain ⟨rest, fr1, t, r, a⟩ := hst (fun h => absurd h hb)
        refine ⟨rest, fr1, t, ?_⟩
        cases f
        · exact absurd rfl hf
        · trivial
        · exact r.elim
        · exact Or.inl r

/-! ## Functions -/

theorem emitP_labels : ∀ (ps : List (Nat × Ty)) (i : Nat), labels (emitP i ps) = []
  | [], _ => rfl
  | (id, ty) :: ps, i => by
    have := emitP_labels ps (i + 1)
    simpa [emitP, labels, List.filterMap_cons, labelOf] using this

/-- The state of the generator in the body of a function. -/
abbrev bodyGen (main : Bool) (g : Gen) : Gen := { g with isMain := main || g.isMain, block := g.block + 1 }

/-- The end of a function. -/
def endOf (main : Bool) (ret : Option Ty) : List Instr :=
  if main then [.ret (some (.int, .int 0)), .unreachable] else if ret = none then [.ret none, .unreachable] else [.unreachable]

theorem emitF_fst (main : Bool) (f : Func) (g : Gen) :
    (emitF isLocal main f g).1 = emitP 0 f.params ++ ((emitB isLocal none f.body (bodyGen main g)).1 ++ endOf main f.ret) := by
  simp only [emitF, then_fst, endOf]
  split
  · rfl
  · split <;> rfl

theorem emitF_snd (main : Bool) (f : Func) (g : Gen) :
    (emitF isLocal main f g).2 = if main then { (emitB isLocal none f.body (bodyGen main g)).2 with isMain := false } else (emitB isLocal none f.body (bodyGen main g)).2 := by
  simp only [emitF, then_snd]
  split
  · rfl
  · split <;> rfl

theorem growF {main : Nat} {f : Func} (h : okF main f = true) {g : Gen} (hm : g.isMain = false) :
    g.label ≤ (emitF isLocal (f.id == main) f g).2.label ∧ (emitF isLocal (f.id == main) f g).2.isMain = false ∧
      Ran g.label (emitF isLocal (f.id == main) f g).2.label (labels (emitF isLocal (f.id == main) f g).1) := by
  simp only [okF, Bool.and_eq_true] at h
  rw [emitF_fst, emitF_snd]
  have he : ∀ b r, labels (endOf b r) = [] := by
    intro b r; unfold endOf; split
    · rfl
    · split <;> rfl
  simp only [labels_append, emitP_labels, he, List.nil_append, List.append_nil]
  cases hb : f.id == main
  · rw [hb] at h
    simp only [Bool.false_eq_true, if_false] at h ⊢
    have h1 := (growB isLocal false f.body h.2 none (bodyGen false g)).1
    have h2 := labB isLocal false f.body h.2 none (bodyGen false g)
    refine ⟨h1.label, ?_, h2⟩
    rw [h1.isMain]
    simp [bodyGen, hm]
  · rw [hb] at h
    simp only [if_true] at h ⊢
    have h1 := growMain isLocal f.body h.2 (bodyGen true g) (by simp [bodyGen])
    exact ⟨h1.label, trivial, labMain isLocal f.body h.2 (bodyGen true g) (by simp [bodyGen])⟩

theorem func_ok (hc : ∀ f vs w v w', call f vs w = some (v, w') → crel f vs w v w') {main n : Nat} {f : Func} (hok : okF main f = true) {g : Gen} (h0 : 0 < g.label)
    (hm : g.isMain = false) {vs : List V} {w : World} {var : Nat → Option (Option V)} {flow : Flow} {s : S} (hbind : bind f.params vs = some var)
    (he : execB isLocal call n f.body ⟨var, w⟩ = some (flow, s)) {v : Option V}
    (hv : (flow = .ret v) ∨ (flow = .normal ∧ f.id = main ∧ v = some (.i32 0)) ∨ (flow = .normal ∧ f.id ≠ main ∧ f.ret = none ∧ v = none)) :
    Runs crel (emitF isLocal (f.id == main) f g).1 vs w v s.w := by
  have hnd := ((growF (isLocal := isLocal) hok hm).2.2).nodup
  simp only [okF, Bool.and_eq_true] at hok
  rw [emitF_fst] at hnd ⊢
  generalize hcode : emitP 0 f.params ++ ((emitB isLocal none f.body (bodyGen (f.id == main) g)).1 ++ endOf (f.id == main) f.ret) = code at *
  have hfr : Match (fun _ => none) (⟨fun _ => none, fun _ => none, fun _ => none, [], vs, none, none⟩ : Frame) := ⟨by simp, by simp⟩
  obtain ⟨fr1, t1, m1, -⟩ := params_ok (crel := crel) (code := code) (w := w) f.params vs 0 var (fun _ => none) _
    ((emitB isLocal none f.body (bodyGen (f.id == main) g)).1 ++ endOf (f.id == main) f.ret) hbind (by simp) hfr
  simp only [Option.or_none] at m1
  have hs : ((emitB isLocal none f.body (bodyGen (f.id == main) g)).1 ++ endOf (f.id == main) f.ret) <:+ code := by
    rw [← hcode]; exact List.suffix_append ..
  have hnb : flow ≠ .brk := by
    intro h
    rcases hv with h' | ⟨h', -⟩ | ⟨h', -⟩ <;> rw [h] at h' <;> cases h'
  have hbody : ∃ rest fr', Star crel code ((emitB isLocal none f.body (bodyGen (f.id == main) g)).1 ++ endOf (f.id == main) f.ret, fr1, w) (rest, fr', s.w) ∧
      BodyReach (f.id == main) (endOf (f.id == main) f.ret) flow rest fr' := by
    cases hb : f.id == main
    · rw [hb] at hok hs
      simp only [Bool.false_eq_true, if_false] at hok
      obtain ⟨rest, fr2, fr', t, r, -, -⟩ := all_stmts (isLocal := isLocal) hc false n f.body hok.2 none (bodyGen false g) ⟨var, w⟩ flow s fr1 _ code h0 (by simp [bodyGen, hm]) hnd hs m1 he
        (fun h => absurd h hnb) (by intro j hj; cases hj)
      refine ⟨rest, fr', t, ?_⟩
      cases flow
      · exact r
      · trivial
      · trivial
      · exact Or.inl r
    · rw [hb] at hok hs
      simp only [if_true] at hok
      exact main_ok hc n f.body hok.2 (bodyGen true g) ⟨var, w⟩ flow s fr1 _ code h0 (by simp [bodyGen]) hnd hs m1 he hnb
  obtain ⟨rest, fr', t2, r⟩ := hbody
  have t := t1.trans t2
  rw [hcode] at t
  have hzero : ∀ fr : Frame, fr.result (some (.int, .int 0)) = some (some (.i32 0)) := fun fr => by simp [Frame.result, Frame.opd, fit]
  rcases hv with rfl | ⟨rfl, hid, rfl⟩ | ⟨rfl, hid, hret, rfl⟩
  · rcases r with ⟨a, r, rfl, hr⟩ | ⟨hmain, rfl, rfl⟩
    · exact ⟨a, r, fr', t, hr⟩
    · rw [hmain] at t
      exact ⟨_, _, fr', t, hzero _⟩
  · have : (f.id == main) = true := by simpa using hid
    simp only [BodyReach] at r
    subst r
    rw [this] at t
    exact ⟨_, _, fr', t, hzero _⟩
  · have : (f.id == main) = false := by simpa using hid
    simp only [BodyReach] at r
    subst r
    rw [this] at t
    simp only [endOf, Bool.false_eq_true, if_false, hret, if_true] at t
    exact ⟨_, _, fr', t, rfl⟩

/-! ## Units -/

theorem find_unit {main : Nat} : ∀ (fs : List Func) (g : Gen) (f : Nat), (∀ d ∈ fs, okF main d = true) → 0 < g.label → g.isMain = false →
    match fs.find? fun d => d.id == f with
    | none => (emitU isLocal main fs g).find? (fun d => d.1.id == f) = none
    | some d => d ∈ fs ∧ d.id = f ∧ ∃ g', 0 < g'.label ∧ g'.isMain = false ∧ (emitU isLocal main fs g).find? (fun d => d.1.id == f) = some (d, (emitF isLocal (d.id == main) d g').1)
  | [], g, f, _, _, _ => by simp [emitU]
  | d :: fs, g, f, h, h0, hm => by
    simp only [emitU, List.find?_cons]
    have hd := h d (List.mem_cons_self ..)
    cases hdf : d.id == f
    · simp only
      have hg := growF (isLocal := isLocal) hd hm
      have ih := find_unit (main := main) fs (emitF isLocal (d.id == main) d g).2 f (fun x hx => h x (List.mem_cons_of_mem _ hx)) (Nat.lt_of_lt_of_le h0 hg.1) hg.2.1
      split
      · rename_i hn; rw [hn] at ih; exact ih
      · rename_i x hx
        rw [hx] at ih
        obtain ⟨k1, k2, k3⟩ := ih
        exact ⟨List.mem_cons_of_mem _ k1, k2, k3⟩
    · simp only
      exact ⟨List.mem_cons_self .., by simpa using hdf, g, h0, hm, rfl⟩

theorem unit_ok {lib : Calls} {main : Nat} {fs : List Func} {g : Gen} (hok : ∀ d ∈ fs, okF main d = true) (h0 : 0 < g.label) (hm : g.isMain = false) :
    ∀ (n f : Nat) (vs : List V) (w : World) (v : Option V) (w' : World), callF isLocal lib main fs n f vs w = some (v, w') →
      callL lib (emitU isLocal main fs g) n f vs w v w'
  | 0, f, vs, w, v, w', h => by simp [callF] at h
  | n + 1, f, vs, w, v, w', h => by
    have hf := find_unit (isLocal := isLocal) (main := main) fs g f hok h0 hm
    rw [callF] at h
    rw [callL]
    split at h
    · rename_i hn
      rw [hn] at hf
      rw [hf]
      exact h
    · rename_i d hd
      rw [hd] at hf
      obtain ⟨hmem, hid, g', h0', hm', hfind⟩ := hf
      rw [hfind]
      simp only [Option.bind_eq_bind, Option.bind_eq_some_iff] at h
      obtain ⟨var, hb, ⟨flow, s⟩, he, h⟩ := h
      simp only at h ⊢
      cases flow with
      | normal =>
        simp only at h
        split at h
        · rename_i hmain
          simp only [Option.some.injEq, Prod.mk.injEq] at h
          obtain ⟨rfl, rfl⟩ := h
          exact func_ok (unit_ok hok h0 hm n) (hok d hmem) h0' hm' hb he (Or.inr (Or.inl ⟨rfl, hid.trans hmain, rfl⟩))
        · rename_i hmain
          split at h
          · rename_i hret
            simp only [Option.some.injEq, Prod.mk.injEq] at h
            obtain ⟨rfl, rfl⟩ := h
            exact func_ok (unit_ok hok h0 hm n) (hok d hmem) h0' hm' hb he (Or.inr (Or.inr ⟨rfl, by rw [hid]; exact hmain, hret, rfl⟩))
          · cases h
      | brk => cases h
      | cont => cases h
      | ret u =>
        simp only at h
        split at h
        · simp only [Option.some.injEq, Prod.mk.injEq] at h
          obtain ⟨rfl, rfl⟩ := h
          exact func_ok (unit_ok hok h0 hm n) (hok d hmem) h0' hm' hb he (Or.inl rfl)
        · cases h

/-! ## The code does one thing only -/

theorem step_det (hc : ∀ f vs w v1 w1 v2 w2, crel f vs w v1 w1 → crel f vs w v2 w2 → v1 = v2 ∧ w1 = w2) {code : List Instr} {c d e : Conf} (h : Step crel code c d) (k : Step crel code c e) : d = e := by
  cases h with
  | call h1 h2 =>
    cases k with
    | call k1 k2 =>
      rw [h1] at k1; cases k1
      obtain ⟨he, rfl⟩ := hc _ _ _ _ _ _ _ h2 k2
      cases he
      rfl
  | callVoid h1 h2 =>
    cases k with
    | callVoid k1 k2 =>
      rw [h1] at k1; cases k1
      obtain ⟨he, rfl⟩ := hc _ _ _ _ _ _ _ h2 k2
      rfl
  | _ => cases k <;> simp_all

theorem star_ret (hc : ∀ f vs w v1 w1 v2 w2, crel f vs w v1 w1 → crel f vs w v2 w2 → v1 = v2 ∧ w1 = w2) {code : List Instr} {c d e : Conf} (h : Star crel code c d)
    (k : Star crel code c e) (hd : ∃ a r fr w, d = (.ret a :: r, fr, w)) (he : ∃ a r fr w, e = (.ret a :: r, fr, w)) : d = e := by
  have stuck : ∀ {c d : Conf}, (∃ a r fr w, c = (.ret a :: r, fr, w)) → ¬ Step crel code c d := by
    rintro c d ⟨a, r, fr, w, rfl⟩ h
    cases h
  induction h with
  | refl =>
    cases k with
    | refl => rfl
    | step s _ => exact absurd s (stuck hd)
  | step s _ ih =>
    cases k with
    | refl => exact absurd s (stuck he)
    | step s' k =>
      have := step_det hc s s'
      subst this
      exact ih k hd

theorem callL_det {lib : Calls} {us : List (Func × List Instr)} : ∀ (n f : Nat) (vs : List V) (w : World) (v1 : Option V) (w1 : World) (v2 : Option V) (w2 : World),
    callL lib us n f vs w v1 w1 → callL lib us n f vs w v2 w2 → v1 = v2 ∧ w1 = w2
  | 0, _, _, _, _, _, _, _, h, _ => h.elim
  | n + 1, f, vs, w, v1, w1, v2, w2, h, k => by
    rw [callL] at h k
    split at h
    · rename_i hf
      rw [hf] at k
      rw [h] at k
      cases k
      exact ⟨rfl, rfl⟩
    · rename_i d hf
      rw [hf] at k
      obtain ⟨a1, r1, fr1, t1, e1⟩ := h
      obtain ⟨a2, r2, fr2, t2, e2⟩ := k
      have := star_ret (callL_det n) t1 t2 ⟨_, _, _, _, rfl⟩ ⟨_, _, _, _, rfl⟩
      cases this
      rw [e1] at e2
      cases e2
      exact ⟨rfl, rfl⟩

theorem step_mono {crel' : CallRel} (hc : ∀ f vs w v w', crel f vs w v w' → crel' f vs w v w') {code : List Instr} {c d : Conf} (h : Step crel code c d) : Step crel' code c d := by
  cases h with
  | arith h1 h2 h3 => exact .arith h1 h2 h3
  | cmpInt h1 h2 => exact .cmpInt h1 h2
  | cmpBool h1 h2 => exact .cmpBool h1 h2
  | flip h1 => exact .flip h1
  | abs h1 h2 => exact .abs h1 h2
  | load h1 => exact .load h1
  | store h1 h2 => exact .store h1 h2
  | alloca => exact .alloca
  | param h1 h2 h3 => exact .param h1 h2 h3
  | br h1 => exact .br h1
  | cbr h1 h2 => exact .cbr h1 h2
  | phiFst h1 h2 => exact .phiFst h1 h2
  | phiSnd h1 h2 h3 => exact .phiSnd h1 h2 h3
  | call h1 h2 => exact .call h1 (hc _ _ _ _ _ h2)
  | callVoid h1 h2 => exact .callVoid h1 (hc _ _ _ _ _ h2)
  | save => exact .save
  | restore h1 h2 => exact .restore h1 h2
  | switch h1 h2 => exact .switch h1 h2

theorem star_mono {crel' : CallRel} (hc : ∀ f vs w v w', crel f vs w v w' → crel' f vs w v w') {code : List Instr} {c d : Conf} (h : Star crel code c d) : Star crel' code c d := by
  induction h with
  | refl => exact .refl
  | step s _ ih => exact .step (step_mono hc s) ih

theorem callL_succ {lib : Calls} {us : List (Func × List Instr)} : ∀ (n f : Nat) (vs : List V) (w : World) (v : Option V) (w' : World),
    callL lib us n f vs w v w' → callL lib us (n + 1) f vs w v w'
  | 0, _, _, _, _, _, h => h.elim
  | n + 1, f, vs, w, v, w', h => by
    rw [callL] at h ⊢
    split
    · rename_i hf
      rw [hf] at h
      exact h
    · rename_i d hf
      rw [hf] at h
      obtain ⟨a, r, fr, t, e⟩ := h
      exact ⟨a, r, fr, star_mono (callL_succ n) t, e⟩

theorem callL_le {lib : Calls} {us : List (Func × List Instr)} {n m f : Nat} {vs : List V} {w : World} {v : Option V} {w' : World} (h : callL lib us n f vs w v w') (hn : n ≤ m) :
    callL lib us m f vs w v w' := by
  induction hn with
  | refl => exact h
  | step _ ih => exact callL_succ _ _ _ _ _ _ ih

end

end RuC.Llvm
