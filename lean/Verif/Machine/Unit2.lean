import Verif.Machine.Unit

/-!
The globals of a unit have cells of their own; the machine follows their declarations.
-/

namespace RuC.Machine

open RuC RuC.Codegen RuC.Instr
open RuC.Expr (Unary Binary)

/-! ### The cells of globals -/

/-- The globals so far have cells of their own. -/
structure Placed (L : Layout) (G : List Nat) : Prop where
  range : ∀ i ∈ G, 3 ≤ - L.displs i ∧ - L.displs i < L.maxGlobal
  inj : ∀ i ∈ G, ∀ j ∈ G, L.displs i = L.displs j → i = j
  start : 3 ≤ L.maxGlobal
  outside : L.inFunc = false

theorem Placed.add {L : Layout} {G : List Nat} (h : Placed L G) {id : Nat} {t : Ty} (ht : Scalar t) (hn : id ∉ G) : Placed (L.add id t) (G ++ [id]) := by
  have sz := (scalar_size ht).1
  have e0 : (L.add id t).displs id = - L.maxGlobal := by simp [Layout.add, h.outside, update]
  have e1 : (L.add id t).maxGlobal = L.maxGlobal + 1 := by simp [Layout.add, h.outside, sz]
  have e2 : ∀ i ∈ G, (L.add id t).displs i = L.displs i := fun i hi => add_displs (fun e => hn (e ▸ hi))
  have hs := h.start
  refine ⟨fun i hi => ?_, fun i hi j hj e => ?_, by omega, by simp [Layout.add, h.outside]⟩
  · rcases List.mem_append.1 hi with hi | hi
    · have := h.range i hi
      rw [e2 i hi, e1]; omega
    · simp only [List.mem_cons, List.not_mem_nil, or_false] at hi
      subst hi
      rw [e0, e1]; omega
  · rcases List.mem_append.1 hi with hi | hi <;> rcases List.mem_append.1 hj with hj | hj
    · rw [e2 i hi, e2 j hj] at e
      exact h.inj i hi j hj e
    · simp only [List.mem_cons, List.not_mem_nil, or_false] at hj
      have := h.range i hi
      rw [e2 i hi, hj, e0] at e
      omega
    · simp only [List.mem_cons, List.not_mem_nil, or_false] at hi
      have := h.range j hj
      rw [e2 j hj, hi, e0] at e
      omega
    · simp only [List.mem_cons, List.not_mem_nil, or_false] at hi hj
      rw [hi, hj]

theorem placed_vars : ∀ (s : Stmt) (L : Layout) (G : List Nat), InG G s → Placed L G → (G ++ s.declared).Nodup → Placed (layS L s) (G ++ s.declared)
  | .skip, L, G, _, h, _ => by simpa [Stmt.declared, layS] using h
  | .seq a b, L, G, f, h, hn => by
    simp only [InG] at f
    simp only [Stmt.declared, ← List.append_assoc] at hn ⊢
    have ha := placed_vars a L G f.1 h (hn.sublist (List.sublist_append_left ..))
    exact placed_vars b _ _ f.2 ha hn
  | .var id t p i, L, G, f, h, hn => by
    simp only [InG] at f
    simp only [Stmt.declared] at hn ⊢
    refine h.add f.1 ?_
    intro hm
    exact (List.nodup_append.1 hn).2.2 id hm id (by simp) rfl
  | .block _, _, _, f, _, _ | .arr _ _ _ _ _ _ _, _, _, f, _, _ | .case _ _, _, _, f, _, _ | .default _, _, _, f, _, _ | .switch _ _, _, _, f, _, _
  | .expr _, _, _, f, _, _ | .if_ _ _, _, _, f, _, _ | .ifElse _ _ _, _, _, f, _, _ | .while_ _ _, _, _, f, _, _ | .do_ _ _, _, _, f, _, _
  | .for_ _ _ _ _, _, _, f, _, _ | .continue_, _, _, f, _, _ | .break_, _, _, f, _, _ | .return_ _, _, _, f, _, _ => by simp [InG] at f

theorem func_displs {ok : Nat → Prop} {global : Nat → Bool} {L : Layout} {d : Func} (h : InF ok global d) (hg : 3 ≤ L.maxGlobal) :
    (layF L d).maxGlobal = L.maxGlobal ∧ ∀ id, global id = true → (layF L d).displs id = L.displs id := by
  obtain ⟨p1, p2, p3, p4, p5, p6⟩ := params_cells d.params { L with inFunc := true, displ := DISPL_START, maxLocal := DISPL_START } rfl h.scalar h.nodup (Int.le_refl _)
  have e2 : ∀ id, id ∉ d.params.map (·.1) → (layEntry L d).displs id = L.displs id := p2
  have e6 : (layEntry L d).maxGlobal = L.maxGlobal := p6
  have lay := entry_laid (d := d) hg
  refine ⟨?_, fun id g => ?_⟩
  · show (layS (layEntry L d) d.body).maxGlobal = _
    rw [(grown d.body lay p5).2.maxGlobal, e6]
  · show (layS (layEntry L d) d.body).displs id = _
    rw [layS_displs d.body _ id (fun hm => by rw [in_declared d.body h.body id hm] at g; cases g),
      e2 id (fun hm => by rw [h.locals id hm] at g; cases g)]

theorem placed_func {ok : Nat → Prop} {global : Nat → Bool} {L : Layout} {G : List Nat} {d : Func} (h : Placed L G) (hd : InF ok global d) (hG : ∀ id ∈ G, global id = true) :
    Placed (layF L d) G := by
  obtain ⟨e1, e2⟩ := func_displs hd h.start
  refine ⟨fun i hi => ?_, fun i hi j hj e => ?_, by rw [e1]; exact h.start, rfl⟩
  · rw [e2 i (hG i hi), e1]; exact h.range i hi
  · rw [e2 i (hG i hi), e2 j (hG j hj)] at e; exact h.inj i hi j hj e

/-- The globals keep their cells. -/
theorem placed_tops {all : List Nat} : ∀ (tops : List Top) (L : Layout) (G : List Nat), InU all G tops → Placed L G → (G ++ globalsOf tops).Nodup →
    (∀ id ∈ G ++ globalsOf tops, id ∈ all) → Placed (tops.foldl layT L) (G ++ globalsOf tops) ∧ ∀ id ∈ G, (tops.foldl layT L).displs id = L.displs id
  | [], L, G, _, h, _, _ => ⟨by simpa [globalsOf] using h, fun _ _ => rfl⟩
  | .vars d :: rest, L, G, f, h, hn, ha => by
    simp only [InU] at f
    simp only [globalsOf, ← List.append_assoc] at hn ha ⊢
    have h1 := placed_vars d L G f.1 h (hn.sublist (List.sublist_append_left ..))
    obtain ⟨h2, h3⟩ := placed_tops rest (layS L d) (G ++ d.declared) f.2 h1 hn ha
    refine ⟨h2, fun id hid => ?_⟩
    rw [List.foldl_cons, layT, h3 id (List.mem_append_left _ hid)]
    refine layS_displs d L id (fun hm => ?_)
    exact (List.nodup_append.1 (List.nodup_append.1 hn).1).2.2 id hid id hm rfl
  | .func d :: rest, L, G, f, h, hn, ha => by
    simp only [InU] at f
    simp only [globalsOf] at hn ha ⊢
    have hG : ∀ id ∈ G, decide (id ∈ all) = true := fun id hid => by simpa using ha id (List.mem_append_left _ hid)
    have h1 := placed_func h f.1 hG
    obtain ⟨h2, h3⟩ := placed_tops rest (layF L d) G f.2 h1 hn ha
    refine ⟨h2, fun id hid => ?_⟩
    rw [List.foldl_cons, layT, h3 id hid]
    exact (func_displs f.1 h.start).2 id (hG id hid)

/-! ### In the middle of a unit -/

/-- The rest of a unit: `L` is the layout there, `G` are the globals before. -/
structure At (C : Ctx) (all : List Nat) (L : Layout) (G : List Nat) (rest : List Top) : Prop where
  inU : InU all G rest
  global : ∀ id, C.global id = decide (id ∈ all)
  placed : Placed L G
  nodup : (G ++ globalsOf rest).Nodup
  sub : ∀ id ∈ G ++ globalsOf rest, id ∈ all
  small : ∀ id, L.displs id < MIN_INSTRUCTION_CODE
  final : C.D = (rest.foldl layT L).displs

section
variable {C : Ctx} {all : List Nat}

theorem At.ok {L G rest} (h : At C all L G rest) (id : Nat) (hid : id ∈ all → id ∈ G) : okId C L id := by
  refine ⟨fun g => ?_, h.small id⟩
  rw [h.global id] at g
  rw [h.final, (placed_tops rest L G h.inU h.placed h.nodup h.sub).2 id (hid (by simpa using g))]

theorem vars_small : ∀ (s : Stmt) (L : Layout) (G : List Nat), InG G s → L.inFunc = false → 0 ≤ L.maxGlobal → (∀ id, L.displs id < MIN_INSTRUCTION_CODE) →
    (layS L s).inFunc = false ∧ 0 ≤ (layS L s).maxGlobal ∧ ∀ id, (layS L s).displs id < MIN_INSTRUCTION_CODE
  | .skip, L, G, _, hf, hg, h => ⟨hf, hg, h⟩
  | .seq a b, L, G, f, hf, hg, h => by
    simp only [InG] at f
    obtain ⟨a1, a2, a3⟩ := vars_small a L G f.1 hf hg h
    exact vars_small b _ _ f.2 a1 a2 a3
  | .var id t p i, L, G, f, hf, hg, h => by
    refine ⟨by simp [layS, Layout.add, hf], by simp [layS, Layout.add, hf]; omega, fun j => ?_⟩
    by_cases e : j = id
    · subst e
      simp [layS, Layout.add, hf, update]
      unfold MIN_INSTRUCTION_CODE
      omega
    · show (L.add id t).displs j < _
      rw [add_displs e]; exact h j
  | .block _, _, _, f, _, _, _ | .arr _ _ _ _ _ _ _, _, _, f, _, _, _ | .case _ _, _, _, f, _, _, _ | .default _, _, _, f, _, _, _ | .switch _ _, _, _, f, _, _, _
  | .expr _, _, _, f, _, _, _ | .if_ _ _, _, _, f, _, _, _ | .ifElse _ _ _, _, _, f, _, _, _ | .while_ _ _, _, _, f, _, _, _ | .do_ _ _, _, _, f, _, _, _
  | .for_ _ _ _ _, _, _, f, _, _, _ | .continue_, _, _, f, _, _, _ | .break_, _, _, f, _, _, _ | .return_ _, _, _, f, _, _, _ => by simp [InG] at f

theorem At.vars {L G rest d} (h : At C all L G (.vars d :: rest)) : At C all (layS L d) (G ++ d.declared) rest := by
  have f := h.inU
  simp only [InU] at f
  have hn := h.nodup
  have ha := h.sub
  simp only [globalsOf, ← List.append_assoc] at hn ha
  have hs := h.placed.start
  exact ⟨f.2, h.global, placed_vars d L G f.1 h.placed (hn.sublist (List.sublist_append_left ..)), hn, ha,
    (vars_small d L G f.1 h.placed.outside (by omega) h.small).2.2, h.final⟩

theorem At.inF {L G rest d} (h : At C all L G (.func d :: rest)) : InF (fun id => id ∈ all → id ∈ G) C.global d := by
  have f := h.inU
  simp only [InU] at f
  rw [show C.global = fun id => decide (id ∈ all) from funext h.global]
  exact f.1

theorem At.func {L G rest d} (h : At C all L G (.func d :: rest)) : At C all (layF L d) G rest := by
  have f := h.inU
  simp only [InU] at f
  have hG : ∀ id ∈ G, decide (id ∈ all) = true := fun id hid => by simpa using h.sub id (List.mem_append_left _ hid)
  refine ⟨f.2, h.global, placed_func h.placed f.1 hG, h.nodup, h.sub, fun id => ?_, h.final⟩
  by_cases hid : id ∈ all → id ∈ G
  · exact ((fits_func h.inF h.placed.start (fun id hid => h.ok id hid)).2.1 id hid).2
  · have g : C.global id = true := by
      rw [h.global id]
      by_cases e : id ∈ all
      · simpa using e
      · exact absurd (fun x => absurd x e) hid
    rw [(func_displs h.inF h.placed.start).2 id g]
    exact h.small id

/-- The functions of a unit stand at their addresses. -/
theorem loaded_tops : ∀ (tops : List Top) (L : Layout) (G : List Nat) (base : Nat), At C all L G tops → Holds C 0 0 base (codeTops L base tops) →
    ∀ (k : Nat) (d : Func), (defs tops)[k]? = some d →
      ∃ (a : Nat) (L' : Layout), (addrs L base tops)[k]? = some a ∧ Holds C 0 0 a (codeF L' a d) ∧ 3 ≤ L'.maxGlobal ∧ FitsF (okId C) C.global L' d
  | [], _, _, _, _, _, k, d, h => by simp [defs] at h
  | .vars s :: rest, L, G, base, hA, hh, k, d, h => by
    rw [codeTops] at hh
    exact loaded_tops rest (layS L s) _ _ hA.vars (holds_append.1 hh).2 k d h
  | .func f :: rest, L, G, base, hA, hh, k, d, h => by
    rw [codeTops] at hh
    obtain ⟨h1, h2⟩ := holds_append.1 hh
    cases k with
    | zero =>
      have h' : (f :: defs rest)[0]? = some d := h
      simp at h'
      subst h'
      exact ⟨base, L, rfl, h1, hA.placed.start, (fits_func hA.inF hA.placed.start (fun id hid => hA.ok id hid)).1⟩
    | succ k =>
      have h' : (f :: defs rest)[k + 1]? = some d := h
      simp at h'
      obtain ⟨a, L', e1, e2⟩ := loaded_tops rest (layF L f) G _ hA.func h2 k d h'
      exact ⟨a, L', by show (base :: addrs (layF L f) (base + (codeT L base (.func f)).length) rest)[k + 1]? = some a; simpa using e1, e2⟩

/-! ### The run -/

/-- Outside of functions only globals are in scope. -/
structure InvG (C : Ctx) (s : Src) (v : State) : Prop where
  out : v.out = s.out
  glob : ∀ i x, C.global i = true → s.var i = some (some x) → v.globals (C.D i) = x
  only : ∀ i, s.alive i → C.global i = true

theorem InvG.inv {s v} (h : InvG C s v) (L : Layout) : Inv C L s v := by
  have no : ∀ i, C.global i = false → (s.var i).isSome → False := fun i g a => by rw [h.only i a] at g; cases g
  exact ⟨h.out, h.glob, fun i x g e => (no i g (by rw [e]; rfl)).elim, fun i g a => (no i g a).elim, fun i _ g _ a _ _ => (no i g a).elim⟩

theorem in_label : ∀ (s : Stmt) (L : Layout) (G : List Nat) (base : Nat), InG G s → (codeS L base s).label = none
  | .skip, _, _, _, _ | .var _ _ _ _, _, _, _, _ => rfl
  | .seq a b, L, G, base, f => by
    simp only [InG] at f
    simp only [codeS, Piece.join]
    rw [in_label a L G _ f.1, in_label b _ _ _ f.2]; rfl
  | .block _, _, _, _, f | .arr _ _ _ _ _ _ _, _, _, _, f | .case _ _, _, _, _, f | .default _, _, _, _, f | .switch _ _, _, _, _, f
  | .expr _, _, _, _, f | .if_ _ _, _, _, _, f | .ifElse _ _ _, _, _, _, f | .while_ _ _, _, _, _, f | .do_ _ _, _, _, _, f
  | .for_ _ _ _ _, _, _, _, f | .continue_, _, _, _, f | .break_, _, _, _, f | .return_ _, _, _, _, f => by simp [InG] at f

variable {n : Nat} {call : Calls}

/-- The declarations of globals. -/
theorem claimG (ok : C.Ok) (okc : CallsOk C n call) {b c : Int} : ∀ (st : Stmt) (L : Layout) (G : List Nat) (s : Src) (v : State) (base : Nat), InG G st →
    (∀ j ∈ G ++ st.declared, okId C (layS L st) j ∧ C.global j = true) → (G ++ st.declared).Nodup → Holds C b c base (codeS L base st).code → v.pc = base → InvG C s v →
    Follows C n v (fun fl s' v' => fl = .normal ∧ InvG C s' v' ∧ Upto v v' (base + (codeS L base st).code.length) v.stack) (execS call n st s)
  | .skip, L, G, s, v, base, _, _, _, _, hpc, inv => Follows.end Reach.refl ⟨rfl, inv, hpc, rfl, rfl, rfl, rfl⟩
  | .seq x y, L, G, s, v, base, f, ho, hn, hh, hpc, inv => by
    simp only [InG] at f
    simp only [Stmt.declared, ← List.append_assoc] at ho hn
    have hcode : (codeS L base (.seq x y)).code = (codeS L base x).code ++ (codeS (layS L x) (base + (codeS L base x).code.length) y).code := by
      simp only [codeS, Piece.join]
      rw [in_label y _ _ _ f.2]; rfl
    rw [hcode] at hh ⊢
    obtain ⟨h1, h2⟩ := holds_append.1 hh
    rw [execS]
    refine Follows.bind (claimG ok okc x L G s v base f.1 (fun j hj => ?_) (hn.sublist (List.sublist_append_left ..)) h1 hpc inv) ?_
    · have o := ho j (List.mem_append_left _ hj)
      have e : (layS L (.seq x y)).displs j = (layS L x).displs j := by
        show (layS (layS L x) y).displs j = _
        exact layS_displs y _ j (fun hm => (List.nodup_append.1 hn).2.2 j hj j hm rfl)
      exact ⟨⟨by rw [← e]; exact o.1.1, by rw [← e]; exact o.1.2⟩, o.2⟩
    · rintro fl s1 v1 ⟨rfl, inv1, up⟩
      rw [if_pos rfl]
      refine (claimG ok okc y (layS L x) (G ++ x.declared) s1 v1 _ f.2 ho hn h2 up.pc inv1).mono ?_
      rintro fl s2 v2 ⟨e, inv2, up2⟩
      refine ⟨e, inv2, ?_⟩
      have := up.trans up2
      rw [up.stack] at this
      rw [List.length_append, ← Nat.add_assoc]
      exact this
  | .var id t p i, L, G, s, v, base, f, ho, hn, hh, hpc, inv => by
    simp only [InG] at f
    obtain ⟨ht, hp, hi⟩ := f
    have hid := ho id (by simp [Stmt.declared])
    have inv0 : InvG C (s.set id (some none)) v := by
      refine ⟨inv.out, fun j x g h => ?_, fun j a => ?_⟩
      · by_cases hj : j = id
        · simp [Src.set, hj] at h
        · simp [Src.set, hj] at h; exact inv.glob j x g h
      · by_cases hj : j = id
        · rw [hj]; exact hid.2
        · refine inv.only j ?_
          unfold Src.alive Src.set at *
          simpa [hj] using a
    show Follows C n v _ (if (s.var id).isSome then .wrong
      else match i with
        | none => .ok Flow.normal (s.set id (some none))
        | some e => (evalE call e (s.set id (some none))).value fun v s => .ok Flow.normal (s.set id (some (some v))))
    by_cases hal : (s.var id).isSome
    · rw [if_pos hal]; trivial
    rw [if_neg hal]
    simp only [codeS, plain] at hh ⊢
    rw [codeVar_scalar ht hp] at hh ⊢
    cases i with
    | none => exact Follows.end Reach.refl ⟨rfl, inv0, hpc, rfl, rfl, rfl, rfl⟩
    | some e =>
      simp only at hh ⊢
      obtain ⟨h1, h2⟩ := holds_append.1 hh
      have fe : FitsE (okId C (L.add id t)) false e := fitsE_mono (fun j hj => (ho j hj).1) e _ (hi e rfl)
      refine Follows.value ((claimE ok okc e).1 false _ v base fe h1 hpc (inv0.inv _)) ?_
      rintro x s1 v1 ⟨inv1, sm1, x', rep, up⟩
      rw [rep.exact] at up
      have al : s1.alive id := (sm1.alive id).2 (by simp [Src.alive, Src.set])
      obtain ⟨old, h0⟩ := Option.isSome_iff_exists.1 al
      obtain ⟨v2, r2, inv2, up2⟩ := assign_step (op := .assign) (void := true) (w := x) ok ⟨fun _ => rfl, fun _ _ _ _ h => by cases h⟩ h2 hid.1 inv1 up h0 rfl
      refine Follows.end (r2.weaken (Nat.zero_le _)) ⟨rfl, ⟨inv2.out, inv2.glob, fun j a => ?_⟩, ?_⟩
      · exact inv0.only j (((sm1.trans (same_set al)).alive j).1 a)
      · rw [List.length_append, length_vals, ← Nat.add_assoc]
        exact up2
  | .block _, _, _, _, _, _, f, _, _, _, _, _ | .arr _ _ _ _ _ _ _, _, _, _, _, _, f, _, _, _, _, _ | .case _ _, _, _, _, _, _, f, _, _, _, _, _
  | .default _, _, _, _, _, _, f, _, _, _, _, _ | .switch _ _, _, _, _, _, _, f, _, _, _, _, _ | .expr _, _, _, _, _, _, f, _, _, _, _, _
  | .if_ _ _, _, _, _, _, _, f, _, _, _, _, _ | .ifElse _ _ _, _, _, _, _, _, f, _, _, _, _, _ | .while_ _ _, _, _, _, _, _, f, _, _, _, _, _
  | .do_ _ _, _, _, _, _, _, f, _, _, _, _, _ | .for_ _ _ _ _, _, _, _, _, _, f, _, _, _, _, _ | .continue_, _, _, _, _, _, f, _, _, _, _, _
  | .break_, _, _, _, _, _, f, _, _, _, _, _ | .return_ _, _, _, _, _, _, f, _, _, _, _, _ => by simp [InG] at f

theorem step_funcBeg {M : Load} {v : State} {a : Int} (h0 : M.code[v.pc]? = some IC_FUNC_BEG) (h2 : M.code[v.pc + 2]? = some a) :
    step M v = some { v with pc := a.toNat } := by
  rw [step_at h0]
  show (M.code[v.pc + 2]?).bind _ = _
  rw [h2]; rfl

/-- The declarations of a unit. -/
theorem claimT (ok : C.Ok) (okc : CallsOk C n call) : ∀ (tops : List Top) (L : Layout) (G : List Nat) (s : Src) (v : State) (base : Nat), At C all L G tops →
    Holds C 0 0 base (codeTops L base tops) → v.pc = base → InvG C s v →
    Follows C n v (fun _ s' v' => InvG C s' v' ∧ Upto v v' (base + (codeTops L base tops).length) v.stack) (execTops call n tops s)
  | [], L, G, s, v, base, hA, hh, hpc, inv => Follows.end Reach.refl ⟨inv, hpc, rfl, rfl, rfl, rfl⟩
  | .vars d :: rest, L, G, s, v, base, hA, hh, hpc, inv => by
    rw [codeTops] at hh ⊢
    obtain ⟨h1, h2⟩ := holds_append.1 hh
    have f := hA.inU
    simp only [InU] at f
    have hn := hA.nodup
    simp only [globalsOf, ← List.append_assoc] at hn
    rw [execTops]
    refine Follows.bind (claimG ok okc d L G s v base f.1 (fun j hj => ⟨hA.vars.ok j (fun _ => hj), ?_⟩) (hn.sublist (List.sublist_append_left ..)) h1 hpc inv) ?_
    · rw [hA.global j]
      have := hA.vars.sub j (List.mem_append_left _ hj)
      simpa using this
    · rintro fl s1 v1 ⟨rfl, inv1, up⟩
      rw [if_pos rfl]
      refine (claimT ok okc rest (layS L d) _ s1 v1 _ hA.vars h2 up.pc inv1).mono ?_
      rintro _ s2 v2 ⟨inv2, up2⟩
      refine ⟨inv2, ?_⟩
      have := up.trans up2
      rw [up.stack] at this
      rw [List.length_append, ← Nat.add_assoc]
      exact this
  | .func d :: rest, L, G, s, v, base, hA, hh, hpc, inv => by
    rw [codeTops] at hh ⊢
    obtain ⟨h1, h2⟩ := holds_append.1 hh
    rw [execTops]
    have h1' := h1
    rw [codeT, codeF] at h1'
    simp only [List.append_assoc] at h1'
    have h3 := (holds_append.1 h1').1
    have b0 := (holds_vals_cons.1 h3).1
    have b2 := (holds_vals_cons.1 (holds_vals_cons.1 (holds_vals_cons.1 h3).2).2).1
    subst hpc
    have hlen : v.pc + (codeT L v.pc (.func d)).length = v.pc + 3 + (codeS (layEntry L d) (v.pc + 3) d.body).code.length + 1 := by
      rw [codeT, codeF]; simp [length_vals]; omega
    have hst := step_funcBeg b0 b2
    rw [Int.toNat_natCast, ← hlen] at hst
    refine Follows.start ((reach_step hst).weaken (Nat.zero_le _)) ?_
    refine (claimT ok okc rest (layF L d) G s { v with pc := v.pc + (codeT L v.pc (.func d)).length } _ hA.func h2 rfl ⟨inv.out, inv.glob, inv.only⟩).mono ?_
    rintro _ s2 v2 ⟨inv2, up2⟩
    refine ⟨inv2, ?_⟩
    rw [List.length_append, ← Nat.add_assoc]
    exact ⟨up2.pc, up2.stack, up2.pend, up2.size, up2.frames⟩

end

end RuC.Machine
