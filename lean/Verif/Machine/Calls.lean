import Verif.Machine.Stmts2

/-!
The machine follows calls: by induction on how deep they are.
-/

namespace RuC.Machine

open RuC RuC.Codegen RuC.Instr
open RuC.Expr (Unary Binary)

/-! ### Parameters -/

/-- Parameters of one cell get the cells one after the other. -/
theorem params_cells : ∀ (ps : List (Nat × Ty)) (L : Layout), L.inFunc = true → (∀ p ∈ ps, Scalar p.2) → (ps.map (·.1)).Nodup → L.displ ≤ L.maxLocal →
    (∀ (j id : Nat), (ps.map (·.1))[j]? = some id → (ps.foldl (fun (l : Layout) (p : Nat × Ty) => l.add p.1 p.2) L).displs id = L.displ + j) ∧
    (∀ id, id ∉ ps.map (·.1) → (ps.foldl (fun (l : Layout) (p : Nat × Ty) => l.add p.1 p.2) L).displs id = L.displs id) ∧
    (ps.foldl (fun (l : Layout) (p : Nat × Ty) => l.add p.1 p.2) L).displ = L.displ + ps.length ∧
    (ps.foldl (fun (l : Layout) (p : Nat × Ty) => l.add p.1 p.2) L).maxLocal = max L.maxLocal (L.displ + ps.length) ∧
    (ps.foldl (fun (l : Layout) (p : Nat × Ty) => l.add p.1 p.2) L).inFunc = true ∧
    (ps.foldl (fun (l : Layout) (p : Nat × Ty) => l.add p.1 p.2) L).maxGlobal = L.maxGlobal
  | [], L, hf, _, _, hm => ⟨fun j id h => by simp at h, fun _ _ => rfl, by simp, by simp; omega, hf, rfl⟩
  | p :: ps, L, hf, hs, hn, hm => by
    obtain ⟨sz, nf⟩ := scalar_size (hs p (List.mem_cons_self ..))
    have e0 : (L.add p.1 p.2).displs p.1 = L.displ := by simp [Layout.add, hf, update, nf]
    have e1 : (L.add p.1 p.2).displ = L.displ + 1 := by simp [Layout.add, hf, sz]
    have e2 : (L.add p.1 p.2).maxLocal = max (L.displ + 1) L.maxLocal := by simp [Layout.add, hf, sz]
    have e3 : (L.add p.1 p.2).inFunc = true := by simp [Layout.add, hf]
    have e4 : (L.add p.1 p.2).maxGlobal = L.maxGlobal := by simp [Layout.add, hf]
    simp only [List.map_cons, List.nodup_cons] at hn
    obtain ⟨h1, h2, h3, h4, h5, h6⟩ := params_cells ps (L.add p.1 p.2) e3 (fun q hq => hs q (List.mem_cons_of_mem _ hq)) hn.2 (by omega)
    refine ⟨fun j id h => ?_, fun id h => ?_, ?_, ?_, h5, h6.trans e4⟩
    · cases j with
      | zero =>
        simp at h
        subst h
        rw [List.foldl_cons, h2 _ hn.1, e0]; simp
      | succ j =>
        rw [List.foldl_cons, h1 j id (by simpa using h), e1]
        push_cast; omega
    · simp only [List.map_cons, List.mem_cons, not_or] at h
      rw [List.foldl_cons, h2 id h.2, add_displs h.1]
    · rw [List.foldl_cons, h3, e1, List.length_cons]; push_cast; omega
    · rw [List.foldl_cons, h4, e1, e2, List.length_cons]; push_cast; omega

theorem zip_find {ps : List Nat} {vs : List Int} {id : Nat} {p : Nat × Int} (h : (ps.zip vs).find? (fun p => p.1 == id) = some p) :
    ∃ j : Nat, ps[j]? = some id ∧ vs[j]? = some p.2 := by
  have h1 := List.find?_some h
  obtain ⟨j, hj⟩ := List.mem_iff_getElem?.1 (List.mem_of_find?_eq_some h)
  rw [List.getElem?_zip_eq_some] at hj
  refine ⟨j, ?_, hj.2⟩
  rw [hj.1]; simpa using h1

/-- A parameter, or a global. -/
theorem bind_some {ps vs g id x} (h : bindParams ps vs g id = some x) : (∃ (j : Nat) (w : Int), ps[j]? = some id ∧ vs[j]? = some w ∧ x = some w) ∨ g id = some x := by
  rw [bindParams] at h
  split at h
  · rename_i p hp
    obtain ⟨j, h1, h2⟩ := zip_find hp
    cases h
    exact .inl ⟨j, p.2, h1, h2, rfl⟩
  · exact .inr h

theorem bind_not {ps vs g id} (h : id ∉ ps) : bindParams ps vs g id = g id := by
  rw [bindParams]
  split
  · rename_i p hp
    obtain ⟨j, h1, _⟩ := zip_find hp
    exact absurd (List.mem_of_getElem? h1) h
  · rfl

/-! ### A function -/

/-- A function of the fragment: its parameters are of one cell and have names of their own. -/
structure FitsF (ok : Layout → Nat → Prop) (global : Nat → Bool) (L : Layout) (d : Func) : Prop where
  scalar : ∀ p ∈ d.params, Scalar p.2
  nodup : (d.params.map (·.1)).Nodup
  locals : ∀ id ∈ d.params.map (·.1), global id = false
  apart : ∀ id ∈ d.params.map (·.1), id ∉ d.body.declared
  body : FitsS ok global (layEntry L d) d.body

/-- The machine has the functions: under the number of a function stands the address of its code. -/
def Loaded (C : Ctx) (fs : List Func) : Prop :=
  ∀ f d, fs.find? (fun d => d.id = f ∨ d.prev = some f) = some d →
    ∃ (a : Nat) (L : Layout), 0 ≤ C.F f ∧ C.M.funcs[(C.F f).toNat]? = some (a : Int) ∧ Holds C 0 0 a (codeF L a d) ∧ 3 ≤ L.maxGlobal ∧ FitsF (okId C) C.global L d



theorem decode_call2 : decode IC_CALL2 = .call2 := rfl

section
variable {C : Ctx}

theorem entry_laid {L : Layout} {d : Func} (h : 3 ≤ L.maxGlobal) : Laid (layEntry L d) [] := by
  have h0 : Laid { L with inFunc := true, displ := DISPL_START, maxLocal := DISPL_START } [] :=
    ⟨.nil, by simp, by simp, by show (3 : Int) ≤ DISPL_START; decide, Int.le_refl _, h⟩
  exact h0.grown (params_laid d.params _ [] h0 rfl).2

/-- The frame of a call has the arguments in the cells of the parameters. -/
theorem enter_inv {L0 L : Layout} {d : Func} {s : Src} {v : State} {vs : List Int} {a : Nat} {size : Int} {k : List Int} {ks : List (List Int)}
    (inv : Inv C L0 s v) (fd : FitsF (okId C) C.global L d) (hs : v.stack = vs.reverse) (hn : vs.length = d.params.length) (hsz : (layEntry L d).maxLocal ≤ size) :
    Inv C (layEntry L d) ⟨bindParams (d.params.map (·.1)) vs fun id => if C.global id then s.var id else none, s.out⟩ (v.enter C.M a size k ks) := by
  obtain ⟨p1, p2, p3, p4, p5, _⟩ := params_cells d.params { L with inFunc := true, displ := DISPL_START, maxLocal := DISPL_START } rfl fd.scalar fd.nodup (Int.le_refl _)
  have e1 : ∀ (j id : Nat), (d.params.map (·.1))[j]? = some id → (layEntry L d).displs id = 3 + j := p1
  have e3 : (layEntry L d).displ = 3 + (d.params.length : Int) := p3
  have e4 : (layEntry L d).maxLocal = max 3 (3 + (d.params.length : Int)) := p4
  have el : ∀ (j id : Nat), (d.params.map (·.1))[j]? = some id → j < d.params.length := by
    intro j id h
    rw [List.getElem?_eq_some_iff] at h
    simpa using h.1
  have key : ∀ i x, C.global i = false → bindParams (d.params.map (·.1)) vs (fun id => if C.global id then s.var id else none) i = some x →
      ∃ (j : Nat) (w : Int), (d.params.map (·.1))[j]? = some i ∧ vs[j]? = some w ∧ x = some w := by
    intro i x g h
    rcases bind_some h with h | h
    · exact h
    · simp [g] at h
  have key' : ∀ i, C.global i = false → (bindParams (d.params.map (·.1)) vs (fun id => if C.global id then s.var id else none) i).isSome →
      ∃ j : Nat, (d.params.map (·.1))[j]? = some i := by
    intro i g h
    obtain ⟨x, hx⟩ := Option.isSome_iff_exists.1 h
    obtain ⟨j, w, h1, _⟩ := key i x g hx
    exact ⟨j, h1⟩
  refine ⟨inv.out, fun i x g h => ?_, fun i x g h => ?_, fun i g h => ?_, fun i j gi gj hi hj e => ?_⟩
  · have hn : i ∉ d.params.map (·.1) := by
      intro hm
      rw [fd.locals i hm] at g; cases g
    replace h : bindParams (d.params.map (·.1)) vs (fun id => if C.global id then s.var id else none) i = some (some x) := h
    rw [bind_not hn, if_pos g] at h
    exact inv.glob i x g h
  · obtain ⟨j, w, h1, h2, h3⟩ := key i _ g h
    cases h3
    rw [e1 j i h1]
    show (if (3 : Int) ≤ 3 + j then (v.stack.reverse[(3 + (j : Int) - 3).toNat]?).getD _ else _) = x
    rw [if_pos (by omega), hs, List.reverse_reverse, show (3 + (j : Int) - 3).toNat = j by omega, h2]
    rfl
  · obtain ⟨j, h1⟩ := key' i g h
    have := el j i h1
    rw [e1 j i h1, e3]
    show (3 : Int) ≤ 3 + j ∧ 3 + (j : Int) < size ∧ _
    omega
  · obtain ⟨a, h1⟩ := key' i gi hi
    obtain ⟨b, h2⟩ := key' j gj hj
    rw [e1 a i h1, e1 b j h2] at e
    have : a = b := by omega
    subst this
    rw [h1] at h2
    exact Option.some.inj h2

theorem callsOk (ok : C.Ok) {fs : List Func} (hl : Loaded C fs) : ∀ n, CallsOk C n (callF C.global fs n)
  | 0 => by
    intro L f vs s v k ks inv _ _ _ _
    exact ⟨v, Reach.refl, inv.out⟩
  | n + 1 => by
    intro L0 f vs s v k ks inv hc hF hs hp
    have okc := callsOk ok hl n
    rw [callF]
    cases hd : fs.find? (fun d => d.id = f ∨ d.prev = some f) with
    | none => trivial
    | some d =>
      obtain ⟨a, L, hF0, ha, hh, hg, fd⟩ := hl f d hd
      simp only
      by_cases hn : vs.length = d.params.length
      · rw [if_neg (fun h => h hn)]
        have lay := entry_laid (d := d) hg
        have inf : (layEntry L d).inFunc = true := (params_cells d.params { L with inFunc := true, displ := DISPL_START, maxLocal := DISPL_START } rfl fd.scalar fd.nodup (Int.le_refl _)).2.2.2.2.1
        have e3 : (layEntry L d).displ = 3 + (d.params.length : Int) := (params_cells d.params { L with inFunc := true, displ := DISPL_START, maxLocal := DISPL_START } rfl fd.scalar fd.nodup (Int.le_refl _)).2.2.1
        have gr := grown d.body lay inf
        rw [codeF] at hh
        simp only [List.append_assoc] at hh
        obtain ⟨h1, h2⟩ := holds_append.1 hh
        obtain ⟨h2, h3⟩ := holds_append.1 h2
        have b0 := (holds_vals_cons.1 h1).1
        have b1 := (holds_vals_cons.1 (holds_vals_cons.1 h1).2).1
        have hsize : (layEntry L d).maxLocal ≤ (layS (layEntry L d) d.body).maxLocal := gr.2.maxLocal
        have hst : step C.M v = some (v.enter C.M a (layS (layEntry L d) d.body).maxLocal k ks) := by
          rw [step, hc]
          simp only [Option.bind_some, decode_call2, exec, hF, hp]
          rw [if_neg (by omega), ha]
          simp only [Option.bind_some, Int.toNat_natCast]
          rw [if_pos b0, b1]
          simp only [Option.bind_some]
          rw [if_pos]
          have := lay.max
          rw [hs, List.length_reverse, hn]
          omega
        have inv1 := enter_inv (a := a) (k := k) (ks := ks) (size := (layS (layEntry L d) d.body).maxLocal) inv fd hs hn hsize
        have fr : Fresh ⟨bindParams (d.params.map (·.1)) vs fun id => if C.global id then s.var id else none, s.out⟩ d.body.declared := by
          intro id hid al
          have g := fits_declared d.body _ fd.body id hid
          have hnp : id ∉ d.params.map (·.1) := fun hm => fd.apart id hm hid
          unfold Src.alive at al
          replace al : (bindParams (d.params.map (·.1)) vs (fun id => if C.global id then s.var id else none) id).isSome := al
          rw [bind_not hnp, if_neg (by simp [g])] at al
          cases al
        have body := claimS ok okc d.body (layEntry L d) 0 0 ⟨v.pc + 2, v.size, v.cells, k, ks⟩ v.frames
          ⟨bindParams (d.params.map (·.1)) vs fun id => if C.global id then s.var id else none, s.out⟩ (v.enter C.M a (layS (layEntry L d) d.body).maxLocal k ks) (a + 3)
          fd.body lay inf (Int.le_refl _) fr rfl h2 rfl inv1
        refine Follows.later (reach_step hst) ?_
        refine body.bind fun fl s1 v1 hend => ?_
        have back : ∀ (r : Option Int) (v2 : State), Returned C ⟨v.pc + 2, v.size, v.cells, k, ks⟩ v.frames r.toList s1 v2 →
            Scoped ⟨bindParams (d.params.map (·.1)) vs fun id => if C.global id then s.var id else none, s.out⟩ s1 d.body.declared →
            Inv C L0 ⟨fun id => if C.global id then s1.var id else s.var id, s1.out⟩ v2 ∧ Same s ⟨fun id => if C.global id then s1.var id else s.var id, s1.out⟩ ∧
              v2.pc = v.pc + 2 ∧ v2.stack = r.toList ++ k ∧ v2.pend = ks ∧ v2.size = v.size ∧ v2.frames = v.frames := by
          intro r v2 hr sc
          have same : Same s ⟨fun id => if C.global id then s1.var id else s.var id, s1.out⟩ := by
            intro id
            show (if C.global id = true then s1.var id else s.var id).isSome = _
            by_cases g : C.global id = true
            · rw [if_pos g]
              have hnp : id ∉ d.params.map (·.1) := by
                intro hm; rw [fd.locals id hm] at g; cases g
              have hnd : id ∉ d.body.declared := by
                intro hm; rw [fits_declared d.body _ fd.body id hm] at g; cases g
              have e : bindParams (d.params.map (·.1)) vs (fun id => if C.global id then s.var id else none) id = s.var id := by
                rw [bind_not hnp, if_pos g]
              have i1 := sc.keeps id
              have i2 := sc.new id
              unfold Src.alive at i1 i2
              simp only [e] at i1 i2
              have i3 : (s1.var id).isSome → (s.var id).isSome := fun h => (i2 h).elim (fun x => x) (fun x => absurd x hnd)
              cases h1 : (s.var id).isSome <;> cases h2 : (s1.var id).isSome <;> simp_all
            · rw [if_neg g]
          refine ⟨⟨hr.out, fun i x g h => ?_, fun i x g h => ?_, fun i g h => ?_, fun i j gi gj hi hj e => ?_⟩, same, hr.pc, hr.stack, hr.pend, hr.size, hr.frames⟩
          · replace h : (if C.global i = true then s1.var i else s.var i) = some (some x) := h
            rw [if_pos g] at h
            exact hr.glob i x g h
          · replace h : (if C.global i = true then s1.var i else s.var i) = some (some x) := h
            rw [if_neg (by simp [g])] at h
            rw [hr.cells]
            exact inv.loc i x g h
          · rw [same i] at h
            rw [hr.size]
            exact inv.range i g h
          · rw [same i] at hi
            rw [same j] at hj
            exact inv.inj i j gi gj hi hj e
        cases fl with
        | brk => trivial
        | cont => trivial
        | ret r =>
          obtain ⟨hr, sc⟩ := hend
          exact ⟨v1, Reach.refl, back r v1 hr sc⟩
        | normal =>
          obtain ⟨i1, sc, junk, up⟩ := hend
          have hpc : v1.pc = a + 3 + (codeS (layEntry L d) (a + 3) d.body).code.length := up.pc
          have hfr : v1.frames = ⟨v.pc + 2, v.size, v.cells, k, ks⟩ :: v.frames := up.frames
          have hret := step_retVoid (M := C.M) (v := v1) (by rw [hpc]; exact holds_one h3) hfr
          exact ⟨_, (reach_step hret).weaken (Nat.zero_le _), back none _ ⟨i1.out, i1.glob, rfl, rfl, rfl, rfl, rfl, rfl⟩ (sc.weaken (opens_declared d.body))⟩
      · rw [if_pos hn]; trivial

end

end RuC.Machine
