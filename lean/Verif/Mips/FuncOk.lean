import Verif.Mips.AllOk

/-!
# Lemmas: the text of a function does what the function does
-/

namespace RuC.Mips
open Llvm (Ty Arith Cmp Un Inc Exp Args Stmt Stmts Func V World S Flow arithV unV incV fit evalE evalA execS execB execD leave Calls callF)

/-! ## Registers kept on the stack -/

theorem addr_sp {m : M} {P : Nat} (hP : (m.reg R_SP).toNat = P) (h4 : P % 4 = 0) (h64 : 64 ≤ P) (h32 : P ≤ 2147483648) {d : Int} (h1 : -60 ≤ d) (h2 : d ≤ -4) (h3 : d % 4 = 0) :
    m.addr d R_SP = some ((P : Int) + d) := by
  unfold M.addr
  rw [hP, if_pos (by omega)]

theorem save_ok {P : Nat} (h4 : P % 4 = 0) (h64 : 64 ≤ P) (h32 : P ≤ 2147483648) : ∀ (l : List (Nat × Int)) (m : M), (m.reg R_SP).toNat = P →
    (∀ x ∈ l, -60 ≤ x.2 ∧ x.2 ≤ -4 ∧ x.2 % 4 = 0) → (l.map (·.2)).Nodup →
    ∃ m', runL (l.map fun r => .sw (.reg r.1) r.2 R_SP) m = some m' ∧ m'.reg = m.reg ∧ (∀ x ∈ l, m'.mem ((P : Int) + x.2) = m.reg x.1) ∧
      ∀ a, (∀ x ∈ l, a ≠ (P : Int) + x.2) → m'.mem a = m.mem a
  | [], m, _, _, _ => ⟨m, rfl, rfl, fun x hx => (by cases hx), fun _ _ => rfl⟩
  | x :: l, m, hP, hl, hn => by
    simp only [List.map_cons, List.nodup_cons] at hn
    obtain ⟨h1, h2, h3⟩ := hl x (List.mem_cons_self ..)
    have ha := addr_sp hP h4 h64 h32 h1 h2 h3
    obtain ⟨m', r1, r2, r3, r4⟩ := save_ok h4 h64 h32 l { m with pc := m.pc + 1, mem := fun b => if b = (P : Int) + x.2 then m.reg x.1 else m.mem b } hP
      (fun z hz => hl z (List.mem_cons_of_mem _ hz)) hn.2
    refine ⟨m', ?_, r2, fun z hz => ?_, fun a h => ?_⟩
    · simp only [List.map_cons, runL, flat, if_true, exec, M.regOf, Option.bind_some, ha, Option.map_some]
      exact r1
    · rcases List.mem_cons.1 hz with rfl | hz
      · rw [r4 _ (fun w hw he => hn.1 (List.mem_map.2 ⟨w, hw, by omega⟩))]
        simp
      · exact r3 z hz
    · rw [r4 a (fun w hw => h w (List.mem_cons_of_mem _ hw))]
      simp only
      rw [if_neg (h x (List.mem_cons_self ..))]

theorem load_ok {P : Nat} (h4 : P % 4 = 0) (h64 : 64 ≤ P) (h32 : P ≤ 2147483648) : ∀ (l : List (Nat × Int)) (m : M), (m.reg R_SP).toNat = P →
    (∀ x ∈ l, -60 ≤ x.2 ∧ x.2 ≤ -4 ∧ x.2 % 4 = 0 ∧ x.1 ≠ R_SP) → (l.map (·.1)).Nodup →
    ∃ m', runL (l.map fun r => .lw r.1 r.2 R_SP) m = some m' ∧ m'.mem = m.mem ∧ (∀ x ∈ l, m'.reg x.1 = m.mem ((P : Int) + x.2)) ∧ ∀ r, r ∉ l.map (·.1) → m'.reg r = m.reg r
  | [], m, _, _, _ => ⟨m, rfl, rfl, fun x hx => (by cases hx), fun _ _ => rfl⟩
  | x :: l, m, hP, hl, hn => by
    simp only [List.map_cons, List.nodup_cons] at hn
    obtain ⟨h1, h2, h3, hs⟩ := hl x (List.mem_cons_self ..)
    have ha := addr_sp hP h4 h64 h32 h1 h2 h3
    obtain ⟨m', r1, r2, r3, r4⟩ := load_ok h4 h64 h32 l (m.set x.1 (m.mem ((P : Int) + x.2))) (by simp only [M.set]; rw [if_neg (fun h => hs h.symm)]; exact hP)
      (fun z hz => hl z (List.mem_cons_of_mem _ hz)) hn.2
    refine ⟨m', ?_, r2, fun z hz => ?_, fun r hr => ?_⟩
    · simp only [List.map_cons, runL, flat, if_true, exec, ha, Option.map_some, Option.bind_some]
      exact r1
    · rcases List.mem_cons.1 hz with rfl | hz
      · rw [r4 _ hn.1]
        simp [M.set]
      · exact r3 z hz
    · simp only [List.map_cons, List.mem_cons, not_or] at hr
      rw [r4 r hr.2]
      simp [M.set, hr.1]

theorem kept_ok : (∀ x ∈ kept, -60 ≤ x.2 ∧ x.2 ≤ -4 ∧ x.2 % 4 = 0) ∧ (kept.map (·.2)).Nodup := by decide
theorem takenBack_ok : (∀ x ∈ takenBack, -60 ≤ x.2 ∧ x.2 ≤ -4 ∧ x.2 % 4 = 0 ∧ x.1 ≠ R_SP) ∧ (takenBack.map (·.1)).Nodup := by decide
theorem back_kept : ∀ x ∈ takenBack, x ∈ kept := by decide
theorem kept_back : ∀ x ∈ kept, x ∈ takenBack := by decide
theorem saved_kept : ∀ r, 16 ≤ r → r < 24 → ∃ d, (r, d) ∈ kept := fun r h1 h2 => by
  have : r = 16 ∨ r = 17 ∨ r = 18 ∨ r = 19 ∨ r = 20 ∨ r = 21 ∨ r = 22 ∨ r = 23 := by omega
  rcases this with rfl | rfl | rfl | rfl | rfl | rfl | rfl | rfl
  · exact ⟨-12, by decide⟩
  · exact ⟨-16, by decide⟩
  · exact ⟨-20, by decide⟩
  · exact ⟨-24, by decide⟩
  · exact ⟨-28, by decide⟩
  · exact ⟨-32, by decide⟩
  · exact ⟨-36, by decide⟩
  · exact ⟨-40, by decide⟩

/-! ## Parameters -/

theorem params_same : ∀ (l : List (Nat × Ty)) (i : Nat) (e : Enc), params e i l = { e with table := (params e i l).table }
  | [], _, _ => rfl
  | (id, _) :: l, i, e => by
    rw [params]
    exact params_same l (i + 1) _

/-- The place of the parameter with the number `k`. -/
def placeP (k : Nat) : Lv := if k < 4 then .reg (R_A0 + k) else .stack (4 * k + 64) R_FP

theorem params_other : ∀ (l : List (Nat × Ty)) (i : Nat) (e : Enc) (id : Nat), id ∉ l.map (·.1) → (params e i l).table id = e.table id
  | [], _, _, _, _ => rfl
  | (j, _) :: l, i, e, id, h => by
    simp only [List.map_cons, List.mem_cons, not_or] at h
    rw [params, params_other l (i + 1) _ id h.2]
    simp only
    rw [if_neg h.1]

theorem params_at : ∀ (l : List (Nat × Ty)) (i : Nat) (e : Enc) (k id : Nat) (ty : Ty), (l.map (·.1)).Nodup → l[k]? = some (id, ty) → (params e i l).table id = placeP (i + k)
  | [], _, _, _, _, _, _, h => by simp at h
  | (j, _) :: l, i, e, 0, id, ty, hn, h => by
    simp only [List.getElem?_cons_zero, Option.some.injEq, Prod.mk.injEq] at h
    simp only [List.map_cons, List.nodup_cons] at hn
    obtain ⟨rfl, -⟩ := h
    rw [params, params_other l (i + 1) _ j hn.1]
    simp only [if_true, Nat.add_zero, placeP]
  | (j, _) :: l, i, e, k + 1, id, ty, hn, h => by
    simp only [List.getElem?_cons_succ] at h
    simp only [List.map_cons, List.nodup_cons] at hn
    rw [params, params_at l (i + 1) _ k id ty hn.2 h]
    congr 1; omega

theorem bind_ok : ∀ (ps : List (Nat × Ty)) (vs : List V) (f : Nat → Option (Option V)), Llvm.bind ps vs = some f →
    ps.length = vs.length ∧ ∀ id x, f id = some x → ∃ (k : Nat) (ty : Ty) (v : V), ps[k]? = some (id, ty) ∧ vs[k]? = some v ∧ x = some v
  | [], [], f, h => by
    simp only [Llvm.bind, Option.some.injEq] at h
    subst h
    exact ⟨rfl, fun id x h => by cases h⟩
  | [], _ :: _, f, h => by simp [Llvm.bind] at h
  | _ :: _, [], f, h => by simp [Llvm.bind] at h
  | (j, ty) :: ps, v :: vs, f, h => by
    simp only [Llvm.bind, Option.bind_eq_bind, Option.bind_eq_some_iff] at h
    obtain ⟨g, hg, h⟩ := h
    obtain ⟨h1, h2⟩ := bind_ok ps vs g hg
    split at h
    · simp only [Option.some.injEq] at h
      subst h
      refine ⟨by simp [h1], fun id x hx => ?_⟩
      simp only at hx
      split at hx
      · rename_i hj
        cases hx
        exact ⟨0, ty, v, by simp [hj], by simp, rfl⟩
      · obtain ⟨k, ty', v', e1, e2, e3⟩ := h2 id x hx
        exact ⟨k + 1, ty', v', by simpa using e1, by simpa using e2, e3⟩
    · cases h

/-- A body that ends with `return` does not come to its end. -/
theorem returns_ok {isLocal : Nat → Bool} {call : Calls} {n : Nat} : ∀ (b : Stmts) (s s' : S), returns b = true → execB isLocal call n b s ≠ some (.normal, s')
  | .nil, s, s', h, _ => by cases h
  | .cons a rest, s, s', h, he => by
    simp only [execB, Option.bind_eq_bind, Option.bind_eq_some_iff] at he
    obtain ⟨⟨f, s1⟩, h1, he⟩ := he
    simp only at h1 he
    split at he
    · rename_i hf
      subst hf
      by_cases hr : returns rest = true
      · exact returns_ok rest s1 s' hr he
      · unfold returns at h
        split at h
        · cases h
        · rename_i heq
          simp only [Stmts.cons.injEq] at heq
          obtain ⟨rfl, rfl⟩ := heq
          simp only [execS, Option.bind_eq_bind, Option.bind_eq_some_iff, Option.some.injEq, Prod.mk.injEq, reduceCtorEq, false_and, and_false, exists_false] at h1
        · rename_i heq
          simp only [Stmts.cons.injEq] at heq
          obtain ⟨-, rfl⟩ := heq
          exact hr h
    · rename_i hf
      simp only [Option.some.injEq, Prod.mk.injEq] at he
      exact hf he.1

/-! ## A function -/

/-- The labels of a function. -/
def labelsF (main : Nat) (f : Func) : List Instr := [.label ⟨.func, f.id⟩] ++ (if f.id = main then [.label ⟨.main, 0⟩] else [])

/-- The state at the beginning of the body. -/
def enter (f : Func) (e : Enc) : Enc := params { e with fn := f.id, maxd := 0, scope := 0 } 0 f.params

theorem enter_fields (f : Func) (e : Enc) : (enter f e).fn = f.id ∧ (enter f e).maxd = 0 ∧ (enter f e).scope = 0 ∧ (enter f e).busy = e.busy := by
  unfold enter
  rw [params_same]
  exact ⟨rfl, rfl, rfl, rfl⟩

/-- The place of a parameter. -/
theorem placeP_reg {k r : Nat} (h : placeP k = .reg r) : k < 4 ∧ r = 4 + k := by
  unfold placeP at h
  split at h
  · rename_i hk
    simp only [Lv.reg.injEq, R_A0] at h
    exact ⟨hk, h.symm⟩
  · cases h

theorem placeP_stack {k b : Nat} {d : Int} (h : placeP k = .stack d b) : 4 ≤ k ∧ b = R_FP ∧ d = 4 * k + 64 := by
  unfold placeP at h
  split at h
  · cases h
  · simp only [Lv.stack.injEq] at h
    exact ⟨by omega, h.2.symm, h.1.symm⟩

theorem placeP_inj {k k' : Nat} (h : placeP k = placeP k') : k = k' := by
  cases hp : placeP k with
  | reg r =>
    have h1 := placeP_reg hp
    have h2 := placeP_reg (h ▸ hp)
    omega
  | stack d b =>
    have h1 := placeP_stack hp
    have h2 := placeP_stack (h ▸ hp)
    omega

section
variable {isLocal : Nat → Bool} {call : Calls} {par : Nat → Bool} {pos : Nat → Option Nat} {TG : Nat → Lv} {code : List Instr}

/-- The state of the program and of the machine at the beginning of the body. -/
theorem enter_here {f : Func} {e : Enc} {y : Lay} {vs : List V} {var : Nat → Option (Option V)} {w : World} {m m1 : M} {P : Nat} (hy : y.Ok)
    (hst : Stat isLocal par pos TG (enter f e)) (hnd : (varsF f).Nodup) (hloc : ∀ id ∈ varsF f, isLocal id = true) (hnp : y.np = f.params.length) (hF : y.F + 64 = P)
    (hgl : y.G + y.gd ≤ y.L) (hL : y.L + 64 ≤ P)
    (hb : Llvm.bind f.params vs = some var) (hargs : ∀ (k : Nat) (u : V), vs[k]? = some u → stands u (if k < 4 then m.reg (4 + k) else m.mem ((P : Int) + 4 * (k : Nat)))) (hGO : GOk isLocal y.G y.gd TG w m)
    (hB : Base y m1) (hsp : (m1.reg R_SP).toNat + 4 + y.lo = y.F) (hreg : ∀ r, r ≠ R_FP → r ≠ R_SP → m1.reg r = m.reg r)
    (hmem : ∀ a : Int, a < (P : Int) - 60 ∨ (P : Int) ≤ a → m1.mem a = m.mem a) : Here isLocal y (enter f e) ⟨var, w⟩ m1 := by
  obtain ⟨hlen, hvar⟩ := bind_ok _ _ _ hb
  have hndp : (f.params.map (·.1)).Nodup := (List.nodup_append.1 hnd).1
  have hpl : ∀ k id ty, f.params[k]? = some (id, ty) → (enter f e).table id = placeP k ∧ k < y.np := fun k id ty h => by
    refine ⟨by have := params_at f.params 0 { e with fn := f.id, maxd := 0, scope := 0 } k id ty hndp h; rwa [Nat.zero_add] at this, ?_⟩
    rw [hnp]
    exact (List.getElem?_eq_some_iff.1 h).1
  have hl : ∀ id, dom isLocal ⟨var, w⟩ id = true → isLocal id = true → ∃ k ty v, f.params[k]? = some (id, ty) ∧ vs[k]? = some v ∧ var id = some (some v) := fun id hd hl => by
    unfold dom at hd
    rw [hl, if_pos rfl] at hd
    obtain ⟨x, hx⟩ := Option.isSome_iff_exists.1 hd
    obtain ⟨k, ty, v, h1, h2, h3⟩ := hvar id x hx
    exact ⟨k, ty, v, h1, h2, by rw [← h3]; exact hx⟩
  have hg : ∀ id, dom isLocal ⟨var, w⟩ id = true → isLocal id = false → (w.glob id).isSome = true := fun id hd hl => by
    unfold dom at hd
    rw [hl] at hd
    simpa using hd
  refine ⟨⟨fun id hd => ?_, fun id hd hli d b ht => ?_, fun id hd hli => ?_, fun id id' hd hd' he => ?_⟩, fun id v hv _ => ?_, hB, hsp⟩
  · cases hli : isLocal id with
    | true =>
      obtain ⟨k, ty, v, h1, -, -⟩ := hl id hd hli
      obtain ⟨h2, h3⟩ := hpl k id ty h1
      rw [h2]
      cases hp : placeP k with
      | reg r =>
        obtain ⟨h4, h5⟩ := placeP_reg hp
        exact ⟨by omega, by omega, by omega⟩
      | stack d b =>
        obtain ⟨h4, h5, h6⟩ := placeP_stack hp
        exact ⟨by omega, .inl ⟨h5, .inr ⟨by omega, by omega⟩⟩⟩
    | false =>
      obtain ⟨d, h1, h2, h3, h4⟩ := hGO.place id hli (hg id hd hli)
      rw [hst.glob id hli, h1]
      exact ⟨h4, .inr ⟨rfl, h2, h3⟩⟩
  · obtain ⟨k, ty, v, h1, -, -⟩ := hl id hd hli
    obtain ⟨h2, h3⟩ := hpl k id ty h1
    rw [h2] at ht
    obtain ⟨h4, h5, h6⟩ := placeP_stack ht
    exact ⟨h5, by omega⟩
  · obtain ⟨d, h1, -⟩ := hGO.place id hli (hg id hd hli)
    exact ⟨d, by rw [hst.glob id hli]; exact h1⟩
  · cases hli : isLocal id with
    | true =>
      obtain ⟨k, ty, v, h1, -, -⟩ := hl id hd hli
      obtain ⟨h2, h3⟩ := hpl k id ty h1
      cases hli' : isLocal id' with
      | true =>
        obtain ⟨k', ty', v', h1', -, -⟩ := hl id' hd' hli'
        obtain ⟨h2', h3'⟩ := hpl k' id' ty' h1'
        rw [h2, h2'] at he
        have := placeP_inj he
        subst this
        rw [h1] at h1'
        simp only [Option.some.injEq, Prod.mk.injEq] at h1'
        exact h1'.1
      | false =>
        obtain ⟨d, h4, -⟩ := hGO.place id' hli' (hg id' hd' hli')
        rw [h2, hst.glob id' hli', h4] at he
        have := placeP_stack he
        simp only [R_GP, R_FP] at this
        omega
    | false =>
      obtain ⟨d, h4, -⟩ := hGO.place id hli (hg id hd hli)
      cases hli' : isLocal id' with
      | true =>
        obtain ⟨k', ty', v', h1', -, -⟩ := hl id' hd' hli'
        obtain ⟨h2', h3'⟩ := hpl k' id' ty' h1'
        rw [h2', hst.glob id hli, h4] at he
        have := placeP_stack he.symm
        simp only [R_GP, R_FP] at this
        omega
      | false => exact hGO.inj id id' hli hli' (hg id hd hli) (hg id' hd' hli') (by rw [← hst.glob id hli, ← hst.glob id' hli']; exact he)
  · cases hli : isLocal id with
    | true =>
      obtain ⟨k, ty, v', h1, h2, h3⟩ := hl id (val_dom hv) hli
      obtain ⟨h4, h5⟩ := hpl k id ty h1
      unfold val at hv
      rw [hli, if_pos rfl] at hv
      simp only [h3, Option.join_some, Option.some.injEq] at hv
      subst hv
      have := hargs k v' h2
      rw [h4]
      unfold placeP
      split
      · rename_i hk
        rw [if_pos hk] at this
        simp only [Lay.at, R_A0]
        rw [hreg (4 + k) (by simp only [R_FP]; omega) (by simp only [R_SP]; omega)]
        exact this
      · rename_i hk
        rw [if_neg hk] at this
        simp only [Lay.at, Lay.adr, if_true]
        rw [show (y.F : Int) + (4 * (k : Int) + 64) = (P : Int) + 4 * (k : Nat) by omega, hmem _ (.inr (by omega))]
        exact this
    | false =>
      obtain ⟨d, h1, h2, h3, h4⟩ := hGO.place id hli (hg id (val_dom hv) hli)
      unfold val at hv
      rw [hli] at hv
      have := hGO.vals id d v hli (by simpa using hv) h1
      rw [hst.glob id hli, h1]
      simp only [Lay.at, Lay.adr]
      rw [if_neg (by decide), hmem _ (.inl (by omega))]
      exact this

/-- What stands in front of the body. -/
def frontF (isLocal : Nat → Bool) (f : Func) (e : Enc) : List Instr :=
  kept.map (fun r => .sw (.reg r.1) r.2 R_SP) ++
    ([.op true .add (.reg R_FP) (.reg R_SP) (.imm (-64))] ++ [.op true .add (.reg R_SP) (.reg R_FP) (.imm (-(4 + (emitS isLocal (.block f.body) (enter f e)).2.maxd : Nat)))])

/-- What stands behind the body. -/
def backF (f : Func) : List Instr :=
  [.label ⟨.funcEnd, f.id⟩] ++ ([.op true .add (.reg R_SP) (.reg R_FP) (.imm 64)] ++ takenBack.map (fun r => .lw r.1 r.2 R_SP))

theorem emitF_parts (main : Nat) (f : Func) (e : Enc) :
    (emitF isLocal main f e).1 = labelsF main f ++ frontF isLocal f e ++ (emitB isLocal f.body (enter f e)).1 ++ backF f ++ [.jr R_RA] := by
  simp only [emitF, labelsF, frontF, backF, enter, emitS, List.append_assoc, List.cons_append, List.nil_append]

/-- The registers are kept and a frame is made. -/
theorem front_ok {f : Func} {e : Enc} {m : M} {P : Nat} (hP : (m.reg R_SP).toNat = P) (h4 : P % 4 = 0) (h64 : 68 + (emitS isLocal (.block f.body) (enter f e)).2.maxd ≤ P) (h32 : P < 2147483648) :
    ∃ m1, runL (frontF isLocal f e) m = some m1 ∧ (∀ r, r ≠ R_FP → r ≠ R_SP → m1.reg r = m.reg r) ∧ (m1.reg R_FP).toNat + 64 = P ∧
      (m1.reg R_SP).toNat + 68 + (emitS isLocal (.block f.body) (enter f e)).2.maxd = P ∧ (∀ x ∈ kept, m1.mem ((P : Int) + x.2) = m.reg x.1) ∧
      ∀ a : Int, a < (P : Int) - 60 ∨ (P : Int) ≤ a → m1.mem a = m.mem a := by
  unfold frontF
  generalize (emitS isLocal (.block f.body) (enter f e)).2.maxd = N at *
  obtain ⟨ma, a1, a2, a3, a4⟩ := save_ok h4 (by omega) (by omega) kept m hP kept_ok.1 kept_ok.2
  have hPa : (ma.reg R_SP).toNat = P := by rw [a2]; exact hP
  obtain ⟨z, b1, b2⟩ := addi_ok (m := ma) (d := R_FP) (r := R_SP) (k := -64) (by omega) (by omega) (by omega)
  have hz : ((ma.set R_FP z).reg R_FP).toNat = z.toNat := by simp [M.set]
  obtain ⟨q, c1, c2⟩ := addi_ok (m := ma.set R_FP z) (d := R_SP) (r := R_FP) (k := -(4 + N : Nat)) (by omega) (by omega) (by omega)
  refine ⟨_, runL_some a1 (runL_some b1 c1), fun r h1 h2 => ?_, ?_, ?_, fun x hx => ?_, fun a ha => ?_⟩
  · simp only [M.set]
    rw [if_neg h2, if_neg h1, a2]
  · simp only [M.set, R_FP, R_SP, Nat.reduceEqDiff, if_false, if_true]
    omega
  · simp only [M.set, if_true]
    omega
  · exact a3 x hx
  · refine a4 a (fun x hx => ?_)
    have := kept_ok.1 x hx
    omega

/-- The registers are taken back. -/
theorem back_ok {f : Func} {m : M} {P : Nat} (hP : (m.reg R_FP).toNat + 64 = P) (h4 : P % 4 = 0) (h32 : P < 2147483648) :
    ∃ m1, runL (backF f) m = some m1 ∧ m1.mem = m.mem ∧ (m1.reg R_SP).toNat = P ∧ (∀ x ∈ kept, m1.reg x.1 = m.mem ((P : Int) + x.2)) ∧
      ∀ r, r ≠ R_SP → r ∉ takenBack.map (·.1) → m1.reg r = m.reg r := by
  unfold backF
  have h0 : runL [.label ⟨.funcEnd, f.id⟩] m = some { m with pc := m.pc + 1 } := rfl
  obtain ⟨z, b1, b2⟩ := addi_ok (m := { m with pc := m.pc + 1 }) (d := R_SP) (r := R_FP) (k := 64) (by simp only; omega) (by omega) (by simp only; omega)
  simp only at b2
  have hz : (({ m with pc := m.pc + 1 } : M).set R_SP z).reg R_SP = z := by simp [M.set]
  obtain ⟨m1, c1, c2, c3, c4⟩ := load_ok h4 (by omega) (by omega) takenBack (({ m with pc := m.pc + 1 } : M).set R_SP z) (by rw [hz]; omega) takenBack_ok.1 takenBack_ok.2
  refine ⟨m1, runL_some h0 (runL_some b1 c1), c2, ?_, fun x hx => c3 x (kept_back x hx), fun r h1 h2 => ?_⟩
  · rw [c4 R_SP (by decide), hz]; omega
  · rw [c4 r h2]
    simp [M.set, h1]

theorem func_ok {main n G gd L room P : Nat} {f : Func} {e : Enc} {vs : List V} {var : Nat → Option (Option V)} {w : World} {s' : S} {flow : Flow} {v : Option V} {m : M} {pre post : List Instr}
    (hc : code = pre ++ (emitF isLocal main f e).1 ++ post) (hsmall : code.length < 4294967296) (honce : (labs code).Nodup)
    (hst : Stat isLocal par pos TG (enter f e)) (hk : okF par pos main f = true) (hnd : (varsF f).Nodup) (hloc : ∀ id ∈ varsF f, isLocal id = true)
    (hten : (emitF isLocal main f e).2.busy 10 = false) (hC : Callee code isLocal G gd L TG call room) (hG4 : G % 4 = 0) (hgl : G + gd ≤ L)
    (hpc : m.pc = (pre ++ labelsF main f).length) (hP : (m.reg R_SP).toNat = P) (h4 : P % 4 = 0) (hroom : L + room + 68 + (emitF isLocal main f e).2.maxd ≤ P)
    (hhigh : P + 4 * vs.length < 2147483648) (hGP : (m.reg R_GP).toNat = G)
    (hargs : ∀ (k : Nat) (u : V), vs[k]? = some u → stands u (if k < 4 then m.reg (4 + k) else m.mem ((P : Int) + 4 * (k : Nat)))) (hGO : GOk isLocal G gd TG w m)
    (hb : Llvm.bind f.params vs = some var) (hev : execB isLocal call n f.body ⟨var, w⟩ = some (flow, s')) (hv : flow = .ret v ∨ flow = .normal ∧ v = none) :
    ∃ m', Reach code m m' ∧ Ret isLocal G gd L P vs.length TG v w s'.w m m' := by
  have hnp := (bind_ok _ _ _ hb).1
  obtain ⟨ef1, ef2, ef3, -⟩ := enter_fields f e
  simp only [okF, Bool.and_eq_true, Bool.not_eq_true'] at hk
  obtain ⟨⟨⟨hok, hsb⟩, hsc⟩, -⟩ := hk
  have hgr := growS (par := par) (pos := pos) isLocal (.block f.body) (enter f e) hok
  have hmax : (emitF isLocal main f e).2 = (emitS isLocal (.block f.body) (enter f e)).2 := rfl
  rw [hmax] at hten hroom
  have hmaxB : (emitB isLocal f.body (enter f e)).2.maxd ≤ (emitS isLocal (.block f.body) (enter f e)).2.maxd := Nat.le_max_right ..
  have hmod : (emitS isLocal (.block f.body) (enter f e)).2.maxd % 4 = 0 := hgr.1.modd (by rw [ef3]) (by rw [ef2])
  obtain ⟨m1, a1, a2, a3, a4, a5, a6⟩ := front_ok (isLocal := isLocal) (f := f) (e := e) hP h4 (by omega) (by omega)
  rw [emitF_parts] at hc
  obtain ⟨ra, pa⟩ := reach_runL (code := code) (pre := pre ++ labelsF main f) (c := frontF isLocal f e) (post := (emitB isLocal f.body (enter f e)).1 ++ backF f ++ [.jr R_RA] ++ post)
    (by rw [hc]; simp) hpc a1
  have hend : code = (pre ++ labelsF main f ++ frontF isLocal f e ++ (emitB isLocal f.body (enter f e)).1) ++ .label ⟨.funcEnd, f.id⟩ ::
      ([.op true .add (.reg R_SP) (.reg R_FP) (.imm 64)] ++ takenBack.map (fun r => .lw r.1 r.2 R_SP) ++ [.jr R_RA] ++ post) := by rw [hc]; simp [backF]
  generalize hN : (emitS isLocal (.block f.body) (enter f e)).2.maxd = N at *
  have cx : Ctx isLocal ⟨P - 64, G, L, N, f.params.length, gd⟩ call TG room code :=
    ⟨⟨by simp only; omega, hG4, by simp only; omega, by simp only; omega, hgl⟩, hC, by simp only; omega, hmod, hsmall, honce⟩
  have hhere : Here isLocal ⟨P - 64, G, L, N, f.params.length, gd⟩ (enter f e) ⟨var, w⟩ m1 :=
    enter_here cx.ok hst hnd hloc rfl (by simp only; omega) hgl (by simp only; omega) hb hargs hGO
      ⟨by simp only; omega, by rw [a2 R_GP (by decide) (by decide)]; exact hGP⟩ (by simp only; omega) a2 a6
  have hfresh : ∀ id ∈ declsB f.body, isLocal id = true ∧ var id = none := fun id hid => by
    refine ⟨hloc id (List.mem_append_right _ hid), ?_⟩
    cases hx : var id with
    | none => rfl
    | some x =>
      obtain ⟨k, ty, u, h1, -⟩ := (bind_ok _ _ _ hb).2 id x hx
      exact absurd rfl ((List.nodup_append.1 hnd).2.2 id (List.mem_map.2 ⟨_, List.mem_of_getElem? h1, rfl⟩) id hid)
  obtain ⟨m2, w2⟩ := block_ok cx n f.body hok (enter f e) ⟨var, w⟩ s' m1 flow (pre ++ labelsF main f ++ frontF isLocal f e) (backF f ++ [.jr R_RA] ++ post)
    ⟨hst, hhere, hfresh, (List.nodup_append.1 hnd).2.1, hmaxB, hten, fun h => (by rw [hsb] at h; cases h), fun h => (by rw [hsc] at h; cases h), by rw [ef1]; exact in_labs hend⟩
    (by rw [hc]; simp) pa hev
  have hthere : m2.pc = (pre ++ labelsF main f ++ frontF isLocal f e ++ (emitB isLocal f.body (enter f e)).1).length ∧ ∀ u, v = some u → stands u (m2.reg R_V0) := by
    rcases hv with rfl | ⟨rfl, rfl⟩
    · obtain ⟨h1, h2⟩ := w2.there
      rw [ef1, at_label cx hend] at h1
      exact ⟨(Option.some.inj h1).symm, h2⟩
    · exact ⟨w2.there, fun u h => by cases h⟩
  have hbase := w2.done.keep.base hhere.base
  obtain ⟨m3, b1, b2, b3, b4, b5⟩ := back_ok (f := f) (m := m2) (P := P) (by rw [hbase.fp]; simp only; omega) h4 (by omega)
  obtain ⟨rb, pb⟩ := reach_runL (code := code) (pre := pre ++ labelsF main f ++ frontF isLocal f e ++ (emitB isLocal f.body (enter f e)).1) (c := backF f) (post := [.jr R_RA] ++ post)
    (by rw [hc]; simp) hthere.1 b1
  have rc : Reach code m3 { m3 with pc := (m3.reg R_RA).toNat } := Reach.one (by
    rw [step_at (i := .jr R_RA) (post := post) (by rw [hc]; simp) pb]; rfl)
  have hkeep : ∀ x ∈ kept, m3.reg x.1 = m.reg x.1 := fun x hx => by
    have := kept_ok.1 x hx
    rw [b4 x hx, w2.done.keep.mem _ (by simp only [Lay.own]; omega), a5 x hx]
  have hgo2 : GOk isLocal G gd TG s'.w m2 := gok_of (y := ⟨P - 64, G, L, N, f.params.length, gd⟩) (s := leave ⟨var, w⟩ s') (w2.done.geo hhere.geo) w2.done.vals hst.glob
  refine ⟨_, ra.trans (w2.reach.trans (rb.trans rc)), ?_, ?_, hkeep (R_FP, -8) (by decide), ?_, fun r h1 h2 => ?_, fun r h1 h2 => ?_, fun a h1 h2 h3 => ?_, ?_, fun id hl => ?_, fun u hu => ?_⟩
  · show (m3.reg R_RA).toNat = _
    rw [hkeep (R_RA, -4) (by decide)]
  · exact BitVec.eq_of_toNat_eq (b3.trans hP.symm)
  · show m3.reg R_GP = _
    rw [b5 R_GP (by decide) (by decide), w2.done.keep.gp, a2 R_GP (by decide) (by decide)]
  · obtain ⟨d, hd⟩ := saved_kept r h1 h2
    exact hkeep (r, d) hd
  · show m3.reg r = _
    by_cases h4r : 4 ≤ r
    · have hr : r = 4 ∨ r = 5 ∨ r = 6 ∨ r = 7 := by omega
      rw [b5 r (by simp only [R_SP]; omega) (by rcases hr with rfl | rfl | rfl | rfl <;> decide), w2.done.keep.arg r h4r h2 (.inr (by simp only; omega)),
        a2 r (by simp only [R_FP]; omega) (by simp only [R_SP]; omega)]
    · omega
  · show m3.mem a = _
    rw [b2, w2.done.keep.mem a (by simp only [Lay.own]; omega), a6 a (by omega)]
  · refine ⟨hgo2.place, hgo2.inj, fun id d u hl hu ht => ?_⟩
    show stands u (m3.mem _)
    rw [b2]; exact hgo2.vals id d u hl hu ht
  · have := w2.done.dom id
    unfold dom at this
    rw [hl] at this
    exact this
  · show stands u (m3.reg R_V0)
    rw [b5 R_V0 (by decide) (by decide)]
    exact hthere.2 u hu

end

end RuC.Mips
