import Verif.Mips.FuncOk
import Verif.Mips.Pool

/-!
# Lemmas: the text of a unit does what its functions do
-/

namespace RuC.Mips
open Llvm (Ty Arith Cmp Un Inc Exp Args Stmt Stmts Func V World S Flow execB Calls callF)

/-! ## The numbers of parameters -/

theorem posOf_at : ∀ (ps : List (Nat × Ty)) (k id : Nat) (ty : Ty), (ps.map (·.1)).Nodup → ps[k]? = some (id, ty) → posOf ps id = some k
  | [], _, _, _, _, h => by simp at h
  | (j, t) :: ps, 0, id, ty, hn, h => by
    simp only [List.getElem?_cons_zero, Option.some.injEq, Prod.mk.injEq] at h
    simp [posOf, List.findIdx?_cons, h.1]
  | (j, t) :: ps, k + 1, id, ty, hn, h => by
    simp only [List.getElem?_cons_succ] at h
    simp only [List.map_cons, List.nodup_cons] at hn
    have h1 := posOf_at ps k id ty hn.2 h
    have hj : ¬ j = id := fun he => hn.1 (List.mem_map.2 ⟨_, List.mem_of_getElem? h, he.symm⟩)
    unfold posOf at h1 ⊢
    rw [List.findIdx?_cons]
    simp [hj, h1]

theorem posOf_mem {ps : List (Nat × Ty)} {id k : Nat} (h : posOf ps id = some k) : id ∈ ps.map (·.1) := by
  unfold posOf at h
  obtain ⟨hk, h1, -⟩ := List.findIdx?_eq_some_iff_getElem.1 h
  exact List.mem_map.2 ⟨ps[k], List.getElem_mem hk, by simpa using h1⟩

theorem posU_at : ∀ {fs : List Func} {f : Func} {id k : Nat}, (fs.flatMap varsF).Nodup → f ∈ fs → posOf f.params id = some k → posU fs id = some k
  | g :: fs, f, id, k, hn, hf, h => by
    simp only [List.flatMap_cons, List.nodup_append] at hn
    unfold posU
    rw [List.findSome?_cons]
    rcases List.mem_cons.1 hf with rfl | hf
    · rw [h]
    · cases hg : posOf g.params id with
      | some j => exact absurd rfl (hn.2.2 id (List.mem_append_left _ (posOf_mem hg)) id (List.mem_flatMap.2 ⟨f, hf, List.mem_append_left _ (posOf_mem h)⟩))
      | none => exact posU_at hn.2.1 hf h

/-! ## Functions in the text -/

/-- The room a call of one of the functions takes on the stack. -/
def frames (isLocal : Nat → Bool) (main : Nat) : List Func → Enc → Nat
  | [], _ => 0
  | f :: l, e => max (68 + (emitF isLocal main f e).2.maxd + 4 * f.params.length) (frames isLocal main l (emitF isLocal main f e).2)

/-- The places of variables between functions. -/
structure Between (isLocal : Nat → Bool) (par : Nat → Bool) (pos : Nat → Option Nat) (TG : Nat → Lv) (e : Enc) : Prop where
  tabs : Tabs par e
  pos : ∀ id r, e.table id = .reg r → pos id = some (r - 4)
  glob : ∀ id, isLocal id = false → e.table id = TG id

theorem placeP_placed (k : Nat) : (placeP k).placed := by
  unfold placeP
  split
  · exact ⟨by simp only [R_A0]; omega, by simp only [R_A0]; omega⟩
  · exact .inl rfl

section
variable {isLocal : Nat → Bool} {par : Nat → Bool} {pos : Nat → Option Nat} {TG : Nat → Lv} {main : Nat}

theorem enter_stat {f : Func} {e : Enc} (h : Between isLocal par pos TG e) (hnd : (varsF f).Nodup) (hloc : ∀ id ∈ varsF f, isLocal id = true)
    (hp : ∀ (k id : Nat) (ty : Ty), f.params[k]? = some (id, ty) → k < 4 → par id = true ∧ pos id = some k) : Stat isLocal par pos TG (enter f e) := by
  have hndp : (f.params.map (·.1)).Nodup := (List.nodup_append.1 hnd).1
  have ht : ∀ id, (enter f e).table id = e.table id ∨ ∃ k ty, f.params[k]? = some (id, ty) ∧ (enter f e).table id = placeP k := fun id => by
    by_cases hm : id ∈ f.params.map (·.1)
    · obtain ⟨⟨j, ty⟩, hj, rfl⟩ := List.mem_map.1 hm
      obtain ⟨k, hk⟩ := List.mem_iff_getElem?.1 hj
      refine .inr ⟨k, ty, hk, ?_⟩
      have := params_at f.params 0 { e with fn := f.id, maxd := 0, scope := 0 } k j ty hndp hk
      rwa [Nat.zero_add] at this
    · exact .inl (params_other f.params 0 _ id hm)
  obtain ⟨-, ef2, ef3, -⟩ := enter_fields f e
  refine ⟨⟨fun id => ?_, fun id r hr => ?_⟩, fun id r hr => ?_, fun id hl => ?_, by rw [ef3], by rw [ef3]; exact Nat.zero_le _⟩
  · rcases ht id with h1 | ⟨k, ty, -, h1⟩
    · rw [h1]; exact h.tabs.ok id
    · rw [h1]; exact placeP_placed k
  · rcases ht id with h1 | ⟨k, ty, hk, h1⟩
    · rw [h1] at hr; exact h.tabs.par id r hr
    · rw [h1] at hr
      exact (hp k id ty hk (placeP_reg hr).1).1
  · rcases ht id with h1 | ⟨k, ty, hk, h1⟩
    · rw [h1] at hr; exact h.pos id r hr
    · rw [h1] at hr
      obtain ⟨h2, h3⟩ := placeP_reg hr
      rw [(hp k id ty hk h2).2]
      congr 1; omega
  · rcases ht id with h1 | ⟨k, ty, hk, h1⟩
    · rw [h1]; exact h.glob id hl
    · rw [hloc id (List.mem_append_left _ (List.mem_map.2 ⟨_, List.mem_of_getElem? hk, rfl⟩))] at hl
      cases hl

theorem funcs_at : ∀ (l : List Func) (e : Enc), Between isLocal par pos TG e →
    (∀ f ∈ l, okF par pos main f = true ∧ (varsF f).Nodup ∧ (∀ id ∈ varsF f, isLocal id = true) ∧
      ∀ (k id : Nat) (ty : Ty), f.params[k]? = some (id, ty) → k < 4 → par id = true ∧ pos id = some k) →
    (emitU isLocal main (l.map .func) e).2.busy 10 = false →
    e.busy 10 = false ∧ ∀ f ∈ l, ∃ ef pre post, (emitU isLocal main (l.map .func) e).1 = pre ++ (emitF isLocal main f ef).1 ++ post ∧ Stat isLocal par pos TG (enter f ef) ∧
      (emitF isLocal main f ef).2.busy 10 = false ∧ 68 + (emitF isLocal main f ef).2.maxd + 4 * f.params.length ≤ frames isLocal main l e
  | [], e, _, _, h => ⟨h, fun f hf => (by cases hf)⟩
  | f :: l, e, hb, hl, h => by
    obtain ⟨h1, h2, h3, h4⟩ := hl f (List.mem_cons_self ..)
    have hst := enter_stat hb h2 h3 h4
    simp only [okF, Bool.and_eq_true] at h1
    have hgr := growS (par := par) (pos := pos) isLocal (.block f.body) (enter f e) h1.1.1.1
    have hrun := runS par false isLocal (.block f.body) (enter f e) hst.tabs (fun h => by cases h)
    have hst2 := hst.grow hgr.1 hrun.tabs (fun id hd => h3 id (List.mem_append_right _ hd))
    simp only [List.map_cons, emitU] at h ⊢
    obtain ⟨i1, i2⟩ := funcs_at l (emitF isLocal main f e).2 ⟨hst2.tabs, hst2.pos, hst2.glob⟩ (fun g hg => hl g (List.mem_cons_of_mem _ hg)) h
    have i1' : (emitS isLocal (.block f.body) (enter f e)).2.busy 10 = false := i1
    refine ⟨by have := flag_mono hrun.use i1'; rw [(enter_fields f e).2.2.2] at this; exact this, fun g hg => ?_⟩
    rcases List.mem_cons.1 hg with rfl | hg
    · exact ⟨e, [], _, rfl, hst, i1, Nat.le_max_left ..⟩
    · obtain ⟨ef, pre, post, j1, j2, j3, j4⟩ := i2 g hg
      exact ⟨ef, (emitF isLocal main f e).1 ++ pre, post, by rw [j1]; simp, j2, j3, Nat.le_trans j4 (Nat.le_max_right ..)⟩

/-- Variables in front of functions. -/
theorem emitU_append : ∀ (a b : List Top) (e : Enc), emitU isLocal main (a ++ b) e =
    ((emitU isLocal main a e).1 ++ (emitU isLocal main b (emitU isLocal main a e).2).1, (emitU isLocal main b (emitU isLocal main a e).2).2)
  | [], b, e => rfl
  | .var d :: a, b, e => by
    simp only [List.cons_append, emitU]
    rw [emitU_append a b]
    simp
  | .func f :: a, b, e => by
    simp only [List.cons_append, emitU]
    rw [emitU_append a b]
    simp

/-- The globals get words one after the other. -/
theorem vars_at : ∀ (vs : List (Nat × Ty × Option Exp)) (e : Enc), Tabs par e → (∀ id r, e.table id ≠ .reg r) → (∀ d ∈ vs, isLocal d.1 = false) → (vs.map (·.1)).Nodup →
    Tabs par (emitU isLocal main (vs.map .var) e).2 ∧ (∀ id r, (emitU isLocal main (vs.map .var) e).2.table id ≠ .reg r) ∧
      (∀ id, id ∉ vs.map (·.1) → (emitU isLocal main (vs.map .var) e).2.table id = e.table id) ∧
      ∀ (k id : Nat) (ty : Ty) (i : Option Exp), vs[k]? = some (id, ty, i) → (emitU isLocal main (vs.map .var) e).2.table id = .stack (e.gdispl + 4 * k : Nat) R_GP
  | [], e, hT, hr, _, _ => ⟨hT, hr, fun _ _ => rfl, fun k id ty i h => by simp at h⟩
  | d :: vs, e, hT, hr, hl, hn => by
    simp only [List.map_cons, List.nodup_cons] at hn
    simp only [List.map_cons, emitU]
    have hd := hl d (List.mem_cons_self ..)
    have ht1 := run_V (t := false) isLocal d hT (fun h => by cases h)
    have hg := grow_V isLocal d e
    have hfix : Fix (addVar isLocal e d.1) (emitV isLocal d e).2 := by
      obtain ⟨id, ty, x⟩ := d
      cases x with
      | none => exact Fix.refl _
      | some x => exact ((fixE x _).trans (same_store _ _ _).fix).trans (same_freeR _ _).fix
    have hadd : (addVar isLocal e d.1).table d.1 = .stack e.gdispl R_GP ∧ (addVar isLocal e d.1).gdispl = e.gdispl + 4 := by
      unfold addVar
      rw [hd]
      exact ⟨if_pos rfl, rfl⟩
    obtain ⟨i1, i2, i3, i4⟩ := vars_at vs (emitV isLocal d e).2 ht1.tabs (fun id r h => hr id r (hg.reg id r h)) (fun x hx => hl x (List.mem_cons_of_mem _ hx)) hn.2
    refine ⟨i1, i2, fun id hid => ?_, fun k id ty i hk => ?_⟩
    · simp only [List.mem_cons, not_or] at hid
      rw [i3 id hid.2, hg.table id (by simpa using hid.1)]
    · cases k with
      | zero =>
        simp only [List.getElem?_cons_zero, Option.some.injEq] at hk
        subst hk
        rw [i3 id hn.1, hfix.table, hadd.1]
        rfl
      | succ k =>
        simp only [List.getElem?_cons_succ] at hk
        rw [i4 k id ty i hk, hfix.gdispl, hadd.2]
        congr 2; omega

end

/-! ## Calls -/

theorem Ret.pc' {isLocal : Nat → Bool} {G gd L P n k : Nat} {TG : Nat → Lv} {v : Option V} {w w' : World} {m m' : M} (h : Ret isLocal G gd L P n TG v w w' { m with pc := k } m') :
    Ret isLocal G gd L P n TG v w w' m m' := ⟨h.pc, h.sp, h.fp, h.gp, h.saved, h.arg, h.mem, h.glob, h.dom, h.val⟩

theorem GOk.pc {isLocal : Nat → Bool} {G gd k : Nat} {TG : Nat → Lv} {w : World} {m : M} (h : GOk isLocal G gd TG w m) : GOk isLocal G gd TG w { m with pc := k } := ⟨h.place, h.inj, h.vals⟩

/-- What is known of the functions in a text. -/
structure Funcs (code : List Instr) (isLocal : Nat → Bool) (par : Nat → Bool) (pos : Nat → Option Nat) (TG : Nat → Lv) (main B : Nat) (fs : List Func) : Prop where
  small : code.length < 4294967296
  once : (labs code).Nodup
  func : ∀ f ∈ fs, okF par pos main f = true ∧ (varsF f).Nodup ∧ (∀ id ∈ varsF f, isLocal id = true)
  «at» : ∀ f ∈ fs, ∃ ef pre post, code = pre ++ (emitF isLocal main f ef).1 ++ post ∧ Stat isLocal par pos TG (enter f ef) ∧
    (emitF isLocal main f ef).2.busy 10 = false ∧ 68 + (emitF isLocal main f ef).2.maxd + 4 * f.params.length ≤ B

/-- The label a function is entered at. -/
def entry (main f : Nat) (l : Label) : Prop := l = ⟨.func, f⟩ ∨ f = main ∧ l = ⟨.main, 0⟩

section
variable {code : List Instr} {isLocal : Nat → Bool} {par : Nat → Bool} {pos : Nat → Option Nat} {TG : Nat → Lv} {main B : Nat} {fs : List Func}

/-- From the labels of a function to its instructions. -/
theorem enter_ok {f : Func} {e : Enc} {pre post : List Instr} {l : Label} (hc : code = pre ++ (emitF isLocal main f e).1 ++ post) (honce : (labs code).Nodup) (hl : entry main f.id l) :
    ∃ p, find l code = some p ∧ ∀ m : M, m.pc = p → Reach code m { m with pc := (pre ++ labelsF main f).length } := by
  rw [emitF_parts] at hc
  generalize hr : frontF isLocal f e ++ (emitB isLocal f.body (enter f e)).1 ++ backF f ++ [.jr R_RA] ++ post = rest at hc
  have hc' : code = pre ++ labelsF main f ++ rest := by rw [hc, ← hr]; simp
  by_cases hm : f.id = main
  · have h1 : code = pre ++ .label ⟨.func, f.id⟩ :: .label ⟨.main, 0⟩ :: rest := by rw [hc', labelsF, if_pos hm]; simp
    have h2 : code = (pre ++ [.label ⟨.func, f.id⟩]) ++ .label ⟨.main, 0⟩ :: rest := by rw [h1]; simp
    have hlen : (pre ++ labelsF main f).length = (pre ++ [Instr.label ⟨.func, f.id⟩]).length + 1 := by rw [labelsF, if_pos hm]; simp
    have r2 : ∀ m : M, m.pc = (pre ++ [Instr.label ⟨.func, f.id⟩]).length → Reach code m { m with pc := (pre ++ labelsF main f).length } := fun m hp => by
      have := reach_label h2 hp
      rw [hp, ← hlen] at this
      exact this
    rcases hl with rfl | ⟨-, rfl⟩
    · refine ⟨pre.length, by have := honce; rw [h1] at this ⊢; exact find_at this, fun m hp => ?_⟩
      have r1 := reach_label h1 hp
      exact r1.trans (r2 _ (by simp [hp]))
    · exact ⟨_, by have := honce; rw [h2] at this ⊢; exact find_at this, r2⟩
  · have h1 : code = pre ++ .label ⟨.func, f.id⟩ :: rest := by rw [hc', labelsF, if_neg hm]; simp
    rcases hl with rfl | ⟨h, -⟩
    · refine ⟨pre.length, by have := honce; rw [h1] at this ⊢; exact find_at this, fun m hp => ?_⟩
      have r1 := reach_label h1 hp
      rw [labelsF, if_neg hm]
      simpa [hp] using r1
    · exact absurd h hm

/-- A call that is at most `n` deep. -/
theorem called {G gd L : Nat} (hF : Funcs code isLocal par pos TG main B fs) (hG4 : G % 4 = 0) (hgl : G + gd ≤ L) :
    ∀ (n f : Nat) (vs : List V) (w : World) (v : Option V) (w' : World) (l : Label), entry main f l → callF isLocal (fun _ _ _ => none) main fs n f vs w = some (v, w') →
      4 * vs.length ≤ n * B ∧ ∃ p, find l code = some p ∧
        ∀ m P, m.pc = p → (m.reg R_SP).toNat = P → P % 4 = 0 → L + n * B ≤ P + 4 * vs.length → P + 4 * vs.length < 2147483648 → (m.reg R_GP).toNat = G →
          (∀ k u, vs[k]? = some u → stands u (if k < 4 then m.reg (4 + k) else m.mem ((P : Int) + 4 * (k : Nat)))) → GOk isLocal G gd TG w m →
          ∃ m', Reach code m m' ∧ Ret isLocal G gd L P vs.length TG v w w' m m'
  | 0, f, vs, w, v, w', l, _, h => by simp [callF] at h
  | n + 1, f, vs, w, v, w', l, hl, h => by
    unfold callF at h
    cases hfind : fs.find? (fun d => d.id == f) with
    | none => rw [hfind] at h; cases h
    | some d =>
      rw [hfind] at h
      have hd : d ∈ fs := List.mem_of_find?_eq_some hfind
      have hid : d.id = f := by simpa using List.find?_some hfind
      simp only [Option.bind_eq_bind, Option.bind_eq_some_iff, Prod.exists] at h
      obtain ⟨var, hb, flow, s, hev, hfl⟩ := h
      obtain ⟨k1, k2, k3⟩ := hF.func d hd
      obtain ⟨ef, pre, post, a1, a2, a3, a4⟩ := hF.at d hd
      have hnp := (bind_ok _ _ _ hb).1
      obtain ⟨p, hp, hent⟩ := enter_ok a1 hF.once (hid ▸ hl)
      have hCn : Callee code isLocal G gd L TG (callF isLocal (fun _ _ _ => none) main fs n) (n * B) := fun f' vs' u v' u' _ hcall =>
        called hF hG4 hgl n f' vs' u v' u' _ (.inl rfl) hcall
      have hmul : (n + 1) * B = n * B + B := Nat.succ_mul ..
      generalize n * B = room at hCn hmul
      have hfl' : (flow = .ret v ∨ flow = .normal ∧ v = none) ∧ s.w = w' := by
        cases flow with
        | ret u =>
          simp only at hfl
          split at hfl
          · simp only [Option.some.injEq, Prod.mk.injEq] at hfl
            exact ⟨.inl (by rw [hfl.1]), hfl.2⟩
          · cases hfl
        | normal =>
          simp only at hfl
          split at hfl
          · rename_i hm
            simp only [okF, Bool.and_eq_true, Bool.or_eq_true, decide_eq_true_eq, hid, hm, ne_eq, not_true_eq_false, false_or] at k1
            exact absurd hev (returns_ok _ _ _ k1.2)
          · split at hfl
            · simp only [Option.some.injEq, Prod.mk.injEq] at hfl
              exact ⟨.inr ⟨rfl, hfl.1.symm⟩, hfl.2⟩
            · cases hfl
        | brk => cases hfl
        | cont => cases hfl
      obtain ⟨hv, rfl⟩ := hfl'
      refine ⟨by omega, p, hp, fun m P hpc hP h4 hroom hhigh hGP hargs hGO => ?_⟩
      obtain ⟨m', r1, r2⟩ := func_ok (m := { m with pc := (pre ++ labelsF main d).length }) a1 hF.small hF.once a2 k1 k2 k3 a3 hCn hG4 hgl rfl hP h4 (by omega) hhigh hGP hargs hGO.pc hb hev hv
      exact ⟨m', (hent m hpc).trans r1, r2.pc'⟩

end

/-! ## Units -/

theorem nodup_part {l : List Func} {f : Func} (hf : f ∈ l) (h : (l.flatMap varsF).Nodup) : (varsF f).Nodup := by
  induction l with
  | nil => cases hf
  | cons g l ih =>
    simp only [List.flatMap_cons, List.nodup_append] at h
    rcases List.mem_cons.1 hf with rfl | hf
    · exact h.1
    · exact ih hf h.2.1

/-- A unit whose globals are in front of its functions. -/
def unit (vs : List (Nat × Ty × Option Exp)) (fs : List Func) : List Top := vs.map .var ++ fs.map .func

theorem funcs_unit : ∀ (vs : List (Nat × Ty × Option Exp)) (fs : List Func), funcs (unit vs fs) = fs.map (·.id)
  | d :: vs, fs => funcs_unit vs fs
  | [], [] => rfl
  | [], f :: fs => congrArg (f.id :: ·) (funcs_unit [] fs)

theorem once_text (isLocal : Nat → Bool) (main : Nat) (l : List Top) (e : Enc) (hf : (funcs l).Nodup) : (labs (text isLocal main l e)).Nodup := by
  obtain ⟨-, -, h, -⟩ := unitU isLocal main l e
  rw [List.nodup_iff_count]
  intro k
  have h1 := h k
  have h2 := owns_le (main := main) hf k
  have h3 : labs (text isLocal main l e) = labs (emitU isLocal main l e).1 := rfl
  rw [h3]
  refine Nat.le_trans h1 ?_
  cases k with | mk k n => cases k <;> simp only [quota] at * <;> grind

/-- The room on the stack for one call. -/
def roomOf (isLocal : Nat → Bool) (main : Nat) (vs : List (Nat × Ty × Option Exp)) (fs : List Func) (e : Enc) : Nat := frames isLocal main fs (emitU isLocal main (vs.map .var) e).2

theorem unit_funcs {isLocal : Nat → Bool} {main : Nat} {vs : List (Nat × Ty × Option Exp)} {fs : List Func} {e : Enc} (hp : ∀ id, ∃ d b, e.table id = .stack d b ∧ (b = R_FP ∨ b = R_GP))
    (hok : okU isLocal main vs fs = true) (hsmall : (text isLocal main (unit vs fs) e).length < 4294967296) (hten : (emitU isLocal main (unit vs fs) e).2.busy 10 = false) :
    Funcs (text isLocal main (unit vs fs) e) isLocal (parU fs) (posU fs) (emitU isLocal main (vs.map .var) e).2.table main (roomOf isLocal main vs fs e) fs ∧
      ∀ (k id : Nat) (ty : Ty) (i : Option Exp), vs[k]? = some (id, ty, i) → (emitU isLocal main (vs.map .var) e).2.table id = .stack (e.gdispl + 4 * k : Nat) R_GP := by
  simp only [okU, Bool.and_eq_true, List.all_eq_true, decide_eq_true_eq, Bool.not_eq_true'] at hok
  obtain ⟨⟨⟨⟨⟨h1, h2⟩, h3⟩, h4⟩, h5⟩, h6⟩ := hok
  have hT : Tabs (parU fs) e := ⟨fun id => by obtain ⟨d, b, h, hb⟩ := hp id; rw [h]; exact hb, fun id r h => by obtain ⟨d, b, h', -⟩ := hp id; rw [h'] at h; cases h⟩
  have hr : ∀ id r, e.table id ≠ .reg r := fun id r h => by obtain ⟨d, b, h', -⟩ := hp id; rw [h'] at h; cases h
  obtain ⟨v1, v2, -, v4⟩ := vars_at (main := main) vs e hT hr h5 h6
  have hU : emitU isLocal main (unit vs fs) e = _ := emitU_append (vs.map .var) (fs.map .func) e
  rw [hU] at hten
  have hbt : Between isLocal (parU fs) (posU fs) (emitU isLocal main (vs.map .var) e).2.table (emitU isLocal main (vs.map .var) e).2 := ⟨v1, fun id r h => absurd h (v2 id r), fun _ _ => rfl⟩
  have hfn : ∀ f ∈ fs, okF (parU fs) (posU fs) main f = true ∧ (varsF f).Nodup ∧ (∀ id ∈ varsF f, isLocal id = true) := fun f hf =>
    ⟨h1 f hf, nodup_part hf h2, fun id hid => h3 id (List.mem_flatMap.2 ⟨f, hf, hid⟩)⟩
  obtain ⟨-, hat⟩ := funcs_at (main := main) fs _ hbt (fun f hf => ⟨(hfn f hf).1, (hfn f hf).2.1, (hfn f hf).2.2, fun k id ty hk hk4 => by
    have hpo := posOf_at f.params k id ty ((List.nodup_append.1 (hfn f hf).2.1).1) hk
    refine ⟨?_, posU_at h2 hf hpo⟩
    unfold parU
    refine List.any_eq_true.2 ⟨f, hf, ?_⟩
    simp [inReg, hpo, hk4]⟩) hten
  refine ⟨⟨hsmall, once_text _ _ _ _ (by rw [funcs_unit]; exact h4), hfn, fun f hf => ?_⟩, v4⟩
  obtain ⟨ef, pre, post, a1, a2, a3, a4⟩ := hat f hf
  exact ⟨ef, head ++ (emitU isLocal main (vs.map .var) e).1 ++ pre, post, by unfold text; rw [hU, a1]; simp, a2, a3, a4⟩

/-! ## The beginning of the text -/

/-- From the first instruction to `main`. -/
theorem head_ok {code rest : List Instr} {m : M} {p P G : Nat} (hc : code = head ++ rest) (hpc : m.pc = 0) (hP : (m.reg R_SP).toNat = P) (h4 : P % 4 = 0) (hlo : G + 4 ≤ P) (hhi : P < 2147483648)
    (hG : (m.reg R_GP).toNat = G) (hG4 : G % 4 = 0) (hGlo : 8060 ≤ G) (hmain : find ⟨.main, 0⟩ code = some p) :
    ∃ m1, Reach code m m1 ∧ m1.pc = p ∧ (m1.reg R_SP).toNat + 4 = P ∧ (m1.reg R_RA).toNat = 6 ∧ (∀ r, r ≠ R_SP → r ≠ R_RA → r ≠ R_FP → r ≠ R_T0 → m1.reg r = m.reg r) ∧
      m1.mem ((P : Int) - 4) = m.reg R_RA ∧ ∀ a : Int, a ≠ P - 4 → a ≠ G - 8060 → m1.mem a = m.mem a := by
  have s1 : runL [.move R_FP (.reg R_SP)] m = some (m.set R_FP (m.reg R_SP)) := rfl
  generalize hma : m.set R_FP (m.reg R_SP) = ma at s1
  have ra : ∀ r, r ≠ R_FP → ma.reg r = m.reg r := fun r hr => by subst hma; simp [M.set, hr]
  have ma' : ma.mem = m.mem := by subst hma; rfl
  obtain ⟨z, s2, hz⟩ := addi_ok (m := ma) (d := R_SP) (r := R_SP) (k := -4) (by rw [ra R_SP (by decide)]; omega) (by omega) (by rw [ra R_SP (by decide)]; omega)
  rw [ra R_SP (by decide), hP] at hz
  generalize hmb : ma.set R_SP z = mb at s2
  have rb : ∀ r, r ≠ R_SP → mb.reg r = ma.reg r := fun r hr => by subst hmb; simp [M.set, hr]
  have rbs : mb.reg R_SP = z := by subst hmb; simp [M.set]
  have mb' : mb.mem = m.mem := by subst hmb; exact ma'
  have ad : mb.addr 0 R_SP = some ((P : Int) - 4) := by
    unfold M.addr
    rw [rbs, if_pos (by omega)]
    congr 1
  have s3 : runL [.sw (.reg R_RA) 0 R_SP] mb = some { mb with pc := mb.pc + 1, mem := fun b => if b = (P : Int) - 4 then mb.reg R_RA else mb.mem b } := by
    simp [runL, flat, exec, M.regOf, ad]
  generalize hmc : ({ mb with pc := mb.pc + 1, mem := fun b => if b = (P : Int) - 4 then mb.reg R_RA else mb.mem b } : M) = mc at s3
  have rc : mc.reg = mb.reg := by subst hmc; rfl
  have mc' : ∀ a, mc.mem a = if a = (P : Int) - 4 then m.reg R_RA else m.mem a := fun a => by
    subst hmc
    simp only [mb', rb R_RA (by decide), ra R_RA (by decide)]
  have s4 : runL [.li (.reg R_T0) (.imm 0x10010000)] mc = some (mc.set R_T0 0x10010000#32) := by rfl
  generalize hmd : mc.set R_T0 0x10010000#32 = md at s4
  have rd : ∀ r, r ≠ R_T0 → md.reg r = mc.reg r := fun r hr => by subst hmd; simp [M.set, hr]
  have md' : md.mem = mc.mem := by subst hmd; rfl
  have ad2 : md.addr (-8060) R_GP = some ((G : Int) - 8060) := by
    unfold M.addr
    rw [rd R_GP (by decide), rc, rb R_GP (by decide), ra R_GP (by decide), hG, if_pos (by omega)]
    congr 1
  have s5 : runL [.sw (.reg R_T0) (-8060) R_GP] md = some { md with pc := md.pc + 1, mem := fun b => if b = (G : Int) - 8060 then md.reg R_T0 else md.mem b } := by
    simp [runL, flat, exec, M.regOf, ad2]
  generalize hme : ({ md with pc := md.pc + 1, mem := fun b => if b = (G : Int) - 8060 then md.reg R_T0 else md.mem b } : M) = me at s5
  have re : me.reg = md.reg := by subst hme; rfl
  have me' : ∀ a : Int, a ≠ G - 8060 → me.mem a = md.mem a := fun a ha => by subst hme; simp [ha]
  obtain ⟨r1, p1⟩ := reach_runL (code := code) (pre := []) (post := [.jal ⟨.main, 0⟩, .lw R_RA 0 R_SP, .jr R_RA] ++ rest) (by rw [hc]; rfl) hpc
    (runL_some s1 (runL_some s2 (runL_some s3 (runL_some s4 s5))))
  have p1' : me.pc = 5 := by rw [p1]; rfl
  have r2 : Reach code me { me.set R_RA (BitVec.ofNat 32 (me.pc + 1)) with pc := p } := Reach.one (by
    rw [step_at (pre := [.move R_FP (.reg R_SP), .op true .add (.reg R_SP) (.reg R_SP) (.imm (-4)), .sw (.reg R_RA) 0 R_SP, .li (.reg R_T0) (.imm 0x10010000), .sw (.reg R_T0) (-8060) R_GP])
      (post := [.lw R_RA 0 R_SP, .jr R_RA] ++ rest) (i := .jal ⟨.main, 0⟩) (by rw [hc]; rfl) p1']
    simp [exec, hmain])
  refine ⟨_, r1.trans r2, rfl, ?_, ?_, fun r h1 h2 h3 h5 => ?_, ?_, fun a h1 h2 => ?_⟩
  · have : ({ me.set R_RA (BitVec.ofNat 32 (me.pc + 1)) with pc := p } : M).reg R_SP = z := by
      simp only [M.set, R_SP, R_RA, Nat.reduceEqDiff, if_false]
      rw [re, rd 29 (by decide), rc]; exact rbs
    rw [this]; omega
  · simp only [M.set, if_true, p1']
    rfl
  · simp only [M.set, if_neg h2]
    rw [re, rd r h5, rc, rb r h1, ra r h3]
  · show me.mem _ = _
    rw [me' _ (by omega), md', mc', if_pos rfl]
  · show me.mem _ = _
    rw [me' _ h2, md', mc', if_neg h1]

/-- From `main` back to where the program was started from. -/
theorem tail_ok {code rest : List Instr} {m : M} {P : Nat} {ra : BitVec 32} (hc : code = head ++ rest) (hpc : m.pc = 6) (hP : (m.reg R_SP).toNat = P) (h4 : P % 4 = 0)
    (hm : m.mem P = ra) : Reach code m { m.set R_RA ra with pc := ra.toNat } := by
  have ad : m.addr 0 R_SP = some (P : Int) := by
    unfold M.addr
    have := (m.reg R_SP).isLt
    rw [hP, if_pos (by omega)]
    congr 1
  have s1 : runL [.lw R_RA 0 R_SP] m = some (m.set R_RA ra) := by simp [runL, flat, exec, ad, hm]
  obtain ⟨r1, p1⟩ := reach_runL (code := code)
    (pre := [.move R_FP (.reg R_SP), .op true .add (.reg R_SP) (.reg R_SP) (.imm (-4)), .sw (.reg R_RA) 0 R_SP, .li (.reg R_T0) (.imm 0x10010000), .sw (.reg R_T0) (-8060) R_GP, .jal ⟨.main, 0⟩])
    (post := [.jr R_RA] ++ rest) (by rw [hc]; rfl) hpc s1
  refine r1.trans (Reach.one ?_)
  rw [step_at (pre := [.move R_FP (.reg R_SP), .op true .add (.reg R_SP) (.reg R_SP) (.imm (-4)), .sw (.reg R_RA) 0 R_SP, .li (.reg R_T0) (.imm 0x10010000), .sw (.reg R_T0) (-8060) R_GP,
    .jal ⟨.main, 0⟩, .lw R_RA 0 R_SP]) (post := rest) (i := .jr R_RA) (by rw [hc]; rfl) p1]
  simp [exec, M.set]

end RuC.Mips
