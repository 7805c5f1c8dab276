import Verif.Mips.CallOk
import Verif.Mips.Jumps

/-!
# Lemmas: what holds between statements
-/

namespace RuC.Mips
open Llvm (Ty Arith Cmp Un Inc Exp Args Stmt Stmts Func V World S Flow arithV unV incV fit evalE evalA execS execB execD leave Calls)

/-! ## Labels -/

theorem find_mem {l : Label} : ∀ {c : List Instr}, l ∈ labs c → ∃ k, find l c = some k
  | [], h => (by cases h)
  | i :: c, h => by
    simp only [find]
    split
    · exact ⟨0, rfl⟩
    · rename_i hi
      have : l ∈ labs c := by
        simp only [labs, List.flatMap_cons, List.mem_append] at h
        rcases h with h | h
        · cases i <;> simp only [puts, List.not_mem_nil, List.mem_singleton] at h
          exact absurd (by rw [h]) hi
        · exact h
      obtain ⟨k, hk⟩ := find_mem this
      exact ⟨k + 1, by rw [hk]; rfl⟩

theorem find_at {l : Label} : ∀ {pre post : List Instr}, (labs (pre ++ .label l :: post)).Nodup → find l (pre ++ .label l :: post) = some pre.length
  | [], post, _ => by simp [find]
  | i :: pre, post, h => by
    have hn : i ≠ .label l := by
      rintro rfl
      simp [labs, puts] at h
    simp only [List.cons_append, find, if_neg hn]
    rw [find_at (by
      simp only [List.cons_append, labs, List.flatMap_cons] at h
      exact (List.nodup_append.1 h).2.1)]
    rfl

/-- A jump. -/
theorem reach_j {code pre post : List Instr} {l : Label} {k : Nat} {m : M} (hc : code = pre ++ .j l :: post) (hp : m.pc = pre.length) (hf : find l code = some k) :
    Reach code m { m with pc := k } := Reach.one (by rw [step_at hc hp]; simp [exec, hf])

/-- A label. -/
theorem reach_label {code pre post : List Instr} {l : Label} {m : M} (hc : code = pre ++ .label l :: post) (hp : m.pc = pre.length) :
    Reach code m { m with pc := m.pc + 1 } := Reach.one (by rw [step_at hc hp]; rfl)

/-- The number of the next instruction does not matter. -/
theorem Done.pc {isLocal : Nat → Bool} {y : Lay} {X : Nat → Prop} {T : Nat → Lv} {s s' : S} {m m' : M} (h : Done isLocal y X T s s' m m') (k : Nat) :
    Done isLocal y X T s s' m { m' with pc := k } := by
  refine ⟨fun id v hv hx => ?_, ⟨h.keep.sp, h.keep.fp, h.keep.gp, h.keep.arg, h.keep.mem⟩, h.dom, h.var⟩
  have := h.vals id v hv hx
  cases hp : (T id) with
  | reg r => rw [hp] at this; exact this
  | stack d b => rw [hp] at this; exact this

/-! ## Places -/

/-- How the places of variables change: `D`: the variables declared. -/
structure Grow (D : List Nat) (e e' : Enc) : Prop where
  table : ∀ id, id ∉ D → e'.table id = e.table id
  reg : ∀ id r, e'.table id = .reg r → e.table id = .reg r
  scope : e.scope ≤ e'.scope
  maxd : e.maxd ≤ e'.maxd
  le : e.scope ≤ e.maxd → e'.scope ≤ e'.maxd
  mod : e.scope % 4 = 0 → e'.scope % 4 = 0
  modd : e.scope % 4 = 0 → e.maxd % 4 = 0 → e'.maxd % 4 = 0

theorem Grow.of_fix {e e' : Enc} (h : Fix e e') : Grow [] e e' := by
  obtain ⟨h1, h2, h3, h4⟩ := h
  exact ⟨fun id _ => by rw [h1], fun id r hr => by rw [← h1]; exact hr, by omega, by omega, by omega, by omega, by omega⟩

theorem Grow.trans {D D' : List Nat} {a b c : Enc} (h : Grow D a b) (k : Grow D' b c) : Grow (D ++ D') a c :=
  ⟨fun id hd => by
    simp only [List.mem_append, not_or] at hd
    rw [k.table id hd.2, h.table id hd.1], fun id r hr => h.reg id r (k.reg id r hr), Nat.le_trans h.scope k.scope, Nat.le_trans h.maxd k.maxd, fun hl => k.le (h.le hl), fun hl => k.mod (h.mod hl),
    fun hl hm => k.modd (h.mod hl) (h.modd hl hm)⟩

theorem Grow.fix {D : List Nat} {a b c : Enc} (h : Grow D a b) (k : Fix b c) : Grow D a c := by
  have := h.trans (.of_fix k); rwa [List.append_nil] at this

theorem Fix.grow {D : List Nat} {a b c : Enc} (h : Fix a b) (k : Grow D b c) : Grow D a c := (Grow.of_fix h).trans k

theorem grow_add (isLocal : Nat → Bool) (e : Enc) (id : Nat) : Grow [id] e (addVar isLocal e id) := by
  unfold addVar
  split
  · refine ⟨fun j hj => ?_, fun j r => ?_, by simp, Nat.le_max_right .., fun h => Nat.le_max_left .., by simp only; omega, by simp only; omega⟩
    · simp only [List.mem_singleton] at hj
      simp [hj]
    · simp only
      split
      · intro h; cases h
      · exact fun h => h
  · refine ⟨fun j hj => ?_, fun j r => ?_, Nat.le_refl _, Nat.le_refl _, fun h => h, fun h => h, fun _ h => h⟩
    · simp only [List.mem_singleton] at hj
      simp [hj]
    · simp only
      split
      · intro h; cases h
      · exact fun h => h

theorem fix_void (x : Exp) (e : Enc) : Fix e (emitVoid x e).2 := by
  unfold emitVoid
  split
  · exact Fix.refl e
  · exact (fixE x e).trans (same_freeR _ _).fix

theorem fix_condOf (l : Label) (c : Option Exp) (e : Enc) : Fix e (condOf l c e).2 := by
  cases c with
  | none => exact Fix.refl e
  | some c => exact (fixE c e).trans (same_freeR _ _).fix

theorem fix_stepOf (c : Option Exp) (e : Enc) : Fix e (stepOf c e).2 := by
  cases c with
  | none => exact Fix.refl e
  | some c => exact fix_void c e

theorem grow_V (isLocal : Nat → Bool) (d : Nat × Ty × Option Exp) (e : Enc) : Grow [d.1] e (emitV isLocal d e).2 := by
  obtain ⟨id, ty, x⟩ := d
  cases x with
  | none => exact grow_add isLocal e id
  | some x => exact (grow_add isLocal e id).fix (((fixE x _).trans (same_store _ _ _).fix).trans (same_freeR _ _).fix)

theorem grow_D (isLocal : Nat → Bool) : ∀ (l : List (Nat × Ty × Option Exp)) (e : Enc), Grow (l.map (·.1)) e (emitD isLocal l e).2
  | [], e => .of_fix (Fix.refl e)
  | d :: l, e => (grow_V isLocal d e).trans (grow_D isLocal l _)

/-- The scope is left. -/
theorem Grow.back {D : List Nat} {e e' : Enc} (h : Grow D e e') (n : Nat) (hn : n = e'.maxd ∨ n = max e'.scope e'.maxd) (b c : Label) :
    Grow D e { e' with maxd := n, scope := e.scope, cont := c, brk := b } := by
  have := h.scope; have := h.maxd
  exact ⟨h.table, h.reg, Nat.le_refl _, by simp only; omega, fun hl => by have := h.le hl; simp only; omega, fun h => h, fun hs hm => by have := h.modd hs hm; have := h.mod hs; simp only; omega⟩

mutual
theorem growS {par : Nat → Bool} {pos : Nat → Option Nat} (isLocal : Nat → Bool) : ∀ (st : Stmt) (e : Enc), okS par pos st = true →
    Grow (declsS st) e (emitS isLocal st e).2 ∧ (single st = true → (emitS isLocal st e).2.scope = e.scope)
  | .skip, e, _ => ⟨.of_fix (Fix.refl e), fun _ => rfl⟩
  | .break_, e, _ => ⟨.of_fix (Fix.refl e), fun _ => rfl⟩
  | .continue_, e, _ => ⟨.of_fix (Fix.refl e), fun _ => rfl⟩
  | .return_ none, e, _ => ⟨.of_fix (Fix.refl e), fun _ => rfl⟩
  | .return_ (some x), e, _ => by
    have h : Fix e (emitS isLocal (.return_ (some x)) e).2 := ((fixE x e).trans (same_store _ _ _).fix).trans (same_freeR _ _).fix
    exact ⟨.of_fix h, fun _ => h.scope⟩
  | .expr x, e, _ => ⟨.of_fix (fix_void x e), fun _ => (fix_void x e).scope⟩
  | .decls l, e, _ => ⟨grow_D isLocal l e, fun h => by cases h⟩
  | .if_ c a, e, hk => by
    simp only [okS, Bool.and_eq_true] at hk
    have h0 : Fix e (freeRvalue { (emitE c e).2.2 with lab := (emitE c e).2.2.lab + 1 } (emitE c e).2.1) :=
      Fix.trans (b := { (emitE c e).2.2 with lab := (emitE c e).2.2.lab + 1 }) ⟨(fixE c e).table, (fixE c e).scope, (fixE c e).maxd, (fixE c e).gdispl⟩ (same_freeR _ _).fix
    obtain ⟨h1, h2⟩ := growS isLocal a _ hk.2
    exact ⟨h0.grow h1, fun _ => (h2 hk.1.2).trans h0.scope⟩
  | .ifElse c a b, e, hk => by
    simp only [okS, Bool.and_eq_true] at hk
    have h0 : Fix e (freeRvalue { (emitE c e).2.2 with lab := (emitE c e).2.2.lab + 1 } (emitE c e).2.1) :=
      Fix.trans (b := { (emitE c e).2.2 with lab := (emitE c e).2.2.lab + 1 }) ⟨(fixE c e).table, (fixE c e).scope, (fixE c e).maxd, (fixE c e).gdispl⟩ (same_freeR _ _).fix
    obtain ⟨h1, h2⟩ := growS isLocal a _ hk.1.2
    obtain ⟨h3, h4⟩ := growS isLocal b _ hk.2
    exact ⟨(h0.grow h1).trans h3, fun _ => (h4 hk.1.1.2).trans ((h2 hk.1.1.1.2).trans h0.scope)⟩
  | .while_ c b, e, hk => by
    simp only [okS, Bool.and_eq_true] at hk
    have h0 : Fix e { e with lab := e.lab + 1, cont := ⟨.beginCycle, e.lab⟩, brk := ⟨.end, e.lab⟩ } := ⟨rfl, rfl, rfl, rfl⟩
    have h1 := h0.trans ((fixE c _).trans (same_freeR _ (emitE c { e with lab := e.lab + 1, cont := ⟨.beginCycle, e.lab⟩, brk := ⟨.end, e.lab⟩ }).2.1).fix)
    obtain ⟨h2, h3⟩ := growS isLocal b _ hk.2
    exact ⟨(h1.grow h2).fix ⟨rfl, rfl, rfl, rfl⟩, fun _ => (h3 hk.1.2).trans h1.scope⟩
  | .do_ b c, e, hk => by
    simp only [okS, Bool.and_eq_true] at hk
    have h0 : Fix e { e with lab := e.lab + 1, cont := ⟨.next, e.lab⟩, brk := ⟨.end, e.lab⟩ } := ⟨rfl, rfl, rfl, rfl⟩
    obtain ⟨h2, h3⟩ := growS isLocal b { e with lab := e.lab + 1, cont := ⟨.next, e.lab⟩, brk := ⟨.end, e.lab⟩ } hk.2
    have h4 := (fixE c (emitS isLocal b { e with lab := e.lab + 1, cont := ⟨.next, e.lab⟩, brk := ⟨.end, e.lab⟩ }).2).trans
      (same_freeR _ (emitE c (emitS isLocal b { e with lab := e.lab + 1, cont := ⟨.next, e.lab⟩, brk := ⟨.end, e.lab⟩ }).2).2.1).fix
    exact ⟨((h0.grow h2).fix h4).fix ⟨rfl, rfl, rfl, rfl⟩, fun _ => h4.scope.trans (h3 hk.1.2)⟩
  | .for_ i c inc b, e, hk => by
    simp only [okS, Bool.and_eq_true] at hk
    obtain ⟨h1, -⟩ := growS isLocal i e hk.1.1.1.1.1
    simp only [emitS]
    generalize emitS isLocal i e = p at *
    obtain ⟨h2, -⟩ := growS isLocal b (condOf ⟨.end, p.2.lab⟩ c { p.2 with lab := p.2.lab + 1, cont := ⟨.beginCycle, p.2.lab⟩, brk := ⟨.end, p.2.lab⟩ }).2 hk.1.2
    have h3 := ((Fix.trans (b := { p.2 with lab := p.2.lab + 1, cont := ⟨.beginCycle, p.2.lab⟩, brk := ⟨.end, p.2.lab⟩ }) (a := p.2) ⟨rfl, rfl, rfl, rfl⟩ (fix_condOf ..)).grow h2).fix
      (fix_stepOf inc _)
    exact ⟨(h1.trans h3).back _ (.inl rfl) _ _, fun _ => trivial⟩
  | .block b, e, hk => by
    simp only [okS] at hk
    exact ⟨(growB isLocal b e hk).back _ (.inr rfl) _ _, by intros; rfl⟩
  | .switch_ _ _, e, hk => by simp [okS] at hk
  | .case_ _ _, e, hk => by simp [okS] at hk
  | .default_ _, e, hk => by simp [okS] at hk

theorem growB {par : Nat → Bool} {pos : Nat → Option Nat} (isLocal : Nat → Bool) : ∀ (b : Stmts) (e : Enc), okB par pos b = true → Grow (declsB b) e (emitB isLocal b e).2
  | .nil, e, _ => .of_fix (Fix.refl e)
  | .cons s rest, e, hk => by
    simp only [okB, Bool.and_eq_true] at hk
    exact (growS isLocal s e hk.1).1.trans (growB isLocal rest _ hk.2)
end

/-! ## The state between statements -/

/-- What the whole text is like, and the functions that are called. -/
structure Ctx (isLocal : Nat → Bool) (y : Lay) (call : Calls) (TG : Nat → Lv) (room : Nat) (code : List Instr) : Prop where
  ok : y.Ok
  callee : Callee code isLocal y.G y.gd y.L TG call room
  room : y.L + room + y.lo ≤ y.F
  mod : y.lo % 4 = 0
  small : code.length < 4294967296
  once : (labs code).Nodup

/-- The state of the generator. -/
structure Stat (isLocal : Nat → Bool) (par : Nat → Bool) (pos : Nat → Option Nat) (TG : Nat → Lv) (e : Enc) : Prop where
  tabs : Tabs par e
  pos : ∀ id r, e.table id = .reg r → pos id = some (r - 4)
  glob : ∀ id, isLocal id = false → e.table id = TG id
  mod : e.scope % 4 = 0
  le : e.scope ≤ e.maxd

theorem Stat.grow {isLocal par : Nat → Bool} {pos : Nat → Option Nat} {TG : Nat → Lv} {D : List Nat} {e e' : Enc} (h : Stat isLocal par pos TG e) (g : Grow D e e') (t : Tabs par e')
    (hD : ∀ id ∈ D, isLocal id = true) : Stat isLocal par pos TG e' :=
  ⟨t, fun id r hr => h.pos id r (g.reg id r hr), fun id hl => by rw [g.table id (fun hd => by rw [hD id hd] at hl; cases hl)]; exact h.glob id hl, g.mod h.mod, g.le h.le⟩

theorem Stat.fix {isLocal par : Nat → Bool} {pos : Nat → Option Nat} {TG : Nat → Lv} {e e' : Enc} (h : Stat isLocal par pos TG e) (g : Fix e e') : Stat isLocal par pos TG e' :=
  h.grow (.of_fix g) (h.tabs.fix g) (by simp)

/-- The state of the program and of the machine. -/
structure Here (isLocal : Nat → Bool) (y : Lay) (e : Enc) (s : S) (m : M) : Prop where
  geo : Geo isLocal y e.table e.scope s
  vals : Vals isLocal y (fun _ => False) e.table s m
  base : Base y m
  sp : (m.reg R_SP).toNat + 4 + y.lo = y.F

theorem Here.done {isLocal : Nat → Bool} {y : Lay} {e e1 : Enc} {s s' : S} {m m' : M} (h : Here isLocal y e s m) (d : Done isLocal y (fun _ => False) e.table s s' m m') (f : Fix e e1) :
    Here isLocal y e1 s' m' := by
  obtain ⟨f1, f2, -, -⟩ := f
  refine ⟨by rw [f1, f2]; exact d.geo h.geo, by rw [f1]; exact d.vals, d.keep.base h.base, by rw [d.keep.sp]; exact h.sp⟩

theorem Here.refl {isLocal : Nat → Bool} {y : Lay} {e : Enc} {s : S} {m : M} (h : Here isLocal y e s m) : Done isLocal y (fun _ => False) e.table s s m m :=
  Done.tmp h.geo h.vals (Tmp.refl m)

theorem geo_move {isLocal : Nat → Bool} {y : Lay} {T T' : Nat → Lv} {sc sc' : Nat} {s : S} (h : Geo isLocal y T sc s) (hT : ∀ id, dom isLocal s id = true → T' id = T id) (hs : sc ≤ sc') :
    Geo isLocal y T' sc' s := by
  refine ⟨fun id hd => by rw [hT id hd]; exact h.fits id hd, fun id hd hl d b ht => ?_, fun id hd hl => by rw [hT id hd]; exact h.glo id hd hl, fun id id' hd hd' he => ?_⟩
  · rw [hT id hd] at ht
    obtain ⟨h1, h2⟩ := h.loc id hd hl d b ht
    exact ⟨h1, by omega⟩
  · rw [hT id hd, hT id' hd'] at he
    exact h.inj id id' hd hd' he

theorem vals_move {isLocal : Nat → Bool} {y : Lay} {T T' : Nat → Lv} {s : S} {m : M} (h : Vals isLocal y (fun _ => False) T s m) (hT : ∀ id, dom isLocal s id = true → T' id = T id) :
    Vals isLocal y (fun _ => False) T' s m := fun id v hv _ => by
  rw [hT id (val_dom hv)]
  exact h id v hv (fun _ _ h => h)

theorem done_move {isLocal : Nat → Bool} {y : Lay} {T T' : Nat → Lv} {s s' : S} {m m' : M} (h : Done isLocal y (fun _ => False) T s s' m m') (hT : ∀ id, dom isLocal s id = true → T' id = T id) :
    Done isLocal y (fun _ => False) T' s s' m m' :=
  ⟨vals_move h.vals (fun id hd => hT id (by rw [← h.dom id]; exact hd)), h.keep, h.dom, h.var⟩

/-- What holds in front of a statement: `D`: the variables declared in it, `sb`, `sc`: it may leave a loop or go on with it. -/
structure Ready (isLocal : Nat → Bool) (y : Lay) (par : Nat → Bool) (pos : Nat → Option Nat) (TG : Nat → Lv) (code : List Instr) (D : List Nat) (sb sc : Bool) (e e' : Enc) (s : S) (m : M) :
    Prop where
  stat : Stat isLocal par pos TG e
  here : Here isLocal y e s m
  fresh : ∀ id ∈ D, isLocal id = true ∧ s.var id = none
  nodup : D.Nodup
  lo : e'.maxd ≤ y.lo
  ten : e'.busy 10 = false
  brk : sb = true → e.brk ∈ labs code
  cont : sc = true → e.cont ∈ labs code
  fin : ⟨.funcEnd, e.fn⟩ ∈ labs code

theorem fresh_dom {isLocal : Nat → Bool} {D : List Nat} {s : S} (h : ∀ id ∈ D, isLocal id = true ∧ s.var id = none) {id : Nat} (hd : dom isLocal s id = true) : id ∉ D := fun hm => by
  obtain ⟨h1, h2⟩ := h id hm
  unfold dom at hd
  rw [h1, h2] at hd
  cases hd

/-- Where a statement ends. -/
def Where (code : List Instr) (e : Enc) (sb sc : Bool) (n : Nat) (m' : M) : Flow → Prop
  | .normal => m'.pc = n
  | .brk => sb = true ∧ find e.brk code = some m'.pc
  | .cont => sc = true ∧ find e.cont code = some m'.pc
  | .ret v => find ⟨.funcEnd, e.fn⟩ code = some m'.pc ∧ ∀ u, v = some u → stands u (m'.reg R_V0)

/-- What holds behind a statement: `N`: the variables that may be new. -/
structure Went (isLocal : Nat → Bool) (y : Lay) (code : List Instr) (N : List Nat) (sb sc : Bool) (e e' : Enc) (n : Nat) (s s' : S) (m m' : M) (flow : Flow) : Prop where
  reach : Reach code m m'
  done : Done isLocal y (fun _ => False) e.table s (leave s s') m m'
  only : ∀ id, (s'.var id).isSome = true → (s.var id).isSome = true ∨ id ∈ N
  norm : flow = .normal → Here isLocal y e' s' m'
  there : Where code e sb sc n m' flow

theorem leave_same {s s' : S} (h : ∀ id, (s'.var id).isSome = true → (s.var id).isSome = true) : leave s s' = s' := by
  unfold leave
  obtain ⟨var, w⟩ := s'
  congr
  funext id
  split
  · rfl
  · rename_i hn
    cases hv : var id with
    | none => rfl
    | some x => exact absurd (h id (by simp only [hv]; rfl)) hn

theorem Went.same {isLocal : Nat → Bool} {y : Lay} {code : List Instr} {sb sc : Bool} {e e' : Enc} {n : Nat} {s s' : S} {m m' : M} {flow : Flow}
    (h : Went isLocal y code [] sb sc e e' n s s' m m' flow) : Done isLocal y (fun _ => False) e.table s s' m m' := by
  have := leave_same (s := s) (s' := s') (fun id hi => (h.only id hi).resolve_right (by simp))
  rw [← this]; exact h.done

/-- A statement that declares nothing for those behind it. -/
theorem Went.of_done {isLocal : Nat → Bool} {y : Lay} {par : Nat → Bool} {pos : Nat → Option Nat} {TG : Nat → Lv} {code : List Instr} {D : List Nat} {sb sc : Bool} {e e' : Enc} {n : Nat}
    {s s' : S} {m m' : M} {flow : Flow} (hr : Ready isLocal y par pos TG code D sb sc e e' s m) (hg : Grow D e e') (hsc : e'.scope = e.scope) (h1 : Reach code m m')
    (h2 : Done isLocal y (fun _ => False) e.table s s' m m') (h3 : Where code e sb sc n m' flow) : Went isLocal y code [] sb sc e e' n s s' m m' flow := by
  have hs : ∀ id, (s'.var id).isSome = true → (s.var id).isSome = true := fun id hi => by rw [← h2.var id]; exact hi
  refine ⟨h1, by rw [leave_same hs]; exact h2, fun id hi => .inl (hs id hi), fun _ => ?_, h3⟩
  have hT : ∀ id, dom isLocal s id = true → e'.table id = e.table id := fun id hd => hg.table id (fresh_dom hr.fresh hd)
  have h4 := hr.here.done h2 (Fix.refl e)
  exact ⟨by rw [hsc]; exact geo_move h4.geo (fun id hd => hT id (by rw [← h2.dom id]; exact hd)) (Nat.le_refl _),
    vals_move h4.vals (fun id hd => hT id (by rw [← h2.dom id]; exact hd)), h4.base, h4.sp⟩

end RuC.Mips
