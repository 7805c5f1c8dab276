import Verif.Codegen.Links

/-!
# The memory of a translation unit while it is emitted
-/

namespace RuC.Codegen

open RuC RuC.Instr
open RuC.Expr (Unary Binary)

/-! ### Functions -/

theorem emitF_app {st : Enc} {f : Func} (wf : f.body.Wf) (hp : f.body.Placed false false false)
    (hlay : (st.functionsAdd f.id f.prev st.size).lay = st.lay) (hsz : (st.functionsAdd f.id f.prev st.size).size = st.size)
    (ok : OkP (st.functionsAdd f.id f.prev st.size) (codeF st.lay st.size f)) :
    emitF st f = (app (st.functionsAdd f.id f.prev st.size) (codeF st.lay st.size f)).setLay (layF st.lay f) := by
  unfold emitF
  generalize st.functionsAdd f.id f.prev st.size = st1 at hlay hsz ok ⊢
  simp only
  have e2 : ({ st1 with lay := (f.params.foldl (fun (l : Layout) (p : Nat × Ty) => l.add p.1 p.2)
      { st1.lay with inFunc := true, displ := DISPL_START, maxLocal := DISPL_START }) } : Enc) = st1.setLay (layEntry st.lay f) := by
    rw [← hlay]; rfl
  rw [e2]
  simp only [add_app, app_app]
  have e3 : vals [IC_FUNC_BEG] ++ vals [0] ++ vals [0] = vals [IC_FUNC_BEG, 0, 0] := rfl
  rw [e3]
  have hsz' : (app (st1.setLay (layEntry st.lay f)) (vals [IC_FUNC_BEG, 0, 0])).size = st.size + 3 := by
    rw [app_size, size_setLay, hsz]; rfl
  have okb : OkP (app (st1.setLay (layEntry st.lay f)) (vals [IC_FUNC_BEG, 0, 0])) (codeS (layEntry st.lay f) (st.size + 3) f.body).code := by
    obtain ⟨⟨h1, h2⟩, h3, h4⟩ := ok
    unfold codeF at h2
    have hc := (calm_append (calm_append h2).1).2
    refine ⟨⟨?_, ?_⟩, ?_, ?_⟩
    · intro g
      have := h1 g
      simpa only [app_heads, after_vals, heads_setLay] using this
    · rw [hsz']
      rw [hsz] at hc
      exact hc
    · rw [hsz']; omega
    · rw [hsz']
      have : (app (st1.setLay (layEntry st.lay f)) (vals [IC_FUNC_BEG, 0, 0])).next = st1.next := rfl
      rw [this]; rw [hsz] at h4; omega
  have hb := emitS_closed (s := f.body) (st := app (st1.setLay (layEntry st.lay f)) (vals [IC_FUNC_BEG, 0, 0])) wf hp (by
    rw [app_lay, lay_setLay, hsz']; exact okb)
  rw [hb, app_lay, lay_setLay, hsz']
  unfold codeF layF
  simp only
  generalize codeS (layEntry st.lay f) (st.size + 3) f.body = P at *
  generalize layS (layEntry st.lay f) f.body = Lb at *
  rw [app_setLay, app_setLay, app_app, app_app]
  have el : (app (((st1.setLay (layEntry st.lay f)).setLay Lb)) (vals [IC_FUNC_BEG, 0, 0] ++ (P.code ++ vals [IC_RETURN_VOID]))).lay = Lb := rfl
  rw [el]
  have es : (app (((st1.setLay (layEntry st.lay f)).setLay Lb)) (vals [IC_FUNC_BEG, 0, 0] ++ (P.code ++ vals [IC_RETURN_VOID]))).size = st.size + 3 + P.code.length + 1 := by
    simp [hsz]; omega
  rw [es]
  have a1 : (app (st1.setLay (layEntry st.lay f)) (vals [IC_FUNC_BEG])).size = st.size + 1 := by simp [hsz]
  have a2 : (app (st1.setLay (layEntry st.lay f)) (vals [IC_FUNC_BEG] ++ vals [0])).size = st.size + 2 := by simp [hsz]
  rw [a1, a2]
  have s1 := set_app ((st1.setLay (layEntry st.lay f)).setLay Lb) [.val IC_FUNC_BEG] 0 Lb.maxLocal (.val 0 :: (P.code ++ vals [IC_RETURN_VOID])) (st.size + 1)
    (by simp [hsz])
  have s2 := set_app ((st1.setLay (layEntry st.lay f)).setLay Lb) [.val IC_FUNC_BEG, .val Lb.maxLocal] 0 ((st.size + 3 + P.code.length + 1 : Nat) : Int)
    (P.code ++ vals [IC_RETURN_VOID]) (st.size + 2) (by simp [hsz])
  simp only [vals_cons, vals_nil, List.cons_append, List.nil_append] at s1 s2 ⊢
  rw [s1, s2]
  rfl

/-! ### Code with the defined functions put in -/

/-- A cell when the functions `N` knows have numbers. -/
def res (N : Nat → Option Nat) : Sym → Sym
  | .fn f => match N f with
    | some n => .val n
    | none => .fn f
  | .fnOp f => match N f with
    | some _ => .val IC_LI
    | none => .fnOp f
  | .fnArg f => match N f with
    | some n => .val n
    | none => .fnArg f
  | x => x

/-- The heads of the encoder are those of the code with numbers put in. -/
structure Rel (N : Nat → Option Nat) (old : List Nat) (h g : Heads) : Prop where
  brk : h.brk = g.brk
  cont : h.cont = g.cont
  known : ∀ f n, f ∉ old → N f = some n → h.fn f = n
  unknown : ∀ f, f ∉ old → N f = none → h.fn f = g.fn f

/-- The cell may be emitted now. -/
def Now (N : Nat → Option Nat) (old : List Nat) : Sym → Prop
  | .fn f => f ∉ old
  | .fnOp f | .fnArg f => f ∉ old ∧ ∃ n, N f = some n
  | _ => True

theorem rel_cell {N old h g} (r : Rel N old h g) {x} (hx : Now N old x) : cell h x = cell g (res N x) := by
  cases x with
  | val | next => rfl
  | brk => simp [res, cell, r.brk]
  | cont => simp [res, cell, r.cont]
  | fn f =>
    cases hN : N f with
    | some n => simp [res, hN, cell, r.known f n hx hN]
    | none => simp [res, hN, cell, r.unknown f hx hN]
  | fnOp f =>
    obtain ⟨h1, n, hN⟩ := hx
    simp only [res, hN, cell, r.known f n h1 hN]
    rw [if_pos (by omega)]
  | fnArg f =>
    obtain ⟨h1, n, hN⟩ := hx
    simp [res, hN, cell, r.known f n h1 hN]

theorem rel_step {N old h g} (hpos : ∀ f n, N f = some n → 0 < n) (r : Rel N old h g) {x} (hx : Now N old x) (a) :
    Rel N old (step h a x) (step g a (res N x)) := by
  obtain ⟨r1, r2, r3, r4⟩ := r
  cases x with
  | val | next => exact ⟨r1, r2, r3, r4⟩
  | brk => exact ⟨rfl, r2, r3, r4⟩
  | cont => exact ⟨r1, rfl, r3, r4⟩
  | fnOp f =>
    obtain ⟨h1, n, hN⟩ := hx
    simp only [res, hN]
    exact ⟨r1, r2, r3, r4⟩
  | fnArg f =>
    obtain ⟨h1, n, hN⟩ := hx
    simp only [res, hN]
    exact ⟨r1, r2, r3, r4⟩
  | fn f =>
    cases hN : N f with
    | some n =>
      simp only [res, hN, step]
      have := r3 f n hx hN
      have hp := hpos f n hN
      rw [if_neg (by omega)]
      exact ⟨r1, r2, r3, r4⟩
    | none =>
      simp only [res, hN, step]
      have e := r4 f hx hN
      rw [e]
      by_cases hle : g.fn f ≤ 0
      · rw [if_pos hle, if_pos hle]
        refine ⟨r1, r2, fun i n hi hn => ?_, fun i hi hn => ?_⟩
        · have : i ≠ f := by rintro rfl; rw [hN] at hn; cases hn
          simp only [update, if_neg this]; exact r3 i n hi hn
        · by_cases hif : i = f
          · subst hif; simp [update]
          · simp only [update, if_neg hif]; exact r4 i hi hn
      · rw [if_neg hle, if_neg hle]
        exact ⟨r1, r2, r3, r4⟩

theorem rel_conc {N old} (hpos : ∀ f n, N f = some n → 0 < n) : ∀ (A : List Sym) {h g} (a), Rel N old h g → (∀ x ∈ A, Now N old x) →
    conc h a A = conc g a (A.map (res N)) ∧ Rel N old (after h a A) (after g a (A.map (res N)))
  | [], h, g, a, r, _ => ⟨rfl, r⟩
  | x :: A, h, g, a, r, hA => by
    have hx := hA x List.mem_cons_self
    have ih := rel_conc hpos A (a + 1) (rel_step hpos r hx a) (fun y hy => hA y (List.mem_cons_of_mem _ hy))
    simp only [conc, after, List.map_cons]
    exact ⟨by rw [rel_cell r hx, ih.1], ih.2⟩

/-- No function is called and nothing waits. -/
def noHeads : Heads := ⟨0, 0, fun _ => 0⟩

/-- The number of a function when these are defined. -/
def numO (ds : List Func) (f : Nat) : Option Nat := (ds.findIdx? fun g => g.id = f ∨ g.prev = some f).map (2 + ·)

theorem numO_pos {ds f n} (h : numO ds f = some n) : 0 < n := by
  simp only [numO, Option.map_eq_some_iff] at h
  obtain ⟨a, _, rfl⟩ := h; omega

theorem numO_snoc (ds : List Func) (d : Func) (f : Nat) :
    numO (ds ++ [d]) f = (numO ds f).or (if d.id = f ∨ d.prev = some f then some (2 + ds.length) else none) := by
  simp only [numO, List.findIdx?_append]
  cases h : ds.findIdx? fun g => g.id = f ∨ g.prev = some f with
  | some i => simp
  | none =>
    by_cases hc : d.id = f ∨ d.prev = some f
    · have : (decide (d.id = f) || decide (d.prev = some f)) = true := by simpa using hc
      simp [List.findIdx?_cons, hc, this]
    · have : (decide (d.id = f) || decide (d.prev = some f)) = false := by simpa using hc
      simp [List.findIdx?_cons, hc, this]

/-- The cell was emitted: a called function is in `used`, a passed one was defined. -/
def Past (ds : List Func) (used : List Nat) : Sym → Prop
  | .fn f => f ∈ used
  | .fnOp f | .fnArg f => ∃ n, numO ds f = some n
  | _ => True

/-- What holds of the encoder when the code `A` is emitted and the functions `ds` are defined. -/
structure Inv (st : Enc) (A : List Sym) (ds : List Func) (done old used : List Nat) : Prop where
  mem : st.mem = [0, 0, 0, 0] ++ conc noHeads 4 (A.map (res (numO ds)))
  rel : Rel (numO ds) old st.heads (after noHeads 4 (A.map (res (numO ds))))
  brk : st.brk = 0
  cont : st.cont = 0
  next : st.next = 0
  hung : st.hung = false
  calm : CalmH st.heads
  funcs : st.funcs.length = 2 + ds.length
  past : ∀ x ∈ A, Past ds used x
  known : ∀ f, (numO ds f).isSome ↔ f ∈ done ∨ f ∈ old
  apart : ∀ f ∈ done, f ∉ old

theorem Inv.size {st A ds done old used} (h : Inv st A ds done old used) : st.size = 4 + A.length := by
  unfold Enc.size; rw [h.mem]; simp; omega

theorem NoHole.map_res {A N} (h : NoHole A) : NoHole (A.map (res N)) := by
  intro x hx
  simp only [List.mem_map] at hx
  obtain ⟨y, hy, rfl⟩ := hx
  have := h y hy
  cases y <;> simp_all [res] <;> split <;> simp

/-- Code is appended. -/
theorem Inv.app {st A ds done old used} (h : Inv st A ds done old used) {C P : List Nat} {B : List Sym} (hB : AllIn C P B) (nh : NoHole B)
    (hC : ∀ f ∈ C, f ∉ old) (hP : ∀ f ∈ P, f ∈ done) (hcalm : Calm st.size B) (L : Layout) :
    Inv ((app st B).setLay L) (A ++ B) ds done old (C ++ used) := by
  have hnow : ∀ x ∈ B, Now (numO ds) old x := by
    intro x hx
    have hs := hB x hx
    cases x with
    | val | brk | cont | next => trivial
    | fn f => exact hC f hs
    | fnOp f => exact ⟨h.apart f (hP f hs), Option.isSome_iff_exists.1 ((h.known f).2 (.inl (hP f hs)))⟩
    | fnArg f => exact ⟨h.apart f (hP f hs), Option.isSome_iff_exists.1 ((h.known f).2 (.inl (hP f hs)))⟩
  have hsz : 4 + (A.map (res (numO ds))).length = st.size := by rw [h.size, List.length_map]
  have hc := rel_conc (fun f n => numO_pos) B st.size h.rel hnow
  have hb := noHole_not nh
  refine ⟨?_, ?_, ?_, ?_, h.next, h.hung, ?_, h.funcs, ?_, h.known, h.apart⟩
  · show (Codegen.app st B).mem = _
    rw [app_mem, h.mem, List.map_append, conc_append, List.append_assoc, hc.1, hsz]
  · show Rel _ _ (Codegen.app st B).heads _
    rw [app_heads, List.map_append, after_append, hsz]
    exact hc.2
  · show (after st.heads st.size B).brk = 0
    rw [after_brk_of_not_mem hb.1]; exact h.brk
  · show (after st.heads st.size B).cont = 0
    rw [after_cont_of_not_mem hb.2.1]; exact h.cont
  · show CalmH (after st.heads st.size B)
    exact calmH_after h.calm hcalm
  · intro x hx
    rcases List.mem_append.1 hx with hx | hx
    · have := h.past x hx
      cases x <;> simp_all [Past]
    · have hs := hB x hx
      have hn := hnow x hx
      cases x with
      | val | brk | cont | next => trivial
      | fn f => exact List.mem_append_left _ hs
      | fnOp f => exact hn.2
      | fnArg f => exact hn.2

theorem Inv.okP {st A ds done old used} (h : Inv st A ds done old used) {B} (hc : Calm st.size B) : OkP st B :=
  ⟨⟨h.calm, hc⟩, by rw [h.size]; omega, by rw [h.next, h.size]; omega⟩

theorem toVoid_small {n : Int} (h : n < 9000) : toVoid n = n := by
  unfold toVoid
  apply if_neg
  simp only [IC_ASSIGN, IC_DIV_ASSIGN_AT, IC_POST_INC, IC_PRE_DEC_AT, IC_ASSIGN_R, IC_DIV_ASSIGN_AT_R, IC_POST_INC_R, IC_PRE_DEC_AT_R]
  omega

theorem called_neg {p : Nat} : ∀ (A : List Sym) (h : Heads) (a : Nat), 0 < a → h.fn p ≤ 0 → (Sym.fn p ∈ A ∨ h.fn p < 0) → (after h a A).fn p < 0
  | [], h, a, _, _, hm => by
    rcases hm with hm | hm
    · cases hm
    · exact hm
  | x :: A, h, a, ha, hle, hm => by
    rw [after]
    have hle' : (step h a x).fn p ≤ 0 := Chain.open_step (k := .fn p) hle x a
    refine called_neg A _ (a + 1) (by omega) hle' ?_
    by_cases hx : x = .fn p
    · subst hx
      right
      simp only [step, if_pos hle, update]; simp; omega
    · rcases hm with hm | hm
      · rcases List.mem_cons.1 hm with h1 | h1
        · exact absurd h1.symm hx
        · exact .inl h1
      · right
        cases x <;> simp only [step] <;> try exact hm
        rename_i f
        split
        · simp only [update]; rw [if_neg (by rintro rfl; exact hx rfl)]; exact hm
        · exact hm

/-- The holes of an earlier declaration filled. -/
def fillO (p : Option Nat) (v : Int) (A : List Sym) : List Sym :=
  match p with
  | none => A
  | some p => fill (.fn p) v A

/-- The cells when one more function is defined. -/
theorem res_define {A : List Sym} {ds : List Func} {done old used : List Nat} (hpast : ∀ x ∈ A, Past ds used x) (hk : ∀ f, (numO ds f).isSome ↔ f ∈ done ∨ f ∈ old) (d : Func) (hd : d.id ∉ done) (ho : d.id ∉ old) (hu : d.id ∉ used)
    (hp : ∀ p, d.prev = some p → p ∉ done ∧ p ∉ old ∧ p ≠ d.id) :
    A.map (res (numO (ds ++ [d]))) = fillO d.prev ((2 + ds.length : Nat) : Int) (A.map (res (numO ds))) := by
  have hid : numO ds d.id = none := by
    cases h : numO ds d.id with
    | none => rfl
    | some n =>
      have := (hk d.id).1 (by rw [h]; rfl)
      rcases this with h | h
      · exact absurd h hd
      · exact absurd h ho
  have same : ∀ f n, numO ds f = some n → numO (ds ++ [d]) f = some n := by
    intro f n h
    rw [numO_snoc, h]; rfl
  cases hprev : d.prev with
  | none =>
    show _ = A.map (res (numO ds))
    apply List.map_congr_left
    intro x hx
    have := hpast x hx
    cases x with
    | val | brk | cont | next => rfl
    | fn f =>
      simp only [Past] at this
      have hne : d.id ≠ f := by rintro rfl; exact hu this
      simp only [res]
      rw [numO_snoc, hprev]
      simp [hne]
    | fnOp f =>
      obtain ⟨n, hn⟩ := this
      simp only [res, hn, same f n hn]
    | fnArg f =>
      obtain ⟨n, hn⟩ := this
      simp only [res, hn, same f n hn]
  | some p =>
    simp only [fillO, fill, List.map_map]
    apply List.map_congr_left
    intro x hx
    have := hpast x hx
    have hpn : numO ds p = none := by
      cases h : numO ds p with
      | none => rfl
      | some n =>
        have hp' := hp p hprev
        rcases (hk p).1 (by rw [h]; rfl) with h | h
        · exact absurd h hp'.1
        · exact absurd h hp'.2.1
    simp only [Function.comp]
    cases x with
    | val v => simp [res]
    | brk | cont | next => simp [res]
    | fn f =>
      simp only [Past] at this
      have hne : d.id ≠ f := by rintro rfl; exact hu this
      cases hf : numO ds f with
      | some n =>
        simp only [res, hf, same f n hf]
        rw [if_neg (by simp)]
      | none =>
        simp only [res, hf]
        rw [numO_snoc, hf, hprev]
        by_cases hpf : p = f
        · subst hpf; simp
        · have : ¬ f = p := fun e => hpf e.symm
          simp [hne, hpf, this]
    | fnOp f =>
      obtain ⟨n, hn⟩ := this
      simp only [res, hn, same f n hn]
      rw [if_neg (by simp)]
    | fnArg f =>
      obtain ⟨n, hn⟩ := this
      simp only [res, hn, same f n hn]
      rw [if_neg (by simp)]

/-- A function is defined. -/
theorem Inv.define {st A ds done old used} (h : Inv st A ds done old used) (d : Func) (hd : d.id ∉ done) (ho : d.id ∉ old) (hu : d.id ∉ used)
    (hp : ∀ p, d.prev = some p → p ∉ done ∧ p ∉ old ∧ p ≠ d.id) (hn : ds.length < 8998) (hsz : st.size < 4611686018427387904) :
    Inv (st.functionsAdd d.id d.prev st.size) A (ds ++ [d]) (d.id :: done) (d.prev.toList ++ old) used ∧
      (st.functionsAdd d.id d.prev st.size).lay = st.lay ∧ (st.functionsAdd d.id d.prev st.size).size = st.size ∧
      (st.functionsAdd d.id d.prev st.size).funcs = st.funcs ++ [(st.size : Int)] := by
  have hres := res_define h.past h.known d hd ho hu hp
  have hid : numO ds d.id = none := by
    cases hh : numO ds d.id with
    | none => rfl
    | some n =>
      rcases (h.known d.id).1 (by rw [hh]; rfl) with hh | hh
      · exact absurd hh hd
      · exact absurd hh ho
  have hnumid : numO (ds ++ [d]) d.id = some (2 + ds.length) := by
    rw [numO_snoc, hid]; simp
  have hother : ∀ f, f ≠ d.id → d.prev ≠ some f → numO (ds ++ [d]) f = numO ds f := by
    intro f h1 h2
    rw [numO_snoc, if_neg (by
      rintro (e | e)
      · exact h1 e.symm
      · exact h2 e)]
    cases numO ds f <;> rfl
  have hknown' : ∀ f, (numO (ds ++ [d]) f).isSome ↔ f ∈ d.id :: done ∨ f ∈ d.prev.toList ++ old := by
    intro f
    rw [numO_snoc]
    have hk := h.known f
    cases hf : numO ds f with
    | some n =>
      rw [hf] at hk
      simp at hk
      simp
      rcases hk with hk | hk <;> simp [hk]
    | none =>
      rw [hf] at hk
      simp at hk
      by_cases hc : d.id = f ∨ d.prev = some f
      · simp [hc]
        rcases hc with hc | hc
        · exact .inl (.inl hc.symm)
        · right; left; exact hc
      · simp only [if_neg hc]
        simp [hk]
        refine ⟨fun e => hc (.inl e.symm), fun e => hc (.inr ?_)⟩
        exact e
  have hapart' : ∀ f ∈ d.id :: done, f ∉ d.prev.toList ++ old := by
    intro f hf hm
    simp at hf hm
    rcases hm with hm | hm
    · have := hp f hm
      rcases hf with hf | hf
      · exact this.2.2 hf
      · exact this.1 hf
    · rcases hf with rfl | hf
      · exact ho hm
      · exact h.apart f hf hm
  have hpast' : ∀ x ∈ A, Past (ds ++ [d]) used x := by
    intro x hx
    have := h.past x hx
    cases x with
    | val | brk | cont | next => trivial
    | fn f => exact this
    | fnOp f => obtain ⟨n, hn⟩ := this; exact ⟨n, by rw [numO_snoc, hn]; rfl⟩
    | fnArg f => obtain ⟨n, hn⟩ := this; exact ⟨n, by rw [numO_snoc, hn]; rfl⟩
  have hcalm' : ∀ f, toVoid (((update st.fn d.id (st.funcs.length : Int)) f).natAbs : Int) = ((update st.fn d.id (st.funcs.length : Int)) f).natAbs := by
    intro f
    simp only [update]
    split
    · apply toVoid_small
      have := h.funcs
      omega
    · exact h.calm f
  have hlen := h.funcs
  have hlen' : (st.funcs ++ [(st.size : Int)]).length = 2 + (ds ++ [d]).length := by simp [hlen]; omega
  cases hprev : d.prev with
  | none =>
    rw [hprev] at hres hknown' hapart'
    simp only [fillO] at hres
    refine ⟨⟨?_, ?_, h.brk, h.cont, h.next, h.hung, hcalm', hlen', hpast', hknown', hapart'⟩, rfl, rfl, rfl⟩
    · rw [hres]; exact h.mem
    · rw [hres]
      refine ⟨h.rel.brk, h.rel.cont, fun f n hf hfn => ?_, fun f hf hfn => ?_⟩
      · show update st.fn d.id (st.funcs.length : Int) f = n
        by_cases e : f = d.id
        · subst e
          rw [hnumid] at hfn
          simp only [update]; simp at hfn ⊢; omega
        · rw [hother f e (by rw [hprev]; simp)] at hfn
          simp only [update, if_neg e]
          exact h.rel.known f n (by simpa using hf) hfn
      · show update st.fn d.id (st.funcs.length : Int) f = _
        have e : f ≠ d.id := by rintro rfl; rw [hnumid] at hfn; cases hfn
        rw [hother f e (by rw [hprev]; simp)] at hfn
        simp only [update, if_neg e]
        exact h.rel.unknown f (by simpa using hf) hfn
  | some p =>
    rw [hprev] at hres hknown' hapart'
    simp only [fillO] at hres
    have hp' := hp p hprev
    have hpn : numO ds p = none := by
      cases hh : numO ds p with
      | none => rfl
      | some n =>
        rcases (h.known p).1 (by rw [hh]; rfl) with hh | hh
        · exact absurd hh hp'.1
        · exact absurd hh hp'.2.1
    have hfp : st.fn p = (after noHeads 4 (A.map (res (numO ds)))).fn p := h.rel.unknown p hp'.2.1 hpn
    have hupd : update st.fn d.id (st.funcs.length : Int) p = st.fn p := by simp only [update, if_neg hp'.2.2]
    -- the heads
    have hrel : ∀ g : Heads, g.brk = (after noHeads 4 (A.map (res (numO ds)))).brk → g.cont = (after noHeads 4 (A.map (res (numO ds)))).cont →
        (∀ i, i ≠ p → (after noHeads 4 (A.map (res (numO ds)))).fn i = g.fn i) →
        Rel (numO (ds ++ [d])) ((some p).toList ++ old) ⟨st.brk, st.cont, update st.fn d.id (st.funcs.length : Int)⟩ g := by
      intro g g1 g2 g3
      refine ⟨by rw [g1]; exact h.rel.brk, by rw [g2]; exact h.rel.cont, fun f n hf hfn => ?_, fun f hf hfn => ?_⟩
      · simp only
        have hfp' : f ≠ p := by rintro rfl; simp at hf
        have hfo : f ∉ old := by simp at hf; exact hf.2
        by_cases e : f = d.id
        · subst e
          rw [hnumid] at hfn
          simp only [update]; simp at hfn ⊢; omega
        · rw [hother f e (by rw [hprev]; simp; exact fun e => hfp' e.symm)] at hfn
          simp only [update, if_neg e]
          exact h.rel.known f n hfo hfn
      · simp only
        have hfp' : f ≠ p := by rintro rfl; simp at hf
        have hfo : f ∉ old := by simp at hf; exact hf.2
        have e : f ≠ d.id := by rintro rfl; rw [hnumid] at hfn; cases hfn
        rw [hother f e (by rw [hprev]; simp; exact fun e => hfp' e.symm)] at hfn
        simp only [update, if_neg e]
        rw [← g3 f hfp']
        exact h.rel.unknown f hfo hfn
    have hsame := Chain.same_after (k := .fn p) (Chain.same_refl (.fn p) noHeads) ((2 + ds.length : Nat) : Int) (A.map (res (numO ds))) 4
    have hopen : (after noHeads 4 (A.map (res (numO ds)))).fn p ≤ 0 := Chain.open_after (k := .fn p) (h := noHeads) (by simp [Chain.Open, noHeads]) _ 4
    have hnoarg : ∀ x ∈ A.map (res (numO ds)), Chain.NoArg (.fn p) x := by
      intro x hx
      simp only [List.mem_map] at hx
      obtain ⟨y, hy, rfl⟩ := hx
      have := h.past y hy
      cases y with
      | val | brk | cont | next => simp [res, Chain.NoArg]
      | fn f => cases hf : numO ds f <;> simp [res, hf, Chain.NoArg]
      | fnOp f => obtain ⟨n, hn⟩ := this; simp [res, hn, Chain.NoArg]
      | fnArg f => obtain ⟨n, hn⟩ := this; simp [res, hn, Chain.NoArg]
    by_cases hneg : st.fn p < 0
    · -- the chain is walked along
      have hwalk := walk_fill (.fn p) ((2 + ds.length : Nat) : Int) [0, 0, 0, 0] noHeads 0 (by simp [Chain.Open, noHeads]) (by simp [Chain.head, noHeads])
        (A.map (res (numO ds))) [] st.mem.length hnoarg (by intro i _; simp) (by
          have := h.size; simp; omega) (by decide) (by have := h.size; unfold Enc.size at this; simp; omega)
      simp only [List.append_nil, List.length_cons, List.length_nil, Nat.zero_add, Nat.reduceAdd] at hwalk
      rw [← h.mem] at hwalk
      have hhead : Chain.head (after noHeads 4 (A.map (res (numO ds)))) (.fn p) = (st.fn p).natAbs := by
        simp only [Chain.head]; rw [hfp]
      rw [hhead] at hwalk
      have e : st.functionsAdd d.id (some p) st.size =
          { st with funcs := st.funcs ++ [(st.size : Int)], fn := update st.fn d.id (st.funcs.length : Int),
                    mem := [0, 0, 0, 0] ++ conc noHeads 4 (fill (Chain.fn p).sym ((2 + ds.length : Nat) : Int) (A.map (res (numO ds)))) } := by
        unfold Enc.functionsAdd
        simp only
        rw [hupd, if_pos hneg]
        unfold Enc.patch
        simp only
        rw [hlen, hwalk]
      rw [e]
      refine ⟨⟨?_, ?_, h.brk, h.cont, h.next, h.hung, hcalm', hlen', hpast', hknown', hapart'⟩, rfl, ?_, rfl⟩
      · rw [hres]; rfl
      · rw [hres]
        exact hrel _ hsame.1.symm hsame.2.1.symm hsame.2.2
      · have := h.size
        simp only [Enc.size] at this ⊢
        simp; omega
    · -- the function was not called
      have hnot : Sym.fn p ∉ A.map (res (numO ds)) := by
        intro hm
        apply hneg
        rw [hfp]
        exact called_neg _ noHeads 4 (by omega) (by simp [noHeads]) (.inl hm)
      have e : st.functionsAdd d.id (some p) st.size = { st with funcs := st.funcs ++ [(st.size : Int)], fn := update st.fn d.id (st.funcs.length : Int) } := by
        unfold Enc.functionsAdd
        simp only
        rw [hupd, if_neg hneg]
      rw [fill_of_not_mem hnot] at hres
      rw [e]
      refine ⟨⟨?_, ?_, h.brk, h.cont, h.next, h.hung, hcalm', hlen', hpast', hknown', hapart'⟩, rfl, rfl, rfl⟩
      · rw [hres]; exact h.mem
      · rw [hres]
        exact hrel _ rfl rfl (fun _ _ => rfl)

end RuC.Codegen
