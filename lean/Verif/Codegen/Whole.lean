import Verif.Codegen.Prog

/-!
# The whole unit
-/

namespace RuC.Codegen

open RuC RuC.Instr
open RuC.Expr (Unary Binary)

/-- The statement of a declaration. -/
def Top.stmt : Top → Stmt
  | .vars s => s
  | .func f => f.body

/-- Expressions are well-formed, and jumps and labels stand where they are allowed. -/
def Top.Good (t : Top) : Prop := t.stmt.Wf ∧ t.stmt.Placed false false false

theorem codeF_noHole {f : Func} (h : f.body.Wf ∧ f.body.Placed false false false) (L base) : NoHole (codeF L base f) :=
  noHole_append.2 ⟨noHole_append.2 ⟨noHole_vals _, (placed_closed _ _ h.1 h.2).1⟩, noHole_vals _⟩

theorem emit_tops : ∀ (tops : List Top) (st : Enc) (A : List Sym) (ds : List Func) (done old used : List Nat), Inv st A ds done old used →
    (∀ t ∈ tops, t.Good) → Linked done old used tops → Calm st.size (codeTops st.lay st.size tops) → ds.length + (defs tops).length ≤ 8998 →
    ∃ done' old' used', Inv (tops.foldl emitT st) (A ++ codeTops st.lay st.size tops) (ds ++ defs tops) done' old' used' ∧
      (tops.foldl emitT st).funcs = st.funcs ++ (addrs st.lay st.size tops).map (Int.ofNat ·) ∧ (∀ f ∈ done, f ∈ done') ∧ (∀ d ∈ defs tops, d.id ∈ done') ∧
      (tops.foldl emitT st).lay = tops.foldl layT st.lay
  | [], st, A, ds, done, old, used, inv, _, _, _, _ =>
    ⟨done, old, used, by simpa [codeTops, defs] using inv, by simp [addrs], fun _ h => h, by simp [defs], rfl⟩
  | .vars s :: rest, st, A, ds, done, old, used, inv, good, link, calm, hn => by
    obtain ⟨l1, l2, l3⟩ := link
    have g := good _ List.mem_cons_self
    obtain ⟨c1, c2⟩ := calm_append (A := codeT st.lay st.size (.vars s)) calm
    have e : emitT st (.vars s) = (app st (codeS st.lay st.size s).code).setLay (layS st.lay s) := emitS_closed g.1 g.2 (inv.okP c1)
    have inv1 := inv.app (codeS_in s st.lay st.size) (placed_closed st.lay st.size g.1 g.2).1 l1 l2 c1 (layS st.lay s)
    rw [← e] at inv1
    have hs : (emitT st (.vars s)).size = st.size + (codeS st.lay st.size s).code.length := by rw [e]; simp
    have hl : (emitT st (.vars s)).lay = layS st.lay s := by rw [e]; rfl
    have hf : (emitT st (.vars s)).funcs = st.funcs := by rw [e]; rfl
    have ih := emit_tops rest _ _ ds done old _ inv1 (fun t ht => good t (List.mem_cons_of_mem _ ht)) l3 (by rw [hs, hl]; exact c2) hn
    obtain ⟨done', old', used', i1, i2, i3, i4, i5⟩ := ih
    rw [hs, hl] at i1 i2
    rw [hl] at i5
    refine ⟨done', old', used', ?_, ?_, i3, i4, i5⟩
    · rw [List.append_assoc] at i1
      exact i1
    · rw [hf] at i2; exact i2
  | .func f :: rest, st, A, ds, done, old, used, inv, good, link, calm, hn => by
    obtain ⟨l1, l2, l3, l4, l5, l6, l7⟩ := link
    have g := good _ List.mem_cons_self
    have hn' : ds.length + ((defs rest).length + 1) ≤ 8998 := hn
    obtain ⟨c1, c2⟩ := calm_append (A := codeT st.lay st.size (.func f)) calm
    have hd := inv.define f l1 l2 l3 l4 (by omega) (by have := calm.2; omega)
    obtain ⟨inv0, hlay, hsz, hfn⟩ := hd
    have e : emitT st (.func f) = _ := emitF_app g.1 g.2 hlay hsz (inv0.okP (by rw [hsz]; exact c1))
    have inv1 := inv0.app (codeT_in (.func f) st.lay st.size) (codeF_noHole g st.lay st.size) l5 l6 (by rw [hsz]; exact c1) (layF st.lay f)
    have e' : emitT st (.func f) = (app (st.functionsAdd f.id f.prev st.size) (codeT st.lay st.size (.func f))).setLay (layF st.lay f) := e
    rw [← e'] at inv1
    have hs : (emitT st (.func f)).size = st.size + (codeF st.lay st.size f).length := by rw [e', size_setLay, app_size, hsz]; rfl
    have hl : (emitT st (.func f)).lay = layF st.lay f := by rw [e']; rfl
    have hf : (emitT st (.func f)).funcs = st.funcs ++ [(st.size : Int)] := by rw [e']; exact hfn
    have ih := emit_tops rest _ _ _ _ _ _ inv1 (fun t ht => good t (List.mem_cons_of_mem _ ht)) l7 (by rw [hs, hl]; exact c2) (by simp; omega)
    obtain ⟨done', old', used', i1, i2, i3, i4, i5⟩ := ih
    rw [hs, hl] at i1 i2
    rw [hl] at i5
    refine ⟨done', old', used', ?_, ?_, fun x hx => i3 x (List.mem_cons_of_mem _ hx), ?_, i5⟩
    · rw [List.append_assoc, List.append_assoc] at i1
      exact i1
    · rw [hf, List.append_assoc] at i2; exact i2
    · intro d hd
      rcases List.mem_cons.1 (show d ∈ f :: defs rest from hd) with rfl | hd
      · exact i3 _ List.mem_cons_self
      · exact i4 d hd

theorem inv_start : Inv start [] [] [] [] [] := by
  refine ⟨rfl, ⟨rfl, rfl, fun f n _ h => ?_, fun f _ _ => rfl⟩, rfl, rfl, rfl, rfl, fun f => ?_, rfl, ?_, ?_, ?_⟩
  · simp [numO] at h
  · exact toVoid_small (by simp [start, Enc.heads])
  · intro x hx; cases hx
  · intro f; simp [numO]
  · intro f hf; cases hf

def passesT : List Top → List Nat
  | [] => []
  | t :: rest => t.passes ++ passesT rest

theorem codeTops_in : ∀ (tops : List Top) (L base), AllIn (callsT tops) (passesT tops) (codeTops L base tops)
  | [], _, _ => allIn_nil _ _
  | t :: rest, L, base => (codeT_in t L base).both (codeTops_in rest _ _)

theorem codeTops_noHole : ∀ (tops : List Top) (L base), (∀ t ∈ tops, t.Good) → NoHole (codeTops L base tops)
  | [], _, _, _ => noHole_nil
  | t :: rest, L, base, h => by
    refine noHole_append.2 ⟨?_, codeTops_noHole rest _ _ (fun t ht => h t (List.mem_cons_of_mem _ ht))⟩
    have g := h t List.mem_cons_self
    cases t with
    | vars s => exact (placed_closed L base g.1 g.2).1
    | func f => exact codeF_noHole g L base

theorem numO_number {tops f} (h : ∃ d ∈ defs tops, d.id = f ∨ d.prev = some f) : numO (defs tops) f = some (number tops f) := by
  simp only [numO, number]
  have : (defs tops).findIdx? (fun g => decide (g.id = f ∨ g.prev = some f)) = some ((defs tops).findIdx (fun g => decide (g.id = f ∨ g.prev = some f))) := by
    rw [List.findIdx?_eq_some_iff_findIdx_eq]
    refine ⟨?_, rfl⟩
    rw [List.findIdx_lt_length]
    obtain ⟨d, hd, h⟩ := h
    exact ⟨d, hd, by simpa using h⟩
  rw [this]; rfl

/-- All of the unit. -/
theorem emitU_all {tops : List Top} {main : Nat} (good : ∀ t ∈ tops, t.Good) (link : Linked [] [] [] tops)
    (called : ∀ f ∈ callsT tops, ∃ d ∈ defs tops, d.id = f ∨ d.prev = some f) (hmain : ∃ d ∈ defs tops, d.id = main)
    (calm : Calm 4 (codeTops start.lay 4 tops)) (hn : (defs tops).length ≤ 8998) :
    (emitU tops main).mem = [0, 0, 0, 0] ++ (codeTops start.lay 4 tops).map (resolve (number tops)) ++ [IC_CALL1, IC_CALL2, (number tops main : Int), IC_STOP] ∧
      (emitU tops main).hung = false ∧ (emitU tops main).funcs = [0, 0] ++ (addrs start.lay 4 tops).map (Int.ofNat ·) ∧
      (emitU tops main).lay = tops.foldl layT start.lay := by
  obtain ⟨done', old', used', inv, hf, _, hids, hlay⟩ := emit_tops tops start [] [] [] [] [] inv_start good link calm (by simpa using hn)
  simp only [List.nil_append] at inv
  have e4 : start.size = 4 := rfl
  rw [e4] at inv hf
  have nh := codeTops_noHole tops start.lay 4 good
  have hin := codeTops_in tops start.lay 4
  have hres : (codeTops start.lay 4 tops).map (res (numO (defs tops))) = vals ((codeTops start.lay 4 tops).map (resolve (number tops))) := by
    simp only [vals, List.map_map]
    apply List.map_congr_left
    intro x hx
    have hnh := nh x hx
    have hsym := hin x hx
    have hpast := inv.past x hx
    have hnum : ∀ f n, numO (defs tops) f = some n → n = number tops f := by
      intro f n h
      have : ∃ d ∈ defs tops, d.id = f ∨ d.prev = some f := by
        simp only [numO, Option.map_eq_some_iff] at h
        obtain ⟨i, hi, _⟩ := h
        rw [List.findIdx?_eq_some_iff_getElem] at hi
        obtain ⟨hlt, hi, _⟩ := hi
        exact ⟨_, List.getElem_mem hlt, by simpa using hi⟩
      rw [numO_number this] at h
      simpa using h.symm
    cases x with
    | val v => rfl
    | brk => exact absurd rfl hnh.1
    | cont => exact absurd rfl hnh.2.1
    | next => exact absurd rfl hnh.2.2
    | fn f => simp [res, numO_number (called f hsym), resolve]
    | fnOp f => obtain ⟨n, hn⟩ := hpast; simp [res, hn, resolve]
    | fnArg f => obtain ⟨n, hn⟩ := hpast; simp [res, hn, resolve, hnum f n hn]
  obtain ⟨d, hd, hdm⟩ := hmain
  have hmn : (tops.foldl emitT start).fn main = number tops main :=
    inv.rel.known main _ (hdm ▸ inv.apart d.id (hids d hd)) (numO_number ⟨d, hd, .inl hdm⟩)
  refine ⟨?_, inv.hung, ?_, hlay⟩
  · simp only [emitU, Enc.adds]
    rw [inv.mem, hres, conc_vals, hmn]
  · exact hf

end RuC.Codegen
