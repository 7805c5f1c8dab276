import Verif.Llvm.Lemmas
import Verif.Llvm.Arith

/-!
# Lemmas: running the code of an expression
-/

namespace RuC.Llvm

theorem Star.trans {call : CallRel} {code : List Instr} {a b c : Conf} (h : Star call code a b) (k : Star call code b c) : Star call code a c := by
  induction h with
  | refl => exact k
  | step s _ ih => exact .step s (ih k)

theorem Star.one {call : CallRel} {code : List Instr} {a b : Conf} (h : Step call code a b) : Star call code a b := .step h .refl

/-- The label an instruction is. -/
def labelOf : Instr → Option Nat
  | .label l => some l
  | _ => none

/-- The labels of a text. -/
abbrev labels (c : List Instr) : List Nat := c.filterMap labelOf

theorem find_label {l : Nat} {r : List Instr} : ∀ {code : List Instr}, (Instr.label l :: r) <:+ code → (labels code).Nodup → find l code = some r := by
  rintro code ⟨pre, rfl⟩
  induction pre with
  | nil => intro _; simp [find]
  | cons i pre ih =>
    intro h
    have h' : (labels (pre ++ Instr.label l :: r)).Nodup := by
      simp only [labels, List.cons_append, List.filterMap_cons] at h ⊢
      split at h
      · exact h
      · exact (List.nodup_cons.mp h).2
    cases i with
    | label k =>
      simp only [labels, List.cons_append, List.filterMap_cons, labelOf] at h
      have hk : k ≠ l := by
        intro e
        apply (List.nodup_cons.mp h).1
        simp [e, labelOf]
      simp only [List.cons_append, find, if_neg hk]
      exact ih h'
    | _ => simp only [List.cons_append, find]; exact ih h'

theorem suf_right {α : Type} {a b c : List α} (h : (a ++ b) <:+ c) : b <:+ c := (List.suffix_append a b).trans h

/-- The variables in scope are in cells of their own. -/
structure Match (var : Nat → Option (Option V)) (fr : Frame) : Prop where
  cell : ∀ id c, var id = some c → ∃ a, fr.addr id = some a ∧ a < fr.stack.length ∧ ∀ v, c = some v → fr.stack[a]? = some (some v)
  inj : ∀ id id' a, (var id).isSome → (var id').isSome → fr.addr id = some a → fr.addr id' = some a → id = id'

/-- What the code of an expression leaves alone. -/
structure Keep (n : Nat) (fr fr' : Frame) : Prop where
  reg : ∀ r, r < n → fr'.reg r = fr.reg r
  addr : fr'.addr = fr.addr
  dyn : fr'.dyn = fr.dyn
  args : fr'.args = fr.args
  size : fr'.stack.length = fr.stack.length

theorem Keep.refl (n : Nat) (fr : Frame) : Keep n fr fr := ⟨fun _ _ => rfl, rfl, rfl, rfl, rfl⟩

theorem Keep.trans {n m : Nat} {a b c : Frame} (h : Keep n a b) (k : Keep m b c) (hm : n ≤ m) : Keep n a c :=
  ⟨fun r hr => (k.reg r (Nat.lt_of_lt_of_le hr hm)).trans (h.reg r hr), k.addr.trans h.addr, k.dyn.trans h.dyn, k.args.trans h.args, k.size.trans h.size⟩

theorem Keep.setReg {n r : Nat} (fr : Frame) (v : V) (h : n ≤ r) : Keep n fr (fr.setReg r v) :=
  ⟨fun x hx => by simp [Frame.setReg, show x ≠ r by omega], rfl, rfl, rfl, rfl⟩

theorem Keep.enter (n : Nat) (fr : Frame) (l : Nat) : Keep n fr (fr.enter l) := ⟨fun _ _ => rfl, rfl, rfl, rfl, rfl⟩

theorem Match.setReg {var : Nat → Option (Option V)} {fr : Frame} (h : Match var fr) (r : Nat) (v : V) : Match var (fr.setReg r v) := ⟨h.cell, h.inj⟩

theorem Match.enter {var : Nat → Option (Option V)} {fr : Frame} (h : Match var fr) (l : Nat) : Match var (fr.enter l) := ⟨h.cell, h.inj⟩

theorem get_ok {isLocal : Nat → Bool} {s : S} {fr : Frame} {id : Nat} {ty : Ty} {v : V} (hm : Match s.var fr) (h : s.get isLocal id ty = some v) :
    fr.get s.w (isLocal id) id ty = some v := by
  unfold S.get at h
  unfold Frame.get
  split at h
  · rename_i x hx
    split at hx
    · obtain ⟨a, h1, -, h3⟩ := hm.cell id _ hx
      rename_i hl
      simp only [hl, if_true, h1, Option.bind_some, h3 x rfl]
      exact h
    · rename_i hl
      simp only [hl]
      simp only [Bool.false_eq_true, if_false, hx]
      exact h
  · cases h

theorem get_ty {isLocal : Nat → Bool} {s : S} {id : Nat} {ty : Ty} {v : V} (h : s.get isLocal id ty = some v) : v.ty = ty := by
  unfold S.get at h
  split at h
  · split at h
    · cases h; assumption
    · cases h
  · cases h

theorem set_ok {isLocal : Nat → Bool} {s s' : S} {fr : Frame} {id : Nat} {v : V} (hm : Match s.var fr) (h : s.set isLocal id v = some s') :
    ∃ fr', fr.set s.w (isLocal id) id v = some (fr', s'.w) ∧ Match s'.var fr' ∧ (∀ n, Keep n fr fr') ∧ fr'.cur = fr.cur := by
  unfold S.set at h
  unfold Frame.set
  cases hl : isLocal id
  · simp only [hl, Bool.false_eq_true, if_false] at h ⊢
    split at h
    · rename_i hg
      cases h
      rw [if_pos hg]
      exact ⟨fr, rfl, hm, fun n => Keep.refl n fr, rfl⟩
    · cases h
  · simp only [hl, if_true] at h ⊢
    split at h
    · rename_i hg
      cases h
      obtain ⟨c, hc⟩ := Option.isSome_iff_exists.mp hg
      obtain ⟨a, h1, h2, -⟩ := hm.cell id c hc
      refine ⟨{ fr with stack := fr.stack.set a (some v) }, by simp [h1, h2], ⟨?_, ?_⟩, fun n => ⟨fun _ _ => rfl, rfl, rfl, rfl, by simp⟩, rfl⟩
      · intro j c' hj
        by_cases hji : j = id
        · subst hji
          simp only [if_true, Option.some.injEq] at hj
          subst hj
          exact ⟨a, h1, by simpa using h2, by intro x hx; cases hx; simp [h2]⟩
        · simp only [if_neg hji] at hj
          obtain ⟨b, k1, k2, k3⟩ := hm.cell j c' hj
          refine ⟨b, k1, by simpa using k2, ?_⟩
          intro x hx
          have hab : a ≠ b := by
            intro e
            subst e
            exact hji (hm.inj j id a (by rw [hj]; rfl) hg k1 h1)
          simp only [List.getElem?_set_ne hab]
          exact k3 x hx
      · intro i j b hi hj
        have dom : ∀ k, (if k = id then some (some v) else s.var k).isSome → (s.var k).isSome := by
          intro k hk
          split at hk
          · rename_i e; rw [e]; exact hg
          · exact hk
        exact hm.inj i j b (dom i hi) (dom j hj)
    · cases h

/-- The answer is there. -/
structure Ans (e : Exp) (g : Gen) (v : V) (fr : Frame) : Prop where
  ty : e.ty = some v.ty
  kind : g.kind = kindOf e
  opd : fr.opd v.ty (g.opd (some v.ty)) = some v
  bound : g.kind = .reg ∨ g.kind = .logic → g.ansReg < g.reg

theorem opd_reg {fr : Frame} {r : Nat} {v : V} (h : fr.reg r = some v) : fr.opd v.ty (.reg r) = some v := by
  simp [Frame.opd, h]

theorem opd_setReg (fr : Frame) (r : Nat) (v : V) : (fr.setReg r v).opd v.ty (.reg r) = some v := opd_reg (by simp [Frame.setReg])

/-- An answer stays what it is while other registers are set. -/
theorem opd_keep {n : Nat} {fr fr' : Frame} {g : Gen} {ty : Ty} {o : Option Ty} (k : Keep n fr fr') (h : g.kind = .reg ∨ g.kind = .logic → g.ansReg < n) :
    fr'.opd ty (g.opd o) = fr.opd ty (g.opd o) := by
  unfold Gen.opd
  cases hk : g.kind
  · simp only [Frame.opd, k.reg _ (h (Or.inl hk))]
  · simp only
    split <;> rfl
  · simp only [Frame.opd, k.reg _ (h (Or.inr hk))]
  · rfl

theorem ty_i32 {v : V} (h : v.ty = .int) : ∃ b, v = .i32 b := by
  cases v <;> simp [V.ty] at h ⊢

theorem ty_i1 {v : V} (h : v.ty = .bool) : ∃ b, v = .i1 b := by
  cases v <;> simp [V.ty] at h ⊢

theorem kind_logic : ∀ e : Exp, kindOf e = .logic → e.ty = some .bool
  | .not e, _ => rfl
  | .cmp .., _ => rfl
  | .logic .., _ => rfl
  | .comma _ r, h => kind_logic r h
  | .assign none _ _ e, h => by
    simp only [kindOf] at h
    split at h
    · cases h
    · exact absurd h ‹_›

/-- The jump behind a condition. -/
theorem check_ok {crel : CallRel} {code : List Instr} {e : Exp} {g : Gen} {v : V} {fr : Frame} {var : Nat → Option (Option V)} {t : Bool} {r post : List Instr} {w : World}
    (ha : Ans e g v fr) (hk : kindOf e ≠ .str) (hl : g.loc ≠ .nolog) (ht : v.truth = some t) (hf : find (if t then g.lt else g.lf) code = some r)
    (hm : Match var fr) :
    ∃ fr', Star crel code ((check e.ty g).1 ++ post, fr, w) (r, fr', w) ∧ Match var fr' ∧ Keep g.reg fr fr' ∧ fr'.cur = some (if t then g.lt else g.lf) := by
  have hty := ha.ty
  have hopd := ha.opd
  have hfin : ∀ (x : Nat) (u : V), Match var ((fr.setReg x u).enter (if t then g.lt else g.lf)) ∧ (g.reg ≤ x → Keep g.reg fr ((fr.setReg x u).enter (if t then g.lt else g.lf))) :=
    fun x u => ⟨(hm.setReg x u).enter _, fun h => (Keep.setReg fr u h).trans (Keep.enter _ _ _) (Nat.le_refl _)⟩
  rw [hty]
  unfold check
  cases hkind : g.kind
  · -- a register
    simp only [Gen.opd, hkind] at hopd
    cases v with
    | i32 b =>
      simp only [V.ty] at *
      simp only [if_true, if_neg hl]
      have hx : (cmpL .ne b 0) = t := by
        simp only [V.truth, Option.some.injEq] at ht
        rw [← ht, cmpL]
        rw [Bool.eq_iff_iff]; simp
      refine ⟨(fr.setReg g.reg (.i1 t)).enter (if t then g.lt else g.lf), ?_, (hfin _ _).1, (hfin _ _).2 (Nat.le_refl _), rfl⟩
      refine .step (.cmpInt hopd (y := 0) (by simp [Frame.opd, fit])) (.step ?_ .refl)
      rw [hx]
      exact .cbr (opd_setReg fr g.reg (.i1 t)) hf
    | i1 b =>
      simp only [V.ty] at *
      simp only [if_neg hl]
      have hx : (b != false) = t := by
        simp only [V.truth, Option.some.injEq] at ht
        rw [← ht]; cases b <;> rfl
      refine ⟨(fr.setReg g.reg (.i1 t)).enter (if t then g.lt else g.lf), ?_, (hfin _ _).1, (hfin _ _).2 (Nat.le_refl _), rfl⟩
      refine .step (.cmpBool hopd (y := false) (by simp [Frame.opd])) (.step ?_ .refl)
      rw [hx]
      exact .cbr (opd_setReg fr g.reg (.i1 t)) hf
    | str i => simp [V.truth] at ht
  · -- a constant
    simp only [Gen.opd, hkind] at hopd
    refine ⟨fr.enter (if t then g.lt else g.lf), ?_, hm.enter _, Keep.enter _ _ _, rfl⟩
    cases v with
    | i32 b =>
      simp only [V.ty, V.truth, Option.some.injEq] at *
      simp only [if_true] at hopd ⊢
      simp [Frame.opd] at hopd
      have hb := fit_some hopd
      have : (if g.ansConst ≠ 0 then g.lt else g.lf) = if t then g.lt else g.lf := by
        by_cases hz : g.ansConst = 0
        · have : b = 0 := by rw [hb.2.1, hz]; rfl
          have : t = false := by rw [← ht]; simp [this]
          simp [hz, this]
        · have : b ≠ 0 := by
            intro k; rw [k] at hb; apply hz; rw [← hb.1]; rfl
          have : t = true := by rw [← ht]; exact decide_eq_true this
          simp [hz, this]
      rw [this]
      exact .one (.br hf)
    | i1 b =>
      simp only [V.ty, V.truth, Option.some.injEq] at *
      simp [Frame.opd] at hopd
      simp only [hopd, ht, reduceCtorEq, if_false, if_true]
      exact .one (.br hf)
    | str i => simp [V.truth] at ht
  · -- the outcome of a comparison
    simp only [Gen.opd, hkind] at hopd
    simp only [if_neg hl]
    refine ⟨fr.enter (if t then g.lt else g.lf), ?_, hm.enter _, Keep.enter _ _ _, rfl⟩
    cases v with
    | i32 b =>
      rw [kind_logic e (ha.kind.symm.trans hkind)] at hty
      simp [V.ty] at hty
    | i1 b =>
      simp only [V.ty, V.truth, Option.some.injEq] at *
      subst ht
      exact .one (.cbr hopd hf)
    | str i => simp [V.truth] at ht
  · exact absurd (ha.kind.symm.trans hkind) hk

end RuC.Llvm
