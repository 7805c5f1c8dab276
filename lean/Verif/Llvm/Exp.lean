import Verif.Llvm.Run

/-!
# Lemmas: the code of an expression computes its value
-/

namespace RuC.Llvm

section
variable (isLocal : Nat → Bool) (call : Calls) (crel : CallRel)

/-- The code of an expression used for its value. -/
def VOk (e : Exp) : Prop := ∀ (g : Gen) (s : S) (x : Option V) (s' : S) (fr : Frame) (post code : List Instr),
  0 < g.label → (labels code).Nodup → ((emitE isLocal e g).1 ++ post) <:+ code → Match s.var fr → evalE isLocal call e s = some (x, s') →
    ∃ fr', Star crel code ((emitE isLocal e g).1 ++ post, fr, s.w) (post, fr', s'.w) ∧ Match s'.var fr' ∧ Keep g.reg fr fr' ∧
      (∀ v, x = some v → Ans e (emitE isLocal e g).2 v fr') ∧ (straight e = true → fr'.cur = fr.cur) ∧
      (e.isTernary = true → fr'.cur = some (emitE isLocal e g).2.ternEnd)

/-- The code of an expression used as a condition, with the jump behind it. -/
def TOk (e : Exp) : Prop := ∀ (g : Gen) (s : S) (v : V) (t : Bool) (s' : S) (fr : Frame) (post code r : List Instr) (l : Loc),
  0 < g.label → g.loc = .free → l ≠ .nolog → (labels code).Nodup →
  (((emitE isLocal e g).then fun g1 => check e.ty { g1 with loc := l }).1 ++ post) <:+ code → Match s.var fr →
  evalE isLocal call e s = some (some v, s') → v.truth = some t → find (if t then g.lt else g.lf) code = some r →
    ∃ fr', Star crel code (((emitE isLocal e g).then fun g1 => check e.ty { g1 with loc := l }).1 ++ post, fr, s.w) (r, fr', s'.w) ∧
      Match s'.var fr' ∧ Keep g.reg fr fr' ∧ fr'.cur = some (if t then g.lt else g.lf)

/-- The code of a condition that makes the jumps itself. -/
def JOk (e : Exp) : Prop := ∀ (g : Gen) (s : S) (v : V) (t : Bool) (s' : S) (fr : Frame) (post code r : List Instr),
  0 < g.label → g.loc = .free → (labels code).Nodup → ((emitE isLocal e g).1 ++ post) <:+ code → Match s.var fr →
  evalE isLocal call e s = some (some v, s') → v.truth = some t → find (if t then g.lt else g.lf) code = some r →
    ∃ fr', Star crel code ((emitE isLocal e g).1 ++ post, fr, s.w) (r, fr', s'.w) ∧
      Match s'.var fr' ∧ Keep g.reg fr fr' ∧ fr'.cur = some (if t then g.lt else g.lf)

/-- The code of arguments. -/
def AOk (args : Args) : Prop := ∀ (g : Gen) (s : S) (vs : List V) (s' : S) (fr : Frame) (post code : List Instr),
  0 < g.label → (labels code).Nodup → ((emitA isLocal args g).1 ++ post) <:+ code → Match s.var fr → evalA isLocal call args s = some (vs, s') →
    ∃ fr', Star crel code ((emitA isLocal args g).1 ++ post, fr, s.w) (post, fr', s'.w) ∧ Match s'.var fr' ∧ Keep g.reg fr fr' ∧
      fr'.opds (emitA isLocal args g).2.1 = some vs ∧ (straightA args = true → fr'.cur = fr.cur)

variable {isLocal call crel}

theorem opds_keep {n : Nat} {fr fr' : Frame} (k : Keep n fr fr') : ∀ (l : List (Ty × Opd)), (∀ x ∈ l, ∀ r, x.2 = .reg r → r < n) → fr'.opds l = fr.opds l
  | [], _ => rfl
  | (ty, a) :: l, h => by
    have h1 : fr'.opd ty a = fr.opd ty a := by
      cases a with
      | reg r => simp only [Frame.opd, k.reg r (h (ty, .reg r) (by simp) r rfl)]
      | _ => rfl
    simp only [Frame.opds, h1, opds_keep k l fun x hx => h x (List.mem_cons_of_mem _ hx)]

theorem leaf_ok {e : Exp} (hv : VOk isLocal call crel e) (hg : good e = true) (hl : leaf e = true) : TOk isLocal call crel e := by
  intro g s v t s' fr post code r l h0 hloc hl' hn hs hm he ht hf
  simp only [leaf, Bool.and_eq_true, Bool.or_eq_true, beq_iff_eq, bne_iff_ne, Bool.not_eq_true'] at hl
  obtain ⟨⟨⟨hty, hstr⟩, -⟩, hsw⟩ := hl
  have hfl := (fieldsE isLocal e hg g).2
  rw [hsw] at hfl
  simp only [swapped, Bool.false_eq_true, if_false] at hfl
  simp only [then_fst, List.append_assoc] at hs ⊢
  obtain ⟨fr1, s1, m1, k1, a1, -, -⟩ := hv g s _ s' fr _ code h0 hn hs hm he
  have ha := a1 v rfl
  have hgr := growE isLocal e g
  generalize emitE isLocal e g = x at *
  obtain ⟨fr2, s2, m2, k2, c2⟩ := check_ok (g := { x.2 with loc := l }) (post := post) (w := s'.w) (r := r) (crel := crel)
    ⟨ha.ty, ha.kind, ha.opd, ha.bound⟩ hstr hl' ht (by simp only [hfl.1, hfl.2]; exact hf) m1
  refine ⟨fr2, s1.trans s2, m2, k1.trans k2 hgr.reg, ?_⟩
  rw [c2]; simp only [hfl.1, hfl.2]

/-! ## One class of expressions after the other -/

theorem v_int (v : Int) : VOk isLocal call crel (.int v) := by
  intro g s x s' fr post code h0 hn hs hm he
  simp only [evalE, Option.map_eq_some_iff, Prod.mk.injEq] at he
  obtain ⟨b, hb, rfl, rfl⟩ := he
  refine ⟨fr, by simp only [emitE]; exact .refl, hm, Keep.refl _ _, ?_, fun _ => rfl, by simp [Exp.isTernary]⟩
  intro v' hv'
  cases hv'
  exact ⟨rfl, rfl, by simp [emitE, Gen.opd, Frame.opd, V.ty, hb], by simp [emitE]⟩

theorem v_bool (b : Bool) : VOk isLocal call crel (.bool b) := by
  intro g s x s' fr post code h0 hn hs hm he
  simp only [evalE, Option.some.injEq, Prod.mk.injEq] at he
  obtain ⟨rfl, rfl⟩ := he
  refine ⟨fr, by simp only [emitE]; exact .refl, hm, Keep.refl _ _, ?_, fun _ => rfl, by simp [Exp.isTernary]⟩
  intro v' hv'
  cases hv'
  exact ⟨rfl, rfl, by simp [emitE, Gen.opd, Frame.opd, V.ty], by simp [emitE]⟩

theorem v_str (i : Nat) : VOk isLocal call crel (.str i) := by
  intro g s x s' fr post code h0 hn hs hm he
  simp only [evalE, Option.some.injEq, Prod.mk.injEq] at he
  obtain ⟨rfl, rfl⟩ := he
  refine ⟨fr, by simp only [emitE]; exact .refl, hm, Keep.refl _ _, ?_, fun _ => rfl, by simp [Exp.isTernary]⟩
  intro v' hv'
  cases hv'
  exact ⟨rfl, rfl, by simp [emitE, Gen.opd, Frame.opd, V.ty], by simp [emitE]⟩

theorem v_ident (id : Nat) (ty : Ty) : VOk isLocal call crel (.ident id ty) := by
  intro g s x s' fr post code h0 hn hs hm he
  simp only [evalE, Option.map_eq_some_iff, Prod.mk.injEq] at he
  obtain ⟨v, hv, rfl, rfl⟩ := he
  refine ⟨fr.setReg g.reg v, ?_, hm.setReg _ _, Keep.setReg fr v (Nat.le_refl _), ?_, fun _ => rfl, by simp [Exp.isTernary]⟩
  · simp only [emitE]
    exact .one (.load (get_ok hm hv))
  · intro v' hv'
    cases hv'
    refine ⟨by rw [get_ty hv]; rfl, rfl, ?_, by simp [emitE, Gen.answer]⟩
    simp only [emitE, Gen.answer, Gen.opd]
    exact opd_setReg _ _ _

/-- The register of an answer. -/
theorem Ans.reg {e : Exp} {g : Gen} {v : V} {fr : Frame} (h : Ans e g v fr) (hk : kindOf e = .reg ∨ kindOf e = .logic) : fr.opd v.ty (.reg g.ansReg) = some v := by
  have := h.opd
  unfold Gen.opd at this
  rcases hk with hk | hk <;> rw [h.kind, hk] at this <;> exact this

theorem int_of {x : Option V} {a : BitVec 32} (h : ∃ v, x = some v ∧ v.int = some a) : x = some (.i32 a) := by
  obtain ⟨v, rfl, h⟩ := h
  cases v <;> simp [V.int] at h ⊢; exact h

theorem v_un {op : Un} {e : Exp} (hv : VOk isLocal call crel e) (hg : good (.un op e) = true) : VOk isLocal call crel (.un op e) := by
  intro g s x s' fr post code h0 hn hs hm he
  simp only [good, cls, Bool.and_eq_true, beq_iff_eq] at hg
  simp only [evalE, Option.bind_eq_bind, Option.bind_eq_some_iff] at he
  obtain ⟨⟨y, s1⟩, he, a, ha, b, hb, hx⟩ := he
  simp only [Option.some.injEq, Prod.mk.injEq] at hx
  obtain ⟨rfl, rfl⟩ := hx
  simp only at ha
  simp only [emitE, then_fst, then_snd, List.append_assoc] at hs ⊢
  obtain ⟨fr1, t1, m1, k1, a1, c1, -⟩ := hv { g with loc := if op = .abs then .free else .reg } s _ s1 fr _ code h0 hn hs hm he
  have han := a1 _ (int_of ha)
  have hr := han.reg (Or.inl hg.2)
  have hgr := growE isLocal e { g with loc := if op = .abs then .free else .reg }
  generalize emitE isLocal e { g with loc := if op = .abs then .free else .reg } = z at *
  refine ⟨fr1.setReg z.2.reg (.i32 b), t1.trans (.one ?_), m1.setReg _ _, k1.trans (Keep.setReg _ _ (Nat.le_refl _)) hgr.reg, ?_, ?_, by simp [Exp.isTernary]⟩
  · cases op
    · exact .arith (x := 0) (by simp [Frame.opd, fit]) hr (minus_ok hb)
    · exact .arith (y := -1) hr (by simp [Frame.opd, fit]) (not_ok hb)
    · exact .abs hr (abs_ok hb)
  · intro v hv
    cases hv
    refine ⟨rfl, rfl, ?_, by simp [Gen.answer]⟩
    simp only [Gen.answer, Gen.opd]
    exact opd_setReg _ _ _
  · simp only [straight]
    exact c1

theorem v_not {e : Exp} (hv : VOk isLocal call crel e) (hg : good (.not e) = true) : VOk isLocal call crel (.not e) := by
  intro g s x s' fr post code h0 hn hs hm he
  simp only [good, cls, Bool.and_eq_true, beq_iff_eq] at hg
  simp only [evalE, Option.bind_eq_bind, Option.bind_eq_some_iff] at he
  obtain ⟨⟨y, s1⟩, he, b, hb, hx⟩ := he
  simp only [Option.some.injEq, Prod.mk.injEq] at hx
  obtain ⟨rfl, rfl⟩ := hx
  obtain ⟨v, rfl, hb'⟩ := hb
  have hne : e.ty ≠ some .int := by rw [hg.1.2]; simp
  simp only [emitE, then_fst, then_snd, List.append_assoc] at hs ⊢
  obtain ⟨fr1, t1, m1, k1, a1, c1, -⟩ := hv { g with lt := g.lf, lf := g.lt } s _ s1 fr _ code h0 hn hs hm he
  have han := a1 _ rfl
  have hr := han.reg (Or.inl hg.2)
  have hkind := han.kind
  have hgr := growE isLocal e { g with lt := g.lf, lf := g.lt }
  generalize emitE isLocal e { g with lt := g.lf, lf := g.lt } = z at *
  rw [hg.2] at hkind
  rw [if_pos hkind, if_neg hne] at t1 ⊢
  have hty := han.ty
  rw [hg.1.2] at hty
  obtain ⟨b', rfl⟩ := ty_i1 (Option.some.inj hty).symm
  simp only [V.truth, Option.some.injEq] at hb'
  subst hb'
  refine ⟨fr1.setReg z.2.reg (.i1 !b'), t1.trans (.one ?_), m1.setReg _ _, k1.trans (Keep.setReg _ _ (Nat.le_refl _)) hgr.reg, ?_, ?_, by simp [Exp.isTernary]⟩
  · exact .flip hr
  · intro v hv
    cases hv
    refine ⟨rfl, by simp [hkind, kindOf, hg.2], ?_, by simp⟩
    simp only [then_snd, quiet_snd, Gen.opd, hkind]
    exact opd_setReg _ _ _
  · simp only [straight]
    exact c1

theorem v_inc (op : Inc) (id : Nat) : VOk isLocal call crel (.inc op id) := by
  intro g s x s' fr post code h0 hn hs hm he
  simp only [evalE, Option.bind_eq_bind, Option.bind_eq_some_iff] at he
  obtain ⟨a, ⟨u, hu, ha⟩, b, hb, s1, hset, hx⟩ := he
  simp only [Option.some.injEq, Prod.mk.injEq] at hx
  obtain ⟨rfl, rfl⟩ := hx
  have hua : u = .i32 a := by cases u <;> simp [V.int] at ha ⊢; exact ha
  subst hua
  simp only [emitE]
  have m2 := (hm.setReg g.reg (.i32 a)).setReg (g.reg + 1) (.i32 b)
  obtain ⟨fr3, hs3, m3, k3, c3⟩ := set_ok m2 hset
  have hra : fr3.reg g.reg = some (.i32 a) := by rw [(k3 (g.reg + 1)).reg g.reg (by omega)]; simp [Frame.setReg]
  have hrb : fr3.reg (g.reg + 1) = some (.i32 b) := by rw [(k3 (g.reg + 2)).reg _ (by omega)]; simp [Frame.setReg]
  refine ⟨fr3, ?_, m3, ?_, ?_, fun _ => c3, by simp [Exp.isTernary]⟩
  · refine .step (.load (get_ok hm hu)) (.step (.arith (x := a) (y := 1) (z := b) (opd_setReg _ _ (.i32 a)) (by simp [Frame.opd, fit]) (inc_ok hb)) (.one ?_))
    exact .store (v := .i32 b) (opd_setReg _ _ (.i32 b)) hs3
  · exact ((Keep.setReg fr _ (Nat.le_refl _)).trans (Keep.setReg _ _ (Nat.le_succ _)) (Nat.le_refl _)).trans (k3 g.reg) (Nat.le_refl _)
  · intro v hv
    cases hv
    refine ⟨rfl, rfl, ?_, fun _ => by simp only; split <;> omega⟩
    simp only [Gen.opd]
    cases op <;> simp only [incV, V.ty, Frame.opd, reduceCtorEq, or_false, false_or, or_self, if_true, if_false, Bool.false_eq_true, hra, hrb] <;> simp [V.ty]

/-- The operands of an operator with integers. -/
theorem v_two {l r : Exp} (hl : VOk isLocal call crel l) (hr : VOk isLocal call crel r) (hil : intOpd l = true) (hir : intOpd r = true)
    (hk : kindOf l = .reg ∨ kindOf r = .reg) {g : Gen} {s s1 s2 : S} {x y : Option V} {a b : BitVec 32} {fr : Frame} {mk : Opd → Opd → Instr} {post code : List Instr}
    (h0 : 0 < g.label) (hn : (labels code).Nodup) (hm : Match s.var fr)
    (hs : ((emitE isLocal l { g with loc := .free }).1 ++ ((emitE isLocal r { (emitE isLocal l { g with loc := .free }).2 with loc := .free }).1 ++ post)) <:+ code)
    (h1 : evalE isLocal call l s = some (x, s1)) (hx : x = some (.i32 a)) (h2 : evalE isLocal call r s1 = some (y, s2)) (hy : y = some (.i32 b)) :
    ∃ oa ob fr', integral mk l.ty (emitE isLocal r { (emitE isLocal l { g with loc := .free }).2 with loc := .free }).2.reg
        (emitE isLocal l { g with loc := .free }).2.kind (emitE isLocal l { g with loc := .free }).2.ansReg (emitE isLocal l { g with loc := .free }).2.ansConst
        (emitE isLocal r { (emitE isLocal l { g with loc := .free }).2 with loc := .free }).2.kind
        (emitE isLocal r { (emitE isLocal l { g with loc := .free }).2 with loc := .free }).2.ansReg
        (emitE isLocal r { (emitE isLocal l { g with loc := .free }).2 with loc := .free }).2.ansConst = [mk oa ob] ∧
      fr'.opd .int oa = some (.i32 a) ∧ fr'.opd .int ob = some (.i32 b) ∧
      Star crel code ((emitE isLocal l { g with loc := .free }).1 ++ ((emitE isLocal r { (emitE isLocal l { g with loc := .free }).2 with loc := .free }).1 ++ post), fr, s.w)
        (post, fr', s2.w) ∧ Match s2.var fr' ∧ Keep g.reg fr fr' ∧ (straight l = true → straight r = true → fr'.cur = fr.cur) ∧
      g.reg ≤ (emitE isLocal r { (emitE isLocal l { g with loc := .free }).2 with loc := .free }).2.reg := by
  simp only [intOpd, Bool.and_eq_true, Bool.or_eq_true, beq_iff_eq] at hil hir
  obtain ⟨fr1, t1, m1, k1, a1, c1, -⟩ := hl { g with loc := .free } s _ s1 fr _ code h0 hn hs hm h1
  have ha := a1 _ hx
  have hg1 := growE isLocal l { g with loc := .free }
  have hs2 := suf_right hs
  generalize emitE isLocal l { g with loc := .free } = u at *
  obtain ⟨fr2, t2, m2, k2, a2, c2, -⟩ := hr { u.2 with loc := .free } s1 _ s2 fr1 _ code (Nat.lt_of_lt_of_le h0 hg1.label) hn hs2 m1 h2
  have hb := a2 _ hy
  have hg2 := growE isLocal r { u.2 with loc := .free }
  generalize emitE isLocal r { u.2 with loc := .free } = w at *
  have hoa : fr2.opd .int (u.2.opd (some .int)) = some (.i32 a) := by
    rw [opd_keep k2 (by intro h; exact ha.bound h)]
    exact ha.opd
  have hob : fr2.opd .int (w.2.opd (some .int)) = some (.i32 b) := hb.opd
  refine ⟨u.2.opd (some .int), w.2.opd (some .int), fr2, ?_, hoa, hob, t1.trans t2, m2, k1.trans k2 hg1.reg, ?_, Nat.le_trans hg1.reg hg2.reg⟩
  · unfold integral Gen.opd
    have ka := ha.kind
    have kb := hb.kind
    rw [ka, kb, hil.1]
    rcases hil.2 with h | h <;> rcases hir.2 with h' | h' <;> simp [h, h'] at hk ⊢
  · intro p q
    rw [c2 q, c1 p]

theorem v_arith {op : Arith} {l r : Exp} (hl : VOk isLocal call crel l) (hr : VOk isLocal call crel r) (hg : good (.arith op l r) = true) :
    VOk isLocal call crel (.arith op l r) := by
  intro g s x s' fr post code h0 hn hs hm he
  simp only [good, cls, Bool.and_eq_true, Bool.or_eq_true, beq_iff_eq] at hg
  simp only [evalE, Option.bind_eq_bind, Option.bind_eq_some_iff] at he
  obtain ⟨⟨y, s1⟩, h1, a, ha, ⟨z, s2⟩, h2, b, hb, c, hc, hx⟩ := he
  simp only [Option.some.injEq, Prod.mk.injEq] at hx
  obtain ⟨rfl, rfl⟩ := hx
  simp only [emitE, then_fst, then_snd, List.append_assoc] at hs ⊢
  obtain ⟨oa, ob, fr', hi, ho1, ho2, t, m, k, cc, hreg⟩ := v_two (mk := .arith (emitE isLocal r { (emitE isLocal l { g with loc := .free }).2 with loc := .free }).2.reg op)
    hl hr hg.1.1.2 hg.1.2 hg.2 h0 hn hm hs h1 (int_of ha) h2 (int_of hb)
  rw [hi] at t hs ⊢
  refine ⟨fr'.setReg _ (.i32 c), t.trans (.one (.arith ho1 ho2 (arith_ok hc))), m.setReg _ _, k.trans (Keep.setReg _ _ hreg) (Nat.le_refl _), ?_, ?_, by simp [Exp.isTernary]⟩
  · intro v hv
    cases hv
    refine ⟨rfl, rfl, ?_, by simp [Gen.answer]⟩
    simp only [Gen.answer, Gen.opd]
    exact opd_setReg _ _ _
  · simp only [straight, Bool.and_eq_true]
    exact fun p => cc p.1 p.2

theorem v_cmp {op : Cmp} {l r : Exp} (hl : VOk isLocal call crel l) (hr : VOk isLocal call crel r) (hg : good (.cmp op l r) = true) :
    VOk isLocal call crel (.cmp op l r) := by
  intro g s x s' fr post code h0 hn hs hm he
  simp only [good, cls, Bool.and_eq_true, Bool.or_eq_true, beq_iff_eq] at hg
  simp only [evalE, Option.bind_eq_bind, Option.bind_eq_some_iff] at he
  obtain ⟨⟨y, s1⟩, h1, a, ha, ⟨z, s2⟩, h2, b, hb, hx⟩ := he
  simp only [Option.some.injEq, Prod.mk.injEq] at hx
  obtain ⟨rfl, rfl⟩ := hx
  simp only [emitE, then_fst, then_snd, List.append_assoc] at hs ⊢
  obtain ⟨oa, ob, fr', hi, ho1, ho2, t, m, k, cc, hreg⟩ := v_two (mk := .cmp (emitE isLocal r { (emitE isLocal l { g with loc := .free }).2 with loc := .free }).2.reg op .int)
    hl hr hg.1.1.2 hg.1.2 hg.2 h0 hn hm hs h1 (int_of ha) h2 (int_of hb)
  rw [hi] at t hs ⊢
  refine ⟨fr'.setReg _ (.i1 (cmpL op a b)), t.trans (.one (.cmpInt ho1 ho2)), m.setReg _ _, k.trans (Keep.setReg _ _ hreg) (Nat.le_refl _), ?_, ?_, by simp [Exp.isTernary]⟩
  · intro v hv
    cases hv
    refine ⟨rfl, rfl, ?_, by simp [Gen.answer]⟩
    simp only [Gen.answer, Gen.opd]
    rw [cmp_ok]
    exact opd_setReg _ _ (.i1 _)
  · simp only [straight, Bool.and_eq_true]
    exact fun p => cc p.1 p.2

theorem v_comma {l r : Exp} (hl : VOk isLocal call crel l) (hr : VOk isLocal call crel r) : VOk isLocal call crel (.comma l r) := by
  intro g s x s' fr post code h0 hn hs hm he
  simp only [evalE, Option.bind_eq_bind, Option.bind_eq_some_iff] at he
  obtain ⟨⟨y, s1⟩, h1, h2⟩ := he
  simp only [emitE, then_fst, then_snd, List.append_assoc] at hs ⊢
  obtain ⟨fr1, t1, m1, k1, -, c1, -⟩ := hl g s _ s1 fr _ code h0 hn hs hm h1
  have hg1 := growE isLocal l g
  obtain ⟨fr2, t2, m2, k2, a2, c2, -⟩ := hr _ s1 _ s' fr1 _ code (Nat.lt_of_lt_of_le h0 hg1.label) hn (suf_right hs) m1 h2
  refine ⟨fr2, t1.trans t2, m2, k1.trans k2 hg1.reg, ?_, ?_, by simp [Exp.isTernary]⟩
  · intro v hv
    have := a2 v hv
    exact ⟨this.ty, this.kind, this.opd, this.bound⟩
  · simp only [straight, Bool.and_eq_true]
    exact fun p => by rw [c2 p.2, c1 p.1]

end

end RuC.Llvm
