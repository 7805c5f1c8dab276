import Verif.Llvm.Cond

/-!
# Lemmas: the code of a statement does what the statement does
-/

namespace RuC.Llvm

/-! ## The variables in scope -/

theorem dom_set {isLocal : Nat → Bool} {s s' : S} {id : Nat} {v : V} (h : s.set isLocal id v = some s') (j : Nat) : (s.var j).isSome → (s'.var j).isSome := by
  unfold S.set at h
  split at h
  · split at h
    · cases h
      intro hj
      simp only
      split
      · rfl
      · exact hj
    · cases h
  · split at h
    · cases h; exact fun hj => hj
    · cases h

mutual
theorem domE (isLocal : Nat → Bool) (call : Calls) : ∀ (e : Exp) (s s' : S) (x : Option V), evalE isLocal call e s = some (x, s') → ∀ j, (s.var j).isSome → (s'.var j).isSome
  | .int _, s, s', x, h, j => by
    simp only [evalE, Option.map_eq_some_iff, Prod.mk.injEq] at h
    obtain ⟨_, _, _, rfl⟩ := h; exact id
  | .bool _, s, s', x, h, j => by
    simp only [evalE, Option.some.injEq, Prod.mk.injEq] at h
    obtain ⟨_, rfl⟩ := h; exact id
  | .str _, s, s', x, h, j => by
    simp only [evalE, Option.some.injEq, Prod.mk.injEq] at h
    obtain ⟨_, rfl⟩ := h; exact id
  | .ident _ _, s, s', x, h, j => by
    simp only [evalE, Option.map_eq_some_iff, Prod.mk.injEq] at h
    obtain ⟨_, _, _, rfl⟩ := h; exact id
  | .un _ e, s, s', x, h, j => by
    simp only [evalE, Option.bind_eq_bind, Option.bind_eq_some_iff, Option.some.injEq, Prod.mk.injEq] at h
    obtain ⟨⟨_, s1⟩, h1, _, _, _, _, _, rfl⟩ := h
    exact domE isLocal call e s _ _ h1 j
  | .not e, s, s', x, h, j => by
    simp only [evalE, Option.bind_eq_bind, Option.bind_eq_some_iff, Option.some.injEq, Prod.mk.injEq] at h
    obtain ⟨⟨_, s1⟩, h1, _, _, _, rfl⟩ := h
    exact domE isLocal call e s _ _ h1 j
  | .inc _ _, s, s', x, h, j => by
    simp only [evalE, Option.bind_eq_bind, Option.bind_eq_some_iff, Option.some.injEq, Prod.mk.injEq] at h
    obtain ⟨_, _, _, _, _, h1, _, rfl⟩ := h
    exact dom_set h1 j
  | .arith _ l r, s, s', x, h, j => by
    simp only [evalE, Option.bind_eq_bind, Option.bind_eq_some_iff, Option.some.injEq, Prod.mk.injEq] at h
    obtain ⟨⟨_, s1⟩, h1, _, _, ⟨_, s2⟩, h2, _, _, _, _, _, rfl⟩ := h
    exact fun hj => domE isLocal call r s1 _ _ h2 j (domE isLocal call l s _ _ h1 j hj)
  | .cmp _ l r, s, s', x, h, j => by
    simp only [evalE, Option.bind_eq_bind, Option.bind_eq_some_iff, Option.some.injEq, Prod.mk.injEq] at h
    obtain ⟨⟨_, s1⟩, h1, _, _, ⟨_, s2⟩, h2, _, _, _, rfl⟩ := h
    exact fun hj => domE isLocal call r s1 _ _ h2 j (domE isLocal call l s _ _ h1 j hj)
  | .logic _ l r, s, s', x, h, j => by
    simp only [evalE, Option.bind_eq_bind, Option.bind_eq_some_iff] at h
    obtain ⟨⟨_, s1⟩, h1, _, _, h2⟩ := h
    simp only at h2
    split at h2
    · simp only [Option.some.injEq, Prod.mk.injEq] at h2
      obtain ⟨_, rfl⟩ := h2
      exact domE isLocal call l s _ _ h1 j
    · simp only [Option.bind_eq_some_iff, Option.some.injEq, Prod.mk.injEq] at h2
      obtain ⟨⟨_, s2⟩, h2, _, _, _, rfl⟩ := h2
      exact fun hj => domE isLocal call r s1 _ _ h2 j (domE isLocal call l s _ _ h1 j hj)
  | .comma l r, s, s', x, h, j => by
    simp only [evalE, Option.bind_eq_bind, Option.bind_eq_some_iff] at h
    obtain ⟨⟨_, s1⟩, h1, h2⟩ := h
    exact fun hj => domE isLocal call r s1 _ _ h2 j (domE isLocal call l s _ _ h1 j hj)
  | .ternary c a b, s, s', x, h, j => by
    simp only [evalE, Option.bind_eq_bind, Option.bind_eq_some_iff] at h
    obtain ⟨⟨_, s1⟩, h1, _, _, h2⟩ := h
    simp only at h2
    split at h2
    · exact fun hj => domE isLocal call a s1 _ _ h2 j (domE isLocal call c s _ _ h1 j hj)
    · exact fun hj => domE isLocal call b s1 _ _ h2 j (domE isLocal call c s _ _ h1 j hj)
  | .assign none _ _ e, s, s', x, h, j => by
    simp only [evalE, Option.bind_eq_bind, Option.bind_eq_some_iff] at h
    obtain ⟨⟨_, s1⟩, h1, _, _, h2⟩ := h
    simp only at h2
    split at h2
    · simp only [Option.bind_eq_some_iff, Option.some.injEq, Prod.mk.injEq] at h2
      obtain ⟨_, h2, _, rfl⟩ := h2
      exact fun hj => dom_set h2 j (domE isLocal call e s _ _ h1 j hj)
    · cases h2
  | .assign (some _) _ _ e, s, s', x, h, j => by
    simp only [evalE, Option.bind_eq_bind, Option.bind_eq_some_iff, Option.some.injEq, Prod.mk.injEq] at h
    obtain ⟨⟨_, s1⟩, h1, _, _, _, _, _, _, _, h2, _, rfl⟩ := h
    exact fun hj => dom_set h2 j (domE isLocal call e s _ _ h1 j hj)
  | .call _ _ args, s, s', x, h, j => by
    simp only [evalE, Option.bind_eq_bind, Option.bind_eq_some_iff] at h
    obtain ⟨⟨_, s1⟩, h1, ⟨_, _⟩, _, h2⟩ := h
    simp only at h2
    split at h2
    · simp only [Option.some.injEq, Prod.mk.injEq] at h2
      obtain ⟨_, rfl⟩ := h2
      exact domA isLocal call args s _ _ h1 j
    · cases h2

theorem domA (isLocal : Nat → Bool) (call : Calls) : ∀ (args : Args) (s s' : S) (vs : List V), evalA isLocal call args s = some (vs, s') →
    ∀ j, (s.var j).isSome → (s'.var j).isSome
  | .nil, s, s', x, h, j => by
    simp only [evalA, Option.some.injEq, Prod.mk.injEq] at h
    obtain ⟨_, rfl⟩ := h; exact id
  | .cons e rest, s, s', x, h, j => by
    simp only [evalA, Option.bind_eq_bind, Option.bind_eq_some_iff, Option.some.injEq, Prod.mk.injEq] at h
    obtain ⟨⟨_, s1⟩, h1, _, _, ⟨_, s2⟩, h2, _, rfl⟩ := h
    exact fun hj => domA isLocal call rest s1 _ _ h2 j (domE isLocal call e s _ _ h1 j hj)
end

/-! ## What a statement leaves alone -/

/-- The state behind a piece of code; `k` is the number of the next block. -/
structure After (k : Nat) (s s' : S) (fr fr' : Frame) : Prop where
  mat : Match s'.var fr'
  dom : ∀ j, (s.var j).isSome → (s'.var j).isSome
  dyn : ∀ j, j < k → fr'.dyn j = fr.dyn j
  args : fr'.args = fr.args
  addr : ∀ id, (s.var id).isSome → fr'.addr id = fr.addr id
  size : fr.stack.length ≤ fr'.stack.length

theorem After.trans {k l : Nat} {s1 s2 s3 : S} {f1 f2 f3 : Frame} (h : After k s1 s2 f1 f2) (h' : After l s2 s3 f2 f3) (hk : k ≤ l) : After k s1 s3 f1 f3 :=
  ⟨h'.mat, fun j hj => h'.dom j (h.dom j hj), fun j hj => (h'.dyn j (Nat.lt_of_lt_of_le hj hk)).trans (h.dyn j hj), h'.args.trans h.args,
    fun id hid => (h'.addr id (h.dom id hid)).trans (h.addr id hid), Nat.le_trans h.size h'.size⟩

theorem After.refl {k : Nat} {s : S} {fr : Frame} (h : Match s.var fr) : After k s s fr fr :=
  ⟨h, fun _ => id, fun _ _ => rfl, rfl, fun _ _ => rfl, Nat.le_refl _⟩

theorem After.keep {n k : Nat} {s s' : S} {fr fr' : Frame} (hm : Match s'.var fr') (hd : ∀ j, (s.var j).isSome → (s'.var j).isSome) (h : Keep n fr fr') : After k s s' fr fr' :=
  ⟨hm, hd, fun _ _ => by rw [h.dyn], h.args, fun _ _ => by rw [h.addr], by rw [h.size]; exact Nat.le_refl _⟩

theorem After.enter {k : Nat} {s s' : S} {fr fr' : Frame} (h : After k s s' fr fr') (l : Nat) : After k s s' fr (fr'.enter l) :=
  ⟨h.mat.enter l, h.dom, h.dyn, h.args, h.addr, h.size⟩

theorem After.start {k : Nat} {s s' : S} {fr fr' : Frame} {l : Nat} (h : After k s s' (fr.enter l) fr') : After k s s' fr fr' :=
  ⟨h.mat, h.dom, h.dyn, h.args, h.addr, h.size⟩

/-- Where a piece of code ends up. -/
def Reach (code post : List Instr) (lb : Nat) (flow : Flow) (rest : List Instr) (fr : Frame) : Prop :=
  match flow with
  | .normal => rest = post
  | .brk => find lb code = some rest
  | .cont => False
  | .ret v => ∃ a r, rest = .ret a :: r ∧ fr.result a = some v

section
variable {isLocal : Nat → Bool} {call : Calls} {crel : CallRel}

/-- The code of a statement. -/
def SOk (isLocal : Nat → Bool) (call : Calls) (crel : CallRel) (main : Bool) (n : Nat) (st : Stmt) : Prop :=
  ∀ (g : Gen) (s : S) (flow : Flow) (s' : S) (fr : Frame) (post code : List Instr),
  0 < g.label → g.isMain = main → (labels code).Nodup → ((emitS isLocal st g).1 ++ post) <:+ code → Match s.var fr → execS isLocal call n st s = some (flow, s') →
  (flow = .brk → ∃ r, find g.lb code = some r) →
    ∃ rest fr', Star crel code ((emitS isLocal st g).1 ++ post, fr, s.w) (rest, fr', s'.w) ∧ Reach code post g.lb flow rest fr' ∧ After g.block s s' fr fr'

/-! ## Declarations -/

/-- A new variable. -/
theorem match_alloca {var : Nat → Option (Option V)} {fr : Frame} (hm : Match var fr) (id : Nat) :
    Match (fun j => if j = id then some none else var j)
      { fr with addr := fun j => if j = id then some fr.stack.length else fr.addr j, stack := fr.stack ++ [none] } := by
  constructor
  · intro j c hj
    simp only at hj ⊢
    by_cases h : j = id
    · rw [if_pos h] at hj ⊢
      cases hj
      exact ⟨_, rfl, by simp, by simp⟩
    · rw [if_neg h] at hj ⊢
      obtain ⟨a, h1, h2, h3⟩ := hm.cell j c hj
      refine ⟨a, h1, by simp; omega, ?_⟩
      intro v hv
      rw [List.getElem?_append_left h2]
      exact h3 v hv
  · intro i j a hi hj hai haj
    simp only at hi hj hai haj
    have fresh : ∀ i, ¬ i = id → (var i).isSome → fr.addr i = some fr.stack.length → False := by
      intro i hi hs ha
      obtain ⟨c, hc⟩ := Option.isSome_iff_exists.mp hs
      obtain ⟨b, h1, h2, -⟩ := hm.cell i c hc
      rw [h1] at ha
      cases ha
      exact Nat.lt_irrefl _ h2
    by_cases h : i = id
    · by_cases h' : j = id
      · rw [h, h']
      · rw [if_pos h] at hai
        rw [if_neg h'] at hj haj
        cases hai
        exact (fresh j h' hj haj).elim
    · by_cases h' : j = id
      · rw [if_pos h'] at haj
        rw [if_neg h] at hi hai
        cases haj
        exact (fresh i h hi hai).elim
      · rw [if_neg h] at hi hai
        rw [if_neg h'] at hj haj
        exact hm.inj i j a hi hj hai haj

theorem d_ok (hc : ∀ f vs w v w', call f vs w = some (v, w') → crel f vs w v w') : ∀ (l : List (Nat × Ty × Option Exp)), okD l = true →
    ∀ (g : Gen) (s s' : S) (fr : Frame) (post code : List Instr),
    0 < g.label → (labels code).Nodup → ((emitD isLocal l g).1 ++ post) <:+ code → Match s.var fr → execD isLocal call l s = some s' →
    ∃ fr', Star crel code ((emitD isLocal l g).1 ++ post, fr, s.w) (post, fr', s'.w) ∧ After g.block s s' fr fr'
  | [], _, g, s, s', fr, post, code, _, _, _, hm, he => by
    simp only [execD, Option.some.injEq] at he
    subst he
    exact ⟨fr, .refl, After.refl hm⟩
  | (id, ty, i) :: l, hok, g, s, s', fr, post, code, h0, hn, hs, hm, he => by
    simp only [execD] at he
    split at he
    · cases he
    · rename_i hid
      have hid1 : s.var id = none := by
        cases h : s.var id
        · rfl
        · exact absurd (Or.inl (by rw [h]; rfl)) hid
      have hid2 : isLocal id = true := by
        cases h : isLocal id
        · exact absurd (Or.inr h) hid
        · rfl
      have m0 := match_alloca hm id
      have a0 : ∀ k, After k s { s with var := fun j => if j = id then some none else s.var j } fr
          { fr with addr := fun j => if j = id then some fr.stack.length else fr.addr j, stack := fr.stack ++ [none] } := by
        intro k
        refine ⟨m0, ?_, fun _ _ => rfl, rfl, ?_, by simp⟩
        · intro j hj
          simp only
          split
          · rfl
          · exact hj
        · intro j hj
          simp only
          rw [if_neg]
          intro e
          rw [e, hid1] at hj
          cases hj
      cases i with
      | none =>
        simp only [okD, Bool.and_eq_true, bne_iff_ne] at hok
        simp only at he
        simp only [emitD, emitV, then_fst, then_snd, List.cons_append, List.nil_append] at hs ⊢
        -- the generator stores zero, and the variable has no value yet
        have hset : ∃ fr1, Frame.set { fr with addr := fun j => if j = id then some fr.stack.length else fr.addr j, stack := fr.stack ++ [none] } s.w true id
            (if ty = .int then .i32 0 else .i1 false) = some (fr1, s.w) ∧
            Match (fun j => if j = id then some none else s.var j) fr1 ∧ fr1.addr = (fun j => if j = id then some fr.stack.length else fr.addr j) ∧
            fr1.dyn = fr.dyn ∧ fr1.args = fr.args ∧ fr1.stack.length = fr.stack.length + 1 := by
          obtain ⟨fr1, h1, h2, h3, -⟩ := @set_ok (fun _ => true) { s with var := fun j => if j = id then some none else s.var j }
            { s with var := fun j => if j = id then some (some (if ty = .int then .i32 0 else .i1 false)) else s.var j } _ id (if ty = .int then .i32 0 else .i1 false) m0
            (by simp only [S.set, if_true, Option.isSome_some]; congr 2; funext j; by_cases h : j = id <;> simp [h])
          refine ⟨fr1, h1, ⟨?_, ?_⟩, (h3 0).addr, (h3 0).dyn, (h3 0).args, by rw [(h3 0).size]; simp⟩
          · intro j c hj
            by_cases h : j = id
            · rw [if_pos h] at hj
              cases hj
              obtain ⟨a, k1, k2, -⟩ := h2.cell j (some (if ty = .int then .i32 0 else .i1 false)) (by simp [h])
              exact ⟨a, k1, k2, by simp⟩
            · rw [if_neg h] at hj
              exact h2.cell j c (by simp only [if_neg h]; exact hj)
          · intro i j a hi hj
            refine h2.inj i j a ?_ ?_
            · simp only; split
              · rfl
              · rw [if_neg ‹_›] at hi; exact hi
            · simp only; split
              · rfl
              · rw [if_neg ‹_›] at hj; exact hj
        obtain ⟨fr1, hs1, m1, e1, e2, e3, e4⟩ := hset
        obtain ⟨fr2, t2, a2⟩ := d_ok hc l hok.2 g _ s' fr1 post code h0 hn (suf_right (a := [_, _]) hs) m1 he
        refine ⟨fr2, .step .alloca (.step (.store ?_ hs1) t2), ?_⟩
        · cases ty
          · simp [Frame.opd, fit]
          · simp [Frame.opd]
          · exact absurd rfl hok.1
        · refine After.trans ⟨m1, (a0 0).dom, fun _ _ => by rw [e2], e3, fun j hj => by rw [e1]; exact (a0 0).addr j hj, by omega⟩ a2 (Nat.le_refl _)
      | some e =>
        simp only [okD, Bool.and_eq_true, bne_iff_ne, Bool.or_eq_true, beq_iff_eq] at hok
        obtain ⟨⟨⟨⟨hty, hge⟩, het⟩, hk⟩, hl⟩ := hok
        simp only [Option.bind_eq_bind, Option.bind_eq_some_iff] at he
        obtain ⟨⟨x, s1⟩, h1, v, rfl, he⟩ := he
        simp only at he
        split at he
        · rename_i hvt
          simp only [Option.bind_eq_some_iff] at he
          obtain ⟨s2, hset, he⟩ := he
          simp only [emitD, emitV, then_fst, then_snd, List.append_assoc] at hs ⊢
          have hs' := suf_right (a := [Instr.alloca id ty]) hs
          obtain ⟨fr1, t1, m1, k1, an1, -, -⟩ := (all_ok hc e).val hge { g with loc := .free } _ _ s1 _ _ code h0 hn hs' m0 h1
          have han := an1 _ rfl
          have hgr := growE isLocal e { g with loc := .free }
          have hdom := domE isLocal call e _ _ _ h1
          generalize emitE isLocal e { g with loc := .free } = z at *
          obtain ⟨fr2, hs2, m2, k2, -⟩ := set_ok m1 hset
          rw [hid2] at hs2
          have hst : ∃ o, storeV ty id z.2 = ([.store ty o true id], z.2) ∧ fr1.opd ty o = some v := by
            have ho := han.opd
            rw [hvt] at ho
            have hkk := han.kind
            unfold storeV
            unfold Gen.opd at ho
            rcases hk with hk | hk <;> rw [hkk, hk] at ho ⊢
            · exact ⟨_, rfl, ho⟩
            · refine ⟨_, rfl, ?_⟩
              cases ty
              · simpa using ho
              · simpa using ho
              · exact absurd rfl hty
          obtain ⟨o, hso, hov⟩ := hst
          rw [hso] at hs' t1 ⊢
          simp only at hs' t1 ⊢
          obtain ⟨fr3, t3, a3⟩ := d_ok hc l hl z.2 s2 s' fr2 post code (Nat.lt_of_lt_of_le h0 hgr.label) hn (suf_right (a := [_]) (suf_right hs')) m2 he
          refine ⟨fr3, .step .alloca (t1.trans (.step (.store hov hs2) t3)), ?_⟩
          refine (a0 g.block).trans (l := g.block) ((After.keep m1 hdom k1).trans (l := g.block) ((After.keep m2 (dom_set hset) (k2 0)).trans a3 ?_) (Nat.le_refl _)) (Nat.le_refl _)
          rw [hgr.block]
          exact Nat.le_refl _
        · cases he

end

end RuC.Llvm
