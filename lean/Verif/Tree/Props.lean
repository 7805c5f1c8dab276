import Verif.Tree.Preorder

/-!
# C10, C11, C12: trees

The specification is in `Spec.lean`: `T` is an ordered tree with named nodes, `TStep` says what each
call does to it and answers, `Forest` defines the preorder.  `Session` collects the stored vectors
that calls made as required produce, each with the tree it is supposed to mean.
-/

namespace RuC.Tree
open RuC Hash

theorem tstep_state' {S S1 S2 : T} {op : Op} {r r' : Res} (h1 : TStep S op r S1) (h2 : TStep S op r' S2) (e : r = r') :
    S1 = S2 := by
  cases h1 <;> cases h2 <;> first | rfl | contradiction | (cases e; rfl) | (exfalso; omega) | simp_all

theorem tstep_state {S S1 S2 : T} {op : Op} {r : Res} (h1 : TStep S op r S1) (h2 : TStep S op r S2) : S1 = S2 :=
  tstep_state' h1 h2 rfl

theorem session_rep {c : Nat} {v : List Int} {S : T} (h : Session c v S) (hc : c < 4611686018427387904) :
    ∃ out, Rep v S out ∧ v.length ≤ c := by
  induction h with
  | new h =>
    simp only [nodeGetRoot, List.length_nil, if_true, Prod.mk.injEq, true_and] at h
    subst h
    exact ⟨[0], rep_root, by simp [vinc]⟩
  | @call c v S op r v' S' s hv h t ih =>
    obtain ⟨out, R, hl⟩ := ih (by omega)
    obtain ⟨r1, v1, S1, o, e1, t1, R1, l1⟩ := R.step hv (by omega)
    rw [h] at e1
    simp only [Option.some.injEq, Prod.mk.injEq] at e1
    obtain ⟨rfl, rfl⟩ := e1
    rw [tstep_state t t1]
    exact ⟨o, R1, by omega⟩

/-- **C10, C12.** In every state that calls made as required can reach, every further such call ends,
and what it answers and what it makes of the tree is what the specification says.  Every loop over
links ends. -/
theorem tree_refines {c : Nat} {v : List Int} {S : T} {op : Op} (h : Session c v S) (hv : op.Valid S)
    (hc : c + op.cost < 4611686018427387904) :
    ∃ r v' S', step v op = some (r, v') ∧ TStep S op r S' ∧ Session (c + op.cost) v' S' := by
  obtain ⟨out, R, hl⟩ := session_rep h (by omega)
  obtain ⟨r, v', S', o, e, t, -, -⟩ := R.step hv (by omega)
  exact ⟨r, v', S', e, t, .call h hv e t⟩

/-- **C10.** What is stored is a tree, and all of it reads back: the number of children, every
child, the parent, the type, and every argument. -/
theorem tree_reads {c : Nat} {v : List Int} {S : T} (h : Session c v S) (hc : c < 4611686018427387904) :
    ∃ out, IsTree S out ∧ ∀ nd ∈ out,
      nodeGetAmount v nd = (S.kids nd).length ∧
      (∀ i, nodeGetChild v nd i = (S.kids nd)[i]?) ∧
      (∀ child ∈ S.kids nd, nodeGetParent v child = some (some nd)) ∧
      (nd ≠ 0 → nodeGetType v nd = S.type nd) ∧
      nodeGetArgc v nd = (S.args nd).length ∧
      (∀ i, (hi : i < (S.args nd).length) → nodeGetArg v nd i = (S.args nd)[i]) := by
  obtain ⟨out, R, hl⟩ := session_rep h hc
  refine ⟨out, R.tree, fun nd hn => ⟨R.amount hn, R.child hn, ?_, R.type hn, R.argc hn, ?_⟩⟩
  · intro child hch
    obtain ⟨a, b, e⟩ := List.append_of_mem hch
    rw [nodeGetParent, R.parent hn e]
    rfl
  · intro i hi
    rw [R.arg hn, List.getElem?_eq_getElem hi]
    rfl

/-- The specification leaves no freedom: two trees that read back alike from the root are alike. -/
theorem tree_determined {c c' : Nat} {v : List Int} {S S' : T} (h : Session c v S) (h' : Session c' v S')
    (hc : c < 4611686018427387904) (hc' : c' < 4611686018427387904) :
    ∃ out, IsTree S out ∧ IsTree S' out ∧
      ∀ nd ∈ out, S.kids nd = S'.kids nd ∧ S.args nd = S'.args nd ∧ (nd ≠ 0 → S.type nd = S'.type nd) := by
  obtain ⟨out, R, hl⟩ := session_rep h hc
  obtain ⟨out', R', hl'⟩ := session_rep h' hc'
  have hkids : ∀ nd, nd ∈ out → nd ∈ out' → S.kids nd = S'.kids nd := by
    intro nd h1 h2
    apply List.ext_getElem?
    intro i
    rw [← R.child h1, ← R'.child h2]
  have key : ∀ (m : Nat) (ns o o' : List Nat), o.length < m → Forest S.kids ns o → Forest S'.kids ns o' →
      (∀ x ∈ o, x ∈ out) → (∀ x ∈ o', x ∈ out') → o = o' := by
    intro m
    induction m with
    | zero => intro ns o o' hm; omega
    | succ m ih =>
      intro ns o o' hm f f' hs hs'
      cases f with
      | nil => cases f'; rfl
      | @cons n ns o1 o2 h1 h2 =>
        cases f' with
        | cons g1 g2 =>
          simp only [List.length_cons, List.length_append] at hm
          rw [← hkids n (hs n (by simp)) (hs' n (by simp))] at g1
          rw [ih _ _ _ (by omega) h1 g1 (fun x hx => hs x (by simp [hx])) (fun x hx => hs' x (by simp [hx])),
            ih _ _ _ (by omega) h2 g2 (fun x hx => hs x (by simp [hx])) (fun x hx => hs' x (by simp [hx]))]
  have e : out = out' := key _ _ _ _ (Nat.lt_succ_self _) R.tree.1 R'.tree.1 (fun x h => h) (fun x h => h)
  subst e
  refine ⟨out, R.tree, R'.tree, fun nd hn => ⟨hkids nd hn hn, ?_, fun h0 => ?_⟩⟩
  · have hlen : (S.args nd).length = (S'.args nd).length := by rw [← R.argc hn, ← R'.argc hn]
    apply List.ext_getElem hlen
    intro i h1 h2
    have a1 := R.arg hn i
    have a2 := R'.arg hn i
    rw [List.getElem?_eq_getElem h1] at a1
    rw [List.getElem?_eq_getElem h2] at a2
    simpa using a1.symm.trans a2
  · rw [← R.type hn h0, ← R'.type hn h0]

/-- **C11.** Walking from the root of a tree with at least one more node visits all its nodes in
depth-first preorder, each once, and then reports the end. -/
theorem tree_preorder {c : Nat} {v : List Int} {S : T} {out : List Nat} (h : Session c v S)
    (hc : c < 4611686018427387904) (h0 : S.kids 0 ≠ []) (ho : Forest S.kids [0] out) :
    walk v (v.length + 1) 0 = some out.tail ∧ out.Nodup := by
  obtain ⟨out', R, hl⟩ := session_rep h hc
  have := ho.det R.tree.1
  subst this
  obtain ⟨o, rfl, -⟩ := Forest.single.1 ho
  refine ⟨R.walk h0 (a := []) (b := o) rfl ?_, R.tree.2⟩
  have := R.length_out
  simp at this
  omega

/-- **C11.** The step from any node on. -/
theorem tree_next {c : Nat} {v : List Int} {S : T} {before after : List Nat} {nd : Nat} (h : Session c v S)
    (hc : c < 4611686018427387904) (h0 : S.kids 0 ≠ []) (ho : Forest S.kids [0] (before ++ nd :: after)) :
    nodeGetNext v nd = some after.head? := by
  obtain ⟨out', R, hl⟩ := session_rep h hc
  exact R.next h0 (R.tree.1.det ho)

/-- **C10.** A new child comes right after the subtree it is hung under, childless and without arguments. -/
theorem tree_add_child {c : Nat} {v : List Int} {S : T} {out op : List Nat} {p : Nat} {t : Int} (h : Session c v S)
    (hc : c + 5 < 4611686018427387904) (ho : IsTree S out) (hp : p ∈ out) (hop : Forest S.kids [p] op) :
    ∃ n v' S' A B, step v (.addChild p t) = some (.node (some n), v') ∧ Session (c + 5) v' S' ∧ n ∉ out ∧
      out = A ++ op ++ B ∧ IsTree S' (A ++ op ++ n :: B) ∧
      S'.kids p = S.kids p ++ [n] ∧ S'.kids n = [] ∧ S'.args n = [] ∧ S'.type n = t ∧
      ∀ m ∈ out, (m ≠ p → S'.kids m = S.kids m) ∧ S'.args m = S.args m ∧ S'.type m = S.type m := by
  obtain ⟨out', R, hl⟩ := session_rep h (by omega)
  have := ho.1.det R.tree.1
  subst this
  obtain ⟨v', o, e, -, R'⟩ := R.addChild_step (t := t) hp (by omega)
  obtain ⟨A, B, e2, f⟩ := ho.1.addChild_at (n := v.length + 2) ho.2 R.fresh hp hop
  have hst : step v (.addChild p t) = some (.node (some (v.length + 2)), v') := by rw [step, e]
  have ts : TStep S (.addChild p t) (.node (some (v.length + 2))) _ := .addChild (R.live.2 hp) (fun h => R.fresh (R.live.1 h))
  have hnp : p ≠ v.length + 2 := fun e => R.fresh (e ▸ hp)
  refine ⟨v.length + 2, v', _, A, B, hst, .call (op := .addChild p t) h (R.live.2 hp) hst ts, R.fresh, e2, ⟨f, ?_⟩, ?_, ?_, ?_, ?_, ?_⟩
  · rw [f.det R'.tree.1]; exact R'.tree.2
  · simp [upd, hnp]
  · simp [upd]
  · simp [upd]
  · simp [upd]
  · intro m hm
    have hmn : m ≠ v.length + 2 := fun e => R.fresh (e ▸ hm)
    refine ⟨fun hmp => by simp [upd, hmn, hmp], by simp [upd, hmn], by simp [upd, hmn]⟩

/-- **C12.** `node_insert` puts exactly one new node between a node and its parent: in preorder it
comes right before the node; the new node has that node as its only child; everybody else's
children are the same up to the replacement. -/
theorem tree_insert {c : Nat} {v : List Int} {S : T} {out : List Nat} {x argc : Nat} {t : Int} (h : Session c v S)
    (hc : c + 5 + argc < 4611686018427387904) (ho : IsTree S out) (hx : x ∈ out) (h0 : x ≠ 0) :
    ∃ n v' S', step v (.insert x t argc) = some (.node (some n), v') ∧ Session (c + (5 + argc)) v' S' ∧ n ∉ out ∧
      IsTree S' (out.flatMap fun m => if m = x then [n, x] else [m]) ∧
      S'.kids n = [x] ∧ S'.type n = t ∧ S'.args n = List.replicate argc 0 ∧
      ∀ m ∈ out, S'.kids m = (S.kids m).map (fun k => if k = x then n else k) ∧
        S'.args m = S.args m ∧ S'.type m = S.type m := by
  obtain ⟨out', R, hl⟩ := session_rep h (by omega)
  have := ho.1.det R.tree.1
  subst this
  obtain ⟨v', o, e, -, R'⟩ := R.insert_step (t := t) (argc := argc) hx h0 (by omega)
  have hst : step v (.insert x t argc) = some (.node (some (v.length + 2)), v') := by rw [step, e]; rfl
  have ts : TStep S (.insert x t argc) (.node (some (v.length + 2))) _ := .insert h0 (fun h => R.fresh (R.live.1 h))
  have hnx : v.length + 2 ≠ x := fun e => R.fresh (e ▸ hx)
  have f := ho.1.insert_at (x := x) R.fresh hnx
  have h0' : (0 : Nat) ≠ x := fun e => h0 e.symm
  simp only [List.map_cons, List.map_nil, if_neg h0'] at f
  refine ⟨v.length + 2, v', _, hst, .call (op := .insert x t argc) h (R.live.2 hx) hst ts, R.fresh, ⟨f, ?_⟩, ?_, ?_, ?_, ?_⟩
  · rw [f.det R'.tree.1]; exact R'.tree.2
  · simp [upd]
  · simp [upd]
  · simp [upd]
  · intro m hm
    have hmn : m ≠ v.length + 2 := fun e => R.fresh (e ▸ hm)
    refine ⟨by simp [upd, hmn], by simp [upd, hmn], by simp [upd, hmn]⟩

/-- **C12.** `node_remove` cuts out exactly the subtree; the rest keeps its order, types and arguments. -/
theorem tree_remove {c : Nat} {v : List Int} {S : T} {out ox : List Nat} {x : Nat} (h : Session c v S)
    (hc : c < 4611686018427387904) (ho : IsTree S out) (hx : x ∈ out) (h0 : x ≠ 0) (hox : Forest S.kids [x] ox) :
    ∃ v' S', step v (.remove x) = some (.code 0, v') ∧ Session c v' S' ∧ IsTree S' (out.filter (· ∉ ox)) ∧
      ∀ m, S'.kids m = (S.kids m).filter (· ≠ x) ∧ S'.args m = S.args m ∧ S'.type m = S.type m := by
  obtain ⟨out', R, hl⟩ := session_rep h hc
  have := ho.1.det R.tree.1
  subst this
  obtain ⟨v', o, e, -, R'⟩ := R.remove_step hx h0
  have hst : step v (.remove x) = some (.code 0, v') := by rw [step, e]; rfl
  have f := Forest.remove_at ho hx hox ho.1 (fun m h => h) (fun m hm => by
    rw [List.mem_singleton] at hm
    subst hm
    by_cases e : 0 = x
    · exact Or.inl e
    · refine Or.inr (fun hm => ?_)
      have hp := hox.perm.mem_iff.1 hm
      rw [List.singleton_append, List.mem_cons, List.mem_flatMap] at hp
      rcases hp with e' | ⟨q, hq, hcq⟩
      · exact e e'
      · obtain ⟨o', g1, g2, _⟩ := ho.1.sub hx
        obtain ⟨o1, rfl, h1⟩ := Forest.single.1 hox
        rw [g1.det h1] at g2
        have hqo : q ∈ out := by
          rcases List.mem_cons.1 hq with rfl | hq
          · exact hx
          · exact g2 q hq
        exact R.shape.rootless q hqo hcq)
  have hz : ([0] : List Nat).filter (· ≠ x) = [0] := by
    rw [List.filter_cons_of_pos (by simp; omega)]; rfl
  rw [hz] at f
  exact ⟨v', _, hst, .call (op := .remove x) h (R.live.2 hx) hst (.remove h0), ⟨f, ho.2.filter _⟩, fun m => ⟨rfl, rfl, rfl⟩⟩

/-- **C12.** `node_swap` exchanges two subtrees, neither of which is inside the other: in preorder
each takes the place of the other, in its own order; types and arguments stay. -/
theorem tree_swap {c : Nat} {v : List Int} {S : T} {out ox oy : List Nat} {x y : Nat} (h : Session c v S)
    (hc : c < 4611686018427387904) (ho : IsTree S out) (hx : x ∈ out) (hy : y ∈ out)
    (hox : Forest S.kids [x] ox) (hoy : Forest S.kids [y] oy) (hxy : y ∉ ox) (hyx : x ∉ oy) :
    ∃ v' S', step v (.swap x y) = some (.code 0, v') ∧ Session c v' S' ∧
      IsTree S' (out.flatMap fun m => if m = x then oy else if m = y then ox else if m ∈ ox ∨ m ∈ oy then [] else [m]) ∧
      ∀ m, S'.kids m = (S.kids m).map (exchange x y) ∧ S'.args m = S.args m ∧ S'.type m = S.type m := by
  obtain ⟨out', R, hl⟩ := session_rep h hc
  have := ho.1.det R.tree.1
  subst this
  have root_above : ∀ {z w : Nat} {oz : List Nat}, Forest S.kids [z] oz → w ∈ out → w ∉ oz → z ≠ 0 := by
    rintro z w oz hz hw hnw rfl
    rw [hz.det R.tree.1] at hnw
    exact hnw hw
  have hx0 := root_above hox hy hxy
  have hy0 := root_above hoy hx hyx
  have hb : ¬ Below S x y ∧ ¬ Below S y x := by
    constructor
    · rintro ⟨o, g, hm⟩
      rw [g.det hox] at hm
      exact hxy hm
    · rintro ⟨o, g, hm⟩
      rw [g.det hoy] at hm
      exact hyx hm
  obtain ⟨v', o, e, -, R'⟩ := R.swap_step hx hx0 hy hy0 (Or.inr hb)
  have hst : step v (.swap x y) = some (.code 0, v') := by rw [step, e]; rfl
  have zero_out : ∀ {z : Nat} {oz : List Nat}, z ∈ out → z ≠ 0 → Forest S.kids [z] oz → 0 ∉ oz := by
    intro z oz hz hz0 hoz hm
    have hp := hoz.perm.mem_iff.1 hm
    rw [List.singleton_append, List.mem_cons, List.mem_flatMap] at hp
    rcases hp with e' | ⟨q, hq, hcq⟩
    · exact hz0 e'.symm
    · obtain ⟨o', g1, g2, _⟩ := ho.1.sub hz
      obtain ⟨o1, rfl, h1⟩ := Forest.single.1 hoz
      rw [g1.det h1] at g2
      have hqo : q ∈ out := by
        rcases List.mem_cons.1 hq with rfl | hq
        · exact hz
        · exact g2 q hq
      exact R.shape.rootless q hqo hcq
  have f := Forest.swap_at ho hx hy hox hoy hxy hyx ho.1 (fun m h => h) (fun m hm => by
    rw [List.mem_singleton] at hm
    subst hm
    exact ⟨Or.inr (zero_out hx hx0 hox), Or.inr (zero_out hy hy0 hoy)⟩)
  have hz : ([0] : List Nat).map (exchange x y) = [0] := by
    simp only [List.map_cons, List.map_nil, exchange]
    rw [if_neg (by omega), if_neg (by omega)]
  rw [hz] at f
  refine ⟨v', _, hst, .call (op := .swap x y) h ⟨R.live.2 hx, R.live.2 hy, Or.inr (Or.inr (Or.inr hb))⟩ hst (.swap hx0 hy0),
    ⟨f, ?_⟩, fun m => ⟨rfl, rfl, rfl⟩⟩
  rw [f.det R'.tree.1]; exact R'.tree.2

/-- **C12.** `node_set_child` of the AST builder moves a subtree: it leaves its old place and becomes the
last child of its new parent; nothing else changes. -/
theorem tree_set_child {c : Nat} {v : List Int} {S : T} {out ox : List Nat} {p x : Nat} {nop : Int} (h : Session c v S)
    (hc : c + 5 < 4611686018427387904) (ho : IsTree S out) (hp : p ∈ out) (hx : x ∈ out) (h0 : x ≠ 0)
    (hox : Forest S.kids [x] ox) (hpx : p ∉ ox) :
    ∃ v' S' out', nodeSetChild v p x nop = some v' ∧ Session (c + 5) v' S' ∧ IsTree S' out' ∧ out'.Perm out ∧
      ∀ m ∈ out, S'.kids m = (S.kids m).filter (· ≠ x) ++ (if m = p then [x] else []) ∧
        S'.args m = S.args m ∧ S'.type m = S.type m := by
  obtain ⟨op, fop⟩ : ∃ op, Forest S.kids [p] op := by
    obtain ⟨o, g, -, -⟩ := ho.1.sub hp
    exact ⟨p :: o, Forest.single.2 ⟨o, rfl, g⟩⟩
  obtain ⟨n, v1, S1, A, B, e1, s1, hn, eo, t1, kp, kn, an, tn, rest⟩ := tree_add_child (t := nop) h hc ho hp fop
  have hmem1 : ∀ m, m ∈ A ++ op ++ n :: B ↔ m ∈ out ∨ m = n := by
    intro m
    rw [eo]
    simp only [List.mem_append, List.mem_cons]
    tauto
  have hxn : x ≠ n := fun e => hn (e ▸ hx)
  have hsubx : ∀ m ∈ ox, m ∈ out := by
    obtain ⟨o', g1, g2, _⟩ := ho.1.sub hx
    obtain ⟨o1, rfl, h1⟩ := Forest.single.1 hox
    rw [g1.det h1] at g2
    intro m hm
    rcases List.mem_cons.1 hm with rfl | hm
    · exact hx
    · exact g2 m hm
  have hox1 : Forest S1.kids [x] ox := by
    refine hox.congr (fun q hq => (rest q (hsubx q hq)).1 (fun e => hpx (e ▸ hq)))
  have hoy1 : Forest S1.kids [n] [n] := Forest.single.2 ⟨[], rfl, by rw [kn]; exact .nil⟩
  have hnx : n ∉ ox := fun h => hn (hsubx n h)
  obtain ⟨v2, S2, e2, s2, t2, k2⟩ := tree_swap s1 hc t1 ((hmem1 x).2 (Or.inl hx)) ((hmem1 n).2 (Or.inr rfl)) hox1 hoy1
    hnx (by simpa using hxn)
  have hk2n : S2.kids n = [] := by rw [(k2 n).1, kn]; rfl
  have hn2 : Forest S2.kids [n] [n] := Forest.single.2 ⟨[], rfl, by rw [hk2n]; exact .nil⟩
  have hn0 : n ≠ 0 := by
    rintro rfl
    exact hn (ho.1.roots (by simp))
  have hmem2 : n ∈ ((A ++ op ++ n :: B).flatMap fun m => if m = x then [n] else if m = n then ox else if m ∈ ox ∨ m ∈ [n] then [] else [m]) := by
    rw [List.mem_flatMap]
    exact ⟨x, (hmem1 x).2 (Or.inl hx), by simp⟩
  obtain ⟨v3, S3, e3, s3, t3, k3⟩ := tree_remove s2 hc t2 hmem2 hn0 hn2
  refine ⟨v3, S3, _, ?_, s3, t3, ?_, ?_⟩
  · simp only [step] at e1 e2 e3
    unfold nodeSetChild
    cases ha : nodeAddChild v p nop with
    | mk r w =>
      rw [ha] at e1
      simp only [Option.some.injEq, Prod.mk.injEq, Res.node.injEq] at e1
      obtain ⟨rfl, rfl⟩ := e1
      simp only
      cases hs : nodeSwap w x n with
      | none => rw [hs] at e2; simp at e2
      | some q =>
        rw [hs] at e2
        obtain ⟨r2, w2⟩ := q
        simp only [Option.map_some, Option.some.injEq, Prod.mk.injEq] at e2
        obtain ⟨-, rfl⟩ := e2
        simp only
        cases hr : nodeRemove w2 n with
        | none => rw [hr] at e3; simp at e3
        | some q =>
          rw [hr] at e3
          obtain ⟨r3, w3⟩ := q
          simp only [Option.map_some, Option.some.injEq, Prod.mk.injEq] at e3
          simp [e3.2]
  · refine (List.perm_ext_iff_of_nodup t3.2 ho.2).2 (fun m => ?_)
    rw [List.mem_filter, List.mem_flatMap]
    constructor
    · rintro ⟨⟨q, hq, hm⟩, hmn⟩
      have hmn' : m ≠ n := by simpa using hmn
      split at hm
      · exact absurd (by simpa using hm) hmn'
      · split at hm
        · exact hsubx m hm
        · split at hm
          · simp at hm
          · rw [List.mem_singleton] at hm
            subst hm
            exact ((hmem1 m).1 hq).resolve_right hmn'
    · intro hm
      have hmn' : m ≠ n := fun e => hn (e ▸ hm)
      refine ⟨?_, by simpa using hmn'⟩
      by_cases hmx : m ∈ ox
      · refine ⟨n, (hmem1 n).2 (Or.inr rfl), ?_⟩
        rw [if_neg (Ne.symm hxn), if_pos rfl]
        exact hmx
      · refine ⟨m, (hmem1 m).2 (Or.inl hm), ?_⟩
        rw [if_neg (fun e : m = x => hmx (e ▸ hox.roots (by simp))), if_neg hmn', if_neg (by simp [hmx, hmn'])]
        simp
  · intro m hm
    have hmn : m ≠ n := fun e => hn (e ▸ hm)
    have hkm : ∀ l : List Nat, n ∉ l → (l.map (exchange x n)).filter (· ≠ n) = l.filter (· ≠ x) := by
      intro l hl
      induction l with
      | nil => rfl
      | cons k l ih =>
        have hk : k ≠ n := fun e => hl (by simp [e])
        have ih := ih (fun h => hl (by simp [h]))
        rw [List.map_cons]
        by_cases hkx : k = x
        · subst hkx
          rw [List.filter_cons_of_neg (by simp [exchange]), List.filter_cons_of_neg (by simp), ih]
        · have : exchange x n k = k := by simp [exchange, hkx, hk]
          rw [this, List.filter_cons_of_pos (by simpa using hk), List.filter_cons_of_pos (by simpa using hkx), ih]
    have hnk : n ∉ S.kids m := fun h => hn (ho.1.kids_mem hm h)
    refine ⟨?_, by rw [(k3 m).2.1, (k2 m).2.1, (rest m hm).2.1], by rw [(k3 m).2.2, (k2 m).2.2, (rest m hm).2.2]⟩
    rw [(k3 m).1, (k2 m).1]
    by_cases hmp : m = p
    · subst hmp
      rw [kp, List.map_append, List.filter_append, hkm _ hnk, if_pos rfl]
      have : exchange x n n = x := by simp [exchange, Ne.symm hxn]
      simp [this, hxn]
    · rw [(rest m hm).1 hmp, hkm _ hnk, if_neg hmp, List.append_nil]

/-! ## What goes wrong outside the requirements

`build` makes calls one after the other. -/

/-- Make calls in order. -/
def build (v : List Int) : List Op → Option (List Int)
  | [] => some v
  | op :: ops =>
    match step v op with
    | none => none
    | some (_, v') => build v' ops

/-- An argument added to a node that is not the last one made is accepted but does not read back:
the cell next to the node already belongs to another node. -/
theorem tree_add_arg_misplaced : ∃ v v', build (vinc [] 3) [.addChild 0 7, .addChild 0 8] = some v ∧
    nodeAddArg v 5 42 = (0, v') ∧ nodeGetArgc v' 5 = 1 ∧ nodeGetArg v' 5 0 ≠ 42 := by
  refine ⟨[2, 5, 0, 10, 7, 0, 0, 0, 0, 8, 0, 0, 0], [2, 5, 0, 10, 7, 0, 0, 1, 0, 8, 0, 0, 0, 42], ?_⟩
  decide +kernel

/-- Exchanging a node with its own child is accepted and makes the node its own child's child:
the walk over the tree does not end any more. -/
theorem tree_swap_ancestor : ∃ v v', build (vinc [] 3) [.addChild 0 7, .addChild 5 8] = some v ∧
    nodeSwap v 5 10 = some (0, v') ∧ nodeGetChild v' 0 0 = some 10 ∧ nodeGetChild v' 5 0 = some 5 := by
  refine ⟨[1, 5, 0, 0, 7, 1, 10, 0, -5, 8, 0, 0, 0], [1, 10, 0, -5, 7, 1, 5, 0, 0, 8, 0, 0, 0], ?_⟩
  decide +kernel

/-- The node after a root without children is reported to exist. -/
theorem tree_next_of_empty_root : ∃ v n, nodeGetRoot [] = (some 0, v) ∧ nodeGetNext v 0 = some (some n) ∧
    n = 9223372036854775807 := by
  refine ⟨[0, 0, 0], 9223372036854775807, ?_⟩
  decide +kernel

/-! ## Cases -/

/-- A tree of three nodes: 5 with the argument 3 below the root, 11 below 5. -/
theorem sample : ∃ v S, Session 14 v S ∧ IsTree S [0, 5, 11] ∧ S.kids 0 = [5] ∧ S.kids 5 = [11] ∧ S.args 5 = [3] ∧
    v = [1, 5, 0, 0, 7, 1, 11, 1, 3, -5, 8, 0, 0, 0] := by
  have s0 : Session 3 [0, 0, 0] root := .new (by decide +kernel)
  have l0 : Live root 0 := ⟨[0], .cons (o1 := []) (o2 := []) .nil .nil, by simp⟩
  have n5 : ¬ Live root 5 := by
    rintro ⟨o, f, h⟩
    obtain ⟨o1, rfl, g⟩ := Forest.single.1 f
    cases g
    simp at h
  have s1 := Session.call s0 (op := .addChild 0 7) (r := .node (some 5)) (v' := [1, 5, 0, 0, 7, 0, 0, 0]) l0
    (by decide +kernel) (.addChild l0 n5)
  generalize hS1 : ({ kids := upd (upd root.kids 0 (root.kids 0 ++ [5])) 5 []
                      type := upd root.type 5 7
                      args := upd root.args 5 []
                      last := 5 } : T) = S1 at s1
  have k0 : S1.kids 0 = [5] := by subst hS1; rfl
  have k5 : S1.kids 5 = [] := by subst hS1; rfl
  have f1 : Forest S1.kids [0] [0, 5] :=
    Forest.single.2 ⟨[5], rfl, by rw [k0]; exact Forest.single.2 ⟨[], rfl, by rw [k5]; exact .nil⟩⟩
  have s2 := Session.call s1 (op := .addArg 5 3) (r := .code 0) (v' := [1, 5, 0, 0, 7, 0, 0, 1, 3])
    ⟨⟨_, f1, by simp⟩, fun _ => by subst hS1; rfl⟩ (by decide +kernel) (.addArg k5)
  generalize hS2 : ({ S1 with args := upd S1.args 5 (S1.args 5 ++ [3]) } : T) = S2 at s2
  have f2 : Forest S2.kids [0] [0, 5] := by subst hS2; exact f1
  have n11 : ¬ Live S2 11 := by
    rintro ⟨o, f, h⟩
    rw [f.det f2] at h
    simp at h
  have l5 : Live S2 5 := ⟨_, f2, by simp⟩
  have s3 := Session.call s2 (op := .addChild 5 8) (r := .node (some 11)) (v' := [1, 5, 0, 0, 7, 1, 11, 1, 3, -5, 8, 0, 0, 0]) l5
    (by decide +kernel) (.addChild l5 n11)
  refine ⟨_, _, s3, ⟨?_, by simp⟩, ?_, ?_, ?_, rfl⟩
  · refine Forest.single.2 ⟨[5, 11], rfl, ?_⟩
    subst hS2 hS1
    exact .cons (o1 := [11]) (o2 := []) (.cons (o1 := []) (o2 := []) .nil .nil) .nil
  all_goals subst hS2 hS1; rfl

/-- `tree_reads`, `tree_preorder` on it. -/
example : ∃ v S, Session 14 v S ∧ nodeGetArg v 5 0 = 3 ∧ walk v (v.length + 1) 0 = some [5, 11] := by
  obtain ⟨v, S, s, t, k0, k5, a5, rfl⟩ := sample
  exact ⟨_, S, s, by decide +kernel, (tree_preorder s (by omega) (by rw [k0]; simp) t.1).1⟩

/-- `tree_refines`, `tree_insert` on it: a node of type 9 with two arguments is put above 11. -/
example : ∃ v S n v' S', Session 14 v S ∧ step v (.insert 11 9 2) = some (.node (some n), v') ∧
    IsTree S' [0, 5, n, 11] ∧ Session 21 v' S' := by
  obtain ⟨v, S, s, t, k0, k5, a5, rfl⟩ := sample
  obtain ⟨n, v', S', e, s', hn, t', -⟩ := tree_insert (x := 11) (argc := 2) (t := 9) s (by omega) t (by simp) (by simp)
  exact ⟨_, S, n, v', S', s, e, by simpa using t', s'⟩

/-- `tree_remove` on it. -/
example : ∃ v S v' S', Session 14 v S ∧ step v (.remove 5) = some (.code 0, v') ∧ IsTree S' [0] := by
  obtain ⟨v, S, s, t, k0, k5, a5, rfl⟩ := sample
  have k11 : S.kids 11 = [] := by
    obtain ⟨o, e, f⟩ := Forest.single.1 t.1
    rw [k0] at f
    obtain ⟨o1, e1, f1⟩ := Forest.single.1 f
    rw [k5] at f1
    obtain ⟨o2, e2, f2⟩ := Forest.single.1 f1
    subst e1 e2
    have : o2 = [] := by simpa using e
    subst this
    generalize S.kids 11 = l at f2
    cases f2
    rfl
  obtain ⟨v', S', e, s', t', -⟩ := tree_remove (x := 5) (ox := [5, 11]) s (by omega) t (by simp) (by simp)
    (Forest.single.2 ⟨[11], rfl, by rw [k5]; exact Forest.single.2 ⟨[], rfl, by rw [k11]; exact .nil⟩⟩)
  exact ⟨_, S, v', S', s, e, by simpa using t'⟩

/-- `tree_add_child`, `tree_swap`, `tree_set_child` on it: a second child of the root changes places with 5;
or 11 is moved below it. -/
example : ∃ v S n v' S' v'' S'', Session 19 v S ∧ IsTree S [0, 5, 11, n] ∧
    step v (.swap 5 n) = some (.code 0, v') ∧ IsTree S' [0, n, 5, 11] ∧
    nodeSetChild v n 11 0 = some v'' ∧ S''.kids n = [11] ∧ S''.kids 5 = [] ∧ Session 24 v'' S'' := by
  obtain ⟨v, S, s, t, k0, k5, a5, rfl⟩ := sample
  have k11 : S.kids 11 = [] := by
    obtain ⟨o, e, f⟩ := Forest.single.1 t.1
    rw [k0] at f
    obtain ⟨o1, e1, f1⟩ := Forest.single.1 f
    rw [k5] at f1
    obtain ⟨o2, e2, f2⟩ := Forest.single.1 f1
    subst e1 e2
    have : o2 = [] := by simpa using e
    subst this
    generalize S.kids 11 = l at f2
    cases f2
    rfl
  obtain ⟨n, v1, S1, A, B, e1, s1, hn, eo, t1, kp, kn, -, -, rest⟩ := tree_add_child (p := 0) (t := 9) s (by omega) t (by simp) t.1
  have hA : A = [] ∧ B = [] := by
    have := congrArg List.length eo
    simp at this
    exact ⟨List.length_eq_zero_iff.1 (by omega), List.length_eq_zero_iff.1 (by omega)⟩
  obtain ⟨rfl, rfl⟩ := hA
  simp only [List.nil_append, List.cons_append] at t1
  have q5 : S1.kids 5 = [11] := by rw [(rest 5 (by simp)).1 (by simp), k5]
  have q11 : S1.kids 11 = [] := by rw [(rest 11 (by simp)).1 (by simp), k11]
  have g11 : Forest S1.kids [11] [11] := Forest.single.2 ⟨[], rfl, by rw [q11]; exact .nil⟩
  have g5 : Forest S1.kids [5] [5, 11] := Forest.single.2 ⟨[11], rfl, by rw [q5]; exact g11⟩
  have gn : Forest S1.kids [n] [n] := Forest.single.2 ⟨[], rfl, by rw [kn]; exact .nil⟩
  have hn' : n ≠ 0 ∧ n ≠ 5 ∧ n ≠ 11 := by simpa using hn
  obtain ⟨v2, S2, e2, s2, t2, -⟩ := tree_swap s1 (by omega) t1 (x := 5) (y := n) (by simp) (by simp) g5 gn
    (by simp [hn']) (by simp [Ne.symm hn'.2.1])
  obtain ⟨v3, S3, o3, e3, s3, t3, -, k3⟩ := tree_set_child (nop := 0) s1 (by omega) t1 (p := n) (x := 11) (by simp) (by simp)
    (by simp) g11 (by simp [hn'])
  refine ⟨v1, S1, n, v2, S2, v3, S3, s1, t1, e2, ?_, e3, ?_, ?_, s3⟩
  · simpa [hn', Ne.symm hn'.1, Ne.symm hn'.2.2] using t2
  · rw [(k3 n (by simp)).1, kn]; simp
  · rw [(k3 5 (by simp)).1, q5]; simp [Ne.symm hn'.2.1]

/-- `tree_determined`, `tree_next` on it. -/
example : ∃ v S, Session 14 v S ∧ nodeGetNext v 5 = some (some 11) ∧ nodeGetNext v 11 = some none ∧
    ∃ out, IsTree S out ∧ IsTree S out := by
  obtain ⟨v, S, s, t, k0, k5, a5, rfl⟩ := sample
  obtain ⟨out, h1, h2, -⟩ := tree_determined s s (by omega) (by omega)
  exact ⟨_, S, s, tree_next (before := [0]) (after := [11]) s (by omega) (by rw [k0]; simp) t.1,
    tree_next (before := [0, 5]) (after := []) s (by omega) (by rw [k0]; simp) t.1, out, h1, h2⟩

end RuC.Tree
