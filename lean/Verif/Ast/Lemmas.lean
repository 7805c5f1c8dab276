import Verif.Ast.Spec
import Verif.Tree.Props

/-!
# Forests of pending trees

`Tr` is what is stored below a node, without names.  `Inv` says that the tree of nodes consists of the root and of
the trees `P`, each below its own node, when the children in `P` are taken out of every list of children.
-/

namespace RuC.Ast
open RuC Tree

mutual
inductive Tr
  | mk (type : Int) (args : List Int) (kids : Trs)
inductive Trs
  | nil
  | cons (t : Tr) (ts : Trs)
end

def Trs.append : Trs → Trs → Trs
  | .nil, us => us
  | .cons t ts, us => .cons t (ts.append us)

def Trs.length : Trs → Nat
  | .nil => 0
  | .cons _ ts => ts.length + 1

def Trs.ofList : List Tr → Trs
  | [] => .nil
  | t :: l => .cons t (ofList l)

theorem Trs.append_nil (a : Trs) : a.append .nil = a :=
  match a with
  | .nil => rfl
  | .cons t ts => by rw [Trs.append, Trs.append_nil ts]

theorem Trs.append_assoc (a b c : Trs) : (a.append b).append c = a.append (b.append c) :=
  match a with
  | .nil => rfl
  | .cons t ts => by simp only [Trs.append, Trs.append_assoc ts b c]

theorem Trs.length_append (a b : Trs) : (a.append b).length = a.length + b.length :=
  match a with
  | .nil => by simp [Trs.append, Trs.length]
  | .cons t ts => by
    simp only [Trs.append, Trs.length, Trs.length_append ts b]
    omega

section
variable (K : Nat → List Nat) (ty : Nat → Int) (ar : Nat → List Int)

mutual
/-- Below `n` there is `t`; `o` are its nodes in preorder. -/
def Holds : Tr → Nat → List Nat → Prop
  | .mk t a ks, n, o => ty n = t ∧ ar n = a ∧ ∃ o1, o = n :: o1 ∧ HoldsL ks (K n) o1
def HoldsL : Trs → List Nat → List Nat → Prop
  | .nil, ns, o => ns = [] ∧ o = []
  | .cons t ts, ns, o => ∃ n ns' o1 o2, ns = n :: ns' ∧ o = o1 ++ o2 ∧ Holds t n o1 ∧ HoldsL ts ns' o2
end

variable {K ty ar}
variable {K' : Nat → List Nat} {ty' : Nat → Int} {ar' : Nat → List Int}

mutual
theorem Holds.congr : ∀ {t : Tr} {n : Nat} {o : List Nat}, Holds K ty ar t n o →
    (∀ m ∈ o, K' m = K m ∧ ty' m = ty m ∧ ar' m = ar m) → Holds K' ty' ar' t n o
  | .mk t a ks, n, o, h, hc => by
    obtain ⟨h1, h2, o1, rfl, h3⟩ := h
    obtain ⟨c1, c2, c3⟩ := hc n (by simp)
    refine ⟨by rw [c2, h1], by rw [c3, h2], o1, rfl, ?_⟩
    rw [c1]
    exact HoldsL.congr h3 (fun m hm => hc m (by simp [hm]))
theorem HoldsL.congr : ∀ {ts : Trs} {ns : List Nat} {o : List Nat}, HoldsL K ty ar ts ns o →
    (∀ m ∈ o, K' m = K m ∧ ty' m = ty m ∧ ar' m = ar m) → HoldsL K' ty' ar' ts ns o
  | .nil, _, _, h, _ => h
  | .cons t ts, ns, o, h, hc => by
    obtain ⟨n, ns', o1, o2, rfl, rfl, h1, h2⟩ := h
    exact ⟨n, ns', o1, o2, rfl, rfl, h1.congr (fun m hm => hc m (by simp [hm])), HoldsL.congr h2 (fun m hm => hc m (by simp [hm]))⟩
end

mutual
theorem Holds.forest : ∀ {t : Tr} {n : Nat} {o : List Nat}, Holds K ty ar t n o → Forest K [n] o
  | .mk t a ks, n, o, h => by
    obtain ⟨-, -, o1, rfl, h3⟩ := h
    exact Forest.single.2 ⟨o1, rfl, HoldsL.forest h3⟩
theorem HoldsL.forest : ∀ {ts : Trs} {ns : List Nat} {o : List Nat}, HoldsL K ty ar ts ns o → Forest K ns o
  | .nil, _, _, h => by
    obtain ⟨rfl, rfl⟩ := h
    exact .nil
  | .cons t ts, ns, o, h => by
    obtain ⟨n, ns', o1, o2, rfl, rfl, h1, h2⟩ := h
    exact h1.forest.append (HoldsL.forest h2)
end

theorem HoldsL.append {us : Trs} {ms o' : List Nat} (h' : HoldsL K ty ar us ms o') : ∀ {ts : Trs} {ns o : List Nat},
    HoldsL K ty ar ts ns o → HoldsL K ty ar (ts.append us) (ns ++ ms) (o ++ o')
  | .nil, _, _, h => by
    obtain ⟨rfl, rfl⟩ := h
    simpa [Trs.append] using h'
  | .cons t ts, ns, o, h => by
    obtain ⟨n, ns', o1, o2, rfl, rfl, h1, h2⟩ := h
    exact ⟨n, ns' ++ ms, o1, o2 ++ o', rfl, by simp, h1, HoldsL.append h' h2⟩

theorem Holds.mem {t : Tr} {n : Nat} {o : List Nat} (h : Holds K ty ar t n o) : n ∈ o := by
  cases t
  obtain ⟨-, -, o1, rfl, -⟩ := h
  simp

theorem HoldsL.one {t : Tr} {n : Nat} {o : List Nat} (h : Holds K ty ar t n o) : HoldsL K ty ar (.cons t .nil) [n] o :=
  ⟨n, [], o, [], rfl, by simp, h, rfl, rfl⟩
end

/-! ## The calls on the tree -/

/-- A leaf with its arguments. -/
theorem addArgs {k : Nat} {v : List Int} {S : T} {n : Nat} (args : List Int) (s : Session k v S) (hl : Live S n) (hk : S.kids n = [])
    (hlast : S.last = n) (hb : k + args.length < 4611686018427387904) :
    Session (k + args.length) (args.foldl (fun v a => (nodeAddArg v n a).2) v) { S with args := upd S.args n (S.args n ++ args) } := by
  induction args generalizing k v S with
  | nil =>
    have : (upd S.args n (S.args n ++ [])) = S.args := by
      funext m
      simp only [upd, List.append_nil]
      split
      · rename_i h; rw [h]
      · rfl
    rw [this]
    exact s
  | cons a args ih =>
    simp only [List.length_cons] at hb
    obtain ⟨r, v1, S1, e1, t1, s1⟩ := tree_refines (op := .addArg n a) s ⟨hl, fun _ => hlast.symm⟩ (by simp only [Op.cost]; omega)
    cases t1 with
    | addArgBusy h => exact absurd hk h
    | addArg h =>
      have hv : v1 = (nodeAddArg v n a).2 := by
        simp only [step, Option.some.injEq, Prod.mk.injEq] at e1
        exact e1.2.symm
      have := ih (k := k + 1) s1 hl hk hlast (by omega)
      rw [List.foldl_cons, ← hv]
      have he : (upd (upd S.args n (S.args n ++ [a])) n (upd S.args n (S.args n ++ [a]) n ++ args)) = upd S.args n (S.args n ++ a :: args) := by
        funext m
        simp only [upd, if_true]
        split <;> simp
      rw [he] at this
      have hk' : k + (a :: args).length = k + 1 + args.length := by simp; omega
      rw [hk']
      exact this

theorem leaf_tree {k : Nat} {v : List Int} {S : T} {out : List Nat} {c : Nat} (ty : Int) (args : List Int) (s : Session k v S)
    (ht : IsTree S out) (hc : c ∈ out) (hb : k + 5 + args.length < 4611686018427387904) :
    ∃ n v' S' out', leaf v c ty args = (n, v') ∧ n ∉ out ∧ Session (k + 5 + args.length) v' S' ∧ IsTree S' out' ∧
      out'.Perm (n :: out) ∧ S'.kids c = S.kids c ++ [n] ∧ S'.kids n = [] ∧ S'.type n = ty ∧ S'.args n = args ∧
      ∀ m ∈ out, (m ≠ c → S'.kids m = S.kids m) ∧ S'.type m = S.type m ∧ S'.args m = S.args m := by
  have hl : Live S c := ⟨out, ht.1, hc⟩
  obtain ⟨r, v1, S1, e1, t1, s1⟩ := tree_refines (op := .addChild c ty) s hl (by simp only [Op.cost]; omega)
  cases t1 with
  | @addChild _ _ n _ hn =>
    have hno : n ∉ out := fun h => hn ⟨out, ht.1, h⟩
    have hnc : n ≠ c := fun h => hno (h ▸ hc)
    obtain ⟨o, f, hcount⟩ := ht.1.addChild hno hnc
    have hcc : out.count c = 1 := List.count_eq_one_of_mem ht.2 hc
    have hp : o.Perm (n :: out) := by
      rw [List.perm_iff_count]
      intro z
      rw [hcount z, hcc, List.count_cons, List.count_cons, List.count_nil]
      omega
    have e1' : nodeAddChild v c ty = (some n, v1) := by
      simp only [step, Option.some.injEq, Prod.mk.injEq, Res.node.injEq] at e1
      exact Prod.ext e1.1 e1.2
    have hS := addArgs (n := n) args s1 ⟨o, f, hp.mem_iff.2 (by simp)⟩ (by simp [upd]) rfl (by simpa [Op.cost] using hb)
    refine ⟨n, _, _, o, ?_, hno, hS, ⟨f, hp.nodup_iff.2 (List.nodup_cons.2 ⟨hno, ht.2⟩)⟩, hp, ?_, ?_, ?_, ?_, ?_⟩
    · simp only [leaf, e1', Option.getD_some]
    · simp [upd, Ne.symm hnc]
    · simp [upd]
    · simp [upd]
    · simp [upd]
    · intro m hm
      have hmn : m ≠ n := fun e => hno (e ▸ hm)
      exact ⟨fun h => by simp [upd, hmn, h], by simp [upd, hmn], by simp [upd, hmn]⟩

/-! ## The invariant -/

/-- The children that are not pending. -/
def strip (S : T) (ns : List Nat) (m : Nat) : List Nat := (S.kids m).filter fun c => decide (c ∉ ns)

abbrev names (P : List (Nat × Tr)) : List Nat := P.map (·.1)

structure Inv (k : Nat) (v : List Int) (P : List (Nat × Tr)) (tops ctx : List Nat) (S : T) (out : List Nat)
    (O : Nat → List Nat) : Prop where
  ses : Session k v S
  tree : IsTree S out
  holds : ∀ x ∈ P, Holds (strip S (names P)) S.type S.args x.2 x.1 (O x.1)
  perm : out.Perm (0 :: P.flatMap fun x => O x.1)
  root : strip S (names P) 0 = []
  ctxs : ∀ c ∈ ctx, c = 0 ∨ c ∈ tops
  clean : ∀ m ∈ out, m ∉ ctx → ∀ c ∈ S.kids m, c ∉ names P
  topsub : ∀ n ∈ tops, n ∈ names P
  order : ((S.kids 0).filter fun c => decide (c ∈ tops)) = tops

variable {k : Nat} {v : List Int} {P : List (Nat × Tr)} {tops ctx : List Nat} {S : T} {out : List Nat} {O : Nat → List Nat}

theorem strip_perm {S : T} {ns ns' : List Nat} (h : ns.Perm ns') : strip S ns = strip S ns' := by
  funext m
  simp only [strip, h.mem_iff]

theorem Inv.permute (I : Inv k v P tops ctx S out O) {P' : List (Nat × Tr)} (h : P.Perm P') : Inv k v P' tops ctx S out O := by
  have hn : (names P).Perm (names P') := h.map _
  refine ⟨I.ses, I.tree, ?_, ?_, ?_, I.ctxs, ?_, ?_, I.order⟩
  · intro x hx
    rw [← strip_perm hn]
    exact I.holds x (h.mem_iff.2 hx)
  · exact I.perm.trans (.cons _ (h.flatMap_right _))
  · rw [← strip_perm hn]; exact I.root
  · intro m hm hc c hk hcn
    exact I.clean m hm hc c hk (hn.mem_iff.2 hcn)
  · intro n hnt
    exact hn.mem_iff.1 (I.topsub n hnt)

theorem Inv.nodup (I : Inv k v P tops ctx S out O) : (0 :: P.flatMap fun x => O x.1).Nodup := I.perm.nodup_iff.1 I.tree.2

theorem Inv.mem (I : Inv k v P tops ctx S out O) {x : Nat × Tr} (hx : x ∈ P) : x.1 ∈ O x.1 := (I.holds x hx).mem

theorem Inv.sub (I : Inv k v P tops ctx S out O) {x : Nat × Tr} (hx : x ∈ P) {m : Nat} (hm : m ∈ O x.1) : m ∈ out :=
  I.perm.mem_iff.2 (List.mem_cons_of_mem _ (List.mem_flatMap.2 ⟨x, hx, hm⟩))

theorem Inv.ne_zero (I : Inv k v P tops ctx S out O) {x : Nat × Tr} (hx : x ∈ P) {m : Nat} (hm : m ∈ O x.1) : m ≠ 0 := by
  rintro rfl
  exact (List.nodup_cons.1 I.nodup).1 (List.mem_flatMap.2 ⟨x, hx, hm⟩)

theorem Inv.zero (I : Inv k v P tops ctx S out O) : 0 ∈ out := I.perm.mem_iff.2 (by simp)

theorem Inv.pairwise (I : Inv k v P tops ctx S out O) : P.Pairwise fun x y => List.Disjoint (O x.1) (O y.1) :=
  (List.nodup_flatMap.1 (List.nodup_cons.1 I.nodup).2).2

theorem Inv.names_nodup (I : Inv k v P tops ctx S out O) : (names P).Nodup := by
  rw [List.nodup_iff_pairwise_ne, List.pairwise_map]
  refine I.pairwise.imp_of_mem ?_
  intro x y hx hy hd e
  exact hd (I.mem hx) (by rw [e]; exact I.mem hy)

theorem Inv.disjoint (I : Inv k v P tops ctx S out O) {x y : Nat × Tr} (hx : x ∈ P) (hy : y ∈ P) (hne : x.1 ≠ y.1) {m : Nat}
    (h1 : m ∈ O x.1) (h2 : m ∈ O y.1) : False := by
  haveI : Std.Symm (fun x y : Nat × Tr => List.Disjoint (O x.1) (O y.1)) := ⟨fun a b hab _ h1 h2 => hab h2 h1⟩
  exact I.pairwise.forall hx hy (fun e => hne (by rw [e])) h1 h2

theorem Inv.cons_ne {x : Nat × Tr} (I : Inv k v (x :: P) tops ctx S out O) {y : Nat × Tr} (hy : y ∈ P) : y.1 ≠ x.1 := by
  have := I.names_nodup
  simp only [names, List.map_cons, List.nodup_cons, List.mem_map, not_exists, not_and] at this
  exact this.1 y hy

/-- A subtree none of whose nodes has pending children. -/
theorem Inv.forest (I : Inv k v P tops ctx S out O) {x : Nat × Tr} (hx : x ∈ P)
    (hc : ∀ m ∈ O x.1, ∀ c ∈ S.kids m, c ∉ names P) : Holds S.kids S.type S.args x.2 x.1 (O x.1) := by
  refine (I.holds x hx).congr (fun m hm => ⟨?_, rfl, rfl⟩)
  rw [strip, List.filter_eq_self.2]
  intro c hck
  simpa using hc m hm c hck

theorem Inv.clean_of (I : Inv k v P tops ctx S out O) {x : Nat × Tr} (hx : x ∈ P) (ht : x.1 ∉ tops) :
    ∀ m ∈ O x.1, ∀ c ∈ S.kids m, c ∉ names P := by
  intro m hm
  refine I.clean m (I.sub hx hm) (fun hctx => ?_)
  rcases I.ctxs m hctx with rfl | hmt
  · exact I.ne_zero hx hm rfl
  · obtain ⟨y, hy, rfl⟩ := List.mem_map.1 (I.topsub m hmt)
    by_cases e : y.1 = x.1
    · exact ht (e ▸ hmt)
    · exact I.disjoint hy hx e (I.mem hy) hm

theorem Inv.ctx_mem (I : Inv k v P tops ctx S out O) {c : Nat} (hc : c ∈ ctx) : c ∈ out := by
  rcases I.ctxs c hc with rfl | h
  · exact I.zero
  · obtain ⟨y, hy, rfl⟩ := List.mem_map.1 (I.topsub c h)
    exact I.sub hy (I.mem hy)

/-- A new pending leaf. -/
theorem Inv.leaf (I : Inv k v P tops ctx S out O) {c : Nat} (ty : Int) (args : List Int) (hc : c ∈ ctx)
    (hb : k + 5 + args.length < 4611686018427387904) :
    ∃ n v' S' out' O', leaf v c ty args = (n, v') ∧ n ∉ out ∧
      Inv (k + 5 + args.length) v' ((n, .mk ty args .nil) :: P) tops ctx S' out' O' ∧
      S'.kids c = S.kids c ++ [n] ∧ ∀ m ∈ out, m ≠ c → S'.kids m = S.kids m := by
  obtain ⟨n, v', S', out', e, hn, s', t', hp, kc, kn, tn, an, rest⟩ := leaf_tree ty args I.ses I.tree (I.ctx_mem hc) hb
  have hnP : ∀ x ∈ P, x.1 ≠ n := fun x hx e => hn (e ▸ I.sub hx (I.mem hx))
  have hkids : ∀ m ∈ out, ∀ c ∈ S.kids m, c ≠ n := fun m hm c hc e => hn (e ▸ I.tree.1.kids_mem hm hc)
  have hstrip : ∀ m ∈ out, strip S' (n :: names P) m = strip S (names P) m := by
    intro m hm
    have h1 : strip S (n :: names P) m = strip S (names P) m := by
      refine List.filter_congr (fun c hcm => ?_)
      simp [hkids m hm c hcm]
    by_cases hmc : m = c
    · subst hmc
      rw [← h1]
      simp [strip, kc, List.filter_append]
    · rw [← h1, strip, (rest m hm).1 hmc, strip]
  have hne : ∀ x ∈ P, ∀ m ∈ O x.1, m ≠ n := fun x hx m hm e => hn (e ▸ I.sub hx hm)
  refine ⟨n, v', S', out', upd O n [n], e, hn, ⟨s', t', ?_, ?_, ?_, I.ctxs, ?_, ?_, ?_⟩, kc, fun m hm h => (rest m hm).1 h⟩
  · intro x hx
    rcases List.mem_cons.1 hx with rfl | hx
    · refine ⟨tn, an, [], by simp [upd], ?_, rfl⟩
      simp [strip, kn]
    · rw [show upd O n [n] x.1 = O x.1 by simp [upd, hnP x hx]]
      refine (I.holds x hx).congr (fun m hm => ?_)
      have hmo := I.sub hx hm
      exact ⟨hstrip m hmo, (rest m hmo).2.1, (rest m hmo).2.2⟩
  · refine hp.trans ?_
    have h2 : (P.flatMap fun x => upd O n [n] x.1) = P.flatMap fun x => O x.1 := by
      refine List.flatMap_congr (fun x hx => ?_)
      simp [upd, hnP x hx]
    rw [List.flatMap_cons, h2]
    simp only [upd, if_true]
    refine (I.perm.cons n).trans ?_
    exact List.Perm.swap _ _ _
  · rw [show names ((n, Tr.mk ty args Trs.nil) :: P) = n :: names P from rfl, hstrip 0 I.zero]
    exact I.root
  · intro m hm hmc x hxk hxn
    have hxn' : x = n ∨ x ∈ names P := by simpa [names] using hxn
    rcases List.mem_cons.1 (hp.mem_iff.1 hm) with rfl | hmo
    · rw [kn] at hxk; simp at hxk
    · have hmc' : m ≠ c := fun e => hmc (e ▸ hc)
      rw [(rest m hmo).1 hmc'] at hxk
      rcases hxn' with rfl | hxn
      · exact hkids m hmo x hxk rfl
      · exact I.clean m hmo hmc x hxk hxn
  · intro x hx
    exact List.mem_cons_of_mem _ (I.topsub x hx)
  · have hnt : n ∉ tops := fun h => by
      obtain ⟨y, hy, e⟩ := List.mem_map.1 (I.topsub n h)
      exact hnP y hy e
    by_cases h0 : 0 = c
    · subst h0
      rw [kc, List.filter_append, I.order]
      simp [hnt]
    · rw [(rest 0 I.zero).1 h0, I.order]

/-- The common part of moving a pending tree below another one. -/
theorem Inv.graft {p x : Nat} {ty : Int} {a : List Int} {ks : Trs} {t : Tr}
    (I : Inv k v ((p, .mk ty a ks) :: (x, t) :: P) tops ctx S out O) (hx : x ∉ tops) {k' : Nat} {v' : List Int} {S' : T} {out' : List Nat}
    (s' : Session k' v' S') (t' : IsTree S' out') (hp : out'.Perm out)
    (h : ∀ m ∈ out, S'.kids m = (S.kids m).filter (· ≠ x) ++ (if m = p then [x] else []) ∧ S'.args m = S.args m ∧ S'.type m = S.type m) :
    Inv k' v' ((p, .mk ty a (ks.append (.cons t .nil))) :: P) tops ctx S' out' (upd O p (O p ++ O x)) := by
  have hxp : x ≠ p := I.cons_ne (y := (x, t)) (by simp)
  have hpP : ∀ y ∈ P, y.1 ≠ p := fun y hy => I.cons_ne (y := y) (by simp [hy])
  have I2 : Inv k v ((x, t) :: (p, .mk ty a ks) :: P) tops ctx S out O := I.permute (.swap _ _ _)
  have hxP : ∀ y ∈ P, y.1 ≠ x := fun y hy => I2.cons_ne (y := y) (by simp [hy])
  have hxn : x ∉ names P := by
    intro h
    obtain ⟨y, hy, e⟩ := List.mem_map.1 h
    exact hxP y hy e
  have hp0 : p ≠ 0 := I.ne_zero (x := (p, .mk ty a ks)) (by simp) (I.mem (x := (p, .mk ty a ks)) (by simp))
  have hstrip : ∀ m ∈ out, strip S' (p :: names P) m = strip S (p :: x :: names P) m ++ (if m = p then [x] else []) := by
    intro m hm
    rw [strip, (h m hm).1, List.filter_append, List.filter_filter]
    congr 1
    · refine List.filter_congr (fun c _ => ?_)
      rw [← Bool.decide_and, decide_eq_decide]
      simp only [List.mem_cons, not_or]
      grind
    · split
      · simp [hxp, hxn]
      · rfl
  have hdis : ∀ y ∈ (p, Tr.mk ty a ks) :: (x, t) :: P, y.1 ≠ p → ∀ m ∈ O y.1, m ≠ p := by
    intro y hy hyp m hm e
    exact I.disjoint hy (y := (p, .mk ty a ks)) (by simp) hyp hm (e ▸ I.mem (x := (p, .mk ty a ks)) (by simp))
  have hsame : ∀ y ∈ (p, Tr.mk ty a ks) :: (x, t) :: P, y.1 ≠ p → Holds (strip S' (p :: names P)) S'.type S'.args y.2 y.1 (O y.1) := by
    intro y hy hyp
    refine (I.holds y hy).congr (fun m hm => ?_)
    have hmo := I.sub hy hm
    refine ⟨?_, (h m hmo).2.2, (h m hmo).2.1⟩
    rw [hstrip m hmo, if_neg (hdis y hy hyp m hm), List.append_nil]
    rfl
  refine ⟨s', t', ?_, ?_, ?_, I.ctxs, ?_, ?_, ?_⟩
  · intro y hy
    rcases List.mem_cons.1 hy with rfl | hy
    · have hpo := I.sub (x := (p, .mk ty a ks)) (by simp) (I.mem (x := (p, .mk ty a ks)) (by simp))
      obtain ⟨h1, h2, o1, e1, h3⟩ := I.holds (p, .mk ty a ks) (by simp)
      refine ⟨by rw [(h p hpo).2.2, h1], by rw [(h p hpo).2.1, h2], o1 ++ O x, by simp [upd, e1], ?_⟩
      have hk : strip S' (names ((p, Tr.mk ty a (ks.append (.cons t .nil))) :: P)) p = strip S (p :: x :: names P) p ++ [x] := by
        rw [show names ((p, Tr.mk ty a (ks.append (.cons t .nil))) :: P) = p :: names P from rfl, hstrip p hpo, if_pos rfl]
      rw [hk]
      have hxh := hsame (x, t) (by simp) hxp
      refine HoldsL.append (HoldsL.one hxh) (HoldsL.congr h3 (fun m hm => ?_))
      have hmo : m ∈ O p := by rw [e1]; simp [hm]
      have hmout := I.sub (x := (p, .mk ty a ks)) (by simp) hmo
      have hmp : m ≠ p := by
        rintro rfl
        exact (HoldsL.forest h3).acyclic hm
      refine ⟨?_, (h m hmout).2.2, (h m hmout).2.1⟩
      rw [hstrip m hmout, if_neg hmp, List.append_nil]
      rfl
    · rw [show upd O p (O p ++ O x) y.1 = O y.1 by simp [upd, hpP y hy]]
      exact hsame y (by simp [hy]) (hpP y hy)
  · refine hp.trans (I.perm.trans ?_)
    have h2 : (P.flatMap fun y => upd O p (O p ++ O x) y.1) = P.flatMap fun y => O y.1 := by
      refine List.flatMap_congr (fun y hy => ?_)
      simp [upd, hpP y hy]
    simp only [List.flatMap_cons, h2]
    simp only [upd, if_true, List.append_assoc]
    exact .refl _
  · rw [show names ((p, Tr.mk ty a (ks.append (.cons t .nil))) :: P) = p :: names P from rfl, hstrip 0 I.zero, if_neg (Ne.symm hp0), List.append_nil]
    exact I.root
  · intro m hm hmc c hck hcn
    have hmo := hp.mem_iff.1 hm
    rw [(h m hmo).1, List.mem_append, List.mem_filter] at hck
    rcases hck with ⟨h1, h2⟩ | h1
    · refine I.clean m hmo hmc c h1 ?_
      have : c = p ∨ c ∈ names P := by simpa [names] using hcn
      rcases this with rfl | this
      · simp [names]
      · exact List.mem_cons_of_mem _ (List.mem_cons_of_mem _ this)
    · split at h1
      · rw [List.mem_singleton] at h1
        subst h1
        have : c = p ∨ c ∈ names P := by simpa [names] using hcn
        exact this.elim hxp hxn
      · simp at h1
  · intro n hn
    have := I.topsub n hn
    simp only [names, List.map_cons, List.mem_cons] at this ⊢
    rcases this with h | h | h
    · exact Or.inl h
    · exact absurd (h ▸ hn) hx
    · exact Or.inr h
  · rw [(h 0 I.zero).1, if_neg (Ne.symm hp0), List.append_nil, List.filter_filter]
    refine Eq.trans (List.filter_congr (fun c _ => ?_)) I.order
    by_cases e : c ∈ tops
    · have : c ≠ x := fun h => hx (h ▸ e)
      simp [e, this]
    · simp [e]

/-- `node_set_child`. -/
theorem Inv.attach {p x : Nat} {ty : Int} {a : List Int} {ks : Trs} {t : Tr}
    (I : Inv k v ((p, .mk ty a ks) :: (x, t) :: P) tops ctx S out O) (hx : x ∉ tops) (hb : k + 5 < 4611686018427387904) :
    ∃ v' S' out' O', attach v p x = some v' ∧
      Inv (k + 5) v' ((p, .mk ty a (ks.append (.cons t .nil))) :: P) tops ctx S' out' O' := by
  have hxm : (x, t) ∈ (p, Tr.mk ty a ks) :: (x, t) :: P := by simp
  have hpm : (p, Tr.mk ty a ks) ∈ (p, Tr.mk ty a ks) :: (x, t) :: P := by simp
  have hxp : x ≠ p := I.cons_ne (y := (x, t)) (by simp)
  obtain ⟨v', S', out', e, s', t', hp, h⟩ := tree_set_child (nop := OP_NOP) I.ses hb I.tree (I.sub hpm (I.mem hpm)) (I.sub hxm (I.mem hxm))
    (I.ne_zero hxm (I.mem hxm)) (I.forest hxm (I.clean_of hxm hx)).forest
    (fun hm => I.disjoint hpm hxm (Ne.symm hxp) (I.mem hpm) hm)
  exact ⟨v', S', out', _, e, I.graft hx s' t' hp h⟩

/-- A leaf made directly below a pending node. -/
theorem Inv.leafIn {p : Nat} {ty : Int} {a : List Int} {ks : Trs} (ty' : Int) (args : List Int)
    (I : Inv k v ((p, .mk ty a ks) :: P) tops ctx S out O) (hp : p ∈ ctx) (hb : k + 5 + args.length < 4611686018427387904) :
    ∃ n v' S' out' O', Ast.leaf v p ty' args = (n, v') ∧
      Inv (k + 5 + args.length) v' ((p, .mk ty a (ks.append (.cons (.mk ty' args .nil) .nil))) :: P) tops ctx S' out' O' := by
  obtain ⟨n, v', S', out', O', e, hn, I', kp, rest⟩ := I.leaf ty' args hp hb
  have I2 := I'.permute (.swap _ _ _)
  have hnt : n ∉ tops := by
    intro h
    obtain ⟨y, hy, e⟩ := List.mem_map.1 (I.topsub n h)
    exact hn (e ▸ I.sub hy (I.mem hy))
  have hpm : (p, Tr.mk ty a ks) ∈ (p, Tr.mk ty a ks) :: P := by simp
  have hpo := I2.sub (x := (p, Tr.mk ty a ks)) (by simp) (I2.mem (x := (p, Tr.mk ty a ks)) (by simp))
  have sh := I2.tree.1.shape I2.tree.2
  refine ⟨n, v', S', out', _, e, I2.graft hnt I2.ses I2.tree (.refl _) (fun m hm => ⟨?_, rfl, rfl⟩)⟩
  by_cases hmp : m = p
  · subst hmp
    have hnd := sh.kids_nodup m hpo
    rw [kp] at hnd ⊢
    rw [if_pos rfl, List.filter_append, List.filter_eq_self.2]
    · simp
    · intro c hc
      have := (List.nodup_append.1 hnd).2.2 c hc n (by simp)
      simpa using this
  · rw [if_neg hmp, List.append_nil, List.filter_eq_self.2]
    intro c hc
    have : c ≠ n := by
      rintro rfl
      exact hmp (sh.parent m hm p hpo c hc (by rw [kp]; simp))
    simpa using this

/-- `node_insert` above a pending tree. -/
theorem Inv.insert {x : Nat} {t : Tr} (ty : Int) (argc : Nat) (I : Inv k v ((x, t) :: P) tops ctx S out O) (hx : x ∉ tops)
    (hb : k + 5 + argc < 4611686018427387904) :
    ∃ n v' S' out' O', insertNode v x ty argc = some (n, v') ∧ n ∉ out ∧
      S'.kids n = [x] ∧ Inv (k + (5 + argc)) v' ((n, .mk ty (List.replicate argc 0) (.cons t .nil)) :: P) tops ctx S' out' O' := by
  have hxm : (x, t) ∈ (x, t) :: P := by simp
  obtain ⟨n, v', S', e, s', hn, t', kn, tn, an, rest⟩ := tree_insert (t := ty) (argc := argc) I.ses hb I.tree (I.sub hxm (I.mem hxm))
    (I.ne_zero hxm (I.mem hxm))
  have hxo := I.sub hxm (I.mem hxm)
  have hxn : x ≠ n := fun e => hn (e ▸ hxo)
  have hxP : ∀ y ∈ P, y.1 ≠ x := fun y hy => I.cons_ne hy
  have hxnames : x ∉ names P := by
    intro h
    obtain ⟨y, hy, e⟩ := List.mem_map.1 h
    exact hxP y hy e
  have hnP : ∀ y ∈ P, y.1 ≠ n := fun y hy e => hn (e ▸ I.sub (List.mem_cons_of_mem _ hy) (I.mem (List.mem_cons_of_mem _ hy)))
  have hkids : ∀ m ∈ out, ∀ c ∈ S.kids m, c ≠ n := fun m hm c hc e => hn (e ▸ I.tree.1.kids_mem hm hc)
  have hp : (out.flatMap fun m => if m = x then [n, x] else [m]).Perm (n :: out) := by
    refine (List.perm_ext_iff_of_nodup t'.2 (List.nodup_cons.2 ⟨hn, I.tree.2⟩)).2 (fun z => ?_)
    rw [List.mem_flatMap, List.mem_cons]
    constructor
    · rintro ⟨m, hm, hz⟩
      split at hz
      · rename_i hmx
        subst hmx
        simp only [List.mem_cons, List.not_mem_nil, or_false] at hz
        rcases hz with rfl | rfl
        · exact Or.inl rfl
        · exact Or.inr hm
      · rw [List.mem_singleton] at hz
        exact Or.inr (hz ▸ hm)
    · rintro (rfl | hz)
      · exact ⟨x, hxo, by simp⟩
      · refine ⟨z, hz, ?_⟩
        split
        · rename_i hzx; simp [hzx]
        · simp
  have hstrip : ∀ m ∈ out, strip S' (n :: names P) m = strip S (x :: names P) m := by
    intro m hm
    rw [strip, (rest m hm).1, strip]
    have := hkids m hm
    revert this
    generalize S.kids m = l
    intro hl
    induction l with
    | nil => rfl
    | cons c l ih =>
      have hcn : c ≠ n := hl c (by simp)
      have ih := ih (fun c hc => hl c (by simp [hc]))
      rw [List.map_cons, List.filter_cons, List.filter_cons, ih]
      by_cases e : c = x
      · simp [e]
      · have e' : (if c = (x, t).1 then n else c) = c := if_neg e
        rw [e']
        have : (c ∉ n :: names P) ↔ (c ∉ x :: names P) := by simp [hcn, e]
        simp only [this]
  have hst_n : strip S' (n :: names P) n = [x] := by
    rw [strip, kn]
    simp [hxn, hxnames]
  have hsame : ∀ y ∈ (x, t) :: P, Holds (strip S' (n :: names P)) S'.type S'.args y.2 y.1 (O y.1) := by
    intro y hy
    refine (I.holds y hy).congr (fun m hm => ?_)
    have hmo := I.sub hy hm
    exact ⟨hstrip m hmo, (rest m hmo).2.2, (rest m hmo).2.1⟩
  refine ⟨n, v', S', _, upd O n (n :: O x), ?_, hn, kn, ⟨s', t', ?_, ?_, ?_, I.ctxs, ?_, ?_, ?_⟩⟩
  · rw [insertNode]
    cases h : nodeInsert v x ty argc with
    | none => rw [step, h] at e; simp at e
    | some q =>
      rw [step, h] at e
      simp only [Option.map_some, Option.some.injEq, Prod.mk.injEq, Res.node.injEq] at e
      simp [e.1, e.2]
  · intro y hy
    rcases List.mem_cons.1 hy with rfl | hy
    · refine ⟨tn, an, O x, by simp [upd], ?_⟩
      rw [show names ((n, Tr.mk ty (List.replicate argc 0) (Trs.cons t Trs.nil)) :: P) = n :: names P from rfl, hst_n]
      exact HoldsL.one (hsame (x, t) (by simp))
    · rw [show upd O n (n :: O x) y.1 = O y.1 by simp [upd, hnP y hy]]
      exact hsame y (by simp [hy])
  · refine hp.trans ((I.perm.cons n).trans ?_)
    have h2 : (P.flatMap fun y => upd O n (n :: O x) y.1) = P.flatMap fun y => O y.1 := by
      refine List.flatMap_congr (fun y hy => ?_)
      simp [upd, hnP y hy]
    simp only [List.flatMap_cons, h2]
    simp only [upd, if_true, List.cons_append]
    exact List.Perm.swap _ _ _
  · rw [show names ((n, Tr.mk ty (List.replicate argc 0) (Trs.cons t Trs.nil)) :: P) = n :: names P from rfl, hstrip 0 I.zero]
    exact I.root
  · intro m hm hmc c hck hcn
    have hcn' : c = n ∨ c ∈ names P := by simpa [names] using hcn
    rcases List.mem_cons.1 (hp.mem_iff.1 hm) with rfl | hmo
    · rw [kn, List.mem_singleton] at hck
      subst hck
      exact hcn'.elim hxn hxnames
    · rw [(rest m hmo).1, List.mem_map] at hck
      obtain ⟨c', hc', e'⟩ := hck
      have hcl := I.clean m hmo hmc c' hc'
      simp only [names, List.map_cons, List.mem_cons, not_or] at hcl
      rw [if_neg hcl.1] at e'
      subst e'
      rcases hcn' with h | h
      · exact hkids m hmo c' hc' h
      · exact hcl.2 h
  · intro z hz
    have := I.topsub z hz
    simp only [names, List.map_cons, List.mem_cons] at this ⊢
    rcases this with h | h
    · exact absurd (h ▸ hz) hx
    · exact Or.inr h
  · have hnt : n ∉ tops := by
      intro h
      have := I.topsub n h
      obtain ⟨y, hy, e⟩ := List.mem_map.1 this
      exact hn (e ▸ I.sub hy (I.mem hy))
    rw [(rest 0 I.zero).1]
    refine Eq.trans ?_ I.order
    generalize S.kids 0 = l
    induction l with
    | nil => rfl
    | cons c l ih =>
      rw [List.map_cons, List.filter_cons, List.filter_cons, ih]
      by_cases e : c = x
      · subst e; simp [hnt, hx]
      · simp [e]

/-- `node_set_arg`. -/
theorem Inv.setArg {p i : Nat} {ty b : Int} {a : List Int} {ks : Trs} (I : Inv k v ((p, .mk ty a ks) :: P) tops ctx S out O)
    (hi : i < a.length) (hb : k < 4611686018427387904) :
    ∃ S', S'.kids = S.kids ∧ Inv k (nodeSetArg v p i b).2 ((p, .mk ty (a.set i b) ks) :: P) tops ctx S' out O := by
  have hpm : (p, Tr.mk ty a ks) ∈ (p, Tr.mk ty a ks) :: P := by simp
  have hpo := I.sub hpm (I.mem hpm)
  obtain ⟨h1, h2, o1, e1, h3⟩ := I.holds _ hpm
  obtain ⟨r, v1, S1, e, t1, s1⟩ := tree_refines (op := .setArg p i b) I.ses ⟨out, I.tree.1, hpo⟩ (by simpa [Op.cost] using hb)
  cases t1 with
  | setArgOut h =>
    rw [h2] at h
    omega
  | setArg h =>
    have hv : v1 = (nodeSetArg v p i b).2 := by
      simp only [step, Option.some.injEq, Prod.mk.injEq] at e
      exact e.2.symm
    rw [← hv]
    refine ⟨{ S with args := upd S.args p ((S.args p).set i b) }, rfl, s1, I.tree, ?_, I.perm, I.root, I.ctxs, I.clean, I.topsub, I.order⟩
    intro y hy
    rcases List.mem_cons.1 hy with rfl | hy
    · refine ⟨h1, by simp [upd, h2], o1, e1, HoldsL.congr h3 (fun m hm => ⟨rfl, rfl, ?_⟩)⟩
      have hmp : m ≠ p := by
        rintro rfl
        exact (HoldsL.forest h3).acyclic hm
      simp [upd, hmp]
    · refine (I.holds y (by simp [hy])).congr (fun m hm => ⟨rfl, rfl, ?_⟩)
      have hmp : m ≠ p := fun e => I.disjoint (x := y) (List.mem_cons_of_mem _ hy) hpm (I.cons_ne hy) hm (by rw [e]; exact I.mem hpm)
      simp [upd, hmp]

/-- The list after consecutive `List.set`. -/
def setAll (a : List Int) (i : Nat) : List Int → List Int
  | [] => a
  | b :: l => setAll (a.set i b) (i + 1) l

theorem Inv.setArgs {p : Nat} {ty : Int} {ks : Trs} (l : List Int) {i : Nat} {a : List Int}
    (I : Inv k v ((p, .mk ty a ks) :: P) tops ctx S out O) (hi : i + l.length ≤ a.length) (hb : k < 4611686018427387904) :
    ∃ S', S'.kids = S.kids ∧ Inv k (setArgs v p i l) ((p, .mk ty (setAll a i l) ks) :: P) tops ctx S' out O := by
  induction l generalizing v S i a with
  | nil => exact ⟨S, rfl, I⟩
  | cons b l ih =>
    simp only [List.length_cons] at hi
    obtain ⟨S', e, I'⟩ := I.setArg (b := b) (i := i) (by omega) hb
    obtain ⟨S'', e', I''⟩ := ih (i := i + 1) I' (by rw [List.length_set]; omega)
    exact ⟨S'', e'.trans e, I''⟩

/-- `node_remove` of a pending tree. -/
theorem Inv.discard {x : Nat} {t : Tr} (I : Inv k v ((x, t) :: P) tops ctx S out O) (hx : x ∉ tops) (hb : k < 4611686018427387904) :
    ∃ w S' out', nodeRemove v x = some w ∧ Inv k w.2 P tops ctx S' out' O := by
  have hxm : (x, t) ∈ (x, t) :: P := by simp
  have hxP : ∀ y ∈ P, y.1 ≠ x := fun y hy => I.cons_ne hy
  obtain ⟨v', S', e, s', t', h⟩ := tree_remove I.ses hb I.tree (I.sub hxm (I.mem hxm)) (I.ne_zero hxm (I.mem hxm))
    (I.forest hxm (I.clean_of hxm hx)).forest
  have hstrip : ∀ m, strip S' (names P) m = strip S (x :: names P) m := by
    intro m
    rw [strip, (h m).1, List.filter_filter]
    refine List.filter_congr (fun c _ => ?_)
    by_cases e : c = x <;> simp [e]
  have hout : ∀ y ∈ P, ∀ m ∈ O y.1, m ∉ O x := fun y hy m hm hmx => I.disjoint (List.mem_cons_of_mem _ hy) hxm (hxP y hy) hm hmx
  obtain ⟨w, hw, e2⟩ : ∃ w, nodeRemove v x = some w ∧ w.2 = v' := by
    cases hr : nodeRemove v x with
    | none => rw [step, hr] at e; simp at e
    | some q =>
      rw [step, hr] at e
      simp only [Option.map_some, Option.some.injEq, Prod.mk.injEq] at e
      exact ⟨q, rfl, e.2⟩
  refine ⟨w, S', _, hw, e2 ▸ s', t', ?_, ?_, ?_, I.ctxs, ?_, ?_, ?_⟩
  · intro y hy
    refine (I.holds y (by simp [hy])).congr (fun m hm => ⟨?_, (h m).2.2, (h m).2.1⟩)
    exact hstrip m
  · refine ((I.perm.filter _).trans ?_)
    have h0 : 0 ∉ O x := fun h0 => I.ne_zero hxm h0 rfl
    rw [List.filter_cons_of_pos (by simpa using h0), List.flatMap_cons, List.filter_append]
    have h1 : ((O x).filter fun m => decide (m ∉ O x)) = [] := by
      rw [List.filter_eq_nil_iff]
      intro m hm
      simp [hm]
    have h2 : ((P.flatMap fun y => O y.1).filter fun m => decide (m ∉ O x)) = P.flatMap fun y => O y.1 := by
      rw [List.filter_eq_self]
      intro m hm
      obtain ⟨y, hy, hm⟩ := List.mem_flatMap.1 hm
      simpa using hout y hy m hm
    rw [h1, h2, List.nil_append]
  · rw [hstrip 0]; exact I.root
  · intro m hm hmc c hck hcn
    rw [List.mem_filter] at hm
    rw [(h m).1, List.mem_filter] at hck
    exact I.clean m hm.1 hmc c hck.1 (List.mem_cons_of_mem _ hcn)
  · intro z hz
    have := I.topsub z hz
    simp only [names, List.map_cons, List.mem_cons] at this
    exact this.resolve_left (fun e => hx (e ▸ hz))
  · rw [(h 0).1, List.filter_filter]
    refine Eq.trans (List.filter_congr (fun c _ => ?_)) I.order
    by_cases e : c ∈ tops
    · have : c ≠ x := fun h => hx (h ▸ e)
      simp [e, this]
    · simp [e]

/-- `node_remove` of the only child of a pending node. -/
theorem Inv.prune {p x : Nat} {ty : Int} {a : List Int} {t : Tr} (I : Inv k v ((p, .mk ty a (.cons t .nil)) :: P) tops ctx S out O)
    (hp : p ∉ tops) (hx : S.kids p = [x]) (hb : k < 4611686018427387904) :
    ∃ w S' out' O', nodeRemove v x = some w ∧ Inv k w.2 ((p, .mk ty a .nil) :: P) tops ctx S' out' O' := by
  have hpm : (p, Tr.mk ty a (.cons t .nil)) ∈ (p, Tr.mk ty a (.cons t .nil)) :: P := by simp
  have hpP : ∀ y ∈ P, y.1 ≠ p := fun y hy => I.cons_ne hy
  obtain ⟨h1, h2, o1, e1, h3⟩ := I.forest hpm (I.clean_of hpm hp)
  simp only at h1 h2 e1
  rw [hx] at h3
  obtain ⟨x', ns', ox, o2, e3, rfl, h4, e4, rfl⟩ := h3
  simp only [List.cons.injEq] at e3
  obtain ⟨rfl, rfl⟩ := e3
  rw [List.append_nil] at e1
  have hxO : x ∈ O p := by rw [e1]; exact List.mem_cons_of_mem _ h4.mem
  have hxo := I.sub hpm hxO
  have hpx : p ∉ ox := by
    have := I.nodup
    rw [List.nodup_cons, List.flatMap_cons, List.nodup_append] at this
    have h5 := this.2.1
    rw [show O (p, Tr.mk ty a (.cons t .nil)).1 = O p from rfl, e1, List.nodup_cons] at h5
    exact h5.1
  obtain ⟨v', S', e, s', t', h⟩ := tree_remove I.ses hb I.tree hxo (I.ne_zero hpm hxO) h4.forest
  have hsubx : ∀ m ∈ ox, m ∈ O p := fun m hm => by rw [e1]; exact List.mem_cons_of_mem _ hm
  have hdis : ∀ y ∈ P, ∀ m ∈ O y.1, m ∉ ox := fun y hy m hm hmx =>
    I.disjoint (List.mem_cons_of_mem _ hy) hpm (hpP y hy) hm (hsubx m hmx)
  have sh := I.tree.1.shape I.tree.2
  have hpo := I.sub hpm (I.mem hpm)
  have hsame : ∀ m ∈ out, m ≠ p → S'.kids m = S.kids m := by
    intro m hm hmp
    rw [(h m).1, List.filter_eq_self]
    intro c hc
    have : c ≠ x := by
      rintro rfl
      exact hmp (sh.parent m hm p hpo c hc (by rw [hx]; simp))
    simpa using this
  have hkp : S'.kids p = [] := by rw [(h p).1, hx]; simp
  obtain ⟨w, hw, e2⟩ : ∃ w, nodeRemove v x = some w ∧ w.2 = v' := by
    cases hr : nodeRemove v x with
    | none => rw [step, hr] at e; simp at e
    | some q =>
      rw [step, hr] at e
      simp only [Option.map_some, Option.some.injEq, Prod.mk.injEq] at e
      exact ⟨q, rfl, e.2⟩
  have hp0 : p ≠ 0 := I.ne_zero hpm (I.mem hpm)
  refine ⟨w, S', _, upd O p [p], hw, e2 ▸ s', t', ?_, ?_, ?_, I.ctxs, ?_, I.topsub, ?_⟩
  · intro y hy
    rcases List.mem_cons.1 hy with rfl | hyP
    · refine ⟨by rw [(h p).2.2, h1], by rw [(h p).2.1, h2], [], by simp [upd], ?_, rfl⟩
      simp [strip, hkp]
    · rw [show upd O p [p] y.1 = O y.1 by simp [upd, hpP y hyP]]
      have hym : y ∈ (p, Tr.mk ty a (.cons t .nil)) :: P := List.mem_cons_of_mem _ hyP
      refine (I.holds y hym).congr (fun m hm => ⟨?_, (h m).2.2, (h m).2.1⟩)
      have hmp : m ≠ p := fun e => I.disjoint hym hpm (hpP y hyP) hm (by rw [e]; exact I.mem hpm)
      rw [strip, hsame m (I.sub hym hm) hmp]
      rfl
  · refine ((I.perm.filter _).trans ?_)
    have h0 : 0 ∉ ox := fun h0 => I.ne_zero hpm (hsubx 0 h0) rfl
    rw [List.filter_cons_of_pos (by simpa using h0), List.flatMap_cons, List.filter_append]
    have q1 : ((O p).filter fun m => decide (m ∉ ox)) = [p] := by
      rw [e1, List.filter_cons_of_pos (by simpa using hpx), List.filter_eq_nil_iff.2]
      intro m hm
      simp [hm]
    have q2 : ((P.flatMap fun y => O y.1).filter fun m => decide (m ∉ ox)) = P.flatMap fun y => O y.1 := by
      rw [List.filter_eq_self]
      intro m hm
      obtain ⟨y, hy, hm⟩ := List.mem_flatMap.1 hm
      simpa using hdis y hy m hm
    have q3 : (P.flatMap fun y => upd O p [p] y.1) = P.flatMap fun y => O y.1 := by
      refine List.flatMap_congr (fun y hy => ?_)
      simp [upd, hpP y hy]
    rw [show O (p, Tr.mk ty a (.cons t .nil)).1 = O p from rfl, q1, q2, List.flatMap_cons, q3]
    simp [upd]
  · rw [strip, hsame 0 I.zero (Ne.symm hp0)]
    exact I.root
  · intro m hm hmc c hck hcn
    rw [List.mem_filter] at hm
    rw [(h m).1, List.mem_filter] at hck
    exact I.clean m hm.1 hmc c hck.1 hcn
  · rw [hsame 0 I.zero (Ne.symm hp0)]
    exact I.order

end RuC.Ast
