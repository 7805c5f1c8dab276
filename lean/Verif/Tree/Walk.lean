import Verif.Tree.Edit

/-! `node_get_next` goes through the nodes in preorder. -/

namespace RuC.Tree
open RuC Hash

/-- The link value of an optional node. -/
def val : Option Nat → Int
  | some n => (n : Int)
  | none => 0

/-- What follows the subtree of `p`. -/
def Cont (v : List Int) (p : Nat) (r : Option Nat) (d : Nat) : Prop :=
  if p = 0 then r = none else ∀ fuel, d < fuel → nextLoop v fuel (vget v (p - 2)) = some (val r)

theorem nextLoop_pos {v : List Int} {fuel n : Nat} : nextLoop v (fuel + 1) (n : Int) = some (n : Int) := by
  have : isNegative (n : Int) = false := by simp [isNegative]
  simp [nextLoop, this]

theorem val_node {r : Option Nat} (h : ∀ m, r = some m → m < 4611686018427387904 ∧ m ≠ 0) :
    (if toSize (val r) ≠ 0 then some (toSize (val r)) else none) = r := by
  have key : ∀ k : Nat, toSize (val r) = k → (if toSize (val r) ≠ 0 then some (toSize (val r)) else none) =
      if k ≠ 0 then some k else none := fun k e => by rw [e]
  cases r with
  | none =>
    rw [key 0 (toSize_natCast (n := 0) (by omega))]
    rfl
  | some m =>
    have hm := h m rfl
    rw [key m (toSize_natCast (by omega)), if_pos hm.2]

theorem next_of_forest {v : List Int} {S : T} {out : List Nat} (R : Rep v S out) {ns o : List Nat}
    (hf : Forest S.kids ns o) : ∀ (p cell d : Nat) (r : Option Nat), Chain v p cell ns → p ∈ out → (∀ m ∈ o, m ∈ out ∧ m ≠ 0) →
    (∀ m, r = some m → m ∈ out ∧ m ≠ 0) →
    Cont v p r d → d + o.length + 1 ≤ v.length →
    (∀ fuel, d + 1 < fuel → nextLoop v fuel (vget v cell) = some (val (o.head?.or r))) ∧
    ∀ a n b, o = a ++ n :: b → nodeGetNext v n = some (b.head?.or r) := by
  have hbd := R.bound
  induction hf with
  | nil =>
    intro p cell d r hc hp hm hr hcont hd
    refine ⟨fun fuel hfu => ?_, fun a n b e => by simp at e⟩
    have hv : vget v cell = -(p : Int) := vget_some hc
    rw [hv]
    have hpl := R.lt hp
    cases fuel with
    | zero => omega
    | succ fuel =>
      by_cases hp0 : p = 0
      · subst hp0
        simp only [Cont, if_true] at hcont
        subst hcont
        exact nextLoop_pos (n := 0)
      · simp only [Cont, if_neg hp0] at hcont
        have hneg : isNegative (-(p : Int)) = true := by simp [isNegative]; omega
        have hfrom : fromNegative (-(p : Int)) = p := by
          rw [fromNegative, Int.neg_neg, wrapI64_of_isItem (by unfold IsItem ITEM_MIN ITEM_MAX; omega),
            toSize_natCast (by omega)]
        have := R.ge hp hp0
        rw [nextLoop, if_pos hneg, hfrom, usub_of_le (by omega) (by omega), hcont fuel (by omega)]
        rfl
  | @cons n ns o1 o2 h1 h2 ih1 ih2 =>
    intro p cell d r hc hp hm hr hcont hd
    simp only [List.length_cons, List.length_append] at hd
    have hn := hm n (by simp)
    have hn5 := R.ge hn.1 hn.2
    have hnl := R.lt hn.1
    obtain ⟨k2, s2⟩ := ih2 p (n - 2) d r hc.2 hp (fun m h => hm m (by simp [h])) hr hcont (by omega)
    have hcn : Cont v n (o2.head?.or r) (d + 1) := by
      rw [Cont, if_neg hn.2]
      exact k2
    have hr2 : ∀ m, o2.head?.or r = some m → m ∈ out ∧ m ≠ 0 := by
      intro m e
      cases ho : o2 with
      | nil => rw [ho] at e; exact hr m e
      | cons x xs =>
        rw [ho] at e
        simp only [List.head?_cons, Option.some_or, Option.some.injEq] at e
        subst e
        exact hm x (by simp [ho])
    refine ⟨?_, ?_⟩
    · intro fuel hfu
      cases fuel with
      | zero => omega
      | succ fuel =>
        rw [vget_some hc.1, nextLoop_pos]
        rfl
    · have hself : nodeGetNext v n = some ((o1 ++ o2).head?.or r) := by
        rw [nodeGetNext, R.correct hn.1, R.amount hn.1]
        by_cases hk : S.kids n = []
        · have ho1 : o1 = [] := by rw [hk] at h1; cases h1; rfl
          subst ho1
          rw [hk]
          simp only [not_true, if_false, List.length_nil, if_true, List.nil_append]
          rw [refNext, usub_of_le (by omega) (by omega), k2 _ (by omega)]
          refine congrArg some (val_node fun m e => ?_)
          have hm' := hr2 m e
          have := R.lt hm'.1
          exact ⟨by omega, hm'.2⟩
        · have hlen : (S.kids n).length ≠ 0 := fun e => hk (List.length_eq_zero_iff.1 e)
          have hch := (R.ok n hn.1).chain hk
          cases hks : S.kids n with
          | nil => exact absurd hks hk
          | cons c ks =>
            rw [hks] at hch h1
            cases h1 with
            | cons g1 g2 =>
              have hc' := hm c (by simp)
              have := R.lt hc'.1
              rw [if_neg (by simp), if_neg (by simp), refChildren, usz_of_lt (by omega), vget_some hch.1]
              simp only [toSize_natCast (n := c) (by omega)]
              rw [if_pos hc'.2]
              rfl
      intro a x b e
      cases a with
      | nil =>
        simp only [List.nil_append, List.cons.injEq] at e
        obtain ⟨rfl, rfl⟩ := e
        exact hself
      | cons y a =>
        simp only [List.cons_append, List.cons.injEq] at e
        obtain ⟨rfl, e⟩ := e
        rcases List.append_eq_append_iff.1 e with ⟨a', e1, e2⟩ | ⟨b', e1, e2⟩
        · exact s2 a' x b e2
        · cases b' with
          | nil =>
            simp only [List.nil_append] at e2
            exact s2 [] x b e2.symm
          | cons z b' =>
            simp only [List.cons_append, List.cons.injEq] at e2
            obtain ⟨rfl, rfl⟩ := e2
            have hk : S.kids n ≠ [] := by
              intro hk
              rw [hk] at h1
              cases h1
              simp at e1
            obtain ⟨-, s1⟩ := ih1 n (n + 1) (d + 1) (o2.head?.or r) ((R.ok n hn.1).chain hk) hn.1
              (fun m h => hm m (by simp [h])) hr2 hcn (by omega)
            rw [s1 a x b' e1]
            cases b' <;> simp

theorem Rep.next {v : List Int} {S : T} {out : List Nat} (R : Rep v S out) (h0 : S.kids 0 ≠ []) {a b : List Nat} {n : Nat}
    (e : out = a ++ n :: b) : nodeGetNext v n = some b.head? := by
  have hbd := R.bound
  obtain ⟨o, ho, hf⟩ := Forest.single.1 R.tree.1
  have hnd := R.tree.2
  rw [ho] at hnd
  have hlen := R.length_out
  rw [ho, List.length_cons] at hlen
  have hch := (R.ok 0 R.zero_mem).chain h0
  obtain ⟨k, s⟩ := next_of_forest R hf 0 1 0 none hch R.zero_mem
    (fun m hm => ⟨by rw [ho]; simp [hm], fun e => (List.nodup_cons.1 hnd).1 (e ▸ hm)⟩) (fun m e => by cases e)
    (by simp [Cont]) (by omega)
  rw [ho] at e
  cases a with
  | cons y a =>
    simp only [List.cons_append, List.cons.injEq] at e
    rw [s a n b e.2]
    simp
  | nil =>
    simp only [List.nil_append, List.cons.injEq] at e
    obtain ⟨rfl, rfl⟩ := e
    rw [nodeGetNext, R.correct R.zero_mem, R.amount R.zero_mem]
    cases hks : S.kids 0 with
    | nil => exact absurd hks h0
    | cons c ks =>
      rw [hks] at hch
      have hc' := R.kid R.zero_mem (by rw [hks]; simp : c ∈ S.kids 0)
      have := R.lt hc'.1
      rw [if_neg (by simp), if_neg (by simp), refChildren, usz_of_lt (by omega), vget_some hch.1]
      simp only [toSize_natCast (n := c) (by omega)]
      rw [if_pos (by omega)]
      rw [hks] at hf
      cases hf with
      | cons g1 g2 => rfl

theorem Rep.walk {v : List Int} {S : T} {out : List Nat} (R : Rep v S out) (h0 : S.kids 0 ≠ []) {b : List Nat} :
    ∀ {a : List Nat} {n : Nat} {fuel : Nat}, out = a ++ n :: b → b.length < fuel → walk v fuel n = some b := by
  induction b with
  | nil =>
    intro a n fuel e hf
    cases fuel with
    | zero => omega
    | succ fuel => simp [Tree.walk, R.next h0 e]
  | cons x b ih =>
    intro a n fuel e hf
    cases fuel with
    | zero => omega
    | succ fuel =>
      have e2 : out = (a ++ [n]) ++ x :: b := by rw [e]; simp
      have hx : x ∈ out := by rw [e]; simp
      have := ih e2 (fuel := fuel) (by simp at hf; omega)
      simp [Tree.walk, R.next h0 e, R.correct hx, this]

end RuC.Tree
