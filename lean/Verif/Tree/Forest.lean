import Verif.Tree.Spec
import Mathlib.Data.List.Nodup
import Mathlib.Data.List.Perm.Basic
import Mathlib.Data.List.Perm.Subperm
import Mathlib.Data.List.Pairwise

/-! Helper lemmas about `Forest`. -/

namespace RuC.Tree

variable {K K' : Nat → List Nat} {ns out : List Nat}

theorem Forest.det {o : List Nat} (h : Forest K ns out) (h' : Forest K ns o) : out = o := by
  induction h generalizing o with
  | nil => cases h'; rfl
  | cons _ _ ih1 ih2 =>
    cases h' with
    | cons g1 g2 => rw [ih1 g1, ih2 g2]

theorem Forest.append {ms o : List Nat} (h : Forest K ns out) (h' : Forest K ms o) :
    Forest K (ns ++ ms) (out ++ o) := by
  induction h with
  | nil => exact h'
  | cons h1 h2 _ ih =>
    rw [List.cons_append, List.cons_append, List.append_assoc]
    exact .cons h1 ih

theorem Forest.split {ms o : List Nat} (h : Forest K (ns ++ ms) o) :
    ∃ o1 o2, o = o1 ++ o2 ∧ Forest K ns o1 ∧ Forest K ms o2 := by
  induction ns generalizing o with
  | nil => exact ⟨[], o, rfl, .nil, h⟩
  | cons n ns ih =>
    cases h with
    | cons h1 h2 =>
      obtain ⟨p1, p2, e, g1, g2⟩ := ih h2
      exact ⟨_, p2, by rw [e]; simp, .cons h1 g1, g2⟩

theorem Forest.single {n : Nat} {o : List Nat} : Forest K [n] o ↔ ∃ o1, o = n :: o1 ∧ Forest K (K n) o1 := by
  constructor
  · intro h
    cases h with
    | cons h1 h2 => cases h2; exact ⟨_, by rw [List.append_nil], h1⟩
  · rintro ⟨o1, rfl, h⟩
    have := Forest.cons (n := n) h .nil
    rwa [List.append_nil] at this

theorem Forest.congr (h : Forest K ns out) (e : ∀ n ∈ out, K' n = K n) : Forest K' ns out := by
  induction h with
  | nil => exact .nil
  | cons h1 h2 ih1 ih2 =>
    refine .cons ?_ (ih2 fun m hm => e m (by simp [hm]))
    rw [e _ (by simp)]
    exact ih1 fun m hm => e m (by simp [hm])

theorem Forest.roots (h : Forest K ns out) {n : Nat} (hn : n ∈ ns) : n ∈ out := by
  induction h with
  | nil => exact hn
  | cons _ _ _ ih =>
    rcases List.mem_cons.1 hn with rfl | hn
    · simp
    · simp [ih hn]

/-- Below every node there is a smaller forest. -/
theorem Forest.sub (h : Forest K ns out) {n : Nat} (hn : n ∈ out) :
    ∃ o, Forest K (K n) o ∧ (∀ m ∈ o, m ∈ out) ∧ o.length < out.length := by
  induction h with
  | nil => simp at hn
  | @cons m ns o1 o2 h1 h2 ih1 ih2 =>
    simp only [List.mem_cons, List.mem_append] at hn
    rcases hn with rfl | hn | hn
    · exact ⟨o1, h1, fun m hm => by simp [hm], by simp; omega⟩
    · obtain ⟨o, g1, g2, g3⟩ := ih1 hn
      exact ⟨o, g1, fun m hm => by simp [g2 m hm], by simp; omega⟩
    · obtain ⟨o, g1, g2, g3⟩ := ih2 hn
      exact ⟨o, g1, fun m hm => by simp [g2 m hm], by simp; omega⟩

theorem Forest.kids_mem (h : Forest K ns out) {n c : Nat} (hn : n ∈ out) (hc : c ∈ K n) : c ∈ out := by
  obtain ⟨o, g1, g2, _⟩ := h.sub hn
  exact g2 c (g1.roots hc)

/-- No node is below its own children. -/
theorem Forest.acyclic {n : Nat} {o : List Nat} (h : Forest K (K n) o) : n ∉ o := by
  intro hn
  obtain ⟨o', g1, _, g3⟩ := h.sub hn
  rw [h.det g1] at g3
  omega

/-- Every node is a start node or the child of exactly one node. -/
theorem Forest.perm (h : Forest K ns out) : out.Perm (ns ++ out.flatMap K) := by
  induction h with
  | nil => simp
  | @cons n ns o1 o2 h1 h2 ih1 ih2 =>
    rw [List.flatMap_cons, List.flatMap_append, List.cons_append]
    refine .cons _ ?_
    have := ih1.append ih2
    refine this.trans ?_
    rw [List.perm_iff_count]
    intro z
    simp only [List.count_append]
    omega

/-- A walk down from `n` stays in the forest below `n`. -/
theorem Forest.trans {n m : Nat} {o o' : List Nat} (h : Forest K [n] o) (hm : m ∈ o) (h' : Forest K [m] o')
    {z : Nat} (hz : z ∈ o') : z ∈ o := by
  obtain ⟨o1, g1, g2, _⟩ := h.sub hm
  obtain ⟨o1', rfl, g3⟩ := Forest.single.1 h'
  rw [g1.det g3] at *
  rcases List.mem_cons.1 hz with rfl | hz
  · exact hm
  · exact g2 z hz

structure Shape (K : Nat → List Nat) (out : List Nat) : Prop where
  kids_nodup : ∀ p ∈ out, (K p).Nodup
  parent : ∀ p ∈ out, ∀ q ∈ out, ∀ c, c ∈ K p → c ∈ K q → p = q
  rootless : ∀ p ∈ out, 0 ∉ K p
  has : ∀ n ∈ out, n ≠ 0 → ∃ p ∈ out, n ∈ K p

theorem Forest.shape (h : Forest K [0] out) (hn : out.Nodup) : Shape K out := by
  have hp := h.perm
  have hd := hp.nodup_iff.1 hn
  rw [List.singleton_append, List.nodup_cons, List.nodup_flatMap] at hd
  obtain ⟨h0, h1, h2⟩ := hd
  refine ⟨h1, ?_, ?_, ?_⟩
  · intro p hp q hq c hc hc'
    by_contra hne
    haveI : Std.Symm (Function.onFun List.Disjoint K) := ⟨fun a b hab _ h1 h2 => hab h2 h1⟩
    exact h2.forall hp hq hne hc hc'
  · intro p hp h
    exact h0 (List.mem_flatMap.2 ⟨p, hp, h⟩)
  · intro n hn0 hne
    have := hp.mem_iff.1 hn0
    simp only [List.singleton_append, List.mem_cons, hne, false_or, List.mem_flatMap] at this
    exact this

/-! ### The forests after the edits -/

/-- One for equal names. -/
def cnt (a z : Nat) : Nat := if a = z then 1 else 0

theorem count_cons' (a z : Nat) (l : List Nat) : (a :: l).count z = l.count z + cnt a z := by
  rw [List.count_cons]
  simp [cnt]

theorem cnt_self (a : Nat) : cnt a a = 1 := by simp [cnt]

theorem cnt_ne {a z : Nat} (h : a ≠ z) : cnt a z = 0 := by simp [cnt, h]

theorem not_below_kids {x : Nat} {o : List Nat} (h : Forest K (K x) o) {n : Nat} (hn : n ∈ o) : x ∉ K n :=
  fun hx => h.acyclic (h.kids_mem hn hx)

/-- A new leaf. -/
theorem Forest.addChild {p n : Nat} (h : Forest K ns out) (hn : n ∉ out) (hnp : n ≠ p) :
    ∃ o, Forest (upd (upd K p (K p ++ [n])) n []) ns o ∧
      ∀ z, o.count z = out.count z + out.count p * [n].count z := by
  induction h with
  | nil => exact ⟨[], .nil, by simp⟩
  | @cons m ns o1 o2 h1 h2 ih1 ih2 =>
    simp only [List.mem_cons, List.mem_append, not_or] at hn
    obtain ⟨p1, f1, c1⟩ := ih1 hn.2.1
    obtain ⟨p2, f2, c2⟩ := ih2 hn.2.2
    by_cases hm : m = p
    · subst hm
      refine ⟨m :: ((p1 ++ [n]) ++ p2), .cons ?_ f2, ?_⟩
      · have : upd (upd K m (K m ++ [n])) n [] m = K m ++ [n] := by simp [upd, Ne.symm hnp]
        rw [this]
        refine f1.append (Forest.single.2 ⟨[], rfl, ?_⟩)
        have : upd (upd K m (K m ++ [n])) n [] n = [] := by simp [upd]
        rw [this]
        exact .nil
      · intro z
        have e : o1.count m = 0 := List.count_eq_zero.2 h1.acyclic
        have k1 := c1 z
        have k2 := c2 z
        simp only [count_cons', List.count_append, List.count_nil, cnt_self, Nat.add_mul, Nat.zero_mul, Nat.one_mul,
          Nat.zero_add, Nat.add_zero, e] at k1 k2 ⊢
        omega
    · refine ⟨m :: (p1 ++ p2), .cons ?_ f2, ?_⟩
      · have : upd (upd K p (K p ++ [n])) n [] m = K m := by simp [upd, hm, Ne.symm hn.1]
        rw [this]; exact f1
      · intro z
        have k1 := c1 z
        have k2 := c2 z
        simp only [count_cons', List.count_append, List.count_nil, cnt_self, Nat.add_mul, Nat.zero_mul, Nat.one_mul,
          Nat.zero_add, Nat.add_zero, cnt_ne (hm)] at k1 k2 ⊢
        omega

/-- A node inserted above `x`. -/
theorem Forest.insert {x n : Nat} (h : Forest K ns out) (hn : n ∉ out) (hnx : n ≠ x) :
    ∃ o, Forest (upd (fun m => (K m).map fun c => if c = x then n else c) n [x])
        (ns.map fun c => if c = x then n else c) o ∧
      ∀ z, o.count z = out.count z + out.count x * [n].count z := by
  induction h with
  | nil => exact ⟨[], .nil, by simp⟩
  | @cons m ns o1 o2 h1 h2 ih1 ih2 =>
    simp only [List.mem_cons, List.mem_append, not_or] at hn
    obtain ⟨p2, f2, c2⟩ := ih2 hn.2.2
    by_cases hm : m = x
    · subst hm
      have same : ∀ q ∈ m :: o1, upd (fun q => (K q).map fun c => if c = m then n else c) n [m] q = K q := by
        intro q hq
        have hq' : q ≠ n := by
          rintro rfl
          rcases List.mem_cons.1 hq with rfl | hq
          · exact hnx rfl
          · exact hn.2.1 hq
        simp only [upd, if_neg hq']
        have hmq : m ∉ K q := by
          rcases List.mem_cons.1 hq with rfl | hq
          · exact fun h => h1.acyclic (h1.roots h)
          · exact not_below_kids h1 hq
        conv => rhs; rw [← List.map_id (K q)]
        apply List.map_congr_left
        intro c hc
        rw [if_neg (fun e : c = m => hmq (e ▸ hc)), id]
      have fm : Forest (upd (fun q => (K q).map fun c => if c = m then n else c) n [m]) [m] (m :: o1) :=
        (Forest.single.2 ⟨o1, rfl, h1⟩).congr same
      refine ⟨n :: ((m :: o1) ++ p2), ?_, ?_⟩
      · simp only [List.map_cons, if_true]
        refine .cons ?_ f2
        have : upd (fun q => (K q).map fun c => if c = m then n else c) n [m] n = [m] := by simp [upd]
        rw [this]
        exact fm
      · intro z
        have e : o1.count m = 0 := List.count_eq_zero.2 h1.acyclic
        have k2 := c2 z
        simp only [count_cons', List.count_append, List.count_nil, cnt_self, Nat.add_mul, Nat.zero_mul, Nat.one_mul,
          Nat.zero_add, Nat.add_zero, e] at k2 ⊢
        omega
    · obtain ⟨p1, f1, c1⟩ := ih1 hn.2.1
      refine ⟨m :: (p1 ++ p2), ?_, ?_⟩
      · simp only [List.map_cons, if_neg hm]
        refine .cons ?_ f2
        have : upd (fun q => (K q).map fun c => if c = x then n else c) n [x] m =
            (K m).map fun c => if c = x then n else c := by simp [upd, Ne.symm hn.1]
        rw [this]; exact f1
      · intro z
        have k1 := c1 z
        have k2 := c2 z
        simp only [count_cons', List.count_append, List.count_nil, cnt_self, Nat.add_mul, Nat.zero_mul, Nat.one_mul,
          Nat.zero_add, Nat.add_zero, cnt_ne (hm)] at k1 k2 ⊢
        omega

/-- A subtree cut off. -/
theorem Forest.remove {x : Nat} {ox : List Nat} (h : Forest K ns out) (hx : Forest K [x] ox) :
    ∃ o, Forest (fun m => (K m).filter (· ≠ x)) (ns.filter (· ≠ x)) o ∧
      ∀ z, o.count z + out.count x * ox.count z = out.count z := by
  induction h with
  | nil => exact ⟨[], .nil, by simp⟩
  | @cons m ns o1 o2 h1 h2 ih1 ih2 =>
    obtain ⟨p2, f2, c2⟩ := ih2
    by_cases hm : m = x
    · subst hm
      obtain ⟨o1', rfl, g⟩ := Forest.single.1 hx
      rw [g.det h1] at *
      refine ⟨p2, by simpa using f2, ?_⟩
      intro z
      have e : o1.count m = 0 := List.count_eq_zero.2 h1.acyclic
      have k2 := c2 z
      simp only [count_cons', List.count_append, List.count_nil, cnt_self, Nat.add_mul, Nat.zero_mul, Nat.one_mul,
        Nat.zero_add, Nat.add_zero, e] at k2 ⊢
      omega
    · obtain ⟨p1, f1, c1⟩ := ih1
      refine ⟨m :: (p1 ++ p2), ?_, ?_⟩
      · rw [List.filter_cons_of_pos (by simpa using hm)]
        exact .cons f1 f2
      · intro z
        have k1 := c1 z
        have k2 := c2 z
        simp only [count_cons', List.count_append, List.count_nil, cnt_self, Nat.add_mul, Nat.zero_mul, Nat.one_mul,
          Nat.zero_add, Nat.add_zero, cnt_ne (hm)] at k1 k2 ⊢
        omega

theorem map_exchange_id {x y : Nat} {l : List Nat} (hx : x ∉ l) (hy : y ∉ l) : l.map (exchange x y) = l := by
  conv => rhs; rw [← List.map_id l]
  apply List.map_congr_left
  intro c hc
  simp only [exchange]
  rw [if_neg (fun e : c = x => hx (e ▸ hc)), if_neg (fun e : c = y => hy (e ▸ hc)), id]

theorem Forest.fixed {x y : Nat} {o : List Nat} (h : Forest K [x] o) (hy : y ∉ o) :
    Forest (fun m => (K m).map (exchange x y)) [x] o := by
  obtain ⟨o1, rfl, h1⟩ := Forest.single.1 h
  refine h.congr ?_
  intro q hq
  have hx' : x ∉ K q := by
    rcases List.mem_cons.1 hq with rfl | hq
    · exact fun h => h1.acyclic (h1.roots h)
    · exact not_below_kids h1 hq
  exact map_exchange_id hx' (fun e => hy (h.kids_mem hq e))

theorem exchange_comm (x y c : Nat) : exchange x y c = exchange y x c := by
  unfold exchange
  repeat' split
  all_goals omega

/-- Two subtrees exchanged. -/
theorem Forest.swap {x y : Nat} {ox oy : List Nat} (h : Forest K ns out) (hx : Forest K [x] ox)
    (hy : Forest K [y] oy) (hxy : y ∉ ox) (hyx : x ∉ oy) :
    ∃ o, Forest (fun m => (K m).map (exchange x y)) (ns.map (exchange x y)) o ∧
      ∀ z, o.count z + out.count x * ox.count z + out.count y * oy.count z =
        out.count z + out.count x * oy.count z + out.count y * ox.count z := by
  have fx := hx.fixed hxy
  have fy : Forest (fun m => (K m).map (exchange x y)) [y] oy := by
    have := hy.fixed hyx
    simpa only [funext (exchange_comm x y)] using this
  have hne : x ≠ y := by
    rintro rfl
    exact hxy (hx.roots (by simp))
  induction h with
  | nil => exact ⟨[], .nil, by simp⟩
  | @cons m ns o1 o2 h1 h2 ih1 ih2 =>
    obtain ⟨p2, f2, c2⟩ := ih2
    by_cases hm : m = x
    · subst hm
      obtain ⟨o1', rfl, g⟩ := Forest.single.1 hx
      rw [g.det h1] at *
      refine ⟨oy ++ p2, ?_, ?_⟩
      · have : exchange m y m = y := by simp [exchange]
        rw [List.map_cons, this]
        exact fy.append f2
      · intro z
        have e : o1.count m = 0 := List.count_eq_zero.2 h1.acyclic
        have e2 : o1.count y = 0 := List.count_eq_zero.2 (fun h => hxy (by simp [h]))
        have k2 := c2 z
        simp only [count_cons', List.count_append, List.count_nil, cnt_self, Nat.add_mul, Nat.zero_mul, Nat.one_mul,
          Nat.zero_add, Nat.add_zero, e, e2, cnt_ne (hne)] at k2 ⊢
        omega
    · by_cases hm2 : m = y
      · subst hm2
        obtain ⟨o1', rfl, g⟩ := Forest.single.1 hy
        rw [g.det h1] at *
        refine ⟨ox ++ p2, ?_, ?_⟩
        · have : exchange x m m = x := by simp [exchange, Ne.symm hne]
          rw [List.map_cons, this]
          exact fx.append f2
        · intro z
          have e : o1.count m = 0 := List.count_eq_zero.2 h1.acyclic
          have e2 : o1.count x = 0 := List.count_eq_zero.2 (fun h => hyx (by simp [h]))
          have k2 := c2 z
          simp only [count_cons', List.count_append, List.count_nil, cnt_self, Nat.add_mul, Nat.zero_mul, Nat.one_mul,
            Nat.zero_add, Nat.add_zero, e, e2, cnt_ne (Ne.symm hne)] at k2 ⊢
          omega
      · obtain ⟨p1, f1, c1⟩ := ih1
        refine ⟨m :: (p1 ++ p2), ?_, ?_⟩
        · have : exchange x y m = m := by simp [exchange, hm, hm2]
          rw [List.map_cons, this]
          exact .cons f1 f2
        · intro z
          have k1 := c1 z
          have k2 := c2 z
          simp only [count_cons', List.count_append, List.count_nil, cnt_self, Nat.add_mul, Nat.zero_mul, Nat.one_mul,
            Nat.zero_add, Nat.add_zero, cnt_ne (hm), cnt_ne (hm2)] at k1 k2 ⊢
          omega

end RuC.Tree
