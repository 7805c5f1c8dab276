import Verif.Tree.Forest

/-! The representation of a tree in the cells, and the reading calls. -/

namespace RuC.Tree
open RuC Hash

/-- The links of a list of children: from `cell` over the children back to the parent `p`. -/
def Chain (v : List Int) (p : Nat) : Nat → List Nat → Prop
  | cell, [] => v[cell]? = some (-(p : Int))
  | cell, c :: ks => v[cell]? = some (c : Int) ∧ Chain v p (c - 2) ks

/-- The cell that refers to what follows the children `ks`. -/
def cellAfter : Nat → List Nat → Nat
  | cell, [] => cell
  | _, c :: ks => cellAfter (c - 2) ks

/-- The links of some first children. -/
def Seg (v : List Int) : Nat → List Nat → Prop
  | _, [] => True
  | cell, c :: ks => v[cell]? = some (c : Int) ∧ Seg v (c - 2) ks

theorem chain_append {v : List Int} {p cell : Nat} {a b : List Nat} :
    Chain v p cell (a ++ b) ↔ Seg v cell a ∧ Chain v p (cellAfter cell a) b := by
  induction a generalizing cell with
  | nil => simp [Seg, cellAfter]
  | cons c a ih => simp only [List.cons_append, Chain, Seg, cellAfter, ih, and_assoc]

theorem seg_append {v : List Int} {cell : Nat} {a b : List Nat} :
    Seg v cell (a ++ b) ↔ Seg v cell a ∧ Seg v (cellAfter cell a) b := by
  induction a generalizing cell with
  | nil => simp [Seg, cellAfter]
  | cons c a ih => simp only [List.cons_append, Seg, cellAfter, ih, and_assoc]

theorem cellAfter_append {cell : Nat} {a b : List Nat} :
    cellAfter cell (a ++ b) = cellAfter (cellAfter cell a) b := by
  induction a generalizing cell with
  | nil => rfl
  | cons c a ih => simp only [List.cons_append, cellAfter, ih]

/-- The cells of a chain. -/
def cells (cell : Nat) (ks : List Nat) : List Nat := cell :: ks.map (· - 2)

theorem cellAfter_mem {cell : Nat} {a b : List Nat} : cellAfter cell a ∈ cells cell (a ++ b) := by
  induction a generalizing cell with
  | nil => simp [cells, cellAfter]
  | cons c a ih =>
    have := @ih (c - 2)
    simp only [cells, cellAfter, List.cons_append, List.map_cons, List.mem_cons] at this ⊢
    tauto

/-- What a cell of a chain holds. -/
theorem chain_cell {v : List Int} {p cell : Nat} {ks : List Nat} (h : Chain v p cell ks) {x : Nat}
    (hx : x ∈ cells cell ks) :
    (∃ (a : List Nat) (c : Nat) (b : List Nat), ks = a ++ c :: b ∧ x = cellAfter cell a ∧ v[x]? = some (c : Int)) ∨
    (x = cellAfter cell ks ∧ v[x]? = some (-(p : Int))) := by
  induction ks generalizing cell with
  | nil =>
    simp only [cells, List.map_nil, List.mem_singleton] at hx
    subst hx
    right
    exact ⟨rfl, h⟩
  | cons c ks ih =>
    obtain ⟨h1, h2⟩ := h
    simp only [cells, List.map_cons, List.mem_cons] at hx
    rcases hx with rfl | hx
    · left
      exact ⟨[], c, ks, rfl, rfl, h1⟩
    · rcases ih h2 (by simpa [cells] using hx) with ⟨a, d, b, rfl, e2, e3⟩ | ⟨e1, e2⟩
      · left
        exact ⟨c :: a, d, b, rfl, e2, e3⟩
      · right
        exact ⟨e1, e2⟩

/-- Moving and renaming a chain. -/
theorem chain_map {v v' : List Int} {p p' cell : Nat} {ks : List Nat} (h : Chain v p cell ks) (f : Nat → Nat)
    (s : Nat → Nat)
    (hv : ∀ a c b, ks = a ++ c :: b → v'[f (cellAfter cell a)]? = some (s c : Int))
    (hend : v'[f (cellAfter cell ks)]? = some (-(p' : Int)))
    (hf : ∀ c ∈ ks, f (c - 2) = s c - 2) : Chain v' p' (f cell) (ks.map s) := by
  induction ks generalizing cell with
  | nil => exact hend
  | cons c ks ih =>
    refine ⟨hv [] c ks rfl, ?_⟩
    rw [← hf c (by simp)]
    refine ih h.2 (fun a d b e => hv (c :: a) d b (by rw [e]; rfl)) hend (fun d hd => hf d (by simp [hd]))

theorem chain_same {v v' : List Int} {p cell : Nat} {ks : List Nat} (h : Chain v p cell ks)
    (hv : ∀ x ∈ cells cell ks, v'[x]? = v[x]?) : Chain v' p cell ks := by
  induction ks generalizing cell with
  | nil => simpa [Chain, cells, h] using (hv cell (by simp [cells])).trans h
  | cons c ks ih =>
    refine ⟨(hv cell (by simp [cells])).trans h.1, ih h.2 fun x hx => hv x ?_⟩
    simp only [cells, List.map_cons, List.mem_cons] at hx ⊢
    tauto

theorem seg_same {v v' : List Int} {cell : Nat} {ks : List Nat} (h : Seg v cell ks)
    (hv : ∀ a c b, ks = a ++ c :: b → v'[cellAfter cell a]? = v[cellAfter cell a]?) : Seg v' cell ks := by
  induction ks generalizing cell with
  | nil => trivial
  | cons c ks ih =>
    exact ⟨(hv [] c ks rfl).trans h.1, ih h.2 fun a d b e => hv (c :: a) d b (by rw [e]; rfl)⟩

/-- The cells of one node. -/
structure NodeOk (v : List Int) (S : T) (n : Nat) : Prop where
  pos : n = 0 ∨ 2 ≤ n
  fits : n + 3 + (S.args n).length ≤ v.length
  amount : v[n]? = some ((S.kids n).length : Int)
  argc : v[n + 2]? = some ((S.args n).length : Int)
  args : ∀ i x, (S.args n)[i]? = some x → v[n + 3 + i]? = some x
  type : n ≠ 0 → v[n - 1]? = some (S.type n)
  chain : S.kids n ≠ [] → Chain v n (n + 1) (S.kids n)

/-- The cells that belong to node `n` if it has `k` arguments. -/
def Own (k n c : Nat) : Prop := n ≤ c + 2 ∧ c < n + 3 + k

/-- The vector `v` represents the tree `S` with the nodes `out`. -/
structure Rep (v : List Int) (S : T) (out : List Nat) : Prop where
  tree : IsTree S out
  ok : ∀ n ∈ out, NodeOk v S n
  sep : ∀ n ∈ out, ∀ m ∈ out, ∀ c, Own (S.args n).length n c → Own (S.args m).length m c → n = m
  last : S.last ∈ out → S.last + 3 + (S.args S.last).length = v.length
  bound : v.length < 4611686018427387904

theorem vget_some {v : List Int} {i : Nat} {x : Int} (h : v[i]? = some x) : vget v i = x := by
  unfold vget; rw [h]

theorem isCorrect_lt {n : Nat} (h : n < 4611686018427387904) : isCorrect n = true := by
  have : n ≠ SIZE_MAX := by unfold SIZE_MAX; omega
  simp [isCorrect, this]

theorem lt_of_some {v : List Int} {i : Nat} {x : Int} (h : v[i]? = some x) : i < v.length := by
  by_contra hc
  rw [List.getElem?_eq_none (by omega)] at h
  cases h

section Reading
variable {v : List Int} {S : T} {out : List Nat} (R : Rep v S out)
include R

theorem Rep.lt {n : Nat} (hn : n ∈ out) : n + 3 ≤ v.length := by
  have := (R.ok n hn).fits
  omega

theorem Rep.correct {n : Nat} (hn : n ∈ out) : isCorrect n = true := by
  have := R.lt hn
  have := R.bound
  exact isCorrect_lt (by omega)

theorem Rep.zero_mem : 0 ∈ out := R.tree.1.roots (by simp)

theorem Rep.ge {n : Nat} (hn : n ∈ out) (h0 : n ≠ 0) : 5 ≤ n := by
  have h2 := (R.ok n hn).pos
  by_contra hlt
  refine h0 (R.sep n hn 0 R.zero_mem (n - 2) ?_ ?_) <;> unfold Own <;> omega

theorem Rep.shape : Shape S.kids out := R.tree.1.shape R.tree.2

theorem Rep.kid {p c : Nat} (hp : p ∈ out) (hc : c ∈ S.kids p) : c ∈ out ∧ 5 ≤ c := by
  have h1 := R.tree.1.kids_mem hp hc
  exact ⟨h1, R.ge h1 (fun e => R.shape.rootless p hp (e ▸ hc))⟩

theorem Rep.length_out : out.length ≤ v.length := by
  have : out.length ≤ (List.range v.length).length := by
    refine (List.Nodup.subperm R.tree.2 ?_).length_le
    intro n hn
    rw [List.mem_range]
    have := R.lt hn
    omega
  rwa [List.length_range] at this

theorem Rep.length_kids {p : Nat} (hp : p ∈ out) : (S.kids p).length ≤ v.length := by
  refine Nat.le_trans ?_ R.length_out
  exact (List.Nodup.subperm (R.shape.kids_nodup p hp) (fun c hc => (R.kid hp hc).1)).length_le

theorem Rep.length_kids_lt {p : Nat} (hp : p ∈ out) : (S.kids p).length < v.length := by
  have h : (0 :: S.kids p).length ≤ out.length := by
    refine (List.Nodup.subperm (List.nodup_cons.2 ⟨R.shape.rootless p hp, R.shape.kids_nodup p hp⟩) ?_).length_le
    intro c hc
    rcases List.mem_cons.1 hc with rfl | hc
    · exact R.zero_mem
    · exact (R.kid hp hc).1
  have := R.length_out
  simp only [List.length_cons] at h
  omega

theorem Rep.amount {n : Nat} (hn : n ∈ out) : nodeGetAmount v n = (S.kids n).length := by
  have := R.length_kids hn
  have := R.bound
  rw [nodeGetAmount, if_pos (R.correct hn), vget_some (R.ok n hn).amount, toSize_natCast (by omega)]

theorem Rep.argc {n : Nat} (hn : n ∈ out) : nodeGetArgc v n = (S.args n).length := by
  have := (R.ok n hn).fits
  have := R.bound
  rw [nodeGetArgc, if_pos (R.correct hn), refArgc, usz_of_lt (by omega), vget_some (R.ok n hn).argc,
    toSize_natCast (by omega)]

theorem Rep.arg {n : Nat} (hn : n ∈ out) (i : Nat) : nodeGetArg v n i = (S.args n)[i]?.getD ITEM_MAX := by
  have h1 := (R.ok n hn).fits
  have := R.bound
  rw [nodeGetArg, R.argc hn]
  by_cases hi : i < (S.args n).length
  · rw [if_pos hi, refArgc, usz_of_lt (n := n + 2) (by omega), usz_of_lt (by omega)]
    rw [show n + 2 + 1 + i = n + 3 + i by omega, vget_some ((R.ok n hn).args i _ (List.getElem?_eq_getElem hi)),
      List.getElem?_eq_getElem hi]
    rfl
  · rw [if_neg hi, List.getElem?_eq_none (by omega)]
    rfl

theorem Rep.type {n : Nat} (hn : n ∈ out) (h0 : n ≠ 0) : nodeGetType v n = S.type n := by
  have h1 := (R.ok n hn).fits
  have := R.bound
  rw [nodeGetType, if_pos ⟨R.correct hn, h0⟩, usub_of_le (by omega) (by omega), vget_some ((R.ok n hn).type h0)]

omit R in
theorem childLoop_spec {a b : List Nat} {c cell : Nat} (h : Seg v cell (a ++ c :: b))
    (hk : ∀ x ∈ a ++ c :: b, 5 ≤ x ∧ x < 4611686018427387904) {d : Nat} (hd : vget v cell = (d : Int))
    (hd2 : d < 4611686018427387904) : childLoop v a.length d = c := by
  induction a generalizing cell d with
  | nil =>
    have := vget_some h.1
    rw [hd] at this
    simp only [List.length_nil, childLoop]
    omega
  | cons e a ih =>
    obtain ⟨h1, h2⟩ := h
    have he := hk e (by simp)
    have hde : d = e := by
      have := vget_some h1
      rw [hd] at this
      omega
    subst hde
    simp only [List.length_cons, childLoop]
    rw [usub_of_le (by omega) (by omega)]
    have hne : ∃ g : Nat, vget v (d - 2) = (g : Int) ∧ g < 4611686018427387904 := by
      cases a with
      | nil => exact ⟨c, vget_some h2.1, (hk c (by simp)).2⟩
      | cons g a => exact ⟨g, vget_some h2.1, (hk g (by simp)).2⟩
    obtain ⟨g, hg, hg2⟩ := hne
    rw [hg, toSize_natCast (by omega)]
    exact ih h2 (fun x hx => hk x (by simp only [List.cons_append, List.mem_cons]; exact Or.inr hx)) hg hg2

theorem Rep.kid_bounds {p : Nat} (hp : p ∈ out) : ∀ x ∈ S.kids p, 5 ≤ x ∧ x < 4611686018427387904 := by
  intro x hx
  have h := R.kid hp hx
  have := R.lt h.1
  have := R.bound
  exact ⟨h.2, by omega⟩

theorem Rep.child_split {p : Nat} (hp : p ∈ out) {a b : List Nat} {c : Nat} (he : S.kids p = a ++ c :: b) :
    nodeGetChild v p a.length = some c := by
  have hb := R.kid_bounds hp
  have hc := (R.ok p hp).chain (by rw [he]; simp)
  have := R.lt hp
  have := R.bound
  rw [nodeGetChild, if_neg (by rw [R.amount hp, R.correct hp, he]; simp), refChildren, usz_of_lt (by omega)]
  have hch : Seg v (p + 1) (a ++ c :: b) := by
    have h2 := hc
    rw [he, ← List.append_nil (a ++ c :: b), chain_append] at h2
    exact h2.1
  rw [he] at hb
  have hne : ∃ g : Nat, vget v (p + 1) = (g : Int) ∧ g < 4611686018427387904 := by
    cases a with
    | nil => exact ⟨c, vget_some hch.1, (hb c (by simp)).2⟩
    | cons g a => exact ⟨g, vget_some hch.1, (hb g (by simp)).2⟩
  obtain ⟨g, hg, hg2⟩ := hne
  rw [hg, toSize_natCast (by omega)]
  rw [childLoop_spec hch hb hg hg2]

theorem Rep.child {p : Nat} (hp : p ∈ out) (i : Nat) : nodeGetChild v p i = (S.kids p)[i]? := by
  by_cases hi : i < (S.kids p).length
  · have he : S.kids p = (S.kids p).take i ++ (S.kids p)[i] :: (S.kids p).drop (i + 1) := by
      rw [List.getElem_cons_drop, List.take_append_drop]
    have := R.child_split hp he
    rw [List.length_take, Nat.min_eq_left (by omega)] at this
    rw [this, List.getElem?_eq_getElem hi]
  · rw [nodeGetChild, if_pos (by rw [R.amount hp]; right; omega), List.getElem?_eq_none (by omega)]

omit R in
theorem parentLoop_spec {b : List Nat} {p cell : Nat} (h : Chain v p cell b)
    (hk : ∀ x ∈ b, 5 ≤ x ∧ x < 4611686018427387904) {fuel k : Nat} (hf : b.length < fuel)
    (hb : k + b.length < 4611686018427387904) :
    parentLoop v fuel (vget v cell) k = some (-(p : Int), k + b.length) := by
  induction b generalizing cell fuel k with
  | nil =>
    cases fuel with
    | zero => simp at hf
    | succ fuel =>
      rw [vget_some h]
      simp only [parentLoop, List.length_nil, Nat.add_zero]
      rw [if_neg]
      simp only [isNegative, decide_eq_true_eq]
      omega
  | cons c b ih =>
    cases fuel with
    | zero => simp at hf
    | succ fuel =>
      obtain ⟨h1, h2⟩ := h
      have hc := hk c (by simp)
      simp only [List.length_cons] at hf hb ⊢
      rw [vget_some h1]
      simp only [parentLoop]
      rw [if_pos (by simp only [isNegative, decide_eq_true_eq]; omega), toSize_natCast (by omega),
        usub_of_le (by omega) (by omega), usz_of_lt (by omega), ih h2 (fun x hx => hk x (by simp [hx])) (by omega) (by omega)]
      congr 2
      omega

theorem Rep.parent {p : Nat} (hp : p ∈ out) {a b : List Nat} {c : Nat} (he : S.kids p = a ++ c :: b) :
    searchParent v c = some (some (p, a.length)) := by
  have hb := R.kid_bounds hp
  have hc := (R.ok p hp).chain (by rw [he]; simp)
  have := R.lt hp
  have hbd := R.bound
  have hl := R.length_kids_lt hp
  rw [he] at hb hl
  simp only [List.length_append, List.length_cons] at hl
  have hcb := hb c (by simp)
  rw [he, chain_append] at hc
  have hmem : c ∈ out := (R.kid hp (by rw [he]; simp)).1
  have hloop : parentLoop v (v.length + 1) (vget v (refNext c)) 1 = some (-(p : Int), 1 + b.length) := by
    rw [refNext, usub_of_le (by omega) (by omega)]
    exact parentLoop_spec hc.2.2 (fun x hx => hb x (by simp [hx])) (by omega) (by omega)
  have hfrom : fromNegative (-(p : Int)) = p := by
    rw [fromNegative, Int.neg_neg, wrapI64_of_isItem (by unfold IsItem ITEM_MIN ITEM_MAX; omega), toSize_natCast (by omega)]
  unfold searchParent
  rw [if_neg (by rw [R.correct hmem]; simp; omega), hloop]
  dsimp only
  rw [hfrom, R.amount hp, he, usub_of_le (by simp; omega) (by simp; omega)]
  simp only [List.length_append, List.length_cons]
  congr 3
  omega

omit R in
theorem cellAfter_concat (cell : Nat) (a : List Nat) (c : Nat) : cellAfter cell (a ++ [c]) = c - 2 := by
  rw [cellAfter_append]; rfl

/-- The cell that refers to a child. -/
theorem Rep.ref {p : Nat} (hp : p ∈ out) {a b : List Nat} {c : Nat} (he : S.kids p = a ++ c :: b) :
    refOf v p a.length = cellAfter (p + 1) a := by
  have := R.lt hp
  have hbd := R.bound
  have hl := R.length_kids_lt hp
  unfold refOf
  rcases List.eq_nil_or_concat a with rfl | ⟨a', d, rfl⟩
  · rw [if_pos List.length_nil, refChildren, usz_of_lt (by omega)]
    rfl
  · rw [List.concat_eq_append] at he ⊢
    rw [he] at hl
    simp only [List.length_append, List.length_cons, List.length_nil] at hl
    have hd := R.kid_bounds hp d (by rw [he]; simp)
    rw [if_neg (by simp), List.length_append, List.length_singleton, usub_of_le (by omega) (by omega),
      Nat.add_sub_cancel]
    have := R.child_split hp (a := a') (b := c :: b) (c := d) (by rw [he]; simp)
    rw [this]
    dsimp only
    rw [refNext, usub_of_le (by omega) (by omega), cellAfter_concat]

/-- What the referring cell holds. -/
theorem Rep.ref_val {p : Nat} (hp : p ∈ out) {a b : List Nat} {c : Nat} (he : S.kids p = a ++ c :: b) :
    v[cellAfter (p + 1) a]? = some (c : Int) := by
  have hc := (R.ok p hp).chain (by rw [he]; simp)
  rw [he, chain_append] at hc
  exact hc.2.1

/-- The cells of a chain belong to the parent or to a child. -/
theorem Rep.cell_own {p : Nat} (hp : p ∈ out) {x : Nat} (hx : x ∈ cells (p + 1) (S.kids p)) :
    (x = p + 1) ∨ ∃ c ∈ S.kids p, x = c - 2 := by
  simp only [cells, List.mem_cons, List.mem_map] at hx
  rcases hx with rfl | ⟨c, hc, rfl⟩
  · exact Or.inl rfl
  · exact Or.inr ⟨c, hc, rfl⟩

omit R in
theorem own_next {k c : Nat} : Own k c (c - 2) := by unfold Own; omega

omit R in
theorem own_children {k c : Nat} : Own k c (c + 1) := by unfold Own; omega

/-- Next cells of different nodes are different. -/
theorem Rep.next_inj {x y : Nat} (hx : x ∈ out) (hy : y ∈ out) (h : x - 2 = y - 2) : x = y :=
  R.sep x hx y hy (x - 2) own_next (by rw [h]; exact own_next)

/-- A next cell is not a children cell. -/
theorem Rep.next_ne_children {x y : Nat} (hx : x ∈ out) (hx0 : x ≠ 0) (hy : y ∈ out) : x - 2 ≠ y + 1 := by
  intro h
  have h5 := R.ge hx hx0
  have := R.sep x hx y hy (x - 2) own_next (by rw [h]; exact own_children)
  omega

/-- A cell is in the chain of at most one node. -/
theorem Rep.cells_disjoint {p q : Nat} (hp : p ∈ out) (hq : q ∈ out) {x : Nat} (hx : x ∈ cells (p + 1) (S.kids p))
    (hy : x ∈ cells (q + 1) (S.kids q)) : p = q := by
  rcases R.cell_own hp hx with rfl | ⟨c, hc, rfl⟩
  · rcases R.cell_own hq hy with e | ⟨c, hc, e⟩
    · omega
    · have := R.kid hq hc
      exact absurd e.symm (R.next_ne_children this.1 (by omega) hp)
  · have h1 := R.kid hp hc
    rcases R.cell_own hq hy with e | ⟨d, hd, e⟩
    · exact absurd e (R.next_ne_children h1.1 (by omega) hq)
    · have h2 := R.kid hq hd
      have := R.next_inj h1.1 h2.1 e
      subst this
      exact R.shape.parent p hp q hq c hc hd

/-- Only one cell of the chains refers to a node. -/
theorem Rep.ref_unique {p q : Nat} (hp : p ∈ out) (hq : q ∈ out) {a b a' b' : List Nat} {c : Nat}
    (he : S.kids p = a ++ c :: b) (he' : S.kids q = a' ++ c :: b') : p = q ∧ a = a' ∧ b = b' := by
  have hpq := R.shape.parent p hp q hq c (by rw [he]; simp) (by rw [he']; simp)
  subst hpq
  have hn := R.shape.kids_nodup p hp
  have hn' := hn
  rw [he] at hn he'
  have key : ∀ (a a' : List Nat), a ++ c :: b = a' ++ c :: b' → (a ++ c :: b).Nodup → a = a' ∧ b = b' := by
    intro a
    induction a with
    | nil =>
      intro a' h hn
      cases a' with
      | nil => simpa using h
      | cons d a' =>
        simp only [List.nil_append, List.cons_append, List.cons.injEq] at h
        rw [List.nil_append, List.nodup_cons, h.2] at hn
        exact absurd (by simp) hn.1
    | cons d a ih =>
      intro a' h hn
      cases a' with
      | nil =>
        simp only [List.nil_append, List.cons_append, List.cons.injEq] at h
        rw [List.cons_append, List.nodup_cons] at hn
        exact absurd (by rw [h.1]; simp) hn.1
      | cons e a' =>
        simp only [List.cons_append, List.cons.injEq] at h
        rw [List.cons_append, List.nodup_cons] at hn
        obtain ⟨i1, i2⟩ := ih a' h.2 hn.2
        exact ⟨by rw [h.1, i1], i2⟩
  obtain ⟨k1, k2⟩ := key a a' he' hn
  exact ⟨rfl, k1, k2⟩

end Reading

end RuC.Tree
