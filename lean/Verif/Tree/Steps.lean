import Verif.Tree.Walk

/-! Every call does what the specification says. -/

namespace RuC.Tree
open RuC Hash

theorem vswap_get {v : List Int} {i j : Nat} (hi : i < v.length) (hj : j < v.length) (c : Nat) :
    (vswap v i j)[c]? = v[exchange i j c]? := by
  have vi : vget v i = v[i] := vget_some (List.getElem?_eq_getElem hi)
  have vj : vget v j = v[j] := vget_some (List.getElem?_eq_getElem hj)
  simp only [vswap, vset, vi, vj]
  unfold exchange
  by_cases hcj : c = j
  · subst hcj
    rw [List.getElem?_set_self (by rw [List.length_set]; exact hj)]
    by_cases hci : c = i
    · subst hci; rw [if_pos rfl, List.getElem?_eq_getElem hi]
    · rw [if_neg hci, if_pos rfl, List.getElem?_eq_getElem hi]
  · rw [List.getElem?_set_ne (Ne.symm hcj)]
    by_cases hci : c = i
    · subst hci
      rw [List.getElem?_set_self hi, if_pos rfl, List.getElem?_eq_getElem hj]
    · rw [List.getElem?_set_ne (Ne.symm hci), if_neg hci, if_neg hcj]

theorem vswap_length {v : List Int} {i j : Nat} : (vswap v i j).length = v.length := by
  simp [vswap, vset]

section
variable {v : List Int} {S : T} {out : List Nat} (R : Rep v S out)
include R

theorem Rep.live {n : Nat} : Live S n ↔ n ∈ out := by
  constructor
  · rintro ⟨o, hf, hn⟩
    rwa [← hf.det R.tree.1]
  · exact fun h => ⟨out, R.tree.1, h⟩

theorem Rep.cellAfter_lt {p : Nat} (hp : p ∈ out) : cellAfter (p + 1) (S.kids p) < v.length := by
  have hmem : cellAfter (p + 1) (S.kids p) ∈ cells (p + 1) (S.kids p) := by
    have := @cellAfter_mem (p + 1) (S.kids p) []
    rwa [List.append_nil] at this
  rcases R.cell_own hp hmem with e | ⟨d, hd, e⟩
  · rw [e]; have := R.lt hp; omega
  · rw [e]; have := R.lt (R.kid hp hd).1; omega

theorem Rep.addChild_step {p : Nat} {t : Int} (hp : p ∈ out) (hb : v.length + 5 < 4611686018427387904) :
    ∃ v' o, nodeAddChild v p t = (some (v.length + 2), v') ∧ v'.length = v.length + 5 ∧
      Rep v' { kids := upd (upd S.kids p (S.kids p ++ [v.length + 2])) (v.length + 2) []
               type := upd S.type (v.length + 2) t
               args := upd S.args (v.length + 2) []
               last := v.length + 2 } o := by
  have hpl := R.lt hp
  have hkl := R.length_kids_lt hp
  have hca := R.cellAfter_lt hp
  have hdatp : Data (S.args p).length p p := by unfold Data; omega
  have hrefmem : cellAfter (p + 1) (S.kids p) ∈ cells (p + 1) (S.kids p) := by
    have := @cellAfter_mem (p + 1) (S.kids p) []
    rwa [List.append_nil] at this
  have hrp : cellAfter (p + 1) (S.kids p) ≠ p := fun e => R.data_link hp hp hdatp (by rw [e] at hrefmem; exact hrefmem)
  generalize hk : (S.kids p).length = k at hkl
  have hw : vinc (((v ++ [toNegative p]) ++ [t]) ++ [0]) 2 = v ++ [-(p : Int), t, 0, 0, 0] := by
    rw [toNegative_eq (by omega)]
    simp [vinc, List.replicate]
  have hchild : ((v ++ [toNegative p]) ++ [t]).length = v.length + 2 := by simp
  have hwp : (v ++ [-(p : Int), t, 0, 0, 0])[p]? = some (k : Int) := by
    rw [List.getElem?_append_left (by omega), (R.ok p hp).amount, hk]
  have hamt : nodeGetAmount (v ++ [-(p : Int), t, 0, 0, 0]) p = k := by
    rw [nodeGetAmount, if_pos (R.correct hp), vget_some hwp, toSize_natCast (by omega)]
  have hres : nodeAddChild v p t = (some (v.length + 2),
      ((v ++ [-(p : Int), t, 0, 0, 0]).set p ((k + 1 : Nat) : Int)).set (cellAfter (p + 1) (S.kids p))
        ((v.length + 2 : Nat) : Int)) := by
    unfold nodeAddChild
    rw [if_neg (by rw [R.correct hp]; simp)]
    simp only [hw, hamt, hchild]
    rw [usz_of_lt (by omega), toItem_of_lt (n := k + 1) (by omega), toItem_of_lt (n := v.length + 2) (by omega)]
    by_cases hk0 : k = 0
    · have : S.kids p = [] := by rw [← List.length_eq_zero_iff, hk, hk0]
      rw [if_pos hk0, refChildren, usz_of_lt (by omega), this]
      rfl
    · rw [if_neg hk0, usub_of_le (by omega) (by omega)]
      have hne : S.kids p ≠ [] := by
        intro e
        rw [e] at hk
        exact hk0 hk.symm
      obtain ⟨a, d, had⟩ : ∃ a d, S.kids p = a ++ [d] := by
        rcases List.eq_nil_or_concat (S.kids p) with e | ⟨a, d, e⟩
        · exact absurd e hne
        · exact ⟨a, d, by rw [e, List.concat_eq_append]⟩
      have hal : a.length = k - 1 := by
        rw [had] at hk
        simp at hk
        omega
      have hch := (R.ok p hp).chain hne
      rw [← List.append_nil (S.kids p), chain_append] at hch
      have hseg : Seg (vset (v ++ [-(p : Int), t, 0, 0, 0]) p ((k + 1 : Nat) : Int)) (p + 1) (a ++ d :: []) := by
        rw [← had]
        refine seg_same hch.1 (fun a' c b' e => ?_)
        have hcm : cellAfter (p + 1) a' ∈ cells (p + 1) (S.kids p) := by rw [e]; exact cellAfter_mem
        rw [vset, List.getElem?_set_ne (fun e2 => R.data_link hp hp hdatp (by rw [← e2] at hcm; exact hcm)),
          List.getElem?_append_left (R.cell_lt hp hne hcm)]
      have hgc := getChild_of_seg (k := k + 1) (v := vset (v ++ [-(p : Int), t, 0, 0, 0]) p ((k + 1 : Nat) : Int))
        (p := p) (by omega) (by rw [vset, List.getElem?_set_self (by simp; omega)]) (by omega) hseg
        (by rw [← had]; exact R.kid_bounds hp) (by omega)
      rw [hal] at hgc
      rw [hgc]
      have hdk := R.kid hp (by rw [had]; simp : d ∈ S.kids p)
      have := R.lt hdk.1
      simp only [refNext]
      rw [usub_of_le (by omega) (by omega), had, cellAfter_concat]
      rfl
  have hold : ∀ c, c ≠ p → c ≠ cellAfter (p + 1) (S.kids p) →
      (((v ++ [-(p : Int), t, 0, 0, 0]).set p ((k + 1 : Nat) : Int)).set (cellAfter (p + 1) (S.kids p))
        ((v.length + 2 : Nat) : Int))[c]? = (v ++ [-(p : Int), t, 0, 0, 0])[c]? := by
    intro c h1 h2
    rw [List.getElem?_set_ne (Ne.symm h2), List.getElem?_set_ne (Ne.symm h1)]
  obtain ⟨o, ho⟩ := R.addChild (t := t) hp hb (v' := ((v ++ [-(p : Int), t, 0, 0, 0]).set p ((k + 1 : Nat) : Int)).set
      (cellAfter (p + 1) (S.kids p)) ((v.length + 2 : Nat) : Int)) (by simp)
    (fun c h1 h2 h3 => by rw [hold c h2 h3, List.getElem?_append_left h1])
    (by rw [List.getElem?_set_ne hrp, List.getElem?_set_self (by simp; omega), hk])
    (by rw [List.getElem?_set_self (by simp; omega)])
    (by rw [hold _ (by omega) (by omega), List.getElem?_append_right (by omega)]; simp)
    (by rw [hold _ (by omega) (by omega), List.getElem?_append_right (by omega)]; simp)
    (by rw [hold _ (by omega) (by omega), List.getElem?_append_right (by omega)]; simp)
    (by rw [hold _ (by omega) (by omega), List.getElem?_append_right (by omega)]; simp)
  exact ⟨_, o, hres, by simp, ho⟩

/-- A node that is not the root is in somebody's list of children. -/
theorem Rep.has_parent {x : Nat} (hx : x ∈ out) (h0 : x ≠ 0) : ∃ p a b, p ∈ out ∧ S.kids p = a ++ x :: b := by
  obtain ⟨p, hp, hk⟩ := R.shape.has x hx h0
  obtain ⟨a, b, e⟩ := List.append_of_mem hk
  exact ⟨p, a, b, hp, e⟩

theorem Rep.insert_step {x argc : Nat} {t : Int} (hx : x ∈ out) (h0 : x ≠ 0)
    (hb : v.length + 5 + argc < 4611686018427387904) :
    ∃ v' o, nodeInsert v x t argc = some (some (v.length + 2), v') ∧ v'.length = v.length + 5 + argc ∧
      Rep v' { kids := upd (fun m => (S.kids m).map fun c => if c = x then v.length + 2 else c) (v.length + 2) [x]
               type := upd S.type (v.length + 2) t
               args := upd S.args (v.length + 2) (List.replicate argc 0)
               last := v.length + 2 } o := by
  obtain ⟨p, a, b, hp, he⟩ := R.has_parent hx h0
  have h5 := R.ge hx h0
  have hxl := R.lt hx
  have hrn := R.ref_ne_next hp he
  have hrl : cellAfter (p + 1) a < v.length := lt_of_some (R.ref_val hp he)
  have hxn : v[x - 2]? = some (vget v (x - 2)) := by
    have hlt : x - 2 < v.length := by omega
    rw [vget_some (List.getElem?_eq_getElem hlt), List.getElem?_eq_getElem hlt]
  have href := R.ref hp he
  unfold refOf at href
  have hres : nodeInsert v x t argc = some (some (v.length + 2),
      ((v ++ ([vget v (x - 2), t, 1, (x : Int), (argc : Int)] ++ List.replicate argc 0)).set (cellAfter (p + 1) a)
        ((v.length + 2 : Nat) : Int)).set (x - 2) (-((v.length + 2 : Nat) : Int))) := by
    unfold nodeInsert
    rw [R.parent hp he]
    simp only
    rw [if_neg (by rw [R.correct hp]; simp), href, refNext, usub_of_le (by omega) (by omega)]
    have : ((v ++ [vget v (x - 2)]) ++ [t]).length = v.length + 2 := by simp
    rw [this, toNegative_eq (by omega), toItem_of_lt (by omega), toItem_of_lt (by omega), toItem_of_lt (by omega)]
    simp [vinc, vset]
  have hold : ∀ c, c ≠ x - 2 → c ≠ cellAfter (p + 1) a →
      (((v ++ ([vget v (x - 2), t, 1, (x : Int), (argc : Int)] ++ List.replicate argc 0)).set (cellAfter (p + 1) a)
        ((v.length + 2 : Nat) : Int)).set (x - 2) (-((v.length + 2 : Nat) : Int)))[c]? =
      (v ++ ([vget v (x - 2), t, 1, (x : Int), (argc : Int)] ++ List.replicate argc 0))[c]? := by
    intro c h1 h2
    rw [List.getElem?_set_ne (Ne.symm h1), List.getElem?_set_ne (Ne.symm h2)]
  have hnew : ∀ i, (((v ++ ([vget v (x - 2), t, 1, (x : Int), (argc : Int)] ++ List.replicate argc 0)).set (cellAfter (p + 1) a)
        ((v.length + 2 : Nat) : Int)).set (x - 2) (-((v.length + 2 : Nat) : Int)))[v.length + i]? =
      ([vget v (x - 2), t, 1, (x : Int), (argc : Int)] ++ List.replicate argc 0)[i]? := by
    intro i
    rw [hold _ (by omega) (by omega), List.getElem?_append_right (by omega), Nat.add_sub_cancel_left]
  have hlen : (((v ++ ([vget v (x - 2), t, 1, (x : Int), (argc : Int)] ++ List.replicate argc 0)).set (cellAfter (p + 1) a)
        ((v.length + 2 : Nat) : Int)).set (x - 2) (-((v.length + 2 : Nat) : Int))).length = v.length + 5 + argc := by
    rw [List.length_set, List.length_set, List.length_append, List.length_append, List.length_replicate]
    simp only [List.length_cons, List.length_nil]
    omega
  obtain ⟨o, ho⟩ := R.insert (t := t) (argc := argc) hp he hb hlen
    (fun c h1 h2 h3 => by rw [hold c h2 h3, List.getElem?_append_left h1])
    (by rw [List.getElem?_set_ne (Ne.symm hrn), List.getElem?_set_self (by rw [List.length_append]; omega)])
    (by rw [List.getElem?_set_self (by rw [List.length_set, List.length_append]; omega)])
    ((hnew 0).trans (by rw [hxn]; rfl))
    (hnew 1) (hnew 2) (hnew 3) (hnew 4)
    (fun i hi => by
      rw [Nat.add_assoc, hnew (5 + i), List.getElem?_append_right (by simp)]
      simp [hi])
  exact ⟨_, o, hres, hlen, ho⟩

theorem Rep.swap_step {x y : Nat} (hx : x ∈ out) (hx0 : x ≠ 0) (hy : y ∈ out) (hy0 : y ≠ 0)
    (h : x = y ∨ ¬ Below S x y ∧ ¬ Below S y x) :
    ∃ v' o, nodeSwap v x y = some (0, v') ∧ v'.length = v.length ∧
      Rep v' { S with kids := fun m => (S.kids m).map (exchange x y) } o := by
  obtain ⟨p, a, b, hp, he⟩ := R.has_parent hx hx0
  obtain ⟨q, a', b', hq, he'⟩ := R.has_parent hy hy0
  have hx5 := R.ge hx hx0
  have hy5 := R.ge hy hy0
  have hxl := R.lt hx
  have hyl := R.lt hy
  have hrx : cellAfter (p + 1) a < v.length := lt_of_some (R.ref_val hp he)
  have hry : cellAfter (q + 1) a' < v.length := lt_of_some (R.ref_val hq he')
  have hbd := R.bound
  have hres : nodeSwap v x y = some (0,
      vswap (vswap v (cellAfter (p + 1) a) (cellAfter (q + 1) a')) (x - 2) (y - 2)) := by
    unfold nodeSwap
    rw [R.parent hp he, R.parent hq he']
    simp only
    rw [if_neg (by rw [R.correct hp, R.correct hq]; simp), R.ref hp he, R.ref hq he', refNext, refNext,
      usub_of_le (by omega) (by omega), usub_of_le (by omega) (by omega)]
  have hget : ∀ c, (vswap (vswap v (cellAfter (p + 1) a) (cellAfter (q + 1) a')) (x - 2) (y - 2))[c]? =
      v[exchange (cellAfter (p + 1) a) (cellAfter (q + 1) a') (exchange (x - 2) (y - 2) c)]? := by
    intro c
    rw [vswap_get (by rw [vswap_length]; omega) (by rw [vswap_length]; omega), vswap_get hrx hry]
  have hlen : (vswap (vswap v (cellAfter (p + 1) a) (cellAfter (q + 1) a')) (x - 2) (y - 2)).length = v.length := by
    rw [vswap_length, vswap_length]
  rcases h with rfl | ⟨h1, h2⟩
  · obtain ⟨rfl, rfl, rfl⟩ := R.ref_unique hp hq he he'
    have hid : ∀ i c, exchange i i c = c := by
      intro i c
      unfold exchange
      split
      · omega
      · simp
    have hvv : vswap (vswap v (cellAfter (p + 1) a) (cellAfter (p + 1) a)) (x - 2) (x - 2) = v := by
      apply List.ext_getElem?
      intro c
      rw [hget, hid, hid]
    have hss : ({ S with kids := fun m => (S.kids m).map (exchange x x) } : T) = S := by
      have : (fun m => (S.kids m).map (exchange x x)) = S.kids := by
        funext m
        have : exchange x x = id := by funext c; exact hid x c
        rw [this, List.map_id]
      rw [this]
    refine ⟨_, out, hres, hlen, ?_⟩
    rw [hvv, hss]
    exact R
  · obtain ⟨o, ho⟩ := R.swap hp hq he he' h1 h2 hlen hget
    exact ⟨_, o, hres, hlen, ho⟩

/-- The state after the links are changed, whether or not storage is given back. -/
theorem Rep.finish {S' : T} {o : List Nat} {w : List Int} {x : Nat} (hx : x ∈ out) (h0 : x ≠ 0) (R' : Rep w S' o)
    (hlen : w.length = v.length) (hargs : S'.args = S.args) (hmem : ∀ m ∈ o, m ∈ out ∧ m ≠ x)
    (hargc : w[x + 2]? = some ((S.args x).length : Int)) :
    Rep (removeFinish w x) S' o ∧ (removeFinish w x).length ≤ v.length := by
  have hbd := R.bound
  have h5 := R.ge hx h0
  have hfit := (R.ok x hx).fits
  unfold removeFinish
  have hac : nodeGetArgc w x = (S.args x).length := by
    rw [nodeGetArgc, if_pos (R.correct hx), refArgc, usz_of_lt (by omega), vget_some hargc, toSize_natCast (by omega)]
  rw [hac]
  split
  · rename_i h
    have h2 := h.2
    rw [refArgc, usz_of_lt (n := x + 2) (by omega), usz_of_lt (by omega), usub_of_le (by omega) (by omega)] at h2
    rw [refNext, usub_of_le (by omega) (by omega)]
    refine ⟨R'.truncate (by omega) ?_, by rw [List.length_take]; omega⟩
    intro m hm
    obtain ⟨hmo, hmx⟩ := hmem m hm
    rw [hargs]
    by_contra hc
    have hmf := (R.ok m hmo).fits
    refine hmx (R.sep m hmo x hx (m + 2 + (S.args m).length) ?_ ?_) <;> unfold Own <;> omega
  · exact ⟨R', by omega⟩

theorem Rep.remove_step {x : Nat} (hx : x ∈ out) (h0 : x ≠ 0) :
    ∃ v' o, nodeRemove v x = some (0, v') ∧ v'.length ≤ v.length ∧
      Rep v' { S with kids := fun m => (S.kids m).filter (· ≠ x) } o := by
  obtain ⟨p, a, b, hp, he⟩ := R.has_parent hx h0
  have h5 := R.ge hx h0
  have hxl := R.lt hx
  have hpl := R.lt hp
  have hbd := R.bound
  have hkl := R.length_kids_lt hp
  have hrl : cellAfter (p + 1) a < v.length := lt_of_some (R.ref_val hp he)
  have hdatp : Data (S.args p).length p p := by unfold Data; omega
  have hrefmem : cellAfter (p + 1) a ∈ cells (p + 1) (S.kids p) := by rw [he]; exact cellAfter_mem
  have hrp : cellAfter (p + 1) a ≠ p := fun e => R.data_link hp hp hdatp (by rw [e] at hrefmem; exact hrefmem)
  have hxnm : x - 2 ∈ cells (p + 1) (S.kids p) := by
    rw [he]; simp only [cells, List.mem_cons, List.mem_map]
    exact Or.inr ⟨x, by simp, rfl⟩
  have hxp : x - 2 ≠ p := fun e => R.data_link hp hp hdatp (by rw [e] at hxnm; exact hxnm)
  have hxnl : x - 2 < v.length := by omega
  have hxn : v[x - 2]? = some (vget v (x - 2)) := by
    rw [vget_some (List.getElem?_eq_getElem hxnl), List.getElem?_eq_getElem hxnl]
  have hdatx : Data (S.args x).length x (x + 2) := by unfold Data; omega
  have hargcx : ∀ w : List Int, (∀ c, c ≠ p → c ≠ cellAfter (p + 1) a → w[c]? = v[c]?) →
      w[x + 2]? = some ((S.args x).length : Int) := by
    intro w hw
    rw [hw (x + 2) ?_ (fun e => R.data_link hx hp hdatx (by rw [e]; exact hrefmem))]
    · exact (R.ok x hx).argc
    · intro e
      by_cases hxp : x = p
      · omega
      · exact R.data_ne hx hp hxp hdatx (by rw [e]; unfold Own; omega)
  rw [he, List.length_append, List.length_cons] at hkl
  have hamt0 : nodeGetAmount v p = a.length + b.length + 1 := by rw [R.amount hp, he]; simp; omega
  have hwrap : wrapI64 (toItem (a.length + b.length + 1) - 1) = ((a ++ b).length : Int) := by
    rw [toItem_of_lt (by omega), wrapI64_of_isItem (by unfold IsItem ITEM_MIN ITEM_MAX; omega), List.length_append]
    omega
  unfold nodeRemove
  rw [R.parent hp he]
  simp only
  rw [if_neg (by rw [R.correct hp]; simp)]
  by_cases ha : a = []
  · subst ha
    rw [List.length_nil, if_pos rfl]
    simp only [hamt0, hwrap]
    simp only [cellAfter] at hrl hrp hargcx
    have hsp : (vset v p ((([] : List Nat) ++ b).length : Int))[p]? = some ((([] : List Nat) ++ b).length : Int) := by
      rw [vset, List.getElem?_set_self (by omega)]
    have hamt1 : nodeGetAmount (vset v p ((([] : List Nat) ++ b).length : Int)) p = b.length := by
      rw [nodeGetAmount, if_pos (R.correct hp), vget_some hsp, toSize_natCast (by simp; omega)]
      simp
    have hxn1 : vget (vset v p ((([] : List Nat) ++ b).length : Int)) (x - 2) = vget v (x - 2) := by
      rw [vget_some (x := vget v (x - 2))]
      rw [vset, List.getElem?_set_ne (Ne.symm hxp), hxn]
    rw [hamt1, refChildren, usz_of_lt (by omega), refNext, usub_of_le (by omega) (by omega), hxn1]
    generalize hw : (if b.length ≠ 0 then vset (vset v p ((([] : List Nat) ++ b).length : Int)) (p + 1) (vget v (x - 2))
      else vset v p ((([] : List Nat) ++ b).length : Int)) = w
    have hwl : w.length = v.length := by rw [← hw]; split <;> simp [vset]
    have hold : ∀ c, c ≠ p → c ≠ p + 1 → w[c]? = v[c]? := by
      intro c h1 h2
      rw [← hw]
      split
      · rw [vset, List.getElem?_set_ne (Ne.symm h2), vset, List.getElem?_set_ne (Ne.symm h1)]
      · rw [vset, List.getElem?_set_ne (Ne.symm h1)]
    obtain ⟨o, ho, hmem⟩ := R.remove (v' := w) hp he hwl hold
      (by rw [← hw]; split
          · rw [vset, List.getElem?_set_ne (by omega), hsp]
          · exact hsp)
      (by intro hne
          have hbne : b.length ≠ 0 := fun e => hne (by rw [List.length_eq_zero_iff.1 e]; rfl)
          rw [← hw, if_pos hbne, vset, cellAfter, List.getElem?_set_self (by simp [vset]; omega), hxn])
    obtain ⟨hf1, hf2⟩ := R.finish hx h0 ho hwl rfl hmem (hargcx w hold)
    exact ⟨_, o, rfl, hf2, hf1⟩
  · obtain ⟨a', d, rfl⟩ : ∃ a' d, a = a' ++ [d] := by
      rcases List.eq_nil_or_concat a with e | ⟨a', d, e⟩
      · exact absurd e ha
      · exact ⟨a', d, by rw [e, List.concat_eq_append]⟩
    have hlen1 : (a' ++ [d]).length = a'.length + 1 := by simp
    have hdk := R.kid hp (by rw [he]; simp : d ∈ S.kids p)
    have hdl := R.lt hdk.1
    have hgc := R.child_split hp (a := a') (c := d) (b := x :: b) (by rw [he]; simp)
    rw [cellAfter_concat] at hrl hrp hargcx
    have hrv := R.ref_val hp he
    rw [cellAfter_concat] at hrv
    rw [hlen1] at hkl hamt0 hwrap ⊢
    rw [if_neg (by omega), usub_of_le (by omega) (by omega), Nat.add_sub_cancel, hgc]
    simp only [refNext]
    rw [usub_of_le (a := d) (by omega) (by omega), vget_some hrv, toSize_natCast (by omega),
      usub_of_le (by omega) (by omega)]
    have hp1 : (vset v (d - 2) (vget v (x - 2)))[p]? = some ((S.kids p).length : Int) := by
      rw [vset, List.getElem?_set_ne hrp, (R.ok p hp).amount]
    have hamt1 : nodeGetAmount (vset v (d - 2) (vget v (x - 2))) p = a'.length + 1 + b.length + 1 := by
      rw [nodeGetAmount, if_pos (R.correct hp), vget_some hp1, he, List.length_append, hlen1, List.length_cons,
        toSize_natCast (by omega)]
      omega
    simp only [hamt1, hwrap]
    generalize hw : vset (vset v (d - 2) (vget v (x - 2))) p (((a' ++ [d]) ++ b).length : Int) = w
    have hwl : w.length = v.length := by rw [← hw]; simp [vset]
    have hold : ∀ c, c ≠ p → c ≠ d - 2 → w[c]? = v[c]? := by
      intro c h1 h2
      rw [← hw, vset, List.getElem?_set_ne (Ne.symm h1), vset, List.getElem?_set_ne (Ne.symm h2)]
    obtain ⟨o, ho, hmem⟩ := R.remove (v' := w) hp he hwl (by rw [cellAfter_concat]; exact hold)
      (by rw [← hw, vset, List.getElem?_set_self (by simp [vset]; omega)])
      (by intro _
          rw [cellAfter_concat, ← hw, vset, List.getElem?_set_ne (Ne.symm hrp), vset, List.getElem?_set_self hrl, hxn])
    obtain ⟨hf1, hf2⟩ := R.finish hx h0 ho hwl rfl hmem (hargcx w hold)
    exact ⟨_, o, rfl, hf2, hf1⟩

/-- One call. -/
theorem Rep.step {op : Op} (hv : op.Valid S) (hb : v.length + op.cost < 4611686018427387904) :
    ∃ r v' S' o, step v op = some (r, v') ∧ TStep S op r S' ∧ Rep v' S' o ∧ v'.length ≤ v.length + op.cost := by
  have hbd := R.bound
  cases op with
  | addChild nd t =>
    simp only [Op.Valid, R.live] at hv
    obtain ⟨v', o, h1, h2, h3⟩ := R.addChild_step (t := t) hv hb
    refine ⟨_, v', _, o, by rw [Tree.step, h1], .addChild (R.live.2 hv) (fun h => R.fresh (R.live.1 h)), h3, ?_⟩
    simp only [Op.cost]; omega
  | addArg nd a =>
    simp only [Op.Valid, R.live] at hv
    obtain ⟨hn, hl⟩ := hv
    simp only [Op.cost] at hb
    have hfit := (R.ok nd hn).fits
    simp only [Tree.step, nodeAddArg]
    rw [if_neg (by rw [R.correct hn]; simp), R.amount hn]
    by_cases hk : S.kids nd = []
    · rw [if_neg (by rw [hk]; simp)]
      have hac : nodeGetArgc (v ++ [a]) nd = (S.args nd).length := by
        rw [nodeGetArgc, if_pos (R.correct hn), refArgc, usz_of_lt (by omega),
          vget_some (x := ((S.args nd).length : Int)) (by rw [List.getElem?_append_left (by omega)]; exact (R.ok nd hn).argc),
          toSize_natCast (by omega)]
      simp only [hac]
      rw [refArgc, usz_of_lt (by omega), toItem_of_lt (by omega), wrapI64_of_isItem (by unfold IsItem ITEM_MIN ITEM_MAX; omega)]
      have := R.addArg (x := a) hn (hl hk) (by omega)
      exact ⟨_, _, _, out, rfl, .addArg hk, this, by simp [vset, Op.cost]⟩
    · rw [if_pos (fun e => hk (List.length_eq_zero_iff.1 e))]
      exact ⟨_, _, _, out, rfl, .addArgBusy hk, R, by simp [Op.cost]⟩
  | setArg nd i a =>
    simp only [Op.Valid, R.live] at hv
    have hfit := (R.ok nd hv).fits
    simp only [Tree.step, nodeSetArg]
    rw [R.argc hv]
    by_cases hi : i < (S.args nd).length
    · rw [if_neg (by omega), refArgc, usz_of_lt (n := nd + 2) (by omega), usz_of_lt (by omega), vsetCode,
        if_pos (by omega), show nd + 2 + 1 + i = nd + 3 + i by omega]
      exact ⟨_, _, _, out, rfl, .setArg hi, R.setArg hv hi, by simp [vset, Op.cost]⟩
    · rw [if_pos (by omega)]
      exact ⟨_, _, _, out, rfl, .setArgOut (by omega), R, by simp [Op.cost]⟩
  | setType nd t =>
    simp only [Op.Valid, R.live] at hv
    have hfit := (R.ok nd hv).fits
    simp only [Tree.step, nodeSetType]
    rw [if_neg (by rw [R.correct hv]; simp)]
    by_cases h0 : nd = 0
    · subst h0
      rw [if_pos rfl]
      exact ⟨_, _, _, out, rfl, .setTypeRoot, R, by simp [Op.cost]⟩
    · rw [if_neg h0, usub_of_le (by omega) (by omega), vsetCode, if_pos (by omega)]
      exact ⟨_, _, _, out, rfl, .setType h0, R.setType hv h0, by simp [vset, Op.cost]⟩
  | insert nd t n =>
    simp only [Op.Valid, R.live] at hv
    simp only [Op.cost] at hb
    by_cases h0 : nd = 0
    · subst h0
      refine ⟨.node none, v, S, out, ?_, .insertRoot, R, by simp⟩
      simp [Tree.step, nodeInsert, searchParent]
    · obtain ⟨v', o, h1, h2, h3⟩ := R.insert_step (t := t) (argc := n) hv h0 (by omega)
      refine ⟨_, v', _, o, by rw [Tree.step, h1]; rfl, .insert h0 (fun h => R.fresh (R.live.1 h)), h3, ?_⟩
      simp only [Op.cost]; omega
  | swap x y =>
    simp only [Op.Valid, R.live] at hv
    obtain ⟨hx, hy, h⟩ := hv
    by_cases hx0 : x = 0
    · subst hx0
      refine ⟨.code (-1), v, S, out, ?_, .swapRoot (Or.inl rfl), R, by simp⟩
      by_cases hy0 : y = 0
      · subst hy0
        simp [Tree.step, nodeSwap, searchParent]
      · obtain ⟨q, a', b', hq, he'⟩ := R.has_parent hy hy0
        simp [Tree.step, nodeSwap, R.parent hq he']
        simp [searchParent]
    · by_cases hy0 : y = 0
      · subst hy0
        refine ⟨.code (-1), v, S, out, ?_, .swapRoot (Or.inr rfl), R, by simp⟩
        obtain ⟨q, a', b', hq, he'⟩ := R.has_parent hx hx0
        simp [Tree.step, nodeSwap, R.parent hq he']
        simp [searchParent]
      · obtain ⟨v', o, h1, h2, h3⟩ := R.swap_step hx hx0 hy hy0 (by tauto)
        exact ⟨_, v', _, o, by rw [Tree.step, h1]; rfl, .swap hx0 hy0, h3, by omega⟩
  | remove nd =>
    simp only [Op.Valid, R.live] at hv
    by_cases h0 : nd = 0
    · subst h0
      refine ⟨.code (-1), v, S, out, ?_, .removeRoot, R, by simp⟩
      simp [Tree.step, nodeRemove, searchParent]
    · obtain ⟨v', o, h1, h2, h3⟩ := R.remove_step hv h0
      exact ⟨_, v', _, o, by rw [Tree.step, h1]; rfl, .remove h0, h3, by omega⟩
  | getChild nd i =>
    simp only [Op.Valid, R.live] at hv
    exact ⟨_, v, S, out, by rw [Tree.step, R.child hv], .getChild, R, by omega⟩
  | getParent nd =>
    simp only [Op.Valid, R.live] at hv
    by_cases h0 : nd = 0
    · subst h0
      refine ⟨.node none, v, S, out, ?_, .getParentRoot, R, by omega⟩
      simp [Tree.step, nodeGetParent, searchParent]
    · obtain ⟨p, a, b, hp, he⟩ := R.has_parent hv h0
      refine ⟨.node (some p), v, S, out, ?_, .getParent (R.live.2 hp) (by rw [he]; simp), R, by omega⟩
      simp [Tree.step, nodeGetParent, R.parent hp he]
  | getType nd =>
    simp only [Op.Valid, R.live] at hv
    by_cases h0 : nd = 0
    · subst h0
      refine ⟨.item ITEM_MAX, v, S, out, ?_, .getTypeRoot, R, by omega⟩
      simp [Tree.step, nodeGetType]
    · exact ⟨_, v, S, out, by rw [Tree.step, R.type hv h0], .getType h0, R, by omega⟩
  | getAmount nd =>
    simp only [Op.Valid, R.live] at hv
    exact ⟨_, v, S, out, by rw [Tree.step, R.amount hv], .getAmount, R, by omega⟩
  | getArgc nd =>
    simp only [Op.Valid, R.live] at hv
    exact ⟨_, v, S, out, by rw [Tree.step, R.argc hv], .getArgc, R, by omega⟩
  | getArg nd i =>
    simp only [Op.Valid, R.live] at hv
    exact ⟨_, v, S, out, by rw [Tree.step, R.arg hv], .getArg, R, by omega⟩
  | getNext nd =>
    simp only [Op.Valid, R.live] at hv
    obtain ⟨a, b, e⟩ := List.append_of_mem hv.1
    exact ⟨_, v, S, out, by rw [Tree.step, R.next hv.2 e]; rfl, .getNext (before := a) (after := b) (by rw [← e]; exact R.tree.1), R, by omega⟩
  | load nd =>
    simp only [Op.Valid, R.live] at hv
    have hfit := (R.ok nd hv).fits
    refine ⟨.node (some nd), v, S, out, ?_, .load, R, by omega⟩
    rw [Tree.step, nodeLoad, usz_of_lt (by omega), vget_some (R.ok nd hv).argc, usub_of_le (b := nd) (by omega) (by omega),
      usub_of_le (by omega) (by omega), toItem_of_lt (by omega), if_neg (by omega)]

end

theorem rep_root : Rep (vinc [] 3) root [0] := by
  refine ⟨⟨?_, by simp⟩, ?_, ?_, by simp [root, vinc], by simp [vinc]⟩
  · exact .cons (o1 := []) (o2 := []) .nil .nil
  · intro n hn
    rw [List.mem_singleton] at hn
    subst hn
    refine ⟨Or.inl rfl, by simp [root, vinc], by simp [root, vinc, List.replicate], by simp [root, vinc, List.replicate], ?_, by simp, by simp [root]⟩
    intro i x hx
    simp [root] at hx
  · intro n hn m hm c _ _
    rw [List.mem_singleton] at hn hm
    omega

end RuC.Tree
