import Verif.Tree.Steps

/-! What the edits of the specification do to the list of nodes in preorder.  Nothing here is
about the stored vector. -/

namespace RuC.Tree
open RuC

variable {K : Nat → List Nat} {ns out : List Nat}

/-- A new leaf comes right after the subtree it is hung under. -/
theorem Forest.addChild_at {p n : Nat} {op : List Nat} (h : Forest K ns out) (hd : out.Nodup) (hn : n ∉ out)
    (hp : p ∈ out) (hop : Forest K [p] op) :
    ∃ A B, out = A ++ op ++ B ∧ Forest (upd (upd K p (K p ++ [n])) n []) ns (A ++ op ++ n :: B) := by
  induction h with
  | nil => simp at hp
  | @cons m ns o1 o2 h1 h2 ih1 ih2 =>
    simp only [List.mem_cons, List.mem_append, not_or] at hn
    obtain ⟨hm, hd12⟩ := List.nodup_cons.1 hd
    obtain ⟨hd1, hd2, hdj⟩ := List.nodup_append.1 hd12
    have same : ∀ {ms o : List Nat}, Forest K ms o → p ∉ o → n ∉ o →
        Forest (upd (upd K p (K p ++ [n])) n []) ms o := by
      intro ms o hf hp' hn'
      refine hf.congr (fun q hq => ?_)
      rw [upd, if_neg (fun e : q = n => hn' (e ▸ hq)), upd, if_neg (fun e : q = p => hp' (e ▸ hq))]
    have hmn : m ≠ n := fun e => hn.1 e.symm
    by_cases hmp : m = p
    · subst hmp
      have he : op = m :: o1 := by
        obtain ⟨o, rfl, ho⟩ := Forest.single.1 hop
        rw [ho.det h1]
      subst he
      refine ⟨[], o2, rfl, ?_⟩
      have hk : upd (upd K m (K m ++ [n])) n [] m = K m ++ [n] := by simp [upd, hmn]
      have g1 : Forest (upd (upd K m (K m ++ [n])) n []) (K m ++ [n]) (o1 ++ [n]) := by
        refine (same h1 h1.acyclic hn.2.1).append ?_
        exact Forest.single.2 ⟨[], rfl, by simp only [upd, if_true]; exact .nil⟩
      have g2 := same h2 (fun h => hm (by simp [h])) hn.2.2
      have := Forest.cons (n := m) (by rw [hk]; exact g1) g2
      simpa using this
    · rcases List.mem_cons.1 hp with e | hp
      · exact absurd e.symm hmp
      · have hk : upd (upd K p (K p ++ [n])) n [] m = K m := by simp [upd, hmn, hmp]
        rcases List.mem_append.1 hp with hp | hp
        · obtain ⟨A, B, e, f⟩ := ih1 hd1 hn.2.1 hp
          refine ⟨m :: A, B ++ o2, by simp [e], ?_⟩
          have g2 := same h2 (fun h => hdj p hp p h rfl) hn.2.2
          rw [← hk] at f
          have := Forest.cons f g2
          simpa using this
        · obtain ⟨A, B, e, f⟩ := ih2 hd2 hn.2.2 hp
          refine ⟨m :: (o1 ++ A), B, by simp [e], ?_⟩
          have g1 := same h1 (fun h => hdj p h p hp rfl) hn.2.1
          rw [← hk] at g1
          have := Forest.cons g1 f
          simpa using this

/-- An inserted node comes right before the node it is put above. -/
theorem Forest.insert_at {x n : Nat} (h : Forest K ns out) (hn : n ∉ out) (hnx : n ≠ x) :
    Forest (upd (fun m => (K m).map fun c => if c = x then n else c) n [x])
      (ns.map fun c => if c = x then n else c) (out.flatMap fun m => if m = x then [n, x] else [m]) := by
  induction h with
  | nil => exact .nil
  | @cons m ns o1 o2 h1 h2 ih1 ih2 =>
    simp only [List.mem_cons, List.mem_append, not_or] at hn
    have f1 := ih1 hn.2.1
    have f2 := ih2 hn.2.2
    have hmn : m ≠ n := fun e => hn.1 e.symm
    rw [List.map_cons, List.flatMap_cons, List.flatMap_append]
    have hk : upd (fun m => (K m).map fun c => if c = x then n else c) n [x] m =
        (K m).map fun c => if c = x then n else c := by simp [upd, hmn]
    rw [← hk] at f1
    by_cases hm : m = x
    · subst hm
      rw [if_pos rfl, if_pos rfl]
      have g : Forest (upd (fun q => (K q).map fun c => if c = m then n else c) n [m]) [m]
          (m :: o1.flatMap fun q => if q = m then [n, m] else [q]) := Forest.single.2 ⟨_, rfl, f1⟩
      have hkn : upd (fun q => (K q).map fun c => if c = m then n else c) n [m] n = [m] := by simp [upd]
      have := Forest.cons (n := n) (by rw [hkn]; exact g) f2
      simpa using this
    · rw [if_neg hm, if_neg hm]
      have := Forest.cons f1 f2
      simpa using this

/-- The parent of a node strictly inside a subtree is in the subtree. -/
theorem inside {S : T} {out ox : List Nat} (ht : IsTree S out) {x m c : Nat} (hx : Forest S.kids [x] ox) (hxo : x ∈ out)
    (hm : m ∈ out) (hc : c ∈ S.kids m) (hcx : c ∈ ox) (hne : c ≠ x) : m ∈ ox := by
  have hsh := ht.1.shape ht.2
  have hp := hx.perm.mem_iff.1 hcx
  rw [List.singleton_append, List.mem_cons, List.mem_flatMap] at hp
  rcases hp with e | ⟨q, hq, hcq⟩
  · exact absurd e hne
  · obtain ⟨o', g1, g2, _⟩ := ht.1.sub hxo
    obtain ⟨o1, rfl, h1⟩ := Forest.single.1 hx
    rw [g1.det h1] at g2
    have hqo : q ∈ out := by
      rcases List.mem_cons.1 hq with rfl | hq
      · exact hxo
      · exact g2 q hq
    rwa [hsh.parent m hm q hqo c hc hcq]

/-- A removed subtree is cut out; the rest keeps its order. -/
theorem Forest.remove_at {S : T} {out ox : List Nat} (ht : IsTree S out) {x : Nat} (hxo : x ∈ out)
    (hx : Forest S.kids [x] ox) {ns o : List Nat} (h : Forest S.kids ns o) (hsub : ∀ m ∈ o, m ∈ out)
    (hns : ∀ m ∈ ns, m = x ∨ m ∉ ox) :
    Forest (fun m => (S.kids m).filter (· ≠ x)) (ns.filter (· ≠ x)) (o.filter (· ∉ ox)) := by
  induction h with
  | nil => exact .nil
  | @cons m ns o1 o2 h1 h2 ih1 ih2 =>
    have f2 := ih2 (fun q hq => hsub q (by simp [hq])) (fun q hq => hns q (by simp [hq]))
    by_cases hm : m = x
    · subst hm
      have he : ox = m :: o1 := by
        obtain ⟨o, rfl, ho⟩ := Forest.single.1 hx
        rw [ho.det h1]
      have hz : (m :: (o1 ++ o2)).filter (· ∉ ox) = o2.filter (· ∉ ox) := by
        rw [← List.cons_append, List.filter_append, ← he]
        have : ox.filter (· ∉ ox) = [] := by
          rw [List.filter_eq_nil_iff]
          intro c hc
          simpa using hc
        rw [this, List.nil_append]
      rw [hz, List.filter_cons_of_neg (by simp)]
      exact f2
    · have hmo : m ∉ ox := (hns m (by simp)).resolve_left hm
      have f1 := ih1 (fun q hq => hsub q (by simp [hq])) (fun c hc => by
        by_cases e : c = x
        · exact Or.inl e
        · exact Or.inr (fun hcx => hmo (inside ht hx hxo (hsub m (by simp)) hc hcx e)))
      rw [List.filter_cons_of_pos (by simpa using hm), List.filter_cons_of_pos (by simpa using hmo), List.filter_append]
      exact Forest.cons f1 f2

/-- Exchanged subtrees keep their inner order and take each other's place. -/
theorem Forest.swap_at {S : T} {out ox oy : List Nat} (ht : IsTree S out) {x y : Nat} (hxo : x ∈ out) (hyo : y ∈ out)
    (hx : Forest S.kids [x] ox) (hy : Forest S.kids [y] oy) (hxy : y ∉ ox) (hyx : x ∉ oy)
    {ns o : List Nat} (h : Forest S.kids ns o) (hsub : ∀ m ∈ o, m ∈ out)
    (hns : ∀ m ∈ ns, (m = x ∨ m ∉ ox) ∧ (m = y ∨ m ∉ oy)) :
    Forest (fun m => (S.kids m).map (exchange x y)) (ns.map (exchange x y))
      (o.flatMap fun m => if m = x then oy else if m = y then ox else if m ∈ ox ∨ m ∈ oy then [] else [m]) := by
  have fx := hx.fixed hxy
  have fy : Forest (fun m => (S.kids m).map (exchange x y)) [y] oy := by
    have := hy.fixed hyx
    have e : exchange x y = exchange y x := by funext c; exact exchange_comm x y c
    rw [e]; exact this
  have hne : x ≠ y := by
    rintro rfl
    exact hxy (hx.roots (by simp))
  obtain ⟨ox', ex, gx⟩ := Forest.single.1 hx
  obtain ⟨oy', ey, gy⟩ := Forest.single.1 hy
  have inner : ∀ (z : Nat) (oz oz' : List Nat), oz = z :: oz' → Forest S.kids (S.kids z) oz' → (z = x ∧ oz = ox ∨ z = y ∧ oz = oy) →
      (oz'.flatMap fun m => if m = x then oy else if m = y then ox else if m ∈ ox ∨ m ∈ oy then [] else [m]) = [] := by
    intro z oz oz' e g hz
    rw [List.flatMap_eq_nil_iff]
    intro m hm
    have hmoz : m ∈ oz := by rw [e]; simp [hm]
    have hmz : m ≠ z := fun e => g.acyclic (e ▸ hm)
    rcases hz with ⟨rfl, rfl⟩ | ⟨rfl, rfl⟩
    · rw [if_neg hmz, if_neg (fun e : m = y => hxy (e ▸ hmoz)), if_pos (Or.inl hmoz)]
    · rw [if_neg (fun e : m = x => hyx (e ▸ hmoz)), if_neg hmz, if_pos (Or.inr hmoz)]
  induction h with
  | nil => exact .nil
  | @cons m ns o1 o2 h1 h2 ih1 ih2 =>
    have f2 := ih2 (fun q hq => hsub q (by simp [hq])) (fun q hq => hns q (by simp [hq]))
    rw [List.map_cons, List.flatMap_cons, List.flatMap_append]
    by_cases hmx : m = x
    · subst hmx
      rw [if_pos rfl, inner m ox o1 (by rw [ex, gx.det h1]) h1 (Or.inl ⟨rfl, rfl⟩), List.nil_append]
      have : exchange m y m = y := by simp [exchange]
      rw [this]
      exact fy.append f2
    · by_cases hmy : m = y
      · subst hmy
        rw [if_neg hmx, if_pos rfl, inner m oy o1 (by rw [ey, gy.det h1]) h1 (Or.inr ⟨rfl, rfl⟩), List.nil_append]
        have : exchange x m m = x := by simp [exchange, hmx]
        rw [this]
        exact fx.append f2
      · have hm2 := hns m (by simp)
        have hmox : m ∉ ox := hm2.1.resolve_left hmx
        have hmoy : m ∉ oy := hm2.2.resolve_left hmy
        have f1 := ih1 (fun q hq => hsub q (by simp [hq])) (fun c hc => by
          constructor
          · by_cases e : c = x
            · exact Or.inl e
            · exact Or.inr (fun hcx => hmox (inside ht hx hxo (hsub m (by simp)) hc hcx e))
          · by_cases e : c = y
            · exact Or.inl e
            · exact Or.inr (fun hcx => hmoy (inside ht hy hyo (hsub m (by simp)) hc hcx e)))
        rw [if_neg hmx, if_neg hmy, if_neg (by tauto)]
        have : exchange x y m = m := by simp [exchange, hmx, hmy]
        rw [this]
        have := Forest.cons (n := m) f1 f2
        simpa using this

end RuC.Tree
