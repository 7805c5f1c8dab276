import Verif.Tree.Lemmas

/-! The writing calls keep the representation. -/

namespace RuC.Tree
open RuC Hash

/-- The cells of a node that are not links. -/
def Data (k n c : Nat) : Prop := (n ≠ 0 ∧ c + 1 = n) ∨ c = n ∨ (n + 2 ≤ c ∧ c < n + 3 + k)

theorem Data.own {k n c : Nat} (h : Data k n c) : Own k n c := by
  unfold Data at h; unfold Own; omega

theorem NodeOk.frame {v v' : List Int} {S S' : T} {n : Nat} (h : NodeOk v S n)
    (hlen : n + 3 + (S.args n).length ≤ v'.length)
    (hargs : S'.args n = S.args n) (htype : S'.type n = S.type n)
    (hdata : ∀ c, Data (S.args n).length n c → c ≠ n → v'[c]? = v[c]?)
    (hamount : v'[n]? = some ((S'.kids n).length : Int))
    (hchain : S'.kids n ≠ [] → Chain v' n (n + 1) (S'.kids n)) : NodeOk v' S' n := by
  refine ⟨h.pos, by rw [hargs]; exact hlen, hamount, ?_, ?_, ?_, hchain⟩
  · rw [hargs, hdata _ (by unfold Data; omega) (by omega)]; exact h.argc
  · intro i x hx
    rw [hargs] at hx
    have hi : i < (S.args n).length := by
      by_contra hc
      rw [List.getElem?_eq_none (by omega)] at hx
      cases hx
    rw [hdata _ (by unfold Data; omega) (by omega)]
    exact h.args i x hx
  · intro h0
    rw [htype, hdata _ (by unfold Data; have := h.pos; omega) (by omega)]
    exact h.type h0

theorem getChild_of_seg {v : List Int} {p k : Nat} {a b : List Nat} {c : Nat}
    (hp : p < 4611686018427387904) (hk : v[p]? = some (k : Int)) (hk2 : k < 4611686018427387904)
    (hs : Seg v (p + 1) (a ++ c :: b))
    (hb : ∀ x ∈ a ++ c :: b, 5 ≤ x ∧ x < 4611686018427387904) (ha : a.length < k) :
    nodeGetChild v p a.length = some c := by
  have hamt : nodeGetAmount v p = k := by
    rw [nodeGetAmount, if_pos (isCorrect_lt hp), vget_some hk, toSize_natCast (by omega)]
  rw [nodeGetChild, if_neg (by rw [hamt, isCorrect_lt hp]; simp; omega), refChildren, usz_of_lt (by omega)]
  have hne : ∃ g : Nat, vget v (p + 1) = (g : Int) ∧ g < 4611686018427387904 := by
    cases a with
    | nil => exact ⟨c, vget_some hs.1, (hb c (by simp)).2⟩
    | cons g a => exact ⟨g, vget_some hs.1, (hb g (by simp)).2⟩
  obtain ⟨g, hg, hg2⟩ := hne
  rw [hg, toSize_natCast (by omega), childLoop_spec hs hb hg hg2]

theorem counts_add {o out : List Nat} {p n : Nat} (h : ∀ z, o.count z = out.count z + out.count p * [n].count z)
    (hd : out.Nodup) (hp : p ∈ out) (hn : n ∉ out) : o.Nodup ∧ ∀ m, m ∈ o ↔ m ∈ out ∨ m = n := by
  have hp1 : out.count p = 1 := List.count_eq_one_of_mem hd hp
  have h' : ∀ z, o.count z = (n :: out).count z := by
    intro z
    rw [h z, hp1, count_cons', count_cons', List.count_nil]
    omega
  have hperm : o.Perm (n :: out) := List.perm_iff_count.2 h'
  refine ⟨hperm.nodup_iff.2 (List.nodup_cons.2 ⟨hn, hd⟩), fun m => ?_⟩
  rw [hperm.mem_iff, List.mem_cons, or_comm]

theorem toNegative_eq {n : Nat} (h : n < 4611686018427387904) : toNegative n = -(n : Int) := by
  rw [toNegative, toItem_of_lt (by omega), wrapI64_of_isItem (by unfold IsItem ITEM_MIN ITEM_MAX; omega)]

section
variable {v : List Int} {S : T} {out : List Nat} (R : Rep v S out)
include R

theorem Rep.data_ne {n m c : Nat} (hn : n ∈ out) (hm : m ∈ out) (hne : n ≠ m) (h : Data (S.args n).length n c)
    (h' : Own (S.args m).length m c) : False := hne (R.sep n hn m hm c h.own h')

theorem Rep.data_link {n p c : Nat} (hn : n ∈ out) (hp : p ∈ out) (h : Data (S.args n).length n c)
    (h' : c ∈ cells (p + 1) (S.kids p)) : False := by
  rcases R.cell_own hp h' with rfl | ⟨d, hd, rfl⟩
  · have := R.sep n hn p hp _ h.own own_children
    subst this
    unfold Data at h
    omega
  · have hd2 := R.kid hp hd
    have := R.sep n hn d hd2.1 _ h.own own_next
    subst this
    unfold Data at h
    omega

/-- Writing an argument. -/
theorem Rep.setArg {n i : Nat} {x : Int} (hn : n ∈ out) (hi : i < (S.args n).length) :
    Rep (v.set (n + 3 + i) x) { S with args := upd S.args n ((S.args n).set i x) } out := by
  have hfit := (R.ok n hn).fits
  have hdat : Data (S.args n).length n (n + 3 + i) := by unfold Data; omega
  have hal : ∀ m, (upd S.args n ((S.args n).set i x) m).length = (S.args m).length := by
    intro m
    unfold upd
    split
    · rename_i e; subst e; rw [List.length_set]
    · rfl
  refine ⟨R.tree, ?_, ?_, ?_, by rw [List.length_set]; exact R.bound⟩
  · intro m hm
    have ok := R.ok m hm
    have hch : S.kids m ≠ [] → Chain (v.set (n + 3 + i) x) m (m + 1) (S.kids m) := fun hk =>
      chain_same (ok.chain hk) (fun c hc => List.getElem?_set_ne (fun e => R.data_link hn hm (e ▸ hdat) hc))
    by_cases hmn : m = n
    · subst hmn
      refine ⟨ok.pos, ?_, ?_, ?_, ?_, ?_, hch⟩
      · dsimp only; rw [hal, List.length_set]; exact hfit
      · rw [List.getElem?_set_ne (by omega)]; exact ok.amount
      · dsimp only; rw [List.getElem?_set_ne (by omega), hal]; exact ok.argc
      · intro j y hj
        simp only [upd, if_true] at hj
        by_cases hij : i = j
        · subst hij
          rw [List.getElem?_set_self hi] at hj
          rw [List.getElem?_set_self (by omega)]; exact hj
        · rw [List.getElem?_set_ne hij] at hj
          rw [List.getElem?_set_ne (by omega)]; exact ok.args j y hj
      · intro h0
        rw [List.getElem?_set_ne (by omega)]; exact ok.type h0
    · refine ok.frame (by rw [List.length_set]; exact ok.fits) (by simp [upd, hmn]) rfl ?_ ?_ hch
      · intro c hc _
        exact List.getElem?_set_ne (fun e => R.data_ne hn hm (Ne.symm hmn) (e ▸ hdat) hc.own)
      · rw [List.getElem?_set_ne (fun e => R.data_ne hn hm (Ne.symm hmn) (e ▸ hdat) (by unfold Own; omega))]
        exact ok.amount
  · intro a ha b hb c h1 h2
    rw [hal] at h1 h2
    exact R.sep a ha b hb c h1 h2
  · intro hl
    dsimp only
    rw [hal, List.length_set]
    exact R.last hl

/-- Writing a type. -/
theorem Rep.setType {n : Nat} {x : Int} (hn : n ∈ out) (h0 : n ≠ 0) :
    Rep (v.set (n - 1) x) { S with type := upd S.type n x } out := by
  have hfit := (R.ok n hn).fits
  have hdat : Data (S.args n).length n (n - 1) := by unfold Data; omega
  refine ⟨R.tree, ?_, R.sep, by rw [List.length_set]; exact R.last, by rw [List.length_set]; exact R.bound⟩
  intro m hm
  have ok := R.ok m hm
  have hch : S.kids m ≠ [] → Chain (v.set (n - 1) x) m (m + 1) (S.kids m) := fun hk =>
    chain_same (ok.chain hk) (fun c hc => List.getElem?_set_ne (fun e => R.data_link hn hm (e ▸ hdat) hc))
  by_cases hmn : m = n
  · subst hmn
    refine ⟨ok.pos, ?_, ?_, ?_, ?_, ?_, hch⟩
    · rw [List.length_set]; exact hfit
    · rw [List.getElem?_set_ne (by omega)]; exact ok.amount
    · rw [List.getElem?_set_ne (by omega)]; exact ok.argc
    · intro j y hj
      rw [List.getElem?_set_ne (by omega)]; exact ok.args j y hj
    · intro h0
      rw [List.getElem?_set_self (by omega)]
      simp [upd]
  · refine ok.frame (by rw [List.length_set]; exact ok.fits) rfl (by simp [upd, hmn]) ?_ ?_ hch
    · intro c hc _
      exact List.getElem?_set_ne (fun e => R.data_ne hn hm (Ne.symm hmn) (e ▸ hdat) hc.own)
    · rw [List.getElem?_set_ne (fun e => R.data_ne hn hm (Ne.symm hmn) (e ▸ hdat) (by unfold Own; omega))]
      exact ok.amount

/-- Adding an argument to the last node. -/
theorem Rep.addArg {n : Nat} {x : Int} (hn : n ∈ out) (hlast : n = S.last) (hb : v.length + 1 < 4611686018427387904) :
    Rep ((v ++ [x]).set (n + 2) ((S.args n).length + 1 : Nat)) { S with args := upd S.args n (S.args n ++ [x]) } out := by
  have hfit := (R.ok n hn).fits
  have hl : n + 3 + (S.args n).length = v.length := by
    have := R.last (hlast ▸ hn)
    rwa [← hlast] at this
  have hdat : Data (S.args n).length n (n + 2) := by unfold Data; omega
  have hget : ∀ c, c < v.length → c ≠ n + 2 →
      ((v ++ [x]).set (n + 2) ((S.args n).length + 1 : Nat))[c]? = v[c]? := by
    intro c hc hne
    rw [List.getElem?_set_ne (Ne.symm hne), List.getElem?_append_left hc]
  refine ⟨R.tree, ?_, ?_, ?_, by simpa using hb⟩
  · intro m hm
    have ok := R.ok m hm
    have hch : S.kids m ≠ [] → Chain ((v ++ [x]).set (n + 2) ((S.args n).length + 1 : Nat)) m (m + 1) (S.kids m) := by
      intro hk
      refine chain_same (ok.chain hk) (fun c hc => hget c ?_ (fun e => R.data_link hn hm (e ▸ hdat) hc))
      rcases chain_cell (ok.chain hk) hc with ⟨_, _, _, _, _, h⟩ | ⟨_, h⟩ <;> exact lt_of_some h
    by_cases hmn : m = n
    · subst hmn
      refine ⟨ok.pos, ?_, ?_, ?_, ?_, ?_, hch⟩
      · simp [upd]; omega
      · rw [hget _ (by omega) (by omega)]; exact ok.amount
      · rw [List.getElem?_set_self (by simp; omega)]
        simp [upd]
      · intro j y hj
        simp only [upd, if_true] at hj
        by_cases hij : j < (S.args m).length
        · rw [List.getElem?_append_left hij] at hj
          rw [hget _ (by omega) (by omega)]; exact ok.args j y hj
        · rw [List.getElem?_append_right (by omega)] at hj
          by_cases hj0 : j = (S.args m).length
          · subst hj0
            rw [Nat.sub_self] at hj
            rw [List.getElem?_set_ne (by omega), List.getElem?_append_right (by omega),
              show m + 3 + (S.args m).length - v.length = 0 by omega]
            exact hj
          · rw [List.getElem?_eq_none (by simp; omega)] at hj
            cases hj
      · intro h0
        rw [hget _ (by omega) (by omega)]; exact ok.type h0
    · have hown : ∀ c, Own (S.args m).length m c → c < v.length := by
        intro c hc
        have := ok.fits
        unfold Own at hc
        omega
      refine ok.frame (by have := ok.fits; simp; omega) (by simp [upd, hmn]) rfl ?_ ?_ hch
      · intro c hc _
        exact hget c (hown c hc.own) (fun e => R.data_ne hn hm (Ne.symm hmn) (e ▸ hdat) hc.own)
      · rw [hget m (hown m (by unfold Own; omega))
          (fun e => R.data_ne hn hm (Ne.symm hmn) hdat (by rw [← e]; unfold Own; omega))]
        exact ok.amount
  · have aux : ∀ a ∈ out, a ≠ n → ∀ c, Own (S.args a).length a c → Own (S.args n ++ [x]).length n c → False := by
      intro a ha hne c h1 h2
      have hfa := (R.ok a ha).fits
      have : Own (S.args n).length n c := by
        simp only [Own, List.length_append, List.length_singleton] at h1 h2 ⊢
        omega
      exact hne (R.sep a ha n hn c h1 this)
    intro a ha b hb' c h1 h2
    by_cases ha' : a = n
    · by_cases hb'' : b = n
      · omega
      · subst ha'
        simp only [upd, if_true, if_neg hb''] at h1 h2
        exact absurd h1 (fun h1 => aux b hb' hb'' c h2 h1)
    · by_cases hb'' : b = n
      · subst hb''
        simp only [upd, if_true, if_neg ha'] at h1 h2
        exact absurd h2 (fun h2 => aux a ha ha' c h1 h2)
      · simp only [upd, if_neg ha', if_neg hb''] at h1 h2
        exact R.sep a ha b hb' c h1 h2
  · intro _
    dsimp only
    rw [← hlast]
    simp [upd]
    omega

theorem Rep.fresh : v.length + 2 ∉ out := by
  intro h
  have := R.lt h
  omega

theorem Rep.cell_lt {m c : Nat} (hm : m ∈ out) (hk : S.kids m ≠ []) (hc : c ∈ cells (m + 1) (S.kids m)) : c < v.length := by
  rcases chain_cell ((R.ok m hm).chain hk) hc with ⟨_, _, _, _, _, h⟩ | ⟨_, h⟩ <;> exact lt_of_some h

theorem Rep.own_lt {m c : Nat} (hm : m ∈ out) (hc : Own (S.args m).length m c) : c < v.length := by
  have := (R.ok m hm).fits
  unfold Own at hc
  omega

/-- The cells a new child changes. -/
theorem Rep.addChild {p : Nat} {t : Int} {v' : List Int} (hp : p ∈ out) (hb : v.length + 5 < 4611686018427387904)
    (hlen : v'.length = v.length + 5)
    (hold : ∀ c, c < v.length → c ≠ p → c ≠ cellAfter (p + 1) (S.kids p) → v'[c]? = v[c]?)
    (hamount : v'[p]? = some (((S.kids p).length + 1 : Nat) : Int))
    (href : v'[cellAfter (p + 1) (S.kids p)]? = some ((v.length + 2 : Nat) : Int))
    (hnext : v'[v.length]? = some (-(p : Int))) (htype : v'[v.length + 1]? = some t)
    (hna : v'[v.length + 2]? = some 0) (hnargc : v'[v.length + 4]? = some 0) :
    ∃ o, Rep v' { kids := upd (upd S.kids p (S.kids p ++ [v.length + 2])) (v.length + 2) []
                  type := upd S.type (v.length + 2) t
                  args := upd S.args (v.length + 2) []
                  last := v.length + 2 } o := by
  have hfr := R.fresh
  have hpn : v.length + 2 ≠ p := fun e => hfr (e ▸ hp)
  obtain ⟨o, hf, hcnt⟩ := R.tree.1.addChild (p := p) hfr hpn
  obtain ⟨hd, hmem⟩ := counts_add hcnt R.tree.2 hp hfr
  have hdatp : Data (S.args p).length p p := by unfold Data; omega
  have hrefmem : cellAfter (p + 1) (S.kids p) ∈ cells (p + 1) (S.kids p) := by
    have := @cellAfter_mem (p + 1) (S.kids p) []
    rwa [List.append_nil] at this
  refine ⟨o, ⟨hf, hd⟩, ?_, ?_, ?_, by rw [hlen]; exact hb⟩
  · intro m hm
    rcases (hmem m).1 hm with hm | rfl
    · have ok := R.ok m hm
      have hmn : m ≠ v.length + 2 := fun e => hfr (e ▸ hm)
      have hfit := ok.fits
      have hdata : ∀ c, Data (S.args m).length m c → c ≠ m → v'[c]? = v[c]? := by
        intro c hc hcm
        refine hold c (R.own_lt hm hc.own) ?_ (fun e => R.data_link hm hp (e ▸ hc) hrefmem)
        rintro rfl
        by_cases hmp : m = c
        · exact hcm hmp.symm
        · exact R.data_ne hm hp hmp hc (by unfold Own; omega)
      by_cases hmp : m = p
      · subst hmp
        have hk : (upd (upd S.kids m (S.kids m ++ [v.length + 2])) (v.length + 2) [] m) = S.kids m ++ [v.length + 2] := by
          simp [upd, hmn]
        refine ok.frame (by rw [hlen]; omega) (by simp [upd, hmn]) (by simp [upd, hmn]) hdata ?_ ?_
        · dsimp only
          rw [hk, hamount, List.length_append, List.length_singleton]
        · intro _
          dsimp only
          rw [hk, chain_append]
          refine ⟨?_, href, ?_⟩
          · by_cases hk0 : S.kids m = []
            · rw [hk0]; trivial
            · have hch := ok.chain hk0
              have hch2 := hch
              rw [← List.append_nil (S.kids m), chain_append] at hch2
              refine seg_same hch2.1 (fun a c b e => ?_)
              have hcm : cellAfter (m + 1) a ∈ cells (m + 1) (S.kids m) := by rw [e]; exact cellAfter_mem
              refine hold _ (R.cell_lt hm hk0 hcm) (fun e2 => R.data_link hm hm hdatp (by rw [e2] at hcm; exact hcm)) ?_
              intro e2
              have h1 := R.ref_val hm e
              have h2 := hch2.2
              simp only [Chain] at h2
              rw [← e2, h1] at h2
              have := (R.kid hm (by rw [e]; simp : c ∈ S.kids m)).2
              simp only [Option.some.injEq] at h2
              omega
          · exact hnext
      · have hk : (upd (upd S.kids p (S.kids p ++ [v.length + 2])) (v.length + 2) [] m) = S.kids m := by
          simp [upd, hmn, hmp]
        refine ok.frame (by rw [hlen]; omega) (by simp [upd, hmn]) (by simp [upd, hmn]) hdata ?_ ?_
        · dsimp only
          rw [hk, hold m (by omega) hmp (fun e => R.data_link hm hp (c := m) (by unfold Data; omega) (by rw [e]; exact hrefmem))]
          exact ok.amount
        · intro hk0
          dsimp only at hk0 ⊢
          rw [hk] at hk0 ⊢
          refine chain_same (ok.chain hk0) (fun c hc => hold c (R.cell_lt hm hk0 hc) ?_ ?_)
          · exact fun e => R.data_link hp hm (e ▸ hdatp) hc
          · exact fun e => hmp (R.cells_disjoint hm hp hc (e ▸ hrefmem))
    · refine ⟨Or.inr (by omega), ?_, ?_, ?_, ?_, ?_, ?_⟩
      · simp [upd, hlen]
      · simpa [upd] using hna
      · simpa [upd] using hnargc
      · intro i x hx
        simp [upd] at hx
      · intro _
        simpa [upd] using htype
      · intro h
        simp [upd] at h
  · have aux : ∀ a ∈ out, ∀ c, Own (S.args a).length a c → Own 0 (v.length + 2) c → False := by
      intro a ha c h1 h2
      have := R.own_lt ha h1
      unfold Own at h2
      omega
    intro a ha b hb c h1 h2
    rcases (hmem a).1 ha with ha | rfl <;> rcases (hmem b).1 hb with hb | rfl
    · have ha' : a ≠ v.length + 2 := fun e => hfr (e ▸ ha)
      have hb' : b ≠ v.length + 2 := fun e => hfr (e ▸ hb)
      simp only [upd, if_neg ha', if_neg hb'] at h1 h2
      exact R.sep a ha b hb c h1 h2
    · have ha' : a ≠ v.length + 2 := fun e => hfr (e ▸ ha)
      simp only [upd, if_neg ha', if_true] at h1 h2
      exact absurd h2 (fun h2 => aux a ha c h1 h2)
    · have hb' : b ≠ v.length + 2 := fun e => hfr (e ▸ hb)
      simp only [upd, if_neg hb', if_true] at h1 h2
      exact absurd h1 (fun h1 => aux b hb c h2 h1)
    · rfl
  · intro _
    simp [upd, hlen]

/-- The cell that refers to a node is not its own next cell. -/
theorem Rep.ref_ne_next {p : Nat} (hp : p ∈ out) {a b : List Nat} {x : Nat} (he : S.kids p = a ++ x :: b) :
    cellAfter (p + 1) a ≠ x - 2 := by
  have hx := R.kid hp (by rw [he]; simp : x ∈ S.kids p)
  rcases List.eq_nil_or_concat a with rfl | ⟨a', d, rfl⟩
  · exact fun e => R.next_ne_children hx.1 (by omega) hp e.symm
  · rw [List.concat_eq_append] at he ⊢
    rw [cellAfter_concat]
    intro e
    have hd := R.kid hp (by rw [he]; simp : d ∈ S.kids p)
    have := R.next_inj hd.1 hx.1 e
    subst this
    have hn := R.shape.kids_nodup p hp
    rw [he, List.append_assoc] at hn
    have := (List.nodup_append.1 hn).2.1
    rw [List.singleton_append, List.nodup_cons] at this
    exact this.1 (by simp)

/-- The cells an inserted node changes. -/
theorem Rep.insert {p x argc : Nat} {t : Int} {v' : List Int} {a b : List Nat} (hp : p ∈ out)
    (he : S.kids p = a ++ x :: b) (hb : v.length + 5 + argc < 4611686018427387904)
    (hlen : v'.length = v.length + 5 + argc)
    (hold : ∀ c, c < v.length → c ≠ x - 2 → c ≠ cellAfter (p + 1) a → v'[c]? = v[c]?)
    (href : v'[cellAfter (p + 1) a]? = some ((v.length + 2 : Nat) : Int))
    (hxnext : v'[x - 2]? = some (-((v.length + 2 : Nat) : Int)))
    (hnext : v'[v.length]? = v[x - 2]?) (htype : v'[v.length + 1]? = some t)
    (hna : v'[v.length + 2]? = some 1) (hnc : v'[v.length + 3]? = some (x : Int))
    (hnargc : v'[v.length + 4]? = some (argc : Int))
    (hnargs : ∀ i, i < argc → v'[v.length + 5 + i]? = some 0) :
    ∃ o, Rep v' { kids := upd (fun m => (S.kids m).map fun c => if c = x then v.length + 2 else c) (v.length + 2) [x]
                  type := upd S.type (v.length + 2) t
                  args := upd S.args (v.length + 2) (List.replicate argc 0)
                  last := v.length + 2 } o := by
  have hfr := R.fresh
  have hx := R.kid hp (by rw [he]; simp : x ∈ S.kids p)
  have hxn : v.length + 2 ≠ x := fun e => hfr (e ▸ hx.1)
  obtain ⟨o, hf, hcnt⟩ := R.tree.1.insert (x := x) hfr hxn
  have h0x : (0 : Nat) ≠ x := by omega
  simp only [List.map_cons, List.map_nil, if_neg h0x] at hf
  obtain ⟨hd, hmem⟩ := counts_add hcnt R.tree.2 hx.1 hfr
  have hrefmem : cellAfter (p + 1) a ∈ cells (p + 1) (S.kids p) := by rw [he]; exact cellAfter_mem
  have hrn := R.ref_ne_next hp he
  have hrv := R.ref_val hp he
  have hxo : Own (S.args x).length x (x - 2) := own_next
  refine ⟨o, ⟨hf, hd⟩, ?_, ?_, ?_, by rw [hlen]; exact hb⟩
  · intro m hm
    rcases (hmem m).1 hm with hm | rfl
    · have ok := R.ok m hm
      have hmn : m ≠ v.length + 2 := fun e => hfr (e ▸ hm)
      have hfit := ok.fits
      have hdat : ∀ c, Data (S.args m).length m c → v'[c]? = v[c]? := by
        intro c hc
        refine hold c (R.own_lt hm hc.own) ?_ (fun e => R.data_link hm hp (e ▸ hc) hrefmem)
        rintro rfl
        have := R.sep m hm x hx.1 _ hc.own hxo
        subst this
        unfold Data at hc
        omega
      have hk : (upd (fun m => (S.kids m).map fun c => if c = x then v.length + 2 else c) (v.length + 2) [x] m) =
          (S.kids m).map fun c => if c = x then v.length + 2 else c := by simp [upd, hmn]
      refine ok.frame (by rw [hlen]; omega) (by simp [upd, hmn]) (by simp [upd, hmn]) (fun c hc _ => hdat c hc) ?_ ?_
      · dsimp only
        rw [hk, hdat m (by unfold Data; omega), List.length_map]; exact ok.amount
      · dsimp only
        rw [hk]
        intro hk0
        have hk0' : S.kids m ≠ [] := fun e => hk0 (by rw [e]; rfl)
        have hch := ok.chain hk0'
        have hfm : (if m + 1 = x - 2 then v.length else m + 1) = m + 1 :=
          if_neg (fun e => R.next_ne_children hx.1 (by omega) hm e.symm)
        rw [← hfm]
        refine chain_map hch (fun c => if c = x - 2 then v.length else c) (fun c => if c = x then v.length + 2 else c) ?_ ?_ ?_
        · intro a' c b' e
          have hcm : cellAfter (m + 1) a' ∈ cells (m + 1) (S.kids m) := by rw [e]; exact cellAfter_mem
          have hval := R.ref_val hm e
          by_cases hcx : c = x
          · subst hcx
            obtain ⟨rfl, rfl, rfl⟩ := R.ref_unique hm hp e he
            rw [if_neg hrn, if_pos rfl]
            exact href
          · rw [if_neg hcx]
            by_cases hcell : cellAfter (m + 1) a' = x - 2
            · rw [if_pos hcell, hnext, ← hcell]; exact hval
            · rw [if_neg hcell, hold _ (R.cell_lt hm hk0' hcm) hcell]
              · exact hval
              · intro e2
                rw [e2, hrv] at hval
                simp only [Option.some.injEq] at hval
                omega
        · have hcm : cellAfter (m + 1) (S.kids m) ∈ cells (m + 1) (S.kids m) := by
            have := @cellAfter_mem (m + 1) (S.kids m) []
            rwa [List.append_nil] at this
          have hend : v[cellAfter (m + 1) (S.kids m)]? = some (-(m : Int)) := by
            have h2 := hch
            rw [← List.append_nil (S.kids m), chain_append] at h2
            exact h2.2
          by_cases hcell : cellAfter (m + 1) (S.kids m) = x - 2
          · rw [if_pos hcell, hnext, ← hcell]; exact hend
          · rw [if_neg hcell, hold _ (R.cell_lt hm hk0' hcm) hcell]
            · exact hend
            · intro e2
              rw [e2, hrv] at hend
              simp only [Option.some.injEq] at hend
              omega
        · intro c hc
          by_cases hcx : c = x
          · subst hcx; simp
          · have hc' := R.kid hm hc
            rw [if_neg hcx, if_neg (fun e => hcx (R.next_inj hc'.1 hx.1 e))]
    · refine ⟨Or.inr (by omega), ?_, ?_, ?_, ?_, ?_, ?_⟩
      · simp [upd, hlen]
      · simpa [upd] using hna
      · simpa [upd] using hnargc
      · intro i y hy
        simp only [upd, if_true, List.getElem?_replicate] at hy
        split at hy
        · cases hy
          rw [show v.length + 2 + 3 + i = v.length + 5 + i by omega]
          exact hnargs i (by assumption)
        · cases hy
      · intro _
        simpa [upd] using htype
      · intro _
        simp only [upd, if_true]
        exact ⟨hnc, hxnext⟩
  · have aux : ∀ a ∈ out, ∀ c, Own (S.args a).length a c → Own argc (v.length + 2) c → False := by
      intro a ha c h1 h2
      have := R.own_lt ha h1
      unfold Own at h2
      omega
    intro a ha b hb c h1 h2
    rcases (hmem a).1 ha with ha | rfl <;> rcases (hmem b).1 hb with hb | rfl
    · have ha' : a ≠ v.length + 2 := fun e => hfr (e ▸ ha)
      have hb' : b ≠ v.length + 2 := fun e => hfr (e ▸ hb)
      simp only [upd, if_neg ha', if_neg hb'] at h1 h2
      exact R.sep a ha b hb c h1 h2
    · have ha' : a ≠ v.length + 2 := fun e => hfr (e ▸ ha)
      simp only [upd, if_neg ha', if_true, List.length_replicate] at h1 h2
      exact absurd h2 (fun h2 => aux a ha c h1 h2)
    · have hb' : b ≠ v.length + 2 := fun e => hfr (e ▸ hb)
      simp only [upd, if_neg hb', if_true, List.length_replicate] at h1 h2
      exact absurd h1 (fun h1 => aux b hb c h2 h1)
    · rfl
  · intro _
    simp only [upd, if_true, List.length_replicate, hlen]

/-- The cells an exchange changes. -/
theorem Rep.swap {p q x y : Nat} {v' : List Int} {a b a' b' : List Nat} (hp : p ∈ out) (hq : q ∈ out)
    (hx : S.kids p = a ++ x :: b) (hy : S.kids q = a' ++ y :: b')
    (hxy : ¬ Below S x y) (hyx : ¬ Below S y x) (hlen : v'.length = v.length)
    (hget : ∀ c, v'[c]? = v[exchange (cellAfter (p + 1) a) (cellAfter (q + 1) a') (exchange (x - 2) (y - 2) c)]?) :
    ∃ o, Rep v' { S with kids := fun m => (S.kids m).map (exchange x y) } o := by
  have kx := R.kid hp (by rw [hx]; simp : x ∈ S.kids p)
  have ky := R.kid hq (by rw [hy]; simp : y ∈ S.kids q)
  obtain ⟨ox', fx', -, -⟩ := R.tree.1.sub kx.1
  obtain ⟨oy', fy', -, -⟩ := R.tree.1.sub ky.1
  have fx : Forest S.kids [x] (x :: ox') := Forest.single.2 ⟨_, rfl, fx'⟩
  have fy : Forest S.kids [y] (y :: oy') := Forest.single.2 ⟨_, rfl, fy'⟩
  have hxy' : y ∉ x :: ox' := fun h => hxy ⟨_, fx, h⟩
  have hyx' : x ∉ y :: oy' := fun h => hyx ⟨_, fy, h⟩
  have hne : x ≠ y := by
    rintro rfl
    exact hxy' (by simp)
  obtain ⟨o, hf, hcnt⟩ := R.tree.1.swap fx fy hxy' hyx'
  have h0 : exchange x y 0 = 0 := by
    unfold exchange
    rw [if_neg (by omega), if_neg (by omega)]
  simp only [List.map_cons, List.map_nil, h0] at hf
  have hperm : o.Perm out := by
    rw [List.perm_iff_count]
    intro z
    have := hcnt z
    rw [List.count_eq_one_of_mem R.tree.2 kx.1, List.count_eq_one_of_mem R.tree.2 ky.1] at this
    omega
  have hd : o.Nodup := hperm.nodup_iff.2 R.tree.2
  have hmem : ∀ m, m ∈ o ↔ m ∈ out := fun m => hperm.mem_iff
  have rx := R.ref_val hp hx
  have ry := R.ref_val hq hy
  have hrx : cellAfter (p + 1) a ∈ cells (p + 1) (S.kids p) := by rw [hx]; exact cellAfter_mem
  have hry : cellAfter (q + 1) a' ∈ cells (q + 1) (S.kids q) := by rw [hy]; exact cellAfter_mem
  -- cells that are not links stay
  have hstay : ∀ m ∈ out, ∀ c, Data (S.args m).length m c → v'[c]? = v[c]? := by
    intro m hm c hc
    rw [hget]
    have e1 : exchange (x - 2) (y - 2) c = c := by
      unfold exchange
      rw [if_neg, if_neg]
      · rintro rfl
        have := R.sep m hm y ky.1 _ hc.own own_next
        subst this
        unfold Data at hc; omega
      · rintro rfl
        have := R.sep m hm x kx.1 _ hc.own own_next
        subst this
        unfold Data at hc; omega
    rw [e1]
    have e2 : exchange (cellAfter (p + 1) a) (cellAfter (q + 1) a') c = c := by
      unfold exchange
      rw [if_neg (fun e : c = _ => R.data_link hm hp hc (by rw [e]; exact hrx)),
        if_neg (fun e : c = _ => R.data_link hm hq hc (by rw [e]; exact hry))]
    rw [e2]
  -- links
  have hback : ∀ c, exchange (x - 2) (y - 2) (exchange (x - 2) (y - 2) c) = c := by
    intro c
    unfold exchange
    repeat' split
    all_goals omega
  refine ⟨o, ⟨hf, hd⟩, ?_, ?_, ?_, by rw [hlen]; exact R.bound⟩
  · intro m hm
    rw [hmem] at hm
    have ok := R.ok m hm
    refine ok.frame (by rw [hlen]; exact ok.fits) rfl rfl (fun c hc _ => hstay m hm c hc) ?_ ?_
    · dsimp only
      rw [hstay m hm m (by unfold Data; omega), List.length_map]; exact ok.amount
    · dsimp only
      intro hk0
      have hk0' : S.kids m ≠ [] := fun e => hk0 (by rw [e]; rfl)
      have hch := ok.chain hk0'
      have hfm : exchange (x - 2) (y - 2) (m + 1) = m + 1 := by
        unfold exchange
        rw [if_neg (fun e => R.next_ne_children kx.1 (by omega) hm e.symm),
          if_neg (fun e => R.next_ne_children ky.1 (by omega) hm e.symm)]
      rw [← hfm]
      refine chain_map hch (exchange (x - 2) (y - 2)) (exchange x y) ?_ ?_ ?_
      · intro a1 c b1 e
        rw [hget, hback]
        have hval := R.ref_val hm e
        by_cases hcx : c = x
        · subst hcx
          obtain ⟨rfl, rfl, rfl⟩ := R.ref_unique hm hp e hx
          have : exchange (cellAfter (m + 1) a1) (cellAfter (q + 1) a') (cellAfter (m + 1) a1) = cellAfter (q + 1) a' := by
            simp [exchange]
          rw [this, ry]
          simp [exchange]
        · by_cases hcy : c = y
          · subst hcy
            obtain ⟨rfl, rfl, rfl⟩ := R.ref_unique hm hq e hy
            have : exchange (cellAfter (p + 1) a) (cellAfter (m + 1) a1) (cellAfter (m + 1) a1) = cellAfter (p + 1) a := by
              unfold exchange
              split
              · assumption
              · rw [if_pos rfl]
            rw [this, rx]
            simp [exchange, hcx]
          · have : exchange (cellAfter (p + 1) a) (cellAfter (q + 1) a') (cellAfter (m + 1) a1) = cellAfter (m + 1) a1 := by
              unfold exchange
              rw [if_neg, if_neg]
              · intro e2
                rw [e2, ry] at hval
                simp only [Option.some.injEq] at hval
                omega
              · intro e2
                rw [e2, rx] at hval
                simp only [Option.some.injEq] at hval
                omega
            rw [this, hval]
            simp [exchange, hcx, hcy]
      · rw [hget, hback]
        have hend : v[cellAfter (m + 1) (S.kids m)]? = some (-(m : Int)) := by
          have h2 := hch
          rw [← List.append_nil (S.kids m), chain_append] at h2
          exact h2.2
        have : exchange (cellAfter (p + 1) a) (cellAfter (q + 1) a') (cellAfter (m + 1) (S.kids m)) =
            cellAfter (m + 1) (S.kids m) := by
          unfold exchange
          rw [if_neg, if_neg]
          · intro e2
            rw [e2, ry] at hend
            simp only [Option.some.injEq] at hend
            omega
          · intro e2
            rw [e2, rx] at hend
            simp only [Option.some.injEq] at hend
            omega
        rw [this, hend]
      · intro c hc
        have hc' := R.kid hm hc
        by_cases hcx : c = x
        · subst hcx; simp [exchange]
        · by_cases hcy : c = y
          · subst hcy
            have : ¬ (c - 2 = x - 2) := fun e => hcx (R.next_inj hc'.1 kx.1 e)
            simp [exchange, hcx, this]
          · have h1 : ¬ (c - 2 = x - 2) := fun e => hcx (R.next_inj hc'.1 kx.1 e)
            have h2 : ¬ (c - 2 = y - 2) := fun e => hcy (R.next_inj hc'.1 ky.1 e)
            simp [exchange, hcx, hcy, h1, h2]
  · intro a ha b hb c h1 h2
    rw [hmem] at ha hb
    exact R.sep a ha b hb c h1 h2
  · intro hl
    rw [hmem] at hl
    rw [hlen]
    exact R.last hl

theorem filter_split {p x : Nat} {a b : List Nat} (hp : p ∈ out) (he : S.kids p = a ++ x :: b) :
    (S.kids p).filter (· ≠ x) = a ++ b := by
  have hn := R.shape.kids_nodup p hp
  rw [he] at hn ⊢
  have h1 := List.nodup_append.1 hn
  have ha : x ∉ a := fun h => h1.2.2 x h x (by simp) rfl
  have hb : x ∉ b := (List.nodup_cons.1 h1.2.1).1
  have key : ∀ l : List Nat, x ∉ l → l.filter (· ≠ x) = l := by
    intro l hl
    rw [List.filter_eq_self]
    intro c hc
    simp only [ne_eq, decide_not, Bool.not_eq_eq_eq_not, Bool.not_true, decide_eq_false_iff_not]
    exact fun e => hl (e ▸ hc)
  rw [List.filter_append, List.filter_cons_of_neg (by simp), key a ha, key b hb]

theorem chain_move {v' : List Int} {p cell cell' : Nat} {b : List Nat} (h : Chain v p cell b)
    (h1 : v'[cell']? = v[cell]?) (h2 : ∀ c ∈ b, v'[c - 2]? = v[c - 2]?) : Chain v' p cell' b := by
  cases b with
  | nil => exact h1.trans h
  | cons c b =>
    refine ⟨h1.trans h.1, chain_same h.2 ?_⟩
    intro x hx
    simp only [cells, List.mem_cons, List.mem_map] at hx
    rcases hx with rfl | ⟨d, hd, rfl⟩
    · exact h2 c (by simp)
    · exact h2 d (by simp [hd])

/-- The cells a removal changes, before storage is given back. -/
theorem Rep.remove {p x : Nat} {v' : List Int} {a b : List Nat} (hp : p ∈ out)
    (he : S.kids p = a ++ x :: b) (hlen : v'.length = v.length)
    (hold : ∀ c, c ≠ p → c ≠ cellAfter (p + 1) a → v'[c]? = v[c]?)
    (hamount : v'[p]? = some (((a ++ b).length : Nat) : Int))
    (href : a ++ b ≠ [] → v'[cellAfter (p + 1) a]? = v[x - 2]?) :
    ∃ o, Rep v' { S with kids := fun m => (S.kids m).filter (· ≠ x) } o ∧ (∀ m ∈ o, m ∈ out ∧ m ≠ x) := by
  have hx := R.kid hp (by rw [he]; simp : x ∈ S.kids p)
  obtain ⟨ox', fx', -, -⟩ := R.tree.1.sub hx.1
  have fx : Forest S.kids [x] (x :: ox') := Forest.single.2 ⟨_, rfl, fx'⟩
  obtain ⟨o, hf, hcnt⟩ := R.tree.1.remove fx
  have h0 : ([0] : List Nat).filter (· ≠ x) = [0] := by
    rw [List.filter_cons_of_pos (by simp; omega)]; rfl
  rw [h0] at hf
  have hcx : out.count x = 1 := List.count_eq_one_of_mem R.tree.2 hx.1
  have hle : ∀ z, o.count z ≤ out.count z := fun z => by have := hcnt z; omega
  have hd : o.Nodup := by
    rw [List.nodup_iff_count_le_one]
    intro z
    exact Nat.le_trans (hle z) (List.nodup_iff_count_le_one.1 R.tree.2 z)
  have hmem : ∀ m ∈ o, m ∈ out ∧ m ≠ x := by
    intro m hm
    constructor
    · have h1 := List.count_pos_iff.2 hm
      exact List.count_pos_iff.1 (Nat.lt_of_lt_of_le h1 (hle m))
    · rintro rfl
      have h1 := List.count_pos_iff.2 hm
      have := hcnt m
      rw [hcx, count_cons', cnt_self] at this
      omega
  have hdatp : Data (S.args p).length p p := by unfold Data; omega
  have hrefmem : cellAfter (p + 1) a ∈ cells (p + 1) (S.kids p) := by rw [he]; exact cellAfter_mem
  have rx := R.ref_val hp he
  refine ⟨o, ⟨⟨hf, hd⟩, ?_, ?_, ?_, by rw [hlen]; exact R.bound⟩, hmem⟩
  · intro m hm'
    obtain ⟨hm, hmx⟩ := hmem m hm'
    have ok := R.ok m hm
    have hdat : ∀ c, Data (S.args m).length m c → c ≠ m → v'[c]? = v[c]? := by
      intro c hc hcm
      refine hold c ?_ (fun e => R.data_link hm hp (e ▸ hc) hrefmem)
      rintro rfl
      by_cases hmp : m = c
      · exact hcm hmp.symm
      · exact R.data_ne hm hp hmp hc (by unfold Own; omega)
    by_cases hmp : m = p
    · subst hmp
      have hk := filter_split R hm he
      refine ok.frame (by rw [hlen]; exact ok.fits) rfl rfl hdat ?_ ?_
      · dsimp only
        rw [hk]; exact hamount
      · dsimp only
        rw [hk]
        intro hk0
        have hch := ok.chain (by rw [he]; simp)
        have hch2 := hch
        rw [he, chain_append] at hch2
        obtain ⟨s1, s2, s3⟩ := hch2
        rw [chain_append]
        refine ⟨seg_same s1 ?_, chain_move R s3 (href hk0) ?_⟩
        · intro a1 c b1 e
          have he2 : S.kids m = a1 ++ c :: (b1 ++ x :: b) := by rw [he, e]; simp
          have hcm : cellAfter (m + 1) a1 ∈ cells (m + 1) (S.kids m) := by rw [he2]; exact cellAfter_mem
          refine hold _ (fun e2 => R.data_link hm hm hdatp (by rw [e2] at hcm; exact hcm)) (fun e2 => ?_)
          have h1 := R.ref_val hm he2
          rw [e2, rx] at h1
          simp only [Option.some.injEq] at h1
          have hcx' : c = x := by omega
          have hn := R.shape.kids_nodup m hm
          rw [he2, hcx'] at hn
          have := (List.nodup_cons.1 (List.nodup_append.1 hn).2.1).1
          exact this (by simp)
        · intro c hc
          have hcm : c - 2 ∈ cells (m + 1) (S.kids m) := by
            rw [he]
            simp only [cells, List.mem_cons, List.mem_map]
            exact Or.inr ⟨c, by simp [hc], rfl⟩
          have hck := R.kid hm (by rw [he]; simp [hc] : c ∈ S.kids m)
          refine hold _ (fun e2 => R.data_link hm hm hdatp (by rw [e2] at hcm; exact hcm)) (fun e2 => ?_)
          rcases List.eq_nil_or_concat a with rfl | ⟨a', d, rfl⟩
          · exact R.next_ne_children hck.1 (by omega) hm e2
          · rw [List.concat_eq_append] at he e2
            rw [cellAfter_concat] at e2
            have hdk := R.kid hm (by rw [he]; simp : d ∈ S.kids m)
            have := R.next_inj hck.1 hdk.1 e2
            subst this
            have hn := R.shape.kids_nodup m hm
            rw [he, List.append_assoc] at hn
            have := (List.nodup_cons.1 (List.nodup_append.1 hn).2.1).1
            exact this (by simp [hc])
    · have hxk : x ∉ S.kids m := fun h => hmp (R.shape.parent m hm p hp x h (by rw [he]; simp))
      have hk : (S.kids m).filter (· ≠ x) = S.kids m := by
        rw [List.filter_eq_self]
        intro c hc
        simp only [ne_eq, decide_not, Bool.not_eq_eq_eq_not, Bool.not_true, decide_eq_false_iff_not]
        exact fun e => hxk (e ▸ hc)
      refine ok.frame (by rw [hlen]; exact ok.fits) rfl rfl hdat ?_ ?_
      · dsimp only
        rw [hk, hold m hmp (fun e => R.data_link hm hp (c := m) (by unfold Data; omega) (by rw [e]; exact hrefmem))]
        exact ok.amount
      · dsimp only
        rw [hk]
        intro hk0
        refine chain_same (ok.chain hk0) (fun c hc => hold c ?_ ?_)
        · exact fun e => R.data_link hp hm (e ▸ hdatp) hc
        · exact fun e => hmp (R.cells_disjoint hm hp hc (e ▸ hrefmem))
  · intro a ha b hb c h1 h2
    exact R.sep a (hmem a ha).1 b (hmem b hb).1 c h1 h2
  · intro hl
    rw [hlen]
    exact R.last (hmem _ hl).1

/-- Giving back storage that no node uses. -/
theorem Rep.truncate {t : Nat} (ht : t < v.length) (h : ∀ m ∈ out, m + 3 + (S.args m).length ≤ t) :
    Rep (v.take t) S out := by
  have hget : ∀ c, c < t → (v.take t)[c]? = v[c]? := by
    intro c hc
    rw [List.getElem?_take, if_pos hc]
  have hl : (v.take t).length = t := by rw [List.length_take]; omega
  refine ⟨R.tree, ?_, R.sep, ?_, by have := R.bound; omega⟩
  · intro m hm
    have ok := R.ok m hm
    have hfit := h m hm
    refine ok.frame (by rw [hl]; exact hfit) rfl rfl ?_ ?_ ?_
    · intro c hc _
      have := hc.own
      unfold Own at this
      exact hget c (by omega)
    · rw [hget m (by omega)]; exact ok.amount
    · intro hk0
      refine chain_same (ok.chain hk0) (fun c hc => hget c ?_)
      rcases R.cell_own hm hc with rfl | ⟨d, hd, rfl⟩
      · omega
      · have := h d (R.kid hm hd).1
        omega
  · intro hlast
    have := R.last hlast
    have := h _ hlast
    omega

end

end RuC.Tree
