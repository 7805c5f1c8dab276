import Verif.Vector.Spec

/-! Helper lemmas about the vector model. -/

namespace RuC.Vector
open RuC

/-- `v` holds the sequence `l`: the block has `sizeAlloc` cells, the first `size` of them are
written and are `l`, and the block is smaller than 2^63 bytes. -/
structure Rep (v : Vec) (l : List Int) : Prop where
  ex : ∃ m, v.array = some m ∧ m.length = v.sizeAlloc ∧ m.take v.size = l.map some
  size : v.size = l.length
  le : v.size ≤ v.sizeAlloc
  cap : v.sizeAlloc < 1152921504606846976
  pos : 0 < v.sizeAlloc

theorem rep_create {cap : Nat} (h : cap < 1152921504606846976) : Rep (vectorCreate cap) [] := by
  unfold vectorCreate
  constructor
  · exact ⟨_, rfl, by simp, by simp⟩
  · rfl
  · simp
  · simp only; split <;> omega
  · simp only; split <;> omega

theorem peek_eq {m : List (Option Int)} {n : Nat} {l : List Int} (h : m.take n = l.map some)
    {i : Nat} (hi : i < l.length) : peek m i = some l[i] := by
  have hn : i < n := by
    have := congrArg List.length h
    simp at this; omega
  have : (m.take n)[i]? = some (some l[i]) := by rw [h]; simp [hi]
  rw [List.getElem?_take_of_lt hn] at this
  simp [peek, this]

theorem isSome_of_rep {v l} (h : Rep v l) : v.isCorrect = true := by
  obtain ⟨m, hm, _⟩ := h.ex
  simp [Vec.isCorrect, hm]

theorem rep_get {v l} (h : Rep v l) (i : Nat) :
    vectorGet v i = some (if hi : i < l.length then l[i] else ITEM_MAX) := by
  obtain ⟨m, hm, hlen, ht⟩ := h.ex
  unfold vectorGet
  rw [hm]
  have hs := h.size
  by_cases hi : i < l.length
  · have h2 : ¬ (i ≥ v.size) := by omega
    simp only [h2, if_false, hi, dite_true]
    exact peek_eq ht hi
  · have h2 : i ≥ v.size := by omega
    simp [h2, hi]

/-- The central lemma: `change_size` either refuses, leaving the vector alone, or sets the
length, cutting or zero-extending. -/
theorem rep_changeSize {v l} (h : Rep v l) {n : Nat} (hn : n < 2305843009213693952) (ok : Bool) :
    (∃ v', changeSize v n ok = some (0, v') ∧ Rep v' (resized l n)) ∨
    (MayRefuse l n ok ∧ changeSize v n ok = some (-1, v)) := by
  obtain ⟨m, hm, hlen, ht⟩ := h.ex
  have hs := h.size
  have hle := h.le
  have hcap := h.cap
  have hpos := h.pos
  unfold changeSize
  rw [hm]
  simp only
  have hml : l.map some = m.take l.length := by rw [← ht, hs]
  -- what a block with the same written prefix becomes
  have fin : ∀ (alloc : Nat) (m' : List (Option Int)), m'.length = alloc → n ≤ alloc →
      alloc < 1152921504606846976 → 0 < alloc → v.size ≤ alloc →
      m'.take v.size = l.map some →
      ∃ v', (if n > v.size then
          match zeroFill m' v.size (n - v.size) with
          | none => none
          | some m'' => some ((0 : Int), ({ size := n, sizeAlloc := alloc, array := some m'' } : Vec))
        else some (0, { size := n, sizeAlloc := alloc, array := some m' })) = some (0, v') ∧
        Rep v' (resized l n) := by
    intro alloc m' hm' hna hac hap hva htk
    by_cases hgt : n > v.size
    · have hz : v.size + (n - v.size) ≤ m'.length := by omega
      refine ⟨{ size := n, sizeAlloc := alloc, array := some (m'.take v.size ++ List.replicate (n - v.size) (some 0) ++ m'.drop (v.size + (n - v.size))) }, ?_, ?_⟩
      · simp only [hgt, if_true, zeroFill, hz]
      · constructor
        · refine ⟨_, rfl, ?_, ?_⟩
          · simp; omega
          · simp only
            have h1 : (m'.take v.size ++ List.replicate (n - v.size) (some (0:Int))).length = n := by
              simp; omega
            rw [List.take_append_of_le_length (by omega), List.take_of_length_le (by omega), htk]
            unfold resized
            rw [List.take_of_length_le (by omega), hs]
            simp
        · simp [resized]; omega
        · exact hna
        · exact hac
        · exact hap
    · refine ⟨{ size := n, sizeAlloc := alloc, array := some m' }, ?_, ?_⟩
      · simp only [hgt, if_false]
      · constructor
        · refine ⟨_, rfl, hm', ?_⟩
          simp only
          have h1 : m'.take n = (m'.take v.size).take n := by
            rw [List.take_take]; congr 1; omega
          rw [h1, htk, ← List.map_take]
          unfold resized
          have : n - l.length = 0 := by omega
          simp [this]
        · simp [resized]; omega
        · exact hna
        · exact hac
        · exact hap
  unfold reserve
  by_cases hg : n > v.sizeAlloc
  · simp only [hg, if_true]
    have hd : usz (2 * v.sizeAlloc) = 2 * v.sizeAlloc := usz_of_lt (by omega)
    rw [hd]
    generalize ha : (if n > 2 * v.sizeAlloc then n else 2 * v.sizeAlloc) = alloc
    have hal : alloc < 2305843009213693952 ∧ n ≤ alloc ∧ 0 < alloc ∧ v.sizeAlloc ≤ alloc ∧
        (alloc = n ∨ alloc = 2 * v.sizeAlloc) := by
      split at ha <;> omega
    have hb : usz (alloc * 8) = alloc * 8 := usz_of_lt (by omega)
    rw [hb]
    have hb0 : ¬ (alloc * 8 = 0) := by omega
    simp only [hb0, if_false]
    by_cases hgr : granted ok (alloc * 8) = true
    · left
      simp only [hgr, if_true]
      have h63 : alloc * 8 < 9223372036854775808 := by
        simp [granted] at hgr; exact hgr.2
      have hdiv : alloc * 8 / 8 = alloc := by omega
      apply fin
      · simp [reallocCells, hdiv]; omega
      · omega
      · omega
      · omega
      · omega
      · unfold reallocCells
        rw [hdiv, List.take_append_of_le_length (by simp; omega), List.take_take]
        rw [show min v.size alloc = v.size by omega, ht]
    · right
      have hgr' : granted ok (alloc * 8) = false := by simpa using hgr
      simp only [hgr']
      refine ⟨⟨by omega, ?_⟩, rfl⟩
      simp only [granted, Bool.and_eq_false_iff, decide_eq_false_iff_not] at hgr'
      rcases hgr' with h1 | h1
      · exact Or.inl h1
      · right; omega
  · simp only [hg, if_false]
    left
    apply fin
    · exact hlen
    · omega
    · exact hcap
    · exact hpos
    · exact hle
    · exact ht

theorem rep_poke {v l} (h : Rep v l) {m} (hm : v.array = some m) {i : Nat} (hi : i < l.length)
    (x : Int) : ∃ m', poke m i x = some m' ∧ Rep { v with array := some m' } (l.set i x) := by
  obtain ⟨m0, hm0, hlen, ht⟩ := h.ex
  rw [hm] at hm0; cases hm0
  have hs := h.size
  have hle := h.le
  refine ⟨m.set i (some x), ?_, ?_⟩
  · unfold poke; rw [if_pos (by omega)]
  · constructor
    · refine ⟨_, rfl, by simp [hlen], ?_⟩
      simp only
      rw [List.take_set, ht, List.map_set]
    · simp [hs]
    · exact hle
    · exact h.cap
    · exact h.pos

theorem rep_set {v l} (h : Rep v l) (i : Nat) (x : Int) :
    (i < l.length ∧ ∃ v', vectorSet v i x = some (0, v') ∧ Rep v' (l.set i x)) ∨
    (l.length ≤ i ∧ vectorSet v i x = some (-1, v)) := by
  obtain ⟨m, hm, hlen, ht⟩ := h.ex
  have hs := h.size
  unfold vectorSet
  rw [hm]
  by_cases hi : i < l.length
  · left
    obtain ⟨m', hp, hr⟩ := rep_poke h hm hi x
    refine ⟨hi, _, ?_, hr⟩
    simp only [hp, show ¬ (i ≥ v.size) by omega, if_false]
  · right
    refine ⟨by omega, ?_⟩
    simp only [show i ≥ v.size by omega, if_true]

theorem rep_remove {v l} (h : Rep v l) :
    (l = [] ∧ vectorRemove v = some (ITEM_MAX, v)) ∨
    (∃ l' x, l = l' ++ [x] ∧ ∃ v', vectorRemove v = some (x, v') ∧ Rep v' l') := by
  obtain ⟨m, hm, hlen, ht⟩ := h.ex
  have hs := h.size
  have hle := h.le
  unfold vectorRemove
  rw [hm]
  rcases List.eq_nil_or_concat l with hl | ⟨l', x, hl⟩
  · left
    refine ⟨hl, ?_⟩
    simp only [hs, hl, List.length_nil, if_true]
  · right
    refine ⟨l', x, by simpa using hl, { v with size := v.size - 1 }, ?_, ?_⟩
    · have h1 : l.length = l'.length + 1 := by simp [hl]
      have hp : peek m (v.size - 1) = some x := by
        rw [peek_eq ht (i := v.size - 1) (by omega)]
        subst hl
        simp [hs]
      simp only [hp, show ¬ v.size = 0 by omega, if_false, hm]
    · have h1 : l.length = l'.length + 1 := by simp [hl]
      constructor
      · refine ⟨m, hm, hlen, ?_⟩
        simp only
        have h2 : m.take (v.size - 1) = (m.take v.size).take (v.size - 1) := by
          rw [List.take_take]; congr 1; omega
        rw [h2, ht, ← List.map_take, hl, show v.size - 1 = l'.length by omega]
        simp
      · simp only; omega
      · simp only; omega
      · exact h.cap
      · exact h.pos

theorem rep_lt {v l} (h : Rep v l) : l.length < 1152921504606846976 := by
  have := h.size; have := h.le; have := h.cap; omega

theorem resized_ge {l : List Int} {n : Nat} :
    resized l (l.length + n) = l ++ List.replicate n 0 := by
  simp only [resized, Nat.add_sub_cancel_left]
  rw [List.take_of_length_le (by omega)]

theorem rep_add {v l} (h : Rep v l) (x : Int) (ok : Bool) :
    (∃ v', vectorAdd v x ok = some (l.length, v') ∧ Rep v' (l ++ [x])) ∨
    (MayRefuse l (l.length + 1) ok ∧ vectorAdd v x ok = some (SIZE_MAX, v)) := by
  have hlt := rep_lt h
  have hs := h.size
  have hu : usz (v.size + 1) = l.length + 1 := by rw [hs, usz_of_lt (by omega)]
  unfold vectorAdd
  simp only [isSome_of_rep h, if_true, hu]
  rcases rep_changeSize h (n := l.length + 1) (by omega) ok with ⟨v', hc, hr⟩ | ⟨hm, hc⟩
  · left
    rw [resized_ge] at hr
    obtain ⟨m, hm, hlen, ht⟩ := hr.ex
    have hs' := hr.size
    simp at hs'
    obtain ⟨m', hp, hr'⟩ := rep_poke hr hm (i := l.length) (by simp) x
    refine ⟨{ v' with array := some m' }, ?_, ?_⟩
    · have hu2 : usub v'.size 1 = l.length := by
        rw [usub_of_le (by omega) (by omega)]; omega
      rewrite [hc]
      dsimp only
      rewrite [if_neg (by simp), hm, hu2]
      dsimp only
      rewrite [hp]
      rfl
    · simpa using hr'
  · right
    refine ⟨hm, ?_⟩
    simp [hc]

theorem rep_increase {v l} (h : Rep v l) {n : Nat} (hn : n ≤ 1152921504606846976) (ok : Bool) :
    (∃ v', vectorIncrease v n ok = some (0, v') ∧ Rep v' (l ++ List.replicate n 0)) ∨
    (MayRefuse l (l.length + n) ok ∧ vectorIncrease v n ok = some (-1, v)) := by
  have hlt := rep_lt h
  have hs := h.size
  have hu : usz (v.size + n) = l.length + n := by rw [hs, usz_of_lt (by omega)]
  unfold vectorIncrease
  simp only [isSome_of_rep h, if_true, hu]
  have := rep_changeSize h (n := l.length + n) (by omega) ok
  rw [resized_ge] at this
  exact this

theorem rep_resize {v l} (h : Rep v l) {n : Nat} (hn : n < 2305843009213693952) (ok : Bool) :
    (∃ v', vectorResize v n ok = some (0, v') ∧ Rep v' (resized l n)) ∨
    (MayRefuse l n ok ∧ vectorResize v n ok = some (-1, v)) := by
  unfold vectorResize
  simp only [isSome_of_rep h, if_true]
  exact rep_changeSize h hn ok

theorem rep_size {v l} (h : Rep v l) : vectorSize v = l.length := by
  simp [vectorSize, isSome_of_rep h, h.size]

theorem rep_step {v l} (h : Rep v l) {op : Op} (hs : op.Small) :
    ∃ r v' l', step v op = some (r, v') ∧ SeqStep l op r l' ∧ Rep v' l' := by
  cases op with
  | add x ok =>
    rcases rep_add h x ok with ⟨v', hc, hr⟩ | ⟨hm, hc⟩
    · exact ⟨_, _, _, by simp [step, hc], .add .., hr⟩
    · exact ⟨_, _, _, by simp [step, hc], .addRefused _ _ _ hm, h⟩
  | set i x =>
    rcases rep_set h i x with ⟨hi, v', hc, hr⟩ | ⟨hi, hc⟩
    · exact ⟨_, _, _, by simp [step, hc], .set _ _ _ hi, hr⟩
    · exact ⟨_, _, _, by simp [step, hc], .setOut _ _ _ hi, h⟩
  | get i =>
    have hg := rep_get h i
    by_cases hi : i < l.length
    · simp only [hi, dite_true] at hg
      exact ⟨_, _, _, by simp [step, hg], .get _ _ hi, h⟩
    · simp only [hi, dite_false] at hg
      exact ⟨_, _, _, by simp [step, hg], .getOut _ _ (by omega), h⟩
  | remove =>
    rcases rep_remove h with ⟨hl, hc⟩ | ⟨l', x, hl, v', hc, hr⟩
    · subst hl
      exact ⟨_, _, _, by simp [step, hc], .removeEmpty, h⟩
    · subst hl
      exact ⟨_, _, _, by simp [step, hc], .remove .., hr⟩
  | increase n ok =>
    rcases rep_increase h hs ok with ⟨v', hc, hr⟩ | ⟨hm, hc⟩
    · exact ⟨_, _, _, by simp [step, hc], .increase .., hr⟩
    · exact ⟨_, _, _, by simp [step, hc], .increaseRefused _ _ _ hm, h⟩
  | resize n ok =>
    rcases rep_resize h hs ok with ⟨v', hc, hr⟩ | ⟨hm, hc⟩
    · exact ⟨_, _, _, by simp [step, hc], .resize .., hr⟩
    · exact ⟨_, _, _, by simp [step, hc], .resizeRefused _ _ _ hm, h⟩
  | size =>
    exact ⟨_, _, _, by simp [step, rep_size h], .size _, h⟩

theorem rep_run {v l} (h : Rep v l) {ops : List Op} (hs : ∀ op ∈ ops, op.Small) :
    ∃ rs v' l', run v ops = some (rs, v') ∧ SeqRun l ops rs l' ∧ Rep v' l' := by
  induction ops generalizing v l with
  | nil => exact ⟨_, _, _, rfl, .nil _, h⟩
  | cons op ops ih =>
    obtain ⟨r, v', l', h1, h2, h3⟩ := rep_step h (hs op (by simp))
    obtain ⟨rs, v'', l'', h4, h5, h6⟩ := ih h3 (fun o ho => hs o (by simp [ho]))
    exact ⟨r :: rs, v'', l'', by simp [run, h1, h4], .cons h2 h5, h6⟩

theorem lifo_step {v s} (h : Rep v s.reverse) (op : SOp) :
    ∃ r v' s', sstep v op = some (r, v') ∧ LifoStep s op r s' ∧ Rep v' s'.reverse := by
  have hlt := rep_lt h
  cases op with
  | push x ok =>
    rcases rep_add h x ok with ⟨v', hc, hr⟩ | ⟨hm, hc⟩
    · refine ⟨.code 0, v', x :: s, ?_, .push .., by simpa using hr⟩
      have : s.reverse.length ≠ SIZE_MAX := by unfold SIZE_MAX; omega
      simp only [sstep, stackPush, hc, if_pos this, Option.map]
    · refine ⟨_, _, _, by simp [sstep, stackPush, hc], .pushRefused _ _ _ ?_, h⟩
      have h2 := hm.2
      simp at h2
      rcases h2 with h2 | h2
      · exact Or.inl h2
      · right; omega
  | pop =>
    rcases rep_remove h with ⟨hl, hc⟩ | ⟨l', x, hl, v', hc, hr⟩
    · have : s = [] := by simpa using hl
      subst this
      exact ⟨_, _, _, by simp [sstep, stackPop, hc], .popEmpty, h⟩
    · have : s = x :: l'.reverse := by
        have := congrArg List.reverse hl; simpa using this
      subst this
      exact ⟨_, v', _, by simp [sstep, stackPop, hc], .pop .., by simpa using hr⟩
  | peek =>
    have hz := rep_size h
    cases s with
    | nil =>
      have hg := rep_get h (usub (vectorSize v) 1)
      simp at hg
      exact ⟨_, _, _, by simp [sstep, stackPeek, hg], .peekEmpty, h⟩
    | cons x s =>
      have hu : usub (vectorSize v) 1 = s.length := by
        simp at hz hlt
        rw [hz, usub_of_le (by omega) (by omega)]; omega
      have hg := rep_get h s.length
      simp at hg
      exact ⟨_, _, _, by simp [sstep, stackPeek, hu, hg], .peek .., h⟩
  | reset =>
    rcases rep_resize h (n := 0) (by omega) true with ⟨v', hc, hr⟩ | ⟨hm, hc⟩
    · refine ⟨_, v', [], by simp [sstep, stackReset, hc], .reset _, ?_⟩
      simpa [resized] using hr
    · have := hm.1; omega
  | size =>
    have := rep_size h
    simp at this
    exact ⟨_, _, _, by simp [sstep, stackSize, this], .size _, h⟩

theorem lifo_run {v s} (h : Rep v s.reverse) (ops : List SOp) :
    ∃ rs v' s', srun v ops = some (rs, v') ∧ LifoRun s ops rs s' ∧ Rep v' s'.reverse := by
  induction ops generalizing v s with
  | nil => exact ⟨_, _, _, rfl, .nil _, h⟩
  | cons op ops ih =>
    obtain ⟨r, v', l', h1, h2, h3⟩ := lifo_step h op
    obtain ⟨rs, v'', l'', h4, h5, h6⟩ := ih h3
    exact ⟨r :: rs, v'', l'', by simp [srun, h1, h4], .cons h2 h5, h6⟩

end RuC.Vector
