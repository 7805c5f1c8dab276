import Verif.Vector.Lemmas

/-!
# Properties C01 - C04: vectors and stacks

C01  any history behaves as on a plain sequence;
C02  a refused allocation changes nothing;
C03  accessors never leave the vector (false for the 64-bit accessors at index `SIZE_MAX`);
C04  a stack is last-in-first-out.
-/

namespace RuC.Vector
open RuC

/-- **C01** (and the history part of C02).  Any history of calls on a fresh vector runs without
undefined behaviour and returns what the same history on a plain sequence returns; afterwards the
vector reads back as the resulting sequence.  `Op.Small` excludes only sizes of at least 2^60
cells, for which the byte count of the request wraps (see `vector_increase_wraps`). -/
theorem vector_refines_sequence (cap : Nat) (hcap : cap < 1152921504606846976)
    (ops : List Op) (hs : ∀ op ∈ ops, op.Small) :
    ∃ rs v l, run (vectorCreate cap) ops = some (rs, v) ∧ SeqRun [] ops rs l ∧
      vectorSize v = l.length ∧
      (∀ i (hi : i < l.length), vectorGet v i = some l[i]) ∧
      (∀ i, l.length ≤ i → vectorGet v i = some ITEM_MAX) := by
  obtain ⟨rs, v, l, h1, h2, h3⟩ := rep_run (rep_create hcap) hs
  refine ⟨rs, v, l, h1, h2, rep_size h3, ?_, ?_⟩
  · intro i hi; rw [rep_get h3]; simp [hi]
  · intro i hi; rw [rep_get h3]; simp [show ¬ i < l.length by omega]

example : (∀ op ∈ [Op.add 5 true, .increase 2 true, .set 1 7, .remove, .resize 9 false, .get 1], op.Small) ∧
    run (vectorCreate 1) [.add 5 true, .increase 2 true, .set 1 7, .remove, .resize 9 false, .get 1] =
      some ([.idx 0, .code 0, .code 0, .item 0, .code (-1), .item 7],
        { size := 2, sizeAlloc := 3, array := some [some 5, some 7, some 0] }) := by
  constructor
  · simp [Op.Small]
  · decide +kernel

/-- With a willing allocator and fewer than 2^59 elements the outcome is unique: no call is
refused. -/
theorem sequence_refusals_need_cause {l op r l'} (h : SeqStep l op r l') :
    (∀ x, op = .add x true → l.length < 576460752303423488 → r = .idx l.length ∧ l' = l ++ [x]) ∧
    (∀ n, op = .increase n true → l.length + n ≤ 576460752303423488 →
      r = .code 0 ∧ l' = l ++ List.replicate n 0) ∧
    (∀ n, op = .resize n true → n ≤ 576460752303423488 → r = .code 0 ∧ l' = resized l n) := by
  refine ⟨?_, ?_, ?_⟩ <;> intro n he hl <;> subst he <;> cases h
  all_goals first
    | exact ⟨rfl, rfl⟩
    | (rename_i hm; have := hm.2; simp at this; omega)

/-- A vector state that some history of calls on a fresh vector produces. -/
def Reachable (v : Vec) : Prop :=
  ∃ cap ops rs, cap < 1152921504606846976 ∧ (∀ op ∈ ops, op.Small) ∧
    run (vectorCreate cap) ops = some (rs, v)

theorem Reachable.rep {v} (h : Reachable v) : ∃ l, Rep v l := by
  obtain ⟨cap, ops, rs, hc, hs, hr⟩ := h
  obtain ⟨rs', v', l, h1, _, h3⟩ := rep_run (rep_create hc) hs
  rw [hr] at h1; cases h1
  exact ⟨l, h3⟩

/-- **C02**.  At any point of any history: if a growing call answers its failure code, the whole
vector (contents, size, capacity) is exactly as it was. -/
theorem vector_failure_changes_nothing {v : Vec} (hv : Reachable v) (ok : Bool) (v' : Vec) :
    (∀ x, vectorAdd v x ok = some (SIZE_MAX, v') → v' = v) ∧
    (∀ n, n ≤ 1152921504606846976 → vectorIncrease v n ok = some (-1, v') → v' = v) ∧
    (∀ n, n < 2305843009213693952 → vectorResize v n ok = some (-1, v') → v' = v) := by
  obtain ⟨l, h⟩ := hv.rep
  have hlt := rep_lt h
  refine ⟨?_, ?_, ?_⟩
  · intro x hx
    rcases rep_add h x ok with ⟨w, hc, _⟩ | ⟨_, hc⟩
    · rw [hc] at hx
      simp only [Option.some.injEq, Prod.mk.injEq] at hx
      have := hx.1; unfold SIZE_MAX at this; omega
    · rw [hc] at hx; simp at hx; exact hx.symm
  · intro n hn hx
    rcases rep_increase h hn ok with ⟨w, hc, _⟩ | ⟨_, hc⟩
    · rw [hc] at hx; simp at hx
    · rw [hc] at hx; simp at hx; exact hx.symm
  · intro n hn hx
    rcases rep_resize h hn ok with ⟨w, hc, _⟩ | ⟨_, hc⟩
    · rw [hc] at hx; simp at hx
    · rw [hc] at hx; simp at hx; exact hx.symm

/-- **C02**, second half: when the block is full and the allocator refuses, the calls do answer
their failure codes. -/
theorem vector_refusal_is_reported {v : Vec} (hv : Reachable v) (n : Nat)
    (hn : n ≤ 1152921504606846976) (hfull : v.sizeAlloc < v.size + n) (x : Int) :
    vectorIncrease v n false = some (-1, v) ∧ vectorResize v (v.size + n) false = some (-1, v) ∧
    (v.size = v.sizeAlloc → vectorAdd v x false = some (SIZE_MAX, v)) := by
  obtain ⟨l, h⟩ := hv.rep
  have hlt := rep_lt h
  have hs := h.size
  have hcap := h.cap
  have key : ∀ k, v.sizeAlloc < k → k < 2305843009213693952 → changeSize v k false = some (-1, v) := by
    intro k hk hk2
    obtain ⟨m, hm, _, _⟩ := h.ex
    unfold changeSize reserve
    rw [hm]
    have hd : usz (2 * v.sizeAlloc) = 2 * v.sizeAlloc := usz_of_lt (by omega)
    simp only [show k > v.sizeAlloc from hk, if_true, hd]
    generalize ha : (if k > 2 * v.sizeAlloc then k else 2 * v.sizeAlloc) = a
    have : a < 2305843009213693952 ∧ 0 < a := by split at ha <;> omega
    rw [usz_of_lt (by omega)]
    simp [granted, show ¬ (a * 8 = 0) by omega]
  refine ⟨?_, ?_, ?_⟩
  · unfold vectorIncrease
    rw [if_pos (isSome_of_rep h), usz_of_lt (by omega)]
    exact key _ hfull (by omega)
  · unfold vectorResize
    rw [if_pos (isSome_of_rep h)]
    exact key _ hfull (by omega)
  · intro he
    unfold vectorAdd
    rw [if_pos (isSome_of_rep h), usz_of_lt (by omega), key _ (by omega) (by omega)]
    simp

example : Reachable { size := 1, sizeAlloc := 1, array := some [some 5] } :=
  ⟨1, [.add 5 true], [.idx 0], by decide, by simp [Op.Small], by decide +kernel⟩

/-- **C03** for the one-cell accessors: at any point of any history, whatever the index, reading,
writing and removing touch no memory outside the written part of the vector (they do not reach the
undefined outcome), and an index not below the size is answered without touching the vector. -/
theorem vector_access_in_bounds {v : Vec} (hv : Reachable v) (i : Nat) (x : Int) :
    vectorGet v i ≠ none ∧ vectorSet v i x ≠ none ∧ vectorRemove v ≠ none ∧
    (v.size ≤ i → vectorGet v i = some ITEM_MAX ∧ vectorSet v i x = some (-1, v)) := by
  obtain ⟨l, h⟩ := hv.rep
  have hs := h.size
  refine ⟨?_, ?_, ?_, ?_⟩
  · rw [rep_get h]; simp
  · rcases rep_set h i x with ⟨_, v', hc, _⟩ | ⟨_, hc⟩ <;> simp [hc]
  · rcases rep_remove h with ⟨_, hc⟩ | ⟨_, _, _, v', hc, _⟩ <;> simp [hc]
  · intro hi
    refine ⟨?_, ?_⟩
    · rw [rep_get h, dif_neg (by omega)]
    · rcases rep_set h i x with ⟨_, v', hc, _⟩ | ⟨_, hc⟩
      · omega
      · exact hc

/-- **C03** for the 64-bit accessors, `_partial`: they stay inside the vector for every index
except `SIZE_MAX`.  The full statement (every index) is false, see
`vector_get_int64_leaves_vector`. -/
theorem vector_int64_access_in_bounds_partial {v : Vec} (hv : Reachable v) (i : Nat) (x : Int)
    (hi : i < SIZE_MAX) :
    vectorGetInt64 v i = vectorGet v i ∧ vectorGetInt64 v i ≠ none ∧ vectorSetInt64 v i x ≠ none ∧
    (v.size ≤ i → vectorSetInt64 v i x = some (SIZE_MAX, v)) := by
  obtain ⟨l, h⟩ := hv.rep
  have hs := h.size
  obtain ⟨m, hm, _, _⟩ := h.ex
  have hi' : i < 18446744073709551615 := by unfold SIZE_MAX at hi; exact hi
  have hu : usz (i + 1) = i + 1 := usz_of_lt (by omega)
  have he : vectorGetInt64 v i = vectorGet v i := by
    unfold vectorGetInt64 vectorGet
    rw [hm, hu]
    simp only [show (i + 1 > v.size) = (i ≥ v.size) from propext ⟨fun h => by omega, fun h => by omega⟩]
  refine ⟨he, ?_, ?_, ?_⟩
  · rw [he, rep_get h]; simp
  · unfold vectorSetInt64
    rw [hm, hu]
    by_cases hc : i + 1 > v.size
    · simp [hc]
    · obtain ⟨m', hp, _⟩ := rep_poke h hm (i := i) (by omega) x
      simp only [hc, if_false, hp]
      simp
  · intro hge
    unfold vectorSetInt64
    rw [hm, hu]
    simp [show i + 1 > v.size by omega]

/-- **C03** fails for the 64-bit accessors at index `SIZE_MAX`: the guard `index + 1 > size` wraps
to `0 > size` and the access is outside the block, on any vector whatsoever. -/
theorem vector_get_int64_leaves_vector {v : Vec} (hv : Reachable v) (x : Int) :
    vectorGetInt64 v SIZE_MAX = none ∧ vectorSetInt64 v SIZE_MAX x = none := by
  obtain ⟨l, h⟩ := hv.rep
  obtain ⟨m, hm, hl, _⟩ := h.ex
  have hcap := h.cap
  have hu : usz (SIZE_MAX + 1) = 0 := by decide +kernel
  have hb : ¬ SIZE_MAX < m.length := by unfold SIZE_MAX; omega
  constructor
  · unfold vectorGetInt64
    rw [hm, hu]
    have : m[SIZE_MAX]? = none := by simp; omega
    simp [peek, this]
  · unfold vectorSetInt64
    rw [hm, hu]
    simp [poke, hb]

/-- In particular `stack_peek_int64` / `stack_peek_double` on an empty stack read outside the
stack. -/
theorem stack_peek_int64_empty_leaves_stack {v : Vec} (hv : Reachable v) (he : v.size = 0) :
    stackPeekInt64 v = none := by
  obtain ⟨l, h⟩ := hv.rep
  have : usub (vectorSize v) 1 = SIZE_MAX := by
    rw [rep_size h, ← h.size, he]; decide +kernel
  unfold stackPeekInt64
  rw [this]
  exact (vector_get_int64_leaves_vector hv 0).1

example : Reachable (vectorCreate 4) ∧ (vectorCreate 4).size = 0 :=
  ⟨⟨4, [], [], by decide, by simp, rfl⟩, rfl⟩

/-- Why `Op.Small` is needed: increasing a fresh vector by 2^61+1 cells asks `realloc` for 8 bytes
(the byte count wraps), and then clears memory far outside the block. -/
theorem vector_increase_wraps :
    vectorIncrease (vectorCreate 1) 2305843009213693953 true = none := by decide +kernel

/-- **C04**.  Any history of stack calls on a fresh stack runs without undefined behaviour and
returns what an abstract last-in-first-out stack returns. -/
theorem stack_refines_lifo (cap : Nat) (hcap : cap < 1152921504606846976) (ops : List SOp) :
    ∃ rs v s, srun (vectorCreate cap) ops = some (rs, v) ∧ LifoRun [] ops rs s ∧
      stackSize v = s.length ∧ stackPeek v = some (s.headD ITEM_MAX) := by
  obtain ⟨rs, v, s, h1, h2, h3⟩ := lifo_run (s := []) (rep_create hcap) ops
  refine ⟨rs, v, s, h1, h2, ?_, ?_⟩
  · unfold stackSize; rw [rep_size h3]; simp
  · obtain ⟨r, v', s', h4, h5, _⟩ := lifo_step h3 .peek
    cases h5 <;> simp [sstep] at h4 <;> obtain ⟨a, ha, hb, _⟩ := h4 <;> simp [ha, hb]

/-- On the abstract stack a push that is accepted is undone by the next pop. -/
theorem lifo_pop_after_push {s x s' r s'' : _} (h1 : LifoStep s (.push x true) (.code 0) s')
    (h2 : LifoStep s' .pop r s'') : r = .item x ∧ s'' = s := by
  cases h1; cases h2; exact ⟨rfl, rfl⟩

example : srun (vectorCreate 1) [.push 3 true, .push 4 true, .peek, .pop, .pop, .pop, .size] =
    some ([.code 0, .code 0, .item 4, .item 4, .item 3, .item 9223372036854775807, .idx 0],
      { size := 0, sizeAlloc := 2, array := some [some 3, some 4] }) := by decide +kernel

end RuC.Vector
