import Verif.Hash.Refine

/-!
# Properties C05, C06: hash tables

C05  any history of calls behaves as on a finite map;
C06  the index of a record stays valid, and live records never overlap.

`ITEM_MAX` is the reserved key (it marks removed records), and a history must stay below 2^60 cells.
-/

namespace RuC.Hash
open RuC

/-- **C05**, **C06**.  Any history of calls on a fresh table ends, every call answers what a finite
map answers, and in the final table every live key is found under the index the map holds for it,
with its key, amount and values readable there. -/
theorem hash_refines_map (ops : List Op) (hk : ∀ op ∈ ops, op.key ≠ ITEM_MAX)
    (hc : 256 + (ops.map Op.cost).sum < 1152921504606846976) :
    ∃ rs s A, run St.init ops = some (rs, s) ∧ TRun (fun _ => none) ops rs A ∧
      (∀ k, k ≠ ITEM_MAX → A k = none → getIndex s.hs k = some SIZE_MAX) ∧
      (∀ k i vs, A k = some (i, vs) → getIndex s.hs k = some i ∧ s.held k = some i ∧
        i ≠ SIZE_MAX ∧ getKey s.hs i = k ∧ amountAt s.hs i = vs.length ∧
        ∀ n, getAt s.hs i n = vs.getD n ITEM_MAX) ∧
      (∀ k i vs k' i' vs', A k = some (i, vs) → A k' = some (i', vs') → k ≠ k' →
        Disjoint i vs.length i' vs'.length) := by
  obtain ⟨rs, s, A, R, h1, h2, h3⟩ := rep_run rep_init ops hk (by simpa [total] using hc)
  refine ⟨rs, s, A, h1, h2, fun k hk hA => h3.absent hk hA, ?_, ?_⟩
  · intro k i vs hA
    exact rep_observe h3 hA
  · intro k i vs k' i' vs' hA hA' hne
    exact rep_disjoint h3 hA hA' hne

example : (∀ op ∈ [Op.add 1 2, .add 257 1, .set 1 1 7, .remove 257, .add 513 1, .get 1 1, .index 513, .get 257 0],
      op.key ≠ ITEM_MAX) ∧
    (run St.init [.add 1 2, .add 257 1, .set 1 1 7, .remove 257, .add 513 1, .get 1 1, .index 513, .get 257 0]).map
      Prod.fst = some [.idx 256, .idx 261, .idx 256, .code 0, .idx 261, .item 7, .idx 261, .item ITEM_MAX] := by
  constructor <;> decide +kernel

/-- **C06**, stated on the table itself.  Once a key is found at some index, any further history of
calls about other keys leaves it at that index with the same key, amount and values. -/
theorem hash_index_stable (ops₁ ops₂ : List Op) (hk : ∀ op ∈ ops₁ ++ ops₂, op.key ≠ ITEM_MAX)
    (hc : 256 + ((ops₁ ++ ops₂).map Op.cost).sum < 1152921504606846976)
    (rs₁ s₁ rs₂ s₂) (h₁ : run St.init ops₁ = some (rs₁, s₁)) (h₂ : run s₁ ops₂ = some (rs₂, s₂))
    (k : Int) (hkm : k ≠ ITEM_MAX) (i : Nat) (hi : getIndex s₁.hs k = some i) (hp : i ≠ SIZE_MAX)
    (ho : ∀ op ∈ ops₂, op.key ≠ k) :
    getIndex s₂.hs k = some i ∧ getKey s₂.hs i = k ∧ amountAt s₂.hs i = amountAt s₁.hs i ∧
      ∀ n, getAt s₂.hs i n = getAt s₁.hs i n := by
  simp only [List.map_append, List.sum_append] at hc
  obtain ⟨_, _, A, R, e1, _, r1, t1⟩ := rep_run' rep_init ops₁ (fun o h => hk o (by simp [h]))
    (by simp [total]; omega)
  rw [h₁] at e1; cases e1
  obtain ⟨_, _, A', R', e2, q2, r2, _⟩ := rep_run' r1 ops₂ (fun o h => hk o (by simp [h]))
    (by simp [total] at t1; omega)
  rw [h₂] at e2; cases e2
  have hA : ∃ vs, A k = some (i, vs) := by
    cases hA : A k with
    | none => rw [r1.absent hkm hA] at hi; cases hi; exact absurd rfl hp
    | some p =>
      obtain ⟨j, vs⟩ := p
      have := (rep_observe r1 hA).1
      rw [hi] at this; cases this
      exact ⟨vs, rfl⟩
  obtain ⟨vs, hA⟩ := hA
  have hA' : A' k = some (i, vs) := by rw [TRun.other q2 ho]; exact hA
  obtain ⟨a1, a2, a3, a4, a5, a6⟩ := rep_observe r1 hA
  obtain ⟨b1, b2, b3, b4, b5, b6⟩ := rep_observe r2 hA'
  exact ⟨b1, b4, by rw [a5, b5], fun n => by rw [a6, b6]⟩

example : ((run St.init [.add 1 2, .set 1 0 9]).bind fun p =>
      (run p.2 [.add 257 3, .remove 257, .add 513 3, .setAt 513 0 4]).map fun q =>
        (getIndex p.2.hs 1, getIndex q.2.hs 1, getAt q.2.hs 256 0, getAt q.2.hs 261 0)) =
    some (some 256, some 256, 9, 4) := by
  decide +kernel

/-- The map meaning determines every answer but the index of a new record. -/
theorem map_answers_determined {A op r A' r' A''} (h : TStep A op r A') (h' : TStep A op r' A'')
    (ho : ∀ k n, op ≠ .add k n) : r = r' ∧ A' = A'' := by
  cases h <;> cases h' <;> simp_all [Op.key] <;> first | omega | grind

end RuC.Hash
