import Verif.Mips.Temps

/-!
# Lemmas: registers asked for and given back
-/

namespace RuC.Mips

/-- The registers in use are marked, and no others. -/
structure Pool (s : Enc × List Nat) : Prop where
  nodup : s.2.Nodup
  range : ∀ r ∈ s.2, R_T0 ≤ r ∧ r < R_T0 + 8
  busy : ∀ i, i < 8 → (s.1.busy i = true ↔ i + R_T0 ∈ s.2)

theorem full {l : List Nat} : ∀ (n k : Nat), (∀ i, i < n → i + k ∈ l) → n ≤ l.length
  | 0, _, _ => Nat.zero_le _
  | n + 1, k, h => by
    have h0 : n + k ∈ l := h n (by omega)
    have : n ≤ (l.erase (n + k)).length := full n k (fun i hi => (List.mem_erase_of_ne (by omega)).mpr (h i (by omega)))
    rw [List.length_erase_of_mem h0] at this
    have := List.length_pos_of_mem h0
    omega

theorem Pool.ask {s t : Enc × List Nat} (h : Pool s) {q : Ask} (hq : ask s q = some t) (hn : t.2.length ≤ 8) : Pool t := by
  cases q with
  | get =>
    cases hq
    simp only [List.length_cons] at hn
    obtain ⟨-, h2, h3, h4⟩ := search_spec s.1.busy 10 0
    have hlt : search s.1.busy 1 10 0 < 8 := by
      by_cases hx : search s.1.busy 1 10 0 < 8
      · exact hx
      · have := full (l := s.2) 8 R_T0 (fun i hi => (h.busy i hi).mp (h4 i (Nat.zero_le _) (by omega)))
        omega
    have hf := h3 (by omega)
    have hni : search s.1.busy 1 10 0 + R_T0 ∉ s.2 := fun hm => by
      have := (h.busy _ hlt).mpr hm
      rw [hf] at this; cases this
    simp only [getRegister]
    generalize search s.1.busy 1 10 0 = k at *
    refine ⟨List.nodup_cons.mpr ⟨hni, h.nodup⟩, ?_, ?_⟩
    · intro r hr
      rcases List.mem_cons.mp hr with rfl | hr
      · exact ⟨by omega, by omega⟩
      · exact h.range r hr
    · intro i hi
      simp only [Enc.mark, List.mem_cons]
      by_cases hik : i = k
      · simp [hik]
      · rw [if_neg hik, h.busy i hi]
        simp [hik]
  | free r =>
    simp only [Mips.ask] at hq
    by_cases hr : r ∈ s.2
    · rw [if_pos hr] at hq
      cases hq
      obtain ⟨h1, h2⟩ := h.range r hr
      have hp : place r = some (r - R_T0) := by unfold place; rw [if_pos ⟨h1, h2⟩]
      refine ⟨h.nodup.erase r, fun q hq => h.range q (List.mem_of_mem_erase hq), ?_⟩
      intro i hi
      simp only [freeRegister, hp, Enc.mark]
      by_cases hik : i = r - R_T0
      · rw [if_pos hik]
        have : i + R_T0 = r := by omega
        simp [this, h.nodup.not_mem_erase]
      · rw [if_neg hik, h.busy i hi, List.mem_erase_of_ne (by omega)]
    · rw [if_neg hr] at hq; cases hq

theorem Pool.asks : ∀ {l : List Ask} {s t : Enc × List Nat}, Pool s → asks 8 s l = some t → Pool t
  | [], s, t, h, hq => by cases hq; exact h
  | q :: l, s, t, h, hq => by
    simp only [Mips.asks, Option.bind_eq_some_iff] at hq
    obtain ⟨u, h1, h2⟩ := hq
    split at h2
    · rename_i hn
      exact Pool.asks (h.ask h1 hn) h2
    · cases h2

end RuC.Mips
