import Verif.Machine.Scoped

/-!
The machine follows loops, when it follows their parts.
-/

namespace RuC.Machine

open RuC RuC.Codegen RuC.Instr

theorem Follows.weaken {C n k v} {α} {P : α → Src → State → Prop} {r : Res α} (h : Follows C n v P r) (hk : k ≤ n) : Follows C k v P r := by
  cases r with
  | wrong => trivial
  | more out => exact Far.weaken h hk
  | ok a s => exact h

theorem Follows.later {C k v v1} {α} {P : α → Src → State → Prop} {r : Res α} (h : Reach C.M 1 v v1) (g : Follows C k v1 P r) : Follows C (k + 1) v P r := by
  cases r with
  | wrong => trivial
  | more out => exact (Far.after h g).weaken (by omega)
  | ok a s =>
    obtain ⟨v', g1, g2⟩ := g
    exact ⟨v', (h.weaken (Nat.zero_le _)).then g1, g2⟩

theorem Follows.steps {C k a v v1} {α} {P : α → Src → State → Prop} {r : Res α} (h : Reach C.M a v v1) (g : Follows C k v1 P r) : Follows C (k + a) v P r := by
  cases r with
  | wrong => trivial
  | more out => exact (Far.after h g).weaken (by omega)
  | ok x s =>
    obtain ⟨v', g1, g2⟩ := g
    exact ⟨v', (h.weaken (Nat.zero_le _)).then g1, g2⟩

/-- A loop that tests first makes `a` steps at the test and `e` steps at the end of a round; one of them at least is made. -/
theorem loopT_follows {C : Ctx} {n a e : Nat} (hae : 1 ≤ a + e) {test next : Src → Res (Option Int)} {body : Src → Res Flow} {At AtBody AtNext : Src → State → Prop}
    {Post : Flow → Src → State → Prop} (hout : ∀ s v, At s v → v.out = s.out)
    (htest : ∀ s v, At s v → Follows C n v (fun r s' v' => ∀ x, r = some x → ∃ v2, Reach C.M a v' v2 ∧ if x = 0 then Post .normal s' v2 else AtBody s' v2) (test s))
    (hbody : ∀ s v, AtBody s v → Follows C n v (fun f s' v' => match f with
      | .brk => Post .normal s' v'
      | .ret r => Post (.ret r) s' v'
      | _ => AtNext s' v') (body s))
    (hnext : ∀ s v, AtNext s v → Follows C n v (fun _ s' v' => ∃ v2, Reach C.M e v' v2 ∧ At s' v2) (next s)) :
    ∀ k, k ≤ n → ∀ s v, At s v → Follows C k v Post (loopT test body next k s)
  | 0, _, s, v, h => ⟨v, Reach.refl, hout s v h⟩
  | k + 1, hk, s, v, h => by
    rw [loopT]
    refine Follows.value ((htest s v h).weaken hk) ?_
    intro x s1 v1 h1
    obtain ⟨v1', r1, h1⟩ := h1 x rfl
    by_cases hx : x = 0
    · rw [if_pos hx]
      rw [if_pos hx] at h1
      exact Follows.end (r1.weaken (Nat.zero_le _)) h1
    · rw [if_neg hx]
      rw [if_neg hx] at h1
      refine Follows.weaken (Follows.steps r1 (k := k + 1 - a) ?_) (by omega)
      refine Follows.bind ((hbody s1 v1' h1).weaken (by omega)) ?_
      intro f s2 v2 h2
      have again : AtNext s2 v2 → Follows C (k + 1 - a) v2 Post ((next s2).bind fun _ s => loopT test body next k s) := by
        intro h2
        refine Follows.bind ((hnext s2 v2 h2).weaken (by omega)) ?_
        rintro _ s3 v3 ⟨v4, r4, h4⟩
        exact (Follows.steps r4 (loopT_follows hae hout htest hbody hnext k (by omega) s3 v4 h4)).weaken (by omega)
      cases f with
      | brk => exact Follows.end Reach.refl h2
      | ret r => exact Follows.end Reach.refl h2
      | normal => exact again h2
      | cont => exact again h2

theorem loopB_follows {C : Ctx} {n : Nat} {test : Src → Res (Option Int)} {body : Src → Res Flow} {At AtTest : Src → State → Prop}
    {Post : Flow → Src → State → Prop} (hout : ∀ s v, At s v → v.out = s.out)
    (hbody : ∀ s v, At s v → Follows C n v (fun f s' v' => match f with
      | .brk => Post .normal s' v'
      | .ret r => Post (.ret r) s' v'
      | _ => AtTest s' v') (body s))
    (htest : ∀ s v, AtTest s v → Follows C n v (fun r s' v' => ∀ x, r = some x → ∃ v2, Reach C.M 1 v' v2 ∧ if x = 0 then Post .normal s' v2 else At s' v2) (test s)) :
    ∀ k, k ≤ n → ∀ s v, At s v → Follows C k v Post (loopB body test k s)
  | 0, _, s, v, h => ⟨v, Reach.refl, hout s v h⟩
  | k + 1, hk, s, v, h => by
    rw [loopB]
    refine Follows.bind ((hbody s v h).weaken hk) ?_
    intro f s2 v2 h2
    have again : AtTest s2 v2 → Follows C (k + 1) v2 Post ((test s2).value fun x s => if x = 0 then .ok .normal s else loopB body test k s) := by
      intro h2
      refine Follows.value ((htest s2 v2 h2).weaken hk) ?_
      intro x s1 v1 h1
      obtain ⟨v4, r4, h4⟩ := h1 x rfl
      by_cases hx : x = 0
      · rw [if_pos hx]
        rw [if_pos hx] at h4
        exact Follows.end (r4.weaken (Nat.zero_le _)) h4
      · rw [if_neg hx]
        rw [if_neg hx] at h4
        exact Follows.later r4 (loopB_follows hout hbody htest k (by omega) s1 v4 h4)
    cases f with
    | brk => exact Follows.end Reach.refl h2
    | ret r => exact Follows.end Reach.refl h2
    | normal => exact again h2
    | cont => exact again h2

end RuC.Machine
