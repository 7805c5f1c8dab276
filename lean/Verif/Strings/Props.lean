import Verif.Strings.Refine

/-!
# C09: a strings vector keeps the texts

The specification is `SStep` in `Spec.lean`: a list of texts, where an addition appends (or, after a
refused allocation, answers `SIZE_MAX` and leaves the list), `strings_get` looks up, `strings_remove`
takes the last one off.
-/

namespace RuC.Strings
open RuC Utf8 Map

/-- **C09.** Every history of calls with texts, whatever the allocator answers, is free of undefined
behaviour and answers as the list of texts does.  (After a refused allocation the specification
leaves `strings_get_length` open, see `strings_length_wrong_after_refusal`.) -/
theorem strings_refine {alloc : Nat} (ha : alloc < 1125899906842624) (ops : List Op)
    (hv : ∀ op ∈ ops, op.Valid) (hs : (ops.map Op.cost).sum < 1152921504606846976) :
    ∃ rs s A, run (stringsCreate alloc) ops = some (rs, s) ∧ SRun ([], true) ops rs A := by
  obtain ⟨rs, s, A, h1, h2, _⟩ := run_refines (create_inv ha) ops hv
    (by simpa [stringsCreate] using hs) (by simpa [stringsCreate] using hs)
  exact ⟨rs, s, A, h1, h2⟩

/-! ## The specification determines the answers -/

theorem codes_split {ks ks' : List Nat} {t t' : List Int} (h : ks.map Int.ofNat ++ t = ks'.map Int.ofNat ++ t')
    (hk : ∀ c ∈ ks, c ≠ 0) (hk' : ∀ c ∈ ks', c ≠ 0) (ht : ∀ x, t.head? = some x → x = 0)
    (ht' : ∀ x, t'.head? = some x → x = 0) : ks = ks' := by
  induction ks generalizing ks' with
  | nil =>
    cases ks' with
    | nil => rfl
    | cons c ks' =>
      simp only [List.map_nil, List.nil_append, List.map_cons, List.cons_append] at h
      have := ht (Int.ofNat c) (by rw [h]; rfl)
      exact absurd (Int.ofNat_eq_zero.1 this) (hk' c (by simp))
  | cons c ks ih =>
    cases ks' with
    | nil =>
      simp only [List.map_nil, List.nil_append, List.map_cons, List.cons_append] at h
      have := ht' (Int.ofNat c) (by rw [← h]; rfl)
      exact absurd (Int.ofNat_eq_zero.1 this) (hk c (by simp))
    | cons c' ks' =>
      simp only [List.map_cons, List.cons_append, List.cons.injEq] at h
      rw [Int.ofNat.inj h.1, ih h.2 (fun c hc => hk c (by simp [hc])) (fun c hc => hk' c (by simp [hc]))]

theorem asks_unique {op : Op} {t t' : List Nat} (h : Asks op t) (h' : Asks op t') : t = t' := by
  cases h with
  | add => cases h'; rfl
  | addUtf8 => cases h'; rfl
  | addVector ks tail a b hk hn ht =>
    generalize he : ks.map Int.ofNat ++ tail = v at h'
    cases h' with
    | addVector ks' tail' _ _ hk' hn' ht' =>
      rw [codes_split he (fun c hc => (hk c hc).1) (fun c hc => (hk' c hc).1) ht ht']

/-- If nothing is refused, one call has one meaning. -/
theorem sstep_determined {L : List (List Nat)} {op : Op} {r r' A A'} (hg : op.Granted)
    (h : SStep (L, true) op r A) (h' : SStep (L, true) op r' A') : r = r' ∧ A = A' ∧ A.2 = true := by
  cases h with
  | add _ _ hA hne =>
    cases h' with
    | add _ _ hA' hne' => rw [asks_unique hA hA']; exact ⟨rfl, rfl, rfl⟩
    | addEmpty _ _ hA' => exact absurd (asks_unique hA hA') hne
    | refused _ _ hr => exact absurd hr hg
    | get => cases hA
    | length => cases hA
    | remove => cases hA
    | size => cases hA
  | addEmpty _ _ hA =>
    cases h' with
    | add _ _ hA' hne' => exact absurd (asks_unique hA' hA) hne'
    | addEmpty _ _ hA' => exact ⟨rfl, rfl, rfl⟩
    | refused _ _ hr => exact absurd hr hg
    | get => cases hA
    | length => cases hA
    | remove => cases hA
    | size => cases hA
  | refused _ _ hr => exact absurd hr hg
  | get =>
    cases h' with
    | add _ _ hA' hne' => cases hA'
    | addEmpty _ _ hA' => cases hA'
    | refused _ _ hr => exact absurd hr hg
    | get => exact ⟨rfl, rfl, rfl⟩
  | length =>
    cases h' with
    | add _ _ hA' hne' => cases hA'
    | addEmpty _ _ hA' => cases hA'
    | refused _ _ hr => exact absurd hr hg
    | length => exact ⟨rfl, rfl, rfl⟩
  | remove =>
    cases h' with
    | add _ _ hA' hne' => cases hA'
    | addEmpty _ _ hA' => cases hA'
    | refused _ _ hr => exact absurd hr hg
    | remove => exact ⟨rfl, rfl, rfl⟩
  | size =>
    cases h' with
    | add _ _ hA' hne' => cases hA'
    | addEmpty _ _ hA' => cases hA'
    | refused _ _ hr => exact absurd hr hg
    | size => exact ⟨rfl, rfl, rfl⟩

/-- If nothing is refused, a history has one meaning: all answers, including the lengths. -/
theorem srun_determined {L : List (List Nat)} {ops : List Op} {rs rs' A A'} (hg : ∀ op ∈ ops, op.Granted)
    (h : SRun (L, true) ops rs A) (h' : SRun (L, true) ops rs' A') : rs = rs' ∧ A = A' ∧ A.2 = true := by
  induction ops generalizing L rs rs' with
  | nil => cases h; cases h'; exact ⟨rfl, rfl, rfl⟩
  | cons op ops ih =>
    cases h with
    | @cons _ _ r A1 _ _ _ s1 t1 =>
    cases h' with
    | @cons _ _ r' A1' _ _ _ s2 t2 =>
    obtain ⟨e1, e2, e3⟩ := sstep_determined (hg op (by simp)) s1 s2
    subst e1 e2
    obtain ⟨L1, b⟩ := A1
    simp only at e3
    subst e3
    obtain ⟨f1, f2, f3⟩ := ih (fun o ho => hg o (by simp [ho])) t1 t2
    exact ⟨by rw [f1], f2, f3⟩

/-! ## What a user sees -/

theorem sstep_prefix {A A' : List (List Nat) × Bool} {op : Op} {r} (h : SStep A op r A') (hr : op ≠ .remove) :
    A.1 <+: A'.1 := by
  cases h with
  | add => exact List.prefix_append _ _
  | remove => exact absurd rfl hr
  | _ => exact List.prefix_rfl

theorem srun_prefix {A A' : List (List Nat) × Bool} {ops : List Op} {rs} (h : SRun A ops rs A')
    (hr : Op.remove ∉ ops) : A.1 <+: A'.1 := by
  induction h with
  | nil => exact List.prefix_rfl
  | cons s t ih =>
    simp only [List.mem_cons, not_or] at hr
    exact (sstep_prefix s (Ne.symm hr.1)).trans (ih hr.2)

theorem srun_append {A A' : List (List Nat) × Bool} {ops ops' : List Op} {rs} (h : SRun A (ops ++ ops') rs A') :
    ∃ B rs1 rs2, SRun A ops rs1 B ∧ SRun B ops' rs2 A' ∧ rs = rs1 ++ rs2 ∧ rs1.length = ops.length := by
  induction ops generalizing A rs with
  | nil => exact ⟨A, [], rs, .nil _, h, rfl, rfl⟩
  | cons op ops ih =>
    cases h with
    | cons s t =>
      obtain ⟨B, rs1, rs2, h1, h2, h3, h4⟩ := ih t
      exact ⟨B, _, rs2, .cons s h1, h2, by rw [h3]; rfl, by simp [h4]⟩

/-- **C09**, read at the interface: if an addition of the text `t` answered the index `i` (and not
`SIZE_MAX`), then, after any calls that remove nothing, whatever the allocator answers to them,
`strings_get` answers the text `t` for `i`. -/
theorem strings_get_after_add {alloc : Nat} (ha : alloc < 1125899906842624) {before after : List Op} {op : Op}
    {t : List Nat} (hA : Asks op t) {i : Nat} {rs1 rs2 : List Res} {r : Res} {s : Strs}
    (hv : ∀ o ∈ before ++ op :: (after ++ [.get i]), o.Valid)
    (hs : ((before ++ op :: (after ++ [.get i])).map Op.cost).sum < 1152921504606846976)
    (hrem : Op.remove ∉ after)
    (hrun : run (stringsCreate alloc) (before ++ op :: (after ++ [.get i])) =
      some (rs1 ++ .idx i :: (rs2 ++ [r]), s))
    (hl1 : rs1.length = before.length) (hi : i ≠ SIZE_MAX) : r = .text (some t) := by
  obtain ⟨rs, s', A, e, sr⟩ := strings_refine ha _ hv hs
  rw [hrun, Option.some.injEq, Prod.mk.injEq] at e
  obtain ⟨e, -⟩ := e
  subst e
  obtain ⟨B, q1, q2, k1, k2, k3, k4⟩ := srun_append sr
  obtain ⟨e1, e2⟩ := List.append_inj k3 (by rw [hl1, k4])
  subst e1 e2
  cases k2 with
  | cons st tl =>
    obtain ⟨D, p1, p2, m1, m2, m3, m4⟩ := srun_append tl
    have hpre := srun_prefix m1 hrem
    cases m2 with
    | cons g nl =>
    cases nl with
    | nil =>
    obtain ⟨e5, e6⟩ := List.append_inj' m3 rfl
    simp only [List.cons.injEq, and_true] at e6
    subst e6
    have hget : r = .text D.1[i]? := by
      cases g with
      | add _ _ hA => cases hA
      | addEmpty _ _ hA => cases hA
      | refused _ _ hr => exact absurd hr (by simp [Op.Refused])
      | get => rfl
    generalize hq : Res.idx i = q at st
    cases st with
    | add L tight hA' hne =>
      cases hq
      obtain ⟨D1, D2⟩ := D
      obtain ⟨w, hw⟩ := hpre
      simp only at hw hget
      rw [hget, ← hw, asks_unique hA hA']
      simp
    | addEmpty => cases hq; exact absurd rfl hi
    | refused => cases hq; exact absurd rfl hi
    | get => cases hA
    | length => cases hA
    | lengthLoose => cases hA
    | lengthOut => cases hA
    | remove => cases hA
    | size => cases hA

/-! ## Cases -/

/-- A history with all kinds of additions. -/
def sample : List Op :=
  [.add [104, 105] (fun _ => true) (fun _ => true),
   .addUtf8 [0x43F, 0x20AC] (fun _ => true) (fun _ => true),
   .addVector [0x1000, 66, 0, 67] (fun _ => true) (fun _ => true),
   .get 1, .length 0, .length 1, .length 2, .get 2, .get 3, .remove, .size, .add [] (fun _ => true) (fun _ => true)]

example : (∀ op ∈ sample, op.Valid) ∧ (sample.map Op.cost).sum < 1152921504606846976 ∧
    (∀ op ∈ sample, op.Granted) := by
  refine ⟨?_, by decide +kernel, ?_⟩
  · intro op hop
    simp only [sample, List.mem_cons, List.not_mem_nil, or_false] at hop
    rcases hop with rfl | rfl | rfl | rfl | rfl | rfl | rfl | rfl | rfl | rfl | rfl | rfl
    · exact ⟨_, .add _ _ _ (by decide)⟩
    · exact ⟨_, .addUtf8 _ _ _ (by decide)⟩
    · exact ⟨_, .addVector [0x1000, 66] [0, 67] _ _ (by decide) (by decide) (by decide)⟩
    all_goals first | trivial | exact ⟨_, .add _ _ _ (by decide)⟩
  · intro op hop
    simp only [sample, List.mem_cons, List.not_mem_nil, or_false] at hop
    rcases hop with rfl | rfl | rfl | rfl | rfl | rfl | rfl | rfl | rfl | rfl | rfl | rfl <;>
      simp [Op.Granted, Op.Refused]

example : (run (stringsCreate 1) sample).map Prod.fst =
    some [.idx 0, .idx 1, .idx 2, .text (some [0xD0, 0xBF, 0xE2, 0x82, 0xAC]), .idx 2, .idx 5, .idx 4,
      .text (some [0xE1, 0x80, 0x80, 66]), .text none, .text (some [0xE1, 0x80, 0x80, 66]), .idx 2,
      .idx SIZE_MAX] := by
  decide +kernel

/-- The part of C09 about lengths fails after a refused allocation: the text `a` has one octet, but
once a long addition was refused half-way `strings_get_length` answers 254 for it. -/
theorem strings_length_wrong_after_refusal :
    (run (stringsCreate 1) [.add [97] (fun _ => true) (fun _ => true),
      .add (List.replicate 300 98) (fun _ => true) (fun _ => false), .get 0, .length 0]).map Prod.fst =
    some [.idx 0, .idx SIZE_MAX, .text (some [97]), .idx 254] := by
  decide +kernel

/-- Outside `Op.Valid`: an empty vector is registered as a string (its first cell reads as
`ITEM_MAX`), and looking at that string reads memory that was never written. -/
theorem strings_empty_vector_registered :
    (run (stringsCreate 1) [.addVector [] (fun _ => true) (fun _ => true)]).map Prod.fst = some [.idx 0] ∧
    run (stringsCreate 1) [.addVector [] (fun _ => true) (fun _ => true), .get 0] = none := by
  decide +kernel

end RuC.Strings
