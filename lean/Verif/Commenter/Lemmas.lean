import Verif.Commenter.Spec
import Verif.Locator.Marks

namespace RuC.Commenter
open RuC RuC.Utf8 RuC.Io RuC.Locator

theorem at_append {a b : List Nat} {i : Nat} (h : a.length ≤ i) : atText (a ++ b) i = atText b (i - a.length) := by
  simp only [atText, List.getD_eq_getElem?_getD]
  rw [List.getElem?_append_right h]

theorem at_left {a b : List Nat} {i : Nat} (h : i < a.length) : atText (a ++ b) i = atText a i := by
  simp only [atText, List.getD_eq_getElem?_getD]
  rw [List.getElem?_append_left h]

theorem at_mid (a b : List Nat) (c : Nat) : atText (a ++ c :: b) a.length = c := by
  rw [at_append (Nat.le_refl _)]; simp [atText]

theorem lineStart_spec {y a w : List Nat} (hy : y = [] ∨ ∃ z, y = z ++ [10]) (ha : ∀ b ∈ a, b ≠ 10) :
    ∀ (n : Nat), n ≤ a.length → lineStart (y ++ (a ++ w)) (y.length + n) = y.length := by
  intro n
  induction n with
  | zero =>
    intro _
    rcases hy with rfl | ⟨z, rfl⟩
    · rfl
    · rw [Nat.add_zero, List.length_append, List.length_cons, List.length_nil, lineStart, List.append_assoc, List.singleton_append, at_mid]
      simp
  | succ n ih =>
    intro hn
    have hc : atText (y ++ (a ++ w)) (y.length + n) = a[n]'(by omega) := by
      rw [at_append (by omega), Nat.add_sub_cancel_left, at_left (by omega)]
      simp [atText, List.getD_eq_getElem?_getD, List.getElem?_eq_getElem (show n < a.length by omega)]
    rw [show y.length + (n + 1) = (y.length + n) + 1 by omega, lineStart, hc, if_neg (ha _ (List.getElem_mem _))]
    exact ih (by omega)

/-- No comment ends at an index. -/
def NoHit (text : List Nat) (i : Nat) : Prop :=
  3 ≤ i ∧ ¬ (atText text i = 35 ∧ atText text (i - 1) = 32 ∧ atText text (i - 2) = 47 ∧ atText text (i - 3) = 47)

theorem match_noHit {text : List Nat} {i : Nat} (h : NoHit text i) : matchLoop text i PREFIX.reverse 0 = some false := by
  obtain ⟨h3, hn⟩ := h
  have hp : PREFIX.reverse = [35, 32, 47, 47] := by decide
  rw [hp]
  simp only [matchLoop, Nat.not_lt_zero, if_false, show ¬ i < 0 + 1 by omega, show ¬ i < 0 + 1 + 1 by omega, show ¬ i < 0 + 1 + 1 + 1 by omega, Nat.sub_zero]
  by_cases h1 : 35 = atText text i
  · rw [if_pos h1]
    by_cases h2 : 32 = atText text (i - 1)
    · rw [if_pos (by simpa using h2)]
      by_cases h3 : 47 = atText text (i - 2)
      · rw [if_pos (by simpa using h3), if_neg]
        intro h4
        exact hn ⟨h1.symm, h2.symm, h3.symm, by simpa using h4.symm⟩
      · rw [if_neg (by simpa using h3)]
    · rw [if_neg (by simpa using h2)]
  · rw [if_neg h1]

theorem match_hit {x s : List Nat} : matchLoop (x ++ PREFIX ++ s) (x.length + 3) PREFIX.reverse 0 = some true := by
  have hp : PREFIX.reverse = [35, 32, 47, 47] := by decide
  have h : ∀ k, k < 4 → atText (x ++ PREFIX ++ s) (x.length + k) = PREFIX.getD k 0 := by
    intro k hk
    rw [List.append_assoc, at_append (by omega), Nat.add_sub_cancel_left, at_left (by simpa [PREFIX] using hk)]
    rfl
  have h3 := h 3 (by decide)
  have h2 := h 2 (by decide)
  have h1 := h 1 (by decide)
  have h0 := h 0 (by decide)
  rw [hp]
  simp only [matchLoop, Nat.not_lt_zero, if_false, show ¬ x.length + 3 < 0 + 1 by omega, show ¬ x.length + 3 < 0 + 1 + 1 by omega,
    show ¬ x.length + 3 < 0 + 1 + 1 + 1 by omega, Nat.sub_zero, Nat.zero_add]
  rw [show x.length + 3 - 1 = x.length + 2 by omega, show x.length + 3 - (1 + 1) = x.length + 1 by omega,
    show x.length + 3 - (1 + 1 + 1) = x.length + 0 by omega, h3, h2, h1, h0]
  decide

/-- Going back over octets where no comment ends. -/
theorem reverseLoop_skip {text y z w : List Nat} (ht : text = y ++ (z ++ w)) (hy : y ≠ []) : ∀ (n : Nat) {line : Nat}, n ≤ z.length →
    (∀ k, k < n → atText text (y.length + k) ≠ 10 → NoHit text (y.length + k)) → line + n < 4611686018427387904 →
    reverseLoop text (y.length - 1 + n) line = reverseLoop text (y.length - 1) (line + (z.take n).count 10) := by
  have hpos := List.length_pos_iff.2 hy
  intro n
  induction n with
  | zero => intro line _ _ _; simp
  | succ n ih =>
    intro line hn hno hl
    have hidx : y.length - 1 + (n + 1) = (y.length - 1 + n) + 1 := by omega
    have hidx2 : y.length - 1 + n + 1 = y.length + n := by omega
    have hc : atText text (y.length + n) = z[n]'(by omega) := by
      rw [ht, at_append (by omega), Nat.add_sub_cancel_left, at_left (by omega)]
      simp [atText, List.getD_eq_getElem?_getD, List.getElem?_eq_getElem (show n < z.length by omega)]
    have htake : (z.take (n + 1)).count 10 = (z.take n).count 10 + if z[n]'(by omega) = 10 then 1 else 0 := by
      rw [List.take_succ_eq_append_getElem (by omega), List.count_append, List.count_singleton]
      simp
    rw [hidx, reverseLoop, hidx2, hc, htake]
    by_cases h10 : z[n]'(by omega) = 10
    · have hu : usz (line + 1) = line + 1 := by unfold usz; omega
      rw [if_pos h10, if_pos h10, hu, ih (by omega) (fun k hk => hno k (by omega)) (by omega)]
      congr 1; omega
    · rw [if_neg h10, if_neg h10, match_noHit (hno n (by omega) (by rw [hc]; exact h10))]
      simp only
      rw [ih (by omega) (fun k hk => hno k (by omega)) (by omega)]
      rfl

/-! ## No comment inside -/

/-- A comment begins at an index. -/
def HitAt (s : List Nat) (n : Nat) : Prop := s[n]? = some 47 ∧ s[n + 1]? = some 47 ∧ s[n + 2]? = some 32 ∧ s[n + 3]? = some 35

theorem hit_infix {s : List Nat} {n : Nat} (h : HitAt s n) : [47, 47, 32, 35] <:+: s := by
  obtain ⟨h0, h1, h2, h3⟩ := h
  refine ⟨s.take n, s.drop (n + 4), ?_⟩
  obtain ⟨l0, e0⟩ := List.getElem?_eq_some_iff.1 h0
  obtain ⟨l1, e1⟩ := List.getElem?_eq_some_iff.1 h1
  obtain ⟨l2, e2⟩ := List.getElem?_eq_some_iff.1 h2
  obtain ⟨l3, e3⟩ := List.getElem?_eq_some_iff.1 h3
  conv => rhs; rw [← List.take_append_drop n s, List.drop_eq_getElem_cons l0, List.drop_eq_getElem_cons l1, List.drop_eq_getElem_cons l2, List.drop_eq_getElem_cons l3, e0, e1, e2, e3]
  simp

theorem hit_right {a b : List Nat} {n : Nat} (h : HitAt (a ++ b) n) (hn : a.length ≤ n) : HitAt b (n - a.length) := by
  obtain ⟨h0, h1, h2, h3⟩ := h
  rw [List.getElem?_append_right (by omega)] at h0 h1 h2 h3
  refine ⟨h0, ?_, ?_, ?_⟩
  · rw [← h1]; congr 1; omega
  · rw [← h2]; congr 1; omega
  · rw [← h3]; congr 1; omega

theorem hit_left {a b : List Nat} {n : Nat} (h : HitAt (a ++ 10 :: b) n) (hn : n < a.length + 1) : HitAt a n := by
  have h10 : (a ++ 10 :: b)[a.length]? = some 10 := by simp
  have hne : ∀ k, k < 4 → n + k ≠ a.length := by
    intro k hk he
    rw [← he] at h10
    obtain ⟨h0, h1, h2, h3⟩ := h
    match k, hk with
    | 0, _ => rw [Nat.add_zero, h0] at h10; simp at h10
    | 1, _ => rw [h1] at h10; simp at h10
    | 2, _ => rw [h2] at h10; simp at h10
    | 3, _ => rw [h3] at h10; simp at h10
  have h0 := hne 0 (by omega)
  have h1 := hne 1 (by omega)
  have h2 := hne 2 (by omega)
  have h3 := hne 3 (by omega)
  have hl : n + 3 < a.length := by omega
  obtain ⟨g0, g1, g2, g3⟩ := h
  rw [List.getElem?_append_left (by omega)] at g0 g1 g2 g3
  exact ⟨g0, g1, g2, g3⟩

theorem hit_lines {ls : List (List Nat)} (hp : ∀ l ∈ ls, Plain l) : ∀ {r : List Nat} {n : Nat}, HitAt (joined ls ++ r) n → (joined ls).length ≤ n := by
  induction ls with
  | nil => intro r n _; simp [joined]
  | cons l ls ih =>
    intro r n h
    have hj : joined (l :: ls) = l ++ 10 :: joined ls := by simp [joined]
    rw [hj] at h ⊢
    rw [List.append_assoc, List.cons_append] at h
    by_cases hn : n < l.length + 1
    · exact absurd (hit_infix (hit_left h hn)) (hp l (by simp)).2
    · have h2 : HitAt (l ++ [10] ++ (joined ls ++ r)) n := by simpa using h
      have := ih (fun x hx => hp x (by simp [hx])) (hit_right h2 (by simp; omega))
      simp only [List.length_append, List.length_cons, List.length_nil] at this ⊢
      omega

theorem hit_mark {path t : List Nat} (hp : ∀ b ∈ path, b ≠ 32) (ht : ∀ b ∈ t, b = 32 ∨ (48 ≤ b ∧ b ≤ 57)) {n : Nat}
    (h : HitAt (PREFIX ++ [32] ++ path ++ t) n) : n = 0 := by
  have hpre : ∀ k, k < 5 → (PREFIX ++ [32] ++ path ++ t)[k]? = (PREFIX ++ [32])[k]? := by
    intro k hk
    rw [List.append_assoc, List.getElem?_append_left (by simpa [PREFIX] using hk)]
  by_cases hn : n < 5
  · obtain ⟨h0, h1, h2, h3⟩ := h
    rw [hpre n hn] at h0
    match n, hn with
    | 0, _ => rfl
    | 1, _ => rw [hpre 2 (by omega)] at h1; simp [PREFIX] at h1
    | 2, _ => simp [PREFIX] at h0
    | 3, _ => simp [PREFIX] at h0
    | 4, _ => simp [PREFIX] at h0
  · exfalso
    have h2 : HitAt (PREFIX ++ [32] ++ (path ++ t)) n := by simpa using h
    obtain ⟨_, _, g2, g3⟩ := hit_right h2 (by simp [PREFIX]; omega)
    generalize n - (PREFIX ++ [32]).length = m at g2 g3
    by_cases hm : m + 2 < path.length
    · rw [List.getElem?_append_left hm] at g2
      exact hp 32 (List.mem_of_getElem? g2) rfl
    · rw [List.getElem?_append_right (by omega)] at g3
      have := ht 35 (List.mem_of_getElem? g3)
      omega

theorem some_of_at {text : List Nat} {i v : Nat} (hv : v ≠ 0) (h : atText text i = v) : text[i]? = some v := by
  simp only [atText, List.getD_eq_getElem?_getD] at h
  cases hx : text[i]? with
  | none => rw [hx] at h; simp at h; omega
  | some b => rw [hx] at h; simpa using h

/-- A mark: the prefix, the path and numbers. -/
def markOf (path t : List Nat) : List Nat := PREFIX ++ [32] ++ path ++ t ++ [10]

/-- Between a mark and the line in question no other comment is found. -/
theorem noHit {x path t r : List Nat} {ls : List (List Nat)} (hp : ∀ b ∈ path, b ≠ 32) (ht : ∀ b ∈ t, b = 32 ∨ (48 ≤ b ∧ b ≤ 57))
    (hl : ∀ l ∈ ls, Plain l) {k : Nat} (hk : k ≤ (markOf path t ++ joined ls).length) (h4 : 4 ≤ k) :
    NoHit (x ++ (markOf path t ++ joined ls ++ r)) (x.length + k) := by
  refine ⟨by omega, fun ⟨h0, h1, h2, h3⟩ => ?_⟩
  have hhit : HitAt (x ++ (markOf path t ++ joined ls ++ r)) (x.length + (k - 3)) := by
    refine ⟨some_of_at (by omega) ?_, some_of_at (by omega) ?_, some_of_at (by omega) ?_, some_of_at (by omega) ?_⟩
    · rw [show x.length + (k - 3) = x.length + k - 3 by omega]; exact h3
    · rw [show x.length + (k - 3) + 1 = x.length + k - 2 by omega]; exact h2
    · rw [show x.length + (k - 3) + 2 = x.length + k - 1 by omega]; exact h1
    · rw [show x.length + (k - 3) + 3 = x.length + k by omega]; exact h0
  have h5 := hit_right hhit (by omega)
  rw [Nat.add_sub_cancel_left] at h5
  have h6 : HitAt (PREFIX ++ [32] ++ path ++ t ++ 10 :: (joined ls ++ r)) (k - 3) := by simpa [markOf] using h5
  by_cases hn : k - 3 < (PREFIX ++ [32] ++ path ++ t).length + 1
  · have := hit_mark hp ht (hit_left h6 hn)
    omega
  · have h7 : HitAt (markOf path t ++ (joined ls ++ r)) (k - 3) := by simpa [markOf] using h6
    have hml : (markOf path t).length = (PREFIX ++ [32] ++ path ++ t).length + 1 := by simp [markOf]; omega
    have := hit_lines hl (hit_right h7 (by omega))
    rw [List.length_append] at hk
    omega

theorem count_joined {ls : List (List Nat)} (h : ∀ l ∈ ls, ∀ b ∈ l, b ≠ 10) : (joined ls).count 10 = ls.length := by
  induction ls with
  | nil => rfl
  | cons l ls ih =>
    have hj : joined (l :: ls) = l ++ ([10] ++ joined ls) := by simp [joined]
    have h0 : l.count 10 = 0 := List.count_eq_zero.2 fun hm => h l (by simp) 10 hm rfl
    rw [hj, List.count_append, List.count_append, h0, ih fun x hx => h x (by simp [hx])]
    simp; omega

/-- Searching behind a mark. -/
theorem search_behind {x path t a w : List Nat} {ls : List (List Nat)} (hp : PathOk path) (ht : ∀ b ∈ t, b = 32 ∨ (48 ≤ b ∧ b ≤ 57))
    (hl : ∀ l ∈ ls, Plain l) (ha : ∀ b ∈ a, b ≠ 10) (hs : (x ++ (markOf path t ++ joined ls ++ (a ++ w))).length < 2305843009213693952) :
    search (x ++ (markOf path t ++ joined ls ++ (a ++ w))) (x ++ markOf path t ++ joined ls ++ a).length =
      some (parse ⟨some (path ++ t ++ [10] ++ joined ls ++ (a ++ w)), 2 + ls.length + (if (a ++ w).head? = some 10 then 1 else 0), a.length, some (a ++ w)⟩
        (path ++ t ++ [10] ++ joined ls ++ (a ++ w))) := by
  generalize htext : x ++ (markOf path t ++ joined ls ++ (a ++ w)) = text at *
  have hy : text = (x ++ markOf path t ++ joined ls) ++ (a ++ w) := by rw [← htext]; simp
  have hnl : ∃ z, x ++ markOf path t ++ joined ls = z ++ [10] := by
    rcases List.eq_nil_or_concat ls with rfl | ⟨ls', l, rfl⟩
    · exact ⟨x ++ (PREFIX ++ [32] ++ path ++ t), by simp [markOf, joined]⟩
    · exact ⟨x ++ markOf path t ++ joined ls' ++ l, by simp [joined]⟩
  have hstart : lineStart text (x ++ markOf path t ++ joined ls ++ a).length = (x ++ markOf path t ++ joined ls).length := by
    rw [hy, List.length_append (bs := a)]
    exact lineStart_spec (.inr hnl) ha _ (Nat.le_refl _)
  have hdrop : text.drop (x ++ markOf path t ++ joined ls).length = a ++ w := by rw [hy, List.drop_left]
  have hlen : (x ++ markOf path t ++ joined ls ++ a).length ≤ text.length := by
    rw [hy]; simp only [List.length_append]; omega
  have hsym : (x ++ markOf path t ++ joined ls ++ a).length - (x ++ markOf path t ++ joined ls).length = a.length := by
    rw [List.length_append (bs := a)]; omega
  rw [search, if_pos hlen, hstart, hsym, hdrop]
  -- the octets that are looked at: from the end of the prefix to the first octet of the line
  have hbase : text = (x ++ PREFIX) ++ (([32] ++ path ++ t ++ [10] ++ joined ls ++ (a ++ w).take 1) ++ (a ++ w).drop 1) := by
    rw [hy]
    simp only [markOf, List.append_assoc, List.take_append_drop]
  have hml : (x ++ markOf path t ++ joined ls).length = x.length + 4 + ([32] ++ path ++ t ++ [10] ++ joined ls).length := by
    simp only [markOf, List.length_append, PREFIX, List.length_cons, List.length_nil]; omega
  have hpl : (x ++ PREFIX).length = x.length + 4 := by simp [PREFIX]
  have hno : ∀ k, k < ([32] ++ path ++ t ++ [10] ++ joined ls).length + 1 → NoHit text ((x ++ PREFIX).length + k) := by
    intro k hk
    rw [← htext, hpl, show x.length + 4 + k = x.length + (4 + k) by omega]
    refine noHit (fun b hb => (hp.2 b hb).2.2) ht hl ?_ (by omega)
    simp only [markOf, List.length_append, PREFIX, List.length_cons, List.length_nil] at hk ⊢
    omega
  have hcount : ([32] ++ path ++ t ++ [10] ++ joined ls).count 10 = 1 + ls.length := by
    have h1 : path.count 10 = 0 := List.count_eq_zero.2 fun hm => (hp.2 10 hm).2.1 rfl
    have h2 : t.count 10 = 0 := List.count_eq_zero.2 fun hm => by have := ht 10 hm; omega
    simp only [List.count_append, h1, h2, count_joined fun l h b hb => ((hl l h).1 b hb).1]
    simp
  have hhead : reverseLoop text ((x ++ PREFIX).length - 1) (2 + ls.length + (if (a ++ w).head? = some 10 then 1 else 0)) =
      some (2 + ls.length + (if (a ++ w).head? = some 10 then 1 else 0), some (x.length + 5)) := by
    rw [hpl, show x.length + 4 - 1 = (x.length + 2) + 1 by omega, reverseLoop]
    have hm : matchLoop text (x.length + 2 + 1) PREFIX.reverse 0 = some true := by
      rw [hbase]; exact match_hit
    have hne : atText text (x.length + 2 + 1) ≠ 10 := by
      rw [hbase, at_left (by rw [hpl]; omega), at_append (by omega)]
      have : x.length + 2 + 1 - x.length = 3 := by omega
      rw [this]; decide
    rw [if_neg hne, hm]
  have hloop : reverseLoop text (x ++ markOf path t ++ joined ls).length 1 =
      some (2 + ls.length + (if (a ++ w).head? = some 10 then 1 else 0), some (x.length + 5)) := by
    have hsz : ([32] ++ path ++ t ++ [10] ++ joined ls).length ≤ text.length := by
      rw [hbase]; simp only [List.length_append]; omega
    cases haw : a ++ w with
    | nil =>
      -- at the end of the text: one step over the terminating zero
      have htl : text.length = (x ++ markOf path t ++ joined ls).length := by rw [hy, haw, List.append_nil]
      have hpos : (x ++ markOf path t ++ joined ls).length = (x ++ markOf path t ++ joined ls).length - 1 + 1 := by
        rw [hml]; simp only [List.length_append, List.length_cons]; omega
      have hz : atText text ((x ++ markOf path t ++ joined ls).length - 1 + 1) = 0 := by
        rw [← hpos, ← htl]; simp [atText]
      have hz2 : NoHit text ((x ++ markOf path t ++ joined ls).length - 1 + 1) := by
        refine ⟨by rw [hml]; omega, fun hh => ?_⟩
        rw [hz] at hh
        omega
      rw [hpos, reverseLoop, if_neg (by rw [hz]; omega), match_noHit hz2]
      simp only
      have := reverseLoop_skip hbase (by simp [PREFIX]) ([32] ++ path ++ t ++ [10] ++ joined ls).length (line := 1)
        (by rw [List.length_append (bs := (a ++ w).take 1)]; omega) (fun k hk _ => hno k (by omega)) (by omega)
      have hix : x.length + 4 - 1 + ([32] ++ path ++ t ++ [10] ++ joined ls).length = (x ++ markOf path t ++ joined ls).length - 1 := by
        rw [hml]; omega
      rw [hpl, hix] at this
      rw [this, List.take_left, hcount]
      rw [hpl, haw] at hhead
      simpa [show 1 + (1 + ls.length) = 2 + ls.length by omega] using hhead
    | cons c s =>
      have := reverseLoop_skip hbase (by simp [PREFIX]) (([32] ++ path ++ t ++ [10] ++ joined ls).length + 1) (line := 1)
        (by rw [List.length_append (bs := (a ++ w).take 1), haw]; simp) (fun k hk _ => hno k hk) (by omega)
      have hix : x.length + 4 - 1 + (([32] ++ path ++ t ++ [10] ++ joined ls).length + 1) = (x ++ markOf path t ++ joined ls).length := by
        rw [hml]; omega
      rw [hpl, hix] at this
      rw [this, haw]
      have htk : ([32] ++ path ++ t ++ [10] ++ joined ls ++ (c :: s).take 1).take (([32] ++ path ++ t ++ [10] ++ joined ls).length + 1) =
          [32] ++ path ++ t ++ [10] ++ joined ls ++ [c] := by
        rw [List.take_of_length_le (by simp; omega)]; rfl
      rw [htk, List.count_append, hcount, List.count_singleton]
      rw [hpl, haw] at hhead
      by_cases hc : c = 10
      · subst hc
        simpa [show 1 + (1 + ls.length + 1) = 2 + ls.length + 1 by omega] using hhead
      · simpa [hc, show 1 + (1 + ls.length) = 2 + ls.length by omega] using hhead
  rw [reverse, hloop]
  simp only
  have hdp : text.drop (x.length + 5) = path ++ t ++ [10] ++ joined ls ++ (a ++ w) := by
    have : text = (x ++ PREFIX ++ [32]) ++ (path ++ t ++ [10] ++ joined ls ++ (a ++ w)) := by
      rw [hy]; simp [markOf]
    rw [this, show x.length + 5 = (x ++ PREFIX ++ [32]).length by simp [PREFIX], List.drop_left]
  have hle : x.length + 5 ≤ text.length := by
    rw [hbase]; simp only [List.length_append, PREFIX, List.length_cons, List.length_nil]; omega
  rw [if_pos hle, hdp]

/-! ## Reading a mark -/

theorem dropWhile_path {path s : List Nat} (hp : PathOk path) : (path ++ 32 :: s).dropWhile inPath = 32 :: s := by
  rw [List.dropWhile_append_of_pos (by
    intro b hb
    have := hp.2 b hb
    simp [inPath, SEPARATOR, this.1, this.2.1, this.2.2])]
  simp [inPath, SEPARATOR]

theorem takeWhile_path {path s : List Nat} (hp : PathOk path) : (path ++ 32 :: s).takeWhile inPath = path := by
  rw [List.takeWhile_append_of_pos (by
    intro b hb
    have := hp.2 b hb
    simp [inPath, SEPARATOR, this.1, this.2.1, this.2.2])]
  simp [inPath, SEPARATOR]

theorem dropWhile_digits {ds s : List Nat} (hd : ∀ d ∈ ds, 48 ≤ d ∧ d ≤ 57) (hs : NoDigit s) : (ds ++ s).dropWhile isDecimal = s := by
  rw [List.dropWhile_append_of_pos (by
    intro b hb
    have := hd b hb
    simp [isDecimal]; omega)]
  cases s with
  | nil => rfl
  | cons c s =>
    rw [List.dropWhile_cons, if_neg]
    have := hs c s rfl
    simp [isDecimal]
    omega

theorem scanZu_number {n : Nat} {s : List Nat} (hs : NoDigit s) (hn : n < 4611686018427387904) : scanZu (digitsOf n n ++ s) = (1, n) := by
  rw [scanZu, scanSize_number hs hn]

theorem parse_usual {path s : List Nat} {n : Nat} {cmt : Cmt} (hp : PathOk path) (hn : n < 4611686018427387904) :
    parse cmt (path ++ (32 :: digitsOf n n) ++ 10 :: s) = { cmt with line := usz (cmt.line + usub n 2) } := by
  have h10 : NoDigit (10 :: s) := noDigit_cons (by omega)
  rw [List.append_assoc, List.cons_append, parse, dropWhile_path hp]
  simp only [SEPARATOR, ne_eq, not_true_eq_false, if_false]
  rw [parseLine, scanZu_number h10 hn, dropWhile_digits (digitsOf_digits n n).2 h10]
  simp [SEPARATOR]

theorem parse_macro {path s : List Nat} {n k : Nat} {cmt : Cmt} (hp : PathOk path) (hn : n < 4611686018427387904) (hk : k < 4611686018427387904) :
    parse cmt (path ++ (32 :: digitsOf n n ++ 32 :: digitsOf k k) ++ 10 :: s) = { cmt with line := n, symbol := k } := by
  have h10 : NoDigit (10 :: s) := noDigit_cons (by omega)
  have h32 : NoDigit (32 :: (digitsOf k k ++ 10 :: s)) := noDigit_cons (by omega)
  rw [List.append_assoc, List.cons_append, List.cons_append, parse, dropWhile_path hp]
  simp only [SEPARATOR, ne_eq, not_true_eq_false, if_false]
  rw [List.append_assoc, List.cons_append, parseLine, scanZu_number h32 hn, dropWhile_digits (digitsOf_digits n n).2 h32]
  simp only [SEPARATOR, ne_eq, not_true_eq_false, if_false]
  rw [if_neg (by decide), parseSymbol, scanZu_number h10 hk]
  simp

/-- Going back to the beginning without finding a comment. -/
theorem reverseLoop_none {text : List Nat} : ∀ (i line : Nat), (∀ k, 1 ≤ k → k ≤ i → atText text k = 10 ∨ matchLoop text k PREFIX.reverse 0 = some false) →
    ∃ line', reverseLoop text i line = some (line', none) := by
  intro i
  induction i with
  | zero => intro line _; exact ⟨line, rfl⟩
  | succ i ih =>
    intro line h
    rw [reverseLoop]
    by_cases h10 : atText text (i + 1) = 10
    · rw [if_pos h10]
      exact ih _ fun k h1 h2 => h k h1 (by omega)
    · rw [if_neg h10]
      rcases h (i + 1) (by omega) (Nat.le_refl _) with h0 | h0
      · exact absurd h0 h10
      · rw [h0]
        exact ih _ fun k h1 h2 => h k h1 (by omega)

theorem match_low {text : List Nat} {i : Nat} (hi : 1 ≤ i) (h : i < 3) (h1 : ¬ [32, 35] <+: text) (h2 : ¬ [47, 32, 35] <+: text) :
    matchLoop text i PREFIX.reverse 0 = some false := by
  have hp : PREFIX.reverse = [35, 32, 47, 47] := by decide
  rw [hp]
  obtain rfl | rfl : i = 1 ∨ i = 2 := by omega
  · by_cases h3 : 35 = atText text 1
    · by_cases h4 : 32 = atText text 0
      · exfalso
        have e0 := some_of_at (by omega) h4.symm
        have e1 := some_of_at (by omega) h3.symm
        match text, e0, e1 with
        | [], e0, _ => simp at e0
        | [_], _, e1 => simp at e1
        | x :: y :: s, e0, e1 =>
          simp at e0 e1
          exact h1 ⟨s, by rw [e0, e1]; rfl⟩
      · simp [matchLoop, h3, h4]
    · simp [matchLoop, h3]
  · by_cases h3 : 35 = atText text 2
    · by_cases h4 : 32 = atText text 1
      · by_cases h5 : 47 = atText text 0
        · exfalso
          have e0 := some_of_at (by omega) h5.symm
          have e1 := some_of_at (by omega) h4.symm
          have e2 := some_of_at (by omega) h3.symm
          match text, e0, e1, e2 with
          | [], e0, _, _ => simp at e0
          | [_], _, e1, _ => simp at e1
          | [_, _], _, _, e2 => simp at e2
          | x :: y :: z :: s, e0, e1, e2 =>
            simp at e0 e1 e2
            exact h2 ⟨s, by rw [e0, e1, e2]; rfl⟩
        · simp [matchLoop, h3, h4, h5]
      · simp [matchLoop, h3, h4]
    · simp [matchLoop, h3]

theorem hit_of_not {text : List Nat} {i : Nat} (h3 : 3 ≤ i) (h : ¬ NoHit text i) : HitAt text (i - 3) := by
  have hh : atText text i = 35 ∧ atText text (i - 1) = 32 ∧ atText text (i - 2) = 47 ∧ atText text (i - 3) = 47 :=
    Classical.byContradiction fun hn => h ⟨h3, hn⟩
  obtain ⟨h0, h1, h2, h4⟩ := hh
  refine ⟨some_of_at (by omega) h4, some_of_at (by omega) ?_, some_of_at (by omega) ?_, some_of_at (by omega) ?_⟩
  · rw [show i - 3 + 1 = i - 2 by omega]; exact h2
  · rw [show i - 3 + 2 = i - 1 by omega]; exact h1
  · rw [show i - 3 + 3 = i by omega]; exact h0

/-- The column of a tag. -/
theorem columnLoop_spec {first : Nat} : ∀ (rest : List Nat) {done more : List Nat} {fuel symbol : Nat}, (∀ c ∈ rest, c < 0x200000) → rest.length ≤ fuel →
    first = (encodeAll (done ++ rest)).length → symbol = done.length + (encodeAll rest).length → symbol < 4611686018427387904 →
    columnLoop (encodeAll (done ++ rest ++ more)) first fuel (encodeAll done).length symbol = done.length + rest.length := by
  intro rest
  induction rest with
  | nil =>
    intro done more fuel symbol _ _ hf hsym _
    have hs : symbol = done.length := by simpa [encodeAll] using hsym
    cases fuel with
    | zero => rw [columnLoop, hs]; simp
    | succ fuel => rw [columnLoop, if_neg (by rw [hf]; simp), hs]; simp
  | cons c rest ih =>
    intro done more fuel symbol hv hfuel hf hsym hsz
    obtain ⟨fuel, rfl⟩ : ∃ k, fuel = k + 1 := ⟨fuel - 1, by simp at hfuel; omega⟩
    obtain ⟨b, s, h1, h2, _⟩ := symbolSize_encode' (hv c (by simp))
    have hat : atText (encodeAll (done ++ (c :: rest) ++ more)) (encodeAll done).length = b := by
      rw [List.append_assoc, encodeAll_append, List.cons_append, encodeAll_cons, h1, List.cons_append, at_mid]
    have hpos : 0 < (encode c).length := by rw [h1]; simp
    have hlt : (encodeAll done).length < first := by
      rw [hf, encodeAll_append, encodeAll_cons]
      simp only [List.length_append]; omega
    have hsub : usub symbol (symbolSize b - 1) = symbol - ((encode c).length - 1) := by
      unfold usub
      rw [if_pos, h2]
      rw [h2, hsym, encodeAll_cons, List.length_append]; omega
    have hidx : (encodeAll done).length + symbolSize b = (encodeAll (done ++ [c])).length := by
      rw [h2, encodeAll_append, List.length_append, encodeAll_cons, encodeAll_nil, List.append_nil]
    rw [columnLoop, if_pos hlt, hat, hsub, hidx]
    have := ih (done := done ++ [c]) (more := more) (fuel := fuel) (symbol := symbol - ((encode c).length - 1)) (fun x hx => hv x (by simp [hx]))
      (by simp at hfuel; omega) (by rw [hf]; simp) (by
        rw [hsym, encodeAll_cons]
        simp only [List.length_append, List.length_cons, List.length_nil]; omega) (by omega)
    simp only [List.append_assoc, List.singleton_append, List.length_append, List.length_cons, List.length_nil] at this ⊢
    rw [this]; omega

end RuC.Commenter
