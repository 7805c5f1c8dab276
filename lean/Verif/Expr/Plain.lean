import Verif.Expr.Sound

/-! Trees over names and binary operators. -/

namespace RuC.Expr
open RuC RuC.Lexer RuC.Expr.Spec

theorem plain_level {k : Nat} {l : List Tok} {e : Exp} (h : Plain k l e) : 1 ≤ k ∧ k ≤ 14 := by
  cases h with
  | name => exact ⟨by omega, by omega⟩
  | node hb => have := binary_le hb; omega

theorem plain_grammar {k : Nat} {l : List Tok} {e : Exp} (h : Plain k l e) : ∀ b, G (.level b k) l [e] := by
  induction h with
  | name n => exact fun b => .operand (.ofPostfix (.ofPrimary (.atom (.ident n))))
  | @node p q op i j l r x y hb hx hy hi hj ihx ihy =>
    intro b
    obtain ⟨b1, b2, b3⟩ := binary_le hb
    have := plain_level hx
    have := plain_level hy
    by_cases h2 : p = 2
    · subst h2
      exact .assign hb (loosen (ihx b) (by omega) (by omega) (by omega)) (loosen (ihy true) (by omega) (by omega) (by omega))
    · exact .left hb h2 (loosen (ihx b) (by omega) (by omega) (by omega)) (loosen (ihy true) (by omega) (by omega) (by omega))

/-- One more operator and name at the end. -/
theorem plain_snoc {k : Nat} {l : List Tok} {e : Exp} (h : Plain k l e) {p : Nat} {q : Punct} {op : Binary} (hb : IsBinary p q op) (n : List Nat) :
    ∃ e', Plain (min p k) (l ++ [.punct q, .ident n]) e' := by
  induction h with
  | name m =>
    have := binary_le hb
    refine ⟨.binary op (.ident m) (.ident n), ?_⟩
    rw [Nat.min_eq_left (by omega)]
    exact .node hb (.name m) (.name n) (Or.inl (by omega)) (Or.inl (by omega))
  | @node p' q' op' i j l r x y hb' hx hy hi hj ihx ihy =>
    have b1 := binary_le hb
    have b2 := binary_le hb'
    by_cases hc : p < p' ∨ (p = p' ∧ p ≠ 2)
    · refine ⟨.binary op (.binary op' x y) (.ident n), ?_⟩
      rw [Nat.min_eq_left (by omega)]
      exact .node hb (.node hb' hx hy hi hj) (.name n) hc (Or.inl (by omega))
    · obtain ⟨y', hy'⟩ := ihy
      refine ⟨.binary op' x y', ?_⟩
      rw [Nat.min_eq_right (by omega)]
      have := Plain.node hb' hx hy' hi (by omega)
      simpa using this

theorem sequence_snoc (first : List Nat) (more : List (Punct × List Nat)) (q : Punct) (n : List Nat) :
    sequence first (more ++ [(q, n)]) = sequence first more ++ [.punct q, .ident n] := by
  induction more generalizing first with
  | nil => rfl
  | cons a more ih =>
    obtain ⟨r, m⟩ := a
    simp only [List.cons_append, sequence]
    rw [ih]

theorem plain_exists (first : List Nat) (k : Nat) : ∀ more : List (Punct × List Nat), more.length = k → (∀ a ∈ more, ∃ p op, IsBinary p a.1 op) →
    ∃ k e, Plain k (sequence first more) e := by
  induction k with
  | zero =>
    intro more hk _
    cases more with
    | nil => exact ⟨14, _, .name first⟩
    | cons => simp at hk
  | succ k ih =>
    intro more hk hq
    have hne : more ≠ [] := by intro h; subst h; simp at hk
    rcases hl : more.getLast hne with ⟨q, n⟩
    have e := List.dropLast_concat_getLast hne
    rw [hl] at e
    obtain ⟨j, x, hx⟩ := ih more.dropLast (by simp; omega) fun a ha => hq a (List.dropLast_subset _ ha)
    obtain ⟨p, op, hb⟩ := hq (q, n) (by rw [← hl]; exact List.getLast_mem hne)
    obtain ⟨e', he'⟩ := plain_snoc hx hb n
    rw [← e, sequence_snoc]
    exact ⟨_, e', he'⟩

end RuC.Expr
