import Verif.Outline.Lemmas

/-!
# An outline is read back as its tree
-/

namespace RuC.Outline

theorem lines_line (r : Text) : ∀ l : Text, '\n' ∉ l → lines (l ++ '\n' :: r) = l :: lines r
  | [], _ => by simp [lines]
  | c :: l, h => by
    have hc : c ≠ '\n' := by intro e; exact h (by simp [e])
    have hl : '\n' ∉ l := fun m => h (List.mem_cons_of_mem _ m)
    rw [List.cons_append, lines, if_neg hc, lines_line r l hl]

theorem blanks_clean : ∀ n, '\n' ∉ blanks n
  | 0 => by simp [blanks]
  | n + 1 => by simp [blanks, blanks_clean n]

theorem level_blanks (l : Text) (h : l.head? ≠ some ' ') : ∀ n, level (blanks n ++ l) = (n, l)
  | 0 => by
    rw [blanks, List.nil_append, level.eq_def]
    split
    · simp at h
    · rfl
  | n + 1 => by simp [blanks, level, level_blanks l h n]

mutual
/-- No line begins with a space. -/
def Rose.Inked : Rose → Prop
  | .node l kids => l.head? ≠ some ' ' ∧ kids.Inked
def Roses.Inked : Roses → Prop
  | .nil => True
  | .cons r rs => r.Inked ∧ rs.Inked
end

mutual
/-- The levels and lines of a tree. -/
def Rose.flat : Nat → Rose → List (Nat × Text)
  | d, .node l kids => (d, l) :: kids.flat (d + 1)
def Roses.flat : Nat → Roses → List (Nat × Text)
  | _, .nil => []
  | d, .cons r rs => r.flat d ++ rs.flat d
end

mutual
theorem lines_rose : ∀ (x : Rose) (d : Nat) (r : Text), x.oneLine = true → x.Inked → (lines (x.text d ++ r)).map level = x.flat d ++ (lines r).map level
  | .node l kids, d, r, h, i => by
    rw [Rose.oneLine, Bool.and_eq_true, Bool.not_eq_true', List.contains_eq_mem, decide_eq_false_iff_not] at h
    have h1 : '\n' ∉ blanks d ++ l := by
      simp only [List.mem_append, not_or]; exact ⟨blanks_clean d, h.1⟩
    have e : Rose.text d (.node l kids) ++ r = (blanks d ++ l) ++ '\n' :: (kids.text (d + 1) ++ r) := by
      simp [Rose.text]
    rw [e, lines_line _ _ h1, List.map_cons, level_blanks l i.1, lines_roses kids (d + 1) r h.2 i.2]
    rfl
theorem lines_roses : ∀ (x : Roses) (d : Nat) (r : Text), x.oneLine = true → x.Inked → (lines (x.text d ++ r)).map level = x.flat d ++ (lines r).map level
  | .nil, d, r, _, _ => rfl
  | .cons x xs, d, r, h, i => by
    rw [Roses.oneLine, Bool.and_eq_true] at h
    rw [Roses.text, List.append_assoc, lines_rose x d _ h.1 i.1, lines_roses xs d r h.2 i.2, Roses.flat, List.append_assoc]
end

theorem grow_stop (f d : Nat) (rest : List (Nat × Text)) (h : ∀ x ∈ rest.head?, x.1 < d) : grow f d rest = (.nil, rest) := by
  cases f with
  | zero => rfl
  | succ f =>
    cases rest with
    | nil => rfl
    | cons x xs =>
      have : x.1 < d := h x (by simp)
      obtain ⟨k, l⟩ := x
      rw [grow, if_neg (by simp only at this; omega)]

theorem head_flat (d : Nat) (rest : List (Nat × Text)) (h : ∀ x ∈ rest.head?, x.1 < d) :
    ∀ xs : Roses, ∀ x ∈ (xs.flat d ++ rest).head?, x.1 < d + 1
  | .nil, x, hx => by
    have := h x (by simpa [Roses.flat] using hx)
    omega
  | .cons (.node l kids) xs, x, hx => by
    simp only [Roses.flat, Rose.flat, List.cons_append, List.head?_cons, Option.mem_def, Option.some.injEq] at hx
    subst hx; simp

theorem grow_flat : ∀ (f : Nat) (xs : Roses) (d : Nat) (rest : List (Nat × Text)), (xs.flat d).length < f → (∀ x ∈ rest.head?, x.1 < d) →
    grow f d (xs.flat d ++ rest) = (xs, rest)
  | 0, _, _, _, hf, _ => by omega
  | f + 1, .nil, d, rest, _, h => by
    simpa [Roses.flat] using grow_stop (f + 1) d rest h
  | f + 1, .cons (.node l kids) xs, d, rest, hf, h => by
    simp only [Roses.flat, Rose.flat, List.cons_append, List.length_cons, List.length_append] at hf
    simp only [Roses.flat, Rose.flat, List.cons_append, List.append_assoc]
    rw [grow, if_pos rfl]
    simp only [grow_flat f kids (d + 1) (xs.flat d ++ rest) (by omega) (head_flat d rest h xs), grow_flat f xs d rest (by omega) h]

/-- A text that begins with something that is not a space. -/
theorem inked_app {s : Text} (h : s.head?.any (· ≠ ' ') = true) (t : Text) : (s ++ t).head? ≠ some ' ' := by
  cases s with
  | nil => simp at h
  | cons c cs => simpa using h

theorem inked_self {s : Text} (h : s.head?.any (· ≠ ' ') = true) : s.head? ≠ some ' ' := by
  simpa using inked_app h []

theorem exprLine_inked (e : Expr) : (exprLine e).head? ≠ some ' ' := by
  unfold exprLine
  split <;> (try simp only [List.append_assoc]) <;> first | exact inked_app (by decide +kernel) _ | exact inked_self (by decide +kernel)

mutual
theorem exprTree_inked : ∀ e : Expr, (exprTree e).Inked
  | .ident .. => by rw [exprTree]; exact ⟨exprLine_inked _, trivial⟩
  | .literal .. => by rw [exprTree]; exact ⟨exprLine_inked _, trivial⟩
  | .subscript _ a b => by rw [exprTree]; exact ⟨exprLine_inked _, ⟨exprTree_inked a, ⟨exprTree_inked b, trivial⟩⟩⟩
  | .call _ a b => by rw [exprTree]; exact ⟨exprLine_inked _, ⟨exprTree_inked a, exprTrees_inked b⟩⟩
  | .member _ _ _ _ a => by rw [exprTree]; exact ⟨exprLine_inked _, ⟨exprTree_inked a, trivial⟩⟩
  | .cast _ _ a => by rw [exprTree]; exact ⟨exprLine_inked _, ⟨exprTree_inked a, trivial⟩⟩
  | .unary _ _ a => by rw [exprTree]; exact ⟨exprLine_inked _, ⟨exprTree_inked a, trivial⟩⟩
  | .binary _ _ a b => by rw [exprTree]; exact ⟨exprLine_inked _, ⟨exprTree_inked a, ⟨exprTree_inked b, trivial⟩⟩⟩
  | .ternary _ a b c => by rw [exprTree]; exact ⟨exprLine_inked _, ⟨exprTree_inked a, ⟨exprTree_inked b, ⟨exprTree_inked c, trivial⟩⟩⟩⟩
  | .assignment _ _ a b => by rw [exprTree]; exact ⟨exprLine_inked _, ⟨exprTree_inked a, ⟨exprTree_inked b, trivial⟩⟩⟩
  | .initializer _ a => by rw [exprTree]; exact ⟨exprLine_inked _, exprTrees_inked a⟩
  | .emptyBound => by rw [exprTree]; exact ⟨exprLine_inked _, trivial⟩
  | .invalid => by rw [exprTree]; exact ⟨exprLine_inked _, trivial⟩
theorem exprTrees_inked : ∀ es : Exprs, (exprTrees es).Inked
  | .nil => trivial
  | .cons e es => ⟨exprTree_inked e, exprTrees_inked es⟩
end

theorem inked_append : ∀ x y : Roses, x.Inked → y.Inked → (x ++ y).Inked
  | .nil, _, _, h => h
  | .cons _ rs, y, h, k => ⟨h.1, inked_append rs y h.2 k⟩

theorem optTree_inked (o : Option Expr) : (optTree o).Inked := by
  cases o with
  | none => trivial
  | some e => exact ⟨exprTree_inked e, trivial⟩

mutual
theorem declTree_inked : ∀ d : Decl, (declTree d).Inked
  | .var _ _ _ b i => by rw [declTree]; simp only [List.append_assoc]; exact ⟨inked_app (by decide +kernel) _, inked_append _ _ (exprTrees_inked b) (optTree_inked i)⟩
  | .member _ _ b => by rw [declTree]; simp only [List.append_assoc]; exact ⟨inked_app (by decide +kernel) _, exprTrees_inked b⟩
  | .struct ds => by rw [declTree]; exact ⟨inked_self (by decide +kernel), declTrees_inked ds⟩
  | .func _ _ _ s => by rw [declTree]; simp only [List.append_assoc]; exact ⟨inked_app (by decide +kernel) _, ⟨stmtTree_inked s, trivial⟩⟩
  | .invalid => by rw [declTree]; exact ⟨inked_self (by decide +kernel), trivial⟩
theorem declTrees_inked : ∀ ds : Decls, (declTrees ds).Inked
  | .nil => trivial
  | .cons d ds => ⟨declTree_inked d, declTrees_inked ds⟩
theorem stmtTree_inked : ∀ s : Stmt, (stmtTree s).Inked
  | .decl ds => by rw [stmtTree]; exact ⟨inked_self (by decide +kernel), declTrees_inked ds⟩
  | .case e s => by rw [stmtTree]; exact ⟨inked_self (by decide +kernel), ⟨exprTree_inked e, ⟨stmtTree_inked s, trivial⟩⟩⟩
  | .default s => by rw [stmtTree]; exact ⟨inked_self (by decide +kernel), ⟨stmtTree_inked s, trivial⟩⟩
  | .compound ss => by rw [stmtTree]; exact ⟨inked_self (by decide +kernel), stmtTrees_inked ss⟩
  | .null => by rw [stmtTree]; exact ⟨inked_self (by decide +kernel), trivial⟩
  | .cond c s o => by rw [stmtTree]; exact ⟨inked_self (by decide +kernel), ⟨exprTree_inked c, ⟨stmtTree_inked s, ostmtTree_inked o⟩⟩⟩
  | .switch c s => by rw [stmtTree]; exact ⟨inked_self (by decide +kernel), ⟨exprTree_inked c, ⟨stmtTree_inked s, trivial⟩⟩⟩
  | .while c s => by rw [stmtTree]; exact ⟨inked_self (by decide +kernel), ⟨exprTree_inked c, ⟨stmtTree_inked s, trivial⟩⟩⟩
  | .dowhile s c => by rw [stmtTree]; exact ⟨inked_self (by decide +kernel), ⟨stmtTree_inked s, ⟨exprTree_inked c, trivial⟩⟩⟩
  | .loop i c n s => by rw [stmtTree]; exact ⟨inked_self (by decide +kernel), inked_append _ _ (ostmtTree_inked i) (inked_append _ _ (optTree_inked c) (inked_append _ _ (ostmtTree_inked n) ⟨stmtTree_inked s, trivial⟩))⟩
  | .continue => by rw [stmtTree]; exact ⟨inked_self (by decide +kernel), trivial⟩
  | .break => by rw [stmtTree]; exact ⟨inked_self (by decide +kernel), trivial⟩
  | .return e => by rw [stmtTree]; exact ⟨inked_self (by decide +kernel), optTree_inked e⟩
  | .expr e => exprTree_inked e
theorem stmtTrees_inked : ∀ ss : Stmts, (stmtTrees ss).Inked
  | .nil => trivial
  | .cons s ss => ⟨stmtTree_inked s, stmtTrees_inked ss⟩
theorem ostmtTree_inked : ∀ o : OStmt, (ostmtTree o).Inked
  | .none => trivial
  | .some s => ⟨stmtTree_inked s, trivial⟩
end

theorem readOutline_text (title : Text) (xs : Roses) (ht : '\n' ∉ title) (h : xs.oneLine = true) (i : xs.Inked) :
    readOutline (title ++ '\n' :: xs.text 1) = some (.node title xs) := by
  have hm : (lines (xs.text 1)).map level = xs.flat 1 := by
    have := lines_roses xs 1 [] h i
    simpa [lines] using this
  have hl : (lines (xs.text 1)).length = (xs.flat 1).length := by rw [← hm, List.length_map]
  have hg := grow_flat ((xs.flat 1).length + 1) xs 1 [] (by omega) (by simp)
  rw [List.append_nil] at hg
  simp [readOutline, lines_line _ _ ht, hm, hl, hg]

end RuC.Outline
