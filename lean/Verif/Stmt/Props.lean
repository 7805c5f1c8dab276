import Verif.Stmt.Ends

/-!
# Parsing of statements (C28, C51)
-/

namespace RuC.Stmt.Props
open RuC RuC.Lexer RuC.Expr RuC.Expr.Spec RuC.Stmt RuC.Stmt.Spec

/-- C28: in an accepted statement `break` stands only in a loop or switch, `continue` only in a loop, `case`
and `default` only in a switch; `flags` says what is around the statement. -/
theorem jumps_placed (names : Names) (flags : Flags) (s rest : List Tok) (st : Stmt) (h : parseStatement names flags s = .ok st rest) :
    Placed flags.inLoop flags.inSwitch st := by
  obtain ⟨o, l, _, hs, _⟩ := (stmt_sound names _).1 _ _ _ _ h
  have := s_placed hs _ _ (Or.inr ⟨o, rfl⟩)
  cases this
  assumption

/-- C28: so at the level of a function body no jump is left outside a loop or switch. -/
theorem body_placed (names : Names) (s rest : List Tok) (st : Stmt) (h : parseStatement names ⟨false, false⟩ s = .ok st rest) :
    Placed false false st :=
  jumps_placed names ⟨false, false⟩ s rest st h

/-- C51: a statement of the grammar is accepted with its tree, unless it ends with an `if` without `else`
and an `else` follows. -/
theorem statement_complete (names : Names) (flags : Flags) (o : Bool) (l rest : List Tok) (st : Stmt)
    (h : S names (.stmt flags.inLoop flags.inSwitch o) l [st]) (hr : o = true → rest.head? ≠ some (.keyword (-32756))) :
    parseStatement names flags (l ++ rest) = .ok st rest := by
  refine stmt_claim h st rest _ rfl (fun ho => ?_) (by simp; omega)
  have := hr ho
  cases rest with
  | nil => simp [cur]
  | cons t rest =>
    rw [cur_cons]
    simpa [TK_ELSE] using this

/-- C51: whatever is accepted is a statement of the grammar; if it ends with an `if` without `else`, no
`else` follows, so an `else` always belongs to the nearest `if` before it. -/
theorem statement_sound (names : Names) (flags : Flags) (s rest : List Tok) (st : Stmt) (h : parseStatement names flags s = .ok st rest) :
    ∃ o l, s = l ++ rest ∧ S names (.stmt flags.inLoop flags.inSwitch o) l [st] ∧ (o = true → rest.head? ≠ some (.keyword (-32756))) := by
  obtain ⟨o, l, hl, hs, ho⟩ := (stmt_sound names _).1 _ _ _ _ h
  refine ⟨o, l, hl, hs, fun h => ?_⟩
  have := ho h
  cases rest with
  | nil => simp
  | cons t rest =>
    rw [cur_cons] at this
    simpa [TK_ELSE] using this

/-- C51: the grammar gives a sequence of tokens at most one statement. -/
theorem statement_unique (names : Names) (w c o o' : Bool) (l : List Tok) (st st' : Stmt) (h : S names (.stmt w c o) l [st])
    (h' : S names (.stmt w c o') l [st']) : st = st' := by
  have h1 := statement_complete names ⟨w, c⟩ o l [] st h (by simp)
  have h2 := statement_complete names ⟨w, c⟩ o' l [] st' h' (by simp)
  rw [h1] at h2
  injection h2

/-- C51: the parser comes to an end on every sequence of tokens. -/
theorem statement_ends (names : Names) (flags : Flags) (s : List Tok) : parseStatement names flags s ≠ .loop :=
  (stmt_ends names _).1 flags s (by omega)

/-! ## Cases -/

private def names : Names := ⟨fun n => n == [116], fun n => n == [116]⟩
private def x : Tok := .ident [120]
private def y : Tok := .ident [121]
private def lp : Tok := .punct .lParen
private def rp : Tok := .punct .rParen
private def sc : Tok := .punct .semicolon

-- `if (x) if (y) x; else y;` : the `else` is in the inner `if`
private theorem case_else : parseStatement names ⟨false, false⟩
    [.keyword (-32750), lp, x, rp, .keyword (-32750), lp, y, rp, x, sc, .keyword (-32756), y, sc] =
    .ok (.if_ (.ident [120]) (.ifElse (.ident [121]) (.expr (.ident [120])) (.expr (.ident [121])))) [] := by rfl

-- `while (x) { t * y; break; }` with a type `t`: the first item is a declaration
private theorem case_while : parseStatement names ⟨false, false⟩
    [.keyword (-32739), lp, x, rp, .punct .lBrace, .ident [116], .punct .star, y, sc, .keyword (-32764), sc, .punct .rBrace] =
    .ok (.while_ (.ident [120]) (.compound [.decl (.named [116]) [⟨[121], true, false, [], none⟩], .break_])) [] := by rfl

-- `if (x) break;` outside of loops is not accepted
private theorem case_break : parseStatement names ⟨false, false⟩ [.keyword (-32750), lp, x, rp, .keyword (-32764), sc] = .error := by rfl

example : Placed false false (.if_ (.ident [120]) (.ifElse (.ident [121]) (.expr (.ident [120])) (.expr (.ident [121])))) :=
  body_placed _ _ _ _ case_else

example : ¬Placed false false (.if_ (.ident [120]) .break_) := by
  intro h
  cases h with
  | if_ h => cases h with | break_ h => simp at h

example := jumps_placed _ _ _ _ _ case_while

example := statement_sound _ _ _ _ _ case_while

example : ∃ o l st, S names (.stmt false false o) l [st] ∧ l.length = 12 := by
  obtain ⟨o, l, hl, h, _⟩ := statement_sound _ _ _ _ _ case_while
  refine ⟨o, l, _, h, ?_⟩
  rw [← List.append_nil l, ← hl]
  rfl

end RuC.Stmt.Props
