import Verif.Outline.Reads

/-!
# Where the ends of lines can come from
-/

namespace RuC.Outline

theorem clean_app {s t : Text} : Clean (s ++ t) ↔ Clean s ∧ Clean t := by
  simp [Clean]

theorem clean_decimal (n : Nat) : Clean (decimal n) := by
  intro h
  have := Nat.isDigit_of_mem_toDigits (by omega) (by omega) h
  revert this; decide

theorem clean_signed (i : Int) : Clean (signed i) := by
  cases i with
  | ofNat n => exact clean_decimal n
  | negSucc n =>
    have := clean_decimal (n + 1)
    simpa [signed, Clean] using this

theorem clean_unary (op : Unary) : Clean (unarySign op) := by
  cases op <;> (unfold Clean; decide +kernel)

theorem clean_binary (op : Binary) : Clean (binarySign op) := by
  cases op <;> (unfold Clean; decide +kernel)

/-- A text that is there in the source of the writer. -/
theorem clean_const {s : Text} (h : s.contains '\n' = false) : Clean s := by
  simpa [Clean] using h

theorem clean_meta (m : Meta) (h : Clean m.type) : Clean (metaText m) := by
  unfold metaText
  refine clean_app.2 ⟨clean_app.2 ⟨clean_app.2 ⟨clean_app.2 ⟨clean_app.2 ⟨clean_app.2 ⟨clean_app.2 ⟨?_, clean_const (by decide +kernel)⟩, h⟩,
    clean_const (by decide +kernel)⟩, clean_decimal _⟩, clean_const (by decide +kernel)⟩, clean_decimal _⟩, clean_const (by decide +kernel)⟩
  cases m.lvalue <;> exact clean_const (by decide +kernel)

theorem clean_char : ∀ n < 256, n ≠ 10 → Char.ofNat n ≠ '\n' := by decide +kernel

theorem clean_value (v : Lit) (h : v.Clean) : Clean (valueText v) := by
  cases v with
  | boolean b => cases b <;> exact clean_const (by decide +kernel)
  | character c =>
    have := clean_char (c % 256) (Nat.mod_lt _ (by omega)) h
    simpa [valueText, Clean] using this.symm
  | integer i => exact clean_signed i
  | floating s => exact h
  | string s => exact clean_app.2 ⟨clean_app.2 ⟨clean_const (by decide +kernel), h⟩, clean_const (by decide +kernel)⟩
  | null => exact clean_const (by decide +kernel)
  | other => exact clean_const (by decide +kernel)

theorem node_line {l : Text} {kids : Roses} (h : Clean l) (k : kids.oneLine = true) : (Rose.node l kids).oneLine = true := by
  rw [Rose.oneLine, k, Bool.and_true, Bool.not_eq_true', List.contains_eq_mem]
  exact decide_eq_false h

theorem cons_line {r : Rose} {rs : Roses} (h : r.oneLine = true) (k : rs.oneLine = true) : (Roses.cons r rs).oneLine = true := by
  rw [Roses.oneLine, h, k]; rfl

theorem app_line : ∀ {x y : Roses}, x.oneLine = true → y.oneLine = true → (x ++ y).oneLine = true
  | .nil, _, _, k => k
  | .cons r rs, y, h, k => by
    rw [Roses.oneLine, Bool.and_eq_true] at h
    exact cons_line h.1 (app_line h.2 k)

theorem nil_line : Roses.nil.oneLine = true := rfl

mutual
theorem expr_line : ∀ e : Expr, e.Clean → (exprTree e).oneLine = true
  | .ident m s id, h => by
    rw [exprTree, exprLine.eq_def]
    exact node_line (clean_app.2 ⟨clean_app.2 ⟨clean_app.2 ⟨clean_app.2 ⟨clean_const (by decide +kernel), h.2⟩, clean_const (by decide +kernel)⟩, clean_decimal _⟩, clean_meta _ h.1⟩) (nil_line)
  | .literal m v, h => by
    rw [exprTree, exprLine.eq_def]
    exact node_line (clean_app.2 ⟨clean_app.2 ⟨clean_const (by decide +kernel), clean_value _ h.2⟩, clean_meta _ h.1⟩) (nil_line)
  | .subscript m a b, h => by
    rw [exprTree, exprLine.eq_def]
    exact node_line (clean_app.2 ⟨clean_const (by decide +kernel), clean_meta _ h.1⟩) (cons_line (expr_line a h.2.1) (cons_line (expr_line b h.2.2) (nil_line)))
  | .call m a b, h => by
    rw [exprTree, exprLine.eq_def]
    exact node_line (clean_app.2 ⟨clean_const (by decide +kernel), clean_meta _ h.1⟩) (cons_line (expr_line a h.2.1) (exprs_line b h.2.2))
  | .member m true name i a, h => by
    rw [exprTree, exprLine.eq_def]
    exact node_line (clean_app.2 ⟨clean_app.2 ⟨clean_app.2 ⟨clean_app.2 ⟨clean_const (by decide +kernel), h.2.1⟩, clean_const (by decide +kernel)⟩, clean_decimal _⟩, clean_meta _ h.1⟩) (cons_line (expr_line a h.2.2) (nil_line))
  | .member m false name i a, h => by
    rw [exprTree, exprLine.eq_def]
    exact node_line (clean_app.2 ⟨clean_app.2 ⟨clean_app.2 ⟨clean_app.2 ⟨clean_const (by decide +kernel), h.2.1⟩, clean_const (by decide +kernel)⟩, clean_decimal _⟩, clean_meta _ h.1⟩) (cons_line (expr_line a h.2.2) (nil_line))
  | .cast m s a, h => by
    rw [exprTree, exprLine.eq_def]
    exact node_line (clean_app.2 ⟨clean_app.2 ⟨clean_app.2 ⟨clean_app.2 ⟨clean_const (by decide +kernel), h.2.1⟩, clean_const (by decide +kernel)⟩, h.1⟩, clean_meta _ h.1⟩) (cons_line (expr_line a h.2.2) (nil_line))
  | .unary m op a, h => by
    rw [exprTree, exprLine.eq_def]
    exact node_line (clean_app.2 ⟨clean_app.2 ⟨clean_const (by decide +kernel), clean_unary _⟩, clean_meta _ h.1⟩) (cons_line (expr_line a h.2) (nil_line))
  | .binary m op a b, h => by
    rw [exprTree, exprLine.eq_def]
    exact node_line (clean_app.2 ⟨clean_app.2 ⟨clean_const (by decide +kernel), clean_binary _⟩, clean_meta _ h.1⟩) (cons_line (expr_line a h.2.1) (cons_line (expr_line b h.2.2) (nil_line)))
  | .ternary m a b c, h => by
    rw [exprTree, exprLine.eq_def]
    exact node_line (clean_app.2 ⟨clean_const (by decide +kernel), clean_meta _ h.1⟩) (cons_line (expr_line a h.2.1) (cons_line (expr_line b h.2.2.1) (cons_line (expr_line c h.2.2.2) (nil_line))))
  | .assignment m op a b, h => by
    rw [exprTree, exprLine.eq_def]
    exact node_line (clean_app.2 ⟨clean_app.2 ⟨clean_const (by decide +kernel), clean_binary _⟩, clean_meta _ h.1⟩) (cons_line (expr_line a h.2.1) (cons_line (expr_line b h.2.2) (nil_line)))
  | .initializer m a, h => by
    rw [exprTree, exprLine.eq_def]
    exact node_line (clean_app.2 ⟨clean_const (by decide +kernel), clean_meta _ h.1⟩) (exprs_line a h.2)
  | .emptyBound, _ => by
    rw [exprTree, exprLine.eq_def]
    exact node_line (clean_const (by decide +kernel)) (nil_line)
  | .invalid, _ => by
    rw [exprTree, exprLine.eq_def]
    exact node_line (clean_const (by decide +kernel)) (nil_line)
theorem exprs_line : ∀ es : Exprs, es.Clean → (exprTrees es).oneLine = true
  | .nil, _ => nil_line
  | .cons e es, h => by rw [exprTrees]; exact cons_line (expr_line e h.1) (exprs_line es h.2)
end

theorem opt_line (o : Option Expr) (h : optClean o) : (optTree o).oneLine = true := by
  cases o with
  | none => rfl
  | some e => exact cons_line (expr_line e h) nil_line

mutual
theorem decl_line : ∀ d : Decl, d.Clean → (declTree d).oneLine = true
  | .var s id t b i, h => by rw [declTree]; exact node_line (clean_app.2 ⟨clean_app.2 ⟨clean_app.2 ⟨clean_app.2 ⟨clean_app.2 ⟨clean_app.2 ⟨clean_const (by decide +kernel), h.1⟩, clean_const (by decide +kernel)⟩, clean_decimal _⟩, clean_const (by decide +kernel)⟩, h.2.1⟩, clean_const (by decide +kernel)⟩) (app_line (exprs_line b h.2.2.1) (opt_line i h.2.2.2))
  | .member n t b, h => by rw [declTree]; exact node_line (clean_app.2 ⟨clean_app.2 ⟨clean_app.2 ⟨clean_app.2 ⟨clean_const (by decide +kernel), h.1⟩, clean_const (by decide +kernel)⟩, h.2.1⟩, clean_const (by decide +kernel)⟩) (exprs_line b h.2.2)
  | .struct ds, h => by rw [declTree]; exact node_line (clean_const (by decide +kernel)) (decls_line ds h)
  | .func s id t b, h => by rw [declTree]; exact node_line (clean_app.2 ⟨clean_app.2 ⟨clean_app.2 ⟨clean_app.2 ⟨clean_app.2 ⟨clean_app.2 ⟨clean_const (by decide +kernel), h.1⟩, clean_const (by decide +kernel)⟩, clean_decimal _⟩, clean_const (by decide +kernel)⟩, h.2.1⟩, clean_const (by decide +kernel)⟩) (cons_line (stmt_line b h.2.2) nil_line)
  | .invalid, _ => by rw [declTree]; exact node_line (clean_const (by decide +kernel)) (nil_line)
theorem decls_line : ∀ ds : Decls, ds.Clean → (declTrees ds).oneLine = true
  | .nil, _ => nil_line
  | .cons d ds, h => by rw [declTrees]; exact cons_line (decl_line d h.1) (decls_line ds h.2)
theorem stmt_line : ∀ s : Stmt, s.Clean → (stmtTree s).oneLine = true
  | .decl ds, h => by rw [stmtTree]; exact node_line (clean_const (by decide +kernel)) (decls_line ds h)
  | .case e s, h => by rw [stmtTree]; exact node_line (clean_const (by decide +kernel)) (cons_line (expr_line e h.1) (cons_line (stmt_line s h.2) (nil_line)))
  | .default s, h => by rw [stmtTree]; exact node_line (clean_const (by decide +kernel)) (cons_line (stmt_line s h) (nil_line))
  | .compound ss, h => by rw [stmtTree]; exact node_line (clean_const (by decide +kernel)) (stmts_line ss h)
  | .null, _ => by rw [stmtTree]; exact node_line (clean_const (by decide +kernel)) (nil_line)
  | .cond c s o, h => by rw [stmtTree]; exact node_line (clean_const (by decide +kernel)) (cons_line (expr_line c h.1) (cons_line (stmt_line s h.2.1) (ostmt_line o h.2.2)))
  | .switch c s, h => by rw [stmtTree]; exact node_line (clean_const (by decide +kernel)) (cons_line (expr_line c h.1) (cons_line (stmt_line s h.2) (nil_line)))
  | .while c s, h => by rw [stmtTree]; exact node_line (clean_const (by decide +kernel)) (cons_line (expr_line c h.1) (cons_line (stmt_line s h.2) (nil_line)))
  | .dowhile s c, h => by rw [stmtTree]; exact node_line (clean_const (by decide +kernel)) (cons_line (stmt_line s h.1) (cons_line (expr_line c h.2) (nil_line)))
  | .loop i c n s, h => by rw [stmtTree]; exact node_line (clean_const (by decide +kernel)) (app_line (ostmt_line i h.1) (app_line (opt_line c h.2.1) (app_line (ostmt_line n h.2.2.1) (cons_line (stmt_line s h.2.2.2) nil_line))))
  | .continue, _ => by rw [stmtTree]; exact node_line (clean_const (by decide +kernel)) (nil_line)
  | .break, _ => by rw [stmtTree]; exact node_line (clean_const (by decide +kernel)) (nil_line)
  | .return e, h => by rw [stmtTree]; exact node_line (clean_const (by decide +kernel)) (opt_line e h)
  | .expr e, h => by rw [stmtTree]; exact expr_line e h
theorem stmts_line : ∀ ss : Stmts, ss.Clean → (stmtTrees ss).oneLine = true
  | .nil, _ => nil_line
  | .cons s ss, h => by rw [stmtTrees]; exact cons_line (stmt_line s h.1) (stmts_line ss h.2)
theorem ostmt_line : ∀ o : OStmt, o.Clean → (ostmtTree o).oneLine = true
  | .none, _ => nil_line
  | .some s, h => by rw [ostmtTree]; exact cons_line (stmt_line s h) nil_line
end

end RuC.Outline
