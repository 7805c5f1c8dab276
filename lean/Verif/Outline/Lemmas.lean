import Verif.Outline.Spec

/-!
# The writer writes the outline of the tree
-/

namespace RuC.Outline

set_option linter.unusedSimpArgs false

/-- The indentation of a level. -/
def blanks : Nat → Text
  | 0 => []
  | n + 1 => ' ' :: ' ' :: blanks n

mutual
/-- A tree as an outline. -/
def Rose.text : Nat → Rose → Text
  | d, .node l kids => blanks d ++ (l ++ '\n' :: kids.text (d + 1))
/-- Trees as an outline. -/
def Roses.text : Nat → Roses → Text
  | _, .nil => []
  | d, .cons r rs => r.text d ++ rs.text d
end

theorem text_append (d : Nat) : ∀ x y : Roses, (x ++ y).text d = x.text d ++ y.text d
  | .nil, y => rfl
  | .cons r rs, y => by
    show Roses.text d (.cons r (rs ++ y)) = _
    simp only [Roses.text, text_append d rs y, List.append_assoc]

theorem indents_eq : ∀ (n : Nat) (w : W), indents n w = { w with out := w.out ++ blanks n }
  | 0, w => by simp [indents, blanks]
  | n + 1, w => by
    rw [indents, indents_eq n]
    simp [write, blanks]

theorem writeLine_eq (s : Text) (w : W) : writeLine s w = { w with out := w.out ++ (blanks w.indent ++ s) } := by
  simp [writeLine, indents_eq, write]

theorem item_eq (i : Int) : item i = signed i := by
  cases i with
  | ofNat n => simp [item, signed, decimal]
  | negSucc n => simp [item, signed, decimal, Int.negSucc_lt_zero]

theorem writeMeta_eq (m : Meta) (w : W) : writeMeta m w = { w with out := w.out ++ (metaText m ++ ['\n']) } := by
  unfold writeMeta metaText writeLocation
  cases m.lvalue <;> simp [write, zu, decimal]

theorem writeUnary_eq (op : Unary) (w : W) : writeUnary op w = { w with out := w.out ++ unarySign op } := by
  cases op <;> rfl

theorem writeBinary_eq (op : Binary) (w : W) : writeBinary op w = { w with out := w.out ++ binarySign op } := by
  cases op <;> rfl

theorem writeValue_eq (v : Lit) (w : W) : writeValue v w = { w with out := w.out ++ valueText v } := by
  cases v with
  | boolean b => cases b <;> rfl
  | integer i => simp [writeValue, valueText, write, item_eq]
  | other => simp [writeValue, valueText]
  | _ => simp [writeValue, valueText, write]

/-- A whole line for a node below the level of the writer. -/
def put (l : Text) (w : W) : W := { indent := w.indent + 1, out := w.out ++ (blanks (w.indent + 1) ++ (l ++ ['\n'])) }

theorem put_line {s l : Text} (h : s = l ++ ['\n']) (w : W) : writeLine s (enter w) = put l w := by
  subst h; simp only [writeLine_eq, enter, put]

theorem put_meta (s : Text) (m : Meta) (w : W) : writeMeta m (writeLine s (enter w)) = put (s ++ metaText m) w := by
  simp only [writeLine_eq, writeMeta_eq, enter, put, List.append_assoc]

theorem put_unary (s : Text) (op : Unary) (m : Meta) (w : W) :
    writeMeta m (writeUnary op (writeLine s (enter w))) = put (s ++ unarySign op ++ metaText m) w := by
  simp only [writeLine_eq, writeMeta_eq, writeUnary_eq, enter, put, List.append_assoc]

theorem put_binary (s : Text) (op : Binary) (m : Meta) (w : W) :
    writeMeta m (writeBinary op (writeLine s (enter w))) = put (s ++ binarySign op ++ metaText m) w := by
  simp only [writeLine_eq, writeMeta_eq, writeBinary_eq, enter, put, List.append_assoc]

theorem put_ident (m : Meta) (s : Text) (id : Nat) (w : W) : writeIdent m s id (enter w) = put (exprLine (.ident m s id)) w := by
  have e : "EXPR_IDENTIFIER named '".toList = "EXPR_IDENTIFIER".toList ++ " named \'".toList := by decide +kernel
  have f : "' with id ".toList = "\' with id ".toList := rfl
  simp only [writeIdent, writeLine_eq, writeMeta_eq, write, enter, put, exprLine.eq_def, zu, decimal, e, List.append_assoc]

theorem put_literal (m : Meta) (v : Lit) (w : W) : writeLiteral m v (enter w) = put (exprLine (.literal m v)) w := by
  simp only [writeLiteral, writeLine_eq, writeMeta_eq, writeValue_eq, enter, put, exprLine.eq_def, List.append_assoc]

theorem put_member (m : Meta) (arrow : Bool) (name : Text) (i : Nat) (base : Expr) (w : W) :
    writeMemberLine m arrow name i (enter w) = put (exprLine (.member m arrow name i base)) w := by
  have e : "EXPR_MEMBER selecting ->".toList = "EXPR_MEMBER selecting".toList ++ " ->".toList := by decide +kernel
  have f : "EXPR_MEMBER selecting .".toList = "EXPR_MEMBER selecting".toList ++ " .".toList := by decide +kernel
  cases arrow with
  | true => simp only [writeMemberLine, writeLine_eq, writeMeta_eq, write, enter, put, exprLine.eq_def, zu, decimal, e, List.append_assoc, if_true]
  | false =>
    simp only [writeMemberLine, writeLine_eq, writeMeta_eq, write, enter, put, exprLine.eq_def, zu, decimal, f, List.append_assoc, Bool.false_eq_true, if_false]

theorem put_cast (m : Meta) (source : Text) (x : Expr) (w : W) : writeCastLine m source (enter w) = put (exprLine (.cast m source x)) w := by
  simp only [writeCastLine, writeLine_eq, writeMeta_eq, write, enter, put, exprLine.eq_def, List.append_assoc]

theorem put_var (s : Text) (id : Nat) (t : Text) (w : W) : writeDeclVarLine s id t (enter w) =
    put ("DECL_VAR declaring variable named '".toList ++ s ++ "' with id ".toList ++ decimal id ++ " of type '".toList ++ t ++ "'".toList) w := by
  have e : "DECL_VAR declaring variable named '".toList = "DECL_VAR".toList ++ " declaring variable named \'".toList := by decide +kernel
  have f : "'\n".toList = "'".toList ++ ['\n'] := by decide +kernel
  simp only [writeDeclVarLine, writeLine_eq, write, enter, put, zu, decimal, e, f, List.append_assoc]

theorem put_func (s : Text) (id : Nat) (t : Text) (w : W) : writeDeclFuncLine s id t (enter w) =
    put ("DECL_FUNC declaring function named '".toList ++ s ++ "' with id ".toList ++ decimal id ++ " of type '".toList ++ t ++ "'".toList) w := by
  have e : "DECL_FUNC declaring function named '".toList = "DECL_FUNC".toList ++ " declaring function named \'".toList := by decide +kernel
  have f : "'\n".toList = "'".toList ++ ['\n'] := by decide +kernel
  simp only [writeDeclFuncLine, writeLine_eq, write, enter, put, zu, decimal, e, f, List.append_assoc]

theorem put_memberDecl (name t : Text) (w : W) : writeDeclMemberLine name t (enter w) =
    put ("DECL_MEMBER declaring member named '".toList ++ name ++ "' of type '".toList ++ t ++ "'".toList) w := by
  have e : "DECL_MEMBER declaring member named '".toList = "DECL_MEMBER".toList ++ " declaring member named \'".toList := by decide +kernel
  have f : "'\n".toList = "'".toList ++ ['\n'] := by decide +kernel
  simp only [writeDeclMemberLine, writeLine_eq, write, enter, put, e, f, List.append_assoc]

theorem text_node (d : Nat) (l : Text) (kids : Roses) : (Rose.node l kids).text d = (blanks d ++ (l ++ ['\n'])) ++ kids.text (d + 1) := by
  simp only [Rose.text, List.append_assoc, List.singleton_append]

mutual
theorem writeExpr_eq : ∀ (e : Expr) (w : W), writeExpr e w = { w with out := w.out ++ (exprTree e).text (w.indent + 1) }
  | .ident m s id, w => by
    rw [writeExpr, exprTree, put_ident]
    simp only [leave, put, text_node, Roses.text, List.append_assoc, List.append_nil, Nat.add_sub_cancel, exprLine.eq_def]
  | .literal m v, w => by
    rw [writeExpr, exprTree, put_literal]
    simp only [leave, put, text_node, Roses.text, List.append_assoc, List.append_nil, Nat.add_sub_cancel, exprLine.eq_def]
  | .subscript m a b, w => by
    rw [writeExpr, exprTree, put_meta]
    simp only [writeExpr_eq a, writeExpr_eq b, leave, put, text_node, Roses.text, List.append_assoc, List.append_nil, Nat.add_sub_cancel, exprLine.eq_def]
  | .call m a b, w => by
    rw [writeExpr, exprTree, put_meta]
    simp only [writeExpr_eq a, writeExprs_eq b, leave, put, text_node, Roses.text, List.append_assoc, List.append_nil, Nat.add_sub_cancel, exprLine.eq_def]
  | .member m arrow name i a, w => by
    rw [writeExpr, exprTree, put_member m arrow name i a]
    simp only [writeExpr_eq a, leave, put, text_node, Roses.text, List.append_assoc, List.append_nil, Nat.add_sub_cancel, exprLine.eq_def]
  | .cast m source a, w => by
    rw [writeExpr, exprTree, put_cast m source a]
    simp only [writeExpr_eq a, leave, put, text_node, Roses.text, List.append_assoc, List.append_nil, Nat.add_sub_cancel, exprLine.eq_def]
  | .unary m op a, w => by
    rw [writeExpr, exprTree, put_unary]
    simp only [writeExpr_eq a, leave, put, text_node, Roses.text, List.append_assoc, List.append_nil, Nat.add_sub_cancel, exprLine.eq_def]
  | .binary m op a b, w => by
    rw [writeExpr, exprTree, put_binary]
    simp only [writeExpr_eq a, writeExpr_eq b, leave, put, text_node, Roses.text, List.append_assoc, List.append_nil, Nat.add_sub_cancel, exprLine.eq_def]
  | .ternary m a b c, w => by
    rw [writeExpr, exprTree, put_meta]
    simp only [writeExpr_eq a, writeExpr_eq b, writeExpr_eq c, leave, put, text_node, Roses.text, List.append_assoc, List.append_nil, Nat.add_sub_cancel, exprLine.eq_def]
  | .assignment m op a b, w => by
    rw [writeExpr, exprTree, put_binary]
    simp only [writeExpr_eq a, writeExpr_eq b, leave, put, text_node, Roses.text, List.append_assoc, List.append_nil, Nat.add_sub_cancel, exprLine.eq_def]
  | .initializer m a, w => by
    rw [writeExpr, exprTree, put_meta]
    simp only [writeExprs_eq a, leave, put, text_node, Roses.text, List.append_assoc, List.append_nil, Nat.add_sub_cancel, exprLine.eq_def]
  | .emptyBound, w => by
    rw [writeExpr, exprTree, put_line (l := "EXPR_EMPTY_BOUND".toList) (by decide +kernel)]
    simp only [leave, put, text_node, Roses.text, List.append_assoc, List.append_nil, Nat.add_sub_cancel, exprLine.eq_def]
  | .invalid, w => by
    rw [writeExpr, exprTree, put_line (l := "EXPR_INVALID".toList) (by decide +kernel)]
    simp only [leave, put, text_node, Roses.text, List.append_assoc, List.append_nil, Nat.add_sub_cancel, exprLine.eq_def]
theorem writeExprs_eq : ∀ (es : Exprs) (w : W), writeExprs es w = { w with out := w.out ++ (exprTrees es).text (w.indent + 1) }
  | .nil, w => by simp only [writeExprs, exprTrees, Roses.text, List.append_nil]
  | .cons e es, w => by simp only [writeExprs, exprTrees, Roses.text, writeExpr_eq e, writeExprs_eq es, List.append_assoc]
end

theorem writeOptExpr_eq (e : Option Expr) (w : W) : writeOptExpr e w = { w with out := w.out ++ (optTree e).text (w.indent + 1) } := by
  cases e <;> simp only [writeOptExpr, optTree, Roses.text, writeExpr_eq, List.append_nil]

mutual
theorem writeDecl_eq : ∀ (d : Decl) (w : W), d.Valid → writeDecl d w = { w with out := w.out ++ (declTree d).text (w.indent + 1) }
  | .var s id t b i, w, _ => by
    rw [writeDecl, declTree, put_var]
    simp only [writeExprs_eq, writeOptExpr_eq, leave, put, text_node, Roses.text, List.append_assoc, List.append_nil, Nat.add_sub_cancel, text_append]
  | .member n t b, w, _ => by
    rw [writeDecl, declTree, put_memberDecl]
    simp only [writeExprs_eq, leave, put, text_node, Roses.text, List.append_assoc, List.append_nil, Nat.add_sub_cancel, text_append]
  | .struct ds, w, h => by
    rw [writeDecl, declTree, put_line (l := "DECL_STRUCT".toList) (by decide +kernel)]
    simp only [writeDecls_eq ds _ h, leave, put, text_node, Roses.text, List.append_assoc, List.append_nil, Nat.add_sub_cancel, text_append]
  | .func s id t b, w, h => by
    rw [writeDecl, declTree, put_func]
    simp only [writeStmt_eq b _ h, leave, put, text_node, Roses.text, List.append_assoc, List.append_nil, Nat.add_sub_cancel, text_append]
theorem writeDecls_eq : ∀ (ds : Decls) (w : W), ds.Valid → writeDecls ds w = { w with out := w.out ++ (declTrees ds).text (w.indent + 1) }
  | .nil, w, _ => by simp only [writeDecls, declTrees, Roses.text, List.append_nil]
  | .cons d ds, w, h => by simp only [writeDecls, declTrees, Roses.text, writeDecl_eq d _ h.1, writeDecls_eq ds _ h.2, List.append_assoc]
theorem writeStmt_eq : ∀ (s : Stmt) (w : W), s.Valid → writeStmt s w = { w with out := w.out ++ (stmtTree s).text (w.indent + 1) }
  | .decl ds, w, h => by
    rw [writeStmt, stmtTree, put_line (l := "STMT_DECL".toList) (by decide +kernel)]
    simp only [writeDecls_eq ds _ h, leave, put, text_node, Roses.text, List.append_assoc, List.append_nil, Nat.add_sub_cancel, text_append]
  | .case e s, w, h => by
    rw [writeStmt, stmtTree, put_line (l := "STMT_CASE".toList) (by decide +kernel)]
    simp only [writeExpr_eq, writeStmt_eq s _ h, leave, put, text_node, Roses.text, List.append_assoc, List.append_nil, Nat.add_sub_cancel, text_append]
  | .default s, w, h => by
    rw [writeStmt, stmtTree, put_line (l := "STMT_DEFAULT".toList) (by decide +kernel)]
    simp only [writeStmt_eq s _ h, leave, put, text_node, Roses.text, List.append_assoc, List.append_nil, Nat.add_sub_cancel, text_append]
  | .compound s, w, h => by
    rw [writeStmt, stmtTree, put_line (l := "STMT_COMPOUND".toList) (by decide +kernel)]
    simp only [writeStmts_eq s _ h, leave, put, text_node, Roses.text, List.append_assoc, List.append_nil, Nat.add_sub_cancel, text_append]
  | .null, w, _ => by
    rw [writeStmt, stmtTree, put_line (l := "STMT_NULL".toList) (by decide +kernel)]
    simp only [leave, put, text_node, Roses.text, List.append_assoc, List.append_nil, Nat.add_sub_cancel, text_append]
  | .cond c s o, w, h => by
    rw [writeStmt, stmtTree, put_line (l := "STMT_IF".toList) (by decide +kernel)]
    simp only [writeExpr_eq, writeStmt_eq s _ h.1, writeOStmt_eq o _ h.2, leave, put, text_node, Roses.text, List.append_assoc, List.append_nil, Nat.add_sub_cancel, text_append]
  | .switch c s, w, h => by
    rw [writeStmt, stmtTree, put_line (l := "STMT_SWITCH".toList) (by decide +kernel)]
    simp only [writeExpr_eq, writeStmt_eq s _ h, leave, put, text_node, Roses.text, List.append_assoc, List.append_nil, Nat.add_sub_cancel, text_append]
  | .while c s, w, h => by
    rw [writeStmt, stmtTree, put_line (l := "STMT_WHILE".toList) (by decide +kernel)]
    simp only [writeExpr_eq, writeStmt_eq s _ h, leave, put, text_node, Roses.text, List.append_assoc, List.append_nil, Nat.add_sub_cancel, text_append]
  | .dowhile s c, w, h => by
    rw [writeStmt, stmtTree, put_line (l := "STMT_DO".toList) (by decide +kernel)]
    simp only [writeExpr_eq, writeStmt_eq s _ h, leave, put, text_node, Roses.text, List.append_assoc, List.append_nil, Nat.add_sub_cancel, text_append]
  | .loop i c n s, w, h => by
    rw [writeStmt, stmtTree, put_line (l := "STMT_FOR".toList) (by decide +kernel)]
    simp only [writeOptExpr_eq, writeOStmt_eq i _ h.1, writeOStmt_eq n _ h.2.1, writeStmt_eq s _ h.2.2, leave, put, text_node, Roses.text, List.append_assoc, List.append_nil, Nat.add_sub_cancel, text_append]
  | .continue, w, _ => by
    rw [writeStmt, stmtTree, put_line (l := "STMT_CONTINUE".toList) (by decide +kernel)]
    simp only [leave, put, text_node, Roses.text, List.append_assoc, List.append_nil, Nat.add_sub_cancel, text_append]
  | .break, w, _ => by
    rw [writeStmt, stmtTree, put_line (l := "STMT_BREAK".toList) (by decide +kernel)]
    simp only [leave, put, text_node, Roses.text, List.append_assoc, List.append_nil, Nat.add_sub_cancel, text_append]
  | .return e, w, _ => by
    rw [writeStmt, stmtTree, put_line (l := "STMT_RETURN".toList) (by decide +kernel)]
    simp only [writeOptExpr_eq, leave, put, text_node, Roses.text, List.append_assoc, List.append_nil, Nat.add_sub_cancel, text_append]
  | .expr e, w, _ => by rw [writeStmt, stmtTree, writeExpr_eq]
theorem writeStmts_eq : ∀ (ss : Stmts) (w : W), ss.Valid → writeStmts ss w = { w with out := w.out ++ (stmtTrees ss).text (w.indent + 1) }
  | .nil, w, _ => by simp only [writeStmts, stmtTrees, Roses.text, List.append_nil]
  | .cons s ss, w, h => by simp only [writeStmts, stmtTrees, Roses.text, writeStmt_eq s _ h.1, writeStmts_eq ss _ h.2, List.append_assoc]
theorem writeOStmt_eq : ∀ (o : OStmt) (w : W), o.Valid → writeOStmt o w = { w with out := w.out ++ (ostmtTree o).text (w.indent + 1) }
  | .none, w, _ => by simp only [writeOStmt, ostmtTree, Roses.text, List.append_nil]
  | .some s, w, h => by simp only [writeOStmt, ostmtTree, Roses.text, writeStmt_eq s _ h, List.append_nil]
end

end RuC.Outline
