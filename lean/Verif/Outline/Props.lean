import Verif.Outline.Ends

/-!
# The property of the outline of trees
-/

namespace RuC.Outline.Props

/-- C99: the file `write_tree` writes, read as an outline with two spaces for a level, is the tree: a title, and below it every node on a line of its own, under the node it belongs to and in the order of the source.  For all programs without declarations that mark an error in which no name, type or literal has the end of a line in it. -/
theorem C99_outline (unit : Decls) (hv : unit.Valid) (h : unit.Clean) :
    readOutline (writeTree unit) = some (.node "Translation unit".toList (declTrees unit)) := by
  have e : writeTree unit = "Translation unit".toList ++ '\n' :: (declTrees unit).text 1 := by
    have f : "Translation unit\n".toList = "Translation unit".toList ++ ['\n'] := by decide +kernel
    simp only [writeTree, writeDecls_eq unit _ hv, write, f, List.nil_append, List.append_assoc, List.singleton_append, Nat.zero_add]
  rw [e, readOutline_text _ _ (by decide +kernel) (decls_line unit h) (declTrees_inked unit)]

/-- C99: programs with the same outline have the same tree of lines. -/
theorem C99_tells_apart (u v : Decls) (hu : u.Valid) (hv : v.Valid) (h : u.Clean) (k : v.Clean)
    (e : writeTree u = writeTree v) : declTrees u = declTrees v := by
  have a := C99_outline u hu h
  rw [e, C99_outline v hv k] at a
  simpa using a.symm

/-- C99: the level of the writer is after a declaration what it was before, whatever the declaration. -/
theorem C99_level_kept (d : Decl) (w : W) (hv : d.Valid) : (writeDecl d w).indent = w.indent := by
  rw [writeDecl_eq d w hv]

/-- An identifier, for the examples. -/
def x : Expr := .ident { lvalue := true, type := "int".toList, first := 3, last := 4 } "x".toList 2
/-- A literal, for the examples. -/
def lit (v : Lit) : Expr := .literal { lvalue := false, type := "int".toList, first := 5, last := 6 } v
/-- A variable with an initial value, for the examples. -/
def var (e : Expr) : Decl := .var "x".toList 2 "int".toList .nil (some e)
/-- A function, for the examples. -/
def main (s : Stmt) : Decls := .cons (.func "main".toList 0 "int (void)".toList s) .nil

/-- `int main(void) { int x = -5; for (x; x; x = x) { if (x) return x; else ; } }` and a structure. -/
def program : Decls :=
  .cons (.struct (.cons (.member "a".toList "int[]".toList (.cons (lit (.integer 3)) .nil)) .nil))
    (main (.compound (.cons (.decl (.cons (var (lit (.integer (-5)))) .nil))
      (.cons (.loop (.some (.expr x)) (some x) (.some (.expr (.assignment ⟨false, "int".toList, 1, 2⟩ .assign x x)))
        (.compound (.cons (.cond x (.return (some x)) (.some .null)) .nil))) .nil))))

example : program.Valid ∧ program.Clean :=
  ⟨by simp [program, main, Decls.Valid, Decl.Valid, Stmt.Valid, Stmts.Valid, OStmt.Valid, var],
    by simp [program, main, Decls.Clean, Decl.Clean, Stmt.Clean, Stmts.Clean, OStmt.Clean, Expr.Clean, Exprs.Clean, Lit.Clean, optClean, Clean, var, lit, x]⟩

example : writeTree (.cons (var (lit (.integer (-5)))) .nil) =
    "Translation unit\n  DECL_VAR declaring variable named 'x' with id 2 of type 'int'\n    EXPR_LITERAL with value -5 ─ rvalue of type 'int' at <5, 6>\n".toList := by
  decide +kernel

/-- What is not so: `for (; x; ) ;` and `for (; ; x) ;` have the same outline, for nothing marks the parts that are left out. -/
theorem C99_for_ambiguous : ∃ u v : Decls, u ≠ v ∧ u.Valid ∧ v.Valid ∧ writeTree u = writeTree v :=
  ⟨main (.loop .none (some x) .none .null), main (.loop .none none (.some (.expr x)) .null), by simp [main],
    by simp [main, Decls.Valid, Decl.Valid, Stmt.Valid, OStmt.Valid], by simp [main, Decls.Valid, Decl.Valid, Stmt.Valid, OStmt.Valid],
    by decide +kernel⟩

/-- What is not so: the character `Њ` (code 1034) is printed by `%c`, that is as the byte 10, and ends the line. -/
theorem C99_character_breaks_line : ∃ u : Decls, u.Valid ∧ readOutline (writeTree u) ≠ some (.node "Translation unit".toList (declTrees u)) :=
  ⟨.cons (var (lit (.character 1034))) .nil, by simp [Decls.Valid, Decl.Valid, var], by decide +kernel⟩

/-- What is not so: a string with the end of a line in it is written as it is. -/
theorem C99_string_breaks_line : ∃ u : Decls, u.Valid ∧ readOutline (writeTree u) ≠ some (.node "Translation unit".toList (declTrees u)) :=
  ⟨.cons (var (lit (.string "a\n  b".toList))) .nil, by simp [Decls.Valid, Decl.Valid, var], by decide +kernel⟩

/-- What is not so: a declaration that marks an error is written without indentation, so that the outline is no outline. -/
theorem C99_invalid_not_indented : ∃ u : Decls, u.Clean ∧ readOutline (writeTree u) = none :=
  ⟨.cons (.struct (.cons .invalid .nil)) .nil, by simp [Decls.Clean, Decl.Clean], by decide +kernel⟩

end RuC.Outline.Props
