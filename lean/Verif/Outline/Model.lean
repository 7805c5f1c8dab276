/-!
# libs/compiler/writer.c: the tree written as an outline

`write_tree` writes the tree of a program into a file, a node to a line, indented by its depth.  The writer is the number of levels and the characters written so far.

Simplified: a tree is an inductive type, not the cells of tree.c (see `Verif/Tree`), so that all nodes are there (`node_is_correct`) and have a class of the table.  The spellings of types (see `Verif/Spelling`), the names in the tables and the digits of `%f` come with the tree.  The output takes every character (see `Verif/Streams`).
-/

namespace RuC.Outline

abbrev Text := List Char

/-- What `write_expression_metadata`, writer.c:267-283, asks an expression for: whether it is an lvalue, its type as spelled, and its location. -/
structure Meta where
  lvalue : Bool
  type : Text
  first : Nat
  last : Nat
  deriving DecidableEq, Repr

/-- The values of literals `write_literal_expression`, writer.c:308-348, tells apart by the class of the type. -/
inductive Lit
  | null
  | boolean (b : Bool)
  | character (c : Nat)
  | integer (i : Int)
  | floating (digits : Text)
  | string (s : Text)
  | other
  deriving DecidableEq, Repr

/-- `unary_t` in the order of `write_unary_operator`, writer.c:108-146. -/
inductive Unary
  | postinc | postdec | preinc | predec | address | indirection | minus | not | lognot | abs | upb
  deriving DecidableEq, Repr

/-- `binary_t` in the order of `write_binary_operator`, writer.c:154-249. -/
inductive Binary
  | mul | div | rem | add | sub | shl | shr | lt | gt | le | ge | eq | ne | and | xor | or | logAnd | logOr
  | assign | mulAssign | divAssign | remAssign | addAssign | subAssign | shlAssign | shrAssign | andAssign | xorAssign | orAssign | comma
  deriving DecidableEq, Repr

mutual
/-- The expressions `write_expression`, writer.c:547-606, tells apart. -/
inductive Expr
  | ident (m : Meta) (spelling : Text) (id : Nat)
  | literal (m : Meta) (value : Lit)
  | subscript (m : Meta) (base index : Expr)
  | call (m : Meta) (callee : Expr) (args : Exprs)
  | member (m : Meta) (arrow : Bool) (name : Text) (index : Nat) (base : Expr)
  | cast (m : Meta) (source : Text) (operand : Expr)
  | unary (m : Meta) (op : Unary) (operand : Expr)
  | binary (m : Meta) (op : Binary) (lhs rhs : Expr)
  | ternary (m : Meta) (cond lhs rhs : Expr)
  | assignment (m : Meta) (op : Binary) (lhs rhs : Expr)
  | initializer (m : Meta) (subs : Exprs)
  | emptyBound
  | invalid
/-- Lists of expressions: arguments, bounds, the parts of an initializer. -/
inductive Exprs
  | nil
  | cons (e : Expr) (es : Exprs)
end

mutual
/-- The declarations `write_declaration`, writer.c:721-753, tells apart. -/
inductive Decl
  | var (spelling : Text) (id : Nat) (type : Text) (bounds : Exprs) (init : Option Expr)
  | member (name type : Text) (bounds : Exprs)
  | struct (members : Decls)
  | func (spelling : Text) (id : Nat) (type : Text) (body : Stmt)
  | invalid
/-- Lists of declarations. -/
inductive Decls
  | nil
  | cons (d : Decl) (ds : Decls)
/-- The statements `write_statement`, writer.c:997-1071, tells apart. -/
inductive Stmt
  | decl (ds : Decls)
  | case (e : Expr) (sub : Stmt)
  | default (sub : Stmt)
  | compound (subs : Stmts)
  | null
  | cond (c : Expr) (sub : Stmt) (other : OStmt)
  | switch (c : Expr) (body : Stmt)
  | while (c : Expr) (body : Stmt)
  | dowhile (body : Stmt) (c : Expr)
  | loop (inition : OStmt) (c : Option Expr) (increment : OStmt) (body : Stmt)
  | continue
  | break
  | return (e : Option Expr)
  | expr (e : Expr)
/-- Lists of statements. -/
inductive Stmts
  | nil
  | cons (s : Stmt) (ss : Stmts)
/-- A statement that may be left out. -/
inductive OStmt
  | none
  | some (s : Stmt)
end

/-- `writer`, writer.c:28-34: what has been written in place of the file. -/
structure W where
  indent : Nat
  out : Text
  deriving DecidableEq, Repr

/-- `write`, writer.c:57-60. -/
def write (s : Text) (w : W) : W := { w with out := w.out ++ s }

/-- The loop of `write_line`, writer.c:68-76. -/
def indents : Nat → W → W
  | 0, w => w
  | n + 1, w => indents n (write "  ".toList w)

/-- `write_line`, writer.c:68-76. -/
def writeLine (s : Text) (w : W) : W := write s (indents w.indent w)

/-- `%zu` as `uni_printf` prints it. -/
def zu (n : Nat) : Text := Nat.toDigits 10 n

/-- `%" PRIitem "` as `uni_printf` prints it. -/
def item (i : Int) : Text := if i < 0 then '-' :: Nat.toDigits 10 i.natAbs else Nat.toDigits 10 i.natAbs

/-- `write_location`, writer.c:84-87. -/
def writeLocation (m : Meta) (w : W) : W := write (" at <".toList ++ zu m.first ++ ", ".toList ++ zu m.last ++ ">\n".toList) w

/-- `write_unary_operator`, writer.c:108-146. -/
def writeUnary (op : Unary) (w : W) : W :=
  write (match op with
    | .postinc => "'postfix ++'" | .postdec => "'postfix --'" | .preinc => "'++'" | .predec => "'--'" | .address => "'&'"
    | .indirection => "'*'" | .minus => "'-'" | .not => "'~'" | .lognot => "'!'" | .abs => "'abs'" | .upb => "'upb'").toList w

/-- `write_binary_operator`, writer.c:154-249. -/
def writeBinary (op : Binary) (w : W) : W :=
  write (match op with
    | .mul => "'*'" | .div => "'/'" | .rem => "'%'" | .add => "'+'" | .sub => "'-'" | .shl => "'<<'" | .shr => "'>>'"
    | .lt => "'<'" | .gt => "'>'" | .le => "'<='" | .ge => "'>='" | .eq => "'=='" | .ne => "'!='" | .and => "'&'"
    | .xor => "'^'" | .or => "'|'" | .logAnd => "'&&'" | .logOr => "'||'" | .assign => "'='" | .mulAssign => "'*='"
    | .divAssign => "'/='" | .remAssign => "'%='" | .addAssign => "'+='" | .subAssign => "'-='" | .shlAssign => "'<<='"
    | .shrAssign => "'>>='" | .andAssign => "'&='" | .xorAssign => "'^='" | .orAssign => "'|='" | .comma => "','").toList w

/-- `write_expression_metadata`, writer.c:267-283. -/
def writeMeta (m : Meta) (w : W) : W :=
  let w := if m.lvalue then write " ─ lvalue".toList w else write " ─ rvalue".toList w
  let w := write " of type '".toList w
  let w := write m.type w
  let w := write "'".toList w
  writeLocation m w

/-- `write_identifier_expression`, writer.c:291-300. -/
def writeIdent (m : Meta) (spelling : Text) (id : Nat) (w : W) : W :=
  let w := writeLine "EXPR_IDENTIFIER".toList w
  let w := write (" named \'".toList ++ spelling ++ "\' with id ".toList ++ zu id) w
  writeMeta m w

/-- The switch of `write_literal_expression`, writer.c:308-348.  `%c` prints the lowest eight bits of the code. -/
def writeValue (v : Lit) (w : W) : W :=
  match v with
  | .null => write "NULL".toList w
  | .boolean b => write (if b then "true".toList else "false".toList) w
  | .character c => write [Char.ofNat (c % 256)] w
  | .integer i => write (item i) w
  | .floating s => write s w
  | .string s => write ("\"".toList ++ s ++ "\"".toList) w
  | .other => w

/-- `write_literal_expression`, writer.c:308-348. -/
def writeLiteral (m : Meta) (v : Lit) (w : W) : W :=
  let w := writeLine "EXPR_LITERAL with value ".toList w
  let w := writeValue v w
  writeMeta m w

/-- What `write_member_expression`, writer.c:396-423, writes for the node itself. -/
def writeMemberLine (m : Meta) (arrow : Bool) (name : Text) (index : Nat) (w : W) : W :=
  let w := writeLine "EXPR_MEMBER selecting".toList w
  let w := if arrow then write name (write " ->".toList w) else write name (write " .".toList w)
  let w := write (" by index #".toList ++ zu index) w
  writeMeta m w

/-- What `write_cast_expression`, writer.c:431-445, writes for the node itself; the target is the type of the expression. -/
def writeCastLine (m : Meta) (source : Text) (w : W) : W :=
  let w := writeLine "EXPR_CAST from ".toList w
  let w := write source w
  let w := write " to ".toList w
  let w := write m.type w
  writeMeta m w

/-- `wrt->indent++`, where writer.c:549, writer.c:728 and writer.c:1011 begin a node. -/
def enter (w : W) : W := { w with indent := w.indent + 1 }

/-- `wrt->indent--`, where writer.c:605, writer.c:752 and writer.c:1070 end a node. -/
def leave (w : W) : W := { w with indent := w.indent - 1 }

mutual
/-- `write_expression`, writer.c:547-606, with `write_subscript_expression`, writer.c:356-366, `write_call_expression`, writer.c:374-388, `write_member_expression`, writer.c:396-423, `write_cast_expression`, writer.c:431-445, `write_unary_expression`, writer.c:453-461, `write_binary_expression`, writer.c:469-480, `write_ternary_expression`, writer.c:488-501, `write_assignment_expression`, writer.c:509-520, and `write_initializer`, writer.c:528-539, in the places of the calls. -/
def writeExpr : Expr → W → W
  | .ident m s id, w => leave (writeIdent m s id (enter w))
  | .literal m v, w => leave (writeLiteral m v (enter w))
  | .subscript m base index, w => leave (writeExpr index (writeExpr base (writeMeta m (writeLine "EXPR_SUBSCRIPT".toList (enter w)))))
  | .call m callee args, w => leave (writeExprs args (writeExpr callee (writeMeta m (writeLine "EXPR_CALL".toList (enter w)))))
  | .member m arrow name index base, w => leave (writeExpr base (writeMemberLine m arrow name index (enter w)))
  | .cast m source operand, w => leave (writeExpr operand (writeCastLine m source (enter w)))
  | .unary m op operand, w => leave (writeExpr operand (writeMeta m (writeUnary op (writeLine "EXPR_UNARY with operator ".toList (enter w)))))
  | .binary m op l r, w => leave (writeExpr r (writeExpr l (writeMeta m (writeBinary op (writeLine "EXPR_BINARY with operator ".toList (enter w))))))
  | .ternary m c l r, w => leave (writeExpr r (writeExpr l (writeExpr c (writeMeta m (writeLine "EXPR_TERNARY".toList (enter w))))))
  | .assignment m op l r, w => leave (writeExpr r (writeExpr l (writeMeta m (writeBinary op (writeLine "EXPR_ASSIGNMENT with operator ".toList (enter w))))))
  | .initializer m subs, w => leave (writeExprs subs (writeMeta m (writeLine "EXPR_INITIALIZER".toList (enter w))))
  | .emptyBound, w => leave (writeLine "EXPR_EMPTY_BOUND\n".toList (enter w))
  | .invalid, w => leave (writeLine "EXPR_INVALID\n".toList (enter w))
/-- The loops over arguments, writer.c:382-387, bounds, writer.c:636-640 and writer.c:680-684, and the parts of an initializer, writer.c:534-538. -/
def writeExprs : Exprs → W → W
  | .nil, w => w
  | .cons e es, w => writeExprs es (writeExpr e w)
end

/-- An expression that is written if it is there: writer.c:686-690, writer.c:934-938, writer.c:984-988. -/
def writeOptExpr : Option Expr → W → W
  | none, w => w
  | some e, w => writeExpr e w

/-- What `write_member_declaration`, writer.c:624-641, writes for the node itself. -/
def writeDeclMemberLine (name type : Text) (w : W) : W :=
  let w := writeLine "DECL_MEMBER".toList w
  let w := write (" declaring member named \'".toList ++ name ++ "\' of type '".toList) w
  let w := write type w
  write "'\n".toList w

/-- What `write_variable_declaration`, writer.c:667-691, writes for the node itself. -/
def writeDeclVarLine (spelling : Text) (id : Nat) (type : Text) (w : W) : W :=
  let w := writeLine "DECL_VAR".toList w
  let w := write (" declaring variable named \'".toList ++ spelling ++ "\' with id ".toList ++ zu id ++ " of type '".toList) w
  let w := write type w
  write "'\n".toList w

/-- What `write_function_declaration`, writer.c:699-713, writes for the node itself. -/
def writeDeclFuncLine (spelling : Text) (id : Nat) (type : Text) (w : W) : W :=
  let w := writeLine "DECL_FUNC".toList w
  let w := write (" declaring function named \'".toList ++ spelling ++ "\' with id ".toList ++ zu id ++ " of type '".toList) w
  let w := write type w
  write "'\n".toList w

mutual
/-- `write_declaration`, writer.c:721-753, with `write_member_declaration`, writer.c:624-641, `write_struct_declaration`, writer.c:649-659, `write_variable_declaration`, writer.c:667-691, and `write_function_declaration`, writer.c:699-713.  An invalid declaration is written by `write`, without indentation. -/
def writeDecl : Decl → W → W
  | .var s id t bounds init, w => leave (writeOptExpr init (writeExprs bounds (writeDeclVarLine s id t (enter w))))
  | .member name t bounds, w => leave (writeExprs bounds (writeDeclMemberLine name t (enter w)))
  | .struct members, w => leave (writeDecls members (writeLine "DECL_STRUCT\n".toList (enter w)))
  | .func s id t body, w => leave (writeStmt body (writeDeclFuncLine s id t (enter w)))
  | .invalid, w => leave (write "DECL_INVALID\n".toList (enter w))
/-- The loops over declarations: writer.c:653-658, writer.c:775-780, writer.c:1084-1089. -/
def writeDecls : Decls → W → W
  | .nil, w => w
  | .cons d ds, w => writeDecls ds (writeDecl d w)
/-- `write_statement`, writer.c:997-1071, with `write_declaration_statement`, writer.c:771-781, `write_case_statement`, writer.c:789-798, `write_default_statement`, writer.c:806-812, `write_compound_statement`, writer.c:820-830, `write_null_statement`, writer.c:838-842, `write_if_statement`, writer.c:850-865, `write_switch_statement`, writer.c:873-882, `write_while_statement`, writer.c:890-899, `write_do_statement`, writer.c:907-916, `write_for_statement`, writer.c:924-948, `write_continue_statement`, writer.c:956-960, `write_break_statement`, writer.c:968-972, and `write_return_statement`, writer.c:980-989. -/
def writeStmt : Stmt → W → W
  | .expr e, w => writeExpr e w
  | .decl ds, w => leave (writeDecls ds (writeLine "STMT_DECL\n".toList (enter w)))
  | .case e sub, w => leave (writeStmt sub (writeExpr e (writeLine "STMT_CASE\n".toList (enter w))))
  | .default sub, w => leave (writeStmt sub (writeLine "STMT_DEFAULT\n".toList (enter w)))
  | .compound subs, w => leave (writeStmts subs (writeLine "STMT_COMPOUND\n".toList (enter w)))
  | .null, w => leave (writeLine "STMT_NULL\n".toList (enter w))
  | .cond c sub other, w => leave (writeOStmt other (writeStmt sub (writeExpr c (writeLine "STMT_IF\n".toList (enter w)))))
  | .switch c body, w => leave (writeStmt body (writeExpr c (writeLine "STMT_SWITCH\n".toList (enter w))))
  | .while c body, w => leave (writeStmt body (writeExpr c (writeLine "STMT_WHILE\n".toList (enter w))))
  | .dowhile body c, w => leave (writeExpr c (writeStmt body (writeLine "STMT_DO\n".toList (enter w))))
  | .loop i c n body, w => leave (writeStmt body (writeOStmt n (writeOptExpr c (writeOStmt i (writeLine "STMT_FOR\n".toList (enter w))))))
  | .continue, w => leave (writeLine "STMT_CONTINUE\n".toList (enter w))
  | .break, w => leave (writeLine "STMT_BREAK\n".toList (enter w))
  | .return e, w => leave (writeOptExpr e (writeLine "STMT_RETURN\n".toList (enter w)))
/-- The loop of `write_compound_statement`, writer.c:820-830. -/
def writeStmts : Stmts → W → W
  | .nil, w => w
  | .cons s ss, w => writeStmts ss (writeStmt s w)
/-- A statement that is written if it is there: writer.c:860-864, writer.c:928-932, writer.c:940-944. -/
def writeOStmt : OStmt → W → W
  | .none, w => w
  | .some s, w => writeStmt s w
end

/-- `write_translation_unit`, writer.c:1079-1090, as `write_tree`, writer.c:2072-2086, calls it: the characters of the file. -/
def writeTree (unit : Decls) : Text :=
  let w : W := write "Translation unit\n".toList { indent := 0, out := [] }
  (writeDecls unit { w with indent := 0 }).out

end RuC.Outline
