import Verif.Outline.Model

/-!
# What an outline is

An ordered tree with a line of text at every node, a reader of outlines that knows nothing about programs, and for every node of a program its line and the nodes directly below it.
-/

namespace RuC.Outline

mutual
/-- An ordered tree with texts at the nodes. -/
inductive Rose
  | node (label : Text) (kids : Roses)
/-- A list of such trees. -/
inductive Roses
  | nil
  | cons (r : Rose) (rs : Roses)
end

deriving instance DecidableEq for Rose, Roses

/-- Lists of trees one behind the other. -/
def Roses.append : Roses → Roses → Roses
  | .nil, y => y
  | .cons r rs, y => .cons r (rs.append y)

instance : Append Roses := ⟨Roses.append⟩

/-- The lines of a text. -/
def lines : Text → List Text
  | [] => []
  | c :: cs =>
    if c = '\n' then [] :: lines cs
    else match lines cs with
      | [] => [[c]]
      | l :: ls => (c :: l) :: ls

/-- The level of a line and what is behind the indentation: two spaces make a level. -/
def level : Text → Nat × Text
  | ' ' :: ' ' :: cs => ((level cs).1 + 1, (level cs).2)
  | cs => (0, cs)

/-- The trees whose roots are on the level `d`, and the lines that are left over.  What follows a line on the next level belongs to it. -/
def grow : Nat → Nat → List (Nat × Text) → Roses × List (Nat × Text)
  | 0, _, ls => (.nil, ls)
  | _ + 1, _, [] => (.nil, [])
  | f + 1, d, (k, l) :: ls =>
    if k = d then
      let below := grow f (d + 1) ls
      let beside := grow f d below.2
      (.cons (.node l below.1) beside.1, beside.2)
    else (.nil, (k, l) :: ls)

/-- Reading an outline: a title, and trees on the first level, with nothing left over. -/
def readOutline (t : Text) : Option Rose :=
  match lines t with
  | [] => none
  | title :: ls =>
    let r := grow (ls.length + 1) 1 (ls.map level)
    if r.2 = [] then some (.node title r.1) else none

/-- The sign of a unary operator in the outline. -/
def unarySign : Unary → Text
  | .postinc => "'postfix ++'".toList | .postdec => "'postfix --'".toList | .preinc => "'++'".toList | .predec => "'--'".toList
  | .address => "'&'".toList | .indirection => "'*'".toList | .minus => "'-'".toList | .not => "'~'".toList
  | .lognot => "'!'".toList | .abs => "'abs'".toList | .upb => "'upb'".toList

/-- The sign of a binary operator in the outline. -/
def binarySign : Binary → Text
  | .mul => "'*'".toList | .div => "'/'".toList | .rem => "'%'".toList | .add => "'+'".toList | .sub => "'-'".toList
  | .shl => "'<<'".toList | .shr => "'>>'".toList | .lt => "'<'".toList | .gt => "'>'".toList | .le => "'<='".toList
  | .ge => "'>='".toList | .eq => "'=='".toList | .ne => "'!='".toList | .and => "'&'".toList | .xor => "'^'".toList
  | .or => "'|'".toList | .logAnd => "'&&'".toList | .logOr => "'||'".toList | .assign => "'='".toList
  | .mulAssign => "'*='".toList | .divAssign => "'/='".toList | .remAssign => "'%='".toList | .addAssign => "'+='".toList
  | .subAssign => "'-='".toList | .shlAssign => "'<<='".toList | .shrAssign => "'>>='".toList | .andAssign => "'&='".toList
  | .xorAssign => "'^='".toList | .orAssign => "'|='".toList | .comma => "','".toList

/-- A number in decimal. -/
def decimal (n : Nat) : Text := Nat.toDigits 10 n

/-- A number with a sign in decimal. -/
def signed : Int → Text
  | .ofNat n => decimal n
  | .negSucc n => '-' :: decimal (n + 1)

/-- What stands at the end of the line of an expression. -/
def metaText (m : Meta) : Text :=
  (if m.lvalue then " ─ lvalue" else " ─ rvalue").toList ++ " of type '".toList ++ m.type ++ "' at <".toList ++ decimal m.first ++ ", ".toList ++
    decimal m.last ++ ">".toList

/-- The value of a literal. -/
def valueText : Lit → Text
  | .null => "NULL".toList
  | .boolean true => "true".toList
  | .boolean false => "false".toList
  | .character c => [Char.ofNat (c % 256)]
  | .integer i => signed i
  | .floating s => s
  | .string s => "\"".toList ++ s ++ "\"".toList
  | .other => []

/-- The line of an expression. -/
def exprLine : Expr → Text
  | .ident m s id => "EXPR_IDENTIFIER named '".toList ++ s ++ "' with id ".toList ++ decimal id ++ metaText m
  | .literal m v => "EXPR_LITERAL with value ".toList ++ valueText v ++ metaText m
  | .subscript m .. => "EXPR_SUBSCRIPT".toList ++ metaText m
  | .call m .. => "EXPR_CALL".toList ++ metaText m
  | .member m true name index _ => "EXPR_MEMBER selecting ->".toList ++ name ++ " by index #".toList ++ decimal index ++ metaText m
  | .member m false name index _ => "EXPR_MEMBER selecting .".toList ++ name ++ " by index #".toList ++ decimal index ++ metaText m
  | .cast m source _ => "EXPR_CAST from ".toList ++ source ++ " to ".toList ++ m.type ++ metaText m
  | .unary m op _ => "EXPR_UNARY with operator ".toList ++ unarySign op ++ metaText m
  | .binary m op .. => "EXPR_BINARY with operator ".toList ++ binarySign op ++ metaText m
  | .ternary m .. => "EXPR_TERNARY".toList ++ metaText m
  | .assignment m op .. => "EXPR_ASSIGNMENT with operator ".toList ++ binarySign op ++ metaText m
  | .initializer m _ => "EXPR_INITIALIZER".toList ++ metaText m
  | .emptyBound => "EXPR_EMPTY_BOUND".toList
  | .invalid => "EXPR_INVALID".toList

mutual
/-- The tree of an expression: its line above its parts in the order of the source. -/
def exprTree : Expr → Rose
  | e@(.ident ..) => .node (exprLine e) .nil
  | e@(.literal ..) => .node (exprLine e) .nil
  | e@(.subscript _ base index) => .node (exprLine e) (.cons (exprTree base) (.cons (exprTree index) .nil))
  | e@(.call _ callee args) => .node (exprLine e) (.cons (exprTree callee) (exprTrees args))
  | e@(.member _ _ _ _ base) => .node (exprLine e) (.cons (exprTree base) .nil)
  | e@(.cast _ _ operand) => .node (exprLine e) (.cons (exprTree operand) .nil)
  | e@(.unary _ _ operand) => .node (exprLine e) (.cons (exprTree operand) .nil)
  | e@(.binary _ _ l r) => .node (exprLine e) (.cons (exprTree l) (.cons (exprTree r) .nil))
  | e@(.ternary _ c l r) => .node (exprLine e) (.cons (exprTree c) (.cons (exprTree l) (.cons (exprTree r) .nil)))
  | e@(.assignment _ _ l r) => .node (exprLine e) (.cons (exprTree l) (.cons (exprTree r) .nil))
  | e@(.initializer _ subs) => .node (exprLine e) (exprTrees subs)
  | e@(.emptyBound) => .node (exprLine e) .nil
  | e@(.invalid) => .node (exprLine e) .nil
/-- The trees of a list of expressions. -/
def exprTrees : Exprs → Roses
  | .nil => .nil
  | .cons e es => .cons (exprTree e) (exprTrees es)
end

/-- No tree or one. -/
def optTree : Option Expr → Roses
  | none => .nil
  | some e => .cons (exprTree e) .nil

mutual
/-- The tree of a declaration. -/
def declTree : Decl → Rose
  | .var s id t bounds init =>
    .node ("DECL_VAR declaring variable named '".toList ++ s ++ "' with id ".toList ++ decimal id ++ " of type '".toList ++ t ++ "'".toList)
      (exprTrees bounds ++ optTree init)
  | .member name t bounds => .node ("DECL_MEMBER declaring member named '".toList ++ name ++ "' of type '".toList ++ t ++ "'".toList) (exprTrees bounds)
  | .struct members => .node "DECL_STRUCT".toList (declTrees members)
  | .func s id t body =>
    .node ("DECL_FUNC declaring function named '".toList ++ s ++ "' with id ".toList ++ decimal id ++ " of type '".toList ++ t ++ "'".toList)
      (.cons (stmtTree body) .nil)
  | .invalid => .node "DECL_INVALID".toList .nil
/-- The trees of a list of declarations. -/
def declTrees : Decls → Roses
  | .nil => .nil
  | .cons d ds => .cons (declTree d) (declTrees ds)
/-- The tree of a statement. -/
def stmtTree : Stmt → Rose
  | .decl ds => .node "STMT_DECL".toList (declTrees ds)
  | .case e sub => .node "STMT_CASE".toList (.cons (exprTree e) (.cons (stmtTree sub) .nil))
  | .default sub => .node "STMT_DEFAULT".toList (.cons (stmtTree sub) .nil)
  | .compound subs => .node "STMT_COMPOUND".toList (stmtTrees subs)
  | .null => .node "STMT_NULL".toList .nil
  | .cond c sub other => .node "STMT_IF".toList (.cons (exprTree c) (.cons (stmtTree sub) (ostmtTree other)))
  | .switch c body => .node "STMT_SWITCH".toList (.cons (exprTree c) (.cons (stmtTree body) .nil))
  | .while c body => .node "STMT_WHILE".toList (.cons (exprTree c) (.cons (stmtTree body) .nil))
  | .dowhile body c => .node "STMT_DO".toList (.cons (stmtTree body) (.cons (exprTree c) .nil))
  | .loop i c n body => .node "STMT_FOR".toList (ostmtTree i ++ (optTree c ++ (ostmtTree n ++ .cons (stmtTree body) .nil)))
  | .continue => .node "STMT_CONTINUE".toList .nil
  | .break => .node "STMT_BREAK".toList .nil
  | .return e => .node "STMT_RETURN".toList (optTree e)
  | .expr e => exprTree e
/-- The trees of a list of statements. -/
def stmtTrees : Stmts → Roses
  | .nil => .nil
  | .cons s ss => .cons (stmtTree s) (stmtTrees ss)
/-- The tree of a statement that may be left out. -/
def ostmtTree : OStmt → Roses
  | .none => .nil
  | .some s => .cons (stmtTree s) .nil
end

mutual
/-- No line of the tree has the end of a line in it. -/
def Rose.oneLine : Rose → Bool
  | .node l kids => !l.contains '\n' && kids.oneLine
/-- The same for lists of trees. -/
def Roses.oneLine : Roses → Bool
  | .nil => true
  | .cons r rs => r.oneLine && rs.oneLine
end

mutual
/-- No declaration that marks an error. -/
def Decl.Valid : Decl → Prop
  | .var .. => True
  | .member .. => True
  | .struct ds => ds.Valid
  | .func _ _ _ body => body.Valid
  | .invalid => False
/-- The same for lists of declarations. -/
def Decls.Valid : Decls → Prop
  | .nil => True
  | .cons d ds => d.Valid ∧ ds.Valid
/-- The same for statements. -/
def Stmt.Valid : Stmt → Prop
  | .decl ds => ds.Valid
  | .case _ s => s.Valid
  | .default s => s.Valid
  | .compound ss => ss.Valid
  | .cond _ s o => s.Valid ∧ o.Valid
  | .switch _ s => s.Valid
  | .while _ s => s.Valid
  | .dowhile s _ => s.Valid
  | .loop i _ n s => i.Valid ∧ n.Valid ∧ s.Valid
  | .null | .continue | .break | .return _ | .expr _ => True
/-- The same for lists of statements. -/
def Stmts.Valid : Stmts → Prop
  | .nil => True
  | .cons s ss => s.Valid ∧ ss.Valid
/-- The same for a statement that may be left out. -/
def OStmt.Valid : OStmt → Prop
  | .none => True
  | .some s => s.Valid
end

/-- A text without the end of a line. -/
def Clean (t : Text) : Prop := '\n' ∉ t

/-- A literal whose value has no end of a line in it; for a character it is the last byte of its code that counts. -/
def Lit.Clean : Lit → Prop
  | .character c => c % 256 ≠ 10
  | .floating s => Outline.Clean s
  | .string s => Outline.Clean s
  | _ => True

mutual
/-- No name, type or literal in the expression has the end of a line in it. -/
def Expr.Clean : Expr → Prop
  | .ident m s _ => Outline.Clean m.type ∧ Outline.Clean s
  | .literal m v => Outline.Clean m.type ∧ v.Clean
  | .subscript m a b => Outline.Clean m.type ∧ a.Clean ∧ b.Clean
  | .call m a as => Outline.Clean m.type ∧ a.Clean ∧ as.Clean
  | .member m _ name _ a => Outline.Clean m.type ∧ Outline.Clean name ∧ a.Clean
  | .cast m source a => Outline.Clean m.type ∧ Outline.Clean source ∧ a.Clean
  | .unary m _ a => Outline.Clean m.type ∧ a.Clean
  | .binary m _ a b => Outline.Clean m.type ∧ a.Clean ∧ b.Clean
  | .ternary m a b c => Outline.Clean m.type ∧ a.Clean ∧ b.Clean ∧ c.Clean
  | .assignment m _ a b => Outline.Clean m.type ∧ a.Clean ∧ b.Clean
  | .initializer m as => Outline.Clean m.type ∧ as.Clean
  | .emptyBound | .invalid => True
/-- The same for lists of expressions. -/
def Exprs.Clean : Exprs → Prop
  | .nil => True
  | .cons e es => e.Clean ∧ es.Clean
end

/-- The same for an expression that may be left out. -/
def optClean : Option Expr → Prop
  | none => True
  | some e => e.Clean

mutual
/-- The same for declarations. -/
def Decl.Clean : Decl → Prop
  | .var s _ t b i => Outline.Clean s ∧ Outline.Clean t ∧ b.Clean ∧ optClean i
  | .member n t b => Outline.Clean n ∧ Outline.Clean t ∧ b.Clean
  | .struct ds => ds.Clean
  | .func s _ t b => Outline.Clean s ∧ Outline.Clean t ∧ b.Clean
  | .invalid => True
/-- The same for lists of declarations. -/
def Decls.Clean : Decls → Prop
  | .nil => True
  | .cons d ds => d.Clean ∧ ds.Clean
/-- The same for statements. -/
def Stmt.Clean : Stmt → Prop
  | .decl ds => ds.Clean
  | .case e s => e.Clean ∧ s.Clean
  | .default s => s.Clean
  | .compound ss => ss.Clean
  | .cond c s o => c.Clean ∧ s.Clean ∧ o.Clean
  | .switch c s => c.Clean ∧ s.Clean
  | .while c s => c.Clean ∧ s.Clean
  | .dowhile s c => s.Clean ∧ c.Clean
  | .loop i c n s => i.Clean ∧ optClean c ∧ n.Clean ∧ s.Clean
  | .return e => optClean e
  | .expr e => e.Clean
  | .null | .continue | .break => True
/-- The same for lists of statements. -/
def Stmts.Clean : Stmts → Prop
  | .nil => True
  | .cons s ss => s.Clean ∧ ss.Clean
/-- The same for a statement that may be left out. -/
def OStmt.Clean : OStmt → Prop
  | .none => True
  | .some s => s.Clean
end

end RuC.Outline
