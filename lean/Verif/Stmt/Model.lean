import Verif.Expr.Model

/-!
# Parsing of statements and local declarations, libs/compiler/parser.c

As in `Verif.Expr.Model` the state is the sequence of tokens from the current one on, trees are what the
`build_*` functions are called with, and the first reported error ends the run (`error`).

Simplifications.  What a name stands for is given by `Names` and does not change while the statement is
parsed: `typedef` and definitions of structures and enumerations inside a body are not modelled, they end
the run with `error` too.  Scopes are the subject of `Verif.Scope`.
-/

namespace RuC.Stmt
open RuC RuC.Lexer RuC.Expr

/-- The keywords of statements and types, token.h:32-73. -/
def TK_BOOL : Int := -32765
def TK_BREAK : Int := -32764
def TK_CASE : Int := -32763
def TK_CHAR : Int := -32762
def TK_CONST : Int := -32761
def TK_CONTINUE : Int := -32760
def TK_DEFAULT : Int := -32759
def TK_DO : Int := -32758
def TK_DOUBLE : Int := -32757
def TK_ELSE : Int := -32756
def TK_ENUM : Int := -32755
def TK_FILE : Int := -32753
def TK_FLOAT : Int := -32752
def TK_FOR : Int := -32751
def TK_IF : Int := -32750
def TK_INT : Int := -32749
def TK_LONG : Int := -32748
def TK_RETURN : Int := -32746
def TK_STRUCT : Int := -32745
def TK_SWITCH : Int := -32744
def TK_TYPEDEF : Int := -32742
def TK_VOID : Int := -32740
def TK_WHILE : Int := -32739

/-- What the identifier table says about names: `isType` is `ident_is_type_specifier` of a declared name,
`isDeclared` that it has a reference. -/
structure Names where
  isType : List Nat → Bool
  isDeclared : List Nat → Bool

/-- The types `parse_type_specifier` answers, as far as they are modelled. -/
inductive Ty
  | void | boolean | character | integer | floating | file
  | const (t : Ty)
  | named (name : List Nat)
  deriving DecidableEq, Repr

/-- What `build_declarator` is called with. -/
structure Declarator where
  name : List Nat
  star : Bool
  const : Bool
  bounds : List (Option Exp)
  initializer : Option Exp

/-- The first part of a `for`. -/
inductive ForInit
  | none
  | decl (t : Ty) (ds : List Declarator)
  | expr (e : Exp)

/-- A statement as built. -/
inductive Stmt
  | decl (t : Ty) (ds : List Declarator)
  | case (e : Exp) (body : Stmt)
  | default (body : Stmt)
  | compound (items : List Stmt)
  | null
  | expr (e : Exp)
  | if_ (cond : Exp) (then_ : Stmt)
  | ifElse (cond : Exp) (then_ else_ : Stmt)
  | switch (cond : Exp) (body : Stmt)
  | while_ (cond : Exp) (body : Stmt)
  | do_ (body : Stmt) (cond : Exp)
  | for_ (init : ForInit) (cond incr : Option Exp) (body : Stmt)
  | continue_
  | break_
  | return_ (e : Option Exp)

/-- `expect_and_consume`, parser.c:171-191: anything but the expected token is an error. -/
def expect {α : Type} (t : Tok) (a : α) (s : List Tok) : Res α := if cur s = t then .ok a s.tail else .error

/-- `parse_condition`, parser.c:726-753. -/
def condition (s : List Tok) : Res Exp :=
  if cur s = .punct .lParen then (parseExpression s.tail).bind fun e s => expect (.punct .rParen) e s
  else .error

/-- `is_declaration_specifier`, parser.c:1303-1336. -/
def isDeclSpec (names : Names) : Tok → Bool
  | .keyword k => decide (k = TK_VOID ∨ k = TK_BOOL ∨ k = TK_CHAR ∨ k = TK_INT ∨ k = TK_LONG ∨ k = TK_FLOAT ∨ k = TK_DOUBLE ∨
      k = TK_STRUCT ∨ k = TK_ENUM ∨ k = TK_FILE ∨ k = TK_TYPEDEF ∨ k = TK_CONST)
  | .ident name => names.isDeclared name && names.isType name
  | _ => false

/-- `parse_struct_specifier`, parser.c:1022-1056, and `parse_enum_specifier`, parser.c:1133-1172, behind
the keyword, for a name that is not followed by a definition. -/
def tagSpec (names : Names) (s : List Tok) : Res Ty :=
  match cur s with
  | .ident name => if cur s.tail = .punct .lBrace then .error else if names.isDeclared name then .ok (.named name) s.tail else .error
  | _ => .error

/-- `type_is_const` of a modelled type; names are taken not to stand for `const` types. -/
def Ty.isConst : Ty → Bool
  | .const _ => true
  | _ => false

/-- `parse_type_specifier`, parser.c:789-903.  The recursion over `const` ends with the tokens. -/
def typeSpec (names : Names) : List Tok → Res Ty
  | [] => .error
  | .keyword k :: s =>
    if k = TK_VOID then .ok .void s
    else if k = TK_BOOL then .ok .boolean s
    else if k = TK_CHAR then .ok .character s
    else if k = TK_INT ∨ k = TK_LONG then .ok .integer s
    else if k = TK_FLOAT ∨ k = TK_DOUBLE then .ok .floating s
    else if k = TK_FILE then .ok .file s
    else if k = TK_CONST then (typeSpec names s).bind fun t s => if t.isConst then .error else .ok (.const t) s
    else if k = TK_STRUCT ∨ k = TK_ENUM then tagSpec names s
    else .error
  | .ident name :: s => if names.isDeclared name && names.isType name then .ok (.named name) s else .error
  | _ :: _ => .error

/-- The bounds in `parse_init_declarator`, parser.c:1193-1249.  The loop is bounded by `fuel`. -/
def bounds : Nat → List Tok → Res (List (Option Exp))
  | 0, _ => .loop
  | fuel + 1, s =>
    if cur s = .punct .lSquare then
      if cur s.tail = .punct .rSquare then (bounds fuel s.tail.tail).bind fun bs s => .ok (none :: bs) s
      else
        (parseExpression s.tail).bind fun e s =>
          if cur s = .punct .rSquare then (bounds fuel s.tail).bind fun bs s => .ok (some e :: bs) s else .error
    else .ok [] s

/-- The end of `parse_init_declarator`, parser.c:1193-1249, behind the name. -/
def declaratorEnd (name : List Nat) (star const : Bool) (s : List Tok) : Res Declarator :=
  (bounds (s.length + 1) s).bind fun bs s =>
    if cur s = .punct .equal then
      (parseInitializer s.tail).bind fun e s => .ok ⟨name, star, const, bs, some e⟩ s
    else .ok ⟨name, star, const, bs, none⟩ s

/-- `parse_init_declarator`, parser.c:1193-1249. -/
def declarator (s : List Tok) : Res Declarator :=
  let star : Bool := cur s = .punct .star
  let s := if star then s.tail else s
  let const : Bool := star && cur s = .keyword TK_CONST
  let s := if const then s.tail else s
  match cur s with
  | .ident name => declaratorEnd name star const s.tail
  | _ => .error

/-- The list of declarators in `parse_declaration`, parser.c:1265-1290. -/
def declarators : Nat → List Tok → Res (List Declarator)
  | 0, _ => .loop
  | fuel + 1, s =>
    (declarator s).bind fun d s =>
      if cur s = .punct .comma then (declarators fuel s.tail).bind fun ds s => .ok (d :: ds) s
      else .ok [d] s

/-- `parse_declaration`, parser.c:1265-1290. -/
def declaration (names : Names) (s : List Tok) : Res (Ty × List Declarator) :=
  (typeSpec names s).bind fun t s =>
    if cur s = .punct .semicolon then .ok (t, []) s.tail
    else (declarators (s.length + 1) s).bind fun ds s => expect (.punct .semicolon) (t, ds) s

/-- The first part of `parse_for_statement`, parser.c:1605-1695. -/
def forInit (names : Names) (s : List Tok) : Res ForInit :=
  if cur s = .punct .semicolon then .ok .none s.tail
  else if isDeclSpec names (cur s) then (declaration names s).bind fun d s => .ok (.decl d.1 d.2) s
  else (parseExpression s).bind fun e s => expect (.punct .semicolon) (.expr e) s

/-- The second part of `parse_for_statement`, parser.c:1605-1695. -/
def forCond (s : List Tok) : Res (Option Exp) :=
  if cur s = .punct .semicolon then .ok none s.tail
  else (parseExpression s).bind fun e s => expect (.punct .semicolon) (some e) s

/-- The third part of `parse_for_statement`, parser.c:1605-1695. -/
def forIncr (s : List Tok) : Res (Option Exp) :=
  if cur s = .punct .rParen then .ok none s.tail
  else (parseExpression s).bind fun e s => expect (.punct .rParen) (some e) s

/-- The parser's flags, parser.c:24-41. -/
structure Flags where
  inLoop : Bool
  inSwitch : Bool
  deriving DecidableEq, Repr

mutual

/-- `parse_statement`, parser.c:1796-1839, with the functions for the single kinds of statements,
parser.c:1348-1787.  Setting a flag, parsing the body and setting the flag back is calling with the other
flag. -/
def statement (names : Names) : Nat → Flags → List Tok → Res Stmt
  | 0, _, _ => .loop
  | fuel + 1, flags, s =>
    match cur s with
    | .punct .lBrace =>
      (items names fuel flags s.tail).bind fun ss s => expect (.punct .rBrace) (.compound ss) s
    | .punct .semicolon => .ok .null s.tail
    | .keyword k =>
      if k = TK_CASE then
        if flags.inSwitch = false then .error
        else (parseConstant s.tail).bind fun e s =>
          if cur s = .punct .colon then (statement names fuel flags s.tail).bind fun b s => .ok (.case e b) s else .error
      else if k = TK_DEFAULT then
        if flags.inSwitch = false then .error
        else if cur s.tail = .punct .colon then (statement names fuel flags s.tail.tail).bind fun b s => .ok (.default b) s
        else .error
      else if k = TK_IF then
        (condition s.tail).bind fun c s =>
          (statement names fuel flags s).bind fun t s =>
            if cur s = .keyword TK_ELSE then (statement names fuel flags s.tail).bind fun e s => .ok (.ifElse c t e) s
            else .ok (.if_ c t) s
      else if k = TK_SWITCH then
        (condition s.tail).bind fun c s =>
          (statement names fuel { flags with inSwitch := true } s).bind fun b s => .ok (.switch c b) s
      else if k = TK_WHILE then
        (condition s.tail).bind fun c s =>
          (statement names fuel { flags with inLoop := true } s).bind fun b s => .ok (.while_ c b) s
      else if k = TK_DO then
        (statement names fuel { flags with inLoop := true } s.tail).bind fun b s =>
          if cur s = .keyword TK_WHILE then
            (condition s.tail).bind fun c s => expect (.punct .semicolon) (.do_ b c) s
          else .error
      else if k = TK_FOR then
        if cur s.tail = .punct .lParen then
          (forInit names s.tail.tail).bind fun i s =>
            (forCond s).bind fun c s =>
              (forIncr s).bind fun n s =>
                (statement names fuel { flags with inLoop := true } s).bind fun b s => .ok (.for_ i c n b) s
        else .error
      else if k = TK_CONTINUE then
        if flags.inLoop = false then .error else expect (.punct .semicolon) .continue_ s.tail
      else if k = TK_BREAK then
        if (flags.inLoop || flags.inSwitch) = false then .error else expect (.punct .semicolon) .break_ s.tail
      else if k = TK_RETURN then
        if cur s.tail = .punct .semicolon then .ok (.return_ none) s.tail.tail
        else (parseExpression s.tail).bind fun e s => expect (.punct .semicolon) (.return_ (some e)) s
      else (parseExpression s).bind fun e s => expect (.punct .semicolon) (.expr e) s
    | _ => (parseExpression s).bind fun e s => expect (.punct .semicolon) (.expr e) s

/-- The loop of `parse_compound_statement_body`, parser.c:1419-1442. -/
def items (names : Names) : Nat → Flags → List Tok → Res (List Stmt)
  | 0, _, _ => .loop
  | fuel + 1, flags, s =>
    if cur s = .punct .rBrace ∨ cur s = .eof then .ok [] s
    else
      (if isDeclSpec names (cur s) then (declaration names s).bind fun d s => .ok (.decl d.1 d.2) s
       else statement names fuel flags s).bind fun st s =>
        (items names fuel flags s).bind fun ss s => .ok (st :: ss) s

end

/-- `parse_statement`, parser.c:1796-1839. -/
def parseStatement (names : Names) (flags : Flags) (s : List Tok) : Res Stmt := statement names (2 * s.length + 1) flags s

end RuC.Stmt
