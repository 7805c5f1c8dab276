import Verif.Expr.Spec
import Verif.Stmt.Model

/-!
# The grammar of statements

`S` is written as a grammar over tokens; nothing of the statement parser is in it.  Besides the tree it
says where jumps may stand, and which `if` an `else` belongs to.
-/

namespace RuC.Stmt.Spec
open RuC RuC.Lexer RuC.Expr RuC.Expr.Spec RuC.Stmt

/-- An expression with the comma operator. -/
def E (l : List Tok) (e : Exp) : Prop := G (.level false 1) l [e]

/-- The keywords that begin a declaration, with their codes. -/
def typeKeywords : List Int :=
  [-32740 /- void -/, -32765 /- bool -/, -32762 /- char -/, -32749 /- int -/, -32748 /- long -/, -32752 /- float -/,
   -32757 /- double -/, -32745 /- struct -/, -32755 /- enum -/, -32753 /- FILE -/, -32742 /- typedef -/, -32761 /- const -/]

/-- The token begins a declaration. -/
def BeginsDecl (names : Names) (t : Tok) : Prop :=
  (∃ k ∈ typeKeywords, t = .keyword k) ∨ ∃ n, t = .ident n ∧ names.isDeclared n = true ∧ names.isType n = true

/-- Type specifiers. -/
inductive T (names : Names) : List Tok → Ty → Prop
  | void : T names [.keyword (-32740)] .void
  | bool : T names [.keyword (-32765)] .boolean
  | char : T names [.keyword (-32762)] .character
  | int : T names [.keyword (-32749)] .integer
  | long : T names [.keyword (-32748)] .integer
  | float : T names [.keyword (-32752)] .floating
  | double : T names [.keyword (-32757)] .floating
  | file : T names [.keyword (-32753)] .file
  | const {l t} : T names l t → (∀ u, t ≠ .const u) → T names (.keyword (-32761) :: l) (.const t)
  | struct {n} : names.isDeclared n = true → T names [.keyword (-32745), .ident n] (.named n)
  | enum {n} : names.isDeclared n = true → T names [.keyword (-32755), .ident n] (.named n)
  | name {n} : names.isDeclared n = true → names.isType n = true → T names [.ident n] (.named n)

/-- Bounds of arrays. -/
inductive B : List Tok → List (Option Exp) → Prop
  | nil : B [] []
  | empty {l bs} : B l bs → B (.punct .lSquare :: .punct .rSquare :: l) (none :: bs)
  | bound {l₁ l₂ e bs} : E l₁ e → B l₂ bs → B (.punct .lSquare :: l₁ ++ .punct .rSquare :: l₂) (some e :: bs)

/-- What may stand before the name in a declarator. -/
inductive Stars : List Tok → Bool → Bool → Prop
  | none : Stars [] false false
  | star : Stars [.punct .star] true false
  | starConst : Stars [.punct .star, .keyword (-32761)] true true

/-- A declarator. -/
inductive D : List Tok → Declarator → Prop
  | plain {l₁ l₂ n star const bs} : Stars l₁ star const → B l₂ bs → D (l₁ ++ .ident n :: l₂) ⟨n, star, const, bs, none⟩
  | init {l₁ l₂ l₃ n star const bs e} : Stars l₁ star const → B l₂ bs → G .initializer l₃ [e] →
      D (l₁ ++ .ident n :: l₂ ++ .punct .equal :: l₃) ⟨n, star, const, bs, some e⟩

/-- One or more declarators. -/
inductive Ds : List Tok → List Declarator → Prop
  | one {l d} : D l d → Ds l [d]
  | more {l₁ l₂ d ds} : D l₁ d → Ds l₂ ds → Ds (l₁ ++ .punct .comma :: l₂) (d :: ds)

/-- A declaration. -/
inductive Decl (names : Names) : List Tok → Ty → List Declarator → Prop
  | none {l t} : T names l t → Decl names (l ++ [.punct .semicolon]) t []
  | some {l₁ l₂ t ds} : T names l₁ t → Ds l₂ ds → Decl names (l₁ ++ l₂ ++ [.punct .semicolon]) t ds

/-- The first part of a `for`. -/
inductive Init (names : Names) : List Tok → ForInit → Prop
  | none : Init names [.punct .semicolon] .none
  | decl {l t ds} : Decl names l t ds → Init names l (.decl t ds)
  | expr {l e} : E l e → (∀ t ∈ l.head?, ¬BeginsDecl names t) → Init names (l ++ [.punct .semicolon]) (.expr e)

/-- An optional expression. -/
inductive Opt : List Tok → Option Exp → Prop
  | none : Opt [] none
  | some {l e} : E l e → Opt l (some e)

/-- The nonterminals: a statement, with whether it stands in a loop and in a switch, and whether it ends
with an `if` without `else`; and the items of a compound statement. -/
inductive Nt
  | stmt (inLoop inSwitch openIf : Bool)
  | items (inLoop inSwitch : Bool)

/-- The grammar of statements.  `w` says in a loop, `c` in a switch, `o` ends with an `if` without `else`. -/
inductive S (names : Names) : Nt → List Tok → List Stmt → Prop
  | null {w c} : S names (.stmt w c false) [.punct .semicolon] [.null]
  | expr {w c l e} : E l e → S names (.stmt w c false) (l ++ [.punct .semicolon]) [.expr e]
  | compound {w c l ss} : S names (.items w c) l ss → S names (.stmt w c false) (.punct .lBrace :: l ++ [.punct .rBrace]) [.compound ss]
  -- selection
  | if_ {w c o l₁ l₂ e s} : E l₁ e → S names (.stmt w c o) l₂ [s] →
      S names (.stmt w c true) (.keyword (-32750) :: .punct .lParen :: l₁ ++ .punct .rParen :: l₂) [.if_ e s]
  | ifElse {w c o l₁ l₂ l₃ e s t} : E l₁ e → S names (.stmt w c false) l₂ [s] → S names (.stmt w c o) l₃ [t] →
      S names (.stmt w c o) (.keyword (-32750) :: .punct .lParen :: l₁ ++ .punct .rParen :: l₂ ++ .keyword (-32756) :: l₃) [.ifElse e s t]
  | switch {w c o l₁ l₂ e s} : E l₁ e → S names (.stmt w true o) l₂ [s] →
      S names (.stmt w c o) (.keyword (-32744) :: .punct .lParen :: l₁ ++ .punct .rParen :: l₂) [.switch e s]
  -- loops
  | while_ {w c o l₁ l₂ e s} : E l₁ e → S names (.stmt true c o) l₂ [s] →
      S names (.stmt w c o) (.keyword (-32739) :: .punct .lParen :: l₁ ++ .punct .rParen :: l₂) [.while_ e s]
  | do_ {w c o l₁ l₂ e s} : S names (.stmt true c o) l₁ [s] → E l₂ e →
      S names (.stmt w c false) (.keyword (-32758) :: l₁ ++ .keyword (-32739) :: .punct .lParen :: l₂ ++ [.punct .rParen, .punct .semicolon]) [.do_ s e]
  | for_ {w c o l₁ l₂ l₃ l₄ i e n s} : Init names l₁ i → Opt l₂ e → Opt l₃ n → S names (.stmt true c o) l₄ [s] →
      S names (.stmt w c o) (.keyword (-32751) :: .punct .lParen :: l₁ ++ l₂ ++ .punct .semicolon :: l₃ ++ .punct .rParen :: l₄) [.for_ i e n s]
  -- jumps and labels
  | continue_ {c} : S names (.stmt true c false) [.keyword (-32760), .punct .semicolon] [.continue_]
  | breakLoop {c} : S names (.stmt true c false) [.keyword (-32764), .punct .semicolon] [.break_]
  | breakSwitch {w} : S names (.stmt w true false) [.keyword (-32764), .punct .semicolon] [.break_]
  | return_ {w c l e} : Opt l e → S names (.stmt w c false) (.keyword (-32746) :: l ++ [.punct .semicolon]) [.return_ e]
  | case {w o l₁ l₂ e s} : G (.level false 3) l₁ [e] → S names (.stmt w true o) l₂ [s] →
      S names (.stmt w true o) (.keyword (-32763) :: l₁ ++ .punct .colon :: l₂) [.case e s]
  | default {w o l s} : S names (.stmt w true o) l [s] →
      S names (.stmt w true o) (.keyword (-32759) :: .punct .colon :: l) [.default s]
  -- items
  | nil {w c} : S names (.items w c) [] []
  | decl {w c l₁ l₂ t ds ss} : Decl names l₁ t ds → S names (.items w c) l₂ ss → S names (.items w c) (l₁ ++ l₂) (.decl t ds :: ss)
  | stmt {w c o l₁ l₂ s ss} : S names (.stmt w c o) l₁ [s] → (∀ t ∈ l₁.head?, ¬BeginsDecl names t) →
      S names (.items w c) l₂ ss → S names (.items w c) (l₁ ++ l₂) (s :: ss)

mutual

/-- Jumps stand where they make sense: `break` in a loop or switch, `continue` in a loop, `case` and
`default` in a switch. -/
inductive Placed : Bool → Bool → Stmt → Prop
  | decl {w c t ds} : Placed w c (.decl t ds)
  | null {w c} : Placed w c .null
  | expr {w c e} : Placed w c (.expr e)
  | return_ {w c e} : Placed w c (.return_ e)
  | compound {w c ss} : AllPlaced w c ss → Placed w c (.compound ss)
  | if_ {w c e s} : Placed w c s → Placed w c (.if_ e s)
  | ifElse {w c e s t} : Placed w c s → Placed w c t → Placed w c (.ifElse e s t)
  | switch {w c e s} : Placed w true s → Placed w c (.switch e s)
  | while_ {w c e s} : Placed true c s → Placed w c (.while_ e s)
  | do_ {w c e s} : Placed true c s → Placed w c (.do_ s e)
  | for_ {w c i e n s} : Placed true c s → Placed w c (.for_ i e n s)
  | continue_ {c} : Placed true c .continue_
  | break_ {w c} : w = true ∨ c = true → Placed w c .break_
  | case {w e s} : Placed w true s → Placed w true (.case e s)
  | default {w s} : Placed w true s → Placed w true (.default s)

/-- The same for each of a list. -/
inductive AllPlaced : Bool → Bool → List Stmt → Prop
  | nil {w c} : AllPlaced w c []
  | cons {w c s ss} : Placed w c s → AllPlaced w c ss → AllPlaced w c (s :: ss)

end

end RuC.Stmt.Spec
