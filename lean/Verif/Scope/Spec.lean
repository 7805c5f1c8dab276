import Verif.Scope.Model

/-!
# What names must denote

Declarations are kept in a list of scopes, innermost first; a scope is the list of the names declared in it,
newest first, each with the identifier that was answered for it.
-/

namespace RuC.Scope.Spec
open RuC RuC.Scope

abbrev Env := List (List (Nat × Nat))

/-- The effect of a call and its answer. -/
def envStep (e : Env) (x : Op × Nat) : Env :=
  match x.1 with
  | .decl r _ _ _ _ =>
    match e with
    | f :: fs => ((r, x.2) :: f) :: fs
    | [] => []
  | .enter => [] :: e
  | .funcEnter => [] :: e
  | .exit => e.tail
  | .funcExit => e.tail

/-- The scopes after a history, oldest call first. -/
def env (h : List (Op × Nat)) : Env := h.foldl envStep [[]]

/-- What a name denotes: the innermost declaration, or what it denoted from the beginning.  The name `main`,
which is the one with the reference 0, keeps it. -/
def denote (base : Nat → Int) (e : Env) (r : Nat) : Int :=
  if base r = 0 then 0
  else
    match e.flatten.find? fun x => x.1 = r with
    | some x => x.2
    | none => base r

/-- The state parsing starts from: whole records, no open scope, and every reference is a keyword (negative),
nothing, `main` or a record. -/
structure Start (s : Sx) : Prop where
  cells : ∃ n, s.ids.length = 6 + 4 * n
  curId : s.curId = 2
  displ : s.displ = -3
  lg : s.lg = -1
  refs : ∀ v ∈ s.refs, v = ITEM_MAX ∨ v ≤ 0 ∨ 2 ≤ v ∧ v < s.ids.length

/-- The calls considered: the declared name is no keyword and no label; functions are declared outside of
functions only. -/
def Proper (base : Nat → Int) (names depth : Nat) : Op → Prop
  | .decl r kind _ _ _ => 0 < r ∧ r < names ∧ 0 ≤ base r ∧ kind ≠ 1 ∧ (depth = 0 ∨ kind ≤ 0 ∨ 1000 ≤ kind)
  | _ => True

/-- How many scopes are open after a call. -/
def depthStep (depth : Nat) : Op → Nat
  | .enter | .funcEnter => depth + 1
  | .exit | .funcExit => depth - 1
  | .decl .. => depth

/-- Sequences of considered calls. -/
def AllProper (base : Nat → Int) (names : Nat) : Nat → List Op → Prop
  | _, [] => True
  | depth, op :: ops => Proper base names depth op ∧ AllProper base names (depthStep depth op) ops

/-- The cells a call can need for a variable. -/
def weight : Op → Nat
  | .decl _ _ _ size _ => size + 1
  | _ => 0

/-- Every call was accepted. -/
def Accepted (answers : List Nat) : Prop := ∀ a ∈ answers, a < 18446744073709551614

/-- Sequences of calls where each block that is opened is closed again. -/
inductive Nested : List Op → Prop
  | nil : Nested []
  | decl {r kind type size funcDef ops} : Nested ops → Nested (.decl r kind type size funcDef :: ops)
  | block {inner ops} : Nested inner → Nested ops → Nested (.enter :: (inner ++ .exit :: ops))

/-- What a declaration is to be recorded as. -/
inductive Decl
  | variable (type : Int) (size : Nat)
  | functionParameter (type : Int)
  | typeName (type : Int) (tag : Nat)
  | function (number : Int) (type : Int)
  | prototype (number : Int) (type : Int)

/-- The call that makes a declaration: kind, type, size and the mark of function definitions. -/
def Decl.call (repr : Nat) : Decl → Op
  | .variable type size => .decl repr 0 type size 3
  | .functionParameter type => .decl repr (-1) type 0 1
  | .typeName type tag => .decl repr (1000 + tag) type 0 0
  | .function number type => .decl repr number type 0 1
  | .prototype number type => .decl repr number type 0 2

/-- What is to be read of it: name (negative for a prototype), type and displacement. -/
def Decl.fields (repr : Nat) (displ : Int) : Decl → Int × Int × Int
  | .variable type _ => (repr, type, displ)
  | .functionParameter type => (repr, type, -displ)
  | .typeName type tag => (repr, type, 1000 + tag)
  | .function number type => (repr, type, number)
  | .prototype number type => (-repr, type, number)

/-- A call that declares the function `r` without a body. -/
def Prototypes (r : Nat) (op : Op) : Prop := ∃ kind type size, op = .decl r kind type size 2 ∧ 2 ≤ kind ∧ kind < 1000

/-- A call that declares the function `r` with a body. -/
def Defines (r : Nat) (op : Op) : Prop := ∃ kind type size funcDef, op = .decl r kind type size funcDef ∧ funcDef ≠ 2 ∧ 2 ≤ kind ∧ kind < 1000

/-- A call that declares the name `r` as anything. -/
def Declares (r : Nat) (op : Op) : Prop := ∃ kind type size funcDef, op = .decl r kind type size funcDef

/-- The function `r` was declared and no definition came after it. -/
def Pending (ops : List Op) (r : Nat) : Prop := ∃ before op after, ops = before ++ op :: after ∧ Prototypes r op ∧ ∀ op' ∈ after, ¬Defines r op'

end RuC.Scope.Spec
