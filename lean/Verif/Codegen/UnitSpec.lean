import Verif.Codegen.Spec

/-!
# What the code of a translation unit should be

The code of a function and of a whole unit, the numbers of functions, and the rules a unit obeys: where `break`,
`continue`, `case` and `default` stand, and which functions are called before they are defined.
-/

namespace RuC.Codegen

open RuC RuC.Instr
open RuC.Expr (Unary Binary)

/-! ### Where statements stand -/

/-- The statement stands where a `break` is allowed (`b`), a `continue` (`c`), a `case` or `default` (`l`). -/
def Stmt.Placed (b c l : Bool) : Stmt → Prop
  | .seq x y | .ifElse _ x y => x.Placed b c l ∧ y.Placed b c l
  | .block s | .if_ _ s => s.Placed b c l
  | .case _ s | .default s => l = true ∧ s.Placed b c l
  | .switch _ s => s.Placed true c true
  | .while_ _ s | .do_ s _ => s.Placed true true l
  | .for_ i _ _ s => i.Placed b c l ∧ s.Placed true true l
  | .continue_ => c = true
  | .break_ => b = true
  | _ => True

/-! ### Which functions are called and passed -/

mutual
/-- The functions called in an expression. -/
def Exp.calls : Exp → List Nat
  | .subscript b i _ => b.calls ++ i.calls
  | .arrow b _ _ | .dot b _ _ _ => b.calls
  | .deref e _ | .print e _ | .cast _ e | .incdec _ e _ | .address e | .unary _ e _ | .upb e => e.calls
  | .call f args => f :: args.calls
  | .callParam _ args | .builtin _ args => args.calls
  | .printf fmt args _ => args.calls ++ fmt.calls
  | .both a b | .comma a b | .binary _ a b _ | .assign _ a b _ => a.calls ++ b.calls
  | .ternary c a b => c.calls ++ a.calls ++ b.calls
  | .init _ _ items => items.calls
  | _ => []
/-- The same of a list. -/
def Args.calls : Args → List Nat
  | .nil => []
  | .cons e rest => e.calls ++ rest.calls
end

mutual
/-- The functions passed as arguments in an expression. -/
def Exp.passes : Exp → List Nat
  | .subscript b i _ => b.passes ++ i.passes
  | .arrow b _ _ | .dot b _ _ _ => b.passes
  | .deref e _ | .print e _ | .cast _ e | .incdec _ e _ | .address e | .unary _ e _ | .upb e => e.passes
  | .call _ args | .callParam _ args | .builtin _ args => args.passes
  | .printf fmt args _ => args.passes ++ fmt.passes
  | .both a b | .comma a b | .binary _ a b _ | .assign _ a b _ => a.passes ++ b.passes
  | .ternary c a b => c.passes ++ a.passes ++ b.passes
  | .init _ _ items => items.passes
  | .funArg f => [f]
  | _ => []
/-- The same of a list. -/
def Args.passes : Args → List Nat
  | .nil => []
  | .cons e rest => e.passes ++ rest.passes
end

def callsO : Option Exp → List Nat
  | none => []
  | some e => e.calls

def passesO : Option Exp → List Nat
  | none => []
  | some e => e.passes

/-- The functions called in a statement. -/
def Stmt.calls : Stmt → List Nat
  | .seq a b => a.calls ++ b.calls
  | .block s | .default s => s.calls
  | .var _ _ _ i => callsO i
  | .arr _ bs _ _ _ _ i => bs.calls ++ callsO i
  | .expr e => e.calls
  | .case e s | .if_ e s | .switch e s | .while_ e s | .do_ s e => e.calls ++ s.calls
  | .ifElse c a b => c.calls ++ a.calls ++ b.calls
  | .for_ i c n s => i.calls ++ callsO c ++ callsO n ++ s.calls
  | .return_ (some (e, _)) => e.calls
  | _ => []

/-- The functions passed as arguments in a statement. -/
def Stmt.passes : Stmt → List Nat
  | .seq a b => a.passes ++ b.passes
  | .block s | .default s => s.passes
  | .var _ _ _ i => passesO i
  | .arr _ bs _ _ _ _ i => bs.passes ++ passesO i
  | .expr e => e.passes
  | .case e s | .if_ e s | .switch e s | .while_ e s | .do_ s e => e.passes ++ s.passes
  | .ifElse c a b => c.passes ++ a.passes ++ b.passes
  | .for_ i c n s => i.passes ++ passesO c ++ passesO n ++ s.passes
  | .return_ (some (e, _)) => e.passes
  | _ => []

/-! ### Functions and units -/

/-- The layout at the beginning of the body of a function. -/
def layEntry (L : Layout) (f : Func) : Layout :=
  f.params.foldl (fun (l : Layout) (p : Nat × Ty) => l.add p.1 p.2) { L with inFunc := true, displ := DISPL_START, maxLocal := DISPL_START }

/-- The layout behind a function. -/
def layF (L : Layout) (f : Func) : Layout := { layS (layEntry L f) f.body with inFunc := false }

/-- The code of a function: its frame, the address behind it, its body, a return. -/
def codeF (L : Layout) (base : Nat) (f : Func) : List Sym :=
  let B := (codeS (layEntry L f) (base + 3) f.body).code
  vals [IC_FUNC_BEG, (layS (layEntry L f) f.body).maxLocal, ((base + 3 + B.length + 1 : Nat) : Int)] ++ B ++ vals [IC_RETURN_VOID]

def codeT (L : Layout) (base : Nat) : Top → List Sym
  | .vars s => (codeS L base s).code
  | .func f => codeF L base f

def layT (L : Layout) : Top → Layout
  | .vars s => layS L s
  | .func f => layF L f

/-- The code of the declarations of a unit, in order. -/
def codeTops (L : Layout) (base : Nat) : List Top → List Sym
  | [] => []
  | t :: rest => codeT L base t ++ codeTops (layT L t) (base + (codeT L base t).length) rest

/-- The functions a unit defines. -/
def defs : List Top → List Func
  | [] => []
  | .vars _ :: rest => defs rest
  | .func f :: rest => f :: defs rest

/-- The addresses of the functions. -/
def addrs (L : Layout) (base : Nat) : List Top → List Nat
  | [] => []
  | .vars s :: rest => addrs (layS L s) (base + (codeS L base s).code.length) rest
  | .func f :: rest => base :: addrs (layF L f) (base + (codeF L base f).length) rest

/-- The number of a function: the definitions are counted from 2 on; a definition counts for its earlier declaration
too. -/
def number (tops : List Top) (f : Nat) : Nat := 2 + (defs tops).findIdx fun g => g.id = f ∨ g.prev = some f

/-- A cell of code when all functions have numbers. -/
def resolve (F : Nat → Nat) : Sym → Int
  | .val v => v
  | .fn f | .fnArg f => F f
  | .fnOp _ => IC_LI
  | _ => 0

def Top.calls : Top → List Nat
  | .vars s => s.calls
  | .func f => f.body.calls

def Top.passes : Top → List Nat
  | .vars s => s.passes
  | .func f => f.body.passes

def callsT : List Top → List Nat
  | [] => []
  | t :: rest => t.calls ++ callsT rest

/-- The rules about functions.  `done` are the identifiers of the functions defined so far, `old` those of their
earlier declarations, `used` those of the functions called so far.  An identifier is defined once and not called before;
an earlier declaration belongs to one definition and is not used after it; a function that is passed as an argument is
defined. -/
def Linked (done old used : List Nat) : List Top → Prop
  | [] => True
  | .vars s :: rest => (∀ f ∈ s.calls, f ∉ old) ∧ (∀ f ∈ s.passes, f ∈ done) ∧ Linked done old (s.calls ++ used) rest
  | .func f :: rest =>
    f.id ∉ done ∧ f.id ∉ old ∧ f.id ∉ used ∧ (∀ p, f.prev = some p → p ∉ done ∧ p ∉ old ∧ p ≠ f.id) ∧
    (∀ g ∈ f.body.calls, g ∉ f.prev.toList ++ old) ∧ (∀ g ∈ f.body.passes, g ∈ f.id :: done) ∧
    Linked (f.id :: done) (f.prev.toList ++ old) (f.body.calls ++ used) rest

end RuC.Codegen
