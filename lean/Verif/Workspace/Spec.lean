import Verif.Workspace.Model

/-!
# What paths and workspaces are supposed to mean
-/

namespace RuC.Workspace
open RuC

/-- A file system without links: going down by a name and up again comes back. -/
structure FS where
  Node : Type
  root : Node
  cwd : Node
  child : Node → List Nat → Option Node
  parent : Node → Node
  up : ∀ d name e, name ≠ [] → name ≠ [46] → name ≠ [46, 46] → child d name = some e → parent e = d

/-- Both kinds of separators are accepted. -/
def isSep (c : Nat) : Bool := c == 47 || c == 92

/-- The components of a path: the texts between the separators. -/
def comps : List Nat → List (List Nat)
  | [] => [[]]
  | c :: cs =>
    if isSep c then [] :: comps cs
    else
      match comps cs with
      | [] => [[c]]
      | d :: ds => (c :: d) :: ds

/-- One component: an empty one and "." stay, ".." goes up, a name goes down. -/
def FS.go (fs : FS) (d : fs.Node) (seg : List Nat) : Option fs.Node :=
  if seg = [] ∨ seg = [46] then some d else if seg = [46, 46] then some (fs.parent d) else fs.child d seg

/-- All components in order. -/
def FS.goAll (fs : FS) : fs.Node → List (List Nat) → Option fs.Node
  | d, [] => some d
  | d, s :: ss => (fs.go d s).bind fun e => fs.goAll e ss

/-- What a path denotes: an empty path nothing, a path that begins with a separator is followed from
the root, any other from the current directory. -/
def FS.resolve (fs : FS) : List Nat → Option fs.Node
  | [] => none
  | c :: cs => fs.goAll (if isSep c then fs.root else fs.cwd) (comps (c :: cs))

/-- How far down a list of components leads: names minus "..". -/
def depth : List (List Nat) → Int
  | [] => 0
  | s :: ss => (if s = [] ∨ s = [46] then 0 else if s = [46, 46] then -1 else 1) + depth ss

/-- The paths whose normal form is right: no two separators in a row, an absolute path does not climb
above the root, and a path that ends in a separator does not lead to where it started.  See the
theorems at the end of `Props.lean` for what happens to other paths. -/
structure Plain (p : List Nat) : Prop where
  text : ∀ c ∈ p, c ≠ 0
  fits : p.length < 1024
  nonempty : p ≠ []
  single : ∀ a c d b, p = a ++ c :: d :: b → ¬ (isSep c ∧ isSep d)
  climb : isSep (p.head?.getD 0) → ∀ a b, (comps p).dropLast = a ++ b → 0 ≤ depth a
  ends : isSep (p.getLast?.getD 0) → depth (comps p) ≠ 0

/-! ## Lists without repetition -/

/-- The texts of a history, each once, in the order of first occurrence. -/
def firsts : List (List Nat) → List (List Nat)
  | [] => []
  | s :: ss => s :: (firsts ss).filter (· ≠ s)

/-! ## Histories -/

/-- What a user does to a workspace. -/
inductive Op where
  | file (path : List Nat)
  | dir (path : List Nat)
  | flag (text : List Nat)
  | output (path : List Nat)
deriving DecidableEq, Repr

/-- The four things a workspace holds. -/
inductive Kind where
  | file | dir | flag | out
deriving DecidableEq, Repr

/-- What an operation names: a path in normal form, a flag as it is; a flag that begins with "-I" names
a directory. -/
def entry : Op → Option (Kind × List Nat)
  | .file p => (unixPath p).map fun q => (.file, q)
  | .dir p => (unixPath p).map fun q => (.dir, q)
  | .flag (45 :: 73 :: p) => (unixPath p).map fun q => (.dir, q)
  | .flag f => some (.flag, f)
  | .output p => some (.out, p)

/-- The texts of one kind. -/
def texts (k : Kind) (es : List (Kind × List Nat)) : List (List Nat) :=
  es.filterMap fun e => if e.1 = k then some e.2 else none

/-- A workspace holds exactly what was named: every text once, in the order of first occurrence, and
the last output; empty flags are not kept. -/
structure Listed (es : List (Kind × List Nat)) (ws : Ws) : Prop where
  files : ws.files = firsts (texts .file es)
  dirs : ws.dirs = firsts (texts .dir es)
  flags : ws.flags = firsts ((texts .flag es).filter (· ≠ []))
  output : ws.output = (texts .out es).getLast?.getD []

/-- One call. -/
def step (access : List Nat → Bool) (ws : Ws) : Op → Option (Nat × Ws)
  | .file p => wsAddFile access ws p
  | .dir p => wsAddDir access ws p
  | .flag f => wsAddFlag access ws f
  | .output p => (wsSetOutput ws p).map fun r => (if r.1 = 0 then 0 else SIZE_MAX, r.2)

/-- A history of calls and the answers. -/
def run (access : List Nat → Bool) : Ws → List Op → Option (List Nat × Ws)
  | ws, [] => some ([], ws)
  | ws, op :: ops =>
    match step access ws op with
    | none => none
    | some (a, ws) => (run access ws ops).map fun r => (a :: r.1, r.2)

/-- How a command line is read: "-o" takes the next argument, other arguments that begin with a dash
are flags, the rest are files. -/
inductive Reads : List (List Nat) → List Op → Prop
  | nil : Reads [] []
  | out {p args ops} : Reads args ops → Reads ([45, 111] :: p :: args) (.output p :: ops)
  | flag {f args ops} : f.head? = some 45 → f ≠ [45, 111] → Reads args ops → Reads (f :: args) (.flag f :: ops)
  | file {p args ops} : p.head? ≠ some 45 → Reads args ops → Reads (p :: args) (.file p :: ops)

end RuC.Workspace
