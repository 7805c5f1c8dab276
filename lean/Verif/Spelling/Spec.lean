import Verif.Spelling.Model

/-!
# Types as trees, and a reader of their spelling
-/

namespace RuC.Spelling
open RuC.Types

/-- Types without parts. -/
inductive Base
  | vararg | null | file | void | bool | float | char | int
  deriving DecidableEq, Repr

mutual
/-- Types. -/
inductive T
  | base (b : Base)
  | func (ret : T) (params : Ts)
  | struct (members : Ms)
  | array (element : T)
  | ptr (element : T)
  | const (of : T)
  deriving DecidableEq

/-- Parameters. -/
inductive Ts
  | nil
  | cons (t : T) (rest : Ts)
  deriving DecidableEq

/-- Members with their names. -/
inductive Ms
  | nil
  | cons (t : T) (name : List Nat) (rest : Ms)
  deriving DecidableEq
end

/-- How many. -/
def Ts.len : Ts → Nat
  | .nil => 0
  | .cons _ r => r.len + 1

/-- How many. -/
def Ms.len : Ms → Nat
  | .nil => 0
  | .cons _ _ r => r.len + 1

/-- The numbers of the types without parts. -/
def Base.num : Base → Int
  | .vararg => -9 | .null => -8 | .file => -7 | .void => -6 | .bool => -4 | .float => -3 | .char => -2 | .int => -1

mutual
/-- The number `t` of the table stands for a type; `name` gives the names of members. -/
def means (name : Nat → List Nat) (cells : List Int) (t : Int) : T → Prop
  | .base b => t = b.num
  | .func r ps => ∃ (n : Nat) (u : Int), t = n ∧ 0 < n ∧ cells[n]? = some TYPE_FUNCTION ∧ cells[n + 1]? = some u ∧ cells[n + 2]? = some (ps.len : Int) ∧ means name cells u r ∧
      meansAll name cells (n + 3) ps
  | .struct ms => ∃ n : Nat, t = n ∧ 0 < n ∧ cells[n]? = some TYPE_STRUCTURE ∧ cells[n + 2]? = some (2 * ms.len : Int) ∧ meansMembers name cells (n + 3) ms
  | .array e => ∃ (n : Nat) (u : Int), t = n ∧ 0 < n ∧ cells[n]? = some TYPE_ARRAY ∧ cells[n + 1]? = some u ∧ means name cells u e
  | .ptr e => ∃ (n : Nat) (u : Int), t = n ∧ 0 < n ∧ cells[n]? = some TYPE_POINTER ∧ cells[n + 1]? = some u ∧ means name cells u e
  | .const e => ∃ (n : Nat) (u : Int), t = n ∧ 0 < n ∧ cells[n]? = some TYPE_CONST ∧ cells[n + 1]? = some u ∧ means name cells u e

/-- The cells from `i` on hold the types of parameters. -/
def meansAll (name : Nat → List Nat) (cells : List Int) (i : Nat) : Ts → Prop
  | .nil => True
  | .cons t r => (∃ u, cells[i]? = some u ∧ means name cells u t) ∧ meansAll name cells (i + 1) r

/-- The cells from `i` on hold the types and the names of members. -/
def meansMembers (name : Nat → List Nat) (cells : List Int) (i : Nat) : Ms → Prop
  | .nil => True
  | .cons t w r => (∃ (u : Int) (m : Nat), cells[i]? = some u ∧ cells[i + 1]? = some (m : Int) ∧ m < 9223372036854775808 ∧ name m = w ∧ means name cells u t) ∧
      meansMembers name cells (i + 2) r
end

/-! ## Reading -/

/-- The characters of a string literal. -/
def chars (s : String) : List Nat := s.toList.map Char.toNat

/-- Words and punctuation. -/
inductive Tok
  | base (b : Base)
  | const
  | struct
  | ident (w : List Nat)
  | lpar | rpar | lsq | rsq | lbrace | rbrace | semi | comma | star
  deriving DecidableEq

/-- The words that are no names. -/
def keywords : List (List Nat × Tok) :=
  [("...", Tok.base .vararg), ("nullptr", .base .null), ("FILE", .base .file), ("void", .base .void), ("bool", .base .bool), ("double", .base .float), ("char", .base .char),
  ("int", .base .int), ("const", .const), ("struct", .struct)].map fun p => (chars p.1, p.2)

/-- What a word is. -/
def classify (w : List Nat) : Tok := (keywords.lookup w).getD (.ident w)

/-- Blanks and punctuation. -/
def separator (c : Nat) : Option (List Tok) :=
  if c = 32 then some [] else if c = 40 then some [.lpar] else if c = 41 then some [.rpar] else if c = 91 then some [.lsq] else if c = 93 then some [.rsq]
  else if c = 123 then some [.lbrace] else if c = 125 then some [.rbrace] else if c = 59 then some [.semi] else if c = 44 then some [.comma] else if c = 42 then some [.star] else none

/-- The end of a word. -/
def flush (w : List Nat) : List Tok := if w = [] then [] else [classify w]

/-- The words of a text; `w` is the word that has begun. -/
def cut : List Nat → List Nat → List Tok
  | w, [] => flush w
  | w, c :: r => match separator c with
    | some t => flush w ++ (t ++ cut [] r)
    | none => cut (w ++ [c]) r

/-- What is open: the parameters of a function, or the members of a structure behind `const` or not. -/
inductive Frame
  | func (ret : T) (done : List T)
  | struct (const : Bool) (done : List (T × List Nat))

/-- What stands in front: nothing or `const`, the word `struct`, a type, a type and `[`, a type and a name. -/
inductive Cur
  | empty (const : Bool)
  | begun (const : Bool)
  | type (t : T)
  | bracket (t : T)
  | named (t : T) (w : List Nat)

/-- Parameters from a list. -/
def Ts.of : List T → Ts
  | [] => .nil
  | t :: r => .cons t (.of r)

/-- Members from a list. -/
def Ms.of : List (T × List Nat) → Ms
  | [] => .nil
  | t :: r => .cons t.1 t.2 (.of r)

/-- With `const` or not. -/
def constIf (c : Bool) (t : T) : T := if c then .const t else t

/-- One word. -/
def step (st : List Frame) (cur : Cur) (k : Tok) : Option (List Frame × Cur) :=
  match k, cur with
  | .base b, .empty c => some (st, .type (constIf c (.base b)))
  | .const, .empty false => some (st, .empty true)
  | .const, .type (.ptr t) => some (st, .type (.const (.ptr t)))
  | .struct, .empty c => some (st, .begun c)
  | .lbrace, .begun c => some (.struct c [] :: st, .empty false)
  | .ident w, .type t => some (st, .named t w)
  | .semi, .named t w => match st with | .struct c done :: st => some (.struct c (done ++ [(t, w)]) :: st, .empty false) | _ => none
  | .rbrace, .empty false => match st with | .struct c done :: st => some (st, .type (constIf c (.struct (.of done)))) | _ => none
  | .star, .type t => some (st, .type (.ptr t))
  | .lsq, .type t => some (st, .bracket t)
  | .rsq, .bracket t => some (st, .type (.array t))
  | .lpar, .type t => some (.func t [] :: st, .empty false)
  | .comma, .type t => match st with | .func r done :: st => some (.func r (done ++ [t]) :: st, .empty false) | _ => none
  | .rpar, .type t => match st with | .func r done :: st => some (st, .type (.func r (.of (done ++ [t])))) | _ => none
  | .rpar, .empty false => match st with | .func r [] :: st => some (st, .type (.func r .nil)) | _ => none
  | _, _ => none

/-- All words. -/
def run : List Frame → Cur → List Tok → Option T
  | st, cur, [] => match st, cur with | [], .type t => some t | _, _ => none
  | st, cur, k :: r => (step st cur k).bind fun x => run x.1 x.2 r

/-- The type that a text spells. -/
def read (s : List Nat) : Option T := run [] (.empty false) (cut [] s)

/-! ## Types whose spelling is read back -/

/-- A word that is no key word and has no punctuation. -/
def nameOk (w : List Nat) : Bool := w ≠ [] && w.all (fun c => (separator c).isNone) && (keywords.lookup w).isNone

/-- `const` may stand in front of it. -/
def constable : T → Bool
  | .base _ | .struct _ | .ptr _ => true
  | _ => false

mutual
/-- `const` only of types without parts, structures and pointers; members have names. -/
def ok : T → Bool
  | .base _ => true
  | .func r ps => ok r && okTs ps
  | .struct ms => okMs ms
  | .array e | .ptr e => ok e
  | .const e => constable e && ok e

/-- The same for parameters. -/
def okTs : Ts → Bool
  | .nil => true
  | .cons t r => ok t && okTs r

/-- The same for members. -/
def okMs : Ms → Bool
  | .nil => true
  | .cons t w r => ok t && nameOk w && okMs r
end

mutual
/-- How deep the parts of a type are. -/
def depth : T → Nat
  | .base _ => 1
  | .func r ps => max (depth r) (depthTs ps) + 1
  | .struct ms => depthMs ms + 1
  | .array e | .ptr e | .const e => depth e + 1

/-- The same for parameters. -/
def depthTs : Ts → Nat
  | .nil => 0
  | .cons t r => max (depth t) (depthTs r)

/-- The same for members. -/
def depthMs : Ms → Nat
  | .nil => 0
  | .cons t _ r => max (depth t) (depthMs r)
end

end RuC.Spelling
