import Verif.Builder.Spec
import Verif.Checks.Model
import Verif.Utf8.Spec

/-!
What is asked of initialisers, calls, members, conditions, `return` and declarators, on the records of the table
of types.
-/

namespace RuC.Checks.Spec

open RuC RuC.Types RuC.Expr RuC.Builder RuC.Builder.Spec

variable {F : Type}

/-- `t` is an array of elements of the type `u`. -/
def ArrayOf (cells : List Int) (t u : Int) : Prop := ∃ n : Nat, t = n ∧ 0 < n ∧ cells[n]? = some TYPE_ARRAY ∧ cells[n + 1]? = some u

/-- `t` is a structure with these members, types and names. -/
def Fields (cells : List Int) (t : Int) (ms : List (Int × Int)) : Prop :=
  ∃ n : Nat, t = n ∧ 0 < n ∧ cells[n]? = some TYPE_STRUCTURE ∧ cells[n + 2]? = some (2 * (ms.length : Int)) ∧
    ∀ (i : Nat) m, ms[i]? = some m → cells[n + 3 + 2 * i]? = some m.1 ∧ cells[n + 4 + 2 * i]? = some m.2

/-- `t` is a function with this type of result and these types of parameters. -/
def Signature (cells : List Int) (t r : Int) (ps : List Int) : Prop :=
  ∃ n : Nat, t = n ∧ 0 < n ∧ cells[n]? = some TYPE_FUNCTION ∧ cells[n + 1]? = some r ∧ cells[n + 2]? = some (ps.length : Int) ∧
    ∀ (i : Nat) p, ps[i]? = some p → cells[n + 3 + i]? = some p

/-- The type is `const` of another. -/
def Constant (cells : List Int) (t : Int) : Prop := ∃ u, ConstOf cells t u

/-- A type whose parts are all in the table, before it: built-in types, pointers, functions, enumerations, `const`
of a type that is not `const`, arrays and structures. -/
inductive Full (cells : List Int) : Int → Prop
  | basic {t T} : t ≤ 0 → Den cells t T → Full cells t
  | leaf {n : Nat} {T} : 0 < n → (cells[n]? = some TYPE_POINTER ∨ cells[n]? = some TYPE_FUNCTION ∨ cells[n]? = some TYPE_ENUM) → Den cells n T → Full cells n
  | const {t u} : ConstOf cells t u → u < t → ¬Constant cells u → Full cells u → Full cells t
  | array {t u} : ArrayOf cells t u → u < t → Full cells u → Full cells t
  | struct {t ms} : Fields cells t ms → (∀ m ∈ ms, m.1 < t) → (∀ m ∈ ms, Full cells m.1) → Full cells t

/-- An object of the type has a part that cannot be assigned to. -/
inductive HasConst (cells : List Int) : Int → Prop
  | here {t u} : ConstOf cells t u → HasConst cells t
  | element {t u} : ArrayOf cells t u → HasConst cells u → HasConst cells t
  | member {t ms m} : Fields cells t ms → m ∈ ms → HasConst cells m.1 → HasConst cells t

/-- An expression as the parser makes them, with types of the table; lists of initialisers have no type yet. -/
inductive Ready (cells : List Int) : Ex F → Prop
  | plain {e T} : e.isInit = false → Den cells e.type T → Literal cells e → Ready cells e
  | init {t es} : (∀ e ∈ es, Ready cells e) → Ready cells (.init t es)

/-- A place of the type `t` takes the expression: a value that fits; a list of one initialiser for each member
of a structure; a list of initialisers of the elements of an array.  A `const` place takes it only when it is
declared. -/
inductive Takes (cells : List Int) (decl : Bool) : Int → Ex F → Prop
  | plain {t e T E} : e.isInit = false → (Constant cells t → decl = true) → Den cells t T → Den cells e.type E → Fitting cells t e.type T E → Takes cells decl t e
  | struct {t s ms i es} : (Constant cells t → decl = true) → Once cells t s → Fields cells s ms → ms.length = es.length →
      (∀ (j : Nat) m e, ms[j]? = some m → es[j]? = some e → Takes cells decl m.1 e) → Takes cells decl t (.init i es)
  | array {t s u i es} : (Constant cells t → decl = true) → Once cells t s → ArrayOf cells s u →
      (∀ e ∈ es, Takes cells decl u e) → Takes cells decl t (.init i es)

/-- What is stored in a place of the type `t` for the expression: an integer put in a floating place is
converted, the lists of initialisers get the type of the place, and all else is as it was. -/
inductive Stored (cells : List Int) : Int → Ex F → Ex F → Prop
  | same {t e} : e.isInit = false → (∀ T E, Den cells t T → Den cells e.type E → ¬(T.bare = .float ∧ E.Integral)) → Stored cells t e e
  | converted {t e e' T E} : e.isInit = false → Den cells t T → Den cells e.type E → T.bare = .float → E.Integral → e'.type = TYPE_FLOATING → Stored cells t e e'
  | struct {t s ms i es es'} : Once cells t s → Fields cells s ms → es'.length = es.length →
      (∀ (j : Nat) m e e', ms[j]? = some m → es[j]? = some e → es'[j]? = some e' → Stored cells m.1 e e') → Stored cells t (.init i es) (.init s es')
  | array {t s u i es es'} : Once cells t s → ArrayOf cells s u → es'.length = es.length →
      (∀ (j : Nat) e e', es[j]? = some e → es'[j]? = some e' → Stored cells u e e') → Stored cells t (.init i es) (.init s es')

/-! ## Formats -/

/-- What a specifier of a format asks for. -/
inductive Asked
  | int | float | string
  deriving DecidableEq

/-- The specifiers, Latin and Russian: `i` `ц` `c` `л`, `f` `в`, `s` `с`. -/
def asks : List (Nat × Asked) :=
  [(0x69, .int), (0x446, .int), (0x63, .int), (0x43B, .int), (0x66, .float), (0x432, .float), (0x73, .string), (0x441, .string)]

/-- A format, as code points, and the values it asks for, in order: `%` stands before a specifier or another `%`. -/
inductive Format : List Nat → List Asked → Prop
  | done : Format [] []
  | text {c cs as} : c ≠ 0x25 → Format cs as → Format (c :: cs) as
  | percent {cs as} : Format cs as → Format (0x25 :: 0x25 :: cs) as
  | value {c a cs as} : (c, a) ∈ asks → Format cs as → Format (0x25 :: c :: cs) (a :: as)

/-- The type of the value asked for; `str` is the type of strings. -/
def Asked.type (str : Int) : Asked → Int
  | .int => -1
  | .float => -3
  | .string => str

/-- The octets of a string literal with these code points. -/
def octets (cs : List Nat) : List Nat := cs.flatMap Utf8.encode ++ [0]

/-- The arguments are as many as the types, and each is taken. -/
def TakesAll (cells : List Int) (ts : List Int) (es : List (Ex F)) : Prop :=
  ts.length = es.length ∧ ∀ (i : Nat) t e, ts[i]? = some t → es[i]? = some e → Takes cells true t e

/-! ## Members -/

/-- The first member of that name. -/
def FirstNamed (ms : List (Int × Int)) (name : Int) (i : Nat) (type : Int) : Prop :=
  ms[i]? = some (type, name) ∧ ∀ (j : Nat) m, j < i → ms[j]? = some m → m.2 ≠ name

/-! ## Declarators -/

/-- `n` times an array. -/
def arrays : Nat → Ty → Ty
  | 0, T => T
  | n + 1, T => arrays n (.array T)

/-- The tree a declarator gives to a variable. -/
def declared (T : Ty) (star const : Bool) (bounds : Nat) : Ty :=
  arrays bounds (if const then .const (if star then .pointer T else T) else if star then .pointer T else T)

end RuC.Checks.Spec
