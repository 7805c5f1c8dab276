import Verif.Storage.Model
import Verif.Map.Spec

/-!
# What the macro storage is supposed to be

A finite map from names to the number of parameters and the value, beside a fixed set of directive
spellings.  A history is told in names; `Says` relates it to the calls with key arguments.
-/

namespace RuC.Storage
open RuC

/-- The directives: number, lower and upper case, English and Russian. -/
def directives : List (Nat × List String) := [
  (2, ["#include", "#INCLUDE", "#подключить", "#ПОДКЛЮЧИТЬ"]),
  (3, ["#line", "#LINE", "#строка", "#СТРОКА"]),
  (4, ["#define", "#DEFINE", "#определить", "#ОПРЕДЕЛИТЬ"]),
  (5, ["#set", "#SET", "#переопределить", "#ПЕРЕОПРЕДЕЛИТЬ"]),
  (6, ["#undef", "#UNDEF", "#разопределить", "#РАЗОПРЕДЕЛИТЬ"]),
  (7, ["#macro", "#MACRO", "#макро", "#МАКРО"]),
  (8, ["#endm", "#ENDM", "#конецм", "#КОНЕЦМ"]),
  (9, ["#ifdef", "#IFDEF", "#еслибыл", "#ЕСЛИБЫЛ"]),
  (10, ["#ifndef", "#IFNDEF", "#еслинебыл", "#ЕСЛИНЕБЫЛ"]),
  (11, ["#if", "#IF", "#если", "#ЕСЛИ"]),
  (12, ["#elif", "#ELIF", "#инесли", "#ИНЕСЛИ"]),
  (13, ["#else", "#ELSE", "#иначе", "#ИНАЧЕ"]),
  (14, ["#endif", "#ENDIF", "#конецесли", "#КОНЕЦЕСЛИ"]),
  (15, ["#eval", "#EVAL", "#вычислить", "#ВЫЧИСЛИТЬ"]),
  (16, ["#while", "#WHILE", "#пока", "#ПОКА"]),
  (17, ["#endw", "#ENDW", "#конецп", "#КОНЕЦП"])]

/-- The spellings one by one, as code points. -/
def spellings : List (List Nat × Nat) :=
  directives.flatMap fun d => d.2.map fun s => (s.toList.map Char.toNat, d.1)

/-- The directive a text spells. -/
def directiveOf (k : List Nat) : Option Nat := (spellings.find? fun p => p.1 == k).map Prod.snd

/-- The defined macros: number of parameters and value. -/
abbrev Macros := List Nat → Option (Nat × List Nat)

/-- Change one name. -/
def Macros.put (T : Macros) (k : List Nat) (d : Option (Nat × List Nat)) : Macros :=
  fun k' => if k' = k then d else T k'

/-- A step told by the name it is about. -/
inductive Event
  | define (k : List Nat) (c : Context)
  | set (k : List Nat) (c : Context)
  | undef (k : List Nat)
  | flag (k : List Nat) (value : List Nat)
  | lookup (k : List Nat)
  | lookupSpaced (k : List Nat)
deriving Repr, DecidableEq

/-- The call is about that name. -/
inductive Says : Op → Event → Prop
  | define {a k} (c) (h : Map.Denotes a k) : Says (.define a c) (.define k c)
  | set {a k} (c) (h : Map.Denotes a k) : Says (.set a c) (.set k c)
  | undef {a k} (h : Map.Denotes a k) : Says (.undef a) (.undef k)
  | flag {a k} (v) (h : Map.Denotes a k) : Says (.flag a v) (.flag k v)
  | lookup {a k} (h : Map.Denotes a k) : Says (.lookup a) (.lookup k)
  | lookupSpaced {a k} (h : Map.Denotes a k) : Says (.lookupSpaced a) (.lookupSpaced k)

/-- The calls of a history, one by one, are about these names. -/
inductive Tells : List Op → List Event → Prop
  | nil : Tells [] []
  | cons {op e ops evs} (h : Says op e) (t : Tells ops evs) : Tells (op :: ops) (e :: evs)

/-- What a lookup should answer: an empty value is answered as no text. -/
def answer (T : Macros) (k : List Nat) : Answer :=
  match directiveOf k with
  | some n => .keyword n
  | none =>
    match T k with
    | some (n, v) => .found n (if v = [] then none else some v)
    | none => .absent

/-- The meaning of one step. -/
def Event.apply (T : Macros) : Event → Answer × Macros
  | .define k c | .set k c => (.done, T.put k c)
  | .undef k => (.done, T.put k none)
  | .flag k v => if T k = none then (.done, T.put k (some (0, v))) else (.refused, T)
  | .lookup k => (answer T k, T)
  | .lookupSpaced k => (match directiveOf k with | some n => .keyword n | none => .absent, T)

/-- The meaning of a history. -/
def meaning (T : Macros) : List Event → List Answer
  | [] => []
  | e :: es => (e.apply T).1 :: meaning (e.apply T).2 es

/-- A macro name begins with a letter. -/
def IsName (k : List Nat) : Prop := ∃ c t, k = c :: t ∧ Utf8.isLetter c = true

/-- A definition is acceptable: the value is a C string, the number of parameters is small, and an
empty value does not replace a value that is not empty. -/
def GoodContext (T : Macros) (k : List Nat) : Context → Prop
  | none => True
  | some (n, v) => n < 4294967296 ∧ 0 ∉ v ∧ (v = [] → ∀ n' v', T k = some (n', v') → v' = [])

/-- The steps for which the storage keeps its promise.  `#undef` must be of a defined macro. -/
def Event.Legal (T : Macros) : Event → Prop
  | .define k c | .set k c => IsName k ∧ GoodContext T k c
  | .undef k => IsName k ∧ T k ≠ none
  | .flag k v => IsName k ∧ 0 ∉ v
  | .lookup _ | .lookupSpaced _ => True

/-- All steps of a history are of that kind. -/
def Legal (T : Macros) : List Event → Prop
  | [] => True
  | e :: es => e.Legal T ∧ Legal (e.apply T).2 es

/-- The key argument of a call. -/
def Op.key : Op → Map.KeyArg
  | .define a _ | .set a _ | .undef a | .flag a _ | .lookup a | .lookupSpaced a => a

/-- The value a call brings. -/
def Op.value : Op → List Nat
  | .define _ (some p) | .set _ (some p) => p.2
  | .flag _ v => v
  | _ => []

/-- Room a call may need. -/
def Op.cost (op : Op) : Nat := 12 * op.key.size + 4 * op.value.length + 80

end RuC.Storage
