import Verif.Base

/-!
# libs/macro/parser.c: the suffix of an integer in an expression of a directive

A spelling is the list of its bytes without the closing zero.  `none` is a read behind the closing zero.
-/

namespace RuC.Suffix

/-- `suffix[i]`, the closing zero can be read, parser.c:1160. -/
def at? (s : List Nat) (i : Nat) : Option Nat := (s ++ [0])[i]?

/-- `a || b` and `a && b` in C: the right side is read only when it is needed. -/
def orElse (a : Option Bool) (b : Unit → Option Bool) : Option Bool := a.bind fun x => if x then some true else b ()
@[inherit_doc orElse] def andThen (a : Option Bool) (b : Unit → Option Bool) : Option Bool := a.bind fun x => if x then b () else some false

/-- `suffix[i] == p || suffix[i] == q`, as written in parser.c:1171-1178. -/
def either (s : List Nat) (i : Nat) (p q : Char) : Option Bool :=
  orElse ((at? s i).map (· == p.toNat)) fun _ => (at? s i).map (· == q.toNat)

/-- `parse_suffix`, parser.c:1157-1183, on the name that was read last. -/
def parseSuffix (s : List Nat) : Option Bool :=
  if s.length > 3 then some false
  else (at? s 0).bind fun c =>
    if c = 'U'.toNat ∨ c = 'u'.toNat then
      orElse (some (s.length == 1)) fun _ =>
        andThen (either s 1 'L' 'l') fun _ => orElse (some (s.length == 2)) fun _ => either s 2 'L' 'l'
    else if c = 'L'.toNat ∨ c = 'l'.toNat then
      orElse
        (orElse (some (s.length == 1)) fun _ =>
          andThen (either s 1 'L' 'l') fun _ => orElse (some (s.length == 2)) fun _ => either s 2 'U' 'u')
        fun _ => andThen (some (s.length == 2)) fun _ => either s 1 'U' 'u'
    else some false

end RuC.Suffix
