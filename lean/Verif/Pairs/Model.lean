import Verif.Storage.Model
import Verif.Utf8.Model

/-!
# libs/macro/keywords.c, libs/macro/error.c: the directive that is missing

`kw_without` and `kw_after` tell from a few octets of the spelling of a directive which directive should have been in front of it.  The spelling comes as octets with a zero behind them; reading behind the zero is `none`.
-/

namespace RuC.Pairs

/-- `directive[i]`. -/
def at? (d : List Nat) (i : Nat) : Option Nat := d[i]?

/-- `utf8_convert(&directive[i])`; the octets behind the first are read as far as its size tells. -/
def letter (d : List Nat) (i : Nat) : Option Nat := if i < d.length then Utf8.convert (d.drop i) else none

/-- One `? :` of the chains in `kw_without`, keywords.c:72-90, and `kw_after`, keywords.c:92-100. -/
def pick (read : Option Nat) (c : Char) (answer : String) (rest : Unit → Option String) : Option String :=
  read.bind fun r => if r = c.toNat then some answer else rest ()

/-- `kw_without`, keywords.c:72-90: what is printed into the buffer. -/
def kwWithout (d : List Nat) : Option String :=
  pick (at? d 4) 'm' "#macro" fun _ =>
  pick (at? d 4) 'M' "#MACRO" fun _ =>
  pick (at? d 4) 'w' "#while" fun _ =>
  pick (at? d 4) 'W' "#WHILE" fun _ =>
  pick (at? d 1) 'e' "#if" fun _ =>
  pick (at? d 1) 'E' "#IF" fun _ =>
  pick (letter d 1) 'и' "#если" fun _ =>
  pick (letter d 1) 'И' "#ЕСЛИ" fun _ =>
  pick (letter d 11) 'е' "#если" fun _ =>
  pick (letter d 11) 'Е' "#ЕСЛИ" fun _ =>
  pick (letter d 11) 'м' "#макро" fun _ =>
  pick (letter d 11) 'М' "#МАКРО" fun _ =>
  pick (letter d 11) 'п' "#пока" fun _ =>
  pick (letter d 11) 'П' "#ПОКА" fun _ => some ""

/-- `kw_after`, keywords.c:92-100: what is printed into the buffer. -/
def kwAfter (d : List Nat) : Option String :=
  pick (at? d 1) 'e' "#else" fun _ =>
  pick (at? d 1) 'E' "#ELSE" fun _ =>
  pick (letter d 1) 'и' "#иначе" fun _ =>
  pick (letter d 1) 'И' "#ИНАЧЕ" fun _ => some ""

/-- The message `DIRECTIVE_WITHOUT` of `get_error`, macro/error.c:45-295, behind the directive itself. -/
def withoutMessage (d : List Nat) : Option String := (kwWithout d).map (" без " ++ ·)

/-- The message `DIRECTIVE_AFTER` of `get_error`, macro/error.c:45-295, behind the directive itself. -/
def afterMessage (d : List Nat) : Option String := (kwAfter d).map (" после " ++ ·)

end RuC.Pairs
