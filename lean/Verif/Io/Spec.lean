import Verif.Io.Model
import Verif.Utf8.Spec

/-!
# What printing into a buffer and scanning a buffer are supposed to do
-/

namespace RuC.Io
open RuC RuC.Utf8

/-- A sequence of prints and the answers. -/
def printAll (grant : Nat → Bool) : Out → List (List Nat) → Option (List Int × Out)
  | io, [] => some ([], io)
  | io, t :: ts =>
    match uniPrint grant io t with
    | none => none
    | some (r, io) => (printAll grant io ts).map fun p => (r :: p.1, p.2)

/-- The texts whose print did not answer -1. -/
def printed : List Int → List (List Nat) → List (List Nat)
  | r :: rs, t :: ts => if r = -1 then printed rs ts else t :: printed rs ts
  | _, _ => []

/-- The octets of a text of characters. -/
def encodeAll (cs : List Nat) : List Nat := cs.flatMap encode

/-- An input in the middle of a text: `before` has been read, `after` has not. -/
def Stands (io : In) (before after : List Nat) : Prop :=
  io.text = encodeAll (before ++ after) ∧ io.position = (encodeAll before).length

/-- Scanning `n` characters. -/
def scanAll : Nat → In → Option (List Nat × In)
  | 0, io => some ([], io)
  | n + 1, io =>
    match scanChar io with
    | none => none
    | some (c, io) => (scanAll n io).map fun p => (c :: p.1, p.2)

end RuC.Io
