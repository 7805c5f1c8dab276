import Verif.Vector.Model

/-!
# What a vector and a stack are supposed to be

A vector is a plain sequence of numbers, a stack is a plain sequence with its top at the head.
These definitions do not mention cells, capacities or blocks.
-/

namespace RuC.Vector
open RuC

/-- Contents after the length was set to `n`: cut, or extended by zeros. -/
def resized (l : List Int) (n : Nat) : List Int := l.take n ++ List.replicate (n - l.length) 0

/-- A growth request may be refused only when the allocator refuses, or when the sequence
would have more than 2^59 elements (4 EiB of memory). -/
def MayRefuse (l : List Int) (newLength : Nat) (ok : Bool) : Prop :=
  newLength > l.length ∧ (ok = false ∨ newLength > 576460752303423488)

/-- The sequence meaning of one call: which results are allowed and what the sequence is after. -/
inductive SeqStep : List Int → Op → Res → List Int → Prop
  | add (l x ok) : SeqStep l (.add x ok) (.idx l.length) (l ++ [x])
  | addRefused (l x ok) (h : MayRefuse l (l.length + 1) ok) :
      SeqStep l (.add x ok) (.idx SIZE_MAX) l
  | set (l i x) (h : i < l.length) : SeqStep l (.set i x) (.code 0) (l.set i x)
  | setOut (l i x) (h : l.length ≤ i) : SeqStep l (.set i x) (.code (-1)) l
  | get (l i) (h : i < l.length) : SeqStep l (.get i) (.item l[i]) l
  | getOut (l i) (h : l.length ≤ i) : SeqStep l (.get i) (.item ITEM_MAX) l
  | remove (l x) : SeqStep (l ++ [x]) .remove (.item x) l
  | removeEmpty : SeqStep [] .remove (.item ITEM_MAX) []
  | increase (l n ok) : SeqStep l (.increase n ok) (.code 0) (l ++ List.replicate n 0)
  | increaseRefused (l n ok) (h : MayRefuse l (l.length + n) ok) :
      SeqStep l (.increase n ok) (.code (-1)) l
  | resize (l n ok) : SeqStep l (.resize n ok) (.code 0) (resized l n)
  | resizeRefused (l n ok) (h : MayRefuse l n ok) : SeqStep l (.resize n ok) (.code (-1)) l
  | size (l) : SeqStep l .size (.idx l.length) l

/-- The sequence meaning of a history. -/
inductive SeqRun : List Int → List Op → List Res → List Int → Prop
  | nil (l) : SeqRun l [] [] l
  | cons {l op r l' ops rs l''} (h : SeqStep l op r l') (t : SeqRun l' ops rs l'') :
      SeqRun l (op :: ops) (r :: rs) l''

/-- Size arguments for which the byte count of the allocation request does not wrap. -/
def Op.Small : Op → Prop
  | .increase n _ => n ≤ 1152921504606846976
  | .resize n _ => n < 2305843009213693952
  | _ => True

/-- The stack meaning of one call; the top is the head of the list. -/
inductive LifoStep : List Int → SOp → Res → List Int → Prop
  | push (s x ok) : LifoStep s (.push x ok) (.code 0) (x :: s)
  | pushRefused (s x ok) (h : ok = false ∨ s.length ≥ 576460752303423488) :
      LifoStep s (.push x ok) (.code (-1)) s
  | pop (s x) : LifoStep (x :: s) .pop (.item x) s
  | popEmpty : LifoStep [] .pop (.item ITEM_MAX) []
  | peek (s x) : LifoStep (x :: s) .peek (.item x) (x :: s)
  | peekEmpty : LifoStep [] .peek (.item ITEM_MAX) []
  | reset (s) : LifoStep s .reset (.code 0) []
  | size (s) : LifoStep s .size (.idx s.length) s

/-- The stack meaning of a history. -/
inductive LifoRun : List Int → List SOp → List Res → List Int → Prop
  | nil (s) : LifoRun s [] [] s
  | cons {s op r s' ops rs s''} (h : LifoStep s op r s') (t : LifoRun s' ops rs s'') :
      LifoRun s (op :: ops) (r :: rs) s''

end RuC.Vector
