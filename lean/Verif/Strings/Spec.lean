import Verif.Strings.Model
import Verif.Map.Spec

/-!
# What a strings vector is supposed to be: a list of texts.

The Boolean beside the list says that no allocation was refused so far: only then do the lengths
stay exact (see `strings_length_wrong_after_refusal`).
-/

namespace RuC.Strings
open RuC Utf8 Map

/-- The octets a call asks to store, if its argument is a text: no zero in a C string, code points
that `utf8_to_string` writes as UTF-8 (C13) elsewhere, the vector read up to its first zero. -/
inductive Asks : Op → List Nat → Prop
  | add (t a b) (h : 0 ∉ t) : Asks (.add t a b) t
  | addUtf8 (ks a b) (h : ∀ c ∈ ks, c ≠ 0 ∧ Good c) : Asks (.addUtf8 ks a b) (octets ks)
  | addVector (ks : List Nat) (tail : List Int) (a b) (h : ∀ c ∈ ks, c ≠ 0 ∧ Good c)
      (hn : ks ≠ [] ∨ tail ≠ []) (ht : ∀ x, tail.head? = some x → x = 0) :
      Asks (.addVector (ks.map Int.ofNat ++ tail) a b) (octets ks)

/-- Some answer of the allocator during the call is a refusal. -/
def Op.Refused : Op → Prop
  | .add _ a b | .addUtf8 _ a b | .addVector _ a b => ∃ n, a n = false ∨ b n = false
  | _ => False

/-- The meaning of one call. -/
inductive SStep : List (List Nat) × Bool → Op → Res → List (List Nat) × Bool → Prop
  | add {op t} (L tight) (h : Asks op t) (hne : t ≠ []) : SStep (L, tight) op (.idx L.length) (L ++ [t], tight)
  | addEmpty {op} (L tight) (h : Asks op []) : SStep (L, tight) op (.idx SIZE_MAX) (L, tight)
  | refused {op} (L tight) (h : op.Refused) : SStep (L, tight) op (.idx SIZE_MAX) (L, false)
  | get (L tight i) : SStep (L, tight) (.get i) (.text L[i]?) (L, tight)
  | length (L i) : SStep (L, true) (.length i) (.idx ((L[i]?.map List.length).getD 0)) (L, true)
  | lengthLoose (L i n) (h : i < L.length) : SStep (L, false) (.length i) (.idx n) (L, false)
  | lengthOut (L i) (h : L.length ≤ i) : SStep (L, false) (.length i) (.idx 0) (L, false)
  | remove (L tight) : SStep (L, tight) .remove (.text L.getLast?) (L.dropLast, tight)
  | size (L tight) : SStep (L, tight) .size (.idx L.length) (L, tight)

/-- The meaning of a history. -/
inductive SRun : List (List Nat) × Bool → List Op → List Res → List (List Nat) × Bool → Prop
  | nil (A) : SRun A [] [] A
  | cons {A op r A' ops rs A''} (h : SStep A op r A') (t : SRun A' ops rs A'') :
      SRun A (op :: ops) (r :: rs) A''

/-- Adding calls must be given texts. -/
def Op.Valid (op : Op) : Prop :=
  match op with
  | .add .. | .addUtf8 .. | .addVector .. => ∃ t, Asks op t
  | _ => True

/-- Room a call may need. -/
def Op.cost : Op → Nat
  | .add t _ _ => 4 * t.length + 9
  | .addUtf8 t _ _ => 4 * t.length + 9
  | .addVector t _ _ => 4 * t.length + 9
  | _ => 0

/-- The allocator grants everything. -/
def Op.Granted (op : Op) : Prop := ¬ op.Refused

end RuC.Strings
