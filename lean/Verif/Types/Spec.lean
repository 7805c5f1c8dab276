import Verif.Types.Model

/-!
# What is asked of the table of types

A history is the requests made so far, newest first, each with the type it was answered.
-/

namespace RuC.Types.Spec
open RuC RuC.Types

/-- The structure that is there from the beginning: two members of type `int`. -/
def msgInfo (a b : Int) : Req := .struct [(-1, a), (-1, b)]

/-- The types a request mentions. -/
def mentioned : Req → List Int
  | .pointer t | .array t | .const t => [t]
  | .function r ps => r :: ps
  | .struct ms => ms.map (·.1)
  | .enum _ => []

/-- The requests considered: types that are mentioned are built in (not positive) or were answered before;
`const` is not applied to an enumeration, nor to a built-in type other than `int` (-1); the local arrays of
100 cells are not exceeded; an enumeration has fields. -/
structure Allowed (h : List (Req × Int)) (r : Req) : Prop where
  known : ∀ t ∈ mentioned r, t ≤ 0 ∨ ∃ q, (q, t) ∈ h
  const : ∀ t, r = .const t → -1 ≤ t ∧ ∀ fs, (.enum fs, t) ∉ h
  parameters : ∀ u ps, r = .function u ps → ps.length ≤ 97
  members : ∀ ms, r = .struct ms → ms.length ≤ 48
  fields : ∀ fs, r = .enum fs → ∃ x xs, fs = x :: xs ∧ x ≠ ITEM_MAX

/-- The histories, with the table they lead to. -/
inductive Run (a b : Int) : List (Req × Int) → Table → Prop
  | init : Run a b [(msgInfo a b, 2)] (initTable a b)
  | step {h tb r t tb'} : Run a b h tb → Allowed h r → build tb r = some (t, tb') → Run a b ((r, t) :: h) tb'

/-- What reading a type must answer, from the request it was built by. -/
inductive Reads (cells : List Int) : Req → Int → Prop
  | pointer {e t} : pointerElement cells t = some e → typeSize cells t = some 1 → isPointer cells t = some true → Reads cells (.pointer e) t
  | array {e t} : arrayElement cells t = some e → typeSize cells t = some 1 → isArray cells t = some true → Reads cells (.array e) t
  | function {u ps t} : returnType cells t = u → parameterAmount cells t = ps.length → (∀ i p, ps[i]? = some p → parameterType cells t i = p) →
      typeSize cells t = some 1 → isFunction cells t = true → Reads cells (.function u ps) t
  | struct {ms : List (Int × Int)} {t : Int} {sizes : List Nat} : memberAmount cells t = some ms.length →
      (∀ (i : Nat) m, ms[i]? = some m → memberType cells t i = some m.1 ∧ memberName cells t i = some (toSize m.2)) →
      ms.map (fun m => typeSize cells m.1) = sizes.map some → typeSize cells t = some (sizes.sum % 18446744073709551616) →
      isStructure cells t = some true → Reads cells (.struct ms) t
  | enum {fs t} : isEnum cells t = some true → typeSize cells t = some 1 → Reads cells (.enum fs) t
  | const {e t} : isConst cells t → unqualified cells t = e → typeSize cells t = typeSize cells e → pointerElement cells t = pointerElement cells e →
      arrayElement cells t = arrayElement cells e → memberAmount cells t = memberAmount cells e → (∀ i, memberType cells t i = memberType cells e i) →
      (∀ i, memberName cells t i = memberName cells e i) → Reads cells (.const e) t

end RuC.Types.Spec
