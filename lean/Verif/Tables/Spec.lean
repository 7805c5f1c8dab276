import Verif.Tables.Model

/-!
# What the tables should hold
-/

namespace RuC.Tables

open RuC

/-- The values C gives to enumerators: the one written, or one more than the value before; the first is 0. -/
def meaning (next : Int) : List Entry → List (Int × Int)
  | [] => []
  | e :: rest =>
    let v := match e.value with
      | .const v => v
      | _ => next
    (e.name, v) :: meaning (v + 1) rest

/-- An enumerator the parser accepts. -/
def Entry.Fine (e : Entry) : Prop := e.value = .next ∨ ∃ v, e.value = .const v ∧ v ≠ INT_MAX

/-- The cells of the enumerators in the table of types: value, name. -/
def fieldCells (fs : List (Int × Int)) : List Int := fs.flatMap fun f => [f.2, f.1]

/-- The values fit, and one more too. -/
def InRange (fs : List (Int × Int)) : Prop := ∀ f ∈ fs, ITEM_MIN ≤ f.2 + 1 ∧ f.2 + 1 ≤ ITEM_MAX

/-- The parameters as a list. -/
def Params.list : Params → List Param
  | .nil => []
  | .cons p rest => p :: rest.list

mutual
/-- No list of parameters, inner ones too, is longer than the table allows. -/
def Params.Short (n : Nat) : Params → Prop
  | .nil => True
  | .cons p rest => 0 < n ∧ p.Short ∧ rest.Short (n - 1)
def Param.Short : Param → Prop
  | .simple _ _ => True
  | .function _ _ _ ps => ps.Short 97
end

/-- Parameters of ordinary types. -/
def simples (named : Bool) : List Int → Params
  | [] => .nil
  | t :: rest => .cons (.simple named t) (simples named rest)

end RuC.Tables
