/-!
# Suffixes of integers

The grammar of C11, 6.4.4.1, over bytes, and the same grammar without the demand that both letters of `ll` have the same case.
-/

namespace RuC.Suffix.Spec

/-- `u` or `U`. -/
def IsU (b : Nat) : Prop := b = 'u'.toNat ∨ b = 'U'.toNat
/-- `l` or `L`. -/
def IsL (b : Nat) : Prop := b = 'l'.toNat ∨ b = 'L'.toNat

/-- One or two letters for `long`; `same` demands two equal letters. -/
inductive Long (same : Bool) : List Nat → Prop
  | one {a} : IsL a → Long same [a]
  | two {a b} : IsL a → IsL b → (same = true → a = b) → Long same [a, b]

/-- A suffix: a part for `unsigned`, a part for `long`, or both in any order. -/
inductive Suffix (same : Bool) : List Nat → Prop
  | u {a} : IsU a → Suffix same [a]
  | l {x} : Long same x → Suffix same x
  | ul {a x} : IsU a → Long same x → Suffix same (a :: x)
  | lu {a x} : Long same x → IsU a → Suffix same (x ++ [a])

end RuC.Suffix.Spec
