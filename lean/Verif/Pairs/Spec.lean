import Verif.Pairs.Model
import Verif.Io.Spec

/-!
# Directives that belong together
-/

namespace RuC.Pairs

/-- The directives that stand in the middle or at the end of a block, and the directive that begins it: `#endm` (8) and `#macro` (7), `#elif` (12), `#else` (13), `#endif` (14) and `#if` (11), `#endw` (17) and `#while` (16). -/
def opens : Int → Option Int
  | 8 => some 7
  | 12 => some 11
  | 13 => some 11
  | 14 => some 11
  | 17 => some 16
  | _ => none

/-- A letter of the Russian alphabet. -/
def russian (c : Nat) : Bool := decide (0x410 ≤ c ∧ c ≤ 0x44F) || c == 0x401 || c == 0x451

/-- A capital letter, Latin or Russian. -/
def capital (c : Nat) : Bool := decide (0x41 ≤ c ∧ c ≤ 0x5A) || decide (0x410 ≤ c ∧ c ≤ 0x42F) || c == 0x401

/-- Two spellings in the same language and in letters of the same size. -/
def sameStyle (s t : List Nat) : Bool :=
  (s.drop 1).all (fun a => (t.drop 1).all fun b => russian a == russian b && capital a == capital b)

/-- The octets of a spelling in memory. -/
def octets (s : List Nat) : List Nat := Io.encodeAll s ++ [0]

/-- The spellings of a directive in a style. -/
def spellings (k : Int) (s : List Nat) : List (List Nat) :=
  (Storage.keywordTable.filter fun e => e.2 == k && sameStyle s e.1).map (·.1)

end RuC.Pairs
