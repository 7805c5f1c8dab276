/-!
# What the names in the LLVM text are supposed to be

The passport transliteration of the Russian alphabet, letter by letter.
-/

namespace RuC.Names

/-- The Russian alphabet. -/
def alphabet : String := "абвгдеёжзийклмнопрстуфхцчшщъыьэюя"

/-- Its capitals. -/
def capitals : String := "АБВГДЕЁЖЗИЙКЛМНОПРСТУФХЦЧШЩЪЫЬЭЮЯ"

/-- Its transliteration. -/
def latin : List String := ["a", "b", "v", "g", "d", "e", "e", "zh", "z", "i", "i", "k", "l", "m", "n", "o", "p",
  "r", "s", "t", "u", "f", "kh", "ts", "ch", "sh", "shch", "ie", "y", "", "e", "iu", "ia"]

/-- The codes of a text. -/
def codes (s : String) : List Nat := s.toList.map Char.toNat

/-- The first letter made a capital. -/
def capital : List Nat → List Nat
  | [] => []
  | c :: s => (c - 32) :: s

/-- The spelling of a Russian letter. -/
def russian (c : Nat) : Option (List Nat) :=
  match ((codes alphabet).zip (latin.map codes)).lookup c with
  | some s => some s
  | none => (((codes capitals).zip (latin.map codes)).lookup c).map capital

/-- The spelling of a character: other characters are kept. -/
def spelled (c : Nat) : List Nat := (russian c).getD [c]

/-- A letter of the Latin alphabet. -/
def Latin (c : Nat) : Prop := (65 ≤ c ∧ c ≤ 90) ∨ (97 ≤ c ∧ c ≤ 122)

/-- A decimal digit. -/
def Digit (c : Nat) : Prop := 48 ≤ c ∧ c ≤ 57

/-- A character that a name in LLVM text may have. -/
def Plain (c : Nat) : Prop := Latin c ∨ Digit c ∨ c = 95

/-- A character that may begin it. -/
def PlainFirst (c : Nat) : Prop := Latin c ∨ c = 95

/-- A Russian letter. -/
def Russian (c : Nat) : Prop := (0x410 ≤ c ∧ c ≤ 0x44F) ∨ c = 0x401 ∨ c = 0x451

/-- An identifier of the language: a letter or an underscore, then also digits. -/
def Identifier : List Nat → Prop
  | [] => False
  | c :: s => (PlainFirst c ∨ Russian c) ∧ ∀ x ∈ s, Plain x ∨ Russian x

/-- The soft signs, that have no spelling. -/
def Soft (c : Nat) : Prop := c = 0x42C ∨ c = 0x44C

/-- Russian letters whose spellings can be told apart in every text: without `ё`, `й`, `ц`, `щ`, `ъ`,
`ь`, `э`, `ю`, `я`, small and capital. -/
def Distinct (c : Nat) : Prop :=
  c ∈ codes "абвгдежзиклмнопрстуфхчшыАБВГДЕЖЗИКЛМНОПРСТУФХЧШЫ"

end RuC.Names
