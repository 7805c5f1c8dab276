import Verif.Utf8.Model

/-!
# Model of the transliteration of names

`utf8_transliteration` of `libs/utils/utf8.c` and its only use, `func_name_to_io` of
`libs/compiler/llvmgen.c`.  Octets and strings as in `Verif/Utf8/Model.lean`.
-/

namespace RuC.Names
open RuC RuC.Utf8

/-- The cases of `char_transliteration`, utf8.c:652-868: the symbol and the octets stored. -/
def translitTable : List (Nat × List Nat) := [
  (0x410, [65]), (0x430, [97]), (0x411, [66]), (0x431, [98]), (0x412, [86]), (0x432, [118]), (0x413,
  [71]), (0x433, [103]), (0x414, [68]), (0x434, [100]), (0x417, [90]), (0x437, [122]), (0x418,
  [73]), (0x419, [73]), (0x438, [105]), (0x439, [105]), (0x41A, [75]), (0x43A, [107]), (0x41B,
  [76]), (0x43B, [108]), (0x41C, [77]), (0x43C, [109]), (0x41D, [78]), (0x43D, [110]), (0x41E,
  [79]), (0x43E, [111]), (0x41F, [80]), (0x43F, [112]), (0x420, [82]), (0x440, [114]), (0x421,
  [83]), (0x441, [115]), (0x422, [84]), (0x442, [116]), (0x423, [85]), (0x443, [117]), (0x424,
  [70]), (0x444, [102]), (0x42B, [89]), (0x44B, [121]), (0x415, [69]), (0x401, [69]), (0x42D, [69]),
  (0x435, [101]), (0x451, [101]), (0x44D, [101]), (0x416, [90, 104]), (0x436, [122, 104]), (0x425,
  [75, 104]), (0x445, [107, 104]), (0x426, [84, 115]), (0x446, [116, 115]), (0x427, [67, 104]),
  (0x447, [99, 104]), (0x428, [83, 104]), (0x448, [115, 104]), (0x42A, [73, 101]), (0x44A, [105,
  101]), (0x42E, [73, 117]), (0x44E, [105, 117]), (0x42F, [73, 97]), (0x44F, [105, 97]), (0x429,
  [83, 104, 99, 104]), (0x449, [115, 104, 99, 104]), (0x42C, []), (0x44C, [])]

/-- A `switch` whose cases all store and return. -/
def select (t : List (Nat × List Nat)) (dflt : List Nat) (x : Nat) : List Nat :=
  match t with
  | [] => dflt
  | (p, v) :: t => if x = p then v else select t dflt x

/-- `char_transliteration`, utf8.c:652-868: the octets stored; their number is the answer. -/
def charTranslit (symbol : Nat) : List Nat := select translitTable (toStr symbol) symbol

/-- The loop of `utf8_transliteration`, utf8.c:1045-1060, over what is left of `src`; every symbol
size is positive, so the length of `src` bounds the number of iterations. -/
def translitLoop : Nat → List Nat → Option (List Nat)
  | 0, _ => none
  | _ + 1, [] => none
  | fuel + 1, b :: s =>
    if b = 0 then some []
    else
      match convert (b :: s) with
      | none => none
      | some c =>
        match translitLoop fuel ((b :: s).drop (symbolSize b)) with
        | none => none
        | some dest => some (charTranslit c ++ dest)

/-- `utf8_transliteration`, utf8.c:1045-1060: the octets stored before the terminating zero. -/
def transliterate (src : List Nat) : Option (List Nat) := translitLoop (src.length + 1) src

/-- `MAX_NAME`, llvmgen.c:28. -/
def MAX_NAME : Nat := 4096

/-- `BEGIN_USER_FUNC`, operations.h:218. -/
def BEGIN_USER_FUNC : Nat := 170

/-- `func_name_to_io`, llvmgen.c:132-144: the text printed for the function with that reference and
that spelling.  Undefined (`none`) when the transliteration with its zero exceeds the array
`modified_name`. -/
def funcNameToIo (funcRef : Nat) (name : List Nat) : Option (List Nat) :=
  if funcRef < BEGIN_USER_FUNC then some (name.takeWhile (· ≠ 0))
  else
    match transliterate name with
    | none => none
    | some dest => if dest.length + 1 ≤ MAX_NAME then some dest else none

end RuC.Names
