import Verif.Base

/-!
# Model of `libs/utils/utf8.c`

A `char` is its octet, a natural below 256 (the C code only masks and shifts it, so the sign of
`char` does not matter); a `char32_t` is a natural below 2^32.  A C string that is read is the list
of its octets *with* the terminating zero; reading past that list is undefined (`none`).  Strings
that are written are the octets stored before the terminating zero; destination buffers are
assumed large enough, as the functions have no way to check.  NULL arguments are not modelled.
-/

namespace RuC.Utf8
open RuC

/-- `utf8_size`, utf8.c:880-903. -/
def utf8Size (symbol : Nat) : Nat :=
  if symbol &&& 0xFFFFFF80 = 0 then 1
  else if symbol &&& 0xFFFFF800 = 0 then 2
  else if symbol &&& 0xFFFF0000 = 0 then 3
  else if symbol &&& 0xFFE00000 = 0 then 4
  else 0

/-- `utf8_symbol_size`, utf8.c:905-928. -/
def symbolSize (symbol : Nat) : Nat :=
  if symbol &&& 0x80 = 0x00 then 1
  else if symbol &&& 0xE0 = 0xC0 then 2
  else if symbol &&& 0xF0 = 0xE0 then 3
  else if symbol &&& 0xF8 = 0xF0 then 4
  else 1

/-- `utf8_to_first_byte`, utf8.c:930-940.  `none`: the recursion leaves the string. -/
def toFirstByte (str : List Nat) : Nat → Option Nat
  | 0 =>
    match str[0]? with
    | none => none
    | some b => if b &&& 0xC0 = 0x80 then none else some 0
  | index + 1 =>
    match str[index + 1]? with
    | none => none
    | some b => if b &&& 0xC0 = 0x80 then toFirstByte str index else some (index + 1)

/-- The `switch` of `utf8_convert`, utf8.c:942-974. -/
def leadBits (size symbol : Nat) : Nat :=
  match size with
  | 2 => symbol &&& 0x1F
  | 3 => symbol &&& 0x0F
  | 4 => symbol &&& 0x07
  | _ => symbol

/-- The loop of `utf8_convert`, utf8.c:942-974, `n` more octets to read. -/
def convertLoop : Nat → List Nat → Nat → Option Nat
  | 0, _, result => some result
  | _ + 1, [], _ => none
  | n + 1, b :: s, result => convertLoop n s (((result <<< 6) % 4294967296) ||| (0x3F &&& b))

/-- `utf8_convert`, utf8.c:942-974. -/
def convert : List Nat → Option Nat
  | [] => none
  | b :: s => convertLoop (symbolSize b - 1) s (leadBits (symbolSize b) (0xFF &&& b))

/-- The loop of `utf8_to_string`, utf8.c:976-1022, that looks for the number of octets: answers
the final `mask` and `octets`. -/
def octetsLoop (symbol mask : Nat) : Nat → Nat × Nat
  | 0 => (mask, 0)
  | octets + 1 =>
    if symbol &&& mask = 0 ∧ octets + 1 > 1 then octetsLoop symbol (mask >>> 6) octets
    else (mask, octets + 1)

/-- The loop of `utf8_to_string`, utf8.c:976-1022, that fills the buffer; `n` octets remain. -/
def fillLoop (symbol : Nat) : Nat → Nat → List Nat
  | _, 0 => []
  | mask, n + 1 => (0x80 ||| (((symbol &&& mask) >>> (6 * n)) % 256)) :: fillLoop symbol (mask >>> 6) n

/-- The last `switch` of `utf8_to_string`, utf8.c:976-1022: `buffer[0] |= ..`. -/
def markLead (octets : Nat) : List Nat → List Nat
  | [] => []
  | b :: s =>
    match octets with
    | 2 => (b ||| 0xC0) :: s
    | 3 => (b ||| 0xE0) :: s
    | 4 => (b ||| 0xF0) :: s
    | _ => b :: s

/-- `utf8_to_string`, utf8.c:976-1022: the octets written (their number is the answer; `[]` is the
refusal with answer 0). -/
def toStr (symbol : Nat) : List Nat :=
  if symbol &&& 0xFFE00000 ≠ 0 then []
  else if symbol &&& 0xFFFFFF80 = 0 then [symbol]
  else
    let (mask, octets) := octetsLoop symbol 0x00FC0000 4
    markLead octets (fillLoop symbol mask octets)

/-! ## Code pages -/

/-- The `switch` of `char32_from_cp866`, utf8.c:21-174 (default 0xfffd). -/
def from866Table : List (Nat × Nat) := [(0xB0, 0x2591), (0xB1, 0x2592), (0xB2, 0x2593), (0xB3,
  0x2502), (0xB4, 0x2524), (0xB5, 0x2561), (0xB6, 0x2562), (0xB7, 0x2556), (0xB8, 0x2555), (0xB9,
  0x2563), (0xBA, 0x2551), (0xBB, 0x2557), (0xBC, 0x255D), (0xBD, 0x255C), (0xBE, 0x255B), (0xBF,
  0x2510), (0xC0, 0x2514), (0xC1, 0x2534), (0xC2, 0x252C), (0xC3, 0x251C), (0xC4, 0x2500), (0xC5,
  0x253C), (0xC6, 0x255E), (0xC7, 0x255F), (0xC8, 0x255A), (0xC9, 0x2554), (0xCA, 0x2569), (0xCB,
  0x2566), (0xCC, 0x2560), (0xCD, 0x2550), (0xCE, 0x256C), (0xCF, 0x2567), (0xD0, 0x2568), (0xD1,
  0x2564), (0xD2, 0x2565), (0xD3, 0x2559), (0xD4, 0x2558), (0xD5, 0x2552), (0xD6, 0x2553), (0xD7,
  0x256B), (0xD8, 0x256A), (0xD9, 0x2518), (0xDA, 0x250C), (0xDB, 0x2588), (0xDC, 0x2584), (0xDD,
  0x258C), (0xDE, 0x2590), (0xDF, 0x2580), (0xF0, 0x401), (0xF1, 0x451), (0xF2, 0x404), (0xF3,
  0x454), (0xF4, 0x407), (0xF5, 0x457), (0xF6, 0x40E), (0xF7, 0x45E), (0xF8, 0xB0), (0xF9,
  0x2219), (0xFA, 0xB7), (0xFB, 0x221A), (0xFC, 0x2116), (0xFD, 0xA4), (0xFE, 0x25A0), (0xFF,
  0xA0)]

/-- The `switch` of `char32_from_cp1251`, utf8.c:176-316 (default 0xfffd). -/
def from1251Table : List (Nat × Nat) := [(0x80, 0x402), (0x81, 0x403), (0x82, 0x201A), (0x83,
  0x453), (0x84, 0x201E), (0x85, 0x2026), (0x86, 0x2020), (0x87, 0x2021), (0x88, 0x20AC), (0x89,
  0x2030), (0x8A, 0x409), (0x8B, 0x2039), (0x8C, 0x40A), (0x8D, 0x40C), (0x8E, 0x40B), (0x8F,
  0x40F), (0x90, 0x452), (0x91, 0x2018), (0x92, 0x2019), (0x93, 0x201C), (0x94, 0x201D), (0x95,
  0x2022), (0x96, 0x2013), (0x97, 0x2014), (0x99, 0x2122), (0x9A, 0x459), (0x9B, 0x203A), (0x9C,
  0x45A), (0x9D, 0x45C), (0x9E, 0x45B), (0x9F, 0x45F), (0xA1, 0x40E), (0xA2, 0x45E), (0xA3,
  0x408), (0xA5, 0x490), (0xA8, 0x401), (0xAA, 0x404), (0xAF, 0x407), (0xB2, 0x406), (0xB3,
  0x456), (0xB4, 0x491), (0xB8, 0x451), (0xB9, 0x2116), (0xBA, 0x454), (0xBC, 0x458), (0xBD,
  0x405), (0xBE, 0x455), (0xBF, 0x457), (0xA0, 0xA0), (0xA4, 0xA4), (0xA6, 0xA6), (0xA7, 0xA7),
  (0xA9, 0xA9), (0xAB, 0xAB), (0xAC, 0xAC), (0xAD, 0xAD), (0xAE, 0xAE), (0xB0, 0xB0), (0xB1,
  0xB1), (0xB5, 0xB5), (0xB6, 0xB6), (0xB7, 0xB7), (0xBB, 0xBB)]

/-- The `switch` of `char_to_cp866`, utf8.c:337-490 (default 0x1a). -/
def to866Table : List (Nat × Nat) := [(0x2591, 0xB0), (0x2592, 0xB1), (0x2593, 0xB2), (0x2502,
  0xB3), (0x2524, 0xB4), (0x2561, 0xB5), (0x2562, 0xB6), (0x2556, 0xB7), (0x2555, 0xB8), (0x2563,
  0xB9), (0x2551, 0xBA), (0x2557, 0xBB), (0x255D, 0xBC), (0x255C, 0xBD), (0x255B, 0xBE), (0x2510,
  0xBF), (0x2514, 0xC0), (0x2534, 0xC1), (0x252C, 0xC2), (0x251C, 0xC3), (0x2500, 0xC4), (0x253C,
  0xC5), (0x255E, 0xC6), (0x255F, 0xC7), (0x255A, 0xC8), (0x2554, 0xC9), (0x2569, 0xCA), (0x2566,
  0xCB), (0x2560, 0xCC), (0x2550, 0xCD), (0x256C, 0xCE), (0x2567, 0xCF), (0x2568, 0xD0), (0x2564,
  0xD1), (0x2565, 0xD2), (0x2559, 0xD3), (0x2558, 0xD4), (0x2552, 0xD5), (0x2553, 0xD6), (0x256B,
  0xD7), (0x256A, 0xD8), (0x2518, 0xD9), (0x250C, 0xDA), (0x2588, 0xDB), (0x2584, 0xDC), (0x258C,
  0xDD), (0x2590, 0xDE), (0x2580, 0xDF), (0x401, 0xF0), (0x451, 0xF1), (0x404, 0xF2), (0x454,
  0xF3), (0x407, 0xF4), (0x457, 0xF5), (0x40E, 0xF6), (0x45E, 0xF7), (0xB0, 0xF8), (0x2219, 0xF9),
  (0xB7, 0xFA), (0x221A, 0xFB), (0x2116, 0xFC), (0xA4, 0xFD), (0x25A0, 0xFE), (0xA0, 0xFF)]

/-- The `switch` of `char_to_cp1251`, utf8.c:492-632 (default 0x1a). -/
def to1251Table : List (Nat × Nat) := [(0x402, 0x80), (0x403, 0x81), (0x201A, 0x82), (0x453,
  0x83), (0x201E, 0x84), (0x2026, 0x85), (0x2020, 0x86), (0x2021, 0x87), (0x20AC, 0x88), (0x2030,
  0x89), (0x409, 0x8A), (0x2039, 0x8B), (0x40A, 0x8C), (0x40C, 0x8D), (0x40B, 0x8E), (0x40F,
  0x8F), (0x452, 0x90), (0x2018, 0x91), (0x2019, 0x92), (0x201C, 0x93), (0x201D, 0x94), (0x2022,
  0x95), (0x2013, 0x96), (0x2014, 0x97), (0x2122, 0x99), (0x459, 0x9A), (0x203A, 0x9B), (0x45A,
  0x9C), (0x45C, 0x9D), (0x45B, 0x9E), (0x45F, 0x9F), (0x40E, 0xA1), (0x45E, 0xA2), (0x408, 0xA3),
  (0x490, 0xA5), (0x401, 0xA8), (0x404, 0xAA), (0x407, 0xAF), (0x406, 0xB2), (0x456, 0xB3),
  (0x491, 0xB4), (0x451, 0xB8), (0x2116, 0xB9), (0x454, 0xBA), (0x458, 0xBC), (0x405, 0xBD),
  (0x455, 0xBE), (0x457, 0xBF), (0xA0, 0xA0), (0xA4, 0xA4), (0xA6, 0xA6), (0xA7, 0xA7), (0xA9,
  0xA9), (0xAB, 0xAB), (0xAC, 0xAC), (0xAD, 0xAD), (0xAE, 0xAE), (0xB0, 0xB0), (0xB1, 0xB1),
  (0xB5, 0xB5), (0xB6, 0xB6), (0xB7, 0xB7), (0xBB, 0xBB)]

/-- A `switch` whose cases all return. -/
def switch (t : List (Nat × Nat)) (dflt x : Nat) : Nat :=
  match t with
  | [] => dflt
  | (p, v) :: t => if x = p then v else switch t dflt x

/-- `char32_from_cp866`, utf8.c:21-174. -/
def fromCp866 (symbol : Nat) : Nat :=
  if symbol < 0x80 then symbol
  else if symbol ≥ 0x80 ∧ symbol ≤ 0xAF then symbol - 0x80 + 0x410
  else if symbol ≥ 0xE0 ∧ symbol ≤ 0xEF then symbol - 0xE0 + 0x440
  else switch from866Table 0xFFFD symbol

/-- `char32_from_cp1251`, utf8.c:176-316. -/
def fromCp1251 (symbol : Nat) : Nat :=
  if symbol < 0x80 then symbol
  else if symbol ≥ 0xC0 then symbol - 0xC0 + 0x410
  else switch from1251Table 0xFFFD symbol

/-- `char_to_cp866`, utf8.c:337-490. -/
def toCp866 (symbol : Nat) : Nat :=
  if symbol < 0x80 then symbol
  else if symbol ≥ 0x410 ∧ symbol ≤ 0x43F then symbol - 0x410 + 0x80
  else if symbol ≥ 0x440 ∧ symbol ≤ 0x44F then symbol - 0x440 + 0xE0
  else switch to866Table 0x1A symbol

/-- `char_to_cp1251`, utf8.c:492-632. -/
def toCp1251 (symbol : Nat) : Nat :=
  if symbol < 0x80 then symbol
  else if symbol ≥ 0x410 ∧ symbol ≤ 0x44F then symbol - 0x410 + 0xC0
  else switch to1251Table 0x1A symbol

/-- `utf8_from_codepage`, utf8.c:318-334; `src` includes the terminating zero. -/
def fromCodepage (f : Nat → Nat) : List Nat → Option (List Nat)
  | [] => none
  | b :: src =>
    if b = 0 then some []
    else
      match fromCodepage f src with
      | none => none
      | some dest => some (toStr (f b) ++ dest)

/-- The loop of `utf8_to_codepage`, utf8.c:634-649, over what is left of `src`; every symbol
size is positive, so the length of `src` bounds the number of iterations. -/
def toCodepageLoop (f : Nat → Nat) : Nat → List Nat → Option (List Nat)
  | 0, _ => none
  | _ + 1, [] => none
  | fuel + 1, b :: s =>
    if b = 0 then some []
    else
      match convert (b :: s) with
      | none => none
      | some c =>
        match toCodepageLoop f fuel ((b :: s).drop (symbolSize b)) with
        | none => none
        | some dest => some (f c :: dest)

/-- `utf8_to_codepage`, utf8.c:634-649. -/
def toCodepage (f : Nat → Nat) (src : List Nat) : Option (List Nat) :=
  toCodepageLoop f (src.length + 1) src

/-! ## Character classes -/

/-- `utf8_to_upper`, utf8.c:1062-1075. -/
def toUpper (symbol : Nat) : Nat :=
  if symbol ≥ 97 ∧ symbol ≤ 122 then symbol - 32
  else if symbol ≥ 0x430 ∧ symbol ≤ 0x44F then symbol - 32
  else symbol

/-- `utf8_is_russian`, utf8.c:1097-1103. -/
def isRussian (symbol : Nat) : Bool :=
  symbol == 0x401 || symbol == 0x451 || (decide (symbol ≥ 0x410) && decide (symbol ≤ 0x42F)) ||
    (decide (symbol ≥ 0x430) && decide (symbol ≤ 0x43F)) ||
    (decide (symbol ≥ 0x440) && decide (symbol ≤ 0x44F))

/-- `utf8_is_letter`, utf8.c:1105-1110. -/
def isLetter (symbol : Nat) : Bool :=
  isRussian symbol || symbol == 95 || (decide (symbol ≥ 65) && decide (symbol ≤ 90)) ||
    (decide (symbol ≥ 97) && decide (symbol ≤ 122))

/-- `utf8_is_digit`, utf8.c:1112-1115. -/
def isDigit (symbol : Nat) : Bool := decide (symbol ≥ 48) && decide (symbol ≤ 57)

/-- `utf8_is_hexa_digit`, utf8.c:1117-1122. -/
def isHexaDigit (symbol : Nat) : Bool :=
  isDigit symbol || (decide (symbol ≥ 65) && decide (symbol ≤ 70)) ||
    (decide (symbol ≥ 97) && decide (symbol ≤ 102))

/-- `utf8_is_power`, utf8.c:1124-1127. -/
def isPower (symbol : Nat) : Bool :=
  symbol == 101 || symbol == 69 || symbol == 0x435 || symbol == 0x415

/-- `utf8_to_number`, utf8.c:1077-1095. -/
def toNumber (symbol : Nat) : Nat :=
  if isDigit symbol then symbol - 48
  else if symbol ≥ 65 ∧ symbol ≤ 70 then symbol - 65 + 10
  else if symbol ≥ 97 ∧ symbol ≤ 102 then symbol - 97 + 10
  else 0

end RuC.Utf8
