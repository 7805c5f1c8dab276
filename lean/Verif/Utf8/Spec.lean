/-!
# What UTF-8 is

The encoding of RFC 3629, for all values of 21 bits, by plain arithmetic; and the two single-byte
code pages, upper half, as published (`none`: unassigned).
-/

namespace RuC.Utf8

/-- The UTF-8 encoding of a value below 0x200000. -/
def encode (c : Nat) : List Nat :=
  if c < 0x80 then [c]
  else if c < 0x800 then [192 + c / 64, 128 + c % 64]
  else if c < 0x10000 then [224 + c / 4096, 128 + c / 64 % 64, 128 + c % 64]
  else [240 + c / 262144, 128 + c / 4096 % 64, 128 + c / 64 % 64, 128 + c % 64]

/-- The values for which `utf8_to_string` computes the right number of octets. -/
def Good (c : Nat) : Prop :=
  c < 0x800 ∨ (0x1000 ≤ c ∧ c < 0x10000) ∨ (0x40000 ≤ c ∧ c < 0x200000)

instance (c : Nat) : Decidable (Good c) := by unfold Good; infer_instance

/-- Code page 866, octets 0x80 to 0xFF. -/
def cp866Upper : List (Option Nat) := [
  some 0x410, some 0x411, some 0x412, some 0x413, some 0x414, some 0x415, some 0x416, some 0x417,
  some 0x418, some 0x419, some 0x41A, some 0x41B, some 0x41C, some 0x41D, some 0x41E, some 0x41F,
  some 0x420, some 0x421, some 0x422, some 0x423, some 0x424, some 0x425, some 0x426, some 0x427,
  some 0x428, some 0x429, some 0x42A, some 0x42B, some 0x42C, some 0x42D, some 0x42E, some 0x42F,
  some 0x430, some 0x431, some 0x432, some 0x433, some 0x434, some 0x435, some 0x436, some 0x437,
  some 0x438, some 0x439, some 0x43A, some 0x43B, some 0x43C, some 0x43D, some 0x43E, some 0x43F,
  some 0x2591, some 0x2592, some 0x2593, some 0x2502, some 0x2524, some 0x2561, some 0x2562,
  some 0x2556, some 0x2555, some 0x2563, some 0x2551, some 0x2557, some 0x255D, some 0x255C,
  some 0x255B, some 0x2510, some 0x2514, some 0x2534, some 0x252C, some 0x251C, some 0x2500,
  some 0x253C, some 0x255E, some 0x255F, some 0x255A, some 0x2554, some 0x2569, some 0x2566,
  some 0x2560, some 0x2550, some 0x256C, some 0x2567, some 0x2568, some 0x2564, some 0x2565,
  some 0x2559, some 0x2558, some 0x2552, some 0x2553, some 0x256B, some 0x256A, some 0x2518,
  some 0x250C, some 0x2588, some 0x2584, some 0x258C, some 0x2590, some 0x2580, some 0x440,
  some 0x441, some 0x442, some 0x443, some 0x444, some 0x445, some 0x446, some 0x447, some 0x448,
  some 0x449, some 0x44A, some 0x44B, some 0x44C, some 0x44D, some 0x44E, some 0x44F, some 0x401,
  some 0x451, some 0x404, some 0x454, some 0x407, some 0x457, some 0x40E, some 0x45E, some 0xB0,
  some 0x2219, some 0xB7, some 0x221A, some 0x2116, some 0xA4, some 0x25A0, some 0xA0]

/-- Code page 1251, octets 0x80 to 0xFF. -/
def cp1251Upper : List (Option Nat) := [
  some 0x402, some 0x403, some 0x201A, some 0x453, some 0x201E, some 0x2026, some 0x2020,
  some 0x2021, some 0x20AC, some 0x2030, some 0x409, some 0x2039, some 0x40A, some 0x40C,
  some 0x40B, some 0x40F, some 0x452, some 0x2018, some 0x2019, some 0x201C, some 0x201D,
  some 0x2022, some 0x2013, some 0x2014, none, some 0x2122, some 0x459, some 0x203A, some 0x45A,
  some 0x45C, some 0x45B, some 0x45F, some 0xA0, some 0x40E, some 0x45E, some 0x408, some 0xA4,
  some 0x490, some 0xA6, some 0xA7, some 0x401, some 0xA9, some 0x404, some 0xAB, some 0xAC,
  some 0xAD, some 0xAE, some 0x407, some 0xB0, some 0xB1, some 0x406, some 0x456, some 0x491,
  some 0xB5, some 0xB6, some 0xB7, some 0x451, some 0x2116, some 0x454, some 0xBB, some 0x458,
  some 0x405, some 0x455, some 0x457, some 0x410, some 0x411, some 0x412, some 0x413, some 0x414,
  some 0x415, some 0x416, some 0x417, some 0x418, some 0x419, some 0x41A, some 0x41B, some 0x41C,
  some 0x41D, some 0x41E, some 0x41F, some 0x420, some 0x421, some 0x422, some 0x423, some 0x424,
  some 0x425, some 0x426, some 0x427, some 0x428, some 0x429, some 0x42A, some 0x42B, some 0x42C,
  some 0x42D, some 0x42E, some 0x42F, some 0x430, some 0x431, some 0x432, some 0x433, some 0x434,
  some 0x435, some 0x436, some 0x437, some 0x438, some 0x439, some 0x43A, some 0x43B, some 0x43C,
  some 0x43D, some 0x43E, some 0x43F, some 0x440, some 0x441, some 0x442, some 0x443, some 0x444,
  some 0x445, some 0x446, some 0x447, some 0x448, some 0x449, some 0x44A, some 0x44B, some 0x44C,
  some 0x44D, some 0x44E, some 0x44F]

end RuC.Utf8
