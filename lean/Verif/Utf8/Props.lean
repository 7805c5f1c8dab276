import Verif.Utf8.Lemmas

/-!
# Properties C13 - C15: UTF-8 and code pages

C13  a code point written and read back is the same, and its octets are UTF-8;
C14  the three length functions agree;
C15  code page conversion is lossless.

C13 and C14 are false for U+0800..U+0FFF and U+10000..U+3FFFF, where `utf8_to_string` writes one
octet too few; `utf8_to_string_exact` shows that these are all the failures.  C15 fails exactly for
octet 0x98 of cp1251, which has no character.
-/

namespace RuC.Utf8
open RuC

/-- **C13**, the writing half, with the exact set of code points for which it holds. -/
theorem utf8_to_string_exact {c : Nat} (hc : c < 0x200000) : toStr c = encode c ↔ Good c := by
  constructor
  · intro h
    rw [toStr_eq hc] at h
    unfold encode at h
    unfold Good
    split at h
    · omega
    · split at h
      · split at h
        · omega
        · split at h
          · simp at h
          · simp at h
      · split at h
        · split at h
          · simp at h
          · split at h
            · omega
            · simp at h
        · split at h
          · omega
          · split at h
            · simp at h
            · omega
  · exact toStr_good'

/-- **C13**, the reading half: every UTF-8 encoding is decoded to its code point, whatever follows. -/
theorem utf8_convert_encode {c : Nat} (hc : c < 0x200000) (rest : List Nat) :
    convert (encode c ++ rest) = some c := convert_encode' hc rest

example : convert (encode 0x20AC ++ [65, 0]) = some 0x20AC ∧ encode 0x20AC = [0xE2, 0x82, 0xAC] := by
  decide +kernel

/-- **C13** for the code points that `utf8_to_string` handles.  Missing: U+0800..U+0FFF and
U+10000..U+3FFFF, for which it is false. -/
theorem utf8_round_trip_partial {c : Nat} (hc : Good c) (rest : List Nat) :
    toStr c = encode c ∧ convert (toStr c ++ rest) = some c := by
  have h := toStr_good' hc
  refine ⟨h, ?_⟩
  rw [h]
  exact convert_encode' (by unfold Good at hc; omega) rest

example : Good 0x416 ∧ Good 0xFFFD ∧ Good 0x10FFFF ∧ toStr 0x416 = [0xD0, 0x96] := by decide +kernel

/-- C13 fails: U+0905 is written as two octets that do not read back as U+0905. -/
theorem utf8_round_trip_fails :
    toStr 0x905 = [0xE4, 0x85] ∧ convert (toStr 0x905 ++ [0x41, 0]) = some 0x4141 ∧
    toStr 0x1F600 = [0xFF, 0x98, 0x80] ∧ convert (toStr 0x1F600 ++ [0]) = some 0xFF := by
  decide +kernel

/-- Values that do not fit 21 bits are refused, and only those. -/
theorem utf8_to_string_refuses {c : Nat} (hc : c < 4294967296) :
    toStr c = [] ↔ 0x200000 ≤ c := by
  constructor
  · intro h
    by_cases hlt : c < 0x200000
    · rw [toStr_eq hlt] at h
      split at h <;> try split at h
      all_goals first | (simp at h; done) | (split at h <;> simp at h)
    · omega
  · intro h
    unfold toStr
    rw [if_pos]
    intro h0
    have := (and200000 hc).1 h0
    omega

/-- **C14**, for `utf8_size`: the length of the encoding, for every 32-bit value. -/
theorem utf8_size_exact {c : Nat} (hc : c < 4294967296) :
    utf8Size c = if c < 0x200000 then (encode c).length else 0 := by
  unfold utf8Size encode
  simp only [and80 hc, and800 hc, and10000 hc, and200000 hc]
  repeat' split
  all_goals first | rfl | omega

/-- **C14**, for `utf8_symbol_size`: it reads the length of an encoding off its first octet. -/
theorem utf8_symbol_size_exact {c : Nat} (hc : c < 0x200000) :
    ∃ b s, encode c = b :: s ∧ symbolSize b = (encode c).length := by
  obtain ⟨b, s, h1, h2, _⟩ := symbolSize_encode' hc
  exact ⟨b, s, h1, h2⟩

/-- **C14** for the code points that `utf8_to_string` handles: the three lengths agree.
Missing: U+0800..U+0FFF and U+10000..U+3FFFF, for which it is false. -/
theorem utf8_lengths_agree_partial {c : Nat} (hc : Good c) :
    ∃ b s, toStr c = b :: s ∧ utf8Size c = (toStr c).length ∧ symbolSize b = (toStr c).length := by
  have hlt : c < 0x200000 := by unfold Good at hc; omega
  obtain ⟨b, s, h1, h2, _⟩ := symbolSize_encode' hlt
  rw [toStr_good' hc]
  refine ⟨b, s, h1, ?_, h2⟩
  rw [utf8_size_exact (by omega), if_pos hlt]

/-- C14 fails exactly outside `Good`: there the number of octets written is not `utf8_size`. -/
theorem utf8_lengths_disagree {c : Nat} (hc : c < 0x200000) (hg : ¬ Good c) :
    utf8Size c = (toStr c).length + 1 := by
  rw [utf8_size_exact (by omega), if_pos hc, toStr_eq hc]
  unfold encode
  unfold Good at hg
  repeat' split
  all_goals first | rfl | omega

example : 0x905 < 0x200000 ∧ ¬ Good 0x905 ∧ utf8Size 0x905 = 3 ∧ (toStr 0x905).length = 2 := by decide +kernel

/-- `utf8_to_first_byte` answers the start of the symbol an octet belongs to. -/
theorem utf8_to_first_byte_exact {c : Nat} (hc : c < 0x200000) (pre post : List Nat) (i : Nat)
    (hi : i < (encode c).length) :
    toFirstByte (pre ++ encode c ++ post) (pre.length + i) = some pre.length :=
  toFirstByte_encode hc pre post i hi

example : toFirstByte ([0x41] ++ encode 0x20AC ++ [0]) (1 + 2) = some 1 := by decide +kernel

/-! ## Code pages -/

/-- The tables are the published ones. -/
theorem codepages_as_published :
    (∀ b, b < 128 → fromCp866 b = b ∧ fromCp1251 b = b) ∧
    (∀ b, b < 128 → some (fromCp866 (128 + b)) = cp866Upper.getD b none) ∧
    (∀ b, b < 128 → b ≠ 24 → some (fromCp1251 (128 + b)) = cp1251Upper.getD b none) ∧
    (cp1251Upper.getD 24 (some 0) = none ∧ fromCp1251 0x98 = 0xFFFD) := by
  decide +kernel

theorem cp866_bytes : ∀ b, b < 256 → Good (fromCp866 b) ∧ (b ≠ 0 → fromCp866 b ≠ 0) ∧
    toCp866 (fromCp866 b) = b := by decide +kernel

theorem cp1251_bytes : ∀ b, b < 256 → Good (fromCp1251 b) ∧ (b ≠ 0 → fromCp1251 b ≠ 0) ∧
    (b ≠ 0x98 → toCp1251 (fromCp1251 b) = b) := by decide +kernel

/-- **C15** for cp866: any string of non-zero octets survives the way to UTF-8 and back. -/
theorem cp866_lossless (bs : List Nat) (hb : ∀ b ∈ bs, b < 256 ∧ b ≠ 0) :
    ∃ u, fromCodepage fromCp866 (bs ++ [0]) = some u ∧ toCodepage toCp866 (u ++ [0]) = some bs := by
  obtain ⟨u, h1, h2⟩ := fromCodepage_toCodepage (f := fromCp866) (g := toCp866)
    (fun b h => (cp866_bytes b h).1) (fun b h => (cp866_bytes b h).2.1) bs hb
    (fun b h => (cp866_bytes b (hb b h).1).2.2)
  exact ⟨u, h1, h2 _ (by simp; omega)⟩

example : fromCodepage fromCp866 [0x8F, 0xE0, 0x21, 0] = some [0xD0, 0x9F, 0xD1, 0x80, 0x21] := by decide +kernel

/-- **C15** for cp1251, with the exact octet missing: a string survives if and only if it does not
contain 0x98 (which has no character). -/
theorem cp1251_lossless_iff (bs : List Nat) (hb : ∀ b ∈ bs, b < 256 ∧ b ≠ 0) :
    (∃ u, fromCodepage fromCp1251 (bs ++ [0]) = some u ∧ toCodepage toCp1251 (u ++ [0]) = some bs) ↔
      0x98 ∉ bs := by
  have key : ∃ u, fromCodepage fromCp1251 (bs ++ [0]) = some u ∧
      toCodepage toCp1251 (u ++ [0]) = some (bs.map fun b => if b = 0x98 then 0x1A else b) := by
    obtain ⟨u, h1, h2⟩ := fromCodepage_map (f := fromCp1251) (g := toCp1251)
      (fun b h => (cp1251_bytes b h).1) (fun b h => (cp1251_bytes b h).2.1) bs hb
    refine ⟨u, h1, ?_⟩
    unfold toCodepage
    rw [h2 _ (by simp; omega)]
    congr 1
    apply List.map_congr_left
    intro b hbm
    by_cases h : b = 0x98
    · subst h; decide +kernel
    · rw [if_neg h]; exact (cp1251_bytes b (hb b hbm).1).2.2 h
  obtain ⟨u, h1, h2⟩ := key
  constructor
  · rintro ⟨u', h1', h2'⟩ hm
    rw [h1] at h1'; cases h1'
    rw [h2] at h2'
    simp only [Option.some.injEq] at h2'
    have : (0x98 : Nat) ∉ bs.map fun b => if b = 0x98 then 0x1A else b := by
      intro h
      rw [List.mem_map] at h
      obtain ⟨b, _, h⟩ := h
      split at h <;> omega
    rw [h2'] at this
    exact this hm
  · intro hn
    refine ⟨u, h1, ?_⟩
    rw [h2]
    congr 1
    conv => rhs; rw [← List.map_id bs]
    apply List.map_congr_left
    intro b hbm
    have hne : b ≠ 0x98 := fun h => hn (h ▸ hbm)
    simp [hne]

example : fromCodepage fromCp1251 [0xCF, 0x98, 0] = some [0xD0, 0x9F, 0xEF, 0xBF, 0xBD] ∧
    toCodepage toCp1251 [0xD0, 0x9F, 0xEF, 0xBF, 0xBD, 0] = some [0xCF, 0x1A] := by decide +kernel

end RuC.Utf8
