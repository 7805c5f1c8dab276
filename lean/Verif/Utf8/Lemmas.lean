import Verif.Utf8.Model
import Verif.Utf8.Spec

/-! Helper lemmas: masks and shifts as division and remainder. -/

namespace RuC.Utf8

theorem and_shifted (c m k : Nat) : c &&& (m <<< k) = ((c >>> k) &&& m) <<< k := by
  apply Nat.eq_of_testBit_eq
  intro i
  simp only [Nat.testBit_and, Nat.testBit_shiftLeft, Nat.testBit_shiftRight]
  by_cases h : k ≤ i
  · simp [h, show k + (i - k) = i by omega]
  · simp [h]

/-- Masking the bits `k .. k + j - 1`. -/
theorem and_field (c k j : Nat) : c &&& ((2 ^ j - 1) <<< k) = (c / 2 ^ k % 2 ^ j) * 2 ^ k := by
  rw [and_shifted, Nat.and_two_pow_sub_one_eq_mod, Nat.shiftRight_eq_div_pow, Nat.shiftLeft_eq]

theorem and_low (c j : Nat) : c &&& (2 ^ j - 1) = c % 2 ^ j := Nat.and_two_pow_sub_one_eq_mod _ _

theorem and_high {c : Nat} (hc : c < 4294967296) {k : Nat} (hk : k ≤ 32) :
    c &&& ((2 ^ (32 - k) - 1) <<< k) = 0 ↔ c < 2 ^ k := by
  rw [and_field]
  have hp : 0 < 2 ^ k := Nat.two_pow_pos k
  have h1 : c / 2 ^ k < 2 ^ (32 - k) := by
    rw [Nat.div_lt_iff_lt_mul hp, ← Nat.pow_add, show 32 - k + k = 32 by omega]
    exact hc
  rw [Nat.mod_eq_of_lt h1, Nat.mul_eq_zero, Nat.div_eq_zero_iff]
  omega

theorem and80 {c} (hc : c < 4294967296) : c &&& 0xFFFFFF80 = 0 ↔ c < 0x80 :=
  and_high hc (k := 7) (by omega)
theorem and800 {c} (hc : c < 4294967296) : c &&& 0xFFFFF800 = 0 ↔ c < 0x800 :=
  and_high hc (k := 11) (by omega)
theorem and10000 {c} (hc : c < 4294967296) : c &&& 0xFFFF0000 = 0 ↔ c < 0x10000 :=
  and_high hc (k := 16) (by omega)
theorem and200000 {c} (hc : c < 4294967296) : c &&& 0xFFE00000 = 0 ↔ c < 0x200000 :=
  and_high hc (k := 21) (by omega)

theorem field18 (c : Nat) : c &&& 0xFC0000 = (c / 262144 % 64) * 262144 := and_field c 18 6
theorem field12 (c : Nat) : c &&& 0x3F000 = (c / 4096 % 64) * 4096 := and_field c 12 6
theorem field6 (c : Nat) : c &&& 0xFC0 = (c / 64 % 64) * 64 := and_field c 6 6
theorem field0 (c : Nat) : c &&& 0x3F = c % 64 := and_low c 6
theorem field0' (c : Nat) : 0x3F &&& c = c % 64 := by rw [Nat.and_comm]; exact and_low c 6

theorem or80 : ∀ x, x < 64 → 0x80 ||| x = 128 + x := by decide
theorem orC0 : ∀ x, x < 64 → (128 + x) ||| 0xC0 = 192 + x := by decide
theorem orE0 : ∀ x, x < 64 → (128 + x) ||| 0xE0 = 224 + x % 32 := by decide
theorem orF0 : ∀ x, x < 64 → (128 + x) ||| 0xF0 = 240 + x % 16 := by decide

theorem shift_back (a k : Nat) : (a * 2 ^ k) >>> k = a := by
  rw [Nat.shiftRight_eq_div_pow, Nat.mul_div_cancel _ (Nat.two_pow_pos k)]

theorem octet {x : Nat} (h : x < 64) : 0x80 ||| (x % 256) = 128 + x := by
  rw [Nat.mod_eq_of_lt (by omega)]; exact or80 x h

theorem octets2 {c : Nat} (h1 : 0x80 ≤ c) (h2 : c < 0x1000) : octetsLoop c 0x00FC0000 4 = (0xFC0, 2) := by
  have a1 : c &&& 0xFC0000 = 0 := by rw [field18]; omega
  have a2 : c &&& 0x3F000 = 0 := by rw [field12]; omega
  have a3 : c &&& 0xFC0 ≠ 0 := by rw [field6]; omega
  simp [octetsLoop, a1, a2, a3]

theorem octets3 {c : Nat} (h1 : 0x1000 ≤ c) (h2 : c < 0x40000) :
    octetsLoop c 0x00FC0000 4 = (0x3F000, 3) := by
  have a1 : c &&& 0xFC0000 = 0 := by rw [field18]; omega
  have a2 : c &&& 0x3F000 ≠ 0 := by rw [field12]; omega
  simp [octetsLoop, a1, a2]

theorem octets4 {c : Nat} (h1 : 0x40000 ≤ c) (h2 : c < 0x200000) :
    octetsLoop c 0x00FC0000 4 = (0xFC0000, 4) := by
  have a1 : c &&& 0xFC0000 ≠ 0 := by rw [field18]; omega
  simp [octetsLoop, a1]

/-- What `utf8_to_string` writes, by the highest set field. -/
theorem toStr_eq {c : Nat} (hc : c < 0x200000) :
    toStr c =
      if c < 0x80 then [c]
      else if c < 0x1000 then [192 + c / 64, 128 + c % 64]
      else if c < 0x40000 then [224 + c / 4096 % 32, 128 + c / 64 % 64, 128 + c % 64]
      else [240 + c / 262144, 128 + c / 4096 % 64, 128 + c / 64 % 64, 128 + c % 64] := by
  have h32 : c < 4294967296 := by omega
  unfold toStr
  have hg : ¬ (c &&& 0xFFE00000 ≠ 0) := by
    intro h; exact h ((and200000 h32).2 hc)
  rw [if_neg hg]
  by_cases h1 : c < 0x80
  · rw [if_pos ((and80 h32).2 h1), if_pos h1]
  rw [if_neg (fun h => h1 ((and80 h32).1 h)), if_neg h1]
  have e18 : ((c / 262144 % 64) * 262144) >>> 18 = c / 262144 % 64 := shift_back _ 18
  have e12 : ((c / 4096 % 64) * 4096) >>> 12 = c / 4096 % 64 := shift_back _ 12
  have e6 : ((c / 64 % 64) * 64) >>> 6 = c / 64 % 64 := shift_back _ 6
  have e0 : (c % 64) >>> 0 = c % 64 := rfl
  have b18 := octet (show c / 262144 % 64 < 64 by omega)
  have b12 := octet (show c / 4096 % 64 < 64 by omega)
  have b6 := octet (show c / 64 % 64 < 64 by omega)
  have b0 := octet (show c % 64 < 64 by omega)
  by_cases h2 : c < 0x1000
  · have o := octets2 (by omega) h2
    rw [o, if_pos h2]
    simp only [fillLoop, markLead, show 0xFC0 >>> 6 = 0x3F from rfl, field6, field0, Nat.mul_one,
      Nat.mul_zero, e6, e0, b6, b0]
    rw [orC0 _ (by omega)]
    simp only [List.cons.injEq, and_true]
    omega
  rw [if_neg h2]
  by_cases h3 : c < 0x40000
  · have o := octets3 (by omega) h3
    rw [o, if_pos h3]
    simp only [fillLoop, markLead, show 0x3F000 >>> 6 = 0xFC0 from rfl, show 0xFC0 >>> 6 = 0x3F from rfl,
      field12, field6, field0, Nat.mul_one, Nat.mul_zero, e6, e0, b6, b0, show 6 * 2 = 12 from rfl,
      e12, b12]
    rw [orE0 _ (by omega)]
    simp only [List.cons.injEq, and_true]
    omega
  · have o := octets4 (by omega) hc
    rw [o, if_neg h3]
    simp only [fillLoop, markLead, show 0xFC0000 >>> 6 = 0x3F000 from rfl,
      show 0x3F000 >>> 6 = 0xFC0 from rfl, show 0xFC0 >>> 6 = 0x3F from rfl,
      field18, field12, field6, field0, Nat.mul_one, Nat.mul_zero, e6, e0, b6, b0,
      show 6 * 2 = 12 from rfl, show 6 * 3 = 18 from rfl, e12, b12, e18, b18]
    rw [orF0 _ (by omega)]
    simp only [List.cons.injEq, and_true]
    omega

theorem symbolSize_tab : (∀ b, b < 128 → symbolSize b = 1) ∧
    (∀ x, x < 32 → symbolSize (192 + x) = 2) ∧ (∀ x, x < 16 → symbolSize (224 + x) = 3) ∧
    (∀ x, x < 8 → symbolSize (240 + x) = 4) := by decide

theorem leadBits_tab : (∀ b, b < 128 → leadBits 1 (0xFF &&& b) = b) ∧
    (∀ x, x < 32 → leadBits 2 (0xFF &&& (192 + x)) = x) ∧
    (∀ x, x < 16 → leadBits 3 (0xFF &&& (224 + x)) = x) ∧
    (∀ x, x < 8 → leadBits 4 (0xFF &&& (240 + x)) = x) := by decide

/-- One step of the decoder on a continuation octet. -/
theorem shift_or {r x : Nat} (hr : r < 67108864) (hx : x < 64) :
    ((r <<< 6) % 4294967296) ||| (0x3F &&& (128 + x)) = r * 64 + x := by
  have h1 : 0x3F &&& (128 + x) = x := by
    rw [field0']; omega
  have h2 : (r <<< 6) % 4294967296 = r <<< 6 := by
    rw [Nat.shiftLeft_eq]; omega
  rw [h1, h2, ← Nat.shiftLeft_add_eq_or_of_lt (by simpa using hx), Nat.shiftLeft_eq]

theorem convert_encode' {c : Nat} (hc : c < 0x200000) (rest : List Nat) :
    convert (encode c ++ rest) = some c := by
  unfold encode
  split
  · rename_i h
    simp only [List.cons_append, List.nil_append, convert, symbolSize_tab.1 c h, Nat.sub_self,
      convertLoop, leadBits_tab.1 c h]
  split
  · rename_i h1 h2
    simp only [List.cons_append, List.nil_append, convert, symbolSize_tab.2.1 (c / 64) (by omega),
      convertLoop, leadBits_tab.2.1 (c / 64) (by omega)]
    rw [shift_or (by omega) (by omega)]
    congr 1; omega
  split
  · rename_i h1 h2 h3
    simp only [List.cons_append, List.nil_append, convert, symbolSize_tab.2.2.1 (c / 4096) (by omega),
      convertLoop, leadBits_tab.2.2.1 (c / 4096) (by omega)]
    rw [shift_or (r := c / 4096) (x := c / 64 % 64) (by omega) (by omega), shift_or (by omega) (by omega)]
    congr 1; omega
  · rename_i h1 h2 h3
    simp only [List.cons_append, List.nil_append, convert, symbolSize_tab.2.2.2 (c / 262144) (by omega),
      convertLoop, leadBits_tab.2.2.2 (c / 262144) (by omega)]
    rw [shift_or (r := c / 262144) (x := c / 4096 % 64) (by omega) (by omega),
      shift_or (r := c / 262144 * 64 + c / 4096 % 64) (x := c / 64 % 64) (by omega) (by omega),
      shift_or (by omega) (by omega)]
    congr 1; omega

theorem symbolSize_encode' {c : Nat} (hc : c < 0x200000) :
    ∃ b s, encode c = b :: s ∧ symbolSize b = (encode c).length ∧ (b = 0 ↔ c = 0) := by
  unfold encode
  split
  · rename_i h; exact ⟨c, [], rfl, symbolSize_tab.1 c h, Iff.rfl⟩
  split
  · exact ⟨_, _, rfl, symbolSize_tab.2.1 (c / 64) (by omega), by constructor <;> intro h <;> omega⟩
  split
  · exact ⟨_, _, rfl, symbolSize_tab.2.2.1 (c / 4096) (by omega), by constructor <;> intro h <;> omega⟩
  · exact ⟨_, _, rfl, symbolSize_tab.2.2.2 (c / 262144) (by omega), by constructor <;> intro h <;> omega⟩

theorem toStr_good' {c : Nat} (h : Good c) : toStr c = encode c := by
  unfold Good at h
  rw [toStr_eq (by omega)]
  unfold encode
  rcases h with h | h | h
  · by_cases h1 : c < 0x80
    · rw [if_pos h1, if_pos h1]
    · rw [if_neg h1, if_neg h1, if_pos (by omega), if_pos (by omega)]
  · simp only [show ¬ c < 0x80 by omega, show ¬ c < 0x800 by omega, show ¬ c < 0x1000 by omega,
      show c < 0x10000 by omega, show c < 0x40000 by omega, if_true, if_false,
      Nat.mod_eq_of_lt (show c / 4096 < 32 by omega)]
  · simp only [show ¬ c < 0x80 by omega, show ¬ c < 0x800 by omega, show ¬ c < 0x1000 by omega,
      show ¬ c < 0x10000 by omega, show ¬ c < 0x40000 by omega, if_false]

theorem fromCodepage_map {f g : Nat → Nat} (hf : ∀ b, b < 256 → Good (f b))
    (hz : ∀ b, b < 256 → b ≠ 0 → f b ≠ 0) (bs : List Nat) (hb : ∀ b ∈ bs, b < 256 ∧ b ≠ 0) :
    ∃ u, fromCodepage f (bs ++ [0]) = some u ∧ ∀ n, u.length < n → 
      toCodepageLoop g n (u ++ [0]) = some (bs.map fun b => g (f b)) := by
  induction bs with
  | nil =>
    refine ⟨[], rfl, ?_⟩
    intro n hn
    cases n with
    | zero => simp at hn
    | succ n => rfl
  | cons b bs ih =>
    obtain ⟨u, h1, h2⟩ := ih (fun x hx => hb x (by simp [hx]))
    have hbb := hb b (by simp)
    have hgood := hf b hbb.1
    have hlt : f b < 0x200000 := by unfold Good at hgood; omega
    refine ⟨toStr (f b) ++ u, ?_, ?_⟩
    · simp [fromCodepage, hbb.2, h1]
    · intro n hn
      obtain ⟨a, s, e1, e2, e3⟩ := symbolSize_encode' hlt
      rw [toStr_good' hgood] at hn ⊢
      have ha : a ≠ 0 := fun h => hz b hbb.1 hbb.2 (e3.1 h)
      have hc := convert_encode' hlt (u ++ [0])
      cases n with
      | zero => simp at hn
      | succ n =>
        have hd : (encode (f b) ++ (u ++ [0])).drop (symbolSize a) = u ++ [0] := by
          rw [e2]; exact List.drop_left
        rw [List.append_assoc]
        rw [e1] at hn hc hd ⊢
        simp only [List.cons_append] at hc hd ⊢
        unfold toCodepageLoop
        rw [if_neg ha, hc]
        simp only
        rw [hd, h2 n (by simp at hn; omega)]
        rfl

theorem fromCodepage_toCodepage {f g : Nat → Nat} (hf : ∀ b, b < 256 → Good (f b))
    (hz : ∀ b, b < 256 → b ≠ 0 → f b ≠ 0) (bs : List Nat) (hb : ∀ b ∈ bs, b < 256 ∧ b ≠ 0)
    (hg : ∀ b ∈ bs, g (f b) = b) :
    ∃ u, fromCodepage f (bs ++ [0]) = some u ∧ ∀ n, u.length < n → toCodepageLoop g n (u ++ [0]) = some bs := by
  obtain ⟨u, h1, h2⟩ := fromCodepage_map (g := g) hf hz bs hb
  refine ⟨u, h1, fun n hn => ?_⟩
  rw [h2 n hn]
  congr 1
  conv => rhs; rw [← List.map_id bs]
  exact List.map_congr_left hg

theorem cont_tab : ∀ x, x < 64 → (128 + x) &&& 0xC0 = 0x80 := by decide
theorem lead_tab : (∀ b, b < 128 → b &&& 0xC0 ≠ 0x80) ∧
    (∀ x, x < 64 → (192 + x) &&& 0xC0 ≠ 0x80) := by decide

/-- The first octet of an encoding is no continuation octet, the others are. -/
theorem encode_shape {c : Nat} (hc : c < 0x200000) :
    ∃ b s, encode c = b :: s ∧ b &&& 0xC0 ≠ 0x80 ∧ ∀ x ∈ s, x &&& 0xC0 = 0x80 := by
  unfold encode
  split
  · rename_i h; exact ⟨c, [], rfl, lead_tab.1 c h, by simp⟩
  split
  · refine ⟨_, _, rfl, lead_tab.2 (c / 64) (by omega), ?_⟩
    intro x hx; simp at hx; subst hx; exact cont_tab _ (by omega)
  split
  · refine ⟨_, _, rfl, ?_, ?_⟩
    · rw [show 224 + c / 4096 = 192 + (32 + c / 4096) by omega]; exact lead_tab.2 _ (by omega)
    · intro x hx; simp at hx; rcases hx with rfl | rfl <;> exact cont_tab _ (by omega)
  · refine ⟨_, _, rfl, ?_, ?_⟩
    · rw [show 240 + c / 262144 = 192 + (48 + c / 262144) by omega]; exact lead_tab.2 _ (by omega)
    · intro x hx; simp at hx; rcases hx with rfl | rfl | rfl <;> exact cont_tab _ (by omega)

theorem toFirstByte_encode {c : Nat} (hc : c < 0x200000) (pre post : List Nat) (i : Nat)
    (hi : i < (encode c).length) :
    toFirstByte (pre ++ encode c ++ post) (pre.length + i) = some pre.length := by
  obtain ⟨b, s, h1, h2, h3⟩ := encode_shape hc
  rw [h1] at hi ⊢
  induction i with
  | zero =>
    have hg : (pre ++ b :: s ++ post)[pre.length]? = some b := by simp
    simp only [Nat.add_zero]
    cases hp : pre.length with
    | zero => unfold toFirstByte; rw [hp] at hg; rw [hg]; simp [h2]
    | succ n => unfold toFirstByte; rw [hp] at hg; rw [hg]; simp [h2]
  | succ i ih =>
    simp at hi
    have hg : (pre ++ b :: s ++ post)[pre.length + (i + 1)]? = some s[i] := by
      rw [List.append_assoc, List.getElem?_append_right (by omega), Nat.add_sub_cancel_left,
        List.cons_append, List.getElem?_cons_succ, List.getElem?_append_left hi,
        List.getElem?_eq_getElem hi]
    rw [show pre.length + (i + 1) = pre.length + i + 1 by omega] at hg ⊢
    unfold toFirstByte
    rw [hg]
    simp only
    rw [if_pos (h3 _ (List.getElem_mem _))]
    exact ih (by simp; omega)

end RuC.Utf8
