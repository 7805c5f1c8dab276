import Verif.Locator.Spec
import Verif.Io.Lemmas

namespace RuC.Locator
open RuC RuC.Utf8 RuC.Io

/-! ## Octets -/

theorem encodeAll_append (a b : List Nat) : encodeAll (a ++ b) = encodeAll a ++ encodeAll b := by simp [encodeAll]

theorem encodeAll_cons (c : Nat) (b : List Nat) : encodeAll (c :: b) = encode c ++ encodeAll b := by simp [encodeAll]

theorem encodeAll_nil : encodeAll [] = [] := rfl

theorem encode_ascii {c : Nat} (h : c < 128) : encode c = [c] := by
  unfold encode
  rw [if_pos h]

theorem encodeAll_ascii {cs : List Nat} (h : ∀ c ∈ cs, c < 128) : encodeAll cs = cs := by
  induction cs with
  | nil => rfl
  | cons c cs ih =>
    rw [encodeAll_cons, encode_ascii (h c (by simp)), ih fun c hc => h c (by simp [hc])]
    rfl

theorem encode_high {c : Nat} (h : 128 ≤ c) : ∀ b ∈ encode c, 128 ≤ b := by
  unfold encode
  rw [if_neg (by omega)]
  intro b hb
  split at hb
  · simp at hb; omega
  · split at hb
    · simp at hb; omega
    · simp at hb; omega

theorem cont_size : ∀ x, x < 64 → symbolSize (128 + x) = 1 := by decide

/-- What the octets do with `symbol`. -/
def symOf (os : List Nat) (s : Nat) : Nat := os.foldr (fun b s => usz (s + usub 2 (symbolSize b))) s

/-- What the octets do with `filler`. -/
def filOf (os : List Nat) (f : Nat) : Nat := os.foldr (fun b f => if b = 32 ∨ b = 9 then f + 1 else 1) f

theorem symOf_append (a b : List Nat) (s : Nat) : symOf (a ++ b) s = symOf a (symOf b s) := by simp [symOf]

theorem filOf_append (a b : List Nat) (f : Nat) : filOf (a ++ b) f = filOf a (filOf b f) := by simp [filOf]

theorem back_octets {text : List Nat} : ∀ {n : Nat} {os pre post : List Nat} {s f : Nat}, os.length = n → text = pre ++ os ++ post →
    (∀ b ∈ os, b ≠ 10) → back text (pre.length + os.length) s f = back text pre.length (symOf os s) (filOf os f) := by
  intro n
  induction n with
  | zero =>
    intro os pre post s f hl _ _
    have : os = [] := List.length_eq_zero_iff.1 hl
    subst this
    rfl
  | succ n ih =>
    intro os pre post s f hl ht hno
    have hne : os ≠ [] := by intro e; rw [e] at hl; simp at hl
    obtain ⟨init, b, rfl⟩ : ∃ init b, os = init ++ [b] := ⟨os.dropLast, os.getLast hne, (List.dropLast_concat_getLast hne).symm⟩
    have hb : b ≠ 10 := hno b (by simp)
    have hg : text.getD (pre.length + init.length) 0 = b := by
      rw [ht]
      simp [List.getD_eq_getElem?_getD]
    rw [show pre.length + (init ++ [b]).length = (pre.length + init.length) + 1 by simp; omega, back]
    simp only [hg]
    rw [if_neg hb]
    rw [ih (os := init) (pre := pre) (post := [b] ++ post) (by simpa using hl) (by rw [ht]; simp) fun x hx => hno x (by simp [hx])]
    rw [symOf_append, filOf_append]
    rfl

theorem symOf_encode {c s : Nat} (hc : c < 0x200000) (hs : s < 4611686018427387904) : symOf (encode c) s = s + 1 := by
  have h1 := symbolSize_tab.1
  have h2 := symbolSize_tab.2.1
  have h3 := symbolSize_tab.2.2.1
  have h4 := symbolSize_tab.2.2.2
  unfold encode
  split
  · rename_i h
    simp only [symOf, List.foldr, h1 c h]
    unfold usub usz
    simp
    omega
  split
  · simp only [symOf, List.foldr, h2 (c / 64) (by omega), cont_size (c % 64) (by omega)]
    unfold usub usz
    simp
    omega
  split
  · simp only [symOf, List.foldr, h3 (c / 4096) (by omega), cont_size (c % 64) (by omega), cont_size (c / 64 % 64) (by omega)]
    unfold usub usz
    simp
    omega
  · simp only [symOf, List.foldr, h4 (c / 262144) (by omega), cont_size (c % 64) (by omega), cont_size (c / 64 % 64) (by omega),
      cont_size (c / 4096 % 64) (by omega)]
    unfold usub usz
    simp
    omega

theorem filOf_high {os : List Nat} (h : ∀ b ∈ os, 128 ≤ b) (hne : os ≠ []) (f : Nat) : filOf os f = 1 := by
  cases os with
  | nil => exact absurd rfl hne
  | cons b os =>
    have := h b (by simp)
    simp only [filOf, List.foldr]
    rw [if_neg (by omega)]

theorem filOf_encode (c f : Nat) : filOf (encode c) f = if c = 32 ∨ c = 9 then f + 1 else 1 := by
  by_cases h : c < 128
  · rw [encode_ascii h]
    rfl
  · rw [filOf_high (encode_high (by omega)) (encode_ne_nil c), if_neg (by omega)]

theorem encode_no10 {c : Nat} (h : c ≠ 10) : ∀ b ∈ encode c, b ≠ 10 := by
  by_cases h1 : c < 128
  · rw [encode_ascii h1]
    intro b hb
    simp at hb
    omega
  · intro b hb
    have := encode_high (by omega) b hb
    omega

theorem encodeAll_no10 {cs : List Nat} (h : ∀ c ∈ cs, Inner c) : ∀ b ∈ encodeAll cs, b ≠ 10 := by
  intro b hb
  obtain ⟨c, hc, hb⟩ := List.mem_flatMap.1 hb
  exact encode_no10 (h c hc).2.2 b hb

theorem symOf_all {cs : List Nat} (h : ∀ c ∈ cs, Inner c) {s : Nat} (hs : s + cs.length < 4611686018427387904) :
    symOf (encodeAll cs) s = s + cs.length := by
  induction cs with
  | nil => rfl
  | cons c cs ih =>
    simp only [List.length_cons] at hs ⊢
    rw [encodeAll_cons, symOf_append, ih (fun c hc => h c (by simp [hc])) (by omega), symOf_encode (h c (by simp)).1 (by omega)]
    omega

theorem filOf_all (cs : List Nat) : filOf (encodeAll cs) 1 = 1 + blanks cs := by
  induction cs with
  | nil => rfl
  | cons c cs ih =>
    rw [encodeAll_cons, filOf_append, ih, filOf_encode]
    unfold blanks
    rw [List.takeWhile_cons]
    by_cases hb : c = 32 ∨ c = 9
    · rw [if_pos hb, if_pos (by simpa using hb)]
      simp only [List.length_cons]
      omega
    · rw [if_neg hb, if_neg (by simpa using hb)]
      rfl

/-- The beginning of a line. -/
def AtLine (pre : List Nat) : Prop := pre = [] ∨ ∃ q, pre = q ++ [10]

theorem back_stop {text pre post : List Nat} (ht : text = encodeAll (pre ++ post)) (hp : AtLine pre) (s f : Nat) :
    back text (encodeAll pre).length s f = (s, f, (encodeAll pre).length) := by
  rcases hp with rfl | ⟨q, rfl⟩
  · rfl
  · rw [encodeAll_append, encodeAll_ascii (cs := [10]) (by simp), List.length_append]
    show back text ((encodeAll q).length + 1) s f = _
    rw [back]
    have hg : text.getD (encodeAll q).length 0 = 10 := by
      rw [ht, encodeAll_append, encodeAll_append, encodeAll_ascii (cs := [10]) (by simp)]
      simp [List.getD_eq_getElem?_getD]
    simp only [hg]
    rfl

theorem lineToBegin_spec {text pre cs post : List Nat} (ht : text = encodeAll (pre ++ cs ++ post)) (hp : AtLine pre) (hc : ∀ c ∈ cs, Inner c)
    (hl : text.length < 4611686018427387904) :
    lineToBegin text (encodeAll (pre ++ cs)).length = (1 + cs.length, 1 + blanks cs, (encodeAll pre).length) := by
  have hlen : cs.length < 4611686018427387903 ∨ cs.length ≤ text.length - 0 ∧ text.length < 4611686018427387904 := by
    right
    have := encodeAll_length cs
    rw [ht, encodeAll_append, encodeAll_append]
    rw [ht, encodeAll_append, encodeAll_append] at hl
    simp only [List.length_append] at hl ⊢
    omega
  unfold lineToBegin
  rw [encodeAll_append, List.length_append]
  have hlen2 : 1 + cs.length < 4611686018427387904 ∨ 1 + cs.length = 4611686018427387904 := by omega
  rw [back_octets (n := (encodeAll cs).length) (post := encodeAll post) rfl (by rw [ht]; simp [encodeAll_append]) (encodeAll_no10 hc), filOf_all]
  rw [back_stop (post := cs ++ post) (by rw [ht]; simp) hp]
  rcases hlen2 with h | h
  · rw [symOf_all hc h]
  · cases cs with
    | nil => simp at h
    | cons c cs =>
      simp only [List.length_cons] at h ⊢
      rw [encodeAll_cons, symOf_append, symOf_all (fun c h => hc c (by simp [h])) (by omega), symOf_encode (hc c (by simp)).1 (by omega)]
      ac_rfl

/-! ## The end of a line -/

theorem inner_ne {c : Nat} (h : Inner c) : ¬ (c = 10 ∨ c = EOFc) := by
  obtain ⟨h1, h2, h3⟩ := h
  unfold EOFc
  omega

theorem lineToEnd_spec {cs : List Nat} : ∀ {fuel : Nat} {io : In} {before rest : List Nat}, Stands io before (cs ++ rest) → (∀ c ∈ cs, Inner c) →
    cs.length < fuel → (rest = [] → lineToEnd fuel io = some (encodeAll (before ++ cs)).length) ∧
      (∀ r, rest = 10 :: r → lineToEnd fuel io = some (encodeAll (before ++ cs ++ [10])).length) := by
  induction cs with
  | nil =>
    intro fuel io before rest hs _ hf
    obtain ⟨fuel, rfl⟩ : ∃ k, fuel = k + 1 := ⟨fuel - 1, by simp at hf; omega⟩
    constructor
    · rintro rfl
      rw [lineToEnd, scanChar_end hs]
      simp only
      rw [if_pos (by simp), hs.2]
      simp
    · rintro r rfl
      obtain ⟨io', h1, h2⟩ := scanChar_spec hs (by decide)
      rw [lineToEnd, h1]
      simp only
      rw [if_pos (by simp), h2.2]
      simp
  | cons c cs ih =>
    intro fuel io before rest hs hc hf
    obtain ⟨fuel, rfl⟩ : ∃ k, fuel = k + 1 := ⟨fuel - 1, by simp at hf; omega⟩
    obtain ⟨io', h1, h2⟩ := scanChar_spec hs (hc c (by simp)).1
    have := ih (fuel := fuel) h2 (fun c h => hc c (by simp [h])) (by simpa using hf)
    rw [lineToEnd, h1]
    simp only
    rw [if_neg (inner_ne (hc c (by simp)))]
    simpa using this

theorem restOfLine_spec {cs : List Nat} : ∀ {fuel : Nat} {io : In} {before rest : List Nat}, Stands io before (cs ++ rest) → (∀ c ∈ cs, Inner c) →
    cs.length < fuel → (rest = [] ∨ ∃ r, rest = 10 :: r) → restOfLine fuel io = some cs := by
  induction cs with
  | nil =>
    intro fuel io before rest hs _ hf hr
    obtain ⟨fuel, rfl⟩ : ∃ k, fuel = k + 1 := ⟨fuel - 1, by simp at hf; omega⟩
    rcases hr with rfl | ⟨r, rfl⟩
    · rw [restOfLine, scanChar_end hs]
      simp only
      rw [if_pos (by simp)]
    · obtain ⟨io', h1, h2⟩ := scanChar_spec hs (by decide)
      rw [restOfLine, h1]
      simp only
      rw [if_pos (by simp)]
  | cons c cs ih =>
    intro fuel io before rest hs hc hf hr
    obtain ⟨fuel, rfl⟩ : ∃ k, fuel = k + 1 := ⟨fuel - 1, by simp at hf; omega⟩
    obtain ⟨io', h1, h2⟩ := scanChar_spec hs (hc c (by simp)).1
    rw [restOfLine, h1]
    simp only
    rw [if_neg (inner_ne (hc c (by simp))), ih (fuel := fuel) h2 (fun c h => hc c (by simp [h])) (by simpa using hf) hr]
    rfl

theorem pathLoop_spec {cs : List Nat} : ∀ {fuel : Nat} {io : In} {before rest : List Nat} {size : Nat}, Stands io before (cs ++ 34 :: rest) →
    (∀ c ∈ cs, Inner c ∧ Good c ∧ c ≠ 34) → cs.length < fuel → size + (encodeAll cs).length < 1024 → pathLoop fuel io size = some cs := by
  induction cs with
  | nil =>
    intro fuel io before rest size hs _ hf _
    obtain ⟨fuel, rfl⟩ : ∃ k, fuel = k + 1 := ⟨fuel - 1, by simp at hf; omega⟩
    obtain ⟨io', h1, h2⟩ := scanChar_spec hs (by decide)
    rw [pathLoop, h1]
    simp only
    rw [if_pos trivial]
  | cons c cs ih =>
    intro fuel io before rest size hs hc hf hsz
    obtain ⟨fuel, rfl⟩ : ∃ k, fuel = k + 1 := ⟨fuel - 1, by simp at hf; omega⟩
    obtain ⟨hi, hg, hq⟩ := hc c (by simp)
    obtain ⟨io', h1, h2⟩ := scanChar_spec hs hi.1
    rw [encodeAll_cons, List.length_append] at hsz
    rw [pathLoop, h1]
    simp only
    rw [toStr_good' hg, if_neg hq, if_neg (by unfold MAX_PATH; omega), if_neg (by unfold MAX_PATH; omega),
      ih (fuel := fuel) h2 (fun c h => hc c (by simp [h])) (by simpa using hf) (by omega)]
    rfl

end RuC.Locator
