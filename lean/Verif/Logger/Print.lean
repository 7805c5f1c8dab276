import Verif.Logger.Lemmas

namespace RuC.Logger
open RuC RuC.Utf8 RuC.Io RuC.Locator

theorem oneChar_spec {c : Nat} (hc : c < 0x200000) (s : List Nat) : oneChar (encode c ++ s) = some (encode c, s) := by
  obtain ⟨b, t, h1, h2, _⟩ := symbolSize_encode' hc
  rw [h1] at h2 ⊢
  rw [List.cons_append, oneChar, if_pos (by rw [h2]; simp), h2]
  rw [show (b :: t).length = t.length + 1 from rfl, List.take_succ_cons, List.drop_succ_cons, List.take_left, List.drop_left]

theorem caretLoop_spec {cs : List Nat} : ∀ {fs s t : List Nat}, (∀ c ∈ cs, c < 0x200000) → fs.length = cs.length → (∀ f ∈ fs, f ≠ 94) →
    caretLoop (encodeAll cs ++ s) (fs ++ 94 :: t) = some (encodeAll cs, s, 94 :: t) := by
  induction cs with
  | nil =>
    intro fs s t _ hl _
    obtain rfl := List.length_eq_zero_iff.1 hl
    simp [caretLoop, encodeAll_nil]
  | cons c cs ih =>
    intro fs s t hc hl hf
    cases fs with
    | nil => simp at hl
    | cons f fs =>
      rw [List.cons_append, caretLoop, if_neg (hf f (by simp)), encodeAll_cons, List.append_assoc, oneChar_spec (hc c (by simp))]
      simp only
      rw [ih (fun x hx => hc x (by simp [hx])) (by simpa using hl) (fun x hx => hf x (by simp [hx]))]
      rfl

theorem wordLoop_spec {cs : List Nat} : ∀ {t s : List Nat}, (∀ c ∈ cs, c < 0x200000) → t.length = cs.length →
    wordLoop (encodeAll cs ++ s) t = some (encodeAll cs, s) := by
  induction cs with
  | nil =>
    intro t s _ hl
    obtain rfl := List.length_eq_zero_iff.1 hl
    simp [wordLoop, encodeAll_nil]
  | cons c cs ih =>
    intro t s hc hl
    cases t with
    | nil => simp at hl
    | cons f t =>
      rw [wordLoop, encodeAll_cons, List.append_assoc, oneChar_spec (hc c (by simp))]
      simp only
      rw [ih (fun x hx => hc x (by simp [hx])) (by simpa using hl)]
      rfl

theorem takeWhile_to {a : List Nat} (h : 10 ∉ a) (b : List Nat) : (a ++ 10 :: b).takeWhile (· ≠ 10) = a := by
  rw [List.takeWhile_append_of_pos (by intro x hx; simp; intro h0; rw [h0] at hx; exact h hx)]
  simp

theorem dropWhile_to {a : List Nat} (h : 10 ∉ a) (b : List Nat) : (a ++ 10 :: b).dropWhile (· ≠ 10) = 10 :: b := by
  rw [List.dropWhile_append_of_pos (by intro x hx; simp; intro h0; rw [h0] at hx; exact h hx)]
  simp

theorem dropWhile_no {a : List Nat} (h : 10 ∉ a) : a.dropWhile (· ≠ 10) = [] := by
  have := List.dropWhile_append_of_pos (l₂ := []) (p := (· ≠ 10)) (l₁ := a) (by intro x hx; simp; intro h0; rw [h0] at hx; exact h hx)
  simpa using this

theorem no10 {cs : List Nat} (h : ∀ c ∈ cs, Inner c) : 10 ∉ encodeAll cs := fun h10 => encodeAll_no10 h 10 h10 rfl

theorem print_plain (color : Nat) {m : List Nat} (hm : 10 ∉ m) : printMsg color m = some ([.color COLOR_DEFAULT] ++ put m ++ put [10]) := by
  rw [printMsg, dropWhile_no hm]

theorem print_line (color : Nat) {m l : List Nat} (hm : 10 ∉ m) (hl : 10 ∉ l) :
    printMsg color (m ++ [10] ++ l) = some ([.color COLOR_DEFAULT] ++ put m ++ put (10 :: l) ++ put [10]) := by
  rw [List.append_assoc, List.singleton_append, printMsg, dropWhile_to hm]
  simp only
  rw [dropWhile_no hl, takeWhile_to hm]

theorem print_marked (color : Nat) {m before word after : List Nat} (hm : 10 ∉ m) (hv : ∀ c ∈ before ++ word ++ after, Inner c) (hw : word ≠ []) :
    printMsg color (m ++ [10] ++ encodeAll (before ++ word ++ after) ++ [10] ++ marks before word) =
      some ([.color COLOR_DEFAULT] ++ put m ++ (put (10 :: encodeAll before) ++ [.color color] ++ put (encodeAll word) ++ [.color COLOR_DEFAULT] ++
        put (encodeAll after) ++ [.color color] ++ put (10 :: marks before word) ++ put [10] ++ [.color COLOR_DEFAULT])) := by
  have hb : ∀ c ∈ before, Inner c := fun c hc => hv c (by simp [hc])
  have ho : ∀ c ∈ word, Inner c := fun c hc => hv c (by simp [hc])
  have ha : ∀ c ∈ after, Inner c := fun c hc => hv c (by simp [hc])
  have hline := no10 hv
  have hmarks : 10 ∉ marks before word := by
    intro h
    simp only [marks, List.mem_append, List.mem_map, List.mem_singleton, List.mem_replicate] at h
    rcases h with (⟨x, _, hx⟩ | h) | h
    · by_cases h9 : x = 9
      · rw [if_pos h9] at hx; omega
      · rw [if_neg h9] at hx; omega
    · omega
    · omega
  have hpos := List.length_pos_iff.2 hw
  rw [show m ++ [10] ++ encodeAll (before ++ word ++ after) ++ [10] ++ marks before word =
    m ++ 10 :: (encodeAll (before ++ word ++ after) ++ 10 :: marks before word) by simp]
  rw [printMsg, dropWhile_to hm]
  simp only
  rw [dropWhile_to hline, takeWhile_to hm]
  simp only
  have h1 : caretLoop (10 :: (encodeAll (before ++ word ++ after) ++ 10 :: marks before word)) (10 :: marks before word) =
      some (10 :: encodeAll before, encodeAll word ++ (encodeAll after ++ 10 :: marks before word), 94 :: List.replicate (word.length - 1) 126) := by
    have := caretLoop_spec (cs := 10 :: before) (fs := 10 :: before.map fun c => if c = 9 then 9 else 32)
      (s := encodeAll word ++ (encodeAll after ++ 10 :: marks before word)) (t := List.replicate (word.length - 1) 126)
      (by
        intro c hc
        rcases List.mem_cons.1 hc with rfl | hc
        · omega
        · exact (hb c hc).1)
      (by simp)
      (by
        intro f hf
        rcases List.mem_cons.1 hf with rfl | hf
        · omega
        · obtain ⟨x, _, hx⟩ := List.mem_map.1 hf
          by_cases h9 : x = 9
          · rw [if_pos h9] at hx; omega
          · rw [if_neg h9] at hx; omega)
    rw [encodeAll_cons, encode_ascii (by decide)] at this
    simpa [marks, encodeAll_append] using this
  have h2 : wordLoop (encodeAll word ++ (encodeAll after ++ 10 :: marks before word)) (94 :: List.replicate (word.length - 1) 126) =
      some (encodeAll word, encodeAll after ++ 10 :: marks before word) :=
    wordLoop_spec (fun c hc => (ho c hc).1) (by simp; omega)
  rw [printMarked, h1]
  simp only
  rw [h2]
  simp only
  rw [if_pos (by simp), takeWhile_to (no10 ha), dropWhile_to (no10 ha)]
  simp

theorem shown_put (k : Nat) (s : List Nat) (r : List Out) : shown k (put s ++ r) = colored k s ++ shown k r := by
  induction s with
  | nil => rfl
  | cons b s ih =>
    show (b, k) :: shown k (put s ++ r) = _
    rw [ih]; rfl

theorem left_put (k : Nat) (s : List Nat) (r : List Out) : leftWith k (put s ++ r) = leftWith k r := by
  induction s with
  | nil => rfl
  | cons b s ih => exact ih

theorem shown_color (k c : Nat) (r : List Out) : shown k ([.color c] ++ r) = shown c r := rfl
theorem left_color (k c : Nat) (r : List Out) : leftWith k ([.color c] ++ r) = leftWith c r := rfl
theorem shown_nil (k : Nat) : shown k [] = [] := rfl

end RuC.Logger
