import Verif.MipsStrings.Lemmas

/-! Properties of strings and `printf` in MIPS text (C96, C97). -/

namespace RuC.MipsStrings.Props
open RuC.MipsStrings
open LlvmText (codes)

/-! ## C96: strings -/

/-- C96: the strings are read back from the text: no label is declared twice, every label has one string with a zero behind it, and the strings under the labels that leave `i` when
divided by the number of strings make up the `i`-th string. -/
theorem C96_strings_read_back (l : List (List Nat)) (hs : ∀ s ∈ l, printable s = true) (hb : ∀ s ∈ l, (s.length + 1) * l.length ≤ 18446744073709551616) :
    ∃ t d, stringsText l = some t ∧ readData t = some d ∧ (d.map Prod.fst).Nodup ∧ (∀ x ∈ d, ∃ p, x.2 = p ++ [0] ∧ 0 ∉ p) ∧
      ∀ i s, l[i]? = some s → ((d.filter fun x => decide (x.1 % l.length = i)).flatMap fun x => x.2.dropLast) = s := by
  obtain ⟨t, h1, h2⟩ := read_data l hs hb
  refine ⟨t, _, h1, h2, data_nodup l 0 (by omega), fun x hx => ?_, fun i s h => ?_⟩
  · obtain ⟨j, s, hj, hx⟩ := mem_data.1 hx
    obtain ⟨m, p, hm, rfl⟩ := mem_items.1 hx
    exact ⟨p, rfl, piece_zero (hs s (List.mem_of_getElem? hj)) p (List.mem_of_getElem? hm)⟩
  · have := data_filter (amount := l.length) l 0 (by omega) i s h
    rwa [Nat.zero_add] at this

example : ∃ t d, stringsText [codes "a\nb", codes "x = %i, %f!\n"] = some t ∧ readData t = some d ∧ (d.map Prod.fst).Nodup ∧ (∀ x ∈ d, ∃ p, x.2 = p ++ [0] ∧ 0 ∉ p) ∧
    ∀ i s, [codes "a\nb", codes "x = %i, %f!\n"][i]? = some s → ((d.filter fun x => decide (x.1 % 2 = i)).flatMap fun x => x.2.dropLast) = s :=
  C96_strings_read_back _ (by decide +kernel) (by decide +kernel)

example : (stringsText [codes "a\nb", codes "x = %i, %f!\n"]).bind readData =
    some [(0, codes "a\nb" ++ [0]), (1, codes "x = %i" ++ [0]), (3, codes ", %f" ++ [0]), (5, codes "!\n" ++ [0])] := by decide +kernel

/-- Different strings, as many of them, have different texts. -/
theorem C96_different (l m : List (List Nat)) (hlen : l.length = m.length) (hl : ∀ s ∈ l, printable s = true) (hm : ∀ s ∈ m, printable s = true)
    (bl : ∀ s ∈ l, (s.length + 1) * l.length ≤ 18446744073709551616) (bm : ∀ s ∈ m, (s.length + 1) * m.length ≤ 18446744073709551616)
    (e : stringsText l = stringsText m) : l = m := by
  obtain ⟨t, d, h1, h2, -, -, h3⟩ := C96_strings_read_back l hl bl
  obtain ⟨t', d', h1', h2', -, -, h3'⟩ := C96_strings_read_back m hm bm
  rw [e, h1'] at h1
  obtain rfl := Option.some.inj h1
  rw [h2'] at h2
  obtain rfl := Option.some.inj h2
  apply List.ext_getElem hlen
  intro i hi hi'
  rw [← h3 i _ (List.getElem?_eq_getElem hi), ← h3' i _ (List.getElem?_eq_getElem hi'), hlen]

/-- A quote in a string ends it: the text is not read. -/
theorem C96_quote_breaks : (stringsText [codes "say \"no\""]).bind readData = none := by decide +kernel

/-- A backslash with digits becomes another byte. -/
theorem C96_backslash_changes : (stringsText [codes "a\\101"]).bind readData = some [(0, codes "aA" ++ [0])] := by decide +kernel

/-- A backslash at the end takes the zero away: the string goes on with the next one. -/
theorem C96_backslash_at_end : ((stringsText [codes "a\\", codes "b"]).bind readData).bind (fun d => stringAt d 0) = some (codes "a\\0b") := by decide +kernel

/-- A new line behind `%` is printed as it is: the line ends in the string. -/
theorem C96_new_line_breaks : (stringsText [codes "5 %\n"]).bind readData = none := by decide +kernel

/-- `%` at the end of a string: the loop goes on behind the string. -/
theorem C96_percent_at_end : stringsText [codes "5 %"] = none := by decide +kernel

/-! ## C97: `printf` -/

/-- C97: the calls that are made for a call of `printf` write what it means, for formats without `%%` and without letters of two bytes, and arguments of which only the first writes something
itself while it is computed.  Missing: the other formats and arguments, for which it is wrong (below). -/
theorem C97_printf_partial {α : Type} (render : Nat → α → List Nat) (noise : α → List Nat) (l : List (List Nat)) (hs : ∀ s ∈ l, printable s = true)
    (hb : ∀ s ∈ l, (s.length + 1) * l.length ≤ 18446744073709551616) (i : Nat) (s : List Nat) (hi : l[i]? = some s) (args : List α) (ha : asks s = some args.length)
    (hq : ∀ a ∈ args.tail, noise a = []) :
    ∃ t d, stringsText l = some t ∧ readData t = some d ∧ written render noise d (printfFrom i l.length 0 args) = meaning render noise s args := by
  obtain ⟨t, h1, h2⟩ := read_data l hs hb
  refine ⟨t, _, h1, h2, ?_⟩
  have hp := print_pieces render s args ha
  have hmem : s ∈ l := List.mem_of_getElem? hi
  have hil : i < l.length := (List.getElem?_eq_some_iff.1 hi).1
  rw [meaning, ← hp.1]
  refine written_pieces render noise _ i l.length args 0 _ _ hp.2 (fun j q hj => ?_) hq
  have hj' : j ≤ (pieces s).2.length := by
    have := (List.getElem?_eq_some_iff.1 hj).1
    simp only [List.length_cons] at this
    omega
  have hlt : i + (0 + j) * l.length < 18446744073709551616 := by
    have h3 := hb s hmem
    have h4 := pieces_length s
    have h5 : (0 + j) * l.length + l.length ≤ (s.length + 1) * l.length := by
      rw [← Nat.succ_mul]
      exact Nat.mul_le_mul_right _ (by omega)
    omega
  unfold toSize
  rw [Nat.mod_eq_of_lt hlt]
  refine string_at (piece_zero (hs s hmem) q (List.mem_of_getElem? hj)) _ (data_nodup l 0 (by omega)) ?_
  exact mem_data.2 ⟨i, s, hi, mem_items.2 ⟨j, q, hj, by rw [Nat.zero_add i]⟩⟩

/-- Values for the examples: a text, and what computing it writes. -/
def shown (_ : Nat) (a : List Nat × List Nat) : List Nat := a.1

/-- What the text writes for `printf` with the string `i` of `l`. -/
def output (l : List (List Nat)) (i : Nat) (args : List (List Nat × List Nat)) : Option (List Nat) :=
  ((stringsText l).bind readData).bind fun d => written shown Prod.snd d (printfFrom i l.length 0 args)

example : ∃ t d, stringsText [codes "a\nb", codes "x = %i, %f!\n"] = some t ∧ readData t = some d ∧
    written shown Prod.snd d (printfFrom 1 2 0 [(codes "7", codes "f"), (codes "0.5", [])]) = meaning shown Prod.snd (codes "x = %i, %f!\n") [(codes "7", codes "f"), (codes "0.5", [])] :=
  C97_printf_partial shown Prod.snd [codes "a\nb", codes "x = %i, %f!\n"] (by decide +kernel) (by decide +kernel) 1 _ rfl _ (by decide +kernel) (by decide +kernel)

example : output [codes "a\nb", codes "x = %i, %f!\n"] 1 [(codes "7", codes "f"), (codes "0.5", [])] = some (codes "fx = 7, 0.5!\n") := by decide +kernel

/-- `printf("100%%\n")`: what follows `%%` is never printed. -/
theorem C97_percent_lost : output [codes "100%%\n"] 0 [] = some (codes "100%") ∧ meaning shown Prod.snd (codes "100%%\n") [] = some (codes "100%\n") := by decide +kernel

/-- `printf("%% %i\n", 7)`: the value goes to the piece with `%%`, the next one lacks its value. -/
theorem C97_percent_shifts : output [codes "%% %i\n"] 0 [(codes "7", [])] = none ∧ meaning shown Prod.snd (codes "%% %i\n") [(codes "7", [])] = some (codes "% 7\n") := by decide +kernel

/-- A letter of two bytes behind `%`, which the compiler takes as `i`, is cut in two. -/
theorem C97_letter_cut : (stringsText [[37, 0xD1, 0x86, 33]]).bind readData = some [(0, [37, 0xD1, 0]), (1, [0x86, 33, 0])] := by decide +kernel

/-- `printf("%i %i", 1, f())` where `f` prints: its output comes into the middle. -/
theorem C97_output_between : output [codes "%i %i"] 0 [(codes "1", []), (codes "2", codes "f")] = some (codes "1f 2") ∧
    meaning shown Prod.snd (codes "%i %i") [(codes "1", []), (codes "2", codes "f")] = some (codes "f1 2") := by decide +kernel

end RuC.MipsStrings.Props
