import Verif.Io.Lemmas

/-!
# C20, C21: printing into a buffer and scanning a buffer
-/

namespace RuC.Io
open RuC RuC.Utf8

/-- C20.  Whatever is printed into a buffer of whatever initial size, no octet is read or written outside
the allocation, every print answers the length of its text or -1, and the extracted text is the
concatenation of the texts whose print did not answer -1; when the allocator refuses nothing these are
all of them.  Each text fits an `int` and all of them together an address space of 2^62 octets. -/
theorem print_concatenates (grant : Nat → Bool) {size : Nat} (hs : size < 4611686018427387904) {ts : List (List Nat)}
    (ht : ∀ t ∈ ts, t.length < 2147483648 ∧ 0 ∉ t) (hl : ts.flatten.length < 4611686018427387904) :
    ∃ io rs io', outSetBuffer size = some io ∧ printAll grant io ts = some (rs, io') ∧
      outExtract io' = some (printed rs ts).flatten ∧ rs.length = ts.length ∧
      (∀ (i : Nat) r t, rs[i]? = some r → ts[i]? = some t → r = t.length ∨ r = -1) ∧
      ((∀ n, grant n = true) → outExtract io' = some ts.flatten) := by
  obtain ⟨io, e1, e2⟩ := set_holds hs
  obtain ⟨rs, io', f1, f2, f3, f4, f5⟩ := printAll_spec (grant := grant) e2 (fun t h => (ht t h).1) (by simpa using hl)
  have hsub : ∀ (rs : List Int) (ts : List (List Nat)), ∀ t ∈ printed rs ts, t ∈ ts := by
    intro rs
    induction rs with
    | nil => intro ts t h; simp [printed] at h
    | cons r rs ih =>
      intro ts
      cases ts with
      | nil => intro t h; simp [printed] at h
      | cons s ts =>
        intro t h
        rw [printed] at h
        split at h
        · exact List.mem_cons_of_mem _ (ih ts t h)
        · rcases List.mem_cons.1 h with rfl | h
          · simp
          · exact List.mem_cons_of_mem _ (ih ts t h)
  have hx : outExtract io' = some (printed rs ts).flatten := by
    rw [List.nil_append] at f3
    refine cstr_spec f3.text f3.zero ?_
    intro b hb hb0
    subst hb0
    obtain ⟨t, h1, h2⟩ := List.mem_flatten.1 hb
    exact (ht t (hsub rs ts t h1)).2 h2
  exact ⟨io, rs, io', e1, f1, hx, f2, f4, fun hg => by rw [hx, f5 hg]⟩

/-- Three texts into a buffer for one character; the second growth is refused. -/
example : (printAll (fun n => n ≠ 1) ⟨[some 0, none], 2, 0, 0⟩ [[97, 98], [99, 100, 101], [102]]).map (fun r => (r.1, outExtract r.2)) =
    some ([2, -1, 1], some [97, 98, 102]) := by decide +kernel

/-- A buffer of size `SIZE_MAX`: the size wraps to 0 and the first octet is written outside. -/
theorem set_buffer_undefined : outSetBuffer SIZE_MAX = none := by
  have h : usz (SIZE_MAX + 1) = 0 := by unfold usz SIZE_MAX; rfl
  unfold outSetBuffer
  rw [h]
  rfl

/-- C20 for characters: a character that `utf8_to_string` can write is printed as its UTF-8 octets. -/
theorem print_char (grant : Nat → Bool) {io : Out} {acc : List Nat} (h : Holds io acc) {c : Nat} (hc : Good c) (h0 : c ≠ 0)
    (hl : acc.length < 2305843009213693952) :
    ∃ ret io', uniPrintChar grant io c = some (ret, io') ∧
      ((ret = (encode c).length ∧ Holds io' (acc ++ encode c)) ∨ (ret = -1 ∧ Holds io' acc ∧ ∃ n, grant n = false)) := by
  have hlen := encode_le4 c
  rw [printChar_eq grant io hc h0]
  exact print_spec h (by omega) (by omega)

example : Good 0x416 ∧ Holds ⟨[some 97, some 0], 2, 1, 0⟩ [97] := by
  refine ⟨by decide, ⟨rfl, by decide, by decide, rfl, ?_, rfl⟩⟩
  intro i hi
  simp at hi
  subst hi
  rfl

/-- C21.  At any place of a valid text, scanning yields the next character and moves behind it, and
unscanning that character comes back to the same place; at the end scanning yields EOF and does not
move, and unscanning EOF does not move either. -/
theorem scan_unscan {io : In} {before after : List Nat} (h : Stands io before after) (hv : ∀ c ∈ after, c < 0x200000)
    (hl : io.text.length < 4611686018427387904) :
    ∃ c io', scanChar io = some (c, io') ∧ unscanChar io' c = (0, io) ∧
      (match after with
        | [] => c = EOFc ∧ io' = io
        | d :: rest => c = d ∧ Stands io' (before ++ [d]) rest) := by
  cases after with
  | nil =>
    have hp : io.position ≤ io.text.length := by rw [h.1, h.2]; simp
    exact ⟨EOFc, io, scanChar_end h, unscan_eof hp hl, rfl, rfl⟩
  | cons d rest =>
    obtain ⟨io', e1, e2⟩ := scanChar_spec h (hv d (by simp))
    have ht : io'.text = io.text := by rw [e2.1, h.1]; simp
    obtain ⟨u1, u2⟩ := unscan_spec e2 (hv d (by simp)) (by rw [ht]; exact hl)
    refine ⟨d, io', e1, ?_, rfl, e2⟩
    apply Prod.ext
    · exact u1
    · have hp : (unscanChar io' d).2.position = io.position := by rw [u2.2, h.2]
      have htt : (unscanChar io' d).2.text = io.text := by rw [u2.1, h.1]
      cases hx : (unscanChar io' d).2
      rw [hx] at hp htt
      simp only at hp htt
      subst hp; subst htt
      rfl

/-- C21, repeated: scanning a valid text from its beginning yields exactly its characters and then EOF
for ever. -/
theorem scan_all {cs : List Nat} (hv : ∀ c ∈ cs, c < 0x200000) (n : Nat) :
    ∃ io', scanAll (cs.length + n) (inSetBuffer (encodeAll cs)) = some (cs ++ List.replicate n EOFc, io') := by
  have tail : ∀ (n : Nat) (io : In) (before : List Nat), Stands io before [] → scanAll n io = some (List.replicate n EOFc, io) := by
    intro n
    induction n with
    | zero => intro io before _; rfl
    | succ n ih =>
      intro io before h
      rw [scanAll, scanChar_end h]
      simp only
      rw [ih io before h]
      rfl
  have all : ∀ (after before : List Nat) (io : In), Stands io before after → (∀ c ∈ after, c < 0x200000) →
      ∃ io', scanAll (after.length + n) io = some (after ++ List.replicate n EOFc, io') := by
    intro after
    induction after with
    | nil => intro before io h _; exact ⟨io, by simpa using tail n io before h⟩
    | cons c after ih =>
      intro before io h hv
      obtain ⟨io1, e1, e2⟩ := scanChar_spec h (hv c (by simp))
      obtain ⟨io', e3⟩ := ih _ _ e2 (fun x hx => hv x (by simp [hx]))
      refine ⟨io', ?_⟩
      have : (c :: after).length + n = (after.length + n) + 1 := by simp; omega
      rw [this, scanAll, e1]
      simp only
      rw [e3]
      rfl
  exact all cs [] _ ⟨rfl, rfl⟩ hv

/-- "aЖ€𐍈" and two more. -/
example : (scanAll 6 (inSetBuffer (encodeAll [0x61, 0x416, 0x20AC, 0x10348]))).map (·.1) = some [0x61, 0x416, 0x20AC, 0x10348, EOFc, EOFc] := by
  decide +kernel

/-- A text that stops inside a character: scanning moves to the end of the text and answers EOF, and
unscanning that EOF does not come back. -/
theorem scan_truncated : scanChar (inSetBuffer [0xD0]) = some (EOFc, ⟨[0xD0], 1⟩) ∧
    unscanChar ⟨[0xD0], 1⟩ EOFc = (0, ⟨[0xD0], 1⟩) := by decide +kernel

/-- Reading an identifier takes the longest run of letters and digits that begins with a letter, and
leaves the input behind it; with no letter ahead nothing is taken. -/
theorem scan_identifier {io : In} {before after : List Nat} (h : Stands io before after) (hv : ∀ c ∈ after, c < 0x200000)
    (hl : io.text.length < 4611686018427387904) :
    ∃ io', scanIdentifier io = some (encodeAll (if isLetter (after.head?.getD 0) then after.takeWhile idChar else []), io') ∧
      Stands io' (before ++ if isLetter (after.head?.getD 0) then after.takeWhile idChar else [])
        (if isLetter (after.head?.getD 0) then after.dropWhile idChar else after) := by
  cases after with
  | nil =>
    have hp : io.position ≤ io.text.length := by rw [h.1, h.2]; simp
    refine ⟨io, ?_, by simpa [isLetter, isRussian] using h⟩
    unfold scanIdentifier
    rw [scanChar_end h]
    simp only
    rw [if_pos (by decide), unscan_eof hp hl]
    rfl
  | cons c after =>
    obtain ⟨io1, e1, e2⟩ := scanChar_spec h (hv c (by simp))
    have ht : io1.text = io.text := by rw [e2.1, h.1]; simp
    have hl1 : io1.text.length < 4611686018427387904 := by rw [ht]; exact hl
    unfold scanIdentifier
    rw [e1]
    simp only [List.head?_cons, Option.getD_some]
    by_cases hc : isLetter c = true
    · have hfuel : after.length + 2 ≤ io1.text.length + 1 := by
        rw [e2.1]
        have := encodeAll_length (before ++ [c] ++ after)
        simp at this ⊢
        omega
      obtain ⟨d, io2, f1, f2, f3⟩ := identLoop_spec e2 hv hfuel hl1
      simp only [hc, Bool.not_true, Bool.false_eq_true, if_false, if_true, f1]
      exact ⟨_, rfl, f3⟩
    · rw [Bool.not_eq_true] at hc
      obtain ⟨u1, u2⟩ := unscan_spec e2 (hv c (by simp)) hl1
      simp only [hc, Bool.not_false, if_true, Bool.false_eq_true, if_false, List.append_nil]
      exact ⟨_, rfl, u2⟩

/-- "x1+y". -/
example : scanIdentifier (inSetBuffer [120, 49, 43, 121]) = some ([120, 49], ⟨[120, 49, 43, 121], 2⟩) := by decide +kernel

/-- What was printed is what is scanned: printing characters into a buffer and scanning the extracted
text yields the characters again. -/
theorem print_then_scan {size : Nat} (hs : size < 4611686018427387904) {cs : List Nat} (hg : ∀ c ∈ cs, Good c ∧ c ≠ 0)
    (hl : cs.length < 1152921504606846976) :
    ∃ io io' text, outSetBuffer size = some io ∧
      (cs.foldl (fun (s : Option Out) c => s.bind fun io => (uniPrintChar (fun _ => true) io c).map (·.2)) (some io)) = some io' ∧
      outExtract io' = some text ∧ (∀ n, ∃ i, scanAll (cs.length + n) (inSetBuffer text) = some (cs ++ List.replicate n EOFc, i)) := by
  obtain ⟨io, e1, e2⟩ := set_holds hs
  have all : ∀ (cs acc : List Nat) (io : Out), Holds io acc → (∀ c ∈ cs, Good c ∧ c ≠ 0) →
      acc.length + 4 * cs.length < 2305843009213693952 * 2 →
      ∃ io', (cs.foldl (fun (s : Option Out) c => s.bind fun io => (uniPrintChar (fun _ => true) io c).map (·.2)) (some io)) = some io' ∧
        Holds io' (acc ++ encodeAll cs) := by
    intro cs
    induction cs with
    | nil => intro acc io h _ _; exact ⟨io, rfl, by simpa [encodeAll] using h⟩
    | cons c cs ih =>
      intro acc io h hg hl
      simp only [List.length_cons] at hl
      have hc4 := encode_le4 c
      have hstep : ∃ io1, (uniPrintChar (fun _ => true) io c).map (·.2) = some io1 ∧ Holds io1 (acc ++ encode c) := by
        rw [printChar_eq _ _ (hg c (by simp)).1 (hg c (by simp)).2]
        obtain ⟨r, io1, p1, p2⟩ := print_spec (grant := fun _ => true) (text := encode c) h (by omega) (by omega)
        rcases p2 with ⟨rfl, p2⟩ | ⟨_, _, n, hn⟩
        · exact ⟨io1, by rw [p1]; rfl, p2⟩
        · cases hn
      obtain ⟨io1, p1, p2⟩ := hstep
      obtain ⟨io', q1, q2⟩ := ih (acc ++ encode c) io1 p2 (fun x hx => hg x (by simp [hx])) (by rw [List.length_append]; omega)
      refine ⟨io', ?_, by simpa [encodeAll] using q2⟩
      rw [List.foldl_cons]
      rw [Option.bind_some, p1]
      exact q1
  obtain ⟨io', f1, f2⟩ := all cs [] io e2 hg (by simp; omega)
  rw [List.nil_append] at f2
  refine ⟨io, io', encodeAll cs, e1, f1, cstr_spec f2.text f2.zero ?_, fun n => scan_all (fun c hc => ?_) n⟩
  · intro b hb
    obtain ⟨c, hc, hb⟩ := List.mem_flatMap.1 hb
    exact encode_nonzero (hg c hc).2 b hb
  · have := (hg c hc).1
    unfold Good at this
    omega

end RuC.Io
