import Verif.Io.Spec
import Verif.Utf8.Lemmas
import Verif.Utf8.Props
import Verif.Map.Lemmas

namespace RuC.Io
open RuC RuC.Utf8

/-! ## Output -/

theorem store_spec {bs : List Nat} : ∀ {cells : List (Option Nat)} {i : Nat}, i + bs.length ≤ cells.length →
    ∃ cells', store cells i bs = some cells' ∧ cells'.length = cells.length ∧
      (∀ j, j < i → cells'[j]? = cells[j]?) ∧ (∀ j, (h : j < bs.length) → cells'[i + j]? = some (some bs[j])) ∧
      (∀ j, i + bs.length ≤ j → cells'[j]? = cells[j]?) := by
  induction bs with
  | nil => intro cells i _; exact ⟨cells, rfl, rfl, fun _ _ => rfl, fun j h => by simp at h, fun _ _ => rfl⟩
  | cons b bs ih =>
    intro cells i h
    simp only [List.length_cons] at h
    obtain ⟨c', e1, e2, e3, e4, e5⟩ := ih (cells := cells.set i (some b)) (i := i + 1) (by rw [List.length_set]; omega)
    rw [List.length_set] at e2
    refine ⟨c', by rw [store, if_pos (by omega)]; exact e1, e2, ?_, ?_, ?_⟩
    · intro j hj
      rw [e3 j (by omega), List.getElem?_set_ne (by omega)]
    · intro j hj
      cases j with
      | zero => rw [Nat.add_zero, e3 i (by omega), List.getElem?_set_self (by omega)]; rfl
      | succ j =>
        have := e4 j (by simp at hj; omega)
        rw [← Nat.add_assoc, Nat.add_right_comm]
        simpa using this
    · intro j hj
      simp only [List.length_cons] at hj
      rw [e5 j (by omega), List.getElem?_set_ne (by omega)]

/-- A buffer that holds a text. -/
structure Holds (io : Out) (acc : List Nat) : Prop where
  alloc : io.cells.length = io.size
  small : io.size < 9223372036854775808
  room : acc.length < io.size
  pos : io.position = acc.length
  text : ∀ i, (h : i < acc.length) → io.cells[i]? = some (some acc[i])
  zero : io.cells[acc.length]? = some (some 0)

theorem Holds.free {io : Out} {acc : List Nat} (h : Holds io acc) : usub io.size io.position = io.size - acc.length := by
  rw [h.pos]
  exact usub_of_le (by have := h.room; omega) (by have := h.small; omega)

/-- Truncated output leaves the text before it alone. -/
theorem vsnprintf_spec {io : Out} {acc text : List Nat} (h : Holds io acc) : ∃ cells,
    vsnprintf io.cells io.position (usub io.size io.position) text =
      some (if text.length < 2147483648 then (text.length : Int) else -1, cells) ∧ cells.length = io.size ∧
    (∀ i, i < acc.length → cells[i]? = io.cells[i]?) ∧
    (acc.length + text.length < io.size → ∀ j, (hj : j < (text ++ [0]).length) → cells[acc.length + j]? = some (some (text ++ [0])[j])) := by
  have hr := h.room
  have hlen : (text.take (io.size - acc.length - 1) ++ [0]).length ≤ io.size - acc.length := by
    rw [List.length_append, List.length_take, List.length_singleton]; omega
  obtain ⟨cells, e1, e2, e3, e4, e5⟩ := store_spec (cells := io.cells) (i := acc.length)
    (bs := text.take (io.size - acc.length - 1) ++ [0]) (by rw [h.alloc]; omega)
  refine ⟨cells, ?_, by rw [e2, h.alloc], e3, ?_⟩
  · unfold vsnprintf
    rw [h.free, h.pos]
    simp only
    rw [if_neg (by omega), e1]
    rfl
  · intro hfit
    have : text.take (io.size - acc.length - 1) = text := List.take_of_length_le (by omega)
    rw [this] at e4
    exact e4

theorem fits {grant : Nat → Bool} {text : List Nat} (ht : text.length < 2147483648) {fuel : Nat} {io : Out} {acc : List Nat}
    (h : Holds io acc) (hb : acc.length + text.length < 4611686018427387904) (hf : acc.length + text.length < io.size) :
    ∃ ret io', outFunc grant (fuel + 1) io text = some (ret, io') ∧
      ((ret = text.length ∧ Holds io' (acc ++ text)) ∨ (ret = -1 ∧ Holds io' acc ∧ ∃ n, grant n = false)) := by
  obtain ⟨cells, e1, e2, e3, e4⟩ := vsnprintf_spec (text := text) h
  rw [if_pos ht] at e1
  have e4 := e4 hf
  rw [outFunc, e1]
  simp only
  rw [h.pos, Int.toNat_natCast, usz_of_lt (by omega), if_pos ⟨by omega, by omega⟩]
  refine ⟨_, _, rfl, .inl ⟨rfl, ?_⟩⟩
  refine { alloc := e2, small := h.small, room := by simpa using hf, pos := by simp, text := ?_, zero := ?_ }
  · intro i hi
    simp only [List.length_append] at hi
    by_cases hia : i < acc.length
    · simp only
      rw [e3 i hia, h.text i hia, List.getElem_append_left hia]
    · have := e4 (i - acc.length) (by simp; omega)
      have he : acc.length + (i - acc.length) = i := by omega
      rw [he] at this
      simp only
      rw [this, List.getElem_append_left (by omega)]
      have h2 : (acc ++ text)[i]'(by simp; omega) = text[i - acc.length] := List.getElem_append_right (by omega)
      rw [h2]
  · have := e4 text.length (by simp)
    simpa using this

theorem out_spec {grant : Nat → Bool} {text : List Nat} (ht : text.length < 2147483648) : ∀ {fuel : Nat} {io : Out} {acc : List Nat},
    Holds io acc → acc.length + text.length < 4611686018427387904 → acc.length + text.length + 1 ≤ io.size + fuel →
    ∃ ret io', outFunc grant (fuel + 1) io text = some (ret, io') ∧
      ((ret = text.length ∧ Holds io' (acc ++ text)) ∨ (ret = -1 ∧ Holds io' acc ∧ ∃ n, grant n = false)) := by
  intro fuel
  induction fuel with
  | zero =>
    intro io acc h hb hf
    exact fits ht h hb (by omega)
  | succ fuel ih =>
    intro io acc h hb hf
    by_cases hfit : acc.length + text.length < io.size
    · exact fits ht h hb hfit
    · obtain ⟨cells, e1, e2, e3, e4⟩ := vsnprintf_spec (text := text) h
      rw [if_pos ht] at e1
      have hsm := h.small
      have hro := h.room
      obtain ⟨cells', f1, f2, f3, f4, f5⟩ := store_spec (cells := cells) (i := acc.length) (bs := [0]) (by rw [e2]; simp; omega)
      rw [outFunc, e1]
      simp only
      rw [h.pos, Int.toNat_natCast, usz_of_lt (by omega), if_neg (by omega), f1]
      simp only
      have htx : ∀ i, (hi : i < acc.length) → cells'[i]? = some (some acc[i]) := by
        intro i hi
        rw [f3 i hi, e3 i hi, h.text i hi]
      have hz : cells'[acc.length]? = some (some 0) := f4 0 (by simp)
      by_cases hg : grant io.calls = true
      · rw [if_pos hg, usz_of_lt (by omega), usz_of_lt (by omega)]
        have hcl : cells'.length = io.size := by rw [f2, e2]
        have hres : ∀ i, i < io.size → (resize cells' (2 * io.size))[i]? = cells'[i]? := by
          intro i hi
          unfold resize
          rw [List.take_of_length_le (by omega), List.getElem?_append_left (by omega)]
        obtain ⟨ret, io', g1, g2⟩ := ih (io := { cells := resize cells' (2 * io.size), size := io.size * 2, position := acc.length, calls := io.calls + 1 })
          (acc := acc)
          { alloc := by simp [resize]; omega, small := by simp only; omega, room := by simp only; omega, pos := rfl
            text := fun i hi => by rw [hres i (by omega)]; exact htx i hi
            zero := by rw [hres _ hro]; exact hz }
          hb (by simp only; omega)
        exact ⟨ret, io', g1, g2⟩
      · rw [if_neg hg]
        refine ⟨-1, _, rfl, .inr ⟨rfl, ?_, io.calls, by simpa using hg⟩⟩
        exact { alloc := by simp only; rw [f2, e2], small := h.small, room := h.room, pos := rfl, text := htx, zero := hz }

theorem print_spec {grant : Nat → Bool} {io : Out} {acc text : List Nat} (h : Holds io acc) (ht : text.length < 2147483648)
    (hb : acc.length + text.length < 4611686018427387904) :
    ∃ ret io', uniPrint grant io text = some (ret, io') ∧
      ((ret = text.length ∧ Holds io' (acc ++ text)) ∨ (ret = -1 ∧ Holds io' acc ∧ ∃ n, grant n = false)) := by
  unfold uniPrint outFuel
  exact out_spec ht h hb (by rw [h.pos]; omega)

theorem cstr_spec {acc : List Nat} : ∀ {cells : List (Option Nat)}, (∀ i, (h : i < acc.length) → cells[i]? = some (some acc[i])) →
    cells[acc.length]? = some (some 0) → (∀ b ∈ acc, b ≠ 0) → cstr cells = some acc := by
  induction acc with
  | nil =>
    intro cells _ hz _
    cases cells with
    | nil => simp at hz
    | cons c cells => simp at hz; subst hz; rfl
  | cons b acc ih =>
    intro cells h hz hn
    cases cells with
    | nil => simp at hz
    | cons c cells =>
      have h0 := h 0 (by simp)
      simp at h0
      subst h0
      have hb : b ≠ 0 := hn b (by simp)
      obtain ⟨b, rfl⟩ : ∃ k, b = k + 1 := ⟨b - 1, by omega⟩
      rw [cstr, ih (fun i hi => by have := h (i + 1) (by simp; omega); rw [List.getElem?_cons_succ] at this; exact this) (by simpa using hz) (fun x hx => hn x (by simp [hx]))]
      rfl

theorem set_holds {size : Nat} (h : size < 4611686018427387904) : ∃ io, outSetBuffer size = some io ∧ Holds io [] := by
  obtain ⟨c, e1, e2, _, e4, _⟩ := store_spec (cells := List.replicate (size + 1) (none : Option Nat)) (i := 0) (bs := [0])
    (by rw [List.length_replicate]; simp)
  rw [List.length_replicate] at e2
  refine ⟨{ cells := c, size := size + 1, position := 0, calls := 0 }, ?_, ?_⟩
  · unfold outSetBuffer
    rw [usz_of_lt (by omega), e1]
    rfl
  · exact { alloc := e2, small := by simp only; omega, room := by simp, pos := rfl, text := fun i hi => by simp at hi, zero := e4 0 (by simp) }

theorem printAll_spec {grant : Nat → Bool} {ts : List (List Nat)} : ∀ {io : Out} {acc : List Nat}, Holds io acc →
    (∀ t ∈ ts, t.length < 2147483648) → acc.length + ts.flatten.length < 4611686018427387904 →
    ∃ rs io', printAll grant io ts = some (rs, io') ∧ rs.length = ts.length ∧ Holds io' (acc ++ (printed rs ts).flatten) ∧
      (∀ (i : Nat) r t, rs[i]? = some r → ts[i]? = some t → r = t.length ∨ r = -1) ∧ ((∀ n, grant n = true) → printed rs ts = ts) := by
  induction ts with
  | nil => intro io acc h _ _; exact ⟨[], io, rfl, rfl, by simpa [printed] using h, fun i r t h => by simp at h, fun _ => rfl⟩
  | cons t ts ih =>
    intro io acc h ht hb
    simp only [List.flatten_cons, List.length_append] at hb
    obtain ⟨r, io1, e1, e2⟩ := print_spec (grant := grant) h (ht t (by simp)) (by omega)
    rcases e2 with ⟨rfl, e2⟩ | ⟨rfl, e2, n, hn⟩
    · obtain ⟨rs, io', f1, f2, f3, f4, f5⟩ := ih e2 (fun x hx => ht x (by simp [hx])) (by rw [List.length_append]; omega)
      refine ⟨(t.length : Int) :: rs, io', by rw [printAll, e1]; simp [f1], by simp [f2], ?_, ?_, ?_⟩
      · rw [printed, if_neg (by omega)]
        simpa using f3
      · intro i r t' hr htt
        cases i with
        | zero => simp at hr htt; subst hr; subst htt; exact .inl rfl
        | succ i => exact f4 i r t' (by simpa using hr) (by simpa using htt)
      · intro hg
        rw [printed, if_neg (by omega), f5 hg]
    · obtain ⟨rs, io', f1, f2, f3, f4, f5⟩ := ih e2 (fun x hx => ht x (by simp [hx])) (by omega)
      refine ⟨-1 :: rs, io', by rw [printAll, e1]; simp [f1], by simp [f2], ?_, ?_, ?_⟩
      · rw [printed, if_pos rfl]
        exact f3
      · intro i r t' hr htt
        cases i with
        | zero => simp at hr; exact .inr hr.symm
        | succ i => exact f4 i r t' (by simpa using hr) (by simpa using htt)
      · intro hg
        rw [hg n] at hn
        cases hn

/-! ## Input -/

theorem scanMore_spec {n : Nat} : ∀ {io : In} {pre bs post : List Nat}, io.text = pre ++ bs ++ post → io.position = pre.length →
    bs.length = n → scanMore n io = (some bs, { io with position := io.position + n }) := by
  induction n with
  | zero =>
    intro io pre bs post _ _ hb
    have : bs = [] := List.length_eq_zero_iff.1 hb
    subst this
    rfl
  | succ n ih =>
    intro io pre bs post h1 h2 h3
    cases bs with
    | nil => simp at h3
    | cons b bs =>
      have hb : scanOctet io = (some b, { io with position := io.position + 1 }) := by
        unfold scanOctet
        rw [h1, h2]
        simp
      rw [scanMore, hb]
      simp only
      rw [ih (pre := pre ++ [b]) (bs := bs) (post := post) (by simp [h1]) (by simp [h2]) (by simpa using h3)]
      simp only
      congr 2
      omega

theorem scanMore_short {n : Nat} : ∀ {io : In}, io.text.length < io.position + n → io.position ≤ io.text.length →
    (scanMore n io).1 = none := by
  induction n with
  | zero => intro io h1 h2; omega
  | succ n ih =>
    intro io h1 h2
    rw [scanMore]
    unfold scanOctet
    by_cases hp : io.position < io.text.length
    · rw [List.getElem?_eq_getElem hp]
      simp only
      have := ih (io := { io with position := io.position + 1 }) (by simp only; omega) (by simp only; omega)
      split
      · rfl
      · rename_i e; rw [e] at this; cases this
    · rw [List.getElem?_eq_none (by omega)]

theorem encode_ne_nil (c : Nat) : encode c ≠ [] := by
  unfold encode
  split
  · simp
  · split
    · simp
    · split <;> simp

theorem scanChar_spec {io : In} {before after : List Nat} {c : Nat} (h : Stands io before (c :: after)) (hc : c < 0x200000) :
    ∃ io', scanChar io = some (c, io') ∧ Stands io' (before ++ [c]) after := by
  obtain ⟨h1, h2⟩ := h
  refine ⟨{ io with position := io.position + (encode c).length }, ?_, ?_⟩
  · have ht : io.text = encodeAll before ++ encode c ++ encodeAll after := by rw [h1]; simp [encodeAll]
    cases he : encode c with
    | nil => exact absurd he (encode_ne_nil c)
    | cons b bs =>
      have hs : symbolSize b = bs.length + 1 := by
        have := symbolSize_encode' hc
        rw [he] at this
        simp at this
        exact this.1
      rw [he] at ht
      have hb : scanOctet io = (some b, { io with position := io.position + 1 }) := by
        unfold scanOctet
        rw [ht, h2]
        simp
      have hconv : convert (b :: bs) = some c := by
        have := convert_encode' hc []
        rw [he] at this
        simpa using this
      unfold scanChar
      rw [hb]
      simp only
      rw [hs, Nat.add_sub_cancel]
      rw [scanMore_spec (pre := encodeAll before ++ [b]) (bs := bs) (post := encodeAll after) (by simp [ht]) (by simp [h2]) rfl]
      simp only [hconv, Option.map_some]
      congr 2
      simp only [List.length_cons]
      congr 1
      omega
  · refine ⟨by rw [h1]; simp, ?_⟩
    simp only
    rw [h2]
    simp [encodeAll]

theorem scanChar_end {io : In} {before : List Nat} (h : Stands io before []) : scanChar io = some (EOFc, io) := by
  unfold scanChar scanOctet
  rw [h.1, h.2]
  simp

theorem utf8Size_encode {c : Nat} (hc : c < 0x200000) : utf8Size c = (encode c).length := by
  rw [utf8_size_exact (by omega), if_pos hc]

theorem unscan_spec {io : In} {before after : List Nat} {c : Nat} (h : Stands io (before ++ [c]) after) (hc : c < 0x200000)
    (hl : io.text.length < 4611686018427387904) :
    (unscanChar io c).1 = 0 ∧ Stands (unscanChar io c).2 before (c :: after) := by
  obtain ⟨h1, h2⟩ := h
  have hpos : io.position = (encodeAll before).length + (encode c).length := by rw [h2]; simp [encodeAll]
  have hle : (encodeAll before).length + (encode c).length ≤ io.text.length := by
    rw [h1]; simp [encodeAll]
  have e : usub io.position (utf8Size c) = (encodeAll before).length := by
    rw [utf8Size_encode hc, hpos, usub_of_le (by omega) (by omega)]
    omega
  unfold unscanChar inSetPosition
  rw [e, if_pos (by omega)]
  exact ⟨rfl, by rw [h1]; simp, rfl⟩

theorem unscan_eof {io : In} (hp : io.position ≤ io.text.length) (hl : io.text.length < 4611686018427387904) :
    unscanChar io EOFc = (0, io) := by
  have e : utf8Size EOFc = 0 := by decide
  unfold unscanChar inSetPosition
  rw [e, usub_of_le (by omega) (by omega), Nat.sub_zero, if_pos hp]

end RuC.Io

namespace RuC.Io
open RuC RuC.Utf8

/-- A character of an identifier. -/
def idChar (c : Nat) : Bool := isLetter c || isDigit c

theorem idChar_good {c : Nat} (h : idChar c = true) : c < 0x800 := by
  simp [idChar, isLetter, isRussian, isDigit] at h
  omega

theorem idChar_encode {c : Nat} (h : idChar c = true) : toStr c = encode c := toStr_good' (.inl (idChar_good h))

theorem identLoop_spec {after : List Nat} : ∀ {fuel : Nat} {io : In} {before : List Nat} {c : Nat}, Stands io (before ++ [c]) after →
    (∀ x ∈ c :: after, x < 0x200000) → after.length + 2 ≤ fuel → io.text.length < 4611686018427387904 →
    ∃ d io', identLoop fuel io c = some (encodeAll ((c :: after).takeWhile idChar), d, io') ∧
      (unscanChar io' d).1 = 0 ∧
      Stands (unscanChar io' d).2 (before ++ (c :: after).takeWhile idChar) ((c :: after).dropWhile idChar) := by
  have stop : ∀ {fuel : Nat} {io : In} {before after : List Nat} {c : Nat}, Stands io (before ++ [c]) after → idChar c = false →
      (∀ x ∈ c :: after, x < 0x200000) → 1 ≤ fuel → io.text.length < 4611686018427387904 →
      ∃ d io', identLoop fuel io c = some (encodeAll ((c :: after).takeWhile idChar), d, io') ∧
        (unscanChar io' d).1 = 0 ∧
        Stands (unscanChar io' d).2 (before ++ (c :: after).takeWhile idChar) ((c :: after).dropWhile idChar) := by
    intro fuel io before after c h hc hx hf hl
    obtain ⟨fuel, rfl⟩ : ∃ k, fuel = k + 1 := ⟨fuel - 1, by omega⟩
    obtain ⟨u1, u2⟩ := unscan_spec h (hx c (by simp)) hl
    refine ⟨c, io, ?_, u1, by simpa [hc] using u2⟩
    rw [identLoop, if_neg (by simpa [idChar] using hc)]
    simp [hc, encodeAll]
  induction after with
  | nil =>
    intro fuel io before c h hx hf hl
    by_cases hc : idChar c = true
    · obtain ⟨fuel, rfl⟩ : ∃ k, fuel = k + 2 := ⟨fuel - 2, by simp at hf; omega⟩
      have hp : io.position ≤ io.text.length := by rw [h.1, h.2]; simp [encodeAll]
      have heof : identLoop (fuel + 1) io EOFc = some ([], EOFc, io) := by
        rw [identLoop, if_neg (by decide)]
      refine ⟨EOFc, io, ?_, by rw [unscan_eof hp hl], by rw [unscan_eof hp hl]; simpa [hc] using h⟩
      rw [identLoop, if_pos (by simpa [idChar] using hc), scanChar_end h]
      simp only
      rw [heof]
      simp [hc, encodeAll, idChar_encode hc]
    · exact stop h (by simpa using hc) hx (by omega) hl
  | cons d after ih =>
    intro fuel io before c h hx hf hl
    by_cases hc : idChar c = true
    · obtain ⟨fuel, rfl⟩ : ∃ k, fuel = k + 1 := ⟨fuel - 1, by simp at hf; omega⟩
      obtain ⟨io1, e1, e2⟩ := scanChar_spec h (hx d (by simp))
      have hl1 : io1.text.length < 4611686018427387904 := by
        have := e2.1
        rw [List.append_assoc, List.singleton_append] at this
        rw [this, ← h.1]; exact hl
      obtain ⟨e, io', f1, f2, f3⟩ := ih (fuel := fuel) e2 (fun x hxx => hx x (by simp at hxx ⊢; exact .inr hxx)) (by simp at hf; omega) hl1
      refine ⟨e, io', ?_, f2, ?_⟩
      · rw [identLoop, if_pos (by simpa [idChar] using hc), e1]
        simp only
        rw [f1]
        rw [List.takeWhile_cons (a := c), if_pos hc]
        simp [encodeAll, idChar_encode hc]
      · rw [List.takeWhile_cons (a := c), if_pos hc, List.dropWhile_cons (x := c), if_pos hc]
        simpa using f3
    · exact stop h (by simpa using hc) hx (by simp at hf; omega) hl

theorem encodeAll_length (cs : List Nat) : cs.length ≤ (encodeAll cs).length := by
  induction cs with
  | nil => simp [encodeAll]
  | cons c cs ih =>
    have : 1 ≤ (encode c).length := by
      cases he : encode c with
      | nil => exact absurd he (encode_ne_nil c)
      | cons b s => simp
    have h2 : encodeAll (c :: cs) = encode c ++ encodeAll cs := by simp [encodeAll]
    rw [h2, List.length_append, List.length_cons]
    omega

theorem letter_id {c : Nat} (h : isLetter c = true) : idChar c = true := by simp [idChar, h]

theorem encode_le4 (c : Nat) : (encode c).length ≤ 4 := by
  unfold encode
  split
  · simp
  · split
    · simp
    · split <;> simp

theorem encode_nonzero {c : Nat} (h0 : c ≠ 0) : ∀ b ∈ encode c, b ≠ 0 := by
  intro b hb
  unfold encode at hb
  split at hb
  · simp at hb; omega
  · split at hb
    · simp at hb; omega
    · split at hb
      · simp at hb; omega
      · simp at hb; omega

theorem takeWhile_nonzero {l : List Nat} (h : ∀ b ∈ l, b ≠ 0) : l.takeWhile (· ≠ 0) = l := by
  induction l with
  | nil => rfl
  | cons b l ih =>
    have hb : b ≠ 0 := h b (by simp)
    rw [List.takeWhile_cons, if_pos (by simpa using hb), ih (fun x hx => h x (by simp [hx]))]

theorem printChar_eq (grant : Nat → Bool) (io : Out) {c : Nat} (hc : Good c) (h0 : c ≠ 0) : uniPrintChar grant io c = uniPrint grant io (encode c) := by
  have hne : ¬ (encode c).length = 0 := fun e => encode_ne_nil c (List.length_eq_zero_iff.1 e)
  unfold uniPrintChar
  rw [toStr_good' hc, if_neg hne, takeWhile_nonzero (encode_nonzero h0)]

end RuC.Io
