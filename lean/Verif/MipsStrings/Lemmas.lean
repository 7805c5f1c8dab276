import Verif.MipsStrings.Spec
import Verif.LlvmText.Strings

/-! Helper lemmas: the strings of MIPS text. -/

namespace RuC.MipsStrings
open Locator (showNat)
open LlvmText (chars codes skip number skip_self number_self)
open MipsText (labelText)

/-- Induction over a string, conversion by conversion. -/
theorem string_ind {P : List Nat → Prop} (h0 : P []) (h1 : P [37]) (h2 : ∀ c r, P r → P (37 :: c :: r)) (h3 : ∀ c r, c ≠ 37 → P r → P (c :: r)) : ∀ s, P s
  | [] => h0
  | [c] => if h : c = 37 then h ▸ h1 else h3 c [] h h0
  | c :: d :: r => if h : c = 37 then h ▸ h2 d r (string_ind h0 h1 h2 h3 r) else h3 c (d :: r) h (string_ind h0 h1 h2 h3 (d :: r))

/-- The pieces of a string: cut behind every conversion. -/
def pieces : List Nat → List Nat × List (List Nat)
  | [] => ([], [])
  | [37] => ([37], [])
  | 37 :: c :: r => ([37, c], (pieces r).1 :: (pieces r).2)
  | c :: r => (c :: (pieces r).1, (pieces r).2)

theorem pieces_other {c : Nat} (h : c ≠ 37) (r : List Nat) : pieces (c :: r) = (c :: (pieces r).1, (pieces r).2) := by
  rw [pieces]
  · intro e; exact absurd e h
  · intro _ _ e; exact absurd e h

theorem bytes_other {c : Nat} (h : c ≠ 37) (amount i k : Nat) (r : List Nat) :
    bytesText amount i k (c :: r) = (bytesText amount i k r).map fun t => (if c = 10 then codes "\\n" else [c]) ++ t := by
  rw [bytesText]
  · intro e; exact absurd e h
  · intro _ _ e; exact absurd e h

theorem printable_other {c : Nat} (h : c ≠ 37) (r : List Nat) : printable (c :: r) = (safe c && printable r) := by
  rw [printable]
  · intro e; exact absurd e h
  · intro _ _ e; exact absurd e h

theorem asks_other {c : Nat} (h : c ≠ 37) (r : List Nat) : asks (c :: r) = asks r := by
  rw [asks]
  · intro e; exact absurd e h
  · intro _ _ e; exact absurd e h

theorem printf_other {α : Type} (render : Nat → α → List Nat) {c : Nat} (h : c ≠ 37) (r : List Nat) (args : List α) :
    printf render (c :: r) args = (printf render r args).map fun t => c :: t := by
  rw [printf]
  · intro e; exact absurd e h
  · intro _ _ e; exact absurd e h

theorem safe_iff {c : Nat} : safe c = true ↔ c ≠ 0 ∧ c ≠ 34 ∧ c ≠ 92 := by
  simp [safe, and_assoc]

/-- Labels for the pieces from the `k`-th on. -/
def items (amount i : Nat) : Nat → List (List Nat) → List (Nat × List Nat)
  | _, [] => []
  | k, p :: ps => (i + k * amount, p ++ [0]) :: items amount i (k + 1) ps

/-- Labels for all pieces of strings from the number `i` on. -/
def dataFrom (amount : Nat) : Nat → List (List Nat) → List (Nat × List Nat)
  | _, [] => []
  | i, s :: l => items amount i 0 ((pieces s).1 :: (pieces s).2) ++ dataFrom amount (i + 1) l

/-! ## Reading -/

theorem ascii_safe {c : Nat} (h : safe c = true) (hn : c ≠ 10) (r : List Nat) : ascii .plain (c :: r) = (ascii .plain r).map fun x => (c :: x.1, x.2) := by
  have := safe_iff.1 h
  rw [ascii, if_neg this.2.1, if_neg hn, if_neg this.2.2]

theorem ascii_char {c : Nat} (h : safe c = true) (r : List Nat) :
    ascii .plain ((if c = 10 then codes "\\n" else [c]) ++ r) = (ascii .plain r).map fun x => (c :: x.1, x.2) := by
  by_cases hn : c = 10
  · subst hn
    rw [if_pos rfl, show codes "\\n" = [92, 110] by decide]
    rfl
  · rw [if_neg hn]
    exact ascii_safe h hn r

theorem ascii_end (r : List Nat) : ascii .plain (codes "\\0\"\n" ++ r) = some ([0], codes "\n" ++ r) := by
  rw [show codes "\\0\"\n" = [92, 48, 34, 10] by decide, show codes "\n" = [10] by decide]
  rfl

/-- The bytes of a string and the labels behind them. -/
def readBody (n : Nat) (t : List Nat) : Option (List Nat × List (Nat × List Nat)) :=
  (ascii .plain t).bind fun x => (skip "\n" x.2).bind fun r => (readItems n r).map fun l => (x.1, l)

theorem readBody_char {c : Nat} (h : safe c = true) (n : Nat) (r : List Nat) :
    readBody n ((if c = 10 then codes "\\n" else [c]) ++ r) = (readBody n r).map fun x => (c :: x.1, x.2) := by
  unfold readBody
  rw [ascii_char h]
  cases ascii .plain r with
  | none => rfl
  | some x =>
    simp only [Option.map_some, Option.bind_some]
    cases skip "\n" x.2 with
    | none => rfl
    | some y => simp only [Option.bind_some, Option.map_map, Function.comp_def]

theorem begins_head (m : Nat) (r : List Nat) : begins m ++ r ≠ chars "\t.text\n\t.align 2\n\n" := by
  intro e
  have h : (begins m ++ r).head? = some 83 := by
    unfold begins labelText MipsText.kindText
    rw [show codes "STRING" = 83 :: codes "TRING" by decide]
    rfl
  rw [e] at h
  exact absurd h (by decide)

theorem readItems_begins {m : Nat} (hm : m < 18446744073709551616) (n : Nat) (t : List Nat) :
    readItems (n + 1) (begins m ++ t) = (readBody n t).map fun x => (m, x.1) :: x.2 := by
  rw [readItems, if_neg (begins_head m t)]
  have e : begins m ++ t = codes "STRING" ++ (showNat m ++ (codes ":\n\t.ascii \"" ++ t)) := by
    unfold begins labelText toSize
    rw [Nat.mod_eq_of_lt hm, if_neg (by simp), show codes ":\n\t.ascii \"" = codes ":\n" ++ codes "\t.ascii \"" by decide]
    simp only [List.append_assoc]
    rfl
  unfold readItem readBody
  rw [e, skip_self, Option.bind_some, number_self, Option.bind_some]
  · simp only
    rw [skip_self, Option.bind_some]
    cases ascii .plain t with
    | none => rfl
    | some x =>
      simp only [Option.bind_some]
      cases skip "\n" x.2 with
      | none => rfl
      | some y => simp only [Option.bind_some, Option.map_some, Option.map_map, Function.comp_def]
  · intro c hc
    rw [show codes ":\n\t.ascii \"" = 58 :: codes "\n\t.ascii \"" by decide] at hc
    simp only [List.cons_append, List.head?_cons, Option.some.injEq] at hc
    omega

theorem readBody_end {n : Nat} {r : List Nat} {l : List (Nat × List Nat)} (h : readItems n r = some l) : readBody n (codes "\\0\"\n" ++ r) = some ([0], l) := by
  unfold readBody
  rw [ascii_end, Option.bind_some]
  simp only
  rw [skip_self, Option.bind_some, h]
  rfl

/-- The text of a string is read back as its pieces. -/
theorem read_bytes (amount i : Nat) (s : List Nat) : ∀ k, printable s = true → i + (k + (pieces s).2.length) * amount < 18446744073709551616 →
    ∃ t, bytesText amount i k s = some t ∧ (pieces s).2.length < t.length ∧ ∀ n r l, (∀ m, n ≤ m → readItems m r = some l) → ∀ m, n + (pieces s).2.length ≤ m →
      readBody m (t ++ r) = some ((pieces s).1 ++ [0], items amount i (k + 1) (pieces s).2 ++ l) := by
  induction s using string_ind with
  | h0 =>
    intro k _ _
    refine ⟨_, rfl, by decide, fun n r l h m hm => ?_⟩
    exact readBody_end (h m (by simpa [pieces] using hm))
  | h1 => intro k h; exact absurd h (by decide)
  | h2 c r ih =>
    intro k h hb
    simp only [printable, Bool.and_eq_true, decide_eq_true_eq, ne_eq] at h
    simp only [pieces, List.length_cons] at hb
    have hb' : i + (k + 1 + (pieces r).2.length) * amount < 18446744073709551616 := by rw [show k + 1 + (pieces r).2.length = k + ((pieces r).2.length + 1) by omega]; exact hb
    obtain ⟨t, e, hl, ht⟩ := ih (k + 1) h.2 hb'
    have hlab : i + (k + 1) * amount < 18446744073709551616 := by
      have : (k + 1) * amount ≤ (k + 1 + (pieces r).2.length) * amount := Nat.mul_le_mul_right _ (by omega)
      omega
    refine ⟨_, by rw [bytesText, e]; rfl, ?_, fun n q l hq m hm => ?_⟩
    · simp only [pieces, List.length_cons, List.length_append]
      omega
    · simp only [pieces, List.length_cons] at hm
      obtain ⟨m', rfl⟩ : ∃ m', m = m' + 1 := ⟨m - 1, by omega⟩
      have h1 := ht n q l hq m' (by omega)
      have h2 : readItems (m' + 1) (begins (i + (k + 1) * amount) ++ (t ++ q)) = some ((i + (k + 1) * amount, (pieces r).1 ++ [0]) :: (items amount i (k + 1 + 1) (pieces r).2 ++ l)) := by
        rw [readItems_begins hlab, h1]
        rfl
      have h3 := readBody_end h2
      have hp : safe 37 = true := by decide
      have c1 := readBody_char h.1.1 (m' + 1) (codes "\\0\"\n" ++ (begins (i + (k + 1) * amount) ++ (t ++ q)))
      rw [if_neg h.1.2, h3] at c1
      have c2 := readBody_char hp (m' + 1) ([c] ++ (codes "\\0\"\n" ++ (begins (i + (k + 1) * amount) ++ (t ++ q))))
      rw [if_neg (by decide), c1] at c2
      simp only [List.cons_append, List.nil_append, List.append_assoc, Option.map_some] at c2 ⊢
      rw [c2]
      rfl
  | h3 c r hc ih =>
    intro k h hb
    rw [printable_other hc, Bool.and_eq_true] at h
    rw [pieces_other hc] at hb ⊢
    obtain ⟨t, e, hl, ht⟩ := ih k h.2 hb
    refine ⟨_, by rw [bytes_other hc, e]; rfl, ?_, fun n q l hq m hm => ?_⟩
    · simp only [List.length_append]; omega
    · rw [List.append_assoc, readBody_char h.1, ht n q l hq m hm]
      rfl

theorem pieces_length (s : List Nat) : (pieces s).2.length ≤ s.length := by
  induction s using string_ind with
  | h0 => exact Nat.le_refl _
  | h1 => decide
  | h2 c r ih => simp only [pieces, List.length_cons]; omega
  | h3 c r hc ih => rw [pieces_other hc]; simp only [List.length_cons]; omega

theorem items_append_nil (amount i k : Nat) (p : List Nat) (ps : List (List Nat)) : items amount i k (p :: ps) = (i + k * amount, p ++ [0]) :: items amount i (k + 1) ps := rfl

theorem read_strings (amount : Nat) : ∀ (l : List (List Nat)) (i : Nat), (∀ s ∈ l, printable s = true) → (∀ s ∈ l, (s.length + 1) * amount ≤ 18446744073709551616) → i + l.length ≤ amount →
    ∃ t, stringsFrom amount i l = some t ∧ (dataFrom amount i l).length < t.length ∧ ∀ m, (dataFrom amount i l).length < m → readItems m t = some (dataFrom amount i l)
  | [], i, _, _, _ => by
    refine ⟨_, rfl, by rw [dataFrom]; decide, fun m hm => ?_⟩
    obtain ⟨m', rfl⟩ : ∃ m', m = m' + 1 := ⟨m - 1, by simp only [dataFrom, List.length_nil] at hm; omega⟩
    rw [readItems, if_pos (show codes "\t.text\n\t.align 2\n\n" = chars "\t.text\n\t.align 2\n\n" from rfl)]
    rfl
  | s :: l, i, hs, hb, hi => by
    simp only [List.length_cons] at hi
    obtain ⟨u, eu, lu, hu⟩ := read_strings amount l (i + 1) (fun x hx => hs x (by simp [hx])) (fun x hx => hb x (by simp [hx])) (by omega)
    have hbs := hb s (by simp)
    have hp := pieces_length s
    have hm1 : (0 + (pieces s).2.length) * amount + amount ≤ (s.length + 1) * amount := by
      rw [← Nat.succ_mul]
      exact Nat.mul_le_mul_right _ (by omega)
    obtain ⟨t, et, lt, ht⟩ := read_bytes amount i s 0 (hs s (by simp)) (by omega)
    have hlen : (items amount i (0 + 1) (pieces s).2).length = (pieces s).2.length := by
      generalize 0 + 1 = k
      induction (pieces s).2 generalizing k with
      | nil => rfl
      | cons p ps ih => simp only [items, List.length_cons, ih]
    refine ⟨_, by rw [stringsFrom, et, Option.bind_some, eu]; rfl, ?_, fun m hm => ?_⟩
    · simp only [dataFrom, items, List.length_append, List.length_cons, hlen]
      omega
    · simp only [dataFrom, items, List.length_append, List.length_cons, hlen] at hm
      obtain ⟨m', rfl⟩ : ∃ m', m = m' + 1 := ⟨m - 1, by omega⟩
      rw [readItems_begins (by omega), ht ((dataFrom amount (i + 1) l).length + 1) u _ (fun q hq => hu q (by omega)) m' (by omega)]
      simp only [dataFrom, items, Option.map_some, Nat.zero_mul, Nat.add_zero, List.cons_append]

theorem read_data (l : List (List Nat)) (hs : ∀ s ∈ l, printable s = true) (hb : ∀ s ∈ l, (s.length + 1) * l.length ≤ 18446744073709551616) :
    ∃ t, stringsText l = some t ∧ readData t = some (dataFrom l.length 0 l) := by
  obtain ⟨t, e, h1, h2⟩ := read_strings l.length l 0 hs hb (by omega)
  refine ⟨_, by rw [stringsText, e]; rfl, ?_⟩
  rw [readData, skip_self, Option.bind_some]
  exact h2 _ h1

/-! ## The labels -/

theorem mem_items {amount i : Nat} {x : Nat × List Nat} : ∀ {k : Nat} {ps : List (List Nat)}, x ∈ items amount i k ps ↔ ∃ j p, ps[j]? = some p ∧ x = (i + (k + j) * amount, p ++ [0])
  | k, [] => by simp [items]
  | k, p :: ps => by
    simp only [items, List.mem_cons, mem_items]
    constructor
    · rintro (rfl | ⟨j, q, h, rfl⟩)
      · exact ⟨0, p, rfl, rfl⟩
      · exact ⟨j + 1, q, by simpa using h, by rw [show k + 1 + j = k + (j + 1) by omega]⟩
    · rintro ⟨j, q, h, rfl⟩
      cases j with
      | zero =>
        obtain rfl : p = q := by simpa using h
        exact .inl rfl
      | succ j => exact .inr ⟨j, q, by simpa using h, by rw [show k + 1 + j = k + (j + 1) by omega]⟩

theorem mem_data {amount : Nat} {x : Nat × List Nat} : ∀ {i : Nat} {l : List (List Nat)}, x ∈ dataFrom amount i l ↔
    ∃ j s, l[j]? = some s ∧ x ∈ items amount (i + j) 0 ((pieces s).1 :: (pieces s).2)
  | i, [] => by simp [dataFrom]
  | i, s :: l => by
    simp only [dataFrom, List.mem_append, mem_data]
    constructor
    · rintro (h | ⟨j, q, h, h'⟩)
      · exact ⟨0, s, rfl, h⟩
      · exact ⟨j + 1, q, by simpa using h, by rw [show i + (j + 1) = i + 1 + j by omega]; exact h'⟩
    · rintro ⟨j, q, h, h'⟩
      cases j with
      | zero =>
        obtain rfl : s = q := by simpa using h
        exact .inl h'
      | succ j => exact .inr ⟨j, q, by simpa using h, by rw [show i + 1 + j = i + (j + 1) by omega]; exact h'⟩

theorem label_mod {amount i k : Nat} {ps : List (List Nat)} (hi : i < amount) : ∀ x ∈ items amount i k ps, x.1 % amount = i := by
  intro x hx
  obtain ⟨j, p, _, rfl⟩ := mem_items.1 hx
  simp only [Nat.add_mul_mod_self_right]
  exact Nat.mod_eq_of_lt hi

theorem items_nodup {amount i : Nat} (hi : i < amount) : ∀ (ps : List (List Nat)) (k : Nat), ((items amount i k ps).map Prod.fst).Nodup
  | [], _ => List.nodup_nil
  | p :: ps, k => by
    simp only [items, List.map_cons, List.nodup_cons]
    refine ⟨fun hm => ?_, items_nodup hi ps (k + 1)⟩
    obtain ⟨x, hx, e⟩ := List.mem_map.1 hm
    obtain ⟨j, q, _, rfl⟩ := mem_items.1 hx
    simp only at e
    have : k * amount < (k + 1 + j) * amount := Nat.mul_lt_mul_of_pos_right (by omega) (by omega)
    omega

theorem data_nodup {amount : Nat} : ∀ (l : List (List Nat)) (i : Nat), i + l.length ≤ amount → ((dataFrom amount i l).map Prod.fst).Nodup
  | [], _, _ => List.nodup_nil
  | s :: l, i, h => by
    simp only [List.length_cons] at h
    simp only [dataFrom, List.map_append]
    refine List.nodup_append.2 ⟨items_nodup (by omega) _ _, data_nodup l (i + 1) (by omega), ?_⟩
    intro a ha b hb e
    subst e
    obtain ⟨x, hx, rfl⟩ := List.mem_map.1 ha
    obtain ⟨y, hy, e⟩ := List.mem_map.1 hb
    obtain ⟨j, q, hj, hy'⟩ := mem_data.1 hy
    have hjl : j < l.length := (List.getElem?_eq_some_iff.1 hj).1
    have h1 := label_mod (show i < amount by omega) x hx
    have h2 := label_mod (show i + 1 + j < amount by omega) y hy'
    rw [e, h1] at h2
    omega

theorem string_at {n : Nat} {p : List Nat} (hp : 0 ∉ p) : ∀ (data : List (Nat × List Nat)), (data.map Prod.fst).Nodup → (n, p ++ [0]) ∈ data → stringAt data n = some p
  | [], _, h => by cases h
  | (m, b) :: data, hn, h => by
    simp only [List.map_cons, List.nodup_cons] at hn
    by_cases hm : m = n
    · subst hm
      have hb : b = p ++ [0] := by
        rcases List.mem_cons.1 h with h | h
        · exact (Prod.mk.inj h).2.symm
        · exact absurd (List.mem_map.2 ⟨_, h, rfl⟩) hn.1
      subst hb
      unfold stringAt
      simp only [List.dropWhile, ne_eq, not_true, decide_false]
      rw [if_pos (by simp)]
      have := (LlvmText.takeWhile_all (p := fun c => decide (c ≠ 0)) (a := p) (r := 0 :: data.flatMap Prod.snd) (fun c hc => by
        simp only [ne_eq, decide_eq_true_eq]
        intro e
        exact hp (e ▸ hc)) (fun c hc => by
        simp only [List.head?_cons, Option.some.injEq] at hc
        simp [← hc])).1
      simpa using this
    · have h' : (n, p ++ [0]) ∈ data := by
        rcases List.mem_cons.1 h with h | h
        · exact absurd (Prod.mk.inj h).1.symm hm
        · exact h
      have := string_at hp data hn.2 h'
      unfold stringAt at this ⊢
      simp only [List.dropWhile, ne_eq, hm, not_false_eq_true, decide_true] at this ⊢
      exact this

/-! ## The pieces -/

theorem pieces_join (s : List Nat) : (pieces s).1 ++ (pieces s).2.flatten = s := by
  induction s using string_ind with
  | h0 => rfl
  | h1 => rfl
  | h2 c r ih => simp only [pieces, List.flatten_cons, ih]; rfl
  | h3 c r hc ih => rw [pieces_other hc]; simp only [List.cons_append, ih]

theorem printable_zero (s : List Nat) : printable s = true → 0 ∉ s := by
  induction s using string_ind with
  | h0 => simp
  | h1 => decide
  | h2 c r ih =>
    intro h
    simp only [printable, Bool.and_eq_true] at h
    have h1 := (safe_iff.1 h.1.1).1
    have h2 := ih h.2
    simp only [List.mem_cons, not_or]
    exact ⟨by decide, fun e => h1 e.symm, h2⟩
  | h3 c r hc ih =>
    intro h
    rw [printable_other hc, Bool.and_eq_true] at h
    simp only [List.mem_cons, not_or]
    exact ⟨fun e => (safe_iff.1 h.1).1 e.symm, ih h.2⟩

theorem piece_zero {s : List Nat} (h : printable s = true) : ∀ p ∈ (pieces s).1 :: (pieces s).2, 0 ∉ p := by
  intro p hp hz
  have := printable_zero s h
  rw [← pieces_join s] at this
  rcases List.mem_cons.1 hp with rfl | hp
  · exact this (List.mem_append_left _ hz)
  · exact this (List.mem_append_right _ (List.mem_flatten.2 ⟨p, hp, hz⟩))

theorem items_filter_self {amount i : Nat} (hi : i < amount) (k : Nat) (ps : List (List Nat)) :
    ((items amount i k ps).filter fun x => decide (x.1 % amount = i)).flatMap (fun x => x.2.dropLast) = ps.flatten := by
  rw [List.filter_eq_self.2 fun x hx => by simpa using label_mod hi x hx]
  induction ps generalizing k with
  | nil => rfl
  | cons p ps ih => simp only [items, List.flatMap_cons, List.dropLast_concat, ih, List.flatten_cons]

theorem data_filter {amount : Nat} : ∀ (l : List (List Nat)) (i : Nat), i + l.length ≤ amount → ∀ j s, l[j]? = some s →
    ((dataFrom amount i l).filter fun x => decide (x.1 % amount = i + j)).flatMap (fun x => x.2.dropLast) = s
  | [], _, _, j, s, h => by simp at h
  | q :: l, i, h, j, s, hj => by
    simp only [List.length_cons] at h
    simp only [dataFrom, List.filter_append, List.flatMap_append]
    cases j with
    | zero =>
      obtain rfl : q = s := by simpa using hj
      rw [Nat.add_zero, items_filter_self (show i < amount by omega), List.filter_eq_nil_iff.2]
      · simp only [List.flatten_cons, List.flatMap_nil, List.append_nil]
        exact pieces_join q
      · intro x hx
        obtain ⟨j, t, hj, hx'⟩ := mem_data.1 hx
        have hjl : j < l.length := (List.getElem?_eq_some_iff.1 hj).1
        have := label_mod (show i + 1 + j < amount by omega) x hx'
        simp only [decide_eq_true_eq]
        omega
    | succ j =>
      have ih := data_filter (amount := amount) l (i + 1) (by omega) j s (by simpa using hj)
      rw [show i + 1 + j = i + (j + 1) by omega] at ih
      rw [ih, List.filter_eq_nil_iff.2]
      · rfl
      · intro x hx
        have := label_mod (show i < amount by omega) x hx
        simp only [decide_eq_true_eq]
        omega

/-! ## `printf` -/

/-- `printf` of pieces, each with an argument, and of the last one without. -/
def printPieces {α : Type} (render : Nat → α → List Nat) : List Nat → List (List Nat) → List α → Option (List Nat)
  | p, _, [] => printf render p []
  | p, ps, a :: args => (printf render p [a]).bind fun x => match ps with
    | [] => none
    | q :: qs => (printPieces render q qs args).map fun t => x ++ t

theorem print_pieces {α : Type} (render : Nat → α → List Nat) (s : List Nat) : ∀ args : List α, asks s = some args.length →
    printPieces render (pieces s).1 (pieces s).2 args = printf render s args ∧ (pieces s).2.length = args.length := by
  induction s using string_ind with
  | h0 =>
    intro args h
    obtain rfl : args = [] := List.eq_nil_of_length_eq_zero (Option.some.inj h).symm
    exact ⟨rfl, rfl⟩
  | h1 => intro args h; cases h
  | h2 c r ih =>
    intro args h
    rw [asks] at h
    split at h
    · cases h
    · rename_i hc
      obtain ⟨n, hn, e⟩ := Option.map_eq_some_iff.1 h
      cases args with
      | nil => simp at e
      | cons a args =>
        simp only [List.length_cons, Nat.add_right_cancel_iff] at e
        subst e
        have hc37 : ¬ c = 37 := fun e => hc (.inl e)
        have ih' := ih args hn
        refine ⟨?_, by simp only [pieces, List.length_cons, ih'.2]⟩
        simp only [pieces, printPieces, printf, if_neg hc37, Option.map_some, Option.bind_some, List.append_nil, ih'.1]
  | h3 c r hc ih =>
    intro args h
    rw [asks_other hc] at h
    have ih' := ih args h
    rw [pieces_other hc, printf_other render hc, ← ih'.1]
    refine ⟨?_, ih'.2⟩
    cases args with
    | nil => simp only [printPieces]; rw [printf_other render hc]
    | cons a args =>
      simp only [printPieces]
      rw [printf_other render hc]
      cases printf render (pieces r).1 [a] with
      | none => rfl
      | some x =>
        simp only [Option.map_some, Option.bind_some]
        cases (pieces r).2 with
        | nil => rfl
        | cons q qs => simp only [Option.map_map, Function.comp_def, List.cons_append]

theorem written_pieces {α : Type} (render : Nat → α → List Nat) (noise : α → List Nat) (data : List (Nat × List Nat)) (index amount : Nat) :
    ∀ (args : List α) (k : Nat) (p : List Nat) (ps : List (List Nat)), ps.length = args.length →
      (∀ j q, (p :: ps)[j]? = some q → stringAt data (toSize (index + (k + j) * amount)) = some q) → (∀ a ∈ args.tail, noise a = []) →
      written render noise data (printfFrom index amount k args) = (printPieces render p ps args).map fun t => args.flatMap noise ++ t
  | [], k, p, ps, _, hd, _ => by
    have h := hd 0 p rfl
    rw [Nat.add_zero] at h
    simp only [printfFrom, written, printPieces, h, Option.bind_some, Option.toList, Option.map_some, List.append_nil, List.flatMap_nil, List.nil_append]
    cases printf render p [] <;> rfl
  | a :: args, k, p, ps, hl, hd, hn => by
    have h := hd 0 p rfl
    rw [Nat.add_zero] at h
    rw [List.tail_cons] at hn
    have hq : args.flatMap noise = [] := List.flatMap_eq_nil_iff.2 hn
    cases ps with
    | nil => simp at hl
    | cons q qs =>
      simp only [List.length_cons, Nat.add_right_cancel_iff] at hl
      have ih := written_pieces render noise data index amount args (k + 1) q qs hl (fun j t ht => by
        rw [show k + 1 + j = k + (j + 1) by omega]
        exact hd (j + 1) t (by simpa using ht)) fun x hx => hn x (List.mem_of_mem_tail hx)
      simp only [hq, List.nil_append, Option.map_id'] at ih
      simp only [printfFrom, written, printPieces, h, Option.bind_some, Option.toList, ih, List.flatMap_cons, hq, List.append_nil]

end RuC.MipsStrings
