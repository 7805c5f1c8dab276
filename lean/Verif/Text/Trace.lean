import Verif.Text.Main

/-!
# Lemmas about the text between the directives: the lines of what is printed
-/

namespace RuC.Text
open RuC RuC.Utf8 RuC.Io RuC.Locator

/-- What is printed so far: whole lines and the beginning of a line. -/
structure St where
  b : List Line
  col : List Nat

def St.flat (s : St) : List Nat := body s.b ++ s.col

def St.push (s : St) (c : Nat) : St := if c = 10 then ⟨s.b ++ [.code s.col], []⟩ else ⟨s.b, s.col ++ [c]⟩

def St.adds : St → List Nat → St
  | s, [] => s
  | s, c :: cs => (s.push c).adds cs

/-- A mark in a line of its own, with blanks behind it. -/
def St.mid (s : St) (l : Line) (pad : List Nat) : St := ⟨s.b ++ [.code s.col, l], pad⟩

/-- The same at the beginning of a line. -/
def St.top (s : St) (l : Line) (pad : List Nat) : St := ⟨s.b ++ [l], pad⟩

theorem flat_push (s : St) (c : Nat) : (s.push c).flat = s.flat ++ [c] := by
  unfold St.push St.flat
  split
  · rename_i h; subst h; simp [body_snoc, Line.chars]
  · simp

theorem flat_adds {cs : List Nat} : ∀ {s : St}, (s.adds cs).flat = s.flat ++ cs := by
  induction cs with
  | nil => intro s; simp [St.adds]
  | cons c cs ih => intro s; rw [St.adds, ih, flat_push]; simp

theorem flat_mid (s : St) (l : Line) (pad : List Nat) : (s.mid l pad).flat = s.flat ++ 10 :: (l.chars ++ 10 :: pad) := by
  simp [St.mid, St.flat, body, Line.chars]

theorem flat_top {s : St} (h : s.col = []) (l : Line) (pad : List Nat) : (s.top l pad).flat = s.flat ++ (l.chars ++ 10 :: pad) := by
  simp [St.top, St.flat, body, h]

theorem adds_append {a b : List Nat} : ∀ {s : St}, s.adds (a ++ b) = (s.adds a).adds b := by
  induction a with
  | nil => intro s; rfl
  | cons c a ih => intro s; rw [List.cons_append, St.adds, ih, St.adds]

theorem adds_same {cs : List Nat} (h : 10 ∉ cs) : ∀ {s : St}, s.adds cs = ⟨s.b, s.col ++ cs⟩ := by
  induction cs with
  | nil => intro s; simp [St.adds]
  | cons c cs ih =>
    intro s
    rw [St.adds, ih (fun hm => h (by simp [hm]))]
    unfold St.push
    rw [if_neg (by intro he; exact h (by simp [he]))]
    simp

/-- Lines of code are added, and the last line is the one behind the last end of line. -/
theorem adds_break {cs : List Nat} : ∀ {s : St}, 10 ∈ cs → ∃ ms : List (List Nat), ∃ m0, s.adds cs = ⟨s.b ++ .code (s.col ++ m0) :: ms.map .code, lastLine cs⟩ ∧ ms.length + 1 = cs.count 10 := by
  induction cs with
  | nil => intro s h; simp at h
  | cons c cs ih =>
    intro s h
    rw [St.adds]
    unfold St.push
    by_cases hc : c = 10
    · subst hc
      rw [if_pos rfl]
      by_cases h10 : 10 ∈ cs
      · obtain ⟨ms, m0, h1, h2⟩ := ih (s := ⟨s.b ++ [.code s.col], []⟩) h10
        refine ⟨([] ++ m0) :: ms, [], ?_, ?_⟩
        · rw [h1, lastLine_cons_mem h10]
          simp
        · simp at h2 ⊢
          omega
      · refine ⟨[], [], ?_, ?_⟩
        · rw [adds_same h10, show (10 : Nat) :: cs = [] ++ 10 :: cs from rfl, lastLine_break h10]
          simp
        · simp [List.count_eq_zero.2 h10]
    · rw [if_neg hc]
      have h10 : 10 ∈ cs := by
        rcases List.mem_cons.1 h with h | h
        · exact absurd h.symm hc
        · exact h
      obtain ⟨ms, m0, h1, h2⟩ := ih (s := ⟨s.b, s.col ++ [c]⟩) h10
      refine ⟨ms, c :: m0, ?_, ?_⟩
      · rw [h1, lastLine_cons_mem h10]
        simp
      · rw [List.count_cons_of_ne hc, h2]

/-! ## Lines that come out right -/

/-- Lines whose place is the line `n` of the file. -/
def At (own : List Nat) (b : List Line) (n : Nat) : Prop := ∀ symbol code d first, (place symbol code b.reverse d first).line = n + d ∧
  (place symbol code b.reverse d first).path = some own ∧ (place symbol code b.reverse d first).symbol = symbol

theorem At.code {own : List Nat} {b : List Line} {n : Nat} (h : At own b n) (cs : List Nat) : At own (b ++ [.code cs]) (n + 1) := by
  intro symbol code d first
  rw [List.reverse_append, List.reverse_singleton, List.singleton_append, place]
  obtain ⟨h1, h2, h3⟩ := h symbol code (d + 1) cs
  exact ⟨by omega, h2, h3⟩

theorem At.codes {own : List Nat} {ms : List (List Nat)} : ∀ {b : List Line} {n : Nat}, At own b n → At own (b ++ ms.map .code) (n + ms.length) := by
  induction ms with
  | nil => intro b n h; simpa using h
  | cons m ms ih =>
    intro b n h
    have := ih (h.code m)
    rw [show n + (m :: ms).length = n + 1 + ms.length by simp; omega, List.map_cons, ← List.singleton_append, ← List.append_assoc]
    exact this

theorem at_usual {own : List Nat} (b : List Line) (n : Nat) : At own (b ++ [.usual n own]) n := by
  intro symbol code d first
  rw [List.reverse_append, List.reverse_singleton, List.singleton_append, place]
  exact ⟨rfl, rfl, rfl⟩

theorem at_end {own : List Nat} {b : List Line} {n m : Nat} {cs : List Nat} (h : opened b.reverse = some (m, own, cs)) : At own (b ++ [.end n]) n := by
  intro symbol code d first
  rw [List.reverse_append, List.reverse_singleton, List.singleton_append, place, h]
  exact ⟨rfl, rfl, rfl⟩

theorem opened_codes {b : List Line} (ms : List (List Nat)) : opened (b ++ ms.map Line.code).reverse = opened b.reverse := by
  rw [List.reverse_append, opened_mids]

theorem paired_snoc {b : List Line} {l : Line} (h : Paired b) (hl : ∀ n, l = .end n → ∃ m p cs, opened b.reverse = some (m, p, cs) ∧ m ≤ n) : Paired (b ++ [l]) := by
  intro ls n rs he
  by_cases hr : rs = []
  · subst hr
    have := List.append_inj' he rfl
    obtain ⟨rfl, h2⟩ := this
    cases h2
    exact hl n rfl
  · obtain ⟨init, x, rfl⟩ : ∃ init l, rs = init ++ [l] := ⟨rs.dropLast, rs.getLast hr, (List.dropLast_concat_getLast hr).symm⟩
    rw [← List.cons_append, ← List.append_assoc] at he
    have := List.append_inj' he rfl
    exact h ls n init this.1

theorem paired_codes {ms : List (List Nat)} : ∀ {b : List Line}, Paired b → Paired (b ++ ms.map .code) := by
  induction ms with
  | nil => intro b h; simpa using h
  | cons m ms ih =>
    intro b h
    have := ih (paired_snoc (l := .code m) h (by intro n he; cases he))
    rw [List.map_cons, ← List.singleton_append, ← List.append_assoc]
    exact this

/-- Lines that are valid. -/
structure Neat (s : St) : Prop where
  valid : ∀ l ∈ s.b, l.Valid
  inner : ∀ c ∈ s.col, Inner c
  head : ∀ r, s.col ≠ 35 :: r

theorem Neat.code {s : St} (h : Neat s) : (Line.code s.col).Valid := by
  refine ⟨h.inner, ?_⟩
  rintro ⟨r, hr⟩
  exact h.head (108 :: 105 :: 110 :: 101 :: 32 :: r) hr.symm

theorem Neat.push {s : St} {c : Nat} (h : Neat s) (hc : c < 0x200000 ∧ c ≠ 0) (h35 : s.col = [] → c ≠ 35) : Neat (s.push c) := by
  unfold St.push
  split
  · refine ⟨?_, by simp, by simp⟩
    intro l hl
    rcases List.mem_append.1 hl with hl | hl
    · exact h.valid l hl
    · rw [List.mem_singleton.1 hl]
      exact h.code
  · rename_i h10
    refine ⟨h.valid, ?_, ?_⟩
    · intro d hd
      rcases List.mem_append.1 hd with hd | hd
      · exact h.inner d hd
      · rw [List.mem_singleton.1 hd]
        exact ⟨hc.1, hc.2, h10⟩
    · intro r hr
      cases hcol : s.col with
      | nil =>
        rw [hcol] at hr
        cases hr
        exact h35 hcol rfl
      | cons d m =>
        rw [hcol] at hr
        cases hr
        exact h.head m hcol

theorem Neat.adds {cs : List Nat} : ∀ {s : St}, Neat s → (∀ c ∈ cs, c < 0x200000 ∧ c ≠ 0) → (s.col = [] → ∀ r, cs ≠ 35 :: r) → (∀ a r, cs ≠ a ++ 10 :: 35 :: r) → Neat (s.adds cs) := by
  induction cs with
  | nil => intro s h _ _ _; exact h
  | cons c cs ih =>
    intro s h h1 h2 h3
    rw [St.adds]
    refine ih (h.push (h1 c (by simp)) (fun he hc => h2 he cs (by rw [hc]))) (fun d hd => h1 d (by simp [hd])) ?_ (fun a r he => h3 (c :: a) r (by rw [he]; rfl))
    intro hcol r hr
    unfold St.push at hcol
    split at hcol
    · rename_i h10
      exact h3 [] r (by rw [hr, h10]; rfl)
    · simp at hcol

theorem Neat.addsClean {cs : List Nat} {s : St} (h : Neat s) (hc : Clean cs) : Neat (s.adds cs) := h.adds hc.1 (fun _ => hc.2.1) hc.2.2

/-- In front of a mark. -/
theorem Neat.mid {s : St} (h : Neat s) {l : Line} {pad : List Nat} (hl : l.Valid) (hp : ∀ c ∈ pad, c = 32 ∨ c = 9) : Neat (s.mid l pad) := by
  refine ⟨?_, ?_, ?_⟩
  · intro m hm
    simp only [St.mid, List.mem_append, List.mem_cons, List.not_mem_nil, or_false] at hm
    rcases hm with hm | rfl | rfl
    · exact h.valid m hm
    · exact h.code
    · exact hl
  · intro c hc
    rcases hp c hc with rfl | rfl <;> decide
  · intro r hr
    have : (35 : Nat) ∈ pad := by
      have hr' : pad = 35 :: r := hr
      rw [hr']
      simp
    have := hp 35 this
    omega

theorem Neat.top {s : St} (h : Neat s) {l : Line} {pad : List Nat} (hl : l.Valid) (hp : ∀ c ∈ pad, c = 32 ∨ c = 9) : Neat (s.top l pad) := by
  refine ⟨?_, ?_, ?_⟩
  · intro m hm
    simp only [St.top, List.mem_append, List.mem_cons, List.not_mem_nil, or_false] at hm
    rcases hm with hm | rfl
    · exact h.valid m hm
    · exact hl
  · intro c hc
    rcases hp c hc with rfl | rfl <;> decide
  · intro r hr
    have : (35 : Nat) ∈ pad := by
      have hr' : pad = 35 :: r := hr
      rw [hr']
      simp
    have := hp 35 this
    omega

/-! ## What is printed for lines, as lines -/

def padOf (t : List Nat) (p : Nat) : List Nat := (lastLine (t.take p)).map blankFor

def num (t : List Nat) (p : Nat) : Nat := lineNo (t.take p)

theorem padOf_blank (t : List Nat) (p : Nat) : ∀ c ∈ padOf t p, c = 32 ∨ c = 9 := by
  intro c hc
  simp only [padOf, List.mem_map] at hc
  obtain ⟨x, _, rfl⟩ := hc
  unfold blankFor
  split
  · exact .inr rfl
  · exact .inl rfl

theorem padOf_length (t : List Nat) (p : Nat) : (padOf t p).length = (lastLine (t.take p)).length := by simp [padOf]

/-- The mark behind a replacement. -/
def St.close (t : List Nat) (p : Nat) (pend : Bool) (s : St) : St := if pend = true then s.mid (.end (num t p)) (padOf t p) else s

/-- The mark in front of a replacement. -/
def St.open' (own t : List Nat) (p : Nat) (s : St) : St := s.mid (.begin (num t p) own (wholeLine t p)) (padOf t p)

/-- The mark in front of a line. -/
def St.begin (own t : List Nat) (p : Nat) (need : Bool) (s : St) : St := if need = true then s.top (.usual (num t p) own) (padOf t p) else s

def lineSt (own t : List Nat) (val : List Nat → List Nat) : Nat → Bool → St → List Piece → St
  | _, _, s, [] => s
  | p, pend, s, .gap g :: l => lineSt own t val (p + g.raw.length) pend (s.adds g.shown) l
  | p, pend, s, .call w br :: l => lineSt own t val (p + (Piece.call w br).raw.length) true (((s.close t p pend).open' own t p).adds (val w)) l
  | p, pend, s, x :: l => lineSt own t val (p + x.raw.length) false ((s.close t p pend).adds x.raw) l

theorem flat_close (t : List Nat) (p : Nat) (pend : Bool) (s : St) (own : List Nat) :
    (s.close t p pend).flat = s.flat ++ (if pend = true then 10 :: (marksOf own t).behind p else []) := by
  unfold St.close
  split
  · rw [flat_mid]; rfl
  · simp

theorem flat_open (own t : List Nat) (p : Nat) (s : St) : (s.open' own t p).flat = s.flat ++ 10 :: (marksOf own t).before p := by
  unfold St.open'
  rw [flat_mid]
  rfl

theorem flat_begin {own t : List Nat} {p : Nat} {need : Bool} {s : St} (h : s.col = []) :
    (s.begin own t p need).flat = s.flat ++ (if need = true then (marksOf own t).usual p else []) := by
  unfold St.begin
  split
  · rw [flat_top h]; rfl
  · simp

theorem lineSt_solid {own t : List Nat} {val : List Nat → List Nat} {x : Piece} (hs : x.solid = true) (hc : ∀ w br, x ≠ .call w br) (l : List Piece) (p : Nat) (pend : Bool) (s : St) :
    lineSt own t val p pend s (x :: l) = lineSt own t val (p + x.raw.length) false ((s.close t p pend).adds x.raw) l := by
  cases x with
  | gap g => cases hs
  | call w br => exact absurd rfl (hc w br)
  | _ => simp only [lineSt]

theorem lineOut_solid {m : Bool} {mk : Marks} {val : List Nat → List Nat} {x : Piece} (hs : x.solid = true) (hc : ∀ w br, x ≠ .call w br) (l : List Piece) (p : Nat) (pend : Bool) :
    lineOut m mk val p pend (x :: l) = (if pend = true then 10 :: mk.behind p else []) ++ x.raw ++ lineOut m mk val (p + x.raw.length) false l := by
  cases x with
  | gap g => cases hs
  | call w br => exact absurd rfl (hc w br)
  | _ => simp only [lineOut]

theorem lineEnd_word {m : Bool} {x : Piece} (hs : x.solid = true) (hc : ∀ w br, x ≠ .call w br) (l : List Piece) (pend : Bool) : lineEnd m pend (x :: l) = lineEnd m false l := by
  cases x with
  | gap g => cases hs
  | call w br => exact absurd rfl (hc w br)
  | _ => simp only [lineEnd]

/-- A gap, a call, or another piece. -/
theorem piece_cases (x : Piece) : (∃ g, x = .gap g) ∨ (∃ w br, x = .call w br) ∨ x.solid = true ∧ ∀ w br, x ≠ .call w br := by
  cases x with
  | gap g => exact .inl ⟨g, rfl⟩
  | call w br => exact .inr (.inl ⟨w, br, rfl⟩)
  | _ => exact .inr (.inr ⟨rfl, by intro w br h; cases h⟩)

theorem flat_lineSt {own t : List Nat} {val : List Nat → List Nat} {l : List Piece} : ∀ {p : Nat} {pend : Bool} {s : St},
    (lineSt own t val p pend s l).flat = s.flat ++ lineOut true (marksOf own t) val p pend l := by
  induction l with
  | nil => intro p pend s; simp [lineSt, lineOut]
  | cons x l ih =>
    intro p pend s
    rcases piece_cases x with ⟨g, rfl⟩ | ⟨w, br, rfl⟩ | ⟨hs, hc⟩
    · rw [lineSt, ih, flat_adds, lineOut]; simp
    · rw [lineSt, ih, flat_adds, flat_open, flat_close t p pend s own, lineOut]; simp
    · rw [lineSt_solid hs hc, ih, flat_adds, flat_close t p pend s own, lineOut_solid hs hc]; simp

theorem lineSt_append {own t : List Nat} {val : List Nat → List Nat} {a c : List Piece} : ∀ {p : Nat} {pend : Bool} {s : St},
    lineSt own t val p pend s (a ++ c) = lineSt own t val (p + (raws a).length) (lineEnd true pend a) (lineSt own t val p pend s a) c := by
  induction a with
  | nil => intro p pend s; rfl
  | cons x a ih =>
    intro p pend s
    rw [List.cons_append, raws_cons, List.length_append, ← Nat.add_assoc]
    rcases piece_cases x with ⟨g, rfl⟩ | ⟨w, br, rfl⟩ | ⟨hs, hc⟩
    · rw [lineSt, ih, lineSt, lineEnd]; rfl
    · rw [lineSt, ih, lineSt, lineEnd]
    · rw [lineSt_solid hs hc, ih, lineSt_solid hs hc, lineEnd_word hs hc]

/-! ## The lines are right -/

theorem num_add {t raw r : List Nat} {p : Nat} (h : t.drop p = raw ++ r) : num t (p + raw.length) = num t p + raw.count 10 := by
  unfold num lineNo
  rw [take_add h, List.count_append]
  omega

theorem last_add {t raw r : List Nat} {p : Nat} (h : t.drop p = raw ++ r) : lastLine (t.take (p + raw.length)) = if 10 ∈ raw then lastLine raw else lastLine (t.take p) ++ raw := by
  rw [take_add h]
  split
  · rename_i h10
    exact lastLine_append h10
  · rename_i h10
    by_cases ht : 10 ∈ t.take p
    · obtain ⟨x, y, hy, h2⟩ : ∃ x y, t.take p = x ++ 10 :: y ∧ 10 ∉ y := by
        obtain ⟨x, y, he, hx⟩ := split_first (List.mem_reverse.2 ht)
        refine ⟨y.reverse, x.reverse, ?_, by simpa using hx⟩
        have := congrArg List.reverse he
        simpa using this
      rw [hy, lastLine_break h2, List.append_assoc, List.cons_append, lastLine_break (by simp [h2, h10])]
    · rw [lastLine_no ht, lastLine_no (by simp [ht, h10])]

theorem encode_len (t : List Nat) : t.length ≤ (encodeAll t).length := by
  induction t with
  | nil => simp
  | cons c t ih =>
    rw [encodeAll_cons, List.length_append, List.length_cons]
    have : 0 < (encode c).length := List.length_pos_iff.2 (encode_ne_nil c)
    omega

theorem num_small {t : List Nat} (h : Plain t) (p : Nat) : num t p < 4611686018427387904 := by
  unfold num lineNo
  have h1 := h.small
  have h2 := encode_len t
  have h3 : (t.take p).count 10 ≤ t.length := Nat.le_trans List.count_le_length (by simp; omega)
  omega

/-- What is printed keeps up with the text. -/
structure Inv (own t : List Nat) (s : St) (p : Nat) (pend : Bool) : Prop where
  neat : Neat s
  paired : Paired s.b
  line : pend = false → At own s.b (num t p)
  open_ : pend = true → ∃ m cs, opened s.b.reverse = some (m, own, cs) ∧ m ≤ num t p

theorem Inv.close {own t : List Nat} {s : St} {p : Nat} {pend : Bool} (ht : Plain t) (h : Inv own t s p pend) : Inv own t (s.close t p pend) p false := by
  unfold St.close
  cases pend
  · exact h
  · rw [if_pos rfl]
    obtain ⟨m, cs, ho, hm⟩ := h.open_ rfl
    have ho' : opened (s.b ++ [Line.code s.col]).reverse = some (m, own, cs) := by
      have := opened_codes (b := s.b) [s.col]
      simpa [ho] using this
    have eb : s.b ++ [.code s.col, .end (num t p)] = (s.b ++ [.code s.col]) ++ [.end (num t p)] := by simp
    refine ⟨h.neat.mid (num_small ht p) (padOf_blank t p), ?_, ?_, by simp⟩
    · show Paired (s.b ++ [.code s.col, .end (num t p)])
      rw [eb]
      refine paired_snoc (paired_snoc h.paired (by intro n he; cases he)) ?_
      intro n he
      cases he
      exact ⟨m, own, cs, ho', hm⟩
    · intro _
      show At own (s.b ++ [.code s.col, .end (num t p)]) _
      rw [eb]
      exact at_end ho'

theorem whole_inner {t : List Nat} (h : Plain t) (p : Nat) : ∀ c ∈ wholeLine t p, Inner c := by
  intro c hc
  have hmem : c ∈ t ∧ c ≠ 10 := by
    unfold wholeLine at hc
    rcases List.mem_append.1 hc with hc | hc
    · unfold lastLine at hc
      rw [List.mem_reverse] at hc
      have hall := List.all_eq_true.1 (List.all_takeWhile (p := fun c : Nat => decide (c ≠ 10)) (l := (t.take p).reverse)) c hc
      have := List.takeWhile_subset _ hc
      rw [List.mem_reverse] at this
      exact ⟨List.mem_of_mem_take this, by simpa using hall⟩
    · have hall := List.all_eq_true.1 (List.all_takeWhile (p := fun c : Nat => decide (c ≠ 10)) (l := t.drop p)) c hc
      have := List.takeWhile_subset _ hc
      exact ⟨List.mem_of_mem_drop this, by simpa using hall⟩
  obtain ⟨h1, h2, _⟩ := h.char c hmem.1
  exact ⟨h1, h2, hmem.2⟩

theorem Inv.open {own t : List Nat} {s : St} {p : Nat} (ho : GoodPath own) (ht : Plain t) (h : Inv own t s p false) : Inv own t (s.open' own t p) p true := by
  unfold St.open'
  have eb : s.b ++ [.code s.col, .begin (num t p) own (wholeLine t p)] = (s.b ++ [.code s.col]) ++ [.begin (num t p) own (wholeLine t p)] := by simp
  refine ⟨h.neat.mid ⟨num_small ht p, ho.2.1, ho.2.2, whole_inner ht p⟩ (padOf_blank t p), ?_, by simp, ?_⟩
  · show Paired (s.b ++ [.code s.col, .begin (num t p) own (wholeLine t p)])
    rw [eb]
    exact paired_snoc (paired_snoc h.paired (by intro n he; cases he)) (by intro n he; cases he)
  · intro _
    refine ⟨num t p, wholeLine t p, ?_, Nat.le_refl _⟩
    show Locator.opened (s.b ++ [Line.code s.col, Line.begin (num t p) own (wholeLine t p)]).reverse = _
    simp [Locator.opened]

theorem Inv.adds {own t raw r cs : List Nat} {s : St} {p : Nat} {pend : Bool} (h : Inv own t s p pend) (hd : t.drop p = raw ++ r) (hc : Clean cs)
    (h10 : pend = false → cs.count 10 = raw.count 10) : Inv own t (s.adds cs) (p + raw.length) pend := by
  have hn := num_add hd
  by_cases hm : 10 ∈ cs
  · obtain ⟨ms, m0, he, hl⟩ := adds_break (s := s) hm
    have eb : s.b ++ .code (s.col ++ m0) :: ms.map .code = s.b ++ ((s.col ++ m0) :: ms).map Line.code := rfl
    refine ⟨h.neat.addsClean hc, ?_, ?_, ?_⟩
    · rw [he]
      show Paired (s.b ++ .code (s.col ++ m0) :: ms.map .code)
      rw [eb]
      exact paired_codes h.paired
    · intro hp
      rw [he]
      show At own (s.b ++ .code (s.col ++ m0) :: ms.map .code) _
      rw [eb, hn, ← h10 hp, ← hl]
      have := (h.line hp).codes (ms := (s.col ++ m0) :: ms)
      exact this
    · intro hp
      obtain ⟨m, c, h1, h2⟩ := h.open_ hp
      refine ⟨m, c, ?_, by omega⟩
      rw [he]
      show Locator.opened (s.b ++ Line.code (s.col ++ m0) :: ms.map Line.code).reverse = _
      rw [eb, opened_codes]
      exact h1
  · have he := adds_same (s := s) hm
    refine ⟨h.neat.addsClean hc, ?_, ?_, ?_⟩
    · rw [he]; exact h.paired
    · intro hp
      rw [he, hn, ← h10 hp, List.count_eq_zero.2 hm]
      exact h.line hp
    · intro hp
      obtain ⟨m, c, h1, h2⟩ := h.open_ hp
      exact ⟨m, c, by rw [he]; exact h1, by omega⟩

/-- No line of the text begins with `#`. -/
def NoHash (t : List Nat) : Prop := ∀ a r, t ≠ a ++ 10 :: 35 :: r

theorem clean_raw {t raw r : List Nat} {p : Nat} (ht : Plain t) (hh : NoHash t) (hd : t.drop p = raw ++ r) (h35 : ∀ r, raw ≠ 35 :: r) : Clean raw := by
  refine ⟨?_, h35, ?_⟩
  · intro c hc
    have : c ∈ t := by
      have : c ∈ t.drop p := by rw [hd]; simp [hc]
      exact List.mem_of_mem_drop this
    exact ⟨(ht.char c this).1, (ht.char c this).2.1⟩
  · intro a q he
    refine hh (t.take p ++ a) (q ++ r) ?_
    calc t = t.take p ++ t.drop p := (List.take_append_drop p t).symm
      _ = _ := by rw [hd, he]; simp

theorem clean_blanks {cs : List Nat} (h : ∀ c ∈ cs, c = 10 ∨ c = 32 ∨ c = 9) : Clean cs := by
  refine ⟨?_, ?_, ?_⟩
  · intro c hc
    rcases h c hc with rfl | rfl | rfl <;> decide
  · intro r he
    have := h 35 (by rw [he]; simp)
    omega
  · intro a r he
    have := h 35 (by rw [he]; simp)
    omega

theorem blankFor_blank (c : Nat) : blankFor c = 32 ∨ blankFor c = 9 := by
  unfold blankFor
  split
  · exact .inr rfl
  · exact .inl rfl

theorem count_blanks (cs : List Nat) : (cs.map blankFor).count 10 = 0 := by
  refine List.count_eq_zero.2 ?_
  intro hm
  obtain ⟨x, _, hx⟩ := List.mem_map.1 hm
  have := blankFor_blank x
  omega

theorem count_filter10 (b : List Nat) : (b.filter (· = 10)).count 10 = b.count 10 := by
  rw [List.count_filter]
  simp

theorem shown_count {g : Gap} {r : List Nat} (hg : g ≠ .nl) (hf : g.Fits r) : g.shown.count 10 = g.raw.count 10 := by
  cases g with
  | blank c => rfl
  | cont => rfl
  | nl => rfl
  | line b =>
    simp only [Gap.shown, Gap.raw]
    rw [count_filter10]
    simp
  | block b =>
    simp only [Gap.shown]
    split
    · rw [List.count_append, count_filter10, count_blanks, Gap.raw]
      simp
    · rfl

theorem shown_clean {t r : List Nat} {p : Nat} {g : Gap} (ht : Plain t) (hh : NoHash t) (hf : g.Fits r) (hd : t.drop p = g.raw ++ r) : Clean g.shown := by
  cases g with
  | blank c => exact clean_blanks (by intro d hd; have hf' : c = 32 ∨ c = 9 := hf; simp [Gap.shown, Gap.raw] at hd; omega)
  | cont => exact clean_raw ht hh hd (by simp [Gap.raw, Gap.shown])
  | nl => exact clean_raw ht hh hd (by simp [Gap.raw, Gap.shown])
  | line b => exact clean_blanks (by intro d hd; simp [Gap.shown] at hd; omega)
  | block b =>
    simp only [Gap.shown]
    split
    · refine clean_blanks ?_
      intro d hd
      rcases List.mem_append.1 hd with hd | hd
      · simp at hd; omega
      · obtain ⟨x, _, rfl⟩ := List.mem_map.1 hd
        have := blankFor_blank x
        omega
    · exact clean_raw ht hh hd (by simp [Gap.raw, Gap.shown])

theorem line_inv {own t : List Nat} {val : List Nat → List Nat} {l : List Piece} (ho : GoodPath own) (ht : Plain t) (hh : NoHash t) : ∀ {p : Nat} {pend : Bool} {s : St} {r : List Nat},
    Reads l → Tail r → t.drop p = raws l ++ r → (∀ w br, .call w br ∈ l → Clean (val w)) → Inv own t s p pend →
    Inv own t (lineSt own t val p pend s l) (p + (raws l).length) (lineEnd true pend l) := by
  induction l with
  | nil => intro p pend s r _ _ _ _ h; exact h
  | cons x l ih =>
    intro p pend s r hr htl hd hv h
    have hd' : t.drop p = x.raw ++ (raws l ++ r) := by rw [hd, raws_cons, List.append_assoc]
    have hf := hr.1.ext htl
    rw [raws_cons, List.length_append, ← Nat.add_assoc]
    have hv' : ∀ w br, .call w br ∈ l → Clean (val w) := fun w br hm => hv w br (List.mem_cons_of_mem _ hm)
    rcases piece_cases x with ⟨g, rfl⟩ | ⟨w, br, rfl⟩ | ⟨hs, hc⟩
    · rw [lineSt, lineEnd]
      exact ih hr.2 htl (drop_add hd') hv' (h.adds hd' (shown_clean ht hh hf.2 hd') (fun _ => shown_count hf.1 hf.2))
    · rw [lineSt, lineEnd]
      refine ih hr.2 htl (drop_add hd') hv' ?_
      have := (h.close ht).open ho ht
      exact this.adds hd' (hv w br (by simp)) (by simp)
    · rw [lineSt_solid hs hc, lineEnd_word hs hc]
      obtain ⟨c, v, hraw, _, _, _, h35, _⟩ := solid_head hs hf
      refine ih hr.2 htl (drop_add hd') hv' ((h.close ht).adds hd' (clean_raw ht hh hd' ?_) (fun _ => rfl))
      intro q he
      rw [hraw] at he
      cases he
      exact h35 rfl

end RuC.Text
