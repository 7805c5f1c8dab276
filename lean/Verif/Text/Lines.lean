import Verif.Text.Events

/-!
# Lemmas about the text between the directives: whole lines
-/

namespace RuC.Text
open RuC RuC.Utf8 RuC.Io RuC.Locator

/-! ## Brackets behind the name of a macro -/

/-- From a place in a line over gaps and ends of lines to the first piece that is more. -/
theorem first_solid : ∀ {ls : List (List Piece)} {y : List Piece}, (∀ l ∈ y :: ls, Reads l) → ∃ (gs : List Gap) (r : List Nat),
    textOf (y :: ls) = gaps gs ++ r ∧ GapsRead gs r ∧ Stops r ∧ (∀ v, r ≠ 10 :: v) ∧
    ((r = [] ∧ solids (y :: ls) = []) ∨ ∃ s y' ls', s.solid = true ∧ s.Fits (textOf (y' :: ls')) ∧ r = s.raw ++ textOf (y' :: ls') ∧
      solids (y :: ls) = s :: solids (y' :: ls') ∧ ∀ l ∈ y' :: ls', Reads l) := by
  intro ls
  induction ls with
  | nil =>
    intro y h
    obtain ⟨gs, z, rfl, hz⟩ := split_gaps y
    obtain ⟨h1, h2, h3⟩ := reads_gaps (h _ List.mem_cons_self) (r := []) (.inl rfl)
    have hsol : solids [gs.map Piece.gap ++ z] = z.filter Piece.solid := by
      simp [solids, Piece.solid]
    refine ⟨gs, raws z, by rw [textOf_cons, raws_gaps]; simp [tailOf], by simpa using h1, ?_⟩
    rcases hz with rfl | ⟨s, z', rfl, hs⟩
    · exact ⟨tail_stops (.inl rfl), by simp [raws], .inl ⟨rfl, by rw [hsol]; rfl⟩⟩
    · have hf : s.Fits (raws z') := h3.1
      have := solid_stops hs hf
      refine ⟨by rw [raws_cons]; exact this.1, by rw [raws_cons]; exact this.2, .inr ⟨s, z', [], hs, by simpa [textOf] using hf, by simp [textOf, raws_cons], ?_, ?_⟩⟩
      · rw [hsol]
        simp [solids, hs]
      · intro l hl
        simp at hl
        subst hl
        exact h3.2
  | cons l1 ls ih =>
    intro y h
    obtain ⟨gs, z, rfl, hz⟩ := split_gaps y
    have ht := tail_tailOf (l1 :: ls)
    obtain ⟨h1, h2, h3⟩ := reads_gaps (h _ List.mem_cons_self) ht
    have hsol : solids ((gs.map Piece.gap ++ z) :: l1 :: ls) = z.filter Piece.solid ++ solids (l1 :: ls) := by
      simp [solids, Piece.solid]
    rcases hz with rfl | ⟨s, z', rfl, hs⟩
    · obtain ⟨gs', r, g1, g2, g3, g4, g5⟩ := ih (y := l1) (fun l hl => h l (List.mem_cons_of_mem _ hl))
      have e : tailOf (l1 :: ls) = gaps (.nl :: gs') ++ r := by
        rw [tailOf_cons, g1]
        simp [gaps, Gap.raw]
      refine ⟨gs ++ .nl :: gs', r, ?_, ?_, g3, g4, ?_⟩
      · rw [textOf_cons, raws_gaps, e, gaps_append]
        simp [raws]
      · rw [gapsRead_append]
        refine ⟨?_, trivial, g2⟩
        rw [← e]
        simpa [raws] using h1
      · rw [hsol]
        exact g5
    · have hf : s.Fits (raws z' ++ tailOf (l1 :: ls)) := h3.1.ext ht
      have := solid_stops hs hf
      have e : raws (s :: z') ++ tailOf (l1 :: ls) = s.raw ++ (raws z' ++ tailOf (l1 :: ls)) := by rw [raws_cons, List.append_assoc]
      refine ⟨gs, raws (s :: z') ++ tailOf (l1 :: ls), by rw [textOf_cons, raws_gaps, List.append_assoc], h1, by rw [e]; exact this.1, by rw [e]; exact this.2,
        .inr ⟨s, z', l1 :: ls, hs, hf, e, ?_, ?_⟩⟩
      · rw [hsol]
        simp [solids, hs]
      · intro l hl
        rcases List.mem_cons.1 hl with rfl | hl
        · exact h3.2
        · exact h l (List.mem_cons_of_mem _ hl)

theorem errorsOf_append (a b : List Ev) : errorsOf (a ++ b) = errorsOf a ++ errorsOf b := by
  induction a with
  | nil => rfl
  | cons x a ih => cases x <;> simp [errorsOf, ih]

theorem gaps_noErrors {mk : Marks} {t r : List Nat} {l : List Gap} {p : Nat} (hg : GapsRead l r) (h : t.drop p = gaps l ++ r) : errorsOf (mute (gapEvs l p)) = [] :=
  (flow_gaps (mk := mk) hg h).mute.noErrors

/-- Without empty brackets behind it nothing is read. -/
theorem brackets_none {t : List Nat} {p : Nat} {y : List Piece} {ls : List (List Piece)} (h : t.drop p = textOf (y :: ls)) (hp : p ≤ t.length) (hu : Usual (t.drop p))
    (hr : ∀ l ∈ y :: ls, Reads l) (hb : ∀ m, solids (y :: ls) ≠ .chr 40 :: .chr 41 :: m) : brackets t p = ([.refresh p], p) := by
  obtain ⟨gs, r, h1, h2, h3, h4, h5⟩ := first_solid hr
  rw [h1] at h
  have hl := lines_gaps h3 h4 h2 h hp hu
  have hne := gaps_noErrors (mk := noMarks) h2 h
  unfold brackets
  rw [hl]
  dsimp only
  by_cases hc : next r ≠ 40
  · rw [if_pos (.inl hc), hne]
  · have hc : next r = 40 := Classical.not_not.1 hc
    rcases h5 with ⟨rfl, _⟩ | ⟨s, y', ls', hs, hf, hr', hsol, hrd⟩
    · exact absurd hc (by decide)
    · obtain ⟨c, v, hraw, _, _, _, _, _, _, h40, _⟩ := solid_head hs hf
      have hc' : c = 40 := by
        rw [hr', hraw] at hc
        exact hc
      have hs' := h40 hc'
      subst hs'
      have hd := drop_add h
      have hd' : t.drop (p + (gaps gs).length) = 40 :: textOf (y' :: ls') := by rw [hd, hr']; rfl
      have hu' : Usual (t.drop (p + (gaps gs).length + 1)) := by
        rw [drop_succ hd']
        rw [h, hr'] at hu
        exact (hu.tail (t := 40 :: textOf (y' :: ls'))).tail (a := [40])
      obtain ⟨gs2, r2, k1, k2, k3, k4, k5⟩ := first_solid hrd
      have hd2 : t.drop (p + (gaps gs).length + 1) = gaps gs2 ++ r2 := by rw [drop_succ hd', k1]
      have hl2 := lines_gaps k3 k4 k2 hd2 (le_of_drop hd') hu'
      have hne2 := gaps_noErrors (mk := noMarks) k2 hd2
      rw [scan_cons hd', if_neg (by simp [hc]), hl2]
      dsimp only
      by_cases hc2 : next r2 ≠ 41
      · rw [if_pos (.inl hc2), errorsOf_append, hne, hne2]
        rfl
      · have hc2 : next r2 = 41 := Classical.not_not.1 hc2
        exfalso
        rcases k5 with ⟨rfl, _⟩ | ⟨s2, y2, ls2, hs2, hf2, hr2, hsol2, _⟩
        · exact absurd hc2 (by decide)
        · obtain ⟨c2, v2, hraw2, _, _, _, _, _, _, _, h41⟩ := solid_head hs2 hf2
          have hc2' : c2 = 41 := by
            rw [hr2, hraw2] at hc2
            exact hc2
          exact hb (solids (y2 :: ls2)) (by rw [hsol, hsol2, h41 hc2'])

theorem stops_of {c : Nat} {v : List Nat} (h1 : c ≠ 32) (h2 : c ≠ 9) (h3 : c ≠ 47) (h4 : c ≠ 92) : Stops (c :: v) := by
  intro d w he
  cases he
  exact ⟨h1, h2, fun h => absurd h h3, fun h => absurd h h4⟩

/-- Empty brackets are read. -/
theorem brackets_some {mk : Marks} {t r : List Nat} {p : Nat} {a b : List Gap} (h : t.drop p = bracketsRaw (some (a, b)) ++ r) (hp : p ≤ t.length) (hu : Usual (t.drop p))
    (ha : GapsRead a (40 :: gaps b ++ 41 :: r)) (hb : GapsRead b (41 :: r)) :
    ∃ e, brackets t p = (e, p + (bracketsRaw (some (a, b))).length) ∧ Flow mk t p e (p + (bracketsRaw (some (a, b))).length) [] := by
  have h1 : t.drop p = gaps a ++ (40 :: gaps b ++ 41 :: r) := by rw [h]; simp [bracketsRaw]
  have d1 := drop_add h1
  have d2 : t.drop (p + (gaps a).length + 1) = gaps b ++ 41 :: r := drop_succ d1
  have d3 := drop_add d2
  have hu' : Usual (t.drop (p + (gaps a).length + 1)) := by
    rw [d2]
    rw [h1] at hu
    exact (hu.tail (t := 40 :: (gaps b ++ 41 :: r))).tail (a := [40])
  have l1 := lines_gaps (stops_of (by decide) (by decide) (by decide) (by decide)) (by intro v he; cases he) ha h1 hp hu
  have l2 := lines_gaps (stops_of (by decide) (by decide) (by decide) (by decide)) (by intro v he; cases he) hb d2 (le_of_drop d1) hu'
  have f1 := (flow_gaps (mk := mk) ha h1).mute
  have f2 := (flow_gaps (mk := mk) hb d2).mute
  have elen : p + (bracketsRaw (some (a, b))).length = p + (gaps a).length + 1 + (gaps b).length + 1 := by simp [bracketsRaw]; omega
  refine ⟨.refresh p :: (mute (gapEvs a p) ++ mute (gapEvs b (p + (gaps a).length + 1))), ?_, ?_⟩
  · unfold brackets
    rw [l1]
    dsimp only
    rw [scan_cons (c := 40) (r := gaps b ++ 41 :: r) d1]
    dsimp only
    rw [if_neg (by simp [next]), l2]
    dsimp only
    rw [scan_cons d3, if_neg (by simp [next]), elen]
    rfl
  · refine .refresh hp ?_
    rw [elen]
    have g1 : Flow mk t (p + (gaps a).length + 1 + (gaps b).length) [] (p + (gaps a).length + 1 + (gaps b).length + 1) [] := flow_move (xs := [41]) (r := r) d3 (by decide)
    have g2 := Flow.append f2 g1
    have g3 : Flow mk t (p + (gaps a).length) _ _ _ := .move (xs := [40]) (r := gaps b ++ 41 :: r) d1 (by decide) g2
    have g4 := Flow.append f1 g3
    simpa using g4

/-! ## What is printed for a line -/

theorem gapsOut_cons {g : Gap} {gs : List Gap} (h : g ≠ .nl) : gapsOut (g :: gs) = g.shown ++ gapsOut gs := by
  simp [gapsOut, h]

theorem lineOut_gaps {m : Bool} {mk : Marks} {val : List Nat → List Nat} {pend : Bool} {z : List Piece} {gs : List Gap} : ∀ {p : Nat}, .nl ∉ gs →
    lineOut m mk val p pend (gs.map Piece.gap ++ z) = gapsOut gs ++ lineOut m mk val (p + (gaps gs).length) pend z := by
  induction gs with
  | nil => intro p _; rfl
  | cons g gs ih =>
    intro p hno
    rw [List.map_cons, List.cons_append, lineOut, ih (fun h => hno (List.mem_cons_of_mem _ h)), gapsOut_cons (fun h => hno (by simp [h])), List.append_assoc,
      gaps_cons, List.length_append, Nat.add_assoc]

theorem lineOut_pending {m : Bool} {mk : Marks} {val : List Nat → List Nat} {s : Piece} {z : List Piece} {p : Nat} (hs : s.solid = true) :
    lineOut m mk val p true (s :: z) = 10 :: mk.behind p ++ lineOut m mk val p false (s :: z) := by
  cases s with
  | gap g => cases hs
  | _ => simp [lineOut]

theorem lineEnd_gaps {m pend : Bool} {z : List Piece} {gs : List Gap} : lineEnd m pend (gs.map Piece.gap ++ z) = lineEnd m pend z := by
  induction gs with
  | nil => rfl
  | cons g gs ih => exact ih

theorem lineEnd_solid {m pend : Bool} {s : Piece} {z : List Piece} (hs : s.solid = true) : lineEnd m pend (s :: z) = lineEnd m false (s :: z) := by
  cases s with
  | gap g => cases hs
  | _ => rfl

/-- What a call prints is known. -/
def Val (x : Ctx) (w o : List Nat) : Prop :=
  ∃ v ex e, x.macros w = some ⟨0, v⟩ ∧ x.expand = some ex ∧ ex v = some e ∧ ∀ mk t p, Flow mk t p (inner e) p o

/-- The words of a line are no macros, and what its calls print is known. -/
def Knows (x : Ctx) (val : List Nat → List Nat) (l : List Piece) : Prop := (∀ w, .word w ∈ l → x.macros w = none) ∧ ∀ w br, .call w br ∈ l → Val x w (val w)

theorem Knows.tail {x : Ctx} {val : List Nat → List Nat} {s : Piece} {l : List Piece} (h : Knows x val (s :: l)) : Knows x val l :=
  ⟨fun w hm => h.1 w (List.mem_cons_of_mem _ hm), fun w br hm => h.2 w br (List.mem_cons_of_mem _ hm)⟩

theorem Knows.drop {x : Ctx} {val : List Nat → List Nat} {k l : List Piece} (h : Knows x val (k ++ l)) : Knows x val l :=
  ⟨fun w hm => h.1 w (List.mem_append_right _ hm), fun w br hm => h.2 w br (List.mem_append_right _ hm)⟩

theorem ident_spec {t w r : List Nat} {p : Nat} (h : t.drop p = w ++ r) (hw : ∀ c ∈ w, wordChar c = true) (hr : ∀ c v, r = c :: v → wordChar c = false) : ident t p = w := by
  show (t.drop p).takeWhile wordChar = w
  rw [h, List.takeWhile_append_of_pos hw]
  cases r with
  | nil => simp
  | cons c v =>
    rw [List.takeWhile_cons, if_neg]
    · simp
    · rw [hr c v rfl]
      simp

theorem word_no10 {w : List Nat} (hw : ∀ c ∈ w, wordChar c = true) : 10 ∉ w := by
  intro hm
  have := hw 10 hm
  revert this
  decide

theorem putc_char {c : Nat} (h : c < 0x200000) : putc c = [.put c] := by
  unfold putc
  rw [if_neg (not_eof h)]

/-- A piece that is more than a gap and not a call is copied. -/
theorem step_solid {x : Ctx} {mk : Marks} {val : List Nat → List Nat} {s : Piece} {r : List Nat} {p : Nat} (req : Bool) (hs : s.solid = true) (hc : ∀ w br, s ≠ .call w br)
    (hk : Knows x val [s]) (hf : s.Fits r) (h : x.text.drop p = s.raw ++ r) (hu : Usual (x.text.drop p)) :
    ∃ c v e, s.raw = c :: v ∧ c ≠ 10 ∧ c ≠ EOFc ∧ untilStep x c p req = some (e, p + s.raw.length, req) ∧ Flow mk x.text p e (p + s.raw.length) s.raw := by
  have hp := le_len h (by obtain ⟨c, v, hh, _⟩ := solid_head hs hf; rw [hh]; simp)
  cases s with
  | gap g => cases hs
  | call w br => exact absurd rfl (hc w br)
  | word w =>
    obtain ⟨⟨⟨c, v, hw, hl⟩, hall⟩, hr⟩ := hf
    have hi : ident x.text p = w := ident_spec h hall hr
    obtain ⟨h1, _, _, _, _, _, _, _, _, _, h11⟩ := letter_facts hl
    refine ⟨c, v, w.map .put, hw, h1, h11, ?_, ?_⟩
    · unfold untilStep parseIdentifier
      dsimp only
      rw [if_pos hl, hi, hk.1 w (by simp)]
      rfl
    · have := Flow.append (flow_puts (mk := mk) (t := x.text) (p := p) w) (flow_move h (word_no10 hall))
      rw [List.append_nil, List.append_nil] at this
      exact this
  | chr c =>
    obtain ⟨h1, h2, h3, h4, h5, h6, h7, h8, h9⟩ := hf
    have h' : x.text.drop p = c :: r := h
    obtain ⟨hlt, _⟩ := head_usual hu h'
    refine ⟨c, [], [.put c], rfl, h2, not_eof hlt, ?_, ?_⟩
    · unfold untilStep
      rw [scan_cons h']
      dsimp only
      rw [if_neg (by simp [h1]), if_neg h7, if_neg (by omega), putc_char hlt]
      rfl
    · exact .put (.move h (by simp [Piece.raw]; omega) .nil)
  | str q b =>
    obtain ⟨hq, hb⟩ := hf
    have h' : x.text.drop p = q :: (b ++ q :: r) := by rw [h]; simp [Piece.raw]
    obtain ⟨hlt, _, hu'⟩ := head_usual hu h'
    have h13 : 13 ∉ b := fun hm => (hu' 13 (by simp [hm])).2 rfl
    have hs : skipString x.text q (p + 1) = (.refresh p :: strEvs (p + 1) b, q, p + 1 + b.length + 1) := by
      unfold skipString
      rw [drop_succ h', stringLoop_spec (by rcases hq with rfl | rfl <;> decide) hb h13]
      rfl
    refine ⟨q, b ++ [q], .put q :: .refresh p :: (strEvs (p + 1) b ++ [.put q]), rfl, by rcases hq with rfl | rfl <;> decide, not_eof hlt, ?_, ?_⟩
    · unfold untilStep
      rw [scan_cons h']
      dsimp only
      have hl : isLetter q = false := by rcases hq with rfl | rfl <;> decide
      rw [if_neg (by simp [hl]), if_neg (by rcases hq with rfl | rfl <;> decide), if_pos (by omega), hs]
      dsimp only
      rw [putc_char hlt]
      simp [Piece.raw]
      omega
    · have hd := drop_succ h'
      have f1 := flow_str (mk := mk) hd
      have hd2 := drop_add hd
      have f2 : Flow mk x.text (p + 1 + b.length) [.put q] (p + 1 + b.length + 1) [q] := .put (flow_move (xs := [q]) (r := r) hd2 (by rcases hq with rfl | rfl <;> decide))
      have f3 : Flow mk x.text p (.put q :: .refresh p :: (strEvs (p + 1) b ++ [.put q])) (p + 1 + b.length + 1) (q :: (b ++ [q])) := .put (.refresh hp (.move (xs := [q]) (r := b ++ q :: r) h' (by rcases hq with rfl | rfl <;> decide) (Flow.append f1 f2)))
      rw [show p + (Piece.str q b).raw.length = p + 1 + b.length + 1 by simp [Piece.raw]; omega]
      exact f3

/-- The brackets of a call, or none. -/
theorem call_brackets {mk : Marks} {t : List Nat} {w : List Nat} {br : Option (List Gap × List Gap)} {p : Nat} {y : List Piece} {ls : List (List Piece)}
    (hf : (Piece.call w br).Fits (textOf (y :: ls))) (h : t.drop p = (Piece.call w br).raw ++ textOf (y :: ls)) (hp : p ≤ t.length) (hu : Usual (t.drop p)) (hr : ∀ l ∈ y :: ls, Reads l)
    (hb : br = none → ∀ m, solids (y :: ls) ≠ .chr 40 :: .chr 41 :: m) :
    ident t p = w ∧ ∃ e, brackets t (p + w.length) = (e, p + (Piece.call w br).raw.length) ∧ Flow mk t p e (p + (Piece.call w br).raw.length) [] := by
  have hw : Word w := by
    cases br with
    | none => exact hf.1
    | some ab => exact hf.1
  have h1 : t.drop p = w ++ (bracketsRaw br ++ textOf (y :: ls)) := by rw [h]; simp [Piece.raw]
  have hd := drop_add h1
  have hp' : p + w.length ≤ t.length := by
    have := drop_length h1
    rw [List.length_append] at this
    omega
  have hu' : Usual (t.drop (p + w.length)) := by
    rw [hd]
    rw [h1] at hu
    exact hu.tail
  have hnext : ∀ c v, bracketsRaw br ++ textOf (y :: ls) = c :: v → wordChar c = false := by
    cases br with
    | none => exact hf.2
    | some ab =>
      obtain ⟨a, b⟩ := ab
      intro c v he
      cases a with
      | nil =>
        simp [bracketsRaw, gaps] at he
        obtain ⟨rfl, _⟩ := he
        decide
      | cons g a =>
        have hg := hf.2.1.1
        simp only [bracketsRaw, gaps_cons, List.append_assoc] at he
        cases g with
        | blank d =>
          cases he
          rcases hg with rfl | rfl <;> decide
        | cont => cases he; decide
        | line b => cases he; decide
        | block b => cases he; decide
        | nl => cases he; decide
  refine ⟨ident_spec h1 hw.2 hnext, ?_⟩
  have elen : p + (Piece.call w br).raw.length = p + w.length + (bracketsRaw br).length := by simp [Piece.raw]; omega
  have hm : Flow mk t p [] (p + w.length) [] := flow_move h1 (word_no10 hw.2)
  cases br with
  | none =>
    refine ⟨[.refresh (p + w.length)], ?_, ?_⟩
    · rw [brackets_none hd hp' hu' hr (hb rfl), elen]
      rfl
    · rw [elen]
      exact Flow.append hm (.refresh hp' .nil)
  | some ab =>
    obtain ⟨a, b⟩ := ab
    obtain ⟨e, g1, g2⟩ := brackets_some (mk := mk) hd hp' hu' hf.2.1 hf.2.2
    rw [elen]
    exact ⟨e, g1, Flow.append hm g2⟩

/-- The calls without brackets of a line have no empty brackets behind them. -/
def BareLine (l : List Piece) (after : List (List Piece)) : Prop := ∀ a y w, l = a ++ .call w none :: y → ∀ m, solids (y :: after) ≠ .chr 40 :: .chr 41 :: m

theorem BareLine.drop {k l : List Piece} {after : List (List Piece)} (h : BareLine (k ++ l) after) : BareLine l after :=
  fun a y w he => h (k ++ a) y w (by rw [he, List.append_assoc])

/-- How far `parse_until` reads behind the pieces of a line. -/
def over (after : List (List Piece)) : Nat := if after = [] then 0 else 1

/-- What it prints for the end of the line. -/
def overOut (after : List (List Piece)) : List Nat := if after = [] then [] else [10]

set_option maxHeartbeats 1000000 in
theorem untilLoop_line {x : Ctx} {mk : Marks} {val : List Nat → List Nat} {after : List (List Piece)} (hra : ∀ l ∈ after, Reads l) :
    ∀ {k n p : Nat} {l : List Piece} {req : Bool}, l.length ≤ k → Reads l → Knows x val l → BareLine l after → x.text.drop p = textOf (l :: after) → p ≤ x.text.length →
    Usual (x.text.drop p) → l.length + 1 ≤ n → (req = false ∨ l = []) →
    ∃ e, untilLoop x n p req = some (e, next (tailOf after), p + (raws l).length + over after, req || lineEnd x.file false l) ∧
      Flow mk x.text p e (p + (raws l).length) (lineOut x.file mk val p false l ++ overOut after) := by
  intro k
  induction k with
  | zero =>
    intro n p l req hk _ _ _ h hp hu hn _
    obtain ⟨n, rfl⟩ : ∃ m, n = m + 1 := ⟨n - 1, by omega⟩
    obtain rfl : l = [] := List.length_eq_zero_iff.1 (by omega)
    have h' : x.text.drop p = gaps [] ++ tailOf after := by rw [h]; rfl
    have hun := until_gaps (l := []) (tail_stops (tail_tailOf after)) trivial (by simp) h' hp hu
    cases after with
    | nil =>
      refine ⟨[], ?_, .nil⟩
      rw [untilLoop, hun]
      simp only [untilStep, gaps, List.flatMap_nil, List.length_nil, Nat.add_zero]
      rw [scan_nil h]
      simp [next, tailOf, EOFc, isLetter, isRussian, putc, gapEvs, gaps, raws, over, lineEnd]
    | cons a1 after =>
      have h2 : x.text.drop p = 10 :: textOf (a1 :: after) := by rw [h, textOf_cons, tailOf_cons]; rfl
      refine ⟨[.put 10], ?_, .put .nil⟩
      rw [untilLoop, hun, tailOf_cons]
      simp only [untilStep, gaps, List.flatMap_nil, List.length_nil, Nat.add_zero]
      rw [scan_cons h2]
      simp [next, EOFc, isLetter, isRussian, putc, gapEvs, raws, over, lineEnd]
  | succ k ih =>
    intro n p l req hk hr hkn hb h hp hu hn hreq
    obtain ⟨n, rfl⟩ : ∃ m, n = m + 1 := ⟨n - 1, by omega⟩
    obtain ⟨gs, z, rfl, hz⟩ := split_gaps l
    have ht := tail_tailOf after
    obtain ⟨h1, h2, h3⟩ := reads_gaps hr ht
    have hd : x.text.drop p = gaps gs ++ (raws z ++ tailOf after) := by rw [h, textOf_cons, raws_gaps, List.append_assoc]
    have hd2 := drop_add hd
    have hp2 : p + (gaps gs).length ≤ x.text.length := by
      have := drop_length hd
      rw [List.length_append] at this
      omega
    have hu2 : Usual (x.text.drop (p + (gaps gs).length)) := by
      rw [hd2]
      rw [hd] at hu
      exact hu.tail
    have fg := flow_gaps (mk := mk) h1 hd
    rw [lineOut_gaps h2, lineEnd_gaps, raws_gaps, List.length_append]
    rcases hz with rfl | ⟨s, z', rfl, hs⟩
    · -- nothing but gaps up to the end of the line
      have hun := until_gaps (r := tailOf after) (tail_stops ht) h1 h2 hd hp hu
      cases after with
      | nil =>
        refine ⟨gapEvs gs p, ?_, ?_⟩
        · rw [untilLoop, hun]
          simp only [untilStep]
          rw [scan_nil hd2]
          simp [next, tailOf, EOFc, isLetter, isRussian, putc, raws, over, lineEnd]
        · simpa [raws, lineOut, overOut] using fg
      | cons a1 after =>
        have hd3 : x.text.drop (p + (gaps gs).length) = 10 :: textOf (a1 :: after) := by rw [hd2, tailOf_cons]; rfl
        refine ⟨gapEvs gs p ++ [.put 10], ?_, ?_⟩
        · rw [untilLoop, hun, tailOf_cons]
          simp only [untilStep]
          rw [scan_cons hd3]
          simp [next, EOFc, isLetter, isRussian, putc, raws, over, lineEnd]
        · have := Flow.append fg (.put (c := 10) .nil)
          simpa [raws, lineOut, overOut] using this
    · have hreq' : req = false := by
        rcases hreq with h | h
        · exact h
        · simp at h
      subst hreq'
      rw [Bool.false_or]
      have hkz : Knows x val (s :: z') := hkn.drop
      have hbz : BareLine (s :: z') after := hb.drop
      have hf : s.Fits (raws z' ++ tailOf after) := h3.1.ext ht
      have hst := solid_stops hs hf
      have e1 : raws (s :: z') ++ tailOf after = s.raw ++ (raws z' ++ tailOf after) := by rw [raws_cons, List.append_assoc]
      rw [e1] at h1 hd hd2
      have hun := until_gaps hst.1 h1 h2 hd hp hu
      simp only [List.length_append, List.length_map, List.length_cons] at hk hn
      generalize hP : p + (gaps gs).length = P at *
      have hd3 : x.text.drop (P + s.raw.length) = raws z' ++ tailOf after := drop_add hd2
      have hp3 : P + s.raw.length ≤ x.text.length := by
        have := drop_length hd2
        rw [List.length_append] at this
        omega
      have hu3 : Usual (x.text.drop (P + s.raw.length)) := by
        rw [hd3]
        rw [hd2] at hu2
        exact hu2.tail
      obtain ⟨c, v, hraw, hc10, _, _, _, _⟩ := solid_head hs hf
      have hcE : c ≠ EOFc := by
        rw [hd2, hraw] at hu2
        exact not_eof (hu2 c (by simp)).1
      have hnx : next (s.raw ++ (raws z' ++ tailOf after)) = c := by rw [hraw]; rfl
      rw [hnx] at hun
      by_cases hcall : ∃ w br, s = .call w br
      · -- a call
        obtain ⟨w, br, rfl⟩ := hcall
        have hl : isLetter c = true := by
          have hw : Word w := by
            cases br with
            | none => exact hf.1
            | some ab => exact hf.1
          obtain ⟨⟨c', v', hw', hl'⟩, _⟩ := hw
          rw [hw'] at hraw
          cases hraw
          exact hl'
        obtain ⟨hid, eb, hbr, fb⟩ := call_brackets (mk := mk) (y := z') (ls := after) hf hd2 hp2 hu2
          (fun l hl => by
            rcases List.mem_cons.1 hl with rfl | hl
            · exact h3.2
            · exact hra l hl)
          (fun hbn => by subst hbn; exact hbz [] z' w rfl)
        obtain ⟨vv, ex, ei, hmac, hex, hexp, hfi⟩ := hkz.2 w br (by simp)
        have hfi' := hfi mk x.text (P + (Piece.call w br).raw.length)
        have hbi := Flow.append fb hfi'
        cases hfile : x.file
        · -- in the text of a macro
          have hstep : untilStep x c P false = some (eb ++ inner ei, P + (Piece.call w br).raw.length, false) := by
            unfold untilStep
            dsimp only
            rw [if_pos hl]
            unfold parseIdentifier
            dsimp only
            rw [hid, hmac]
            dsimp only
            rw [hex]
            dsimp only
            rw [if_neg (by simp), hbr, hexp, Option.bind_some, hfile, if_neg (by simp)]
          obtain ⟨e2, g1, g2⟩ := ih (n := n) (p := P + (Piece.call w br).raw.length) (l := z') (req := false) (by omega) h3.2 hkz.tail (BareLine.drop (k := [_]) hbz)
            hd3 hp3 hu3 (by omega) (.inl rfl)
          rw [hfile] at g1 g2
          refine ⟨gapEvs gs p ++ (eb ++ inner ei) ++ e2, ?_, ?_⟩
          · rw [untilLoop, hun]
            dsimp only
            rw [hstep, Option.bind_some, if_neg (by simp [hc10, hcE]), g1]
            simp [lineEnd, raws_cons]
            omega
          · have := Flow.append (Flow.append fg hbi) g2
            rw [lineOut]
            rw [show p + ((gaps gs).length + (raws (Piece.call w br :: z')).length) = P + (Piece.call w br).raw.length + (raws z').length by rw [raws_cons, List.length_append]; omega]
            simpa using this
        · -- in a file
          obtain ⟨gs', z'', rfl, hz''⟩ := split_gaps z'
          obtain ⟨k1, k2, k3⟩ := reads_gaps h3.2 ht
          generalize hQ : P + (Piece.call w br).raw.length = Q at *
          have hd4 : x.text.drop Q = gaps gs' ++ (raws z'' ++ tailOf after) := by rw [hd3, raws_gaps, List.append_assoc]
          have fg2 := flow_gaps (mk := mk) k1 hd4
          have hd5 := drop_add hd4
          have hp5 : Q + (gaps gs').length ≤ x.text.length := by
            have := drop_length hd4
            rw [List.length_append] at this
            omega
          have hu5 : Usual (x.text.drop (Q + (gaps gs').length)) := by
            rw [hd5]
            rw [hd4] at hu3
            exact hu3.tail
          simp only [List.length_append, List.length_map] at hk hn
          have f0 : Flow mk x.text P (.refresh P :: .put 10 :: .markBegin P :: (eb ++ inner ei)) Q (10 :: (mk.before P ++ ([] ++ val w))) :=
            .refresh hp2 (.put (.markBegin hp2 hbi))
          have f1 := Flow.append (Flow.append fg f0) fg2
          have elen : p + ((gaps gs).length + (raws (Piece.call w br :: (gs'.map Piece.gap ++ z''))).length) = Q + (gaps gs').length + (raws z'').length := by
            rw [raws_cons, raws_gaps, List.length_append, List.length_append]
            omega
          rw [elen]
          rcases hz'' with rfl | ⟨s2, z3, rfl, hs2⟩
          · -- nothing behind it in the line
            have hun2 := until_gaps (r := tailOf after) (tail_stops ht) k1 k2 hd4 hp3 hu3
            have hnl : ¬ (next (tailOf after) ≠ 10 ∧ next (tailOf after) ≠ EOFc) := by
              cases after with
              | nil => simp [tailOf, next]
              | cons a1 after => rw [tailOf_cons]; simp [next]
            have hstep : untilStep x c P false = some (.refresh P :: .put 10 :: .markBegin P :: eb ++ inner ei ++ gapEvs gs' Q, Q + (gaps gs').length, true) := by
              unfold untilStep
              dsimp only
              rw [if_pos hl]
              unfold parseIdentifier
              dsimp only
              rw [hid, hmac]
              dsimp only
              rw [hex]
              dsimp only
              rw [if_neg (by simp), hbr, hexp, Option.bind_some, hfile, if_pos rfl, hun2]
              dsimp only
              rw [if_neg hnl]
            obtain ⟨e2, g1, g2⟩ := ih (n := n) (p := Q + (gaps gs').length) (l := []) (req := true) (by simp) trivial ⟨by simp, by simp⟩
              (by intro a y w he; simp at he) (by rw [hd5]; rfl) hp5 hu5 (by simp; omega) (.inr rfl)
            rw [hfile] at g1 g2
            refine ⟨gapEvs gs p ++ (.refresh P :: .put 10 :: .markBegin P :: eb ++ inner ei ++ gapEvs gs' Q) ++ e2, ?_, ?_⟩
            · rw [untilLoop, hun]
              dsimp only
              rw [hstep, Option.bind_some, if_neg (by simp [hc10, hcE]), g1]
              simp only [Option.map_some, lineEnd, lineEnd_gaps, Bool.true_or]
            · have := Flow.append f1 g2
              simp only [lineOut, lineOut_gaps k2, if_pos]
              simpa [lineOut] using this
          · -- more behind it in the line
            have hf2 : s2.Fits (raws z3 ++ tailOf after) := k3.1.ext ht
            have hst2 := solid_stops hs2 hf2
            have e2 : raws (s2 :: z3) ++ tailOf after = s2.raw ++ (raws z3 ++ tailOf after) := by rw [raws_cons, List.append_assoc]
            have hun2 := until_gaps (r := raws (s2 :: z3) ++ tailOf after) (by rw [e2]; exact hst2.1) k1 k2 hd4 hp3 hu3
            obtain ⟨c2, v2, hraw2, hc210, _⟩ := solid_head hs2 hf2
            have hnx2 : next (raws (s2 :: z3) ++ tailOf after) = c2 := by rw [e2, hraw2]; rfl
            have hc2E : c2 ≠ EOFc := by
              rw [hd5, e2, hraw2] at hu5
              exact not_eof (hu5 c2 (by simp)).1
            have hstep : untilStep x c P false = some (.refresh P :: .put 10 :: .markBegin P :: eb ++ inner ei ++ gapEvs gs' Q ++ [.put 10, .markEnd (Q + (gaps gs').length)],
                Q + (gaps gs').length, false) := by
              unfold untilStep
              dsimp only
              rw [if_pos hl]
              unfold parseIdentifier
              dsimp only
              rw [hid, hmac]
              dsimp only
              rw [hex]
              dsimp only
              rw [if_neg (by simp), hbr, hexp, Option.bind_some, hfile, if_pos rfl, hun2]
              dsimp only
              rw [if_pos (by rw [hnx2]; exact ⟨hc210, hc2E⟩)]
            have hkz2 : Knows x val (s2 :: z3) := hkz.tail.drop
            have hbz2 : BareLine (s2 :: z3) after := BareLine.drop (BareLine.drop (k := [_]) hbz)
            simp only [List.length_cons] at hk hn
            obtain ⟨e3, g1, g2⟩ := ih (n := n) (p := Q + (gaps gs').length) (l := s2 :: z3) (req := false) (by simp; omega) k3 hkz2 hbz2
              (by rw [hd5]; rfl) hp5 hu5 (by simp; omega) (.inl rfl)
            rw [hfile] at g1 g2
            refine ⟨gapEvs gs p ++ (.refresh P :: .put 10 :: .markBegin P :: eb ++ inner ei ++ gapEvs gs' Q ++ [.put 10, .markEnd (Q + (gaps gs').length)]) ++ e3, ?_, ?_⟩
            · rw [untilLoop, hun]
              dsimp only
              rw [hstep, Option.bind_some, if_neg (by simp [hc10, hcE]), g1]
              simp only [Option.map_some, lineEnd, lineEnd_gaps, Bool.false_or, lineEnd_solid (pend := true) hs2]
            · have fm : Flow mk x.text (Q + (gaps gs').length) [.put 10, .markEnd (Q + (gaps gs').length)] (Q + (gaps gs').length) (10 :: (mk.behind (Q + (gaps gs').length) ++ [])) :=
                .put (.markEnd hp5 .nil)
              have := Flow.append (Flow.append f1 fm) g2
              simp only [lineOut, lineOut_gaps k2, if_pos, hQ]
              rw [lineOut_pending hs2]
              simpa using this
      · -- a string, a word or another character
        have hnc : ∀ w br, s ≠ .call w br := fun w br he => hcall ⟨w, br, he⟩
        obtain ⟨c', v', e, hraw', h10', hE', hstep, fs⟩ := step_solid (mk := mk) (r := raws z' ++ tailOf after) false hs hnc
          (val := val) ⟨fun w hm => hkz.1 w (by simp at hm; simp [hm]), fun w br hm => hkz.2 w br (by simp at hm; simp [hm])⟩ hf hd2 hu2
        obtain rfl : c = c' := by rw [hraw] at hraw'; cases hraw'; rfl
        obtain ⟨e2, g1, g2⟩ := ih (n := n) (p := P + s.raw.length) (l := z') (req := false) (by omega) h3.2 hkz.tail (BareLine.drop (k := [_]) hbz) hd3 hp3 hu3 (by omega) (.inl rfl)
        have hlo : lineOut x.file mk val P false (s :: z') = s.raw ++ lineOut x.file mk val (P + s.raw.length) false z' := by
          cases s with
          | gap g => cases hs
          | call w br => exact absurd rfl (hnc w br)
          | _ => simp [lineOut]
        have hle : lineEnd x.file false (s :: z') = lineEnd x.file false z' := by
          cases s with
          | gap g => cases hs
          | call w br => exact absurd rfl (hnc w br)
          | _ => rfl
        refine ⟨gapEvs gs p ++ e ++ e2, ?_, ?_⟩
        · rw [untilLoop, hun]
          dsimp only
          rw [hstep, Option.bind_some, if_neg (by simp [hc10, hcE]), g1, hle, raws_cons, List.length_append]
          simp
          omega
        · have := Flow.append (Flow.append fg fs) g2
          rw [hlo, show p + ((gaps gs).length + (raws (s :: z')).length) = P + s.raw.length + (raws z').length by rw [raws_cons, List.length_append]; omega]
          simpa using this

end RuC.Text
