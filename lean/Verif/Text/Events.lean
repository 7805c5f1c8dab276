import Verif.Text.Lemmas

/-!
# Lemmas about the text between the directives: what the events of lines print
-/

namespace RuC.Text
open RuC RuC.Utf8 RuC.Io RuC.Locator

/-- Events that go from a position to another in their order: every end of a line on the way is counted, and the location is asked
for at the position that has been reached.  With what is printed. -/
inductive Flow (mk : Marks) (t : List Nat) : Nat → List Ev → Nat → List Nat → Prop
  | nil {p : Nat} : Flow mk t p [] p []
  | move {p q : Nat} {xs r : List Nat} {e : List Ev} {o : List Nat} : t.drop p = xs ++ r → 10 ∉ xs → Flow mk t (p + xs.length) e q o → Flow mk t p e q o
  | put {p q c : Nat} {e : List Ev} {o : List Nat} : Flow mk t p e q o → Flow mk t p (.put c :: e) q (c :: o)
  | refresh {p q : Nat} {e : List Ev} {o : List Nat} : p ≤ t.length → Flow mk t p e q o → Flow mk t p (.refresh p :: e) q o
  | newline {p q : Nat} {r : List Nat} {e : List Ev} {o : List Nat} : t.drop p = 10 :: r → Flow mk t (p + 1) e q o → Flow mk t p (.newline (p + 1) :: e) q o
  | mark {p q : Nat} {e : List Ev} {o : List Nat} : p ≤ t.length → Flow mk t p e q o → Flow mk t p (.mark p :: e) q (mk.usual p ++ o)
  | markBegin {p q : Nat} {e : List Ev} {o : List Nat} : p ≤ t.length → Flow mk t p e q o → Flow mk t p (.markBegin p :: e) q (mk.before p ++ o)
  | markEnd {p q : Nat} {e : List Ev} {o : List Nat} : p ≤ t.length → Flow mk t p e q o → Flow mk t p (.markEnd p :: e) q (mk.behind p ++ o)

theorem Flow.append {mk : Marks} {t : List Nat} {p q r : Nat} {e e' : List Ev} {o o' : List Nat} (h : Flow mk t p e q o) (h' : Flow mk t q e' r o') :
    Flow mk t p (e ++ e') r (o ++ o') := by
  induction h with
  | nil => exact h'
  | move h1 h2 _ ih => exact .move h1 h2 (ih h')
  | put _ ih => exact .put (ih h')
  | refresh h1 _ ih => exact .refresh h1 (ih h')
  | newline h1 _ ih => exact .newline h1 (ih h')
  | mark h1 _ ih => rw [List.append_assoc]; exact .mark h1 (ih h')
  | markBegin h1 _ ih => rw [List.append_assoc]; exact .markBegin h1 (ih h')
  | markEnd h1 _ ih => rw [List.append_assoc]; exact .markEnd h1 (ih h')

theorem Flow.mute {mk : Marks} {t : List Nat} {p q : Nat} {e : List Ev} {o : List Nat} (h : Flow mk t p e q o) : Flow mk t p (mute e) q [] := by
  induction h with
  | nil => exact .nil
  | move h1 h2 _ ih => exact .move h1 h2 ih
  | put _ ih => exact ih
  | refresh h1 _ ih => exact .refresh h1 ih
  | newline h1 _ ih => exact .newline h1 ih
  | mark h1 _ ih => exact .refresh h1 ih
  | markBegin h1 _ ih => exact .refresh h1 ih
  | markEnd h1 _ ih => exact .refresh h1 ih

theorem Flow.inner {mk mk' : Marks} {t t' : List Nat} {p p' q : Nat} {e : List Ev} {o : List Nat} (hm : mk = noMarks) (h : Flow mk t p e q o) :
    Flow mk' t' p' (inner e) p' o := by
  induction h with
  | nil => exact .nil
  | move h1 h2 _ ih => exact ih
  | put _ ih => exact .put ih
  | refresh h1 _ ih => exact ih
  | newline h1 _ ih => exact ih
  | mark h1 _ ih => subst hm; exact ih
  | markBegin h1 _ ih => subst hm; exact ih
  | markEnd h1 _ ih => subst hm; exact ih

theorem Flow.noErrors {mk : Marks} {t : List Nat} {p q : Nat} {e : List Ev} {o : List Nat} (h : Flow mk t p e q o) : errorsOf e = [] := by
  induction h with
  | nil => rfl
  | move h1 h2 _ ih => exact ih
  | put _ ih => exact ih
  | refresh h1 _ ih => exact ih
  | newline h1 _ ih => exact ih
  | mark h1 _ ih => exact ih
  | markBegin h1 _ ih => exact ih
  | markEnd h1 _ ih => exact ih

theorem flow_move {mk : Marks} {t : List Nat} {p : Nat} {xs r : List Nat} (h : t.drop p = xs ++ r) (h10 : 10 ∉ xs) : Flow mk t p [] (p + xs.length) [] :=
  .move h h10 .nil

theorem flow_puts {mk : Marks} {t : List Nat} {p : Nat} (l : List Nat) : Flow mk t p (l.map .put) p l := by
  induction l with
  | nil => exact .nil
  | cons c l ih => exact .put ih

theorem flow_breaks {mk : Marks} {t r b : List Nat} : ∀ {p : Nat}, t.drop p = b ++ r → Flow mk t p (breaks p b) (p + b.length) (b.filter (· = 10)) := by
  induction b with
  | nil => intro p _; exact .nil
  | cons c b ih =>
    intro p h
    have h1 := ih (drop_succ h)
    rw [show p + (c :: b).length = p + 1 + b.length by simp; omega, breaks]
    by_cases hc : c = 10
    · subst hc
      rw [if_pos rfl]
      simp only [List.cons_append, List.nil_append, List.filter_cons, decide_true, if_pos]
      exact .newline h (.put h1)
    · rw [if_neg hc, List.nil_append, List.filter_cons, if_neg (by simpa using hc)]
      exact .move (xs := [c]) (r := b ++ r) h (by simp; omega) h1

theorem flow_str {mk : Marks} {t r b : List Nat} : ∀ {p : Nat}, t.drop p = b ++ r → Flow mk t p (strEvs p b) (p + b.length) b := by
  induction b with
  | nil => intro p _; exact .nil
  | cons c b ih =>
    intro p h
    have h1 := ih (drop_succ h)
    rw [show p + (c :: b).length = p + 1 + b.length by simp; omega, strEvs]
    by_cases hc : c = 10
    · subst hc
      rw [if_pos rfl]
      exact .newline h (.put h1)
    · rw [if_neg hc, List.nil_append]
      exact .put (.move (xs := [c]) (r := b ++ r) h (by simp; omega) h1)

theorem blankOf_eq : blankOf = blankFor := rfl

theorem le_len {t r : List Nat} {p : Nat} {x : List Nat} (h : t.drop p = x ++ r) (hx : x ≠ []) : p ≤ t.length := by
  cases x with
  | nil => exact absurd rfl hx
  | cons c x => exact Nat.le_of_lt (le_of_drop h)

theorem Gap.raw_ne (g : Gap) : g.raw ≠ [] := by cases g <;> simp [Gap.raw]

theorem flow_gap {mk : Marks} {t r : List Nat} {p : Nat} {g : Gap} (hg : g.Fits r) (h : t.drop p = g.raw ++ r) :
    Flow mk t p (g.evs p) (p + g.raw.length) (if g = .nl then [] else g.shown) := by
  have hp := le_len h g.raw_ne
  cases g with
  | blank c =>
    rw [if_neg (by simp)]
    exact .put (.move h (by rcases hg with rfl | rfl <;> simp [Gap.raw]) .nil)
  | cont =>
    rw [if_neg (by simp)]
    refine .put (.put (.move (xs := [92]) (r := 10 :: r) h (by decide) (.newline (p := p + 1) (r := r) (drop_succ h) .nil)))
  | line b =>
    rw [if_neg (by simp)]
    have h' : t.drop p = [47, 47] ++ (b ++ r) := h
    refine .move h' (by decide) ?_
    have := flow_breaks (mk := mk) (drop_add h')
    rw [show p + (Gap.line b).raw.length = p + [47, 47].length + b.length by simp [Gap.raw]; omega]
    exact this
  | block b =>
    rw [if_neg (by simp)]
    simp only [Gap.evs, blockEvs, Gap.shown]
    by_cases h10 : 10 ∈ b
    · rw [if_pos h10, if_pos h10]
      have h' : t.drop p = [47, 42] ++ (b ++ ([42, 47] ++ r)) := by rw [h]; simp [Gap.raw]
      refine .refresh hp (.move h' (by decide) ?_)
      have h2 := flow_breaks (mk := mk) (drop_add h')
      refine h2.append ?_
      rw [show p + (Gap.block b).raw.length = p + [47, 42].length + b.length + [42, 47].length by simp [Gap.raw]; omega]
      refine .move (drop_add (drop_add h')) (by decide) ?_
      have h3 := flow_puts (mk := mk) (t := t) (p := p + [47, 42].length + b.length + [42, 47].length) ((lastLine b ++ [42, 47]).map blankFor)
      rw [List.map_map] at h3
      exact h3
    · rw [if_neg h10, if_neg h10]
      refine .refresh hp (.move h (by simp [Gap.raw, h10]) ?_)
      exact flow_puts _
  | nl =>
    rw [if_pos rfl]
    exact .newline h .nil

/-- What is printed for gaps. -/
def gapsOut (l : List Gap) : List Nat := l.flatMap fun g => if g = .nl then [] else g.shown

theorem flow_gaps {mk : Marks} {t r : List Nat} {l : List Gap} : ∀ {p : Nat}, GapsRead l r → t.drop p = gaps l ++ r →
    Flow mk t p (gapEvs l p) (p + (gaps l).length) (gapsOut l) := by
  induction l with
  | nil => intro p _ _; exact .nil
  | cons g l ih =>
    intro p hg h
    rw [gaps_cons, List.append_assoc] at h
    rw [gaps_cons, List.length_append, ← Nat.add_assoc]
    exact (flow_gap hg.1 h).append (ih hg.2 (drop_add h))

/-! ## Going over gaps -/

/-- Characters at which `skip_until` stops. -/
def Stops (r : List Nat) : Prop := ∀ c v, r = c :: v → c ≠ 32 ∧ c ≠ 9 ∧ (c = 47 → ∀ w, v ≠ 47 :: w ∧ v ≠ 42 :: w) ∧ (c = 92 → ∀ w, v ≠ 10 :: w)

/-- The next character. -/
def next (r : List Nat) : Nat := r.headD EOFc

theorem skipUntil_gaps {t r : List Nat} (hr : Stops r) {l : List Gap} : ∀ {n p : Nat}, GapsRead l r → .nl ∉ l → t.drop p = gaps l ++ r → Usual (t.drop p) →
    (gaps l).length + 1 ≤ n → skipUntil t n p = (gapEvs l p, next r, p + (gaps l).length) := by
  induction l with
  | nil =>
    intro n p _ _ h hu hn
    obtain ⟨n, rfl⟩ : ∃ m, n = m + 1 := ⟨n - 1, by omega⟩
    have h' : t.drop p = r := h
    cases r with
    | nil => exact skipUntil_end h'
    | cons c v =>
      obtain ⟨h1, h2, h3, h4⟩ := hr c v rfl
      exact skipUntil_stop h' hu h1 h2 h3 h4
  | cons g l ih =>
    intro n p hg hno h hu hn
    obtain ⟨n, rfl⟩ : ∃ m, n = m + 1 := ⟨n - 1, by omega⟩
    rw [gaps_cons, List.append_assoc] at h
    have hlen : 1 ≤ g.raw.length := by
      have := g.raw_ne
      cases hr : g.raw with
      | nil => exact absurd hr this
      | cons => simp
    rw [gaps_cons, List.length_append] at hn
    have hu' : Usual (t.drop (p + g.raw.length)) := by
      rw [drop_add h]
      rw [h] at hu
      exact hu.tail
    rw [skipUntil_gap hg.1 (fun he => hno (by simp [he])) h hu, ih hg.2 (fun hm => hno (List.mem_cons_of_mem _ hm)) (drop_add h) hu' (by omega),
      gapEvs, gaps_cons, List.length_append, Nat.add_assoc]

theorem until_gaps {t r : List Nat} {p : Nat} {l : List Gap} (hr : Stops r) (hg : GapsRead l r) (hno : .nl ∉ l) (h : t.drop p = gaps l ++ r) (hp : p ≤ t.length)
    (hu : Usual (t.drop p)) : until' t p = (gapEvs l p, next r, p + (gaps l).length) := by
  have := drop_length h
  rw [List.length_append] at this
  exact skipUntil_gaps hr hg hno h hu (by omega)

theorem mute_append (a b : List Ev) : mute (a ++ b) = mute a ++ mute b := by
  induction a with
  | nil => rfl
  | cons x a ih => cases x <;> simp [mute, ih]

theorem split_nl (l : List Gap) : .nl ∉ l ∨ ∃ a b, l = a ++ .nl :: b ∧ .nl ∉ a := by
  induction l with
  | nil => exact .inl (by simp)
  | cons g l ih =>
    by_cases hg : g = .nl
    · subst hg
      exact .inr ⟨[], l, rfl, by simp⟩
    · rcases ih with h | ⟨a, b, rfl, h⟩
      · exact .inl (by simp [h, Ne.symm hg])
      · exact .inr ⟨g :: a, b, rfl, by simp [h, Ne.symm hg]⟩

theorem gapsRead_append {a b : List Gap} {r : List Nat} : GapsRead (a ++ b) r ↔ GapsRead a (gaps b ++ r) ∧ GapsRead b r := by
  induction a with
  | nil => simp [GapsRead]
  | cons g a ih =>
    simp only [List.cons_append, GapsRead, ih, gaps_append, List.append_assoc, and_assoc]

theorem skipLines_gaps {t r : List Nat} (hr : Stops r) (h10 : ∀ v, r ≠ 10 :: v) : ∀ {k n p : Nat} {l : List Gap}, l.length ≤ k → GapsRead l r → t.drop p = gaps l ++ r →
    p ≤ t.length → Usual (t.drop p) → l.length + 1 ≤ n → skipLines t n p = (mute (gapEvs l p), next r, p + (gaps l).length) := by
  intro k
  induction k with
  | zero =>
    intro n p l hk _ h hp hu hn
    obtain ⟨n, rfl⟩ : ∃ m, n = m + 1 := ⟨n - 1, by omega⟩
    obtain rfl : l = [] := List.length_eq_zero_iff.1 (by omega)
    have h1 : next r ≠ 10 := by
      cases r with
      | nil => simp [next, EOFc]
      | cons c v =>
        intro he
        exact h10 v (by rw [show c = 10 from he])
    rw [skipLines, until_gaps (l := []) hr trivial (by simp) h hp hu]
    simp only [if_neg h1]
  | succ k ih =>
    intro n p l hk hg h hp hu hn
    obtain ⟨n, rfl⟩ : ∃ m, n = m + 1 := ⟨n - 1, by omega⟩
    rcases split_nl l with hno | ⟨a, b, rfl, hno⟩
    · have h1 : next r ≠ 10 := by
        cases r with
        | nil => simp [next, EOFc]
        | cons c v =>
          intro he
          exact h10 v (by rw [show c = 10 from he])
      rw [skipLines, until_gaps hr hg hno h hp hu]
      simp only [if_neg h1]
    · have hg' := gapsRead_append.1 hg
      have e1 : gaps (.nl :: b) ++ r = 10 :: (gaps b ++ r) := by simp [gaps, Gap.raw]
      rw [e1] at hg'
      rw [gaps_append, List.append_assoc, e1] at h
      have hst : Stops (10 :: (gaps b ++ r)) := by
        rintro c v he
        cases he
        exact ⟨by decide, by decide, by intro h; exact absurd h (by decide), by intro h; exact absurd h (by decide)⟩
      have h2 := drop_add h
      have hu2 : Usual (t.drop (p + (gaps a).length + 1)) := by
        rw [drop_succ h2]
        rw [h] at hu
        exact (hu.tail (t := 10 :: (gaps b ++ r))).tail (a := [10])
      simp only [List.length_append, List.length_cons] at hk hn
      rw [skipLines, until_gaps hst hg'.1 hno h hp hu]
      simp only [show next (10 :: (gaps b ++ r)) = 10 from rfl, if_pos]
      rw [scan_cons h2]
      dsimp only
      rw [ih (by omega) hg'.2.2 (drop_succ h2) (le_of_drop h2) hu2 (by omega), gapEvs_append, mute_append, gapEvs]
      simp [Gap.evs, Gap.raw, mute, gaps_append, gaps_cons]
      omega

theorem lines_gaps {t r : List Nat} {p : Nat} {l : List Gap} (hr : Stops r) (h10 : ∀ v, r ≠ 10 :: v) (hg : GapsRead l r) (h : t.drop p = gaps l ++ r) (hp : p ≤ t.length)
    (hu : Usual (t.drop p)) : lines' t p = (mute (gapEvs l p), next r, p + (gaps l).length) := by
  have h1 := drop_length h
  rw [List.length_append] at h1
  have h2 : l.length ≤ (gaps l).length := by
    clear hg h hu h1
    induction l with
    | nil => simp
    | cons g l ih =>
      have := List.length_pos_iff.2 g.raw_ne
      rw [gaps_cons, List.length_append, List.length_cons]
      omega
  exact skipLines_gaps hr h10 (Nat.le_refl _) hg h hp hu (by omega)

/-! ## Pieces of lines -/

/-- The lines behind a line. -/
def tailOf (ls : List (List Piece)) : List Nat := ls.flatMap fun l => 10 :: raws l

theorem textOf_cons (l : List Piece) (ls : List (List Piece)) : textOf (l :: ls) = raws l ++ tailOf ls := rfl

theorem tailOf_cons (l : List Piece) (ls : List (List Piece)) : tailOf (l :: ls) = 10 :: textOf (l :: ls) := by simp [tailOf, textOf]

/-- What is behind a line: nothing, or the end of the line. -/
def Tail (r : List Nat) : Prop := r = [] ∨ ∃ v, r = 10 :: v

theorem tail_tailOf (ls : List (List Piece)) : Tail (tailOf ls) := by
  cases ls with
  | nil => exact .inl rfl
  | cons l ls => exact .inr ⟨_, tailOf_cons l ls⟩

theorem Gap.Fits.ext {g : Gap} {a r : List Nat} (h : g.Fits a) (hr : Tail r) : g.Fits (a ++ r) := by
  cases g with
  | line b =>
    refine ⟨?_, h.2⟩
    rcases h.1 with rfl | ⟨v, rfl⟩
    · exact hr
    · exact .inr ⟨_, rfl⟩
  | _ => exact h

theorem GapsRead.ext {l : List Gap} {a r : List Nat} (ha : a ≠ []) (h : GapsRead l a) : GapsRead l (a ++ r) := by
  induction l with
  | nil => trivial
  | cons g l ih =>
    refine ⟨?_, ih h.2⟩
    rw [← List.append_assoc]
    have h1 := h.1
    cases g with
    | line b =>
      refine ⟨?_, h1.2⟩
      rcases h1.1 with he | ⟨v, he⟩
      · simp [ha] at he
      · exact .inr ⟨v ++ r, by rw [he]; rfl⟩
    | _ => exact h1

theorem Piece.Fits.ext {s : Piece} {a r : List Nat} (h : s.Fits a) (hr : Tail r) : s.Fits (a ++ r) := by
  have hw : ∀ {c v}, a ++ r = c :: v → (∀ c v, a = c :: v → wordChar c = false) → wordChar c = false := by
    intro c v he hn
    cases a with
    | nil =>
      rcases hr with rfl | ⟨v, rfl⟩
      · cases he
      · cases he
        decide
    | cons d a =>
      cases he
      exact hn c a rfl
  cases s with
  | gap g => exact ⟨h.1, h.2.ext hr⟩
  | str q b => exact h
  | word w => exact ⟨h.1, fun c v he => hw he h.2⟩
  | chr c =>
    obtain ⟨h1, h2, h3, h4, h5, h6, h7, h8, h9⟩ := h
    refine ⟨h1, h2, h3, h4, h5, h6, h7, ?_, ?_⟩
    · intro hc
      obtain ⟨g1, g2⟩ := h8 hc
      cases a with
      | nil => exact absurd rfl g1
      | cons d a =>
        refine ⟨by simp, ?_⟩
        intro v he
        cases he
        exact g2 a rfl
    · intro hc v
      have := h9 hc
      cases a with
      | nil =>
        rcases hr with rfl | ⟨v, rfl⟩
        · simp
        · simp
      | cons d a =>
        have := this a
        simp only [List.cons_append]
        constructor
        · intro he
          cases he
          exact this.1 rfl
        · intro he
          cases he
          exact this.2 rfl
  | call w br =>
    cases br with
    | none => exact ⟨h.1, fun c v he => hw he h.2⟩
    | some ab =>
      refine ⟨h.1, ?_, ?_⟩
      · have := h.2.1.ext (r := r) (by simp)
        simpa using this
      · have := h.2.2.ext (r := r) (by simp)
        simpa using this

theorem split_gaps (l : List Piece) : ∃ (gs : List Gap) (z : List Piece), l = gs.map Piece.gap ++ z ∧ (z = [] ∨ ∃ s z', z = s :: z' ∧ s.solid = true) := by
  induction l with
  | nil => exact ⟨[], [], rfl, .inl rfl⟩
  | cons x l ih =>
    cases hx : x.solid
    · cases x with
      | gap g =>
        obtain ⟨gs, z, rfl, hz⟩ := ih
        exact ⟨g :: gs, z, rfl, hz⟩
      | _ => cases hx
    · exact ⟨[], x :: l, rfl, .inr ⟨x, l, rfl, hx⟩⟩

theorem raws_gaps (gs : List Gap) (z : List Piece) : raws (gs.map Piece.gap ++ z) = gaps gs ++ raws z := by
  induction gs with
  | nil => rfl
  | cons g gs ih => rw [List.map_cons, List.cons_append, raws_cons, ih, gaps_cons, List.append_assoc]; rfl

theorem reads_gaps {gs : List Gap} {z : List Piece} (h : Reads (gs.map Piece.gap ++ z)) {r : List Nat} (hr : Tail r) : GapsRead gs (raws z ++ r) ∧ .nl ∉ gs ∧ Reads z := by
  induction gs with
  | nil => exact ⟨trivial, by simp, h⟩
  | cons g gs ih =>
    obtain ⟨h1, h2, h3⟩ := ih h.2
    have hf : g.Fits (raws (gs.map Piece.gap ++ z)) := h.1.2
    refine ⟨⟨?_, h1⟩, ?_, h3⟩
    · rw [raws_gaps] at hf
      rw [← List.append_assoc]
      exact hf.ext hr
    · intro hm
      rcases List.mem_cons.1 hm with he | hm
      · exact h.1.1 he.symm
      · exact h2 hm

theorem letter_facts {c : Nat} (h : isLetter c = true) : c ≠ 10 ∧ c ≠ 32 ∧ c ≠ 9 ∧ c ≠ 34 ∧ c ≠ 39 ∧ c ≠ 35 ∧ c ≠ 92 ∧ c ≠ 47 ∧ c ≠ 40 ∧ c ≠ 41 ∧ c ≠ EOFc := by
  refine ⟨?_, ?_, ?_, ?_, ?_, ?_, ?_, ?_, ?_, ?_, ?_⟩ <;> (rintro rfl; revert h; decide)

/-- The first character of a piece that is more than a gap. -/
theorem solid_head {s : Piece} {a : List Nat} (hs : s.solid = true) (hf : s.Fits a) : ∃ c v, s.raw = c :: v ∧ c ≠ 10 ∧ c ≠ 32 ∧ c ≠ 9 ∧ c ≠ 35 ∧
    (c = 47 → ∀ w, v ++ a ≠ 47 :: w ∧ v ++ a ≠ 42 :: w) ∧ (c = 92 → ∀ w, v ++ a ≠ 10 :: w) ∧ (c = 40 → s = .chr 40) ∧ (c = 41 → s = .chr 41) := by
  have hw : ∀ {w : List Nat}, Word w → ∃ c v, w = c :: v ∧ isLetter c = true := fun h => h.1
  cases s with
  | gap g => cases hs
  | str q b =>
    refine ⟨q, b ++ [q], rfl, ?_⟩
    rcases hf.1 with rfl | rfl <;> simp
  | word w =>
    obtain ⟨c, v, rfl, hc⟩ := hw hf.1
    obtain ⟨h1, h2, h3, h4, h5, h6, h7, h8, h9, h10, h11⟩ := letter_facts hc
    exact ⟨c, v, rfl, h1, h2, h3, h6, fun h => absurd h h8, fun h => absurd h h7, fun h => absurd h h9, fun h => absurd h h10⟩
  | call w br =>
    have h0 : Word w := by
      cases br with
      | none => exact hf.1
      | some ab => exact hf.1
    obtain ⟨c, v, rfl, hc⟩ := hw h0
    obtain ⟨h1, h2, h3, h4, h5, h6, h7, h8, h9, h10, h11⟩ := letter_facts hc
    exact ⟨c, v ++ bracketsRaw br, rfl, h1, h2, h3, h6, fun h => absurd h h8, fun h => absurd h h7, fun h => absurd h h9, fun h => absurd h h10⟩
  | chr c =>
    obtain ⟨h1, h2, h3, h4, h5, h6, h7, h8, h9⟩ := hf
    exact ⟨c, [], rfl, h2, h3, h4, h7, h9, fun h => (h8 h).2, fun h => by rw [h], fun h => by rw [h]⟩

theorem solid_stops {s : Piece} {a : List Nat} (hs : s.solid = true) (hf : s.Fits a) : Stops (s.raw ++ a) ∧ ∀ v, s.raw ++ a ≠ 10 :: v := by
  obtain ⟨c, v, h, h1, h2, h3, _, h4, h5, _⟩ := solid_head hs hf
  rw [h]
  refine ⟨?_, ?_⟩
  · intro d w he
    cases he
    exact ⟨h2, h3, h4, h5⟩
  · intro w he
    cases he
    exact h1 rfl

theorem tail_stops {r : List Nat} (h : Tail r) : Stops r := by
  intro c v he
  rcases h with rfl | ⟨w, rfl⟩
  · cases he
  · cases he
    exact ⟨by decide, by decide, by intro h; exact absurd h (by decide), by intro h; exact absurd h (by decide)⟩

end RuC.Text
