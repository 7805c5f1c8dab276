import Verif.Text.Spec
import Verif.Text.Model

/-!
# Lemmas about the text between the directives: the events of the pieces of a text
-/

namespace RuC.Text
open RuC RuC.Utf8 RuC.Io RuC.Locator

/-! ## Reading -/

theorem drop_succ {t r : List Nat} {p c : Nat} (h : t.drop p = c :: r) : t.drop (p + 1) = r := by
  rw [show t.drop (p + 1) = (t.drop p).drop 1 by rw [List.drop_drop], h]
  rfl

theorem drop_add {t a r : List Nat} {p : Nat} (h : t.drop p = a ++ r) : t.drop (p + a.length) = r := by
  rw [show t.drop (p + a.length) = (t.drop p).drop a.length by rw [List.drop_drop], h]
  simp

theorem take_add {t a r : List Nat} {p : Nat} (h : t.drop p = a ++ r) : t.take (p + a.length) = t.take p ++ a := by
  rw [List.take_add, h]
  simp

theorem drop_length {t a : List Nat} {p : Nat} (h : t.drop p = a) : a.length = t.length - p := by
  rw [← h]
  simp

theorem le_of_drop {t r : List Nat} {p c : Nat} (h : t.drop p = c :: r) : p < t.length := by
  have := drop_length h
  simp at this
  omega

theorem scan_cons {t r : List Nat} {p c : Nat} (h : t.drop p = c :: r) : scan t p = (c, p + 1) := by
  have h1 : t[p]? = some c := by
    rw [show t[p]? = (t.drop p)[0]? by simp, h]
    rfl
  unfold scan
  rw [h1]

theorem scan_nil {t : List Nat} {p : Nat} (h : t.drop p = []) : scan t p = (EOFc, p) := by
  have h1 : t[p]? = none := by
    have := drop_length h
    simp at this
    simp
    omega
  unfold scan
  rw [h1]

theorem unscan_char {c p : Nat} (h : c ≠ EOFc) : unscan c (p + 1) = p := by
  unfold unscan
  rw [if_neg h]
  rfl

/-! ## Comments up to the end of the line -/

/-- The events of the ends of lines in a comment. -/
def breaks : Nat → List Nat → List Ev
  | _, [] => []
  | p, c :: r => (if c = 10 then [.newline (p + 1), .put c] else []) ++ breaks (p + 1) r

/-- No bare end of line, when the character before is a backslash or not. -/
def Sheltered : Bool → List Nat → Prop
  | _, [] => True
  | was, c :: r => (c = 10 → was = true) ∧ Sheltered (c == 92) r

theorem sheltered_of {b : List Nat} : ∀ {was : Bool} {z : List Nat}, (∀ x y, z ++ b = x ++ 10 :: y → ∃ w, x = w ++ [92]) →
    (was = true ↔ ∃ w, z = w ++ [92]) → Sheltered was b := by
  induction b with
  | nil => intro was z _ _; trivial
  | cons c r ih =>
    intro was z h hz
    refine ⟨?_, ?_⟩
    · intro hc
      subst hc
      exact hz.2 (h z r rfl)
    · refine ih (z := z ++ [c]) (by rw [List.append_assoc]; exact h) ?_
      simp only [beq_iff_eq]
      constructor
      · rintro rfl
        exact ⟨z, rfl⟩
      · rintro ⟨w, hw⟩
        have := congrArg List.getLast? hw
        simpa using this

/-- Whether a text ends with a backslash, when it began behind one or not. -/
def endsSlash : Bool → List Nat → Bool
  | was, [] => was
  | _, c :: r => endsSlash (c == 92) r

theorem endsSlash_false {b : List Nat} : ∀ {was : Bool} {z : List Nat}, (was = true ↔ ∃ w, z = w ++ [92]) → (∀ x, z ++ b ≠ x ++ [92]) → endsSlash was b = false := by
  induction b with
  | nil =>
    intro was z hz h
    cases hw : was
    · rfl
    · obtain ⟨w, rfl⟩ := hz.1 hw
      exact absurd (by simp) (h w)
  | cons c r ih =>
    intro was z hz h
    refine ih (z := z ++ [c]) ?_ (by rw [List.append_assoc]; exact h)
    simp only [beq_iff_eq]
    constructor
    · rintro rfl
      exact ⟨z, rfl⟩
    · rintro ⟨w, hw⟩
      have := congrArg List.getLast? hw
      simpa using this

theorem commentLoop_spec {r : List Nat} (hr : r = [] ∨ ∃ v, r = 10 :: v) {b : List Nat} : ∀ {was : Bool} {p : Nat}, Sheltered was b → endsSlash was b = false →
    13 ∉ b → commentLoop was p (b ++ r) = (breaks p b, p + b.length) := by
  induction b with
  | nil =>
    intro was p _ h _
    simp only [endsSlash] at h
    subst h
    rcases hr with rfl | ⟨v, rfl⟩
    · rfl
    · simp [commentLoop, breaks]
  | cons c b ih =>
    intro was p hs he h13
    have h13' : c ≠ 13 ∧ 13 ∉ b := by
      refine ⟨?_, fun h => h13 (List.mem_cons_of_mem _ h)⟩
      rintro rfl
      exact h13 List.mem_cons_self
    have hno : ¬ (was = false ∧ c = 10) := by
      rintro ⟨h1, h2⟩
      rw [hs.1 h2] at h1
      cases h1
    have hw : (c == 92 || (was && c == 13)) = (c == 92) := by
      rw [show (c == 13) = false by simp [h13'.1]]
      simp
    rw [List.cons_append, commentLoop, if_neg hno, hw, ih hs.2 he h13'.2, breaks]
    simp
    omega

/-! ## Comments in brackets -/

/-- No end of a comment, when the character before is a star or not, up to a star and a slash. -/
def Open : Bool → List Nat → Prop
  | _, [] => True
  | star, c :: r => ¬ (star = true ∧ c = 47) ∧ Open (c == 42) r

theorem open_of {b : List Nat} : ∀ {star : Bool} {z : List Nat}, (∀ x y, z ++ b ++ [42] ≠ x ++ 42 :: 47 :: y) → (star = true ↔ ∃ w, z = w ++ [42]) → Open star b := by
  induction b with
  | nil => intro star z _ _; trivial
  | cons c r ih =>
    intro star z h hz
    refine ⟨?_, ?_⟩
    · rintro ⟨hs, rfl⟩
      obtain ⟨w, rfl⟩ := hz.1 hs
      exact h w (r ++ [42]) (by simp)
    · refine ih (z := z ++ [c]) (by intro x y; rw [List.append_assoc z]; exact h x y) ?_
      simp only [beq_iff_eq]
      constructor
      · rintro rfl
        exact ⟨z, rfl⟩
      · rintro ⟨w, hw⟩
        have := congrArg List.getLast? hw
        simpa using this

theorem firstLoop_closed {r b : List Nat} : ∀ {star : Bool} {cs : List Nat} {p : Nat}, Open star b → 13 ∉ b → 10 ∉ b →
    firstLoop star cs p (b ++ 42 :: 47 :: r) = .closed (cs ++ b ++ [42, 47]) (p + b.length + 2) := by
  induction b with
  | nil =>
    intro star cs p _ _ _
    simp [firstLoop]
  | cons c b ih =>
    intro star cs p ho h13 h10
    have h1 : c ≠ 13 := by rintro rfl; exact h13 List.mem_cons_self
    have h2 : c ≠ 10 := by rintro rfl; exact h10 List.mem_cons_self
    rw [List.cons_append, firstLoop, if_neg ho.1, if_neg (by omega), ih ho.2 (fun h => h13 (List.mem_cons_of_mem _ h)) (fun h => h10 (List.mem_cons_of_mem _ h))]
    simp
    omega

theorem firstLoop_broken {r b : List Nat} : ∀ {star : Bool} {cs : List Nat} {p : Nat}, Open star (b ++ [10]) → 13 ∉ b → 10 ∉ b →
    ∃ s, firstLoop star cs p (b ++ 10 :: r) = .broken s 10 (p + b.length + 1) r := by
  induction b with
  | nil =>
    intro star cs p _ _ _
    exact ⟨star, by simp [firstLoop]⟩
  | cons c b ih =>
    intro star cs p ho h13 h10
    have h1 : c ≠ 13 := by rintro rfl; exact h13 List.mem_cons_self
    have h2 : c ≠ 10 := by rintro rfl; exact h10 List.mem_cons_self
    obtain ⟨s, hs⟩ := ih (cs := cs ++ [c]) (p := p + 1) ho.2 (fun h => h13 (List.mem_cons_of_mem _ h)) (fun h => h10 (List.mem_cons_of_mem _ h))
    refine ⟨s, ?_⟩
    rw [List.cons_append, firstLoop, if_neg ho.1, if_neg (by omega), hs]
    simp
    omega

theorem takeWhile_all {p : Nat → Bool} : ∀ {l : List Nat}, (∀ x ∈ l, p x = true) → l.takeWhile p = l
  | [], _ => rfl
  | c :: l, h => by
    rw [List.takeWhile_cons, if_pos (h c List.mem_cons_self), takeWhile_all fun x hx => h x (List.mem_cons_of_mem _ hx)]

theorem takeWhile_stops {p : Nat → Bool} {x : Nat} {m : List Nat} (hx : p x = false) : ∀ {l : List Nat}, x ∈ l → (l ++ m).takeWhile p = l.takeWhile p
  | c :: l, h => by
    rw [List.cons_append, List.takeWhile_cons, List.takeWhile_cons]
    cases hc : p c
    · rfl
    · rcases List.mem_cons.1 h with rfl | h
      · rw [hx] at hc
        cases hc
      · rw [takeWhile_stops hx h]

theorem lastLine_cons_mem {c : Nat} {b : List Nat} (h : 10 ∈ b) : lastLine (c :: b) = lastLine b := by
  unfold lastLine
  rw [List.reverse_cons, takeWhile_stops (x := 10) (by simp) (List.mem_reverse.2 h)]

theorem lastLine_no {b : List Nat} (h : 10 ∉ b) : lastLine b = b := by
  unfold lastLine
  rw [takeWhile_all, List.reverse_reverse]
  intro x hx
  have := List.mem_reverse.1 hx
  simp
  rintro rfl
  exact h this

theorem lastLine_append {a b : List Nat} (h : 10 ∈ b) : lastLine (a ++ b) = lastLine b := by
  unfold lastLine
  rw [List.reverse_append, takeWhile_stops (x := 10) (by simp) (List.mem_reverse.2 h)]

theorem lastLine_break {a b : List Nat} (h : 10 ∉ b) : lastLine (a ++ 10 :: b) = b := by
  unfold lastLine
  rw [List.reverse_append, List.reverse_cons, List.append_assoc, List.takeWhile_append_of_pos, List.singleton_append, List.takeWhile_cons,
    if_neg (by simp), List.append_nil, List.reverse_reverse]
  intro x hx
  have := List.mem_reverse.1 hx
  simp
  rintro rfl
  exact h this

/-- Where the second loop begins to count blanks: behind the last end of line. -/
def lastBreak : Nat → Nat → List Nat → Nat
  | _, b, [] => b
  | p, b, c :: r => lastBreak (p + 1) (if c = 10 then p + 1 else b) r

theorem secondLoop_spec {r b : List Nat} : ∀ {star : Bool} {c p k : Nat}, ¬ (star = true ∧ c = 47) → Open (c == 42) b →
    secondLoop star c p k (b ++ 42 :: 47 :: r) =
      ((if c = 10 then [.newline p, .put c] else []) ++ breaks p b, some (lastBreak p (if c = 10 then p else k) b), p + b.length + 2) := by
  induction b with
  | nil =>
    intro star c p k h _
    rw [List.nil_append, secondLoop, if_neg h, secondLoop, if_neg (by simp)]
    cases r with
    | nil => simp [secondLoop, breaks, lastBreak]
    | cons d r => simp [secondLoop, breaks, lastBreak]
  | cons d b ih =>
    intro star c p k h ho
    rw [List.cons_append, secondLoop, if_neg h, ih (by simpa using ho.1) ho.2]
    simp [breaks, lastBreak]
    omega

theorem lastBreak_spec {t r b : List Nat} : ∀ {p k : Nat}, t.drop p = b ++ r → k ≤ p → ∃ z, (t.take p).drop k = z ∧
    (t.take (p + b.length)).drop (lastBreak p k b) = if 10 ∈ b then lastLine b else z ++ b := by
  induction b with
  | nil => intro p k h hk; exact ⟨_, rfl, by simp [lastBreak]⟩
  | cons c b ih =>
    intro p k h hk
    refine ⟨_, rfl, ?_⟩
    have h1 := drop_succ h
    have hlt := le_of_drop h
    have e : t.take (p + 1) = t.take p ++ [c] := take_add (a := [c]) (r := b ++ r) h
    obtain ⟨z, hz, h2⟩ := ih (k := if c = 10 then p + 1 else k) h1 (by split <;> omega)
    rw [show p + (c :: b).length = p + 1 + b.length by simp; omega, lastBreak, h2]
    by_cases hb : 10 ∈ b
    · rw [if_pos hb, if_pos (List.mem_cons_of_mem _ hb)]
      rw [lastLine_cons_mem hb]
    · rw [if_neg hb]
      by_cases hc : c = 10
      · subst hc
        rw [if_pos rfl] at hz
        have hz' : z = [] := by rw [← hz]; simp
        rw [hz', if_pos List.mem_cons_self]
        exact (lastLine_break (a := []) hb).symm
      · rw [if_neg hc] at hz
        have hc' : ¬ 10 ∈ c :: b := by
          rintro h
          rcases List.mem_cons.1 h with h | h
          · exact hc h.symm
          · exact hb h
        rw [if_neg hc', ← hz, e, List.drop_append]
        have : k - (t.take p).length = 0 := by simp; omega
        rw [this]
        simp

theorem open_append {a b : List Nat} : ∀ {star : Bool}, Open star (a ++ b) → Open star a ∧ ∃ s, Open s b := by
  induction a with
  | nil => intro star h; exact ⟨trivial, star, h⟩
  | cons c a ih =>
    intro star h
    obtain ⟨h1, h2⟩ := ih h.2
    exact ⟨⟨h.1, h1⟩, h2⟩

theorem breaks_append {a b : List Nat} : ∀ {p : Nat}, breaks p (a ++ b) = breaks p a ++ breaks (p + a.length) b := by
  induction a with
  | nil => intro p; rfl
  | cons c a ih =>
    intro p
    rw [List.cons_append, breaks, breaks, ih, List.append_assoc, show p + 1 + a.length = p + (c :: a).length by simp; omega]

theorem breaks_none {a : List Nat} (h : 10 ∉ a) : ∀ {p : Nat}, breaks p a = [] := by
  induction a with
  | nil => intro p; rfl
  | cons c a ih =>
    intro p
    have hc : c ≠ 10 := by rintro rfl; exact h List.mem_cons_self
    rw [breaks, if_neg hc, ih fun h' => h (List.mem_cons_of_mem _ h')]
    rfl

/-- The events of a comment in brackets. -/
def blockEvs (p : Nat) (b : List Nat) : List Ev :=
  if 10 ∈ b then .refresh p :: breaks (p + 2) b ++ (lastLine b ++ [42, 47]).map fun c => .put (blankOf c)
  else .refresh p :: (Gap.block b).raw.map .put

theorem split_first {b : List Nat} (h : 10 ∈ b) : ∃ x y, b = x ++ 10 :: y ∧ 10 ∉ x := by
  induction b with
  | nil => cases h
  | cons c b ih =>
    by_cases hc : c = 10
    · exact ⟨[], b, by rw [hc]; rfl, by simp⟩
    · rcases List.mem_cons.1 h with rfl | h
      · exact absurd rfl hc
      · obtain ⟨x, y, rfl, hx⟩ := ih h
        refine ⟨c :: x, y, rfl, ?_⟩
        intro hm
        rcases List.mem_cons.1 hm with rfl | hm
        · exact hc rfl
        · exact hx hm

theorem skipMulti_spec {t r b : List Nat} {p : Nat} (h : t.drop p = (Gap.block b).raw ++ r) (hb : ∀ x y, b ++ [42] ≠ x ++ 42 :: 47 :: y) (h13 : 13 ∉ b) :
    skipMulti t (p + 2) = (blockEvs p b, p + (Gap.block b).raw.length) := by
  have ho : Open false b := open_of (z := []) (by simpa using hb) (by simp)
  have h2 : t.drop (p + 2) = b ++ 42 :: 47 :: r := by
    rw [show p + 2 = p + [47, 42].length from rfl, drop_add (r := b ++ 42 :: 47 :: r)]
    rw [h]
    simp [Gap.raw]
  unfold skipMulti blockEvs
  rw [h2]
  by_cases h10 : 10 ∈ b
  · obtain ⟨x, y, rfl, hx⟩ := split_first h10
    have ho1 : Open false (x ++ [10]) := by
      have := (open_append (a := x ++ [10]) (b := y) (by simpa using ho)).1
      exact this
    have ho2 : Open false y := by
      obtain ⟨s, hs⟩ := (open_append ho).2
      exact hs.2
    have h13x : 13 ∉ x := fun hm => h13 (by simp [hm])
    obtain ⟨s, hs⟩ := firstLoop_broken (r := y ++ 42 :: 47 :: r) (cs := [47, 42]) (p := p + 2) ho1 h13x hx
    rw [List.append_assoc, List.cons_append, hs]
    dsimp only
    rw [secondLoop_spec (by simp) (by simpa using ho2), if_pos h10, if_pos rfl, if_pos rfl]
    dsimp only
    have h3 : t.drop (p + 2 + x.length + 1) = (y ++ [42, 47]) ++ r := by
      rw [show p + 2 + x.length + 1 = p + 2 + (x ++ [10]).length by simp; omega, drop_add (r := y ++ 42 :: 47 :: r)]
      · simp
      · rw [h2]
        simp
    obtain ⟨z, hz, hl⟩ := lastBreak_spec (b := y ++ [42, 47]) h3 (Nat.le_refl _)
    have hz' : z = [] := by rw [← hz]; simp
    subst hz'
    have e1 : lastBreak (p + 2 + x.length + 1) (p + 2 + x.length + 1) (y ++ [42, 47]) = lastBreak (p + 2 + x.length + 1) (p + 2 + x.length + 1) y := by
      generalize p + 2 + x.length + 1 = q
      have : ∀ (y : List Nat) (q k : Nat), lastBreak q k (y ++ [42, 47]) = lastBreak q k y := by
        intro y
        induction y with
        | nil => intro q k; simp [lastBreak]
        | cons c y ih => intro q k; rw [List.cons_append, lastBreak, lastBreak, ih]
      exact this y q q
    have e2 : (if 10 ∈ y ++ [42, 47] then lastLine (y ++ [42, 47]) else [] ++ (y ++ [42, 47])) = lastLine (x ++ 10 :: y) ++ [42, 47] := by
      by_cases hy : 10 ∈ y
      · rw [if_pos (by simp [hy]), lastLine_append (List.mem_cons_of_mem _ hy), lastLine_cons_mem hy]
        obtain ⟨u, v, hu, hv⟩ : ∃ u v, y = u ++ 10 :: v ∧ 10 ∉ v := by
          obtain ⟨u, v, hu, hv⟩ := split_first (List.mem_reverse.2 hy)
          refine ⟨v.reverse, u.reverse, ?_, by simpa using hv⟩
          have := congrArg List.reverse hu
          simpa using this
        subst hu
        rw [lastLine_break hv, List.append_assoc, List.cons_append, lastLine_break (by simp [hv])]
      · rw [if_neg (by simp [hy]), lastLine_break hy]
        rfl
    rw [e1, e2] at hl
    rw [List.length_append, show p + 2 + x.length + 1 + (y.length + [42, 47].length) = p + 2 + x.length + 1 + y.length + 2 from rfl] at hl
    rw [hl, breaks_append, breaks_none hx]
    refine Prod.ext ?_ ?_
    · simp [breaks]
    · simp [Gap.raw]
      omega
  · rw [firstLoop_closed ho h13 h10, if_neg h10]
    refine Prod.ext ?_ ?_
    · simp [Gap.raw]
    · simp [Gap.raw]
      omega

/-! ## Strings -/

/-- The events of what is between quotes. -/
def strEvs : Nat → List Nat → List Ev
  | _, [] => []
  | p, c :: r => (if c = 10 then [.newline (p + 1)] else []) ++ .put c :: strEvs (p + 1) r

theorem stringLoop_cons {q c p : Nat} {was : Bool} {s : List Nat} (h1 : ¬ (was = false ∧ c = q)) (h2 : c ≠ 13) (h3 : ¬ (was = false ∧ c = 10)) :
    stringLoop q was p (c :: s) = ((if c = 10 then [.newline (p + 1)] else []) ++ .put c :: (stringLoop q (!was && c == 92) (p + 1) s).1,
      (stringLoop q (!was && c == 92) (p + 1) s).2) := by
  cases s with
  | nil => simp only [stringLoop, if_neg h1, if_neg h2, if_neg h3]
  | cons d s => rw [stringLoop, if_neg h1, if_neg h2, if_neg h3]

theorem stringLoop_close {q p : Nat} {r : List Nat} : stringLoop q false p (q :: r) = ([], q, p + 1) := by
  cases r <;> simp [stringLoop]

theorem stringLoop_spec {q : Nat} (hq : q ≠ 92) {b r : List Nat} (hb : Quoted q b) : ∀ {p : Nat}, 13 ∉ b →
    stringLoop q false p (b ++ q :: r) = (strEvs p b, q, p + b.length + 1) := by
  induction hb with
  | nil => intro p _; rw [List.nil_append, stringLoop_close]; rfl
  | @plain c b h1 h2 h3 _ ih =>
    intro p h13
    have hc : c ≠ 13 := by rintro rfl; exact h13 List.mem_cons_self
    rw [List.cons_append, stringLoop_cons (by simp [h1]) hc (by simp [h3]), show (!false && c == 92) = false by simp [h2],
      ih fun h => h13 (List.mem_cons_of_mem _ h), strEvs]
    simp
    omega
  | @escaped c b _ ih =>
    intro p h13
    have hc : c ≠ 13 := by rintro rfl; exact h13 (by simp)
    rw [List.cons_append, stringLoop_cons (by simp [hq.symm]) (by decide) (by simp), show (!false && (92 : Nat) == 92) = true by rfl, List.cons_append,
      stringLoop_cons (by simp) hc (by simp), show (!true && c == 92) = false by rfl,
      ih fun h => h13 (List.mem_cons_of_mem _ (List.mem_cons_of_mem _ h)), strEvs, strEvs]
    simp
    omega

/-! ## Gaps -/

/-- The events of a gap at a position; for the end of a line those of `skip_lines`. -/
def Gap.evs : Gap → Nat → List Ev
  | .blank c, _ => [.put c]
  | .cont, p => [.put 92, .put 10, .newline (p + 2)]
  | .line b, p => breaks (p + 2) b
  | .block b, p => blockEvs p b
  | .nl, p => [.newline (p + 1)]

/-- The events of gaps from a position on. -/
def gapEvs : List Gap → Nat → List Ev
  | [], _ => []
  | x :: l, p => x.evs p ++ gapEvs l (p + x.raw.length)

theorem gaps_cons (x : Gap) (l : List Gap) : gaps (x :: l) = x.raw ++ gaps l := by simp [gaps]

theorem gaps_append (k l : List Gap) : gaps (k ++ l) = gaps k ++ gaps l := by simp [gaps]

theorem raws_cons (x : Piece) (l : List Piece) : raws (x :: l) = x.raw ++ raws l := by simp [raws]

theorem raws_append (k l : List Piece) : raws (k ++ l) = raws k ++ raws l := by simp [raws]

theorem gapEvs_append {k l : List Gap} : ∀ {p : Nat}, gapEvs (k ++ l) p = gapEvs k p ++ gapEvs l (p + (gaps k).length) := by
  induction k with
  | nil => intro p; rfl
  | cons x k ih =>
    intro p
    rw [List.cons_append, gapEvs, gapEvs, ih, List.append_assoc, gaps_cons, List.length_append, Nat.add_assoc]

/-- Characters that are read in the usual way. -/
def Usual (t : List Nat) : Prop := ∀ c ∈ t, c < 0x200000 ∧ c ≠ 13

theorem Usual.tail {t a : List Nat} (h : Usual (a ++ t)) : Usual t := fun c hc => h c (by simp [hc])

theorem Usual.head {t a : List Nat} (h : Usual (a ++ t)) : Usual a := fun c hc => h c (by simp [hc])

theorem Usual.no13 {t : List Nat} (h : Usual t) : 13 ∉ t := fun hm => (h 13 hm).2 rfl

theorem not_eof {c : Nat} (h : c < 0x200000) : c ≠ EOFc := by
  unfold EOFc
  omega

theorem head_usual {t r : List Nat} {c : Nat} (h : Usual t) (he : t = c :: r) : c < 0x200000 ∧ c ≠ 13 ∧ Usual r := by
  subst he
  exact ⟨(h c List.mem_cons_self).1, (h c List.mem_cons_self).2, fun x hx => h x (List.mem_cons_of_mem _ hx)⟩

/-- `skip_until` steps over a piece that is a blank or a comment. -/
theorem skipUntil_gap {t r : List Nat} {x : Gap} {p n : Nat} (hx : x.Fits r) (hs : x ≠ .nl) (h : t.drop p = x.raw ++ r) (hu : Usual (t.drop p)) :
    skipUntil t (n + 1) p = (x.evs p ++ (skipUntil t n (p + x.raw.length)).1, (skipUntil t n (p + x.raw.length)).2) := by
  cases x with
  | blank c =>
    have h' : t.drop p = c :: r := h
    rw [skipUntil, scan_cons h']
    dsimp only
    rcases hx with rfl | rfl <;> simp [Gap.evs, Gap.raw]
  | cont =>
    have h' : t.drop p = 92 :: 10 :: r := h
    rw [skipUntil, scan_cons h']
    dsimp only
    rw [if_neg (by decide), if_pos rfl, scan_cons (drop_succ h')]
    simp [Gap.evs, Gap.raw]
  | line b =>
    have h' : t.drop p = 47 :: 47 :: (b ++ r) := h
    obtain ⟨hr, hb1, hb2⟩ := hx
    have h13 : 13 ∉ b := by
      rw [h'] at hu
      intro hm
      exact (hu 13 (by simp [hm])).2 rfl
    have hc : skipComment t (p + 1 + 1) = (breaks (p + 2) b, p + 2 + b.length) := by
      unfold skipComment
      rw [drop_succ (drop_succ h')]
      exact commentLoop_spec hr (sheltered_of (z := []) hb1 (by simp)) (endsSlash_false (z := []) (by simp) hb2) h13
    rw [skipUntil, scan_cons h']
    dsimp only
    rw [if_pos rfl, scan_cons (drop_succ h')]
    dsimp only
    rw [if_neg (by decide), if_pos rfl, hc]
    simp only [Gap.evs, Gap.raw, List.length_cons]
    rw [show p + 2 + b.length = p + (b.length + 1 + 1) by omega]
  | block b =>
    have h' : t.drop p = 47 :: 42 :: (b ++ [42, 47] ++ r) := h
    have h13 : 13 ∉ b := by
      rw [h'] at hu
      intro hm
      exact (hu 13 (by simp [hm])).2 rfl
    rw [skipUntil, scan_cons h']
    dsimp only
    rw [if_pos rfl, scan_cons (drop_succ h')]
    dsimp only
    rw [if_pos rfl, show p + 1 + 1 = p + 2 from rfl, skipMulti_spec h hx h13]
    rfl
  | nl => exact absurd rfl hs

/-- `skip_until` stops at a character that is not a blank and does not begin a comment or a continuation. -/
theorem skipUntil_stop {t r : List Nat} {c p n : Nat} (h : t.drop p = c :: r) (hu : Usual (t.drop p)) (h1 : c ≠ 32) (h2 : c ≠ 9)
    (h3 : c = 47 → ∀ v, r ≠ 47 :: v ∧ r ≠ 42 :: v) (h4 : c = 92 → ∀ v, r ≠ 10 :: v) : skipUntil t (n + 1) p = ([], c, p) := by
  obtain ⟨hc, h13, hu'⟩ := head_usual hu h
  have hE : c ≠ EOFc := not_eof hc
  rw [skipUntil, scan_cons h]
  dsimp only
  by_cases h47 : c = 47
  · rw [if_pos h47]
    cases r with
    | nil =>
      rw [scan_nil (drop_succ h)]
      dsimp only
      rw [if_neg (by decide), if_neg (by decide)]
      subst h47
      simp [unscan, EOFc]
    | cons d r =>
      obtain ⟨hd, _⟩ := head_usual hu' rfl
      have hd' := not_eof hd
      rw [scan_cons (drop_succ h)]
      dsimp only
      have g := h3 h47 r
      rw [if_neg (by rintro rfl; exact g.2 rfl), if_neg (by rintro rfl; exact g.1 rfl), unscan_char hd', unscan_char (by decide), h47]
  · rw [if_neg h47]
    by_cases h92 : c = 92
    · rw [if_pos h92]
      cases r with
      | nil =>
        rw [scan_nil (drop_succ h)]
        dsimp only
        rw [if_neg (show ¬ EOFc = 13 by decide)]
        dsimp only
        rw [if_neg (by decide)]
        subst h92
        simp [unscan, EOFc]
      | cons d r =>
        obtain ⟨hd, hd13, _⟩ := head_usual hu' rfl
        have hd' := not_eof hd
        rw [scan_cons (drop_succ h)]
        dsimp only
        have g := h4 h92 r
        rw [if_neg hd13]
        dsimp only
        rw [if_neg (by rintro rfl; exact g rfl), unscan_char hd', unscan_char (by decide), h92]
    · rw [if_neg h92, if_neg (by omega), if_neg h13, unscan_char hE]

theorem skipUntil_end {t : List Nat} {p n : Nat} (h : t.drop p = []) : skipUntil t n p = ([], EOFc, p) := by
  cases n with
  | zero => rfl
  | succ n =>
    rw [skipUntil, scan_nil h]
    simp [EOFc, unscan]

end RuC.Text
