import Verif.Text.Block
import Verif.Locator.Search

/-!
# Lemmas about the text between the directives: the location of the parser
-/

namespace RuC.Text
open RuC RuC.Utf8 RuC.Io RuC.Locator

/-- The lines of a text. -/
def linesOf : List Nat → List (List Nat)
  | [] => [[]]
  | c :: r => if c = 10 then [] :: linesOf r else ((linesOf r).headD [] |>.cons c) :: (linesOf r).tail

/-- The lines of a text as lines of code. -/
def codes (t : List Nat) : List Line := (linesOf t).map .code

theorem linesOf_ne (t : List Nat) : linesOf t ≠ [] := by
  cases t with
  | nil => simp [linesOf]
  | cons c r =>
    rw [linesOf]
    split <;> simp

theorem linesOf_line {cs r : List Nat} (h : 10 ∉ cs) : linesOf (cs ++ 10 :: r) = cs :: linesOf r := by
  induction cs with
  | nil => simp [linesOf]
  | cons c cs ih =>
    rw [List.cons_append, linesOf, if_neg (by intro he; exact h (by simp [he])), ih (fun hm => h (by simp [hm]))]
    rfl

theorem linesOf_one {cs : List Nat} (h : 10 ∉ cs) : linesOf cs = [cs] := by
  induction cs with
  | nil => simp [linesOf]
  | cons c cs ih =>
    rw [linesOf, if_neg (by intro he; exact h (by simp [he])), ih (fun hm => h (by simp [hm]))]
    rfl

theorem linesOf_tail {cs : List Nat} {ls : List (List Nat)} (h : 10 ∉ cs) (hl : ∀ l ∈ ls, 10 ∉ l) : linesOf (cs ++ Locator.tail (ls.map .code)) = cs :: ls := by
  induction ls generalizing cs with
  | nil => simp [Locator.tail, linesOf_one h]
  | cons l ls ih =>
    rw [List.map_cons, tail_cons, linesOf_line h]
    show cs :: linesOf (l ++ _) = _
    rw [ih (hl l (by simp)) (fun m hm => hl m (by simp [hm]))]

theorem linesOf_split {bs : List (List Nat)} {cs : List Nat} {ls : List (List Nat)} (hb : ∀ l ∈ bs, 10 ∉ l) (h : 10 ∉ cs) (hl : ∀ l ∈ ls, 10 ∉ l) :
    linesOf (body (bs.map .code) ++ cs ++ Locator.tail (ls.map .code)) = bs ++ cs :: ls := by
  induction bs with
  | nil => exact linesOf_tail h hl
  | cons b bs ih =>
    have : body ((b :: bs).map .code) ++ cs ++ Locator.tail (ls.map .code) = b ++ 10 :: (body (bs.map .code) ++ cs ++ Locator.tail (ls.map .code)) := by
      simp [body, Line.chars]
    rw [this, linesOf_line (hb b (by simp)), ih (fun m hm => hb m (by simp [hm]))]
    rfl

theorem no10_linesOf {t : List Nat} : ∀ l ∈ linesOf t, 10 ∉ l := by
  induction t with
  | nil => simp [linesOf]
  | cons c r ih =>
    intro l hl
    rw [linesOf] at hl
    split at hl
    · rcases List.mem_cons.1 hl with rfl | hl
      · simp
      · exact ih l hl
    · rename_i hc
      rcases List.mem_cons.1 hl with rfl | hl
      · cases he : linesOf r with
        | nil => exact absurd he (linesOf_ne r)
        | cons a m =>
          have := ih a (by simp [he])
          simp [this]
          omega
      · exact ih l (List.mem_of_mem_tail hl)

theorem render_codes (t : List Nat) : render (codes t) = t := by
  unfold codes
  induction t with
  | nil => rfl
  | cons c r ih =>
    rw [linesOf]
    cases he : linesOf r with
    | nil => exact absurd he (linesOf_ne r)
    | cons a m =>
      rw [he] at ih
      split
      · rename_i hc
        subst hc
        rw [List.map_cons, List.map_cons, render, tail_cons, ← ih]
        simp [Line.chars, render]
      · rw [← ih]
        simp [Line.chars, render]

theorem lines_front (x : List Nat) : ∃ bs : List (List Nat), x = body (bs.map .code) ++ lastLine x ∧ bs.length = x.count 10 ∧ (∀ l ∈ bs, 10 ∉ l) ∧ 10 ∉ lastLine x := by
  have key : ∀ n (x : List Nat), x.length ≤ n → ∃ bs : List (List Nat), x = body (bs.map .code) ++ lastLine x ∧ bs.length = x.count 10 ∧ (∀ l ∈ bs, 10 ∉ l) ∧ 10 ∉ lastLine x := by
    intro n
    induction n with
    | zero =>
      intro x hx
      obtain rfl : x = [] := List.length_eq_zero_iff.1 (by omega)
      exact ⟨[], rfl, rfl, by simp, by simp [lastLine]⟩
    | succ n ih =>
      intro x hx
      by_cases h10 : 10 ∈ x
      · obtain ⟨a, b, rfl, ha⟩ := split_first h10
        obtain ⟨bs, h1, h2, h3, h4⟩ := ih b (by simp at hx; omega)
        have hlast : lastLine (a ++ 10 :: b) = lastLine b := by
          by_cases hb : 10 ∈ b
          · rw [lastLine_append (by simp), lastLine_cons_mem hb]
          · rw [lastLine_break hb, lastLine_no hb]
        refine ⟨a :: bs, ?_, ?_, ?_, ?_⟩
        · rw [hlast]
          have : body ((a :: bs).map .code) = a ++ 10 :: body (bs.map .code) := by simp [body, Line.chars]
          rw [this]
          simp only [List.append_assoc, List.cons_append]
          rw [← h1]
        · have : List.count 10 a = 0 := List.count_eq_zero.2 ha
          simp [h2, this]
        · intro l hl
          rcases List.mem_cons.1 hl with rfl | hl
          · exact ha
          · exact h3 l hl
        · rw [hlast]
          exact h4
      · refine ⟨[], ?_, ?_, by simp, ?_⟩
        · rw [lastLine_no h10]; rfl
        · rw [List.count_eq_zero.2 h10]; rfl
        · rw [lastLine_no h10]; exact h10
  exact key x.length x (Nat.le_refl _)

theorem lines_behind (y : List Nat) : ∃ ls : List (List Nat), y = y.takeWhile (· ≠ 10) ++ Locator.tail (ls.map .code) ∧ ∀ l ∈ ls, 10 ∉ l := by
  cases he : linesOf y with
  | nil => exact absurd he (linesOf_ne y)
  | cons a m =>
    have h1 := render_codes y
    unfold codes at h1
    rw [he, List.map_cons, render] at h1
    have hn := no10_linesOf (t := y)
    rw [he] at hn
    refine ⟨m, ?_, fun l hl => hn l (by simp [hl])⟩
    have ha : 10 ∉ a := hn a (by simp)
    have : y.takeWhile (· ≠ 10) = a := by
      rw [← h1]
      show (a ++ _).takeWhile _ = a
      rw [List.takeWhile_append_of_pos (by intro x hx; simp; intro he; exact ha (he ▸ hx))]
      rcases tail_ends (m.map .code) with ht | ⟨s, ht⟩
      · rw [ht]; simp
      · rw [ht]; simp
    rw [this]
    exact h1.symm

/-- Where a position is among the lines. -/
theorem at_pos {t : List Nat} {p : Nat} : ∃ bs ls : List (List Nat), t.take p = body (bs.map .code) ++ lastLine (t.take p) ∧
    t.drop p = (t.drop p).takeWhile (· ≠ 10) ++ Locator.tail (ls.map .code) ∧
    codes t = bs.map .code ++ .code (lastLine (t.take p) ++ (t.drop p).takeWhile (· ≠ 10)) :: ls.map .code ∧ lineNo (t.take p) = 1 + bs.length := by
  obtain ⟨bs, h1, h2, h3, h4⟩ := lines_front (t.take p)
  obtain ⟨ls, h5, h6⟩ := lines_behind (t.drop p)
  refine ⟨bs, ls, h1, h5, ?_, by unfold lineNo; rw [h2]⟩
  have ht : t = body (bs.map .code) ++ (lastLine (t.take p) ++ (t.drop p).takeWhile (· ≠ 10)) ++ Locator.tail (ls.map .code) := by
    calc t = t.take p ++ t.drop p := (List.take_append_drop p t).symm
      _ = (body (bs.map .code) ++ lastLine (t.take p)) ++ ((t.drop p).takeWhile (· ≠ 10) ++ Locator.tail (ls.map .code)) := by rw [← h1, ← h5]
      _ = _ := by simp
  have hno : 10 ∉ lastLine (t.take p) ++ (t.drop p).takeWhile (· ≠ 10) := by
    simp only [List.mem_append, not_or]
    refine ⟨h4, fun hm => ?_⟩
    have hall := List.all_takeWhile (p := fun c : Nat => decide (c ≠ 10)) (l := t.drop p)
    have := List.all_eq_true.1 hall 10 hm
    simp at this
  unfold codes
  have hl := linesOf_split h3 hno h6
  rw [← ht] at hl
  rw [hl]
  simp

theorem plain_source {t : List Nat} (h : Plain t) : Source (codes t) := by
  refine ⟨?_, ?_, ?_⟩
  · intro l hl
    unfold codes at hl
    obtain ⟨cs, hcs, rfl⟩ := List.mem_map.1 hl
    have hsub : ∃ a b, t = a ++ cs ++ b ∧ (a = [] ∨ ∃ a', a = a' ++ [10]) := by
      obtain ⟨a, b, he⟩ := List.append_of_mem hl
      have hr := render_codes t
      unfold codes at hr
      rw [he, render_mid] at hr
      refine ⟨_, _, hr.symm, ?_⟩
      rcases body_atLine a with h0 | ⟨a', h1⟩
      · exact .inl h0
      · exact .inr ⟨a', h1⟩
    obtain ⟨a, b, he, ha⟩ := hsub
    refine ⟨?_, ?_⟩
    · intro c hc
      obtain ⟨h1, h2, h3, h4⟩ := h.char c (by rw [he]; simp [hc])
      refine ⟨h1, h2, ?_⟩
      intro h10
      exact no10_linesOf cs hcs (h10 ▸ hc)
    · rintro ⟨r, hr⟩
      rcases ha with rfl | ⟨a', rfl⟩
      · refine h.first ⟨r ++ b, ?_⟩
        rw [he, ← hr]
        simp
      · refine h.later a' (cs ++ b) (by rw [he]; simp) ⟨r ++ b, ?_⟩
        rw [← hr]
        simp
  · intro ls n rs he
    have : Line.end n ∈ codes t := by rw [he]; simp
    unfold codes at this
    obtain ⟨cs, _, h⟩ := List.mem_map.1 this
    cases h
  · rw [render_codes]
    have := h.small
    omega

theorem where_code {bs ls : List (List Nat)} {col more : List Nat} :
    whereIs (bs.map .code) col more (ls.map .code) = ⟨1 + bs.length, none, 1 + col.length, col ++ more⟩ := by
  rw [where_next, plain_place]
  · simp
  · intro l hl
    simp at hl
    obtain ⟨a, _, rfl⟩ := hl
    exact ⟨a, rfl⟩
  · intro n p cs rest he
    cases ls with
    | nil => cases he
    | cons l ls => cases he

/-- The location was brought to the line of the position. -/
def Known (t : List Nat) (loc : Loc) (p : Nat) : Prop :=
  ∃ before col more after col' more', Reach (codes t) loc before col more after ∧ codes t = before ++ .code (col ++ more) :: after ∧ col ++ more = col' ++ more' ∧
    t.take p = body before ++ col' ∧ t.drop p = more' ++ Locator.tail after

/-- The location is brought to the position, and what it says. -/
theorem search_pos {own t : List Nat} {loc : Loc} {p q : Nat} (ht : Plain t) (h : Known t loc q) : ∃ loc', searchFrom (encodeAll t) (encodeAll (t.take p)).length loc = some loc' ∧
    Says own (encodeAll t) loc' ⟨lineNo (t.take p), none, 1 + (lastLine (t.take p)).length, wholeLine t p⟩ ∧ Known t loc' p := by
  obtain ⟨before, col, more, after, col', more', hr, _, _, _⟩ := h
  obtain ⟨bs, ls, h1, h2, h3, h4⟩ := at_pos (t := t) (p := p)
  have hs := plain_source ht
  obtain ⟨loc', g1, g2, _⟩ := from_spec (own := own) hs h3 (hr.knows hs)
  rw [render_codes] at g1 g2
  rw [← h1] at g1
  rw [where_code, ← h4] at g2
  refine ⟨loc', g1, g2, _, _, _, _, _, _, .again hr h3 (by rw [render_codes, ← h1]; exact g1), h3, rfl, h1, h2⟩

theorem pad_pos (t : List Nat) (p n : Nat) : (wholeLine t p).take (1 + (lastLine (t.take p)).length - 1) = lastLine (t.take p) := by
  rw [wholeLine, Nat.add_sub_cancel_left, List.take_left]

theorem fill_pos {own t : List Nat} {loc : Loc} {p : Nat} (h : Says own (encodeAll t) loc ⟨lineNo (t.take p), none, 1 + (lastLine (t.take p)).length, wholeLine t p⟩) :
    fill (loc.symbol - 1) ⟨encodeAll t, loc.code⟩ = some ((lastLine (t.take p)).map blankFor) := by
  have := fill_spec (n := loc.symbol - 1) h.2.2.2 (by rw [h.2.1]; simp [wholeLine])
  rw [this]
  simp only [h.2.1]
  rw [pad_pos t p 0]
  rfl

theorem update_pos {own t : List Nat} {loc : Loc} {p q : Nat} (ho : own ≠ []) (ht : Plain t) (h : Known t loc q) :
    ∃ loc', update own (encodeAll t) (encodeAll (t.take p)).length loc = some (loc', some ((marksOf own t).usual p)) ∧ Known t loc' p := by
  obtain ⟨loc', h1, h2, h3⟩ := search_pos (own := own) (p := p) ht h
  refine ⟨loc', ?_, h3⟩
  unfold update
  rw [h1, Option.bind_some, h2.2.2.1, Option.bind_some]
  dsimp only
  rw [if_neg (by simpa using ho), fill_pos h2, h2.1, showNat_eq]
  simp [marksOf, Line.chars, PREFIX]

theorem updateBegin_pos {own t : List Nat} {loc : Loc} {p q : Nat} (ho : own ≠ []) (ht : Plain t) (h : Known t loc q) :
    ∃ loc', updateBegin own (encodeAll t) (encodeAll (t.take p)).length loc = some (loc', some ((marksOf own t).before p)) ∧ Known t loc' p := by
  obtain ⟨loc', h1, h2, h3⟩ := search_pos (own := own) (p := p) ht h
  refine ⟨loc', ?_, h3⟩
  unfold updateBegin
  rw [h1, Option.bind_some, h2.2.2.1, Option.bind_some]
  dsimp only
  rw [if_neg (by simpa using ho), fill_pos h2, h2.2.2.2, h2.1, showNat_eq]
  simp [marksOf, Line.chars, PREFIX, COMMENT]

theorem updateEnd_pos {own t : List Nat} {loc : Loc} {p q : Nat} (ho : own ≠ []) (ht : Plain t) (h : Known t loc q) :
    ∃ loc', updateEnd own (encodeAll t) (encodeAll (t.take p)).length loc = some (loc', some ((marksOf own t).behind p)) ∧ Known t loc' p := by
  obtain ⟨loc', h1, h2, h3⟩ := search_pos (own := own) (p := p) ht h
  refine ⟨loc', ?_, h3⟩
  unfold updateEnd
  rw [h1, Option.bind_some, h2.2.2.1, Option.bind_some]
  dsimp only
  rw [if_neg (by simpa using ho), fill_pos h2, h2.1, showNat_eq]
  simp [marksOf, Line.chars, PREFIX]

theorem prefix_of_line {xs r more a : List Nat} (h : more ++ a = xs ++ r) (h10 : 10 ∉ xs) (ha : a = [] ∨ ∃ s, a = 10 :: s) : ∃ m, more = xs ++ m ∧ r = m ++ a := by
  induction xs generalizing more with
  | nil => exact ⟨more, rfl, h.symm⟩
  | cons x xs ih =>
    cases more with
    | nil =>
      rcases ha with rfl | ⟨s, rfl⟩
      · cases h
      · cases h
        exact absurd (by simp) h10
    | cons y more =>
      rw [List.cons_append, List.cons_append, List.cons.injEq] at h
      obtain ⟨rfl, h⟩ := h
      obtain ⟨m, h1, h2⟩ := ih h (fun hm => h10 (by simp [hm]))
      exact ⟨m, by rw [h1]; rfl, h2⟩

theorem known_move {t xs r : List Nat} {loc : Loc} {p : Nat} (h : Known t loc p) (hd : t.drop p = xs ++ r) (h10 : 10 ∉ xs) : Known t loc (p + xs.length) := by
  obtain ⟨before, col, more, after, col', more', hr, h1, h2, h3, h4⟩ := h
  obtain ⟨m, h5, h6⟩ := prefix_of_line (h4.symm.trans hd) h10 (tail_ends after)
  refine ⟨before, col, more, after, col' ++ xs, m, hr, h1, by rw [h2, h5]; simp, ?_, ?_⟩
  · rw [take_add hd, h3]
    simp
  · rw [drop_add hd, h6]

theorem known_newline {t r : List Nat} {loc : Loc} {p : Nat} (h : Known t loc p) (hd : t.drop p = 10 :: r) :
    Known t (lineBreak (encodeAll (t.take (p + 1))).length loc) (p + 1) := by
  obtain ⟨before, col, more, after, col', more', hr, h1, h2, h3, h4⟩ := h
  have hno : 10 ∉ col ++ more := by
    have : Line.code (col ++ more) ∈ codes t := by rw [h1]; simp
    unfold codes at this
    obtain ⟨cs, hcs, he⟩ := List.mem_map.1 this
    cases he
    exact no10_linesOf _ hcs
  obtain rfl : more' = [] := by
    cases more' with
    | nil => rfl
    | cons x m =>
      rw [hd] at h4
      cases h4
      rw [h2] at hno
      exact absurd (by simp) hno
  have hafter : ∃ cs ls, after = .code cs :: ls := by
    cases after with
    | nil =>
      rw [hd] at h4
      cases h4
    | cons l ls =>
      have : l ∈ codes t := by rw [h1]; simp
      unfold codes at this
      obtain ⟨cs, _, he⟩ := List.mem_map.1 this
      exact ⟨cs, ls, by rw [← he]⟩
  obtain ⟨cs, ls, rfl⟩ := hafter
  have htake : t.take (p + 1) = body before ++ col ++ more ++ [10] := by
    have := take_add (a := [10]) hd
    rw [List.length_singleton] at this
    rw [this, h3, ← List.append_nil col', ← h2]
    simp
  rw [List.append_nil] at h2
  have hplain : ∀ l ∈ codes t, ∃ cs, l = Line.code cs := by
    intro l hl
    unfold codes at hl
    obtain ⟨cs, _, he⟩ := List.mem_map.1 hl
    exact ⟨cs, he.symm⟩
  have hn := Reach.newline hplain hr
  rw [htake]
  refine ⟨_, _, _, _, [], cs, hn, by rw [h1]; simp, rfl, ?_, ?_⟩
  · rw [htake, body_snoc]
    simp [Line.chars]
  · have := drop_succ hd
    rw [this]
    rw [hd, tail_cons] at h4
    cases h4
    rfl

/-- Events that go from one position to the next are carried out without messages, and print what they say. -/
theorem interp_flow {own t : List Nat} (ho : own ≠ []) (ht : Plain t) {p q : Nat} {e : List Ev} {o : List Nat} (h : Flow (marksOf own t) t p e q o) :
    ∀ {loc : Loc}, Known t loc p → interp own t e loc = some (o, []) := by
  induction h with
  | nil => intro loc _; rfl
  | move h1 h2 _ ih => intro loc hk; exact ih (known_move hk h1 h2)
  | put _ ih =>
    intro loc hk
    rw [interp, ih hk]
    rfl
  | refresh h1 _ ih =>
    intro loc hk
    obtain ⟨loc', g1, _, g3⟩ := search_pos (own := own) ht hk
    rw [interp, g1, Option.bind_some, ih g3]
  | newline h1 _ ih =>
    intro loc hk
    rw [interp, ih (known_newline hk h1)]
  | mark h1 _ ih =>
    intro loc hk
    obtain ⟨loc', g1, g3⟩ := update_pos ho ht hk
    rw [interp, g1, Option.bind_some, ih g3]
    rfl
  | markBegin h1 _ ih =>
    intro loc hk
    obtain ⟨loc', g1, g3⟩ := updateBegin_pos ho ht hk
    rw [interp, g1, Option.bind_some, ih g3]
    rfl
  | markEnd h1 _ ih =>
    intro loc hk
    obtain ⟨loc', g1, g3⟩ := updateEnd_pos ho ht hk
    rw [interp, g1, Option.bind_some, ih g3]
    rfl

theorem known_start {t : List Nat} (ht : Plain t) : ∃ loc, search (encodeAll t) 0 = some loc ∧ Known t loc 0 := by
  obtain ⟨bs, ls, h1, h2, h3, h4⟩ := at_pos (t := t) (p := 0)
  have hs := plain_source ht
  obtain ⟨loc', g1, _⟩ := from_spec (own := []) hs h3 (knows_first _ _ _)
  have h0 : (encodeAll (body (bs.map .code) ++ lastLine (t.take 0))).length = 0 := by rw [← h1]; rfl
  rw [render_codes, h0] at g1
  refine ⟨loc', g1, _, _, _, _, _, _, .search h3 (by rw [render_codes, h0]; exact g1), h3, rfl, h1, h2⟩

end RuC.Text
