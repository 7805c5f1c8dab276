import Verif.Text.Trace
import Verif.Locator.Props

/-!
# Lemmas about the text between the directives: places of what is printed
-/

namespace RuC.Text
open RuC RuC.Utf8 RuC.Io RuC.Locator

/-! ## What comes behind a position -/

/-- The line of the state `s` is ended in `s'`; it is followed by a mark in front of a replacement only if `ok`, with the number `n`. -/
def Past (own : List Nat) (n : Nat) (ok : Bool) (s s' : St) : Prop :=
  ∃ more r, s'.b = s.b ++ .code (s.col ++ more) :: r ∧ ∀ m p cs q, r = .begin m p cs :: q → ok = true ∧ m = n ∧ p = own

/-- The line of the state `s` goes on in `s'`. -/
def Same (s s' : St) : Prop := s'.b = s.b ∧ ∃ more, s'.col = s.col ++ more

variable {own t : List Nat} {n : Nat} {ok : Bool} {s s' : St} {val : List Nat → List Nat}

theorem Past.push (h : Past own n ok s s') (c : Nat) : Past own n ok s (s'.push c) := by
  obtain ⟨more, r, h1, h2⟩ := h
  unfold St.push
  split
  · refine ⟨more, r ++ [.code s'.col], by rw [h1]; simp, ?_⟩
    intro m p cs q he
    cases r with
    | nil => cases he
    | cons x r => cases he; exact h2 m p cs r rfl
  · exact ⟨more, r, h1, h2⟩

theorem Past.adds {cs : List Nat} : ∀ {s' : St}, Past own n ok s s' → Past own n ok s (s'.adds cs) := by
  induction cs with
  | nil => intro s' h; exact h
  | cons c cs ih => intro s' h; exact ih (h.push c)

theorem Past.mid (h : Past own n ok s s') (l : Line) (pad : List Nat) : Past own n ok s (s'.mid l pad) := by
  obtain ⟨more, r, h1, h2⟩ := h
  refine ⟨more, r ++ [.code s'.col, l], by show s'.b ++ _ = _; rw [h1]; simp, ?_⟩
  intro m p cs q he
  cases r with
  | nil => cases he
  | cons x r => cases he; exact h2 m p cs r rfl

theorem Past.begin (h : Past own n ok s s') (t : List Nat) (p : Nat) (need : Bool) : Past own n ok s (s'.begin own t p need) := by
  obtain ⟨more, r, h1, h2⟩ := h
  unfold St.begin
  split
  · refine ⟨more, r ++ [.usual (num t p) own], by show s'.b ++ _ = _; rw [h1]; simp, ?_⟩
    intro m p cs q he
    cases r with
    | nil => cases he
    | cons x r => cases he; exact h2 m p cs r rfl
  · exact ⟨more, r, h1, h2⟩

theorem Past.close (h : Past own n ok s s') (p : Nat) (pend : Bool) : Past own n ok s (s'.close t p pend) := by
  unfold St.close
  split
  · exact h.mid _ _
  · exact h

theorem Past.line {l : List Piece} : ∀ {p : Nat} {pend : Bool} {s' : St}, Past own n ok s s' → Past own n ok s (lineSt own t val p pend s' l) := by
  induction l with
  | nil => intro p pend s' h; exact h
  | cons x l ih =>
    intro p pend s' h
    rcases piece_cases x with ⟨g, rfl⟩ | ⟨w, br, rfl⟩ | ⟨hs, hc⟩
    · rw [lineSt]; exact ih h.adds
    · rw [lineSt]
      exact ih (Past.adds ((h.close p pend).mid _ _))
    · rw [lineSt_solid hs hc]
      exact ih (Past.adds (h.close p pend))

theorem same_refl (s : St) : Same s s := ⟨rfl, [], by simp⟩

theorem Same.adds {cs : List Nat} (h : Same s s') (h10 : 10 ∉ cs) : Same s (s'.adds cs) := by
  obtain ⟨h1, more, h2⟩ := h
  rw [adds_same h10]
  exact ⟨h1, more ++ cs, by simp [h2]⟩

theorem Same.past {cs : List Nat} (h : Same s s') (h10 : 10 ∈ cs) (own : List Nat) (n : Nat) (ok : Bool) : Past own n ok s (s'.adds cs) := by
  obtain ⟨h1, more, h2⟩ := h
  obtain ⟨ms, m0, he, _⟩ := adds_break (s := s') h10
  rw [he]
  refine ⟨more ++ m0, ms.map .code, by simp [h1, h2], ?_⟩
  intro m p cs q hq
  cases ms with
  | nil => cases hq
  | cons a ms => cases hq

theorem Same.mid (h : Same s s') {l : Line} (pad : List Nat) (hl : ∀ m p cs, l = .begin m p cs → ok = true ∧ m = n ∧ p = own) : Past own n ok s (s'.mid l pad) := by
  obtain ⟨h1, more, h2⟩ := h
  refine ⟨more, [l], by simp [St.mid, h1, h2], ?_⟩
  intro m p cs q hq
  cases hq
  exact hl m p cs rfl

theorem adds_step {cs : List Nat} (h : Same s s' ∨ Past own n ok s s') : (10 ∉ cs ∧ Same s (s'.adds cs)) ∨ Past own n ok s (s'.adds cs) := by
  rcases h with h | h
  · by_cases h10 : 10 ∈ cs
    · exact .inr (h.past h10 own n ok)
    · exact .inl ⟨h10, h.adds h10⟩
  · exact .inr h.adds

/-- What follows a position in its line. -/
theorem line_follows {l : List Piece} : ∀ {p : Nat} {pend : Bool} {s' : St} {r : List Nat}, Reads l → Tail r → t.drop p = raws l ++ r →
    (Same s s' → pend = false → ok = true ∧ num t p = n) → Same s s' ∨ Past own n ok s s' →
    Same s (lineSt own t val p pend s' l) ∨ Past own n ok s (lineSt own t val p pend s' l) := by
  induction l with
  | nil => intro p pend s' r _ _ _ _ h; exact h
  | cons x l ih =>
    intro p pend s' r hr htl hd hk h
    have hd' : t.drop p = x.raw ++ (raws l ++ r) := by rw [hd, raws_cons, List.append_assoc]
    have hf := hr.1.ext htl
    rcases h with h | h
    · rcases piece_cases x with ⟨g, rfl⟩ | ⟨w, br, rfl⟩ | ⟨hs, hc⟩
      · rw [lineSt]
        rcases adds_step (own := own) (n := n) (ok := ok) (cs := g.shown) (.inl h) with ⟨h10, h1⟩ | h1
        · refine ih hr.2 htl (drop_add hd') ?_ (.inl h1)
          intro _ hp
          obtain ⟨k1, k2⟩ := hk h hp
          refine ⟨k1, ?_⟩
          have e : num t (p + g.raw.length) = num t p + g.raw.count 10 := num_add hd'
          rw [e, ← shown_count hf.1 hf.2, List.count_eq_zero.2 h10]
          exact k2
        · exact .inr h1.line
      · rw [lineSt]
        refine .inr (Past.line (Past.adds ?_))
        unfold St.close
        cases pend
        · rw [if_neg (by simp)]
          refine h.mid _ ?_
          intro m p' cs he
          cases he
          obtain ⟨k1, k2⟩ := hk h rfl
          exact ⟨k1, k2, rfl⟩
        · rw [if_pos rfl]
          exact (h.mid _ (by intro m p' cs he; cases he)).mid _ _
      · rw [lineSt_solid hs hc]
        unfold St.close
        cases pend
        · rw [if_neg (by simp)]
          rcases adds_step (own := own) (n := n) (ok := ok) (cs := x.raw) (.inl h) with ⟨h10, h1⟩ | h1
          · refine ih hr.2 htl (drop_add hd') ?_ (.inl h1)
            intro _ _
            obtain ⟨k1, k2⟩ := hk h rfl
            refine ⟨k1, ?_⟩
            rw [num_add hd', List.count_eq_zero.2 h10]
            exact k2
          · exact .inr h1.line
        · rw [if_pos rfl]
          exact .inr (Past.line (Past.adds (h.mid _ (by intro m p' cs he; cases he))))
    · exact .inr h.line

/-! ## Lines -/

/-- What is printed for lines. -/
def linesSt (own t : List Nat) (val : List Nat → List Nat) : Nat → Bool → St → List (List Piece) → St
  | _, _, s, [] => s
  | p, need, s, l :: ls =>
    if (l :: ls).all empty = true then s
    else if need = true ∧ empty l = true then linesSt own t val (p + (raws l).length + 1) need s ls
    else linesSt own t val (p + (raws l).length + 1) (lineEnd true false l) ((lineSt own t val p false (s.begin own t p need) l).adds [10]) ls

/-- What is printed for lines in front of a line that is not empty. -/
def frontSt (own t : List Nat) (val : List Nat → List Nat) : Nat → Bool → St → List (List Piece) → St × Nat × Bool
  | p, need, s, [] => (s, p, need)
  | p, need, s, l :: ls =>
    if need = true ∧ empty l = true then frontSt own t val (p + (raws l).length + 1) need s ls
    else frontSt own t val (p + (raws l).length + 1) (lineEnd true false l) ((lineSt own t val p false (s.begin own t p need) l).adds [10]) ls

theorem col_break (s : St) : (s.adds [10]).col = [] := rfl

theorem flat_linesSt {ls : List (List Piece)} : ∀ {p : Nat} {need : Bool} {s : St}, s.col = [] →
    (linesSt own t val p need s ls).flat = s.flat ++ linesOut true (marksOf own t) val p need ls := by
  induction ls with
  | nil => intro p need s _; simp [linesSt, linesOut]
  | cons l ls ih =>
    intro p need s hc
    rw [linesSt, linesOut]
    by_cases h1 : (l :: ls).all empty = true
    · rw [if_pos h1, if_pos h1]; simp
    · rw [if_neg h1, if_neg h1]
      by_cases h2 : need = true ∧ empty l = true
      · rw [if_pos h2, if_pos h2, ih hc]
      · rw [if_neg h2, if_neg h2, ih (col_break _), flat_adds, flat_lineSt, flat_begin hc]
        simp

theorem flat_frontSt {ls : List (List Piece)} : ∀ {p : Nat} {need : Bool} {s : St}, s.col = [] →
    (frontSt own t val p need s ls).1.flat = s.flat ++ (linesFront (marksOf own t) val p need ls).1 ∧
    (frontSt own t val p need s ls).2 = (linesFront (marksOf own t) val p need ls).2 ∧ (frontSt own t val p need s ls).1.col = [] ∧
    (frontSt own t val p need s ls).2.1 = p + (ls.flatMap fun l => raws l ++ [10]).length := by
  induction ls with
  | nil => intro p need s hc; simp [frontSt, linesFront, hc]
  | cons l ls ih =>
    intro p need s hc
    rw [frontSt, linesFront]
    have el : ((l :: ls).flatMap fun l => raws l ++ [10]).length = (raws l).length + 1 + (ls.flatMap fun l => raws l ++ [10]).length := by
      simp
      omega
    rw [el]
    by_cases h2 : need = true ∧ empty l = true
    · rw [if_pos h2, if_pos h2]
      obtain ⟨a1, a2, a3, a4⟩ := ih (p := p + (raws l).length + 1) (need := need) hc
      exact ⟨a1, a2, a3, by rw [a4]; omega⟩
    · rw [if_neg h2, if_neg h2]
      obtain ⟨a1, a2, a3, a4⟩ := ih (p := p + (raws l).length + 1) (need := lineEnd true false l) (col_break (lineSt own t val p false (s.begin own t p need) l))
      refine ⟨?_, a2, a3, by rw [a4]; omega⟩
      rw [a1, flat_adds, flat_lineSt, flat_begin hc]
      simp

theorem linesSt_front {l : List Piece} {after : List (List Piece)} (hl : empty l = false) {bs : List (List Piece)} : ∀ {p : Nat} {need : Bool} {s : St},
    linesSt own t val p need s (bs ++ l :: after) =
      let f := frontSt own t val p need s bs
      linesSt own t val f.2.1 f.2.2 f.1 (l :: after) := by
  induction bs with
  | nil => intro p need s; rfl
  | cons b bs ih =>
    intro p need s
    rw [List.cons_append, linesSt, frontSt, if_neg (by simp [hl])]
    split
    · exact ih
    · exact ih

/-- What holds at the beginning of a line. -/
structure LInv (own t : List Nat) (s : St) (p : Nat) (need : Bool) : Prop where
  neat : Neat s
  paired : Paired s.b
  col : s.col = []
  line : need = false → At own s.b (num t p)
  last : lastLine (t.take p) = []

theorem LInv.begin {p : Nat} {need : Bool} (ho : GoodPath own) (ht : Plain t) (h : LInv own t s p need) : Inv own t (s.begin own t p need) p false := by
  unfold St.begin
  cases need
  · rw [if_neg (by simp)]
    exact ⟨h.neat, h.paired, fun _ => h.line rfl, by simp⟩
  · rw [if_pos rfl]
    refine ⟨h.neat.top ⟨num_small ht p, ho.2.1, ho.2.2⟩ (padOf_blank t p), ?_, fun _ => at_usual _ _, by simp⟩
    exact paired_snoc h.paired (by intro n he; cases he)

theorem last_break {r : List Nat} {p : Nat} (hd : t.drop p = 10 :: r) : lastLine (t.take (p + 1)) = [] := by
  have := last_add (raw := [10]) hd
  rw [if_pos (by simp)] at this
  exact this

theorem clean_break : Clean [10] := by
  refine ⟨by simp, by simp, ?_⟩
  intro a r he
  have := congrArg List.length he
  simp at this
  omega

theorem LInv.line_step {p : Nat} {need : Bool} {l l2 : List Piece} {ls : List (List Piece)} (ho : GoodPath own) (ht : Plain t) (hh : NoHash t) (h : LInv own t s p need)
    (hr : Reads l) (hd : t.drop p = textOf (l :: l2 :: ls)) (hv : ∀ w br, .call w br ∈ l → Clean (val w)) :
    LInv own t ((lineSt own t val p false (s.begin own t p need) l).adds [10]) (p + (raws l).length + 1) (lineEnd true false l) ∧
    t.drop (p + (raws l).length + 1) = textOf (l2 :: ls) := by
  rw [textOf_cons] at hd
  have hd2 : t.drop (p + (raws l).length) = 10 :: textOf (l2 :: ls) := by rw [drop_add hd, tailOf_cons]
  have hi := line_inv ho ht hh (val := val) hr (tail_tailOf _) hd hv (h.begin ho ht)
  have hi2 := hi.adds (raw := [10]) (cs := [10]) hd2 clean_break (fun _ => rfl)
  exact ⟨⟨hi2.neat, hi2.paired, rfl, hi2.line, last_break hd2⟩, drop_succ hd2⟩

theorem last_no {cs raw : List Nat} (h10 : 10 ∉ raw) : lastLine (cs ++ raw) = lastLine cs ++ raw := by
  have := last_add (t := cs ++ raw) (raw := raw) (r := []) (p := cs.length) (by simp)
  rw [if_neg h10, ← List.length_append, List.take_length] at this
  simpa using this

theorem LInv.skip {p : Nat} {l l2 : List Piece} {ls : List (List Piece)} (h : LInv own t s p true) (hd : t.drop p = textOf (l :: l2 :: ls)) :
    LInv own t s (p + (raws l).length + 1) true ∧ t.drop (p + (raws l).length + 1) = textOf (l2 :: ls) := by
  rw [textOf_cons] at hd
  have hd2 : t.drop (p + (raws l).length) = 10 :: textOf (l2 :: ls) := by rw [drop_add hd, tailOf_cons]
  exact ⟨⟨h.neat, h.paired, h.col, by simp, last_break hd2⟩, drop_succ hd2⟩

theorem front_inv {l : List Piece} {after : List (List Piece)} (ho : GoodPath own) (ht : Plain t) (hh : NoHash t) {bs : List (List Piece)} : ∀ {p : Nat} {need : Bool} {s : St},
    LInv own t s p need → t.drop p = textOf (bs ++ l :: after) → (∀ k ∈ bs, Reads k) → (∀ k ∈ bs, ∀ w br, .call w br ∈ k → Clean (val w)) →
    LInv own t (frontSt own t val p need s bs).1 (frontSt own t val p need s bs).2.1 (frontSt own t val p need s bs).2.2 ∧
    t.drop (frontSt own t val p need s bs).2.1 = textOf (l :: after) := by
  induction bs with
  | nil => intro p need s h hd _ _; exact ⟨h, hd⟩
  | cons b bs ih =>
    intro p need s h hd hr hv
    obtain ⟨l2, ls, e⟩ : ∃ l2 ls, bs ++ l :: after = l2 :: ls := by
      cases bs with
      | nil => exact ⟨l, after, rfl⟩
      | cons x bs => exact ⟨x, bs ++ l :: after, rfl⟩
    have hr' : ∀ k ∈ bs, Reads k := fun k hk => hr k (List.mem_cons_of_mem _ hk)
    have hv' : ∀ k ∈ bs, ∀ w br, .call w br ∈ k → Clean (val w) := fun k hk => hv k (List.mem_cons_of_mem _ hk)
    rw [List.cons_append, e] at hd
    rw [frontSt]
    split
    · rename_i h2
      obtain ⟨rfl, _⟩ := h2
      obtain ⟨a1, a2⟩ := h.skip hd
      exact ih a1 (by rw [a2, e]) hr' hv'
    · obtain ⟨a1, a2⟩ := h.line_step ho ht hh (hr b (by simp)) hd (hv b (by simp))
      exact ih a1 (by rw [a2, e]) hr' hv'

theorem lines_neat (ho : GoodPath own) (ht : Plain t) (hh : NoHash t) {ls : List (List Piece)} : ∀ {p : Nat} {need : Bool} {s : St},
    LInv own t s p need → (ls ≠ [] → t.drop p = textOf ls) → (∀ k ∈ ls, Reads k) → (∀ k ∈ ls, ∀ w br, .call w br ∈ k → Clean (val w)) →
    Neat (linesSt own t val p need s ls) ∧ Paired (linesSt own t val p need s ls).b := by
  induction ls with
  | nil => intro p need s h _ _ _; exact ⟨h.neat, h.paired⟩
  | cons l ls ih =>
    intro p need s h hd hr hv
    have hd := hd (by simp)
    have hr' : ∀ k ∈ ls, Reads k := fun k hk => hr k (List.mem_cons_of_mem _ hk)
    have hv' : ∀ k ∈ ls, ∀ w br, .call w br ∈ k → Clean (val w) := fun k hk => hv k (List.mem_cons_of_mem _ hk)
    rw [linesSt]
    split
    · exact ⟨h.neat, h.paired⟩
    · split
      · rename_i h2
        obtain ⟨rfl, _⟩ := h2
        cases ls with
        | nil => exact ⟨h.neat, h.paired⟩
        | cons l2 ls =>
          obtain ⟨a1, a2⟩ := h.skip hd
          exact ih a1 (fun _ => a2) hr' hv'
      · cases ls with
        | nil =>
          rw [textOf_cons] at hd
          have hi := line_inv ho ht hh (val := val) (hr l (by simp)) (tail_tailOf _) hd (hv l (by simp)) (h.begin ho ht)
          rw [linesSt]
          exact ⟨hi.neat.addsClean clean_break, paired_snoc hi.paired (by intro n he; cases he)⟩
        | cons l2 ls =>
          obtain ⟨a1, a2⟩ := h.line_step ho ht hh (hr l (by simp)) hd (hv l (by simp))
          exact ih a1 (fun _ => a2) hr' hv'

theorem Past.lines {ls : List (List Piece)} : ∀ {p : Nat} {need : Bool} {s' : St}, Past own n ok s s' → Past own n ok s (linesSt own t val p need s' ls) := by
  induction ls with
  | nil => intro p need s' h; exact h
  | cons l ls ih =>
    intro p need s' h
    rw [linesSt]
    split
    · exact h
    · split
      · exact ih h
      · exact ih (Past.adds (Past.line (h.begin t p need)))

/-! ## Columns -/

theorem adds_col (s : St) (cs : List Nat) : (s.adds cs).col = if 10 ∈ cs then lastLine cs else s.col ++ cs := by
  split
  · rename_i h
    obtain ⟨ms, m0, he, _⟩ := adds_break (s := s) h
    rw [he]
  · rename_i h
    rw [adds_same h]

/-- The column is kept. -/
def Sync (t : List Nat) (s : St) (p : Nat) : Prop := s.col.length = (lastLine (t.take p)).length

theorem Sync.adds {raw r cs : List Nat} {p : Nat} (h : Sync t s p) (hd : t.drop p = raw ++ r) (h1 : 10 ∉ raw → 10 ∉ cs ∧ cs.length = raw.length)
    (h2 : 10 ∈ raw → 10 ∈ cs ∧ (lastLine cs).length = (lastLine raw).length) : Sync t (s.adds cs) (p + raw.length) := by
  unfold Sync
  rw [adds_col, last_add hd]
  by_cases h10 : 10 ∈ raw
  · rw [if_pos h10, if_pos (h2 h10).1]
    exact (h2 h10).2
  · rw [if_neg h10, if_neg (h1 h10).1, List.length_append, List.length_append, (h1 h10).2, h]

theorem Sync.close {p : Nat} {pend : Bool} (h : pend = false → Sync t s p) : Sync t (s.close t p pend) p := by
  unfold St.close
  cases pend
  · exact h rfl
  · exact padOf_length t p

theorem LInv.sync {p : Nat} {need : Bool} (h : LInv own t s p need) : Sync t (s.begin own t p need) p := by
  unfold St.begin
  split
  · exact padOf_length t p
  · unfold Sync
    rw [h.col, h.last]

theorem no10_blanks (cs : List Nat) : 10 ∉ cs.map blankFor := List.count_eq_zero.1 (count_blanks cs)

theorem block_columns {b : List Nat} (h : 10 ∈ b) : 10 ∈ (Gap.block b).shown ∧ (lastLine (Gap.block b).shown).length = (lastLine (Gap.block b).raw).length := by
  have e : (Gap.block b).shown = b.filter (· = 10) ++ (lastLine b ++ [42, 47]).map blankFor := by
    simp only [Gap.shown]
    rw [if_pos h]
  rw [e]
  refine ⟨by simp [h], ?_⟩
  rw [last_no (no10_blanks _), List.length_append]
  have e1 : lastLine (b.filter (· = 10)) = [] := by
    have hm : 10 ∈ b.filter (· = 10) := by simp [h]
    have : ∀ c ∈ lastLine (b.filter (· = 10)), False := by
      intro c hc
      unfold lastLine at hc
      rw [List.mem_reverse] at hc
      have hall := List.all_eq_true.1 (List.all_takeWhile (p := fun c : Nat => decide (c ≠ 10)) (l := (b.filter (· = 10)).reverse)) c hc
      have := List.takeWhile_subset _ hc
      rw [List.mem_reverse, List.mem_filter] at this
      simp at hall this
      exact hall this.2
    cases hl : lastLine (b.filter (· = 10)) with
    | nil => rfl
    | cons c r => exact absurd (this c (by rw [hl]; simp)) id
  have e2 : lastLine (Gap.block b).raw = lastLine b ++ [42, 47] := by
    rw [show (Gap.block b).raw = [47, 42] ++ b ++ [42, 47] from rfl, last_no (by decide), lastLine_append h]
  rw [e1, e2]
  simp

theorem first_no10 {x : Piece} {a : List Nat} (h : x.Fits a) : ∃ c v, x.raw = c :: v ∧ c ≠ 10 := by
  cases hs : x.solid with
  | true =>
    obtain ⟨c, v, h1, h2, _⟩ := solid_head hs h
    exact ⟨c, v, h1, h2⟩
  | false =>
    cases x with
    | gap g =>
      cases g with
      | blank c => exact ⟨c, [], rfl, by rcases h.2 with rfl | rfl <;> decide⟩
      | cont => exact ⟨92, [10], rfl, by decide⟩
      | line b => exact ⟨47, 47 :: b, rfl, by decide⟩
      | block b => exact ⟨47, 42 :: b ++ [42, 47], rfl, by decide⟩
      | nl => exact absurd rfl h.1
    | _ => cases hs

theorem reads_first {l : List Piece} (h : Reads l) (hn : l ≠ []) : ¬ Tail (raws l) := by
  cases l with
  | nil => exact absurd rfl hn
  | cons x l =>
    obtain ⟨c, v, h1, h2⟩ := first_no10 h.1
    rw [raws_cons, h1]
    rintro (h | ⟨w, h⟩)
    · cases h
    · cases h
      exact h2 rfl

theorem line_sync {x : Piece} {z : List Piece} {a : List Piece} : ∀ {p : Nat} {pend : Bool} {s : St} {r : List Nat},
    Reads (a ++ x :: z) → t.drop p = raws (a ++ x :: z) ++ r → (pend = false → Sync t s p) →
    lineEnd true pend a = false → Sync t (lineSt own t val p pend s a) (p + (raws a).length) := by
  induction a with
  | nil => intro p pend s r _ _ h he; exact h he
  | cons y a ih =>
    intro p pend s r hr hd h he
    rw [List.cons_append] at hr hd
    have hd' : t.drop p = y.raw ++ (raws (a ++ x :: z) ++ r) := by rw [hd, raws_cons, List.append_assoc]
    rw [raws_cons, List.length_append, ← Nat.add_assoc]
    rcases piece_cases y with ⟨g, rfl⟩ | ⟨w, br, rfl⟩ | ⟨hs, hc⟩
    · rw [lineEnd] at he
      rw [lineSt]
      refine ih hr.2 (drop_add hd') ?_ he
      intro hp
      refine (h hp).adds hd' ?_ ?_
      · intro h10
        cases g with
        | line b => exact absurd hr.1.2.1 (reads_first hr.2 (by simp))
        | block b =>
          have hb : 10 ∉ b := by
            intro hm
            exact h10 (by simp [Piece.raw, Gap.raw, hm])
          have e : (Gap.block b).shown = (Gap.block b).raw := by
            simp only [Gap.shown]
            rw [if_neg hb]
          rw [e]
          exact ⟨h10, rfl⟩
        | blank c => exact ⟨h10, rfl⟩
        | cont => exact ⟨h10, rfl⟩
        | nl => exact ⟨h10, rfl⟩
      · intro h10
        cases g with
        | line b => exact absurd hr.1.2.1 (reads_first hr.2 (by simp))
        | block b =>
          have hb : 10 ∈ b := by
            simp [Piece.raw, Gap.raw] at h10
            exact h10
          exact block_columns hb
        | blank c => exact ⟨h10, rfl⟩
        | cont => exact ⟨h10, rfl⟩
        | nl => exact ⟨h10, rfl⟩
    · rw [lineEnd] at he
      rw [lineSt]
      exact ih hr.2 (drop_add hd') (by simp) he
    · rw [lineEnd_word hs hc] at he
      rw [lineSt_solid hs hc]
      refine ih hr.2 (drop_add hd') ?_ he
      intro _
      exact (Sync.close h).adds hd' (fun h => ⟨h, rfl⟩) (fun h => ⟨h, rfl⟩)

end RuC.Text
