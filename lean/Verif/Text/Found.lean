import Verif.Text.Where

/-!
# Lemmas about the text between the directives: searching in what is printed
-/

namespace RuC.Text
open RuC RuC.Utf8 RuC.Io RuC.Locator

variable {own t : List Nat} {val : List Nat → List Nat}

theorem render_snoc (b : List Line) (cs : List Nat) : render (b ++ [.code cs]) = body b ++ cs := by
  have : ∀ (b : List Line) (l : Line), l.chars ++ tail (b ++ [.code cs]) = body (l :: b) ++ cs := by
    intro b
    induction b with
    | nil => intro l; simp [tail, body, Line.chars]
    | cons x b ih =>
      intro l
      rw [show tail (x :: b ++ [Line.code cs]) = 10 :: (x.chars ++ tail (b ++ [.code cs])) by simp [tail], ih x]
      simp [body]
  cases b with
  | nil => simp [render, tail, body, Line.chars]
  | cons l b => exact this b l

theorem source_of {S : St} (hn : Neat S) (hp : Paired S.b) (hs : (encodeAll S.flat).length < 4611686018427387904) : Source (S.b ++ [.code S.col]) := by
  refine ⟨?_, paired_snoc hp (by intro n he; cases he), ?_⟩
  · intro l hl
    rcases List.mem_append.1 hl with hl | hl
    · exact hn.valid l hl
    · rw [List.mem_singleton.1 hl]
      exact hn.code
  · rw [render_snoc]
    exact hs

/-- Searching for the position of a state in what is printed at the end. -/
theorem find_past {s S : St} {n : Nat} {ok : Bool} (hn : Neat S) (hp : Paired S.b) (hs : (encodeAll S.flat).length < 4611686018427387904) (h : Past own n ok s S) (own' : List Nat) :
    ∃ loc more r, search (encodeAll S.flat) (encodeAll s.flat).length = some loc ∧ Says own' (encodeAll S.flat) loc (whereIs s.b s.col more r) ∧
      ∀ m p cs q, r = .begin m p cs :: q → ok = true ∧ m = n ∧ p = own := by
  obtain ⟨more, r, h1, h2⟩ := h
  have e : S.b ++ [.code S.col] = s.b ++ .code (s.col ++ more) :: (r ++ [.code S.col]) := by rw [h1]; simp
  obtain ⟨loc, g1, g2⟩ := Props.search_finds (source_of hn hp hs) e own'
  rw [render_snoc] at g1 g2
  have g2 : Says own' (encodeAll S.flat) loc (whereIs s.b s.col more (r ++ [.code S.col])) := g2
  refine ⟨loc, more, r ++ [.code S.col], g1, g2, ?_⟩
  intro m p cs q he
  cases r with
  | nil => cases he
  | cons x r =>
    cases he
    exact h2 m p cs r rfl

/-- A piece that is more than a gap, the lines in front of it and behind it, and what is printed. -/
structure Setting (own t : List Nat) (val : List Nat → List Nat) (bs : List (List Piece)) (a : List Piece) (x : Piece) (z : List Piece) (after : List (List Piece)) (s : St) : Prop where
  inv : Inv own t s (posOf bs a) false
  sync : Sync t s (posOf bs a)
  flat : s.flat = front (marksOf own t) val bs a
  text : t.drop (posOf bs a) = raws (x :: z) ++ tailOf after
  reads : Reads (x :: z)
  rest : linesSt own t val 0 true ⟨[], []⟩ (bs ++ (a ++ x :: z) :: after) =
    linesSt own t val (posOf bs (a ++ x :: z) + 1) (lineEnd true false (x :: z)) ((lineSt own t val (posOf bs a) false s (x :: z)).adds [10]) after

theorem linv_start (own t : List Nat) : LInv own t ⟨[], []⟩ 0 true := by
  refine ⟨⟨by simp, by simp, by simp⟩, ?_, rfl, by simp, by simp [lastLine]⟩
  intro ls n rs he
  simp at he

theorem reads_drop {a b : List Piece} (h : Reads (a ++ b)) : Reads b := by
  induction a with
  | nil => exact h
  | cons x a ih => exact ih h.2

theorem reads_front {a b : List Piece} {t r : List Nat} {p : Nat} (h : Reads (a ++ b)) (hd : t.drop p = raws (a ++ b) ++ r) : t.drop (p + (raws a).length) = raws b ++ r := by
  rw [raws_append, List.append_assoc] at hd
  exact drop_add hd

/-- The invariant also holds in front of a piece in its line. -/
theorem line_inv_front (ho : GoodPath own) (ht : Plain t) (hh : NoHash t) {a b : List Piece} : ∀ {p : Nat} {pend : Bool} {s : St} {r : List Nat},
    Reads (a ++ b) → Tail r → t.drop p = raws (a ++ b) ++ r → (∀ w br, .call w br ∈ a → Clean (val w)) → Inv own t s p pend →
    Inv own t (lineSt own t val p pend s a) (p + (raws a).length) (lineEnd true pend a) := by
  induction a with
  | nil => intro p pend s r _ _ _ _ h; exact h
  | cons x l ih =>
    intro p pend s r hr htl hd hv h
    rw [List.cons_append] at hr hd
    have hd' : t.drop p = x.raw ++ (raws (l ++ b) ++ r) := by rw [hd, raws_cons, List.append_assoc]
    have hf := hr.1.ext htl
    rw [raws_cons, List.length_append, ← Nat.add_assoc]
    have hv' : ∀ w br, .call w br ∈ l → Clean (val w) := fun w br hm => hv w br (List.mem_cons_of_mem _ hm)
    rcases piece_cases x with ⟨g, rfl⟩ | ⟨w, br, rfl⟩ | ⟨hs, hc⟩
    · rw [lineSt, lineEnd]
      exact ih hr.2 htl (drop_add hd') hv' (h.adds hd' (shown_clean ht hh hf.2 hd') (fun _ => shown_count hf.1 hf.2))
    · rw [lineSt, lineEnd]
      refine ih hr.2 htl (drop_add hd') hv' ?_
      have := (h.close ht).open ho ht
      exact this.adds hd' (hv w br (by simp)) (by simp)
    · rw [lineSt_solid hs hc, lineEnd_word hs hc]
      obtain ⟨c, v, hraw, _, _, _, h35, _⟩ := solid_head hs hf
      refine ih hr.2 htl (drop_add hd') hv' ((h.close ht).adds hd' (clean_raw ht hh hd' ?_) (fun _ => rfl))
      intro q he
      rw [hraw] at he
      cases he
      exact h35 rfl

theorem lineSt_close {x : Piece} (hs : x.solid = true) (z : List Piece) (p : Nat) (pend : Bool) (s : St) :
    lineSt own t val p pend s (x :: z) = lineSt own t val p false (s.close t p pend) (x :: z) := by
  rcases piece_cases x with ⟨g, rfl⟩ | ⟨w, br, rfl⟩ | ⟨_, hc⟩
  · cases hs
  · rw [lineSt, lineSt]
    rfl
  · rw [lineSt_solid hs hc, lineSt_solid hs hc]
    rfl

theorem lineEnd_append {m : Bool} {a b : List Piece} : ∀ {pend : Bool}, lineEnd m pend (a ++ b) = lineEnd m (lineEnd m pend a) b := by
  induction a with
  | nil => intro pend; rfl
  | cons x a ih =>
    intro pend
    rcases piece_cases x with ⟨g, rfl⟩ | ⟨w, br, rfl⟩ | ⟨hs, hc⟩
    · rw [List.cons_append, lineEnd, lineEnd, ih]
    · rw [List.cons_append, lineEnd, lineEnd, ih]
    · rw [List.cons_append, lineEnd_word hs hc, lineEnd_word hs hc, ih]

theorem setting (ho : GoodPath own) (ht : Plain t) (hh : NoHash t) {bs : List (List Piece)} {a : List Piece} {x : Piece} {z : List Piece} {after : List (List Piece)}
    (hx : x.solid = true) (hd : t = textOf (bs ++ (a ++ x :: z) :: after)) (hr : ∀ l ∈ bs ++ (a ++ x :: z) :: after, Reads l)
    (hv : ∀ l ∈ bs ++ (a ++ x :: z) :: after, ∀ w br, .call w br ∈ l → Clean (val w)) : ∃ s, Setting own t val bs a x z after s := by
  have hr0 : ∀ k ∈ bs, Reads k := fun k hk => hr k (by simp [hk])
  have hrl : Reads (a ++ x :: z) := hr _ (by simp)
  have hva : ∀ w br, .call w br ∈ a → Clean (val w) := fun w br hm => hv (a ++ x :: z) (by simp) w br (by simp [hm])
  obtain ⟨i1, i2⟩ := front_inv (l := a ++ x :: z) (after := after) ho ht hh (val := val) (bs := bs) (linv_start own t) (by simpa using hd) hr0
    (fun k hk => hv k (by simp [hk]))
  obtain ⟨f1, f2, f3, f4⟩ := flat_frontSt (own := own) (t := t) (val := val) (ls := bs) (p := 0) (need := true) (s := ⟨[], []⟩) rfl
  have hne : empty (a ++ x :: z) = false := by simp [empty, hx]
  have hl := linesSt_front (own := own) (t := t) (val := val) (after := after) hne (bs := bs) (p := 0) (need := true) (s := ⟨[], []⟩)
  generalize hF : frontSt own t val 0 true ⟨[], []⟩ bs = F at *
  obtain ⟨s1, p1, need1⟩ := F
  simp only at i1 i2 f1 f2 f3 f4 hl
  rw [textOf_cons] at i2
  have epos : posOf bs a = p1 + (raws a).length := by unfold posOf; rw [f4]; omega
  have hb := i1.begin ho ht
  have hi := line_inv_front ho ht hh (val := val) hrl (tail_tailOf after) i2 hva hb
  have hs := line_sync (own := own) (val := val) (pend := false) hrl i2 (fun _ => i1.sync)
  refine ⟨(lineSt own t val p1 false (s1.begin own t p1 need1) a).close t (posOf bs a) (lineEnd true false a), ?_, ?_, ?_, ?_, reads_drop hrl, ?_⟩
  · rw [epos]
    exact hi.close ht
  · rw [epos]
    exact Sync.close hs
  · rw [flat_close _ _ _ _ own, flat_lineSt, flat_begin f3, f1]
    unfold front
    dsimp only
    rw [← f2]
    simp [St.flat, body]
  · rw [epos]
    exact reads_front hrl i2
  · rw [hl, linesSt, if_neg (by simp [hne]), if_neg (by simp [hne]), lineSt_append, lineSt_close hx, lineEnd_append, lineEnd_solid hx, epos]
    have : posOf bs (a ++ x :: z) = p1 + (raws (a ++ x :: z)).length := by unfold posOf; rw [f4]; omega
    rw [this]

/-- The lines of what is printed for a text. -/
theorem final_neat (ho : GoodPath own) (ht : Plain t) (hh : NoHash t) {ls : List (List Piece)} (hd : t = textOf ls) (hr : ∀ l ∈ ls, Reads l)
    (hv : ∀ l ∈ ls, ∀ w br, .call w br ∈ l → Clean (val w)) :
    Neat (linesSt own t val 0 true ⟨[], []⟩ ls) ∧ Paired (linesSt own t val 0 true ⟨[], []⟩ ls).b :=
  lines_neat ho ht hh (linv_start own t) (fun _ => by simpa using hd) hr hv

theorem final_flat (ls : List (List Piece)) : (linesSt own t val 0 true ⟨[], []⟩ ls).flat = linesOut true (marksOf own t) val 0 true ls := by
  rw [flat_linesSt rfl]
  simp [St.flat, body]

/-- What is printed behind a state. -/
theorem rest_flat {s : St} {p q : Nat} {need pend : Bool} {l : List Piece} {after : List (List Piece)} :
    ∃ o, (linesSt own t val p need ((lineSt own t val q pend s l).adds [10]) after).flat = s.flat ++ lineOut true (marksOf own t) val q pend l ++ 10 :: o := by
  refine ⟨linesOut true (marksOf own t) val p need after, ?_⟩
  rw [flat_linesSt rfl, flat_adds, flat_lineSt]
  simp

/-- A piece that is not a call is found in what is printed. -/
theorem solid_found (ho : GoodPath own) (ht : Plain t) (hh : NoHash t) {ls bs : List (List Piece)} {a : List Piece} {x : Piece} {z : List Piece} {after : List (List Piece)}
    (hls : ls = bs ++ (a ++ x :: z) :: after) (hx : x.solid = true) (hxc : ∀ w br, x ≠ .call w br) (hd : t = textOf ls) (hr : ∀ l ∈ ls, Reads l)
    (hv : ∀ l ∈ ls, ∀ w br, .call w br ∈ l → Clean (val w)) {out : List Nat} (hout : out = linesOut true (marksOf own t) val 0 true ls)
    (hs : (encodeAll out).length < 4611686018427387904) :
    (∃ rest, t = t.take (posOf bs a) ++ x.raw ++ rest) ∧ (∃ rest, out = front (marksOf own t) val bs a ++ x.raw ++ rest) ∧
    ∀ own', ∃ loc, search (encodeAll out) (encodeAll (front (marksOf own t) val bs a)).length = some loc ∧ loc.line = lineNo (t.take (posOf bs a)) ∧
      loc.symbol = 1 + (lastLine (t.take (posOf bs a))).length ∧ getPath own' (encodeAll out) loc = some own := by
  have hfin := final_neat (val := val) ho ht hh hd hr hv
  subst hls
  have hflat := final_flat (own := own) (t := t) (val := val) (bs ++ (a ++ x :: z) :: after)
  obtain ⟨s, st⟩ := setting ho ht hh hx hd hr hv
  rw [← hflat] at hout
  subst hout
  refine ⟨?_, ?_, ?_⟩
  · refine ⟨raws z ++ tailOf after, ?_⟩
    have := (List.take_append_drop (posOf bs a) t).symm
    rw [st.text, raws_cons] at this
    simpa using this
  · obtain ⟨o, he⟩ := rest_flat (own := own) (t := t) (val := val) (s := s) (p := posOf bs (a ++ x :: z) + 1) (q := posOf bs a) (need := lineEnd true false (x :: z)) (pend := false)
      (l := x :: z) (after := after)
    rw [st.rest, he, st.flat, lineOut_solid hx hxc]
    exact ⟨_, by simp only [List.append_assoc]; rfl⟩
  · intro own'
    rw [← st.flat]
    have hfol := line_follows (own := own) (val := val) (s := s) (s' := s) (ok := true) (n := num t (posOf bs a)) (pend := false) st.reads (tail_tailOf after) st.text
      (fun _ _ => ⟨rfl, rfl⟩) (.inl (same_refl s))
    have hpast : Past own (num t (posOf bs a)) true s (linesSt own t val 0 true ⟨[], []⟩ (bs ++ (a ++ x :: z) :: after)) := by
      rw [st.rest]
      refine Past.lines ?_
      rcases hfol with h | h
      · exact h.past (by simp) _ _ _
      · exact h.adds
    obtain ⟨loc, more, r, h1, h2, h3⟩ := find_past hfin.1 hfin.2 hs hpast own'
    refine ⟨loc, h1, ?_⟩
    obtain ⟨g1, g2, g3, _⟩ := h2
    rw [g1, g2, g3]
    have hsym := st.sync
    unfold Sync at hsym
    by_cases hb : ∃ m p cs q, r = Line.begin m p cs :: q
    · obtain ⟨m, p, cs, q, rfl⟩ := hb
      obtain ⟨_, rfl, rfl⟩ := h3 m p cs q rfl
      exact ⟨rfl, by show 1 + s.col.length = _; rw [hsym], rfl⟩
    · rw [where_next (fun m p cs q he => hb ⟨m, p, cs, q, he⟩)]
      obtain ⟨k1, k2, k3⟩ := st.inv.line rfl (1 + s.col.length) (s.col ++ more) 0 s.col
      refine ⟨k1, by rw [k3, hsym], by rw [k2]; rfl⟩

theorem blanks_front {pad : List Nat} (hp : ∀ c ∈ pad, c = 32 ∨ c = 9) (v : List Nat) (h : ∀ c r, v = c :: r → c ≠ 32 ∧ c ≠ 9) : blanks (pad ++ v) = pad.length := by
  unfold blanks
  induction pad with
  | nil =>
    cases v with
    | nil => rfl
    | cons c r =>
      have := h c r rfl
      simp [this]
  | cons c pad ih =>
    have hc := hp c (by simp)
    have := ih (fun d hd => hp d (by simp [hd]))
    rw [List.cons_append, List.takeWhile_cons_of_pos (by rcases hc with rfl | rfl <;> decide), List.length_cons, this, List.length_cons]

/-- The first of the lines is what is in front of the first end of line. -/
theorem adds_first {cs : List Nat} : ∀ {s : St}, 10 ∈ cs → ∃ ms : List (List Nat), s.adds cs = ⟨s.b ++ .code (s.col ++ cs.takeWhile (· ≠ 10)) :: ms.map .code, lastLine cs⟩ := by
  induction cs with
  | nil => intro s h; simp at h
  | cons c cs ih =>
    intro s h
    by_cases hc : c = 10
    · subst hc
      rw [St.adds]
      unfold St.push
      rw [if_pos rfl]
      by_cases h10 : 10 ∈ cs
      · obtain ⟨ms, h1⟩ := ih (s := ⟨s.b ++ [.code s.col], []⟩) h10
        refine ⟨([] ++ cs.takeWhile (· ≠ 10)) :: ms, ?_⟩
        rw [h1, lastLine_cons_mem h10]
        simp
      · refine ⟨[], ?_⟩
        rw [adds_same h10, show (10 : Nat) :: cs = [] ++ 10 :: cs from rfl, lastLine_break h10]
        simp
    · rw [St.adds]
      unfold St.push
      rw [if_neg hc]
      have h10 : 10 ∈ cs := by
        rcases List.mem_cons.1 h with h | h
        · exact absurd h.symm hc
        · exact h
      obtain ⟨ms, h1⟩ := ih (s := ⟨s.b, s.col ++ [c]⟩) h10
      refine ⟨ms, ?_⟩
      rw [h1, lastLine_cons_mem h10, List.takeWhile_cons_of_pos (by simpa using hc)]
      simp

/-- A position in what is printed for a call. -/
theorem call_found (ho : GoodPath own) (ht : Plain t) (hh : NoHash t) {ls bs : List (List Piece)} {a : List Piece} {w : List Nat} {br : Option (List Gap × List Gap)} {z : List Piece}
    {after : List (List Piece)}
    (hls : ls = bs ++ (a ++ .call w br :: z) :: after) (hd : t = textOf ls) (hr : ∀ l ∈ ls, Reads l)
    (hv : ∀ l ∈ ls, ∀ w br, .call w br ∈ l → Clean (val w)) {v1 v2 : List Nat} (hw : val w = v1 ++ v2) (hw' : ∀ c r, val w = c :: r → c ≠ 32 ∧ c ≠ 9)
    {out : List Nat} (hout : out = linesOut true (marksOf own t) val 0 true ls) (hs : (encodeAll out).length < 4611686018427387904) :
    (∃ rest, t = t.take (posOf bs a) ++ (Piece.call w br).raw ++ rest) ∧
    (∃ rest, out = front (marksOf own t) val bs a ++ 10 :: (marksOf own t).before (posOf bs a) ++ v1 ++ v2 ++ rest) ∧
    ∀ own', ∃ loc, search (encodeAll out) (encodeAll (front (marksOf own t) val bs a ++ 10 :: (marksOf own t).before (posOf bs a) ++ v1)).length = some loc ∧
      Says own' (encodeAll out) loc ⟨lineNo (t.take (posOf bs a)), some own, 1 + (lastLine (t.take (posOf bs a))).length, wholeLine t (posOf bs a)⟩ := by
  have hfin := final_neat (val := val) ho ht hh hd hr hv
  subst hls
  have hflat := final_flat (own := own) (t := t) (val := val) (bs ++ (a ++ .call w br :: z) :: after)
  obtain ⟨s, st⟩ := setting ho ht hh (x := .call w br) rfl hd hr hv
  rw [← hflat] at hout
  subst hout
  have hdz := drop_add (a := (Piece.call w br).raw) (by rw [st.text, raws_cons, List.append_assoc])
  refine ⟨?_, ?_, ?_⟩
  · refine ⟨raws z ++ tailOf after, ?_⟩
    have := (List.take_append_drop (posOf bs a) t).symm
    rw [st.text, raws_cons] at this
    simpa using this
  · obtain ⟨o, he⟩ := rest_flat (own := own) (t := t) (val := val) (s := s) (p := posOf bs (a ++ .call w br :: z) + 1) (q := posOf bs a) (need := lineEnd true false (.call w br :: z)) (pend := false)
      (l := .call w br :: z) (after := after)
    rw [st.rest, he, st.flat, lineOut, hw]
    exact ⟨_, by simp only [List.append_assoc, if_pos, List.cons_append]; rfl⟩
  · intro own'
    have e5 : ((s.open' own t (posOf bs a)).adds v1).flat = front (marksOf own t) val bs a ++ 10 :: (marksOf own t).before (posOf bs a) ++ v1 := by
      rw [flat_adds, flat_open, st.flat]
    rw [← e5]
    have hpast : Past own 0 false ((s.open' own t (posOf bs a)).adds v1) (linesSt own t val 0 true ⟨[], []⟩ (bs ++ (a ++ .call w br :: z) :: after)) := by
      rw [st.rest, lineSt, hw, adds_append]
      refine Past.lines ?_
      have h0 := adds_step (own := own) (n := 0) (ok := false) (cs := v2) (.inl (same_refl ((s.open' own t (posOf bs a)).adds v1)))
      have hfol := line_follows (own := own) (val := val) (s := (s.open' own t (posOf bs a)).adds v1) (ok := false) (n := 0) (pend := true) st.reads.2 (tail_tailOf after) hdz
        (by simp) (h0.imp (·.2) id)
      rcases hfol with h | h
      · exact h.past (by simp) _ _ _
      · exact h.adds
    obtain ⟨loc, more, r, h1, h2, h3⟩ := find_past hfin.1 hfin.2 hs hpast own'
    refine ⟨loc, h1, ?_⟩
    rw [where_next (fun m p cs q he => by have := (h3 m p cs q he).1; cases this)] at h2
    have hpad := padOf_blank t (posOf bs a)
    by_cases h10 : 10 ∈ v1
    · obtain ⟨ms, he⟩ := adds_first (s := s.open' own t (posOf bs a)) h10
      rw [he] at h2
      simp only [St.open', St.mid] at h2
      rw [List.reverse_append, List.reverse_cons, List.append_assoc, List.singleton_append, place_mids] at h2
      simp only [List.reverse_append, List.reverse_cons, List.reverse_nil, List.nil_append, List.cons_append, List.singleton_append, place] at h2
      rw [blanks_front hpad _ ?_, padOf_length] at h2
      · exact h2
      · intro c q hq
        cases v1 with
        | nil => cases hq
        | cons d v =>
          by_cases hd : d = 10
          · subst hd
            cases hq
          · rw [List.takeWhile_cons_of_pos (by simpa using hd)] at hq
            cases hq
            exact hw' _ (v ++ v2) (by rw [hw]; rfl)
    · rw [adds_same h10] at h2
      simp only [St.open', St.mid] at h2
      simp only [List.reverse_append, List.reverse_cons, List.reverse_nil, List.nil_append, List.cons_append, List.singleton_append, place] at h2
      rw [blanks_front hpad _ ?_, padOf_length] at h2
      · exact h2
      · intro c q hq
        exact hw' c (q ++ v2) (by rw [hw, hq]; rfl)

end RuC.Text
