import Verif.Locator.Search

/-!
# Properties of locations: C64, C65, C66
-/

namespace RuC.Locator.Props
open RuC RuC.Utf8 RuC.Io RuC.Locator

/-- A string of ASCII characters. -/
def codes (s : String) : List Nat := s.toList.map Char.toNat

/-! ## C64 -/

/-- A small text: one line of the file itself, a line of "a.c" with a replacement in it and a line behind. -/
def sample : List Line :=
  [.code [120], .usual 7 [97, 46, 99], .code [97, 32, 61, 32], .begin 7 [97, 46, 99] [97, 32, 61, 32, 77, 59],
   .code [32, 32, 32, 32, 53], .end 7, .code [32, 32, 32, 32, 32, 59], .code [1103]]

theorem sample_source : Source sample := by
  refine ⟨?_, ?_, by decide +kernel⟩
  · intro l hl
    simp only [sample, List.mem_cons, List.not_mem_nil, or_false] at hl
    rcases hl with rfl | rfl | rfl | rfl | rfl | rfl | rfl | rfl
    · exact ⟨by decide, by decide⟩
    · exact ⟨by decide, by decide, by decide⟩
    · exact ⟨by decide, by decide⟩
    · exact ⟨by decide, by decide, by decide, by decide⟩
    · exact ⟨by decide, by decide⟩
    · show (7 : Nat) < _; decide
    · exact ⟨by decide, by decide⟩
    · exact ⟨by decide, by decide⟩
  · intro ls n rs he
    have hlen : ls.length < 8 := by
      have := congrArg List.length he
      simp [sample] at this
      omega
    have hls : ls = sample.take ls.length := by rw [he]; simp
    have hn : sample[ls.length]? = some (.end n) := by rw [he]; simp
    generalize ls.length = k at *
    have hk : k = 5 := by
      match k, hlen with
      | 0, _ => simp [sample] at hn
      | 1, _ => simp [sample] at hn
      | 2, _ => simp [sample] at hn
      | 3, _ => simp [sample] at hn
      | 4, _ => simp [sample] at hn
      | 5, _ => rfl
      | 6, _ => simp [sample] at hn
      | 7, _ => simp [sample] at hn
    subst hk
    simp [sample] at hn
    subst hn
    rw [hls]
    exact ⟨7, [97, 46, 99], [97, 32, 61, 32, 77, 59], by decide, by decide⟩

/-- C64: searching from any position in a line of code of a text with marks gives the line, the file, the column and
the text of the line of the sources. -/
theorem search_finds {ls before after : List Line} {col more : List Nat} (hs : Source ls) (h : ls = before ++ .code (col ++ more) :: after)
    (own : List Nat) : ∃ loc, search (encodeAll (render ls)) (encodeAll (body before ++ col)).length = some loc ∧
      Says own (encodeAll (render ls)) loc (whereIs before col more after) := by
  obtain ⟨loc, h1, h2, _⟩ := from_spec (own := own) hs h (knows_first own _ _)
  exact ⟨loc, h1, h2⟩

/-- In front of the replacement, in it, behind it, in the next line. -/
example : whereIs [.code [120], .usual 7 [97, 46, 99]] [97] [32, 61, 32] (sample.drop 3) = ⟨7, some [97, 46, 99], 2, [97, 32, 61, 32, 77, 59]⟩ ∧
    whereIs (sample.take 4) [32, 32, 32, 32] [53] (sample.drop 5) = ⟨7, some [97, 46, 99], 5, [97, 32, 61, 32, 77, 59]⟩ ∧
    whereIs (sample.take 6) [32, 32, 32, 32, 32] [59] (sample.drop 7) = ⟨7, some [97, 46, 99], 6, [97, 32, 61, 32, 77, 59]⟩ ∧
    whereIs (sample.take 7) [1103] [] [] = ⟨8, some [97, 46, 99], 2, [1103]⟩ ∧
    whereIs [] [] [120] (sample.drop 1) = ⟨1, none, 1, [120]⟩ := by decide

example (own : List Nat) : ∃ loc, search (encodeAll (render sample)) (encodeAll (body (sample.take 7) ++ [1103])).length = some loc ∧
    Says own (encodeAll (render sample)) loc ⟨8, some [97, 46, 99], 2, [1103]⟩ :=
  search_finds (before := sample.take 7) (col := [1103]) (more := []) (after := []) sample_source rfl own

/-- The column is counted in characters, not in octets. -/
example : (search [208, 191, 226, 130, 172, 240, 159, 152, 128, 120] 9).map Loc.symbol = some 4 := by decide +kernel

/-! ## C65 -/

/-- C65: however a location was brought from place to place in a text, by searching on from where it was or, in a text
without marks, by counting a line, it says the place it was brought to. -/
theorem reach_says {ls : List Line} (hs : Source ls) {loc : Loc} {before after : List Line} {col more : List Nat} (hr : Reach ls loc before col more after)
    (own : List Nat) : Says own (encodeAll (render ls)) loc (whereIs before col more after) := (reach_spec hs hr).2.1

/-- C65: and it can be brought to any place of the text. -/
theorem reach_goes_on {ls : List Line} (hs : Source ls) {loc : Loc} {before after : List Line} {col more : List Nat} (hr : Reach ls loc before col more after)
    {before' after' : List Line} {col' more' : List Nat} (h : ls = before' ++ .code (col' ++ more') :: after') :
    ∃ loc', searchFrom (encodeAll (render ls)) (encodeAll (body before' ++ col')).length loc = some loc' ∧ Reach ls loc' before' col' more' after' := by
  obtain ⟨loc', h1, _⟩ := from_spec (own := []) hs h (hr.knows hs)
  exact ⟨loc', h1, .again hr h h1⟩

/-- From the line behind the replacement to the last line and back into the replacement. -/
example : ∃ loc, Reach sample loc (sample.take 4) [32, 32] [32, 32, 53] (sample.drop 5) := by
  obtain ⟨a, h1, _⟩ := search_finds (before := sample.take 6) (col := [32]) (more := [32, 32, 32, 32, 59]) (after := sample.drop 7) sample_source rfl []
  obtain ⟨b, _, h2⟩ := reach_goes_on sample_source (.search rfl h1) (before' := sample.take 7) (col' := [1103]) (more' := []) (after' := []) rfl
  obtain ⟨c, _, h3⟩ := reach_goes_on sample_source h2 (before' := sample.take 4) (col' := [32, 32]) (more' := [32, 32, 53]) (after' := sample.drop 5) rfl
  exact ⟨c, h3⟩

/-- Counting a line in a text with marks goes wrong: behind the replacement the line of code shown is that of the mark, and a
search that goes on finds no beginning to count from, but in the line in front of the replacement counting leads to line 8. -/
theorem line_break_with_marks : ∃ loc, search (encodeAll (render sample)) (encodeAll (body (sample.take 2))).length = some loc ∧
    (lineBreak (encodeAll (body (sample.take 3))).length loc).line = 8 ∧
    (search (encodeAll (render sample)) (encodeAll (body (sample.take 4))).length).map Loc.line = some 7 := by
  have h : (search (encodeAll (render sample)) (encodeAll (body (sample.take 2))).length).map Loc.line = some 7 := by decide +kernel
  obtain ⟨loc, h1, h2⟩ := Option.map_eq_some_iff.1 h
  refine ⟨loc, h1, ?_, by decide +kernel⟩
  simp only [lineBreak]
  rw [h2]
  exact usz_of_lt (by decide)

/-! ## C66 -/

/-- C66: what `loc_update` prints is a mark and blanks; in the text that is written, a search behind it says the same line, file and
column, whatever is in front of it and behind it. -/
theorem update_round_trip {ls : List Line} (hs : Source ls) {loc0 : Loc} {before0 after0 : List Line} {col0 more0 : List Nat}
    (hr : Reach ls loc0 before0 col0 more0 after0) {before after : List Line} {col more : List Nat} (h : ls = before ++ .code (col ++ more) :: after)
    {own : List Nat} (hf : fileOf own (whereIs before col more after) ≠ [])
    (hc : (whereIs before col more after).symbol ≤ (whereIs before col more after).code.length + 1) :
    ∃ loc printed, update own (encodeAll (render ls)) (encodeAll (body before ++ col)).length loc0 = some (loc, some printed) ∧
      Says own (encodeAll (render ls)) loc (whereIs before col more after) ∧
      ∀ (out after' : List Line) (more' own' : List Nat), (∀ n p cs rest, after' ≠ .begin n p cs :: rest) →
        let ls' := out ++ .usual (whereIs before col more after).line (fileOf own (whereIs before col more after)) ::
          .code (pad (whereIs before col more after) ++ more') :: after'
        render ls' = body out ++ printed ++ more' ++ tail after' ∧
        (Source ls' → ∃ loc', search (encodeAll (render ls')) (encodeAll (body out ++ printed)).length = some loc' ∧
          loc'.line = (whereIs before col more after).line ∧ loc'.symbol = (whereIs before col more after).symbol ∧
          getPath own' (encodeAll (render ls')) loc' = some (fileOf own (whereIs before col more after))) := by
  obtain ⟨loc, h1, h2, _⟩ := from_spec (own := own) hs h (hr.knows hs)
  have hsym := where_symbol before col more after
  generalize whereIs before col more after = w at *
  have hfill := fill_spec (n := w.symbol - 1) h2.2.2.2 (by omega)
  refine ⟨loc, (Line.usual w.line (fileOf own w)).chars ++ [10] ++ pad w, ?_, h2, ?_⟩
  · unfold update
    rw [h1, Option.bind_some, h2.2.2.1, Option.bind_some, if_neg (show w.path.getD own ≠ [] from hf), h2.2.1, hfill, h2.1, showNat_eq]
    simp [Line.chars, PREFIX, pad, fileOf]
  · intro out after' more' own' hno
    refine ⟨?_, ?_⟩
    · rw [two_lines, render_mid, body_snoc]
      simp [Line.chars]
    · intro hs'
      obtain ⟨loc', g1, g2⟩ := search_finds (before := out ++ [.usual w.line (fileOf own w)]) (col := pad w) (more := more') (after := after') hs' (by simp) own'
      rw [where_next hno] at g2
      refine ⟨loc', ?_, ?_, ?_, ?_⟩
      · rw [← g1, body_snoc]
        simp
      · rw [g2.1]
        simp [place]
      · rw [g2.2.1]
        simp [place, pad_length hc]
        omega
      · rw [g2.2.2.1]
        simp [place]

/-- C66: what `loc_update_begin` prints is a mark with the line of code and blanks; in the text that is written, a search
anywhere in the replacement says the place in front of which it was printed, with the line of code. -/
theorem update_begin_round_trip {ls : List Line} (hs : Source ls) {loc0 : Loc} {before0 after0 : List Line} {col0 more0 : List Nat}
    (hr : Reach ls loc0 before0 col0 more0 after0) {before after : List Line} {col more : List Nat} (h : ls = before ++ .code (col ++ more) :: after)
    {own : List Nat} (hf : fileOf own (whereIs before col more after) ≠ [])
    (hc : (whereIs before col more after).symbol ≤ (whereIs before col more after).code.length + 1) :
    ∃ loc printed, updateBegin own (encodeAll (render ls)) (encodeAll (body before ++ col)).length loc0 = some (loc, some printed) ∧
      Says own (encodeAll (render ls)) loc (whereIs before col more after) ∧
      (∀ (out after' : List Line) (col' more' own' : List Nat), (∀ n p cs rest, after' ≠ .begin n p cs :: rest) → (∀ c t, col' = c :: t → c ≠ 32 ∧ c ≠ 9) →
        let ls' := out ++ .begin (whereIs before col more after).line (fileOf own (whereIs before col more after)) (whereIs before col more after).code ::
          .code (pad (whereIs before col more after) ++ col' ++ more') :: after'
        render ls' = body out ++ printed ++ col' ++ more' ++ tail after' ∧
        (Source ls' → ∃ loc', search (encodeAll (render ls')) (encodeAll (body out ++ printed ++ col')).length = some loc' ∧
          Says own' (encodeAll (render ls')) loc' { whereIs before col more after with path := some (fileOf own (whereIs before col more after)) })) ∧
      (∀ (out after' : List Line) (mids : List (List Nat)) (col' more' more'' own' : List Nat), (∀ n p cs rest, after' ≠ .begin n p cs :: rest) →
        (∀ c t, more'' = c :: t → c ≠ 32 ∧ c ≠ 9) →
        let ls' := out ++ .begin (whereIs before col more after).line (fileOf own (whereIs before col more after)) (whereIs before col more after).code ::
          .code (pad (whereIs before col more after) ++ more'') :: (mids.map Line.code ++ .code (col' ++ more') :: after')
        render ls' = body out ++ printed ++ more'' ++ [10] ++ body (mids.map Line.code) ++ col' ++ more' ++ tail after' ∧
        (Source ls' → ∃ loc', search (encodeAll (render ls')) (encodeAll (body out ++ printed ++ more'' ++ [10] ++ body (mids.map Line.code) ++ col')).length = some loc' ∧
          Says own' (encodeAll (render ls')) loc' { whereIs before col more after with path := some (fileOf own (whereIs before col more after)) })) := by
  obtain ⟨loc, h1, h2, _⟩ := from_spec (own := own) hs h (hr.knows hs)
  have hsym := where_symbol before col more after
  generalize whereIs before col more after = w at *
  have hfill := fill_spec (n := w.symbol - 1) h2.2.2.2 (by omega)
  refine ⟨loc, (Line.begin w.line (fileOf own w) w.code).chars ++ [10] ++ pad w, ?_, h2, ?_, ?_⟩
  · unfold updateBegin
    rw [h1, Option.bind_some, h2.2.2.1, Option.bind_some, if_neg (show w.path.getD own ≠ [] from hf), h2.2.1, h2.2.2.2, Option.bind_some, hfill, h2.1, showNat_eq]
    simp [Line.chars, PREFIX, COMMENT, pad, fileOf]
  · intro out after' col' more' own' hno hcol
    refine ⟨?_, ?_⟩
    · rw [two_lines, render_mid, body_snoc]
      simp [Line.chars]
    · intro hs'
      obtain ⟨loc', g1, g2⟩ := search_finds (before := out ++ [.begin w.line (fileOf own w) w.code]) (col := pad w ++ col') (more := more') (after := after')
        hs' (by simp) own'
      rw [where_next hno, List.reverse_append, List.reverse_singleton, List.singleton_append, place, blanks_pad w col' hcol, pad_length hc] at g2
      refine ⟨loc', ?_, ?_⟩
      · rw [← g1, body_snoc]
        simp
      · rw [show 1 + (w.symbol - 1) = w.symbol by omega] at g2
        exact g2
  · intro out after' mids col' more' more'' own' hno hm
    have e : out ++ .begin w.line (fileOf own w) w.code :: .code (pad w ++ more'') :: (mids.map Line.code ++ .code (col' ++ more') :: after') =
        (out ++ [.begin w.line (fileOf own w) w.code] ++ [.code (pad w ++ more'')] ++ mids.map Line.code) ++ .code (col' ++ more') :: after' := by simp
    refine ⟨?_, ?_⟩
    · rw [e, render_mid, body_append, body_snoc, body_snoc]
      simp [Line.chars]
    · intro hs'
      obtain ⟨loc', g1, g2⟩ := search_finds hs' e own'
      rw [where_next hno, List.reverse_append, List.reverse_append, List.reverse_singleton, List.singleton_append, place_mids,
        List.reverse_append, List.reverse_singleton, List.singleton_append, place, blanks_pad w more'' hm, pad_length hc] at g2
      refine ⟨loc', ?_, ?_⟩
      · rw [← g1, body_append, body_snoc, body_snoc]
        simp [Line.chars]
      · rw [show 1 + (w.symbol - 1) = w.symbol by omega] at g2
        exact g2

/-- C66: what `loc_update_end` prints is a mark with the line only and blanks; in the text that is written, when the replacement
was begun with a mark of the same file, a search behind it says the same line, file and column. -/
theorem update_end_round_trip {ls : List Line} (hs : Source ls) {loc0 : Loc} {before0 after0 : List Line} {col0 more0 : List Nat}
    (hr : Reach ls loc0 before0 col0 more0 after0) {before after : List Line} {col more : List Nat} (h : ls = before ++ .code (col ++ more) :: after)
    {own : List Nat} (hf : fileOf own (whereIs before col more after) ≠ [])
    (hc : (whereIs before col more after).symbol ≤ (whereIs before col more after).code.length + 1) :
    ∃ loc printed, updateEnd own (encodeAll (render ls)) (encodeAll (body before ++ col)).length loc0 = some (loc, some printed) ∧
      Says own (encodeAll (render ls)) loc (whereIs before col more after) ∧
      ∀ (out after' : List Line) (mids : List (List Nat)) (m : Nat) (cs more' own' : List Nat), (∀ n p cs rest, after' ≠ .begin n p cs :: rest) →
        let ls' := out ++ .begin m (fileOf own (whereIs before col more after)) cs :: (mids.map Line.code ++ .end (whereIs before col more after).line ::
          .code (pad (whereIs before col more after) ++ more') :: after')
        render ls' = body (out ++ .begin m (fileOf own (whereIs before col more after)) cs :: mids.map Line.code) ++ printed ++ more' ++ tail after' ∧
        (Source ls' → ∃ loc', search (encodeAll (render ls'))
            (encodeAll (body (out ++ .begin m (fileOf own (whereIs before col more after)) cs :: mids.map Line.code) ++ printed)).length = some loc' ∧
          loc'.line = (whereIs before col more after).line ∧ loc'.symbol = (whereIs before col more after).symbol ∧
          getPath own' (encodeAll (render ls')) loc' = some (fileOf own (whereIs before col more after))) := by
  obtain ⟨loc, h1, h2, _⟩ := from_spec (own := own) hs h (hr.knows hs)
  have hsym := where_symbol before col more after
  generalize whereIs before col more after = w at *
  have hfill := fill_spec (n := w.symbol - 1) h2.2.2.2 (by omega)
  refine ⟨loc, (Line.end w.line).chars ++ [10] ++ pad w, ?_, h2, ?_⟩
  · unfold updateEnd
    rw [h1, Option.bind_some, h2.2.2.1, Option.bind_some, if_neg (show w.path.getD own ≠ [] from hf), h2.2.1, hfill, h2.1, showNat_eq]
    simp [Line.chars, PREFIX, pad]
  · intro out after' mids m cs more' own' hno
    have e : out ++ .begin m (fileOf own w) cs :: (mids.map Line.code ++ .end w.line :: .code (pad w ++ more') :: after') =
        ((out ++ .begin m (fileOf own w) cs :: mids.map Line.code) ++ [.end w.line]) ++ .code (pad w ++ more') :: after' := by simp
    refine ⟨?_, ?_⟩
    · rw [e, render_mid, body_snoc]
      simp [Line.chars]
    · intro hs'
      obtain ⟨loc', g1, g2⟩ := search_finds hs' e own'
      have ho : opened (out ++ .begin m (fileOf own w) cs :: mids.map Line.code).reverse = some (m, fileOf own w, cs) := by
        rw [List.reverse_append, List.reverse_cons, List.append_assoc, opened_mids]
        rfl
      rw [where_next hno, List.reverse_append, List.reverse_singleton, List.singleton_append, place, ho] at g2
      refine ⟨loc', ?_, ?_, ?_, ?_⟩
      · rw [← g1, body_snoc]
        simp
      · rw [g2.1]
        simp
      · rw [g2.2.1]
        simp [pad_length hc]
        omega
      · rw [g2.2.2.1]
        simp

/-- At column 5 of a line with a tab: the mark keeps the tab. -/
example : (update [97, 46, 99] (encodeAll [120, 10, 9, 97, 32, 77]) 5 ⟨SIZE_MAX, 0, 1, 1⟩).map (·.2) =
    some (some (codes "#line 2 \"a.c\"\n\t  ")) := by decide +kernel

example : (updateBegin [97, 46, 99] (encodeAll [120, 10, 9, 97, 32, 77]) 5 ⟨SIZE_MAX, 0, 1, 1⟩).map (·.2) =
    some (some (codes "#line 2 \"a.c\" // \ta M\n\t  ")) := by decide +kernel

example : (updateEnd [97, 46, 99] (encodeAll [120, 10, 9, 97, 32, 77]) 5 ⟨SIZE_MAX, 0, 1, 1⟩).map (·.2) =
    some (some (codes "#line 2\n\t  ")) := by decide +kernel

/-- A path in a mark that does not fit the buffer of `MAX_PATH` octets is written behind its end. -/
theorem long_path_overruns {a p r : List Nat} (hp : ∀ c ∈ p, Inner c ∧ Good c ∧ c ≠ 34) (hl : 1024 ≤ (encodeAll p).length)
    (own : List Nat) (code line symbol : Nat) (hs : (encodeAll a).length ≠ SIZE_MAX) :
    getPath own (encodeAll (a ++ p ++ (34 :: r))) ⟨(encodeAll a).length, code, line, symbol⟩ = none := by
  unfold getPath
  rw [if_neg hs]
  exact pathLoop_long (before := a) (rest := 34 :: r) ⟨by simp, rfl⟩ hp (by decide) (by omega)

end RuC.Locator.Props
