import Verif.Text.Found

/-!
# Properties of the text between the directives

C67: what is printed for a text; C68: what is printed leads back to the place it was read from; C69: so does what is printed for a macro.
-/

namespace RuC.Text.Props
open RuC RuC.Utf8 RuC.Io RuC.Locator RuC.Text

/-- A test for `Bare`. -/
def bareTest : List (List Piece) → Bool
  | [] => true
  | l :: after => go l after && bareTest after
where
  go : List Piece → List (List Piece) → Bool
    | [], _ => true
    | .call _ none :: y, after => (match solids (y :: after) with
      | .chr 40 :: .chr 41 :: _ => false
      | _ => true) && go y after
    | _ :: y, after => go y after

theorem bareTest_go {w : List Nat} {y : List Piece} {after : List (List Piece)} : ∀ {x : List Piece}, bareTest.go (x ++ .call w none :: y) after = true →
    ∀ m, solids (y :: after) ≠ .chr 40 :: .chr 41 :: m := by
  intro x
  induction x with
  | nil =>
    intro h m he
    rw [List.nil_append, bareTest.go, he] at h
    simp at h
  | cons p x ih =>
    intro h
    refine ih ?_
    rw [List.cons_append] at h
    cases p with
    | call u br =>
      cases br with
      | none => rw [bareTest.go, Bool.and_eq_true] at h; exact h.2
      | some br => simpa [bareTest.go] using h
    | _ => simpa [bareTest.go] using h

theorem bare_of {ls : List (List Piece)} (h : bareTest ls = true) : Bare ls := by
  intro before
  induction before generalizing ls with
  | nil =>
    intro l after x y w h1 h2
    subst h1 h2
    rw [List.nil_append, bareTest, Bool.and_eq_true] at h
    exact bareTest_go h.1
  | cons b before ih =>
    intro l after x y w h1 h2
    subst h1
    rw [List.cons_append, bareTest, Bool.and_eq_true] at h
    exact ih h.2 l after x y w rfl h2

/-! ## A text -/

/-- `ONE` is `1`, `TWO` is `(ONE+ONE)`. -/
def macros (w : List Nat) : Option Macro :=
  if w = [79, 78, 69] then some ⟨0, [49]⟩ else if w = [84, 87, 79] then some ⟨0, [40, 79, 78, 69, 43, 79, 78, 69, 41]⟩ else none

/-- The lines `x = TWO;`, `/* a` and `b */ y`: the second and the third are one list of pieces. -/
def lines : List (List Piece) :=
  [[.word [120], .gap (.blank 32), .chr 61, .gap (.blank 32), .call [84, 87, 79] none, .chr 59],
   [.gap (.block [32, 97, 10, 98, 32]), .gap (.blank 32), .word [121]]]

def text : List Nat := textOf lines

/-- What is printed for `TWO`. -/
def value (w : List Nat) : List Nat := if w = [79, 78, 69] then [49] else [40, 49, 43, 49, 41]

theorem lines_written : Written macros lines text := by
  refine ⟨by simp [lines], rfl, ?_, bare_of (by decide), ?_⟩
  · intro l hl
    simp only [lines, List.mem_cons, List.not_mem_nil, or_false] at hl
    rcases hl with rfl | rfl
    · simp [Reads, Piece.Fits, Gap.Fits, raws, Piece.raw, Gap.raw, Word, bracketsRaw, wordChar, isLetter, isDigit]
      decide
    · simp only [Reads, Piece.Fits, Gap.Fits, raws, Piece.raw, Gap.raw, Word, and_true]
      refine ⟨⟨by simp, ?_⟩, ⟨by simp, by simp⟩, ?_⟩
      · intro x y h
        have : (47 : Nat) ∈ [32, 97, 10, 98, 32] ++ [42] := by rw [h]; simp
        simp at this
      · simp [wordChar, isLetter]
  · intro l hl w hw
    simp only [lines, List.mem_cons, List.not_mem_nil, or_false] at hl
    rcases hl with rfl | rfl
    · simp at hw; subst hw; decide
    · simp at hw; subst hw; decide

theorem text_plain : Plain text := by
  refine ⟨by decide +kernel, by decide +kernel, ?_, by decide +kernel⟩
  intro a b h hb
  have h35 : (35 : Nat) ∉ text := by decide +kernel
  refine h35 ?_
  rw [h]
  obtain ⟨c, hc⟩ := hb
  rw [← hc]
  simp

theorem value_one (n : Nat) : Expands macros n [79, 78, 69] (value [79, 78, 69]) := by
  have : Written macros [[.chr 49]] [49] := by
    refine ⟨by simp, rfl, ?_, bare_of (by decide), by simp⟩
    simp [Reads, Piece.Fits, raws, isLetter]
    decide
  exact .leaf (macros := macros) (vs := [[.chr 49]]) (by decide) (by simp) this (by simp)

theorem value_two : Expands macros MAX_CALL_DEPTH [84, 87, 79] (value [84, 87, 79]) := by
  have : Written macros [[.chr 40, .call [79, 78, 69] none, .chr 43, .call [79, 78, 69] none, .chr 41]] [40, 79, 78, 69, 43, 79, 78, 69, 41] := by
    refine ⟨by simp, rfl, ?_, bare_of (by decide), by simp⟩
    simp [Reads, Piece.Fits, raws, Piece.raw, Word, bracketsRaw, wordChar, isLetter, isDigit]
    decide
  refine .node (macros := macros) (n := 255) (vs := [[.chr 40, .call [79, 78, 69] none, .chr 43, .call [79, 78, 69] none, .chr 41]]) (val := value) (by decide) (by simp) this ?_
  intro l hl u br hm
  simp at hl
  subst hl
  simp at hm
  obtain ⟨rfl, rfl⟩ | ⟨rfl, rfl⟩ := hm
  all_goals exact value_one 255

/-! ## C67 -/

/-- C67: for a text made of lines of pieces, exactly what the pieces say is printed and no message: strings, words and other
characters as they are, and so are `/*` comments in one line; other comments left out, with the ends of lines and the columns kept; the empty
lines at the beginning and at the end left out; in front of the text and behind a line that ends with a macro a mark; a macro replaced by its
text with the macros in it replaced, between marks. -/
theorem text_printed {macros : List Nat → Option Macro} {own t : List Nat} {ls : List (List Piece)} {val : List Nat → List Nat} (ho : own ≠ []) (ht : Plain t)
    (hw : Written macros ls t) (hv : ∀ l ∈ ls, ∀ w br, .call w br ∈ l → Expands macros MAX_CALL_DEPTH w (val w)) :
    preprocess own macros t = some (linesOut true (marksOf own t) val 0 true ls, []) :=
  preprocess_lines ho ht hw hv

/-- Only one text is printed for a macro. -/
theorem value_unique {macros : List Nat → Option Macro} {w o o' : List Nat} (h : Expands macros MAX_CALL_DEPTH w o) (h' : Expands macros MAX_CALL_DEPTH w o')
    (hw : Word w) (hp : Plain w) : o = o' := by
  have hr : Written macros [[.call w none]] w := by
    refine ⟨by simp, by simp [textOf, raws, Piece.raw, bracketsRaw], ?_, ?_, by simp⟩
    · intro l hl
      simp at hl
      subst hl
      exact ⟨⟨hw, by simp [raws]⟩, trivial⟩
    · intro before l after x y u h1 h2 m he
      obtain ⟨rfl, rfl, rfl⟩ : before = [] ∧ l = [.call w none] ∧ after = [] := by
        cases before with
        | nil => cases h1; exact ⟨rfl, rfl, rfl⟩
        | cons b bs => cases bs <;> cases h1
      cases x with
      | nil => cases h2; simp [solids] at he
      | cons p x => cases x <;> cases h2
  have k : ∀ v, Expands macros MAX_CALL_DEPTH w v → preprocess [97] macros w = some (linesOut true (marksOf [97] w) (fun _ => v) 0 true [[.call w none]], []) :=
    fun v hv => preprocess_lines (by simp) hp hr (fun l hl u br hm => by
      simp at hl; subst hl; simp at hm; obtain ⟨rfl, rfl⟩ := hm; exact hv)
  have e := (k o h).symm.trans (k o' h')
  simp only [Option.some.injEq, Prod.mk.injEq, and_true] at e
  rw [linesOut, linesOut] at e
  simpa [empty, Piece.solid, lineOut, linesOut] using e

/-- What is printed for the sample. -/
example : preprocess [97] macros text = some (linesOut true (marksOf [97] text) value 0 true lines, []) :=
  text_printed (by simp) text_plain lines_written (by
    intro l hl w br hm
    simp only [lines, List.mem_cons, List.not_mem_nil, or_false] at hl
    rcases hl with rfl | rfl
    · simp at hm
      obtain ⟨rfl, rfl⟩ := hm
      exact value_two
    · simp at hm)

/-- That is `#line 1 "a"`, `x = `, `#line 1 "a" // x = TWO;`, `    (1+1)`, `#line 1`, `       ;`, an empty line and `     y`. -/
example : linesOut true (marksOf [97] text) value 0 true lines =
    [35, 108, 105, 110, 101, 32, 49, 32, 34, 97, 34, 10, 120, 32, 61, 32, 10] ++
    [35, 108, 105, 110, 101, 32, 49, 32, 34, 97, 34, 32, 47, 47, 32, 120, 32, 61, 32, 84, 87, 79, 59, 10, 32, 32, 32, 32, 40, 49, 43, 49, 41, 10] ++
    [35, 108, 105, 110, 101, 32, 49, 10, 32, 32, 32, 32, 32, 32, 32, 59, 10, 10, 32, 32, 32, 32, 32, 121, 10] := by decide +kernel

/-! ## C68, C69 -/

/-- C68: the position of a piece in what is printed, searched by the compiler, gives the line, the column and the file it was read from. -/
theorem printed_place {macros : List Nat → Option Macro} {own t : List Nat} {ls bs after : List (List Piece)} {a z : List Piece} {x : Piece} {val : List Nat → List Nat} (ho : GoodPath own)
    (ht : Plain t) (hh : NoHash t) (hw : Written macros ls t) (hv : ∀ l ∈ ls, ∀ w br, .call w br ∈ l → Expands macros MAX_CALL_DEPTH w (val w) ∧ Clean (val w))
    (hls : ls = bs ++ (a ++ x :: z) :: after) (hx : x.solid = true) (hxc : ∀ w br, x ≠ .call w br) :
    ∃ out, preprocess own macros t = some (out, []) ∧ ((encodeAll out).length < 4611686018427387904 →
      ∃ rest rest', t = t.take (posOf bs a) ++ x.raw ++ rest ∧ out = front (marksOf own t) val bs a ++ x.raw ++ rest' ∧
      ∀ own', ∃ loc, search (encodeAll out) (encodeAll (front (marksOf own t) val bs a)).length = some loc ∧ loc.line = lineNo (t.take (posOf bs a)) ∧
        loc.symbol = 1 + (lastLine (t.take (posOf bs a))).length ∧ getPath own' (encodeAll out) loc = some own) := by
  refine ⟨_, preprocess_lines ho.1 ht hw (fun l hl w br hm => (hv l hl w br hm).1), ?_⟩
  intro hs
  obtain ⟨⟨rest, h1⟩, ⟨rest', h2⟩, h3⟩ := solid_found ho ht hh hls hx hxc hw.text hw.reads (fun l hl w br hm => (hv l hl w br hm).2) rfl hs
  exact ⟨rest, rest', h1, h2, h3⟩

/-- C69: each position in what is printed for a macro gives the line, the column, the file and the text of the line of the call. -/
theorem replaced_place {macros : List Nat → Option Macro} {own t : List Nat} {ls bs after : List (List Piece)} {a z : List Piece} {w : List Nat}
    {br : Option (List Gap × List Gap)} {val : List Nat → List Nat} (ho : GoodPath own) (ht : Plain t) (hh : NoHash t) (hw : Written macros ls t)
    (hv : ∀ l ∈ ls, ∀ w br, .call w br ∈ l → Expands macros MAX_CALL_DEPTH w (val w) ∧ Clean (val w))
    (hls : ls = bs ++ (a ++ .call w br :: z) :: after) {v1 v2 : List Nat} (hv1 : val w = v1 ++ v2) (hb : ∀ c r, val w = c :: r → c ≠ 32 ∧ c ≠ 9) :
    ∃ out, preprocess own macros t = some (out, []) ∧ ((encodeAll out).length < 4611686018427387904 →
      ∃ rest rest', t = t.take (posOf bs a) ++ (Piece.call w br).raw ++ rest ∧
      out = front (marksOf own t) val bs a ++ 10 :: (marksOf own t).before (posOf bs a) ++ v1 ++ v2 ++ rest' ∧
      ∀ own', ∃ loc, search (encodeAll out) (encodeAll (front (marksOf own t) val bs a ++ 10 :: (marksOf own t).before (posOf bs a) ++ v1)).length = some loc ∧
        loc.line = lineNo (t.take (posOf bs a)) ∧ loc.symbol = 1 + (lastLine (t.take (posOf bs a))).length ∧ getPath own' (encodeAll out) loc = some own ∧
        codeLine (encodeAll out) loc = some (wholeLine t (posOf bs a))) := by
  refine ⟨_, preprocess_lines ho.1 ht hw (fun l hl w br hm => (hv l hl w br hm).1), ?_⟩
  intro hs
  obtain ⟨⟨rest, h1⟩, ⟨rest', h2⟩, h3⟩ := call_found ho ht hh hls hw.text hw.reads (fun l hl w br hm => (hv l hl w br hm).2) hv1 hb rfl hs
  exact ⟨rest, rest', h1, h2, h3⟩

theorem sample_nohash : NoHash text := by
  intro a r h
  have h35 : (35 : Nat) ∉ text := by decide +kernel
  exact h35 (by rw [h]; simp)

theorem sample_path : GoodPath [97] := by
  refine ⟨by simp, ?_, by decide +kernel⟩
  intro c hc
  rw [List.mem_singleton.1 hc]
  decide +kernel

theorem sample_values : ∀ l ∈ lines, ∀ w br, .call w br ∈ l → Expands macros MAX_CALL_DEPTH w (value w) ∧ Clean (value w) := by
  intro l hl w br hm
  simp only [lines, List.mem_cons, List.not_mem_nil, or_false] at hl
  rcases hl with rfl | rfl
  · simp at hm
    obtain ⟨rfl, rfl⟩ := hm
    refine ⟨value_two, by decide, ?_, ?_⟩
    · intro r h
      simp [value] at h
    · intro a r h
      have : (10 : Nat) ∈ value [84, 87, 79] := by rw [h]; simp
      simp [value] at this
  · simp at hm

/-- `y` is in the line 3 and the column 6, behind a comment over two lines. -/
example : ∃ out, preprocess [97] macros text = some (out, []) ∧ ∃ loc, search (encodeAll out) (encodeAll (front (marksOf [97] text) value (lines.take 1)
      [.gap (.block [32, 97, 10, 98, 32]), .gap (.blank 32)])).length = some loc ∧ loc.line = 3 ∧ loc.symbol = 6 ∧ getPath [] (encodeAll out) loc = some [97] := by
  obtain ⟨out, h1, h2⟩ := printed_place (bs := lines.take 1) (a := [.gap (.block [32, 97, 10, 98, 32]), .gap (.blank 32)]) (x := .word [121]) (z := []) (after := [])
    sample_path text_plain sample_nohash lines_written sample_values rfl rfl (by intro w br h; cases h)
  refine ⟨out, h1, ?_⟩
  have ho : out = linesOut true (marksOf [97] text) value 0 true lines := by
    have := text_printed (own := [97]) (by simp) text_plain lines_written (fun l hl w br hm => (sample_values l hl w br hm).1)
    rw [h1] at this
    simpa using this
  obtain ⟨_, _, _, _, h3⟩ := h2 (by rw [ho]; decide +kernel)
  obtain ⟨loc, g1, g2, g3, g4⟩ := h3 []
  exact ⟨loc, g1, by rw [g2]; decide +kernel, by rw [g3]; decide +kernel, g4⟩

/-- The `+` in what is printed for `TWO` is in the line 1 and the column 5 of `x = TWO;`. -/
example : ∃ out, preprocess [97] macros text = some (out, []) ∧ ∃ pos loc, search (encodeAll out) pos = some loc ∧ loc.line = 1 ∧ loc.symbol = 5 ∧
    getPath [] (encodeAll out) loc = some [97] ∧ codeLine (encodeAll out) loc = some [120, 32, 61, 32, 84, 87, 79, 59] := by
  obtain ⟨out, h1, h2⟩ := replaced_place (bs := []) (a := [.word [120], .gap (.blank 32), .chr 61, .gap (.blank 32)]) (w := [84, 87, 79]) (br := none) (z := [.chr 59])
    (after := lines.drop 1) (v1 := [40, 49]) (v2 := [43, 49, 41])
    sample_path text_plain sample_nohash lines_written sample_values rfl rfl (by intro c r h; simp [value] at h; obtain ⟨rfl, _⟩ := h; decide)
  refine ⟨out, h1, ?_⟩
  have ho : out = linesOut true (marksOf [97] text) value 0 true lines := by
    have := text_printed (own := [97]) (by simp) text_plain lines_written (fun l hl w br hm => (sample_values l hl w br hm).1)
    rw [h1] at this
    simpa using this
  obtain ⟨_, _, _, _, h3⟩ := h2 (by rw [ho]; decide +kernel)
  obtain ⟨loc, g1, g2, g3, g4, g5⟩ := h3 []
  exact ⟨_, loc, g1, by rw [g2]; decide +kernel, by rw [g3]; decide +kernel, g4, by rw [g5]; decide +kernel⟩

/-! ## Where the code does otherwise -/

/-- A lone carriage return is not printed: `x`, 13, `y` becomes `xy`. -/
theorem return_dropped : preprocess [97] (fun _ => none) [120, 13, 121] = some ([35, 108, 105, 110, 101, 32, 49, 32, 34, 97, 34, 10] ++ [120, 121, 10], []) := by decide +kernel

/-- A comment with a lone carriage return: ` y /* a`, 13, `b */ z` in the second line; the blanks of the whole text up to the end of the comment are printed, so `z` is in the column 19 and not 14. -/
theorem return_in_comment : preprocess [97] (fun _ => none) [120, 10, 32, 121, 32, 47, 42, 32, 97, 13, 98, 32, 42, 47, 32, 122] =
    some ([35, 108, 105, 110, 101, 32, 49, 32, 34, 97, 34, 10] ++ [120, 10, 32, 121, 32] ++ List.replicate 14 32 ++ [32, 122, 10], []) := by decide +kernel

/-- The letters behind digits are a name: with a macro `e5` the number `1e5` is cut in two. -/
theorem number_cut : preprocess [97] (fun w => if w = [101, 53] then some ⟨0, [50]⟩ else none) [49, 101, 53] =
    some ([35, 108, 105, 110, 101, 32, 49, 32, 34, 97, 34, 10, 49, 10] ++ [35, 108, 105, 110, 101, 32, 49, 32, 34, 97, 34, 32, 47, 47, 32, 49, 101, 53, 10, 32, 50, 10], []) := by
  decide +kernel

/-- A comment that is not ended is reported twice behind a macro. -/
theorem reported_twice : (preprocess [97] (fun w => if w = [77] then some ⟨0, [50]⟩ else none) [77, 32, 47, 42]).map (·.2) =
    some [.commentUnterminated, .commentUnterminated] := by decide +kernel

/-- A macro that calls itself ends with a message. -/
theorem self_reported : (preprocess [97] (fun w => if w = [77] then some ⟨0, [77]⟩ else none) [77]).map (·.2) = some [.callDepth] := by decide +kernel

end RuC.Text.Props
