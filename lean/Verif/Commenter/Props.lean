import Verif.Commenter.Lemmas

/-!
# Properties of comments with places: C86
-/

namespace RuC.Commenter.Props
open RuC RuC.Utf8 RuC.Io RuC.Locator RuC.Commenter

/-- A string of ASCII characters. -/
def codes (s : String) : List Nat := s.toList.map Char.toNat

theorem toText_usual {path : List Nat} {n : Nat} : toText (create path n) = markOf path (32 :: digitsOf n n) := by
  simp [toText, create, markOf, SEPARATOR, showNat_eq]

theorem toText_macro {path : List Nat} {n k : Nat} (hk : k < 4611686018427387904) :
    toText (createMacro path n k) = markOf path (32 :: digitsOf n n ++ 32 :: digitsOf k k) := by
  have : k ≠ SIZE_MAX := by unfold SIZE_MAX; omega
  simp [toText, createMacro, markOf, SEPARATOR, showNat_eq, this]

theorem numbers_ok (n : Nat) : ∀ b ∈ 32 :: digitsOf n n, b = 32 ∨ (48 ≤ b ∧ b ≤ 57) := by
  intro b hb
  rcases List.mem_cons.1 hb with rfl | hb
  · exact .inl rfl
  · exact .inr ((digitsOf_digits n n).2 b hb)

theorem codeLine_spec {l r : List Nat} (h : ∀ b ∈ l, b ≠ 10 ∧ b ≠ 0) (hr : Behind r) : (l ++ r).takeWhile (fun c => c ≠ 0 && c ≠ 10) = l := by
  rw [List.takeWhile_append_of_pos (by intro b hb; have := h b hb; simp [this.1, this.2])]
  rcases hr with rfl | ⟨s, rfl⟩ <;> simp

/-- What is found behind a comment of a file, whatever the line. -/
theorem found {x path a b r : List Nat} {n : Nat} {ls : List (List Nat)} (hp : PathOk path) (hn : n < 2305843009213693952) (hl : ∀ l ∈ ls, Plain l)
    (hab : ∀ c ∈ a ++ b, c ≠ 10 ∧ c ≠ 0) (hr : Behind r)
    (hs : (x ++ toText (create path n) ++ joined ls ++ a ++ b ++ r).length < 2305843009213693952) :
    ∃ cmt, search (x ++ toText (create path n) ++ joined ls ++ a ++ b ++ r) (x ++ toText (create path n) ++ joined ls ++ a).length = some cmt ∧
      isCorrect cmt = true ∧ getPath cmt = path ∧ getLine cmt = n + ls.length + (if (a ++ (b ++ r)).head? = some 10 then 1 else 0) ∧
      getSymbol cmt = a.length ∧ getCodeLine cmt = a ++ b ∧ cmt.code = some (a ++ (b ++ r)) := by
  rw [toText_usual] at hs ⊢
  have htext : x ++ markOf path (32 :: digitsOf n n) ++ joined ls ++ a ++ b ++ r = x ++ (markOf path (32 :: digitsOf n n) ++ joined ls ++ (a ++ (b ++ r))) := by simp
  rw [htext] at hs ⊢
  have h1 := search_behind (w := b ++ r) hp (numbers_ok n) hl (fun c hc => (hab c (by simp [hc])).1) hs
  have h2 := parse_usual (s := joined ls ++ (a ++ (b ++ r))) (n := n) hp (by omega)
    (cmt := ⟨some (path ++ 32 :: digitsOf n n ++ [10] ++ joined ls ++ (a ++ (b ++ r))), 2 + ls.length + (if (a ++ (b ++ r)).head? = some 10 then 1 else 0), a.length, some (a ++ (b ++ r))⟩)
  have hsame : path ++ (32 :: digitsOf n n) ++ 10 :: (joined ls ++ (a ++ (b ++ r))) = path ++ 32 :: digitsOf n n ++ [10] ++ joined ls ++ (a ++ (b ++ r)) := by simp
  rw [hsame] at h2
  rw [h2] at h1
  have hll : ls.length ≤ (joined ls).length := by
    clear hs h1 h2 hsame htext hl
    induction ls with
    | nil => simp
    | cons l ls ih => simp only [joined, List.flatMap_cons, List.length_append, List.length_cons, List.length_nil] at ih ⊢; omega
  refine ⟨_, h1, rfl, ?_, ?_, rfl, ?_, rfl⟩
  · show List.takeWhile inPath _ = path
    rw [show path ++ 32 :: digitsOf n n ++ [10] ++ joined ls ++ (a ++ (b ++ r)) = path ++ 32 :: (digitsOf n n ++ [10] ++ joined ls ++ (a ++ (b ++ r))) by simp]
    exact takeWhile_path hp
  · show usz (2 + ls.length + (if (a ++ (b ++ r)).head? = some 10 then 1 else 0) + usub n 2) = _
    have hlen : ls.length < 2305843009213693952 := by
      have := hs
      simp only [List.length_append] at this
      omega
    unfold usz usub
    split <;> split <;> omega
  · show List.takeWhile _ _ = _
    rw [← List.append_assoc]
    exact codeLine_spec hab hr

/-- C86, without empty lines: a comment printed into a text is found from every position behind it, up to the next comment, and says the file,
the line counted from the comment on, the column and the text of the line. -/
theorem found_partial {x path a b r : List Nat} {n : Nat} {ls : List (List Nat)} (hp : PathOk path) (hn : n < 2305843009213693952) (hl : ∀ l ∈ ls, Plain l)
    (hab : ∀ c ∈ a ++ b, c ≠ 10 ∧ c ≠ 0) (hr : Behind r) (hne : a ++ b ≠ [] ∨ r = [])
    (hs : (x ++ toText (create path n) ++ joined ls ++ a ++ b ++ r).length < 2305843009213693952) :
    ∃ cmt, search (x ++ toText (create path n) ++ joined ls ++ a ++ b ++ r) (x ++ toText (create path n) ++ joined ls ++ a).length = some cmt ∧
      isCorrect cmt = true ∧ getPath cmt = path ∧ getLine cmt = n + ls.length ∧ getSymbol cmt = a.length ∧ getCodeLine cmt = a ++ b := by
  obtain ⟨cmt, h1, h2, h3, h4, h5, h6, _⟩ := found hp hn hl hab hr hs
  refine ⟨cmt, h1, h2, h3, ?_, h5, h6⟩
  have hno : ¬ (a ++ (b ++ r)).head? = some 10 := ?_
  · rw [h4, if_neg hno, Nat.add_zero]
  intro h10
  rw [← List.append_assoc] at h10
  cases hab' : a ++ b with
  | nil =>
    rcases hne with h | h
    · exact h hab'
    · rw [hab', h] at h10; simp at h10
  | cons c s =>
    rw [hab'] at h10
    simp only [List.cons_append, List.head?_cons, Option.some.injEq] at h10
    exact (hab c (by rw [hab']; simp)).1 h10

/-- The third line behind the comment `// # dir/a.c 7` is line 9. -/
example : ∃ cmt, search (codes "int x;\n" ++ toText (create (codes "dir/a.c") 7) ++ joined [codes "a = 1;", []] ++ codes "b = " ++ codes "2; // x" ++ codes "\nc")
      (codes "int x;\n" ++ toText (create (codes "dir/a.c") 7) ++ joined [codes "a = 1;", []] ++ codes "b = ").length = some cmt ∧
    isCorrect cmt = true ∧ getPath cmt = codes "dir/a.c" ∧ getLine cmt = 9 ∧ getSymbol cmt = 4 ∧ getCodeLine cmt = codes "b = " ++ codes "2; // x" :=
  found_partial ⟨by decide, by decide⟩ (by decide)
    (by
      intro l hl
      rcases List.mem_cons.1 hl with rfl | hl
      · exact ⟨by decide, by decide⟩
      · rw [List.mem_singleton.1 hl]; exact ⟨by decide, by decide⟩)
    (by decide) (.inr ⟨codes "c", rfl⟩) (.inl (by decide)) (by decide +kernel)

/-- From an empty line the line behind it is said: every empty line in the middle of a text is counted one too high. -/
theorem empty_line_wrong {x path s : List Nat} {n : Nat} {ls : List (List Nat)} (hp : PathOk path) (hn : n < 2305843009213693952) (hl : ∀ l ∈ ls, Plain l)
    (hs : (x ++ toText (create path n) ++ joined ls ++ 10 :: s).length < 2305843009213693952) :
    ∃ cmt, search (x ++ toText (create path n) ++ joined ls ++ 10 :: s) (x ++ toText (create path n) ++ joined ls).length = some cmt ∧
      getLine cmt = n + ls.length + 1 := by
  obtain ⟨cmt, h1, _, _, h4, _⟩ := found (x := x) (a := []) (b := []) (r := 10 :: s) hp hn hl (by simp) (.inr ⟨s, rfl⟩) (by simpa using hs)
  refine ⟨cmt, by simpa using h1, ?_⟩
  rw [h4]; rfl

example : (search (codes "// # a.c 1\n\nx;\n") 11).map getLine = some 2 ∧ (search (codes "// # a.c 1\n\nx;\n") 12).map getLine = some 2 := by decide +kernel

/-- C86: the comment of a replacement says, from every position behind it, the file, the line and the column it was made with. -/
theorem macro_found {x path a b r : List Nat} {n k : Nat} {ls : List (List Nat)} (hp : PathOk path) (hn : n < 2305843009213693952)
    (hk : k < 2305843009213693952) (hl : ∀ l ∈ ls, Plain l) (hab : ∀ c ∈ a ++ b, c ≠ 10 ∧ c ≠ 0) (hr : Behind r)
    (hs : (x ++ toText (createMacro path n k) ++ joined ls ++ a ++ b ++ r).length < 2305843009213693952) :
    ∃ cmt, search (x ++ toText (createMacro path n k) ++ joined ls ++ a ++ b ++ r) (x ++ toText (createMacro path n k) ++ joined ls ++ a).length = some cmt ∧
      isCorrect cmt = true ∧ getPath cmt = path ∧ getLine cmt = n ∧ getSymbol cmt = k ∧ getCodeLine cmt = a ++ b := by
  rw [toText_macro (by omega)] at hs ⊢
  have htext : ∀ t : List Nat, x ++ markOf path t ++ joined ls ++ a ++ b ++ r = x ++ (markOf path t ++ joined ls ++ (a ++ (b ++ r))) := by intro t; simp
  rw [htext] at hs ⊢
  have ht : ∀ c ∈ 32 :: digitsOf n n ++ 32 :: digitsOf k k, c = 32 ∨ (48 ≤ c ∧ c ≤ 57) := by
    intro c hc
    rcases List.mem_append.1 hc with hc | hc
    · exact numbers_ok n c hc
    · exact numbers_ok k c hc
  have h1 := search_behind (w := b ++ r) hp ht hl (fun c hc => (hab c (by simp [hc])).1) hs
  have hsame : path ++ (32 :: digitsOf n n ++ 32 :: digitsOf k k) ++ [10] ++ joined ls ++ (a ++ (b ++ r)) =
      path ++ (32 :: digitsOf n n ++ 32 :: digitsOf k k) ++ 10 :: (joined ls ++ (a ++ (b ++ r))) := by simp
  rw [hsame, parse_macro hp (by omega) (by omega)] at h1
  refine ⟨_, h1, rfl, ?_, rfl, rfl, ?_⟩
  · show List.takeWhile inPath _ = path
    rw [List.append_assoc, List.cons_append, List.cons_append]
    exact takeWhile_path hp
  · show List.takeWhile _ _ = _
    rw [← List.append_assoc]
    exact codeLine_spec hab hr

example : (search (codes "x\n" ++ toText (createMacro (codes "a.c") 7 12) ++ codes "\nyy") 17).map (fun c => (getPath c, getLine c, getSymbol c, getCodeLine c)) =
    some (codes "a.c", 7, 12, codes "yy") := by decide +kernel

theorem length_le_encodeAll (a : List Nat) : a.length ≤ (encodeAll a).length := by
  induction a with
  | nil => simp
  | cons c a ih =>
    have hpos := List.length_pos_iff.2 (encode_ne_nil c)
    rw [encodeAll_cons]
    simp only [List.length_append, List.length_cons]
    omega

/-- C86: the tag of what is found is the file, the line and the column counted in characters. -/
theorem tag_partial {x path a b r : List Nat} {n : Nat} {ls : List (List Nat)} (hp : PathOk path) (hn : n < 2305843009213693952) (hl : ∀ l ∈ ls, Plain l)
    (hab : ∀ c ∈ a ++ b, Inner c) (hr : Behind r) (hne : a ++ b ≠ [] ∨ r = [])
    (hs : (x ++ toText (create path n) ++ joined ls ++ encodeAll a ++ encodeAll b ++ r).length < 2305843009213693952) :
    ∃ cmt, search (x ++ toText (create path n) ++ joined ls ++ encodeAll a ++ encodeAll b ++ r)
        (x ++ toText (create path n) ++ joined ls ++ encodeAll a).length = some cmt ∧
      getTag cmt = some (path ++ [58] ++ digitsOf (n + ls.length) (n + ls.length) ++ [58] ++ digitsOf (a.length + 1) (a.length + 1)) := by
  have hoct : ∀ c ∈ encodeAll a ++ encodeAll b, c ≠ 10 ∧ c ≠ 0 := by
    intro c hc
    rw [← encodeAll_append] at hc
    obtain ⟨d, hd, hcd⟩ := List.mem_flatMap.1 hc
    have hi := hab d hd
    by_cases hlow : d < 128
    · rw [encode_ascii hlow, List.mem_singleton] at hcd
      rw [hcd]; exact ⟨hi.2.2, hi.2.1⟩
    · have := encode_high (by omega : 128 ≤ d) c hcd
      omega
  have hne' : encodeAll a ++ encodeAll b ≠ [] ∨ r = [] := by
    rcases hne with h | h
    · left
      rw [← encodeAll_append]
      cases hx : a ++ b with
      | nil => exact absurd hx h
      | cons c s =>
        rw [encodeAll_cons]
        intro h0
        exact encode_ne_nil c (List.append_eq_nil_iff.1 h0).1
    · exact .inr h
  obtain ⟨cmt, h1, h2, h3, h4, h5, h6, h7⟩ := found hp hn hl hoct hr hs
  obtain ⟨cmt', g1, _, _, g4, _⟩ := found_partial hp hn hl hoct hr hne' hs
  rw [h1, Option.some.injEq] at g1
  subst g1
  refine ⟨cmt, h1, ?_⟩
  have hsz : (encodeAll a).length < 2305843009213693952 := by
    simp only [List.length_append] at hs; omega
  -- the position is the first octet of a character or of what is behind the line
  have hfirst : toFirstByte (encodeAll a ++ (encodeAll b ++ r) ++ [0]) (encodeAll a).length = some (encodeAll a).length := by
    have hnext : ∃ c s, (encodeAll b ++ r) ++ [0] = encode c ++ s ∧ c < 0x200000 := by
      cases b with
      | nil =>
        rcases hr with rfl | ⟨s, rfl⟩
        · exact ⟨0, [], by simp [encodeAll, encode], by omega⟩
        · exact ⟨10, s ++ [0], by simp [encodeAll, encode], by omega⟩
      | cons c b => exact ⟨c, encodeAll b ++ r ++ [0], by rw [encodeAll_cons]; simp, (hab c (by simp)).1⟩
    obtain ⟨c, s, hcs, hc⟩ := hnext
    rw [List.append_assoc, hcs, ← List.append_assoc]
    exact toFirstByte_encode hc (encodeAll a) s 0 (List.length_pos_iff.2 (encode_ne_nil c))
  have hcol : columnLoop (encodeAll a ++ (encodeAll b ++ r)) (encodeAll a).length (encodeAll a).length 0 (encodeAll a).length = a.length := by
    have hlen := length_le_encodeAll a
    -- only the octets in front of the position are looked at
    have hcut : ∀ (fuel i symbol : Nat) (t : List Nat), columnLoop (encodeAll a ++ t) (encodeAll a).length fuel i symbol =
        columnLoop (encodeAll a) (encodeAll a).length fuel i symbol := by
      intro fuel
      induction fuel with
      | zero => intro i symbol t; rfl
      | succ fuel ih =>
        intro i symbol t
        rw [columnLoop, columnLoop]
        by_cases hi : i < (encodeAll a).length
        · rw [if_pos hi, if_pos hi, at_left hi, ih]
        · rw [if_neg hi, if_neg hi]
    rw [hcut]
    have := columnLoop_spec (first := (encodeAll a).length) a (done := []) (more := []) (fuel := (encodeAll a).length) (symbol := (encodeAll a).length)
      (fun c hc => (hab c (by simp [hc])).1) hlen (by simp) (by simp) (by omega)
    simpa [encodeAll_nil] using this
  have hsym : cmt.symbol = (encodeAll a).length := h5
  have hline : cmt.line = n + ls.length := g4
  rw [getTag, h3, if_neg hp.1, h7]
  simp only
  rw [hsym, hfirst]
  simp only
  rw [hcol, hline, showNat_eq, showNat_eq, show usz (a.length + 1) = a.length + 1 by
    have hla := length_le_encodeAll a
    unfold usz; omega]

example : (search (codes "// # a.c 3\nx\n" ++ encodeAll [0x43F, 0x20AC, 61, 49]) 18).map getTag = some (some (codes "a.c:4:3")) := by decide +kernel

/-- C86: in a text without comments none is found, unless the text begins with ` #` or `/ #`. -/
theorem none_found_partial {ls : List (List Nat)} {a b r : List Nat} (hl : ∀ l ∈ ls, Plain l) (hab : ∀ c ∈ a ++ b, c ≠ 10 ∧ c ≠ 0)
    (h1 : ¬ [32, 35] <+: joined ls ++ a ++ b ++ r) (h2 : ¬ [47, 32, 35] <+: joined ls ++ a ++ b ++ r) :
    ∃ cmt, search (joined ls ++ a ++ b ++ r) (joined ls ++ a).length = some cmt ∧ isCorrect cmt = false := by
  have hy : joined ls = [] ∨ ∃ z, joined ls = z ++ [10] := by
    rcases List.eq_nil_or_concat ls with rfl | ⟨ls', l, rfl⟩
    · exact .inl rfl
    · exact .inr ⟨joined ls' ++ l, by simp [joined]⟩
  have hstart : lineStart (joined ls ++ a ++ b ++ r) (joined ls ++ a).length = (joined ls).length := by
    rw [List.append_assoc, List.append_assoc, List.length_append]
    exact lineStart_spec hy (fun c hc => (hab c (by simp [hc])).1) _ (Nat.le_refl _)
  have hle : (joined ls ++ a).length ≤ (joined ls ++ a ++ b ++ r).length := by simp only [List.length_append]; omega
  obtain ⟨line, hloop⟩ := reverseLoop_none (text := joined ls ++ a ++ b ++ r) (joined ls).length 1 (by
    intro k hk1 hk2
    right
    by_cases hk3 : k < 3
    · exact match_low hk1 hk3 h1 h2
    · apply match_noHit
      apply Classical.byContradiction
      intro hn
      have hh := hit_of_not (by omega) hn
      rw [List.append_assoc, List.append_assoc] at hh
      have := hit_lines hl hh
      omega)
  refine ⟨_, by rw [search, if_pos hle, reverse, hstart, hloop], rfl⟩

/-- Such a text is read in front of its beginning. -/
theorem reads_before_text : search (codes " #\nx") 3 = none ∧ search (codes "/ #define\nx") 10 = none := by decide +kernel

example : ∃ cmt, search (joined [codes "a / b;", codes " # x"] ++ codes "c" ++ codes "d" ++ []) 13 = some cmt ∧ isCorrect cmt = false :=
  none_found_partial (ls := [codes "a / b;", codes " # x"]) (a := codes "c") (b := codes "d") (r := [])
    (by
      intro l hl
      rcases List.mem_cons.1 hl with rfl | hl
      · exact ⟨by decide, by decide⟩
      · rw [List.mem_singleton.1 hl]; exact ⟨by decide, by decide⟩)
    (by decide) (by decide) (by decide)

end RuC.Commenter.Props
