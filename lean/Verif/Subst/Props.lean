import Verif.Subst.Wrong

/-!
# Properties of macros with arguments
-/

namespace RuC.Subst.Props
open RuC RuC.Utf8 RuC.Io RuC.Locator RuC.Text RuC.Subst

deriving instance DecidableEq for Except

/-! ## Samples -/

/-- The definition of a macro behind its name, `(a, b) a + f(#b , a ## b) "a"`, and the next line. -/
def defText : List Nat := "(a, b) a + f(#b , a ## b) \"a\" \nx".toList.map Char.toNat

/-- The parameters of the sample. -/
def defParams : Params := [([], [97], []), ([.blank 32], [98], [])]

/-- The body of the sample. -/
def defBody : Body :=
  [([.blank 32], .word [97]), ([.blank 32], .chr 43), ([.blank 32], .word [102]), ([], .chr 40), ([], .quote [] [98]), ([.blank 32], .chr 44), ([.blank 32], .word [97]),
   ([.blank 32], .paste [.blank 32] [98]), ([], .chr 41), ([.blank 32], .str 34 [97])]

/-- A call behind the name of the macro, `(g(1, 2)`, an end of line, ` , "x,")`. -/
def callText : List Nat := " (g(1, 2) \n , \"x,\");".toList.map Char.toNat

/-- The arguments of the sample. -/
def callArgs : List Arg :=
  [⟨[([], .chr 103), ([], .chr 40), ([], .chr 49), ([], .chr 44), ([.blank 32], .chr 50), ([], .chr 41)], [.blank 32, .nl, .blank 32]⟩,
   ⟨[([.blank 32], .str 34 [120, 44])], []⟩]

theorem defText_ordinary : Ordinary defText := ⟨by decide +kernel, by decide +kernel⟩

theorem callText_ordinary : Ordinary callText := ⟨by decide +kernel, by decide +kernel⟩

theorem wordEnds_cons {c : Nat} {v : List Nat} (h : wordChar c = false) : WordEnds (c :: v) := by
  intro c' v' he
  rw [← (List.cons.inj he).1]
  exact h

theorem quoted_plain {q : Nat} : ∀ {b : List Nat}, (∀ c ∈ b, c ≠ q ∧ c ≠ 92 ∧ c ≠ 10) → Quoted q b
  | [], _ => .nil
  | c :: b, h => .plain (h c (by simp)).1 (h c (by simp)).2.1 (h c (by simp)).2.2 (quoted_plain fun d hd => h d (by simp [hd]))

theorem def_defined : Defined defText 0 defParams defBody where
  some := by decide
  distinct := by decide
  begins := rfl
  apart := by simp [Apart, defBody, Tok.wordy]
  text := by
    refine ⟨[.blank 32], [10, 120], .inr ⟨_, rfl⟩, by decide +kernel, ?_, ?_, ?_, ?_⟩
    · refine ⟨⟨⟨97, [], rfl, by decide +kernel⟩, by decide +kernel⟩, by simp, by simp, trivial, trivial, ?_⟩
      exact ⟨⟨⟨98, [], rfl, by decide +kernel⟩, by decide +kernel⟩, by simp, by simp, ⟨.inl rfl, trivial⟩, trivial⟩
    · refine ⟨⟨.inl rfl, trivial⟩, by simp, ⟨⟨⟨97, [], rfl, by decide +kernel⟩, by decide +kernel⟩, wordEnds_cons (by decide +kernel)⟩, ?_⟩
      refine ⟨⟨.inl rfl, trivial⟩, by simp, ⟨by decide +kernel, by decide, by decide, by decide, by decide, by decide, by decide, by simp, by simp⟩, ?_⟩
      refine ⟨⟨.inl rfl, trivial⟩, by simp, ⟨⟨⟨102, [], rfl, by decide +kernel⟩, by decide +kernel⟩, wordEnds_cons (by decide +kernel)⟩, ?_⟩
      refine ⟨trivial, by simp, ⟨by decide +kernel, by decide, by decide, by decide, by decide, by decide, by decide, by simp, by simp⟩, ?_⟩
      refine ⟨trivial, by simp, ⟨by decide, wordEnds_cons (by decide +kernel), trivial, by simp⟩, ?_⟩
      refine ⟨⟨.inl rfl, trivial⟩, by simp, ⟨by decide +kernel, by decide, by decide, by decide, by decide, by decide, by decide, by simp, by simp⟩, ?_⟩
      refine ⟨⟨.inl rfl, trivial⟩, by simp, ⟨⟨⟨97, [], rfl, by decide +kernel⟩, by decide +kernel⟩, wordEnds_cons (by decide +kernel)⟩, ?_⟩
      refine ⟨⟨.inl rfl, trivial⟩, by simp, ⟨by decide, wordEnds_cons (by decide +kernel), ⟨.inl rfl, trivial⟩, by simp⟩, ?_⟩
      refine ⟨trivial, by simp, ⟨by decide +kernel, by decide, by decide, by decide, by decide, by decide, by decide, by simp, by simp⟩, ?_⟩
      exact ⟨⟨.inl rfl, trivial⟩, by simp, ⟨.inl rfl, quoted_plain (by simp)⟩, trivial⟩
    · exact ⟨.inl rfl, trivial⟩
    · simp

theorem call_called : Called callText 0 19 callArgs where
  some := by decide
  text := by
    refine ⟨[.blank 32], [59], by decide +kernel, ⟨.inl rfl, trivial⟩, ⟨⟨?_, ?_, by decide⟩, ⟨?_, trivial, by decide⟩⟩, by decide +kernel⟩
    · refine ⟨trivial, ⟨by decide, by decide, by decide, by decide, by decide, by simp, by simp⟩, ?_⟩
      refine ⟨trivial, ⟨by decide, by decide, by decide, by decide, by decide, by simp, by simp⟩, ?_⟩
      refine ⟨trivial, ⟨by decide, by decide, by decide, by decide, by decide, by simp, by simp⟩, ?_⟩
      refine ⟨trivial, ⟨by decide, by decide, by decide, by decide, by decide, by simp, by simp⟩, ?_⟩
      refine ⟨⟨.inl rfl, trivial⟩, ⟨by decide, by decide, by decide, by decide, by decide, by simp, by simp⟩, ?_⟩
      exact ⟨trivial, ⟨by decide, by decide, by decide, by decide, by decide, by simp, by simp⟩, trivial⟩
    · exact ⟨.inl rfl, trivial, .inl rfl, trivial⟩
    · exact ⟨⟨.inl rfl, trivial⟩, ⟨.inl rfl, quoted_plain (by simp)⟩, trivial⟩

/-! ## C70 -/

/-- A macro that is defined and called in the usual way stands for the body of its definition with the arguments in the places of the parameters, and the call is read up to its
last bracket.  The names `__ARG_..` and `__STR_..` are not used in the body, and what is put in the place of a parameter is not empty. -/
theorem macro_applied {t t' : List Nat} {p p' q index : Nat} {ps : Params} {l : Body} {as : List Arg} (expand : List Nat → List Nat) (ht : Ordinary t) (ht' : Ordinary t')
    (hd : Defined t p ps l) (hc : Called t' p' q as) (hn : ps.length = as.length) (hfree : ∀ g w, (g, .word w) ∈ l → w ∉ ps.names → Free index w)
    (hfill : l.Filled ps.names (texts as) expand) :
    ∃ v, parseContext t index p = .ok (ps.length, v) ∧ parseReplacement t' index ps.length v expand p' = some (.ok (l.stands ps.names (texts as) expand), q) := by
  refine ⟨_, parseContext_defined ht.1 hd, ?_⟩
  rw [replacement_called ht' hc, if_pos hn]
  obtain ⟨trail, r, _, h, _, hl, _⟩ := hd.text
  have hu : Usual l.raw := raw_usual (a := 40 :: ps.raw ++ [41]) (b := gaps trail ++ r) ht.1 (by rw [h]; simp)
  rw [observe_stands (r := gaps trail ++ r) (by simp [texts, Params.names, hn]) hu hl hd.apart hfree hfill]
  rfl

/-- The sample: macros in the arguments are put in square brackets instead of being replaced. -/
example : ∃ v, parseContext defText 3 0 = .ok (2, v) ∧
    parseReplacement callText 3 2 v (fun x => 91 :: x ++ [93]) 0 = some (.ok ("[g(1, 2)] + f(\"\\\"x,\\\"\" , [g(1, 2)]\"x,\") \"a\"".toList.map Char.toNat), 19) := by
  obtain ⟨v, h1, h2⟩ := macro_applied (index := 3) (fun x => 91 :: x ++ [93]) defText_ordinary callText_ordinary def_defined call_called rfl
    (by
      intro g w hm hw i
      simp [defBody] at hm
      rcases hm with h | h | h
      all_goals (obtain ⟨_, rfl⟩ := h; first | exact absurd (by decide) hw | exact ⟨by simp [argMask], by simp [strMask]⟩))
    (by unfold Body.Filled; decide +kernel)
  refine ⟨v, h1, h2.trans ?_⟩
  decide +kernel

/-- A macro without parameters keeps its body with single blanks for the gaps. -/
theorem macro_kept {t : List Nat} {p index : Nat} {l : Body} {trail : List Gap} {r : List Nat} (ht : Ordinary t) (hr : r = [] ∨ ∃ v, r = 10 :: v)
    (h : t.drop p = l.raw ++ (gaps trail ++ r)) (hp : p ≤ t.length) (hb : ∀ v, l.raw ++ (gaps trail ++ r) ≠ 40 :: v) (hl : l.Reads [] (gaps trail ++ r)) (htr : GapsRead trail r)
    (hnt : .nl ∉ trail) : parseContext t index p = .ok (0, l.stands [] [] id) := by
  cases l with
  | nil =>
    have h' : t.drop p = gaps trail ++ r := by rw [h]; rfl
    have ha : parseArgs t p = .ok ([], p + (gaps trail).length) := by
      refine parseArgs_none ht.1 htr hnt (tail_stops hr) h' hp (.inr ?_) (fun c v he => ?_)
      · rcases hr with rfl | ⟨v, rfl⟩
        · intro v hv; cases hv
        · intro v hv; cases hv
      · exact (ht.1 c (List.mem_of_mem_drop (by rw [drop_add h', he]; simp))).1
    have hlen := congrArg List.length h'
    simp only [List.length_append, List.length_drop] at hlen
    exact parseContext_spec (l := []) (trail := []) (r := r) ha (by simp) ht.1 hr trivial (by simp) trivial (by rw [drop_add h']; rfl) (by omega) rfl
  | cons y l =>
    obtain ⟨g, x⟩ := y
    obtain ⟨h1, h2, h3, h4⟩ := hl
    have h' : t.drop p = gaps g ++ (x.raw ++ (Body.raw l ++ (gaps trail ++ r))) := by rw [h, Body.raw_cons]; simp
    obtain ⟨c, v, hc, _, hst⟩ := tok_head h3
    have ha : parseArgs t p = .ok ([], p + (gaps g).length) := by
      refine parseArgs_none ht.1 h1 h2 hst h' hp ?_ (fun c v he => ?_)
      · cases g with
        | nil => exact .inr fun v hv => hb v (by rw [Body.raw_cons]; simpa [gaps] using hv)
        | cons z g => exact .inl (by simp)
      · exact (ht.1 c (List.mem_of_mem_drop (by rw [drop_add h', he]; simp))).1
    have hlen := congrArg List.length h'
    simp only [List.length_append, List.length_drop] at hlen
    have hbeg : Body.begins (([], x) :: l) = true := by
      cases x with
      | paste g' w => exact absurd h3.1 (by simp)
      | _ => rfl
    have := parseContext_spec (index := index) (l := ([], x) :: l) (trail := trail) (r := r) ha (by simp) ht.1 hr htr hnt ⟨trivial, by simp, h3, h4⟩
      (by rw [drop_add h', Body.raw_cons]; simp [gaps]) (by omega) hbeg
    rw [this]
    have key : ∀ {l : Body}, Body.Reads [] l (gaps trail ++ r) → Body.code index [] l = Body.rest [] [] id l := by
      intro l
      induction l with
      | nil => intro _; rfl
      | cons y l ih =>
        intro hh
        obtain ⟨g, x⟩ := y
        rw [Body.code_cons, Body.rest_cons, ih hh.2.2.2]
        have : x.code index [] = x.stands [] [] id := by
          cases x with
          | word w => simp [Tok.code, Tok.stands]
          | str q b => rfl
          | chr c => rfl
          | quote g' w => exact absurd hh.2.2.1.1 (by simp)
          | paste g' w => exact absurd hh.2.2.1.1 (by simp)
        rw [this, List.append_assoc]
    rw [show Body.kept index [] (([], x) :: l) = Body.code index [] (([], x) :: l) from rfl, key (l := ([], x) :: l) ⟨trivial, by simp, h3, h4⟩, rest_stands g]
    rfl

/-- The definition of a macro without parameters, `1  + a`. -/
example : parseContext ("  1  + a\n".toList.map Char.toNat) 0 0 = .ok (0, "1 + a".toList.map Char.toNat) := by
  refine (macro_kept (l := [([.blank 32, .blank 32], .chr 49), ([.blank 32, .blank 32], .chr 43), ([.blank 32], .word [97])]) (trail := []) (r := [10])
    ⟨by decide +kernel, by decide +kernel⟩ (.inr ⟨_, rfl⟩) (by decide +kernel) (by omega) ?_ ?_ trivial (by simp)).trans (by decide +kernel)
  · intro v hv; simp [Body.raw, gaps, Gap.raw] at hv
  · refine ⟨⟨.inl rfl, .inl rfl, trivial⟩, by simp, ⟨by decide +kernel, by decide, by decide, by decide, by decide, by decide, by decide, by simp, by simp⟩, ?_⟩
    refine ⟨⟨.inl rfl, .inl rfl, trivial⟩, by simp, ⟨by decide +kernel, by decide, by decide, by decide, by decide, by decide, by decide, by simp, by simp⟩, ?_⟩
    exact ⟨⟨.inl rfl, trivial⟩, by simp, ⟨⟨⟨97, [], rfl, by decide +kernel⟩, by decide +kernel⟩, wordEnds_cons (by decide +kernel)⟩, trivial⟩

/-! ## C71 -/

/-- A call with another number of arguments than there are parameters is an error that says which way it is wrong; it is read up to its last bracket. -/
theorem wrong_number {t : List Nat} {p q index expected : Nat} {as : List Arg} {v : List Nat} (expand : List Nat → List Nat) (ht : Ordinary t) (hc : Called t p q as) :
    (as.length < expected → parseReplacement t index expected v expand p = some (.error .few, q)) ∧
    (expected < as.length → parseReplacement t index expected v expand p = some (.error .many, q)) := by
  constructor
  · intro h
    rw [replacement_called ht hc, if_neg (by omega), if_pos h]
  · intro h
    rw [replacement_called ht hc, if_neg (by omega), if_neg (by omega)]

example : parseReplacement callText 0 3 [] id 0 = some (.error .few, 19) := (wrong_number id callText_ordinary call_called).1 (by decide)

example : parseReplacement callText 0 1 [] id 0 = some (.error .many, 19) := (wrong_number id callText_ordinary call_called).2 (by decide)

/-- Without a bracket behind the name, whatever gaps are between, nothing is read. -/
theorem no_brackets {t : List Nat} {p index expected : Nat} {v : List Nat} {g : List Gap} {r : List Nat} (expand : List Nat → List Nat) (ht : Ordinary t) (h : t.drop p = gaps g ++ r)
    (hp : p ≤ t.length) (hg : GapsRead g r) (hs : Solid r) (h10 : ∀ u, r ≠ 10 :: u) (h40 : ∀ u, r ≠ 40 :: u) :
    parseReplacement t index expected v expand p = some (.error .nothing, p) := by
  have hli := lines_gaps (solid_stops' hs) h10 hg h hp (usual_drop ht.1 p)
  unfold parseReplacement
  rw [hli]
  simp only
  rw [if_pos]
  cases r with
  | nil => show EOFc ≠ 40; unfold EOFc; omega
  | cons c u => rw [next_cons]; rintro rfl; exact h40 u rfl

/-- The name of a macro with a blank and the end of the line behind it. -/
example : parseReplacement [32, 10, 59] 0 1 [] id 0 = some (.error .nothing, 0) :=
  no_brackets (g := [.blank 32, .nl]) (r := [59]) id ⟨by decide +kernel, by decide +kernel⟩ rfl (by decide) ⟨.inl rfl, trivial, trivial⟩
    (by intro c v he; obtain ⟨rfl, rfl⟩ := List.cons.inj he; exact ⟨by decide, by decide, by simp, by simp⟩) (by simp) (by simp)

/-! ## C72 -/

/-- What is made of an argument for a hash is read as one string: its quotes are behind backslashes, and it does not end with a backslash of its own. -/
theorem string_made : ∀ (v : List Nat), 10 ∉ v → Quoted 34 (escape v) := by
  intro v
  fun_induction escape v with
  | case1 r ih =>
    intro h
    exact .escaped (.escaped (ih (fun hm => h (by simp [hm]))))
  | case2 c r hc ih =>
    intro h
    exact .escaped (ih (fun hm => h (by simp [hm])))
  | case3 => intro _; exact .nil
  | case4 r ih =>
    intro h
    exact .escaped (ih (fun hm => h (by simp [hm])))
  | case5 c r h1 h2 h3 h4 ih =>
    intro h
    have h92 : c ≠ 92 := by
      rintro rfl
      cases r with
      | nil => exact h3 rfl rfl
      | cons d r => exact h2 d r rfl rfl
    exact .plain h4 h92 (fun he => h (by simp [he])) (ih (fun hm => h (by simp [hm])))
  | case6 => intro _; exact .nil

theorem unescape_plain {c : Nat} {r : List Nat} (h : c ≠ 92) : unescape (c :: r) = c :: unescape r := by
  rw [unescape.eq_def]
  split
  · rename_i he; exact absurd (List.cons.inj he).1 h
  · rename_i he; obtain ⟨rfl, rfl⟩ := List.cons.inj he; rfl
  · rename_i he; cases he

example : Quoted 34 (escape [34, 97, 92, 34, 92]) := string_made _ (by decide)

/-- Without backslashes in the argument the string stands for the argument. -/
theorem string_stands : ∀ (v : List Nat), 92 ∉ v → unescape (escape v) = v := by
  intro v
  induction v with
  | nil => intro _; rfl
  | cons c v ih =>
    intro h
    have h1 : c ≠ 92 := fun he => h (by simp [he])
    have h2 := ih (fun hm => h (by simp [hm]))
    by_cases hq : c = 34
    · subst hq
      rw [show escape (34 :: v) = 92 :: 34 :: escape v by rw [escape]]
      rw [show unescape (92 :: 34 :: escape v) = 34 :: unescape (escape v) by rw [unescape], h2]
    · rw [escape_plain h1 hq, unescape_plain h1, h2]

example : unescape (escape [34, 97, 34]) = [34, 97, 34] := string_stands _ (by decide)

/-- A string in an argument loses the meaning of its backslashes: of `"\n"` a string is made that stands for a quote, `n` and a quote. -/
theorem string_changed : unescape (escape [34, 92, 110, 34]) = [34, 110, 34] := by decide

/-- Two different arguments give the same string. -/
theorem string_same : escape [97, 92] = escape [97] := by decide

/-! ## C73 -/

/-- A definition with two hashes at an edge of its body, or with a hash or two that no parameter is behind, is not kept, whatever tokens are in front. -/
theorem hash_refused {t : List Nat} {p index : Nat} {ps : Params} {l : Body} {g : List Gap} {r : List Nat} {e : Err} (ht : Ordinary t) (hs : ps ≠ []) (hd : ps.names.Nodup)
    (h : t.drop p = 40 :: ps.raw ++ 41 :: (l.raw ++ (gaps g ++ r))) (hps : ps.Reads (41 :: (l.raw ++ (gaps g ++ r)))) (hl : l.Reads ps.names (gaps g ++ r)) (hg : GapsRead g r) (hn : .nl ∉ g)
    (hb : l.begins = true) (hw : Wrong ps.names e r) (hne : l ≠ []) : parseContext t index p = .error e := by
  have ha := parseArgs_spec ht.1 hs hps (by rw [h]) hd
  have h1 : t.drop p = (40 :: ps.raw ++ [41]) ++ (l.raw ++ (gaps g ++ r)) := by rw [h]; simp
  exact parseContext_wrong ha (names_word hps) ht.1 hne hb hw hg hn hl (drop_add h1)

/-- `F(a) a##1` -/
example : parseContext ("(a) a##1".toList.map Char.toNat) 0 0 = .error .hashNotFollowed := by
  refine hash_refused (ps := [([], [97], [])]) (l := [([.blank 32], .word [97])]) (g := []) (r := [35, 35, 49]) ⟨by decide +kernel, by decide +kernel⟩ (by simp) (by decide) (by decide +kernel)
    ⟨⟨⟨97, [], rfl, by decide +kernel⟩, by decide +kernel⟩, by simp, by simp, trivial, trivial⟩ ?_ trivial (by simp) rfl ?_ (by simp)
  · exact ⟨⟨.inl rfl, trivial⟩, by simp, ⟨⟨⟨97, [], rfl, by decide +kernel⟩, by decide +kernel⟩, wordEnds_cons (by decide +kernel)⟩, trivial⟩
  · refine .paste (g := []) (r := [49]) (by simp) (by simp) ?_ ?_ trivial (by simp)
    · intro c v he
      obtain ⟨rfl, rfl⟩ := List.cons.inj he
      exact ⟨by decide, by decide, by simp, by simp⟩
    · rintro ⟨w, v, hw, he, _⟩
      simp [Params.names] at hw
      subst hw
      simp at he

/-- Two hashes at the beginning of the body. -/
theorem hash_first {t : List Nat} {p index : Nat} {ps : Params} {g : List Gap} {r : List Nat} (ht : Ordinary t) (hs : ps ≠ []) (hd : ps.names.Nodup)
    (h : t.drop p = 40 :: ps.raw ++ 41 :: (gaps g ++ 35 :: 35 :: r)) (hps : ps.Reads (41 :: (gaps g ++ 35 :: 35 :: r))) (hg : GapsRead g (35 :: 35 :: r)) (hn : .nl ∉ g) :
    parseContext t index p = .error .hashOnEdge := by
  have ha := parseArgs_spec ht.1 hs hps (by rw [h]) hd
  have h1 : t.drop p = (40 :: ps.raw ++ [41]) ++ (gaps g ++ 35 :: 35 :: r) := by rw [h]; simp
  rw [parseContext_start ha ht.1 (drop_add h1) (stops_of (by decide) (by decide) (by decide) (by decide)) hg hn, if_pos ⟨rfl, rfl⟩]

example : parseContext ("(a) ##a".toList.map Char.toNat) 0 0 = .error .hashOnEdge :=
  hash_first (ps := [([], [97], [])]) (g := [.blank 32]) (r := [97]) ⟨by decide +kernel, by decide +kernel⟩ (by simp) (by decide) (by decide +kernel)
    ⟨⟨⟨97, [], rfl, by decide +kernel⟩, by decide +kernel⟩, by simp, by simp, trivial, trivial⟩ ⟨.inl rfl, trivial⟩ (by simp)

/-- A definition that has a parameter twice is not kept. -/
theorem twice_refused {t : List Nat} {p index : Nat} {ps : Params} {a : List Gap} {w r : List Nat} (ht : Ordinary t) (hs : ps ≠ []) (hd : ps.names.Nodup)
    (h : t.drop p = 40 :: ps.raw ++ 44 :: (gaps a ++ (w ++ r))) (hps : ps.Reads (44 :: (gaps a ++ (w ++ r)))) (ha : GapsRead a (w ++ r)) (hn : .nl ∉ a) (hw : w ∈ ps.names)
    (hr : WordEnds r) : parseContext t index p = .error .duplicate := by
  have hl := congrArg List.length h
  simp only [List.length_append, List.length_drop, List.length_cons] at hl
  have hlen := params_length (r := r) (l := ps)
  have h1 : t.drop p = 40 :: (ps.raw ++ 44 :: (gaps a ++ (w ++ r))) := by rw [h]; rfl
  have h0 := until_gaps (l := []) (r := 40 :: (ps.raw ++ 44 :: (gaps a ++ (w ++ r)))) (t := t) (p := p) (stops_of (by decide) (by decide) (by decide) (by decide)) trivial (by simp)
    (by rw [h]; simp [gaps]) (by omega) (usual_drop ht.1 _)
  have : parseArgs t p = .error .duplicate := by
    unfold parseArgs
    rw [h0]
    simp only [next_cons, gaps, List.flatMap_nil, List.length_nil, Nat.add_zero]
    rw [if_neg (by simp), scan_cons h1]
    simp only
    exact argsLoop_twice ht.1 (names_word hps w hw) ha hn hr hs hps (drop_succ h1) (by simpa using hd) (by simpa using hw) (by omega)
  unfold parseContext
  rw [this]

example : parseContext ("(a, a) 1".toList.map Char.toNat) 0 0 = .error .duplicate :=
  twice_refused (ps := [([], [97], [])]) (a := [.blank 32]) (w := [97]) (r := [41, 32, 49]) ⟨by decide +kernel, by decide +kernel⟩ (by simp) (by decide) (by decide +kernel)
    ⟨⟨⟨97, [], rfl, by decide +kernel⟩, by decide +kernel⟩, by simp, by simp, trivial, trivial⟩ ⟨.inl rfl, trivial⟩ (by simp) (by decide) (wordEnds_cons (by decide +kernel))

/-! ## What goes wrong -/

/-- A call that ends in an open bracket at the end of the text is read for ever: `F((`. -/
theorem bracket_forever (fuel : Nat) : argLoop [40, 40] fuel 0 true 1 40 1 = none := by
  cases fuel with
  | zero => rfl
  | succ fuel =>
    have h : argLoop [40, 40] (fuel + 1) 0 true 1 40 1 = (argLoop [40, 40] fuel 1 false 2 EOFc 2).map fun z => ([40] ++ z.1, z.2) := by
      have hs : scan [40, 40] 1 = (40, 2) := by decide +kernel
      have hl : lines' [40, 40] 2 = ([], EOFc, 2) := by decide +kernel
      have hu : usz (0 + 1) = 1 := usz_of_lt (by omega)
      have hp : putsOf (putc 40) = [40] := by decide +kernel
      rw [argLoop]
      simp only [hs, hl, hu, hp]
      rw [if_pos (by decide +kernel)]
      simp [hl]
    rw [h, argLoop_forever (by decide) fuel 1 false (by decide)]
    rfl

/-- A call that ends behind a comma is taken as one with an empty last argument: `F(1,`. -/
theorem end_accepted : parseReplacement [40, 49, 44] 0 2 (argMask 0 0) id 0 = some (.ok [49], 3) := by decide +kernel

/-- An argument that is empty and used: nothing is known about what is printed for `F()`. -/
theorem empty_argument : parseReplacement [40, 41] 0 1 (argMask 0 0) id 0 = none := by decide +kernel

/-- The same, if nothing is left of an argument that is not empty. -/
theorem vanished_argument : parseReplacement [40, 69, 41] 0 1 (argMask 0 0) (fun _ => []) 0 = none := by decide +kernel

/-- Without a gap between an identifier and a hash, the hash and the parameter are not replaced: `F(a) x#a` called with `1` gives `x__STR_0_0`. -/
theorem hash_glued : parseContext ("(a) x#a".toList.map Char.toNat) 0 0 = .ok (1, 120 :: strMask 0 0) ∧
    parseReplacement [40, 49, 41] 0 1 (120 :: strMask 0 0) id 0 = some (.ok ("x__STR_0_0".toList.map Char.toNat), 3) := by decide +kernel

/-- A comma behind the last parameter is accepted: `F(a,) a`. -/
theorem comma_accepted : parseContext ("(a,) a".toList.map Char.toNat) 0 0 = .ok (1, argMask 0 0) := by decide +kernel

/-- What looks like a name inside of a number is replaced: `F(a) 1a`. -/
theorem number_replaced : parseContext ("(a) 1a".toList.map Char.toNat) 0 0 = .ok (1, 49 :: argMask 0 0) := by decide +kernel

end RuC.Subst.Props
