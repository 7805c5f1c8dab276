import Verif.Locator.Marks

namespace RuC.Locator
open RuC RuC.Utf8 RuC.Io

theorem body_append (a b : List Line) : body (a ++ b) = body a ++ body b := by simp [body]

theorem body_one (l : Line) : body [l] = l.chars ++ [10] := by simp [body]

theorem body_snoc (ls : List Line) (l : Line) : body (ls ++ [l]) = body ls ++ l.chars ++ [10] := by
  rw [body_append, body_one, List.append_assoc]

theorem body_atLine (ls : List Line) : AtLine (body ls) := by
  by_cases h : ls = []
  · left; subst h; rfl
  · right
    obtain ⟨init, l, rfl⟩ : ∃ init l, ls = init ++ [l] := ⟨ls.dropLast, ls.getLast h, (List.dropLast_concat_getLast h).symm⟩
    exact ⟨_, body_snoc init l⟩

theorem encode_newline : encodeAll [10] = [10] := encodeAll_ascii (by decide)

theorem drop_encode {text a b : List Nat} (h : text = encodeAll (a ++ b)) : text.drop (encodeAll a).length = encodeAll b := by
  rw [h, encodeAll_append]
  simp

theorem body_length (ls : List Line) : ls.length ≤ (encodeAll (body ls)).length := by
  induction ls with
  | nil => simp
  | cons l ls ih =>
    have : body (l :: ls) = l.chars ++ [10] ++ body ls := by simp [body]
    rw [this, encodeAll_append, encodeAll_append, encode_newline]
    simp only [List.length_append, List.length_cons, List.length_nil]
    omega

/-- The line in front of a position, read as a mark. -/
theorem markReverse_spec {text X : List Nat} {ls : List Line} {l : Line} (ht : text = encodeAll (body (ls ++ [l]) ++ X)) (hv : l.Valid)
    (hl : text.length < 4611686018427387904) (line filler : Nat) :
    markReverse text line (encodeAll (body (ls ++ [l]))).length filler =
      (found (encodeAll (body ls)).length l, (encodeAll (body ls)).length, match l with | .code cs => 1 + blanks cs | _ => filler) := by
  have hp : (encodeAll (body (ls ++ [l]))).length = (encodeAll (body ls ++ l.chars)).length + 1 := by
    rw [body_snoc, encodeAll_append, encode_newline]
    simp
  have ht' : text = encodeAll (body ls ++ l.chars ++ (10 :: X)) := by rw [ht, body_snoc]; simp
  unfold markReverse
  rw [hp, if_neg (by omega), Nat.add_sub_cancel, lineToBegin_spec ht' (body_atLine ls) (chars_inner hv) hl]
  simp only
  rw [drop_encode (a := body ls) (b := l.chars ++ (10 :: X)) (by rw [ht']; simp), encodeAll_append]
  rw [recognize_line hv (s := encodeAll (10 :: X)) (.inr ⟨encodeAll X, by rw [encodeAll_cons, encode_ascii (by decide)]; rfl⟩) text.length line
    (encodeAll (body ls)).length (by rw [ht', encodeAll_append, encodeAll_append]; simp)]
  cases l <;> rfl

/-- A mark that was found says a number, a file and a line of code. -/
def Gives (text : List Nat) (k : Mark) (n : Nat) (p : List Nat) : Prop :=
  k.line = n ∧ k.path ≠ SIZE_MAX ∧ pathLoop (text.length + 1) ⟨text, k.path⟩ 0 = some p

def GivesCode (text : List Nat) (k : Mark) (cs : List Nat) : Prop :=
  k.code ≠ SIZE_MAX ∧ restOfLine (text.length + 1) ⟨text, k.code⟩ = some cs ∧ k.code ≠ 0 ∧ text.getD (k.code - 1) 0 = 32

theorem text_length {text a b c : List Nat} (h : text = encodeAll (a ++ b ++ c)) : text.length = (encodeAll a).length + (encodeAll b).length + (encodeAll c).length := by
  rw [h, encodeAll_append, encodeAll_append]
  simp [Nat.add_assoc]

theorem gives_path {text a p r : List Nat} (ht : text = encodeAll (a ++ p ++ (34 :: r))) (hp : ∀ c ∈ p, Inner c ∧ Good c ∧ c ≠ 34)
    (hs : (encodeAll p).length < 1024) : pathLoop (text.length + 1) ⟨text, (encodeAll a).length⟩ 0 = some p := by
  have := text_length ht
  have := encodeAll_length p
  exact pathLoop_spec (before := a) (rest := r) ⟨by simp [ht], rfl⟩ hp (by omega) (by omega)

theorem gives_code {text a cs r : List Nat} (ht : text = encodeAll (a ++ cs ++ r)) (hc : ∀ c ∈ cs, Inner c)
    (hr : r = [] ∨ ∃ s, r = 10 :: s) : restOfLine (text.length + 1) ⟨text, (encodeAll a).length⟩ = some cs := by
  have := text_length ht
  have := encodeAll_length cs
  exact restOfLine_spec (before := a) (rest := r) ⟨by simp [ht], rfl⟩ hc (by omega) hr

theorem head_length (a : List Nat) (n : Nat) : (encodeAll (a ++ [35, 108, 105, 110, 101, 32] ++ digitsOf n n ++ [32, 34])).length =
    (encodeAll a).length + (6 + (digitsOf n n).length + 2) := by
  simp only [encodeAll_append, encode_prefix, encode_digits, encodeAll_ascii (cs := [32, 34]) (by decide), List.length_append,
    List.length_cons, List.length_nil]
  omega

theorem found_usual {text a X : List Nat} {n : Nat} {p : List Nat} (ht : text = encodeAll (a ++ (Line.usual n p).chars ++ X))
    (hv : (Line.usual n p).Valid) (hl : text.length < 4611686018427387904) :
    ∃ k, found (encodeAll a).length (.usual n p) = some k ∧ Gives text k n p ∧ k.code = SIZE_MAX := by
  have h0 := text_length ht
  refine ⟨_, rfl, ⟨rfl, ?_, ?_⟩, rfl⟩
  · have := head_length a n
    have h2 : (encodeAll (Line.usual n p).chars).length ≥ 6 + (digitsOf n n).length + 2 := by
      simp only [Line.chars, encodeAll_append, encode_prefix, encode_digits, encodeAll_ascii (cs := [32, 34]) (by decide), List.length_append,
        List.length_cons, List.length_nil]
      omega
    simp only
    unfold SIZE_MAX
    omega
  · simp only
    rw [← head_length]
    exact gives_path (r := X) (by rw [ht]; simp [Line.chars]) hv.2.1 hv.2.2

theorem found_begin {text a X : List Nat} {n : Nat} {p cs : List Nat} (ht : text = encodeAll (a ++ (Line.begin n p cs).chars ++ X))
    (hX : X = [] ∨ ∃ s, X = 10 :: s) (hv : (Line.begin n p cs).Valid) (hl : text.length < 4611686018427387904) :
    ∃ k, found (encodeAll a).length (.begin n p cs) = some k ∧ Gives text k n p ∧ GivesCode text k cs := by
  have h0 := text_length ht
  have h2 : (encodeAll (Line.begin n p cs).chars).length ≥ 6 + (digitsOf n n).length + 2 + (encodeAll p).length + 5 := by
    simp only [Line.chars, encodeAll_append, encode_prefix, encode_digits, encodeAll_ascii (cs := [32, 34]) (by decide),
      encodeAll_ascii (cs := [34, 32, 47, 47, 32]) (by decide), List.length_append, List.length_cons, List.length_nil]
    omega
  refine ⟨_, rfl, ⟨rfl, ?_, ?_⟩, ?_, ?_, by simp only; omega, ?_⟩
  · simp only
    unfold SIZE_MAX
    omega
  · simp only
    rw [← head_length]
    exact gives_path (r := [32, 47, 47, 32] ++ cs ++ X) (by rw [ht]; simp [Line.chars]) hv.2.1 hv.2.2.1
  · simp only
    unfold SIZE_MAX
    omega
  · have e : (encodeAll (a ++ [35, 108, 105, 110, 101, 32] ++ digitsOf n n ++ [32, 34] ++ p ++ [34, 32, 47, 47, 32])).length =
        (encodeAll a).length + (6 + (digitsOf n n).length + 2) + (encodeAll p).length + 5 := by
      rw [encodeAll_append, encodeAll_append, List.length_append, List.length_append, head_length,
        encodeAll_ascii (cs := [34, 32, 47, 47, 32]) (by decide)]
      rfl
    simp only
    rw [← e]
    exact gives_code (r := X) (by rw [ht]; simp [Line.chars]) hv.2.2.2 hX
  · have e : (encodeAll (a ++ [35, 108, 105, 110, 101, 32] ++ digitsOf n n ++ [32, 34] ++ p ++ [34, 32, 47, 47])).length =
        (encodeAll a).length + (6 + (digitsOf n n).length + 2) + (encodeAll p).length + 5 - 1 := by
      rw [encodeAll_append, encodeAll_append, List.length_append, List.length_append, head_length,
        encodeAll_ascii (cs := [34, 32, 47, 47]) (by decide)]
      rfl
    have ht2 : text = encodeAll (a ++ [35, 108, 105, 110, 101, 32] ++ digitsOf n n ++ [32, 34] ++ p ++ [34, 32, 47, 47]) ++ 32 :: encodeAll (cs ++ X) := by
      have e32 : 32 :: encodeAll (cs ++ X) = encodeAll (32 :: (cs ++ X)) := by rw [encodeAll_cons, encode_ascii (by decide)]; rfl
      rw [ht, e32, ← encodeAll_append]
      simp [Line.chars]
    simp only
    rw [← e, ht2]
    simp [List.getD_eq_getElem?_getD]

/-! ## Walking back -/

theorem snoc_split {text X : List Nat} {ls : List Line} {l : Line} (ht : text = encodeAll (body (ls ++ [l]) ++ X)) :
    text = encodeAll (body ls ++ l.chars ++ (10 :: X)) := by rw [ht, body_snoc]; simp

theorem earlier_spec {text : List Nat} (hl : text.length < 4611686018427387904) : ∀ {r : List Line} {X : List Nat} {fuel n : Nat} {p cs : List Nat} {m : Mark},
    text = encodeAll (body r.reverse ++ X) → (∀ l ∈ r, l.Valid) → r.length < fuel → opened r = some (n, p, cs) →
      ∃ k, earlier text fuel (encodeAll (body r.reverse)).length m = some k ∧ Gives text k n p ∧ GivesCode text k cs := by
  intro r
  induction r with
  | nil => intro X fuel n p cs m _ _ _ h; cases h
  | cons l r ih =>
    intro X fuel n p cs m ht hv hf ho
    obtain ⟨fuel, rfl⟩ : ∃ k, fuel = k + 1 := ⟨fuel - 1, by simp at hf; omega⟩
    rw [List.reverse_cons] at ht ⊢
    rw [earlier, markReverse_spec ht (hv l (by simp)) hl]
    have ht' := snoc_split ht
    cases l with
    | code c =>
      simp only [found]
      have hr : r ≠ [] := by rintro rfl; cases ho
      have : r.reverse.length ≤ _ := body_length r.reverse
      have : 0 < r.length := List.length_pos_iff.2 hr
      rw [List.length_reverse] at *
      rw [if_neg (by omega)]
      exact ih (X := (Line.code c).chars ++ (10 :: X)) (by rw [ht']; simp) (fun l h => hv l (by simp [h])) (by simpa using hf) ho
    | usual => cases ho
    | «end» => cases ho
    | begin n' p' cs' =>
      obtain ⟨k, h1, h2, h3⟩ := found_begin ht' (.inr ⟨X, rfl⟩) (hv _ (by simp)) hl
      rw [h1]
      simp only [opened, Option.some.injEq, Prod.mk.injEq] at ho
      obtain ⟨rfl, rfl, rfl⟩ := ho
      exact ⟨k, rfl, h2, h3⟩

/-- The marks behind replacements among the lines in front, the nearest first. -/
def PairedR : List Line → Prop
  | [] => True
  | .end n :: ls => (∃ m p cs, opened ls = some (m, p, cs) ∧ m ≤ n) ∧ PairedR ls
  | _ :: ls => PairedR ls

/-- The location counts lines from the beginning of the line behind `r` on: with `diff` lines more it says the place. -/
def Fits (own text : List Nat) (loc : Loc) (r : List Line) (diff : Nat) : Prop :=
  ∀ d symbol code cs first, diff + d + r.length < 4611686018427387904 → restOfLine (text.length + 1) ⟨text, code⟩ = some cs →
    Says own text ⟨loc.path, code, usz (loc.line + d), symbol⟩ (place symbol cs r (diff + d) first)

/-- The location shows a line of code inside a mark. -/
def Inside (text : List Nat) (loc : Loc) : Prop := loc.code ≠ 0 ∧ text.getD (loc.code - 1) 0 = 32

theorem usz_add (a b : Nat) : usz (usz a + b) = usz (a + b) := by unfold usz; omega

theorem Fits.more {own text : List Nat} {loc : Loc} {r : List Line} {diff : Nat} (h : Fits own text loc r 0) (code symbol : Nat) :
    Fits own text ⟨loc.path, code, usz (loc.line + diff), symbol⟩ r diff := by
  intro d symbol code cs first hd hc
  have := h (diff + d) symbol code cs first (by omega) hc
  simp only [Nat.zero_add] at this
  simp only [usz_add]
  rw [Nat.add_assoc]
  exact this

theorem walk_spec {own text : List Nat} (hl : text.length < 4611686018427387904) (loc : Loc) {symbol code : Nat} {cs : List Nat}
    (hcode : restOfLine (text.length + 1) ⟨text, code⟩ = some cs) : ∀ {r : List Line} {X : List Nat} {fuel diff line : Nat} {first : List Nat},
    text = encodeAll (body r.reverse ++ X) → (∀ l ∈ r, l.Valid) → PairedR r → r.length < fuel → diff + r.length < 4611686018427387904 →
    (∀ r', r' <:+ r → r' ≠ [] → loc.code = (encodeAll (body r'.reverse)).length → Fits own text loc r' 0) →
      ∃ stop loc', walk text loc.code fuel (encodeAll (body r.reverse)).length (encodeAll (body r.reverse)).length diff (1 + blanks first) line = some stop ∧
        finish text loc symbol code stop = some loc' ∧ Says own text loc' (place symbol cs r diff first) ∧
        (loc'.code = code ∧ Fits own text loc' r diff ∨ Inside text loc') := by
  intro r
  induction r with
  | nil =>
    intro X fuel diff line first ht _ _ hf hd _
    obtain ⟨fuel, rfl⟩ : ∃ k, fuel = k + 1 := ⟨fuel - 1, by simp at hf; omega⟩
    refine ⟨.start 0 diff, ⟨SIZE_MAX, code, usz (1 + diff), symbol⟩, ?_, rfl, ?_, ?_⟩
    · rw [walk, if_pos (.inl rfl)]
      rfl
    · refine ⟨?_, rfl, ?_, hcode⟩
      · simp only [place]
        exact usz_of_lt (by omega)
      · simp [getPath, place]
    · refine .inl ⟨rfl, ?_⟩
      intro d symbol code cs first hd hc
      refine ⟨?_, rfl, ?_, hc⟩
      · simp only [place, usz_add]
        rw [Nat.add_assoc]
        simp only [List.length_nil] at hd
        exact usz_of_lt (by omega)
      · simp [getPath, place]
  | cons l r ih =>
    intro X fuel diff line first ht hv hpr hf hd hk
    obtain ⟨fuel, rfl⟩ : ∃ k, fuel = k + 1 := ⟨fuel - 1, by simp at hf; omega⟩
    have hd0 := hd
    simp only [List.length_cons] at hd
    by_cases hkn : loc.code = (encodeAll (body (l :: r).reverse)).length
    · have hfit := hk (l :: r) (List.suffix_refl _) (by simp) hkn
      have hpos : ¬ (encodeAll (body (l :: r).reverse)).length = 0 := by
        have := body_length (l :: r).reverse
        simp only [List.length_reverse, List.length_cons] at this
        omega
      refine ⟨.start (encodeAll (body (l :: r).reverse)).length diff, ⟨loc.path, code, usz (loc.line + diff), symbol⟩, ?_, ?_, ?_, ?_⟩
      · rw [walk, if_pos (.inr hkn.symm)]
      · simp only [finish]
        rw [if_neg hpos]
      · have := hfit diff symbol code cs first (by simpa using hd0) hcode
        simpa using this
      · exact .inl ⟨rfl, hfit.more code symbol⟩
    rw [List.reverse_cons] at ht hkn ⊢
    have hpos : ¬ ((encodeAll (body (r.reverse ++ [l]))).length = 0 ∨ (encodeAll (body (r.reverse ++ [l]))).length = loc.code) := by
      have := body_length (r.reverse ++ [l])
      simp at this
      omega
    have ht' := snoc_split ht
    rw [walk, if_neg hpos, markReverse_spec ht (hv l (by simp)) hl]
    cases l with
    | code c =>
      simp only [found, place]
      rw [usz_of_lt (by omega)]
      obtain ⟨stop, loc', h1, h2, h3, h4⟩ := ih (X := (Line.code c).chars ++ (10 :: X)) (fuel := fuel) (diff := diff + 1) (line := line) (first := c)
        (by rw [ht']; simp) (fun l h => hv l (by simp [h])) hpr (by simpa using hf) (by omega)
        (fun r' h1 h2 => hk r' (h1.trans (List.suffix_cons _ _)) h2)
      refine ⟨stop, loc', h1, h2, h3, ?_⟩
      rcases h4 with ⟨h4, h5⟩ | h4
      · refine .inl ⟨h4, ?_⟩
        intro d symbol code cs first hd hc
        have := h5 d symbol code cs c (by simp at hd; omega) hc
        simp only [place]
        rw [show diff + d + 1 = diff + 1 + d by omega]
        exact this
      · exact .inr h4
    | usual n p =>
      obtain ⟨k, h1, h2, h3⟩ := found_usual ht' (hv _ (by simp)) hl
      rw [h1]
      simp only
      rw [if_neg (by simp [h3]), if_pos h2.2.1]
      have hn : n < 4611686018427387904 := (hv (.usual n p) (by simp)).1
      refine ⟨_, ⟨k.path, code, usz (k.line + diff), symbol⟩, rfl, ?_, ?_, ?_⟩
      · simp only [finish]
        rw [if_neg (by omega)]
      · refine ⟨?_, rfl, ?_, hcode⟩
        · simp only [place, h2.1]
          exact usz_of_lt (by omega)
        · simp only [getPath, place]
          rw [if_neg h2.2.1, h2.2.2]
          rfl
      · refine .inl ⟨rfl, ?_⟩
        intro d symbol code cs first hd hc
        refine ⟨?_, rfl, ?_, hc⟩
        · simp only [place, h2.1, usz_add]
          rw [Nat.add_assoc]
          exact usz_of_lt (by omega)
        · simp only [getPath, place]
          rw [if_neg h2.2.1, h2.2.2]
          rfl
    | begin n p c =>
      obtain ⟨k, h1, h2, h3⟩ := found_begin ht' (.inr ⟨X, rfl⟩) (hv _ (by simp)) hl
      rw [h1]
      simp only
      rw [if_pos h3.1]
      refine ⟨_, _, rfl, rfl, ⟨h2.1, rfl, ?_, h3.2.1⟩, .inr h3.2.2⟩
      simp only [getPath, place]
      rw [if_neg h2.2.1, h2.2.2]
      rfl
    | «end» n =>
      simp only [found]
      rw [if_neg (by simp), if_neg (by simp)]
      have hn : n < 4611686018427387904 := hv (.end n) (by simp)
      obtain ⟨⟨b, p, c, ho', hb⟩, _⟩ := hpr
      have hrl : r.length < text.length + 1 := by
        have := body_length r.reverse
        have h2 := text_length ht'
        simp at this
        omega
      obtain ⟨k, h1, h2, h3⟩ := earlier_spec hl (X := (Line.end n).chars ++ (10 :: X)) (m := ⟨n, SIZE_MAX, SIZE_MAX⟩) (by rw [ht']; simp)
        (fun l h => hv l (by simp [h])) hrl ho'
      refine ⟨_, _, rfl, by simp only [finish]; rw [h1]; rfl, ?_, ?_⟩
      · simp only
        rw [usz_of_lt (by omega), h2.1]
        refine ⟨?_, ?_, ?_, ?_⟩
        · simp only [place, ho']
        · simp only [place, ho']
        · simp only [getPath, place, ho']
          rw [if_neg h2.2.1, h2.2.2]
          rfl
        · simp only [codeLine, place, ho']
          by_cases he : n + diff = b
          · rw [if_pos ⟨he, h3.1⟩, if_pos he, h3.2.1]
          · rw [if_neg (fun h => he h.1), if_neg he, hcode]
      · simp only
        rw [usz_of_lt (by omega), h2.1]
        by_cases he : n + diff = b
        · right
          rw [if_pos ⟨he, h3.1⟩]
          exact h3.2.2
        · left
          rw [if_neg (fun h => he h.1)]
          refine ⟨rfl, ?_⟩
          intro d symbol code cs first hd hc
          have hne : ¬ n + (diff + d) = b := by omega
          refine ⟨?_, ?_, ?_, ?_⟩
          · simp only [place, ho']
            rw [Nat.add_assoc]
            exact usz_of_lt (by omega)
          · simp only [place, ho']
          · simp only [getPath, place, ho']
            rw [if_neg h2.2.1, h2.2.2]
            rfl
          · simp only [codeLine, place, ho']
            rw [if_neg hne, hc]

theorem pairedR {r : List Line} (h : Paired r.reverse) : PairedR r := by
  induction r with
  | nil => trivial
  | cons l r ih =>
    have hr : PairedR r := by
      refine ih ?_
      intro ls n rs he
      exact h ls n (rs ++ [l]) (by rw [List.reverse_cons, he]; simp)
    cases l with
    | «end» n =>
      refine ⟨?_, hr⟩
      have := h r.reverse n [] (by simp)
      simpa using this
    | _ => exact hr

theorem tail_cons (l : Line) (ls : List Line) : tail (l :: ls) = 10 :: (l.chars ++ tail ls) := by simp [tail]

theorem tail_ends (ls : List Line) : tail ls = [] ∨ ∃ s, tail ls = 10 :: s := by
  cases ls with
  | nil => exact .inl rfl
  | cons l ls => exact .inr ⟨_, tail_cons l ls⟩

theorem ends_encode {cs : List Nat} (h : cs = [] ∨ ∃ s, cs = 10 :: s) : Ends (encodeAll cs) := by
  rcases h with rfl | ⟨s, rfl⟩
  · exact .inl rfl
  · exact .inr ⟨encodeAll s, by rw [encodeAll_cons, encode_ascii (by decide)]; rfl⟩

/-! ## The next line -/

theorem next_none {text before cs : List Nat} (ht : text = encodeAll (before ++ cs)) (hc : ∀ c ∈ cs, Inner c) :
    nextMark text (encodeAll before).length = some none ∧ nextLine text (encodeAll before).length = some 1 := by
  have h2 := encodeAll_length cs
  have h3 : text.length = (encodeAll before).length + (encodeAll cs).length := by rw [ht, encodeAll_append]; simp
  have h := (lineToEnd_spec (cs := cs) (fuel := text.length + 1) (io := ⟨text, (encodeAll before).length⟩) (before := before) (rest := [])
    ⟨by simp [ht], rfl⟩ hc (by omega)).1 rfl
  have hd : text.drop (encodeAll (before ++ cs)).length = [] := by rw [← ht]; simp
  have hm : markRecognize text.length 1 [] = none := markRecognize_no (by simp)
  unfold nextMark nextLine
  rw [h]
  simp only [Option.map_some, hd, hm]
  exact ⟨rfl, rfl⟩

theorem next_some {text before cs : List Nat} {l : Line} {ls : List Line} (ht : text = encodeAll (before ++ cs ++ tail (l :: ls))) (hc : ∀ c ∈ cs, Inner c)
    (hv : l.Valid) : nextMark text (encodeAll before).length =
        some ((found (encodeAll (before ++ cs ++ [10])).length l).bind fun m => if m.code ≠ SIZE_MAX then some m else none) ∧
      nextLine text (encodeAll before).length = some (((found (encodeAll (before ++ cs ++ [10])).length l).map Mark.line).getD 1) := by
  have h2 := encodeAll_length cs
  have h3 := text_length ht
  rw [tail_cons] at ht
  have h := (lineToEnd_spec (cs := cs) (fuel := text.length + 1) (io := ⟨text, (encodeAll before).length⟩) (before := before)
    (rest := 10 :: (l.chars ++ tail ls)) ⟨by simp [ht], rfl⟩ hc (by omega)).2 _ rfl
  have ht' : text = encodeAll (before ++ cs ++ [10] ++ (l.chars ++ tail ls)) := by rw [ht]; simp
  unfold nextMark nextLine
  rw [h]
  simp only [Option.map_some]
  rw [drop_encode ht', encodeAll_append l.chars, recognize_line hv (ends_encode (tail_ends ls)) text.length 1 (encodeAll (before ++ cs ++ [10])).length
    (by rw [ht', encodeAll_append (before ++ cs ++ [10]), encodeAll_append l.chars]; simp)]
  exact ⟨rfl, rfl⟩

/-- The octets of the text. -/
def textOf (before : List Line) (col more : List Nat) (after : List Line) : List Nat :=
  encodeAll (body before ++ col ++ more ++ tail after)

/-- A text of valid lines that is not huge. -/
structure Text (before : List Line) (col more : List Nat) (after : List Line) : Prop where
  lines : ∀ l ∈ before, l.Valid
  here : (Line.code (col ++ more)).Valid
  behind : ∀ l ∈ after, l.Valid
  paired : Paired before
  small : (textOf before col more after).length < 4611686018427387904

theorem Inside.not_start {text X : List Nat} {loc : Loc} (h : Inside text loc) {ls : List Line} (ht : text = encodeAll (body ls ++ X)) :
    loc.code ≠ (encodeAll (body ls)).length := by
  intro he
  by_cases hls : ls = []
  · subst hls
    exact h.1 he
  · obtain ⟨init, l, rfl⟩ : ∃ init l, ls = init ++ [l] := ⟨ls.dropLast, ls.getLast hls, (List.dropLast_concat_getLast hls).symm⟩
    have h2 := h.2
    have e : (encodeAll (body (init ++ [l]))).length = (encodeAll (body init ++ l.chars)).length + 1 := by
      rw [body_snoc, encodeAll_append, encode_newline]
      simp
    rw [he, e, Nat.add_sub_cancel, ht, body_snoc, encodeAll_append (_ ++ [10]), encodeAll_append _ [10], encode_newline] at h2
    simp [List.getD_eq_getElem?_getD] at h2

/-- What a location knows about a text of lines: where the counting begins, or nothing that would be used. -/
def Knows (own : List Nat) (ls : List Line) (text : List Nat) (loc : Loc) : Prop :=
  (∃ b a, ls = b ++ a ∧ loc.code = (encodeAll (body b)).length ∧ Fits own text loc b.reverse 0) ∨ Inside text loc

theorem prefix_same {ls b a b' a' : List Line} (h : ls = b ++ a) (h' : ls = b' ++ a') (he : (encodeAll (body b)).length = (encodeAll (body b')).length) : b = b' := by
  have key : ∀ {b a b' a' : List Line}, b ++ a = b' ++ a' → b.length ≤ b'.length → (encodeAll (body b)).length = (encodeAll (body b')).length → b = b' := by
    intro b a b' a' h hl he
    obtain ⟨c, rfl⟩ : ∃ c, b' = b ++ c := by
      have h1 : b <+: b' ++ a' := ⟨a, h⟩
      have h2 : b' <+: b' ++ a' := ⟨a', rfl⟩
      obtain ⟨c, hc⟩ := List.prefix_of_prefix_length_le h1 h2 hl
      exact ⟨c, hc.symm⟩
    rw [body_append, encodeAll_append, List.length_append] at he
    have h0 := body_length c
    have : c = [] := List.length_eq_zero_iff.1 (by omega)
    simp [this]
  rcases Nat.le_total b.length b'.length with hl | hl
  · exact key (h.symm.trans h') hl he
  · exact (key (h'.symm.trans h) hl he.symm).symm

theorem searchFrom_spec {own : List Nat} {before after : List Line} {col more : List Nat} (h : Text before col more after) {loc : Loc}
    (hloc : Knows own (before ++ .code (col ++ more) :: after) (textOf before col more after) loc) :
    ∃ loc', searchFrom (textOf before col more after) (encodeAll (body before ++ col)).length loc = some loc' ∧
      Says own (textOf before col more after) loc' (whereIs before col more after) ∧
      (loc'.code = (encodeAll (body before)).length ∧ Fits own (textOf before col more after) loc' before.reverse 0 ∨
        Inside (textOf before col more after) loc') := by
  have hin : ∀ c ∈ col ++ more, Inner c := h.here.1
  have hl := h.small
  have ht : textOf before col more after = encodeAll (body before ++ (col ++ more) ++ tail after) := by simp [textOf]
  generalize textOf before col more after = text at *
  have hb : lineToBegin text (encodeAll (body before ++ col)).length = (1 + col.length, 1 + blanks col, (encodeAll (body before)).length) :=
    lineToBegin_spec (post := more ++ tail after) (by rw [ht]; simp) (body_atLine before) (fun c hc => hin c (by simp [hc])) hl
  have hcode : restOfLine (text.length + 1) ⟨text, (encodeAll (body before)).length⟩ = some (col ++ more) := gives_code ht hin (tail_ends after)
  have hwalk : ∀ line, ∃ stop loc', walk text loc.code (text.length + 2) (encodeAll (body before)).length (encodeAll (body before)).length 0 (1 + blanks col) line =
      some stop ∧ finish text loc (1 + col.length) (encodeAll (body before)).length stop = some loc' ∧
      Says own text loc' (place (1 + col.length) (col ++ more) before.reverse 0 col) ∧
      (loc'.code = (encodeAll (body before)).length ∧ Fits own text loc' before.reverse 0 ∨ Inside text loc') := by
    intro line
    have h1 := body_length before
    have h2 := text_length ht
    have hk : ∀ r', r' <:+ before.reverse → r' ≠ [] → loc.code = (encodeAll (body r'.reverse)).length → Fits own text loc r' 0 := by
      intro r' hr' _ he
      obtain ⟨q, hq⟩ := hr'
      have hbe : before = r'.reverse ++ q.reverse := by
        rw [← List.reverse_append, hq, List.reverse_reverse]
      rcases hloc with ⟨b, a, hba, hbc, hfit⟩ | hin
      · have : b = r'.reverse := prefix_same hba (a' := q.reverse ++ .code (col ++ more) :: after) (by rw [hbe]; simp) (by rw [← hbc, he])
        rw [this] at hfit
        simpa using hfit
      · exact absurd he (hin.not_start (X := body q.reverse ++ (col ++ more) ++ tail after) (by rw [ht, hbe, body_append]; simp))
    have := walk_spec (own := own) hl loc (symbol := 1 + col.length) hcode (r := before.reverse) (X := col ++ more ++ tail after)
      (fuel := text.length + 2) (diff := 0) (line := line) (first := col) (by rw [ht]; simp) (by simpa using h.lines) (pairedR (by simpa using h.paired))
      (by simp; omega) (by simp; omega) hk
    simpa using this
  unfold searchFrom
  rw [hb]
  simp only
  cases after with
  | nil =>
    have ht0 : text = encodeAll (body before ++ (col ++ more)) := by rw [ht]; simp [tail]
    obtain ⟨h1, h2⟩ := next_none ht0 hin
    obtain ⟨stop, loc', h3, h4, h5⟩ := hwalk 1
    rw [h1, h2]
    simp only [Option.bind_some, h3, h4]
    exact ⟨loc', rfl, h5⟩
  | cons l ls =>
    have hv := h.behind l (by simp)
    obtain ⟨h1, h2⟩ := next_some ht hin hv
    have ht' : text = encodeAll (body before ++ (col ++ more) ++ [10] ++ l.chars ++ tail ls) := by rw [ht, tail_cons]; simp
    obtain ⟨stop, loc', h3, h4, h5⟩ := hwalk (((found (encodeAll (body before ++ (col ++ more) ++ [10])).length l).map Mark.line).getD 1)
    rw [h1, h2]
    cases l with
    | begin n p cs =>
      obtain ⟨k, g1, g2, g3⟩ := found_begin ht' (tail_ends ls) hv hl
      rw [g1]
      simp only [Option.bind_some, if_pos g3.1]
      refine ⟨_, rfl, ⟨g2.1, rfl, ?_, g3.2.1⟩, .inr g3.2.2⟩
      simp only [getPath, whereIs]
      rw [if_neg g2.2.1, g2.2.2]
      rfl
    | code cs =>
      simp only [found] at h3 ⊢
      simp only [Option.bind_some, Option.bind_none, h3, h4]
      exact ⟨loc', rfl, h5⟩
    | usual n p =>
      simp only [found] at h3 ⊢
      simp only [Option.bind_some, ne_eq, not_true_eq_false, if_false, h3, h4]
      exact ⟨loc', rfl, h5⟩
    | «end» n =>
      simp only [found] at h3 ⊢
      simp only [Option.bind_some, ne_eq, not_true_eq_false, if_false, h3, h4]
      exact ⟨loc', rfl, h5⟩

theorem knows_first (own : List Nat) (ls : List Line) (text : List Nat) : Knows own ls text ⟨SIZE_MAX, 0, 1, 1⟩ := by
  refine .inl ⟨[], ls, rfl, rfl, ?_⟩
  intro d symbol code cs first hd hc
  refine ⟨?_, rfl, ?_, hc⟩
  · simp only [place, List.reverse_nil, Nat.zero_add]
    exact usz_of_lt (by simp at hd; omega)
  · simp [getPath, place]

/-! ## Texts -/

theorem tail_mid (before : List Line) (l : Line) (after : List Line) : tail (before ++ l :: after) = 10 :: (body before ++ l.chars ++ tail after) := by
  induction before with
  | nil => simp [tail, body]
  | cons b bs ih =>
    rw [List.cons_append, tail_cons, ih]
    simp [body]

theorem render_mid (before : List Line) (l : Line) (after : List Line) : render (before ++ l :: after) = body before ++ l.chars ++ tail after := by
  cases before with
  | nil => simp [render, body]
  | cons b bs =>
    rw [List.cons_append, render, tail_mid]
    simp [body]

theorem textOf_render {ls before after : List Line} {col more : List Nat} (h : ls = before ++ .code (col ++ more) :: after) :
    encodeAll (render ls) = textOf before col more after := by
  rw [h, render_mid]
  simp [textOf, Line.chars]

theorem Source.text {ls before after : List Line} {col more : List Nat} (hs : Source ls) (h : ls = before ++ .code (col ++ more) :: after) :
    Text before col more after := by
  refine ⟨fun l hl => hs.valid l (by rw [h]; simp [hl]), hs.valid _ (by rw [h]; simp), fun l hl => hs.valid l (by rw [h]; simp [hl]), ?_, ?_⟩
  · intro a n b he
    exact hs.paired a n (b ++ .code (col ++ more) :: after) (by rw [h, he]; simp)
  · rw [← textOf_render h]
    exact hs.small

theorem from_spec {own : List Nat} {ls before after : List Line} {col more : List Nat} (hs : Source ls) (h : ls = before ++ .code (col ++ more) :: after) {loc : Loc}
    (hloc : Knows own ls (encodeAll (render ls)) loc) :
    ∃ loc', searchFrom (encodeAll (render ls)) (encodeAll (body before ++ col)).length loc = some loc' ∧
      Says own (encodeAll (render ls)) loc' (whereIs before col more after) ∧
      (loc'.code = (encodeAll (body before)).length ∧ Fits own (encodeAll (render ls)) loc' before.reverse 0 ∨ Inside (encodeAll (render ls)) loc') := by
  have ht := textOf_render h
  rw [ht, h] at hloc
  have := searchFrom_spec (hs.text h) hloc
  rwa [← ht] at this

/-- In a text of code only every location counts from the beginning of its line. -/
theorem plain_place {r : List Line} (h : ∀ l ∈ r, ∃ cs, l = Line.code cs) (symbol : Nat) (cs : List Nat) : ∀ (d : Nat) (first : List Nat),
    place symbol cs r d first = ⟨1 + d + r.length, none, symbol, cs⟩ := by
  induction r with
  | nil => intro d first; rfl
  | cons l r ih =>
    intro d first
    obtain ⟨c, rfl⟩ := h l (by simp)
    rw [place, ih fun l hl => h l (by simp [hl])]
    simp only [List.length_cons]
    congr 1
    omega

theorem reach_spec {own : List Nat} {ls : List Line} (hs : Source ls) {loc : Loc} {before after : List Line} {col more : List Nat}
    (hr : Reach ls loc before col more after) : ls = before ++ .code (col ++ more) :: after ∧
      Says own (encodeAll (render ls)) loc (whereIs before col more after) ∧
      (loc.code = (encodeAll (body before)).length ∧ Fits own (encodeAll (render ls)) loc before.reverse 0 ∨ Inside (encodeAll (render ls)) loc) := by
  induction hr with
  | search at_ step =>
    obtain ⟨loc', h1, h2⟩ := from_spec hs at_ (knows_first own _ _)
    rw [search, h1] at step
    cases step
    exact ⟨at_, h2⟩
  | again from_ at_ step ih =>
    obtain ⟨ha, _, h3⟩ := ih
    obtain ⟨loc', h1, h2⟩ := from_spec (own := own) hs at_ (loc := _) (by
      rcases h3 with ⟨h3, h4⟩ | h3
      · exact .inl ⟨_, _, ha, h3, h4⟩
      · exact .inr h3)
    rw [h1] at step
    cases step
    exact ⟨at_, h2⟩
  | @newline before after col more cs loc plain from_ ih =>
    obtain ⟨ha, h2, h3⟩ := ih
    have ha' : ls = (before ++ [Line.code (col ++ more)]) ++ .code ([] ++ cs) :: after := by rw [ha]; simp
    have hb : ∀ l ∈ before.reverse, ∃ cs, l = Line.code cs := fun l hl => plain l (by rw [ha]; simp at hl; simp [hl])
    have hb' : ∀ l ∈ (before ++ [Line.code (col ++ more)]).reverse, ∃ cs, l = Line.code cs := by
      intro l hl
      exact plain l (by rw [ha']; rw [List.mem_reverse] at hl; exact List.mem_append_left _ hl)
    have hw : whereIs before col more (.code cs :: after) = ⟨1 + before.length, none, 1 + col.length, col ++ more⟩ := by
      simp only [whereIs]
      rw [plain_place hb]
      simp
    have hw' : whereIs (before ++ [Line.code (col ++ more)]) [] cs after = ⟨1 + before.length + 1, none, 1, cs⟩ := by
      have e : whereIs (before ++ [Line.code (col ++ more)]) [] cs after = place 1 ([] ++ cs) (before ++ [Line.code (col ++ more)]).reverse 0 [] := by
        cases after with
        | nil => rfl
        | cons l rest =>
          obtain ⟨c, rfl⟩ := plain l (by rw [ha]; simp)
          rfl
      rw [e, plain_place hb']
      simp
      omega
    have hT := hs.text ha'
    have ht := textOf_render ha'
    have hcode : restOfLine ((encodeAll (render ls)).length + 1) ⟨encodeAll (render ls), (encodeAll (body (before ++ [Line.code (col ++ more)]))).length⟩ = some ([] ++ cs) :=
      gives_code (r := tail after) (by rw [ht]; simp [textOf]) hT.here.1 (tail_ends after)
    have hpos : (encodeAll (body before ++ col ++ more ++ [10])).length = (encodeAll (body (before ++ [Line.code (col ++ more)]))).length := by
      rw [body_snoc]
      simp [Line.chars]
    have hlen : before.length < 4611686018427387903 := by
      have h1 := body_length (before ++ [Line.code (col ++ more)])
      have h2 : (encodeAll (render ls)).length ≥ (encodeAll (body (before ++ [Line.code (col ++ more)]))).length := by
        rw [ht]
        simp only [textOf, encodeAll_append, List.length_append]
        omega
      have := hs.small
      simp at h1
      omega
    rw [hw] at h2
    have hpath : loc.path = SIZE_MAX ∨ getPath own (encodeAll (render ls)) loc = some own := .inr h2.2.2.1
    have hgp : ∀ l : Loc, l.path = loc.path → getPath own (encodeAll (render ls)) l = some own := by
      intro l hlp
      have := h2.2.2.1
      unfold getPath at this ⊢
      rw [hlp]
      exact this
    have hln : usz (loc.line + 1) = 1 + before.length + 1 := by
      rw [h2.1]
      exact usz_of_lt (by simp only; omega)
    refine ⟨by simpa using ha', ?_, .inl ⟨hpos, ?_⟩⟩
    · rw [hw']
      refine ⟨hln, rfl, hgp _ rfl, ?_⟩
      simp only [codeLine, lineBreak, hpos]
      simpa using hcode
    · intro d symbol code cs' first hd hc
      rw [plain_place hb']
      refine ⟨?_, rfl, hgp _ rfl, hc⟩
      simp only [lineBreak, hln]
      simp only [List.length_reverse, List.length_append, List.length_cons, List.length_nil] at hd ⊢
      rw [usz_of_lt (by omega)]
      omega

theorem Reach.knows {own : List Nat} {ls : List Line} (hs : Source ls) {loc : Loc} {before after : List Line} {col more : List Nat}
    (hr : Reach ls loc before col more after) : Knows own ls (encodeAll (render ls)) loc := by
  obtain ⟨ha, _, h3⟩ := reach_spec (own := own) hs hr
  rcases h3 with ⟨h3, h4⟩ | h3
  · exact .inl ⟨_, _, ha, h3, h4⟩
  · exact .inr h3

/-! ## Printing -/

theorem fill_spec : ∀ {n fuel : Nat} {io : In} {cs : List Nat}, restOfLine fuel io = some cs → n ≤ cs.length →
    fill n io = some ((cs.take n).map fun c => if c = 9 then 9 else 32) := by
  intro n
  induction n with
  | zero => intro fuel io cs _ _; rfl
  | succ n ih =>
    intro fuel io cs h hn
    cases fuel with
    | zero => cases h
    | succ fuel =>
      rw [restOfLine] at h
      rw [fill]
      cases hsc : scanChar io with
      | none => rw [hsc] at h; cases h
      | some q =>
        obtain ⟨c, io'⟩ := q
        rw [hsc] at h
        simp only at h ⊢
        split at h
        · cases h
          simp at hn
        · obtain ⟨cs', h1, rfl⟩ := Option.map_eq_some_iff.1 h
          rw [ih h1 (by simpa using hn)]
          rfl

theorem pad_length {w : Where} (h : w.symbol ≤ w.code.length + 1) : (pad w).length = w.symbol - 1 := by
  simp [pad]
  omega

theorem pad_blank (w : Where) : ∀ c ∈ pad w, c = 32 ∨ c = 9 := by
  intro c hc
  simp only [pad, List.mem_map] at hc
  obtain ⟨x, _, rfl⟩ := hc
  split
  · exact .inr rfl
  · exact .inl rfl

theorem blanks_pad (w : Where) (s : List Nat) (h : ∀ c t, s = c :: t → c ≠ 32 ∧ c ≠ 9) : blanks (pad w ++ s) = (pad w).length := by
  have hb := pad_blank w
  generalize pad w = p at *
  induction p with
  | nil =>
    cases s with
    | nil => rfl
    | cons c t =>
      have := h c t rfl
      simp [blanks, this]
  | cons c p ih =>
    have h1 := hb c (by simp)
    have := ih fun c hc => hb c (by simp [hc])
    unfold blanks at this ⊢
    rw [List.cons_append, List.takeWhile_cons, if_pos (by simpa using h1), List.length_cons, this, List.length_cons]

theorem place_symbol {symbol : Nat} {code : List Nat} (hs : 1 ≤ symbol) : ∀ (r : List Line) (d : Nat) (first : List Nat), 1 ≤ (place symbol code r d first).symbol := by
  intro r
  induction r with
  | nil => intro d first; exact hs
  | cons l r ih =>
    intro d first
    cases l with
    | code c => exact ih _ _
    | usual n p => exact hs
    | begin n p c => simp only [place]; omega
    | «end» n =>
      simp only [place]
      split
      · exact hs
      · exact hs

theorem where_symbol (before : List Line) (col more : List Nat) (after : List Line) : 1 ≤ (whereIs before col more after).symbol := by
  unfold whereIs
  split
  · simp only; omega
  · exact place_symbol (by omega) _ _ _

theorem where_next {before : List Line} {col more : List Nat} {after : List Line} (h : ∀ n p cs rest, after ≠ .begin n p cs :: rest) :
    whereIs before col more after = place (1 + col.length) (col ++ more) before.reverse 0 col := by
  unfold whereIs
  split
  · exact absurd rfl (h _ _ _ _)
  · rfl

theorem two_lines (out : List Line) (a b : Line) (after : List Line) : out ++ a :: b :: after = (out ++ [a]) ++ b :: after := by simp

theorem place_mids (symbol : Nat) (code : List Nat) (mids : List (List Nat)) (cs : List Nat) (r : List Line) (d : Nat) (first : List Nat) :
    place symbol code ((mids.map Line.code).reverse ++ (.code cs :: r)) d first = place symbol code r (d + mids.length + 1) cs := by
  have : ∀ (ms : List (List Nat)) (d : Nat) (first : List Nat),
      place symbol code (ms.map Line.code ++ (.code cs :: r)) d first = place symbol code r (d + ms.length + 1) cs := by
    intro ms
    induction ms with
    | nil => intro d first; rfl
    | cons m ms ih =>
      intro d first
      rw [List.map_cons, List.cons_append, place, ih]
      simp only [List.length_cons]
      congr 1
      omega
  rw [← List.map_reverse, this]
  simp

theorem opened_mids (mids : List (List Nat)) (r : List Line) : opened ((mids.map Line.code).reverse ++ r) = opened r := by
  have : ∀ (ms : List (List Nat)), opened (ms.map Line.code ++ r) = opened r := by
    intro ms
    induction ms with
    | nil => rfl
    | cons m ms ih => exact ih
  rw [← List.map_reverse]
  exact this _

theorem pathLoop_long {cs : List Nat} : ∀ {fuel : Nat} {io : In} {before rest : List Nat} {size : Nat}, Stands io before (cs ++ rest) →
    (∀ c ∈ cs, Inner c ∧ Good c ∧ c ≠ 34) → size < 1024 → 1024 ≤ size + (encodeAll cs).length → pathLoop fuel io size = none := by
  induction cs with
  | nil =>
    intro fuel io before rest size _ _ h1 h2
    simp [encodeAll] at h2
    omega
  | cons c cs ih =>
    intro fuel io before rest size hs hc h1 h2
    cases fuel with
    | zero => rfl
    | succ fuel =>
      obtain ⟨hi, hg, hq⟩ := hc c (by simp)
      obtain ⟨io', g1, g2⟩ := scanChar_spec hs hi.1
      rw [encodeAll_cons, List.length_append] at h2
      rw [pathLoop, g1]
      simp only
      rw [toStr_good' hg, if_neg hq, if_neg (by unfold MAX_PATH; omega)]
      by_cases hz : size + (encode c).length ≥ MAX_PATH
      · rw [if_pos hz]
      · rw [if_neg hz, ih g2 (fun c h => hc c (by simp [h])) (by unfold MAX_PATH at hz; omega) (by omega)]
        rfl

end RuC.Locator
