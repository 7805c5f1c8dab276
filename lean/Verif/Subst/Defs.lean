import Verif.Subst.Lemmas

/-!
# Definitions: what is kept of the body
-/

namespace RuC.Subst
open RuC RuC.Utf8 RuC.Io RuC.Locator RuC.Text

/-- What is kept of a token. -/
def Tok.code (index : Nat) (params : List (List Nat)) : Tok → List Nat
  | .word w => if w ∈ params then argMask index (params.idxOf w) else w
  | .quote _ w => strMask index (params.idxOf w)
  | .paste _ w => tkpMask index (params.idxOf w)
  | .str q b => q :: b ++ [q]
  | .chr c => [c]

/-- What is kept of a body. -/
def Body.code (index : Nat) (params : List (List Nat)) (l : Body) : List Nat :=
  l.flatMap fun x => (if x.1 = [] ∨ x.2.joins = true then [] else [32]) ++ x.2.code index params

theorem Body.raw_cons (g : List Gap) (x : Tok) (l : Body) : Body.raw ((g, x) :: l) = gaps g ++ (x.raw ++ Body.raw l) := by
  simp [Body.raw]

theorem Body.code_cons (index : Nat) (params : List (List Nat)) (g : List Gap) (x : Tok) (l : Body) : Body.code index params ((g, x) :: l) =
    (if g = [] ∨ x.joins = true then [] else [32]) ++ x.code index params ++ Body.code index params l := by
  simp [Body.code]

theorem usual_drop {t : List Nat} (h : Usual t) (p : Nat) : Usual (t.drop p) := fun c hc => h c (List.mem_of_mem_drop hc)

theorem stops_of' {c : Nat} {v : List Nat} (h1 : c ≠ 32) (h2 : c ≠ 9) (h3 : c = 47 → ∀ w, v ≠ 47 :: w ∧ v ≠ 42 :: w) (h4 : c = 92 → ∀ w, v ≠ 10 :: w) : Stops (c :: v) := by
  intro d w he
  cases he
  exact ⟨h1, h2, h3, h4⟩

/-- The first character of a token. -/
theorem tok_head {params : List (List Nat)} {x : Tok} {r : List Nat} (hf : x.Fits params r) : ∃ c v, x.raw = c :: v ∧ c ≠ 10 ∧ Stops (x.raw ++ r) := by
  cases x with
  | word w =>
    obtain ⟨⟨⟨c, v, rfl, hc⟩, _⟩, _⟩ := hf
    obtain ⟨h1, h2, h3, _, _, _, h4, h5, _⟩ := letter_facts hc
    exact ⟨c, v, rfl, h1, stops_of h2 h3 h5 h4⟩
  | str q b =>
    obtain ⟨hq, _⟩ := hf
    refine ⟨q, b ++ [q], rfl, ?_, ?_⟩
    · rcases hq with rfl | rfl <;> decide
    · exact stops_of (by rcases hq with rfl | rfl <;> decide) (by rcases hq with rfl | rfl <;> decide) (by rcases hq with rfl | rfl <;> decide)
        (by rcases hq with rfl | rfl <;> decide)
  | chr c =>
    obtain ⟨_, h1, h2, h3, _, _, _, h4, h5⟩ := hf
    exact ⟨c, [], rfl, h1, stops_of' h2 h3 h5 h4⟩
  | quote g w => exact ⟨35, _, rfl, by decide, stops_of (by decide) (by decide) (by decide) (by decide)⟩
  | paste g w => exact ⟨35, _, rfl, by decide, stops_of (by decide) (by decide) (by decide) (by decide)⟩

theorem numberOf_mem {params : List (List Nat)} {w : List Nat} (h : w ∈ params) : numberOf params w = some (params.idxOf w) := by
  unfold numberOf; rw [if_pos h]

theorem numberOf_not {params : List (List Nat)} {w : List Nat} (h : w ∉ params) : numberOf params w = none := by
  unfold numberOf; rw [if_neg h]

theorem word_stops {w r : List Nat} (hw : Word w) : Stops (w ++ r) ∧ ∃ c v, w = c :: v ∧ isLetter c = true := by
  obtain ⟨⟨c, v, rfl, hc⟩, _⟩ := hw
  obtain ⟨_, h2, h3, _, _, _, h4, h5, _⟩ := letter_facts hc
  exact ⟨stops_of h2 h3 h5 h4, c, v, rfl, hc⟩

theorem next_cons (c : Nat) (v : List Nat) : next (c :: v) = c := rfl

/-- `until'` in front of a name. -/
theorem until_name {t w r : List Nat} {g : List Gap} {p : Nat} (hw : Word w) (h : t.drop p = gaps g ++ (w ++ r)) (hg : GapsRead g (w ++ r)) (hn : .nl ∉ g) (hr : WordEnds r) (hu : Usual t) :
    ∃ e c, until' t p = (e, c, p + (gaps g).length) ∧ isLetter c = true ∧ nameAt t (p + (gaps g).length) = w := by
  obtain ⟨hs, c, v, rfl, hc⟩ := word_stops (r := r) hw
  have hp : p ≤ t.length := le_len (r := []) (x := gaps g ++ (c :: v ++ r)) (by rw [h, List.append_nil]) (by simp)
  refine ⟨_, c, until_gaps hs hg hn h hp (usual_drop hu p), hc, nameAt_spec (drop_add h) (Word.named hw) hr⟩

/-- `parse_operator` on a hash and a parameter. -/
theorem operator_quote {t r w : List Nat} {index : Nat} {params : List (List Nat)} {space : List Nat} {g : List Gap} {p : Nat} (hpar : ∀ w ∈ params, Word w)
    (hf : (Tok.quote g w).Fits params r) (h : t.drop p = (Tok.quote g w).raw ++ r) (hu : Usual t) :
    parseOperator t index params space p = .ok (space ++ strMask index (params.idxOf w), p + (Tok.quote g w).raw.length) := by
  obtain ⟨hm, hr, hg, hn⟩ := hf
  have h1 : t.drop p = 35 :: (gaps g ++ (w ++ r)) := by rw [h]; simp [Tok.raw]
  have h2 := drop_succ h1
  obtain ⟨e, c, hun, hc, hname⟩ := until_name (hpar w hm) h2 hg hn hr hu
  unfold parseOperator
  rw [scan_cons h1]
  -- what is behind the hash is no hash
  have hne : gaps g ++ (w ++ r) ≠ [] := by
    obtain ⟨⟨c, v, rfl, _⟩, _⟩ := hpar w hm
    simp
  obtain ⟨d, v, hd⟩ : ∃ d v, gaps g ++ (w ++ r) = d :: v := by
    cases hh : gaps g ++ (w ++ r) with
    | nil => exact absurd hh hne
    | cons d v => exact ⟨d, v, rfl⟩
  have hd35 : d ≠ 35 := by
    intro hd'
    subst hd'
    cases g with
    | nil =>
      obtain ⟨⟨c, v', rfl, hc'⟩, _⟩ := hpar w hm
      simp [gaps] at hd
      obtain ⟨rfl, _⟩ := hd
      revert hc'; decide
    | cons x g =>
      rw [gaps_cons] at hd
      have hx := hg.1
      cases x with
      | blank c =>
        simp [Gap.raw] at hd
        obtain ⟨rfl, _⟩ := hd
        revert hx; show (35 = 32 ∨ 35 = 9) → False; omega
      | _ => simp [Gap.raw] at hd
  have h3 : t.drop (p + 1) = d :: v := by rw [h2, hd]
  have hdu : d < 0x200000 := (hu d (List.mem_of_mem_drop (by rw [h3]; simp))).1
  simp only [scan_cons h3]
  rw [if_neg hd35, unscan_char (not_eof hdu), hun]
  simp only
  rw [hname, numberOf_mem hm]
  simp only [Tok.raw, List.length_append, List.length_cons]
  congr 2
  omega

/-- `parse_operator` on two hashes and a parameter. -/
theorem operator_paste {t r w : List Nat} {index : Nat} {params : List (List Nat)} {space : List Nat} {g : List Gap} {p : Nat} (hpar : ∀ w ∈ params, Word w)
    (hf : (Tok.paste g w).Fits params r) (h : t.drop p = (Tok.paste g w).raw ++ r) (hu : Usual t) :
    parseOperator t index params space p = .ok (tkpMask index (params.idxOf w), p + (Tok.paste g w).raw.length) := by
  obtain ⟨hm, hr, hg, hn⟩ := hf
  have h1 : t.drop p = 35 :: 35 :: (gaps g ++ (w ++ r)) := by rw [h]; simp [Tok.raw]
  have h2 := drop_succ h1
  have h3 := drop_succ h2
  obtain ⟨e, c, hun, hc, hname⟩ := until_name (hpar w hm) h3 hg hn hr hu
  obtain ⟨k1, _, _, _, _, _, _, _, _, _, k2⟩ := letter_facts hc
  unfold parseOperator
  simp only [scan_cons h1, scan_cons h2]
  rw [if_pos True.intro, hun]
  simp only
  rw [if_neg (by simp [k1, k2]), hname, numberOf_mem hm]
  simp only [Tok.raw, List.length_append, List.length_cons]
  congr 2
  omega

set_option maxHeartbeats 1000000 in
/-- A token of the content. -/
theorem contentStep_tok {t : List Nat} {index : Nat} {params : List (List Nat)} (space : List Nat) (hpar : ∀ w ∈ params, Word w) (hu : Usual t) {x : Tok} {r : List Nat} {q c : Nat}
    {v : List Nat} (h3 : x.Fits params r) (hd : t.drop q = x.raw ++ r) (hc : x.raw = c :: v) :
    contentStep t index params space c q = .ok ((if x.joins = true then [] else space) ++ x.code index params, q + x.raw.length) := by
  have hcu : c < 0x200000 := (hu c (List.mem_of_mem_drop (by rw [hd, hc]; simp))).1
  unfold contentStep
  cases x with
  | word w =>
    obtain ⟨hw, he⟩ := h3
    obtain ⟨c', v', rfl, hl⟩ := hw.1
    cases hc
    have hname := nameAt_spec hd (Word.named hw) he
    rw [if_neg (letter_facts hl).2.2.2.2.2.1, if_pos hl]
    simp only
    rw [show nameAt t q = c :: v from hname]
    by_cases hm : c :: v ∈ params
    · rw [numberOf_mem hm]; simp only [Tok.code, Tok.joins, Tok.raw, if_pos hm]; simp
    · rw [numberOf_not hm]; simp only [Tok.code, Tok.joins, Tok.raw, if_neg hm]; simp
  | str q' b =>
    obtain ⟨hq', hb⟩ := h3
    cases hc
    have hb1 : t.drop q = c :: (b ++ c :: (r)) := by rw [hd]; simp [Tok.raw]
    have hb2 := drop_succ hb1
    have h13 : 13 ∉ b := fun hm => (hu 13 (List.mem_of_mem_drop (by rw [hb2]; exact List.mem_append_left _ hm))).2 rfl
    have n1 : c ≠ 35 := by rcases hq' with rfl | rfl <;> decide
    have n2 : isLetter c = false := by rcases hq' with rfl | rfl <;> decide
    have n3 : c = 39 ∨ c = 34 := hq'.symm
    rw [if_neg n1, if_neg (by simp [n2]), if_pos n3]
    simp only [scan_cons hb1]
    rw [skipString_spec hq' hb hb2 h13]
    simp only [ne_eq, not_true_eq_false, if_false]
    simp [Tok.code, Tok.joins, Tok.raw, putsOf, putsOf_str]
    omega
  | chr c' =>
    obtain ⟨k1, _, _, _, k2, k3, k4, _⟩ := h3
    cases hc
    rw [if_neg k4, if_neg (by simp [k1]), if_neg (by simp [k2, k3])]
    have hb1 : t.drop q = c :: (r) := hd
    rw [scan_cons hb1]
    simp [putsOf_putc hcu, Tok.code, Tok.joins, Tok.raw]
  | quote g' w =>
    cases hc
    rw [if_pos rfl, operator_quote hpar h3 hd hu]
    simp [Tok.code, Tok.joins]
  | paste g' w =>
    cases hc
    rw [if_pos rfl, operator_paste hpar h3 hd hu]
    simp [Tok.code, Tok.joins]

set_option maxHeartbeats 1000000 in
/-- The loop of `parse_content` over a body. -/
theorem contentLoop_spec {t : List Nat} {index : Nat} {params : List (List Nat)} (hpar : ∀ w ∈ params, Word w) (hu : Usual t) {trail : List Gap} {r : List Nat} (hr : Text.Tail r)
    (htr : GapsRead trail r) (hnt : .nl ∉ trail) : ∀ {l : Body} {fuel p : Nat}, Body.Reads params l (gaps trail ++ r) → t.drop p = Body.raw l ++ (gaps trail ++ r) → p ≤ t.length →
    l.length + 1 ≤ fuel →
    contentLoop t index params fuel p (until' t p).2.1 (until' t p).2.2 = .ok (Body.code index params l) := by
  intro l
  induction l with
  | nil =>
    intro fuel p _ h hp hf
    cases fuel with
    | zero => omega
    | succ fuel =>
      rw [until_gaps (tail_stops hr) htr hnt h hp (usual_drop hu p)]
      unfold contentLoop
      rw [if_pos]
      · rfl
      · rcases hr with rfl | ⟨v, rfl⟩
        · exact .inr rfl
        · exact .inl rfl
  | cons y l ih =>
    intro fuel p hrd h hp hf
    obtain ⟨g, x⟩ := y
    obtain ⟨h1, h2, h3, h4⟩ := hrd
    cases fuel with
    | zero => omega
    | succ fuel =>
      have h' : t.drop p = gaps g ++ (x.raw ++ (Body.raw l ++ (gaps trail ++ r))) := by rw [h, Body.raw_cons]; simp
      obtain ⟨c, v, hc, hc10, hst⟩ := tok_head h3
      rw [until_gaps hst h1 h2 h' hp (usual_drop hu p)]
      have hd := drop_add h'
      have hnext : next (x.raw ++ (Body.raw l ++ (gaps trail ++ r))) = c := by rw [hc]; rfl
      simp only [hnext]
      have hcu : c < 0x200000 := (hu c (List.mem_of_mem_drop (by rw [hd, hc]; simp))).1
      have hd' := drop_add hd
      have hp' : p + (gaps g).length + x.raw.length ≤ t.length := by
        have := congrArg List.length h'
        simp only [List.length_append, List.length_drop] at this
        omega
      have hrec := ih (fuel := fuel) h4 hd' hp' (by simp at hf; omega)
      unfold contentLoop
      rw [if_neg (by have := not_eof hcu; simp [hc10, this])]
      -- the token
      have hstep : contentStep t index params (if p + (gaps g).length ≠ p then [32] else []) c (p + (gaps g).length) =
          Except.ok ((if g = [] ∨ x.joins = true then [] else [32]) ++ x.code index params, p + (gaps g).length + x.raw.length) := by
        have hsp : (if p + (gaps g).length ≠ p then [32] else ([] : List Nat)) = if g = [] then [] else [32] := by
          cases g with
          | nil => simp [gaps]
          | cons y g =>
            have : (gaps (y :: g)).length ≠ 0 := by
              rw [gaps_cons]
              have := Gap.raw_ne y
              simp [this]
            rw [if_pos (by omega), if_neg (by simp)]
        rw [hsp, contentStep_tok _ hpar hu h3 hd hc]
        by_cases hg : g = [] <;> by_cases hj : x.joins = true <;> simp [hg, hj]
      rw [hstep]
      simp only
      rw [hrec, Body.code_cons]

/-! ## Parameters -/

theorem Params.raw_cons (a b : List Gap) (w : List Nat) (l : Params) : ∃ z, Params.raw ((a, w, b) :: l) = gaps a ++ (w ++ (gaps b ++ z)) ∧
    ((l = [] ∧ z = []) ∨ (l ≠ [] ∧ z = 44 :: Params.raw l)) := by
  cases l with
  | nil => exact ⟨[], by simp [Params.raw], .inl ⟨rfl, rfl⟩⟩
  | cons y l => exact ⟨44 :: Params.raw (y :: l), by simp [Params.raw], .inr ⟨by simp, rfl⟩⟩

theorem Params.reads_cons {a b : List Gap} {w : List Nat} {l : Params} {r : List Nat} (h : Params.Reads ((a, w, b) :: l) r) :
    Word w ∧ .nl ∉ a ∧ .nl ∉ b ∧ (l = [] → GapsRead a (w ++ (gaps b ++ r)) ∧ GapsRead b r) ∧
    (l ≠ [] → GapsRead a (w ++ (gaps b ++ (44 :: Params.raw l ++ r))) ∧ GapsRead b (44 :: Params.raw l ++ r) ∧ Params.Reads l r) := by
  cases l with
  | nil =>
    obtain ⟨h1, h2, h3, h4, h5⟩ := h
    refine ⟨h1, h2, h3, fun _ => ⟨by simpa using h4, h5⟩, fun h => absurd rfl h⟩
  | cons y l =>
    obtain ⟨h1, h2, h3, h4, h5, h6⟩ := h
    exact ⟨h1, h2, h3, fun h => (by cases h), fun _ => ⟨by simpa using h4, h5, h6⟩⟩

theorem gaps_wordEnds {g : List Gap} {r : List Nat} (hg : GapsRead g r) (hr : WordEnds r) : WordEnds (gaps g ++ r) := by
  cases g with
  | nil => exact hr
  | cons x g =>
    intro c v h
    rw [gaps_cons] at h
    have hx := hg.1
    cases x with
    | blank d =>
      simp [Gap.raw] at h
      obtain ⟨rfl, _⟩ := h
      rcases hx with rfl | rfl <;> decide
    | cont => simp [Gap.raw] at h; obtain ⟨rfl, _⟩ := h; decide
    | line b => simp [Gap.raw] at h; obtain ⟨rfl, _⟩ := h; decide
    | block b => simp [Gap.raw] at h; obtain ⟨rfl, _⟩ := h; decide
    | nl => simp [Gap.raw] at h; obtain ⟨rfl, _⟩ := h; decide

theorem wordEnds_cons {c : Nat} {v : List Nat} (h : wordChar c = false) : WordEnds (c :: v) := by
  intro d w he; cases he; exact h

theorem argsLoop_spec {t : List Nat} (hu : Usual t) {r : List Nat} : ∀ {l : Params} {names : List (List Nat)} {fuel p : Nat}, l ≠ [] → Params.Reads l (41 :: r) →
    t.drop p = Params.raw l ++ 41 :: r → (names ++ l.names).Nodup → l.length + 1 ≤ fuel →
    argsLoop t fuel names (until' t p).2.1 (until' t p).2.2 = .ok (names ++ l.names, p + (Params.raw l).length + 1) := by
  intro l
  induction l with
  | nil => intro names fuel p h; exact absurd rfl h
  | cons y l ih =>
    intro names fuel p _ hrd h hnd hf
    obtain ⟨a, w, b⟩ := y
    cases fuel with
    | zero => omega
    | succ fuel =>
    obtain ⟨z, hz, hz'⟩ := Params.raw_cons a b w l
    obtain ⟨hw, ha, hb, hl1, hl2⟩ := Params.reads_cons hrd
    have h' : t.drop p = gaps a ++ (w ++ (gaps b ++ (z ++ 41 :: r))) := by rw [h, hz]; simp
    have hga : GapsRead a (w ++ (gaps b ++ (z ++ 41 :: r))) := by
      rcases hz' with ⟨e1, rfl⟩ | ⟨e1, rfl⟩
      · exact (hl1 e1).1
      · simpa using (hl2 e1).1
    have hgb : GapsRead b (z ++ 41 :: r) := by
      rcases hz' with ⟨e1, rfl⟩ | ⟨e1, rfl⟩
      · exact (hl1 e1).2
      · simpa using (hl2 e1).2.1
    have hze : WordEnds (z ++ 41 :: r) := by
      rcases hz' with ⟨e1, rfl⟩ | ⟨e1, rfl⟩
      · exact wordEnds_cons (by decide)
      · exact wordEnds_cons (by decide)
    have hzs : Stops (z ++ 41 :: r) := by
      rcases hz' with ⟨e1, rfl⟩ | ⟨e1, rfl⟩
      · exact stops_of (by decide) (by decide) (by decide) (by decide)
      · exact stops_of (by decide) (by decide) (by decide) (by decide)
    obtain ⟨e, c, hun, hc, hname⟩ := until_name hw h' hga ha (gaps_wordEnds hgb hze) hu
    rw [hun]
    simp only
    obtain ⟨k1, _, _, _, _, _, _, _, _, k2, k3⟩ := letter_facts hc
    unfold argsLoop
    rw [if_neg k2, if_neg (by simp [k1, k3]), if_neg (by simp [hc])]
    simp only [hname]
    have hfresh : w ∉ names := by
      intro hm
      have := (List.nodup_append.mp hnd).2.2 w hm w (by simp [Params.names])
      exact this rfl
    rw [if_neg hfresh]
    have hd := drop_add h'
    have hd2 := drop_add hd
    have hd3 := drop_add hd2
    have hlen : t.length = p + (gaps a).length + w.length + (gaps b).length + (z ++ 41 :: r).length := by
      have := congrArg List.length h'
      simp only [List.length_append, List.length_drop, List.length_cons] at this ⊢
      omega
    have hun2 := until_gaps hzs hgb hb hd2 (by omega) (usual_drop hu _)
    rw [hun2]
    simp only
    rcases hz' with ⟨e1, rfl⟩ | ⟨e1, rfl⟩
    · subst e1
      rw [show next ([] ++ 41 :: r) = 41 from rfl, if_neg (by decide), if_pos (by simp)]
      cases fuel with
      | zero => simp at hf
      | succ fuel =>
        unfold argsLoop
        rw [if_pos rfl, scan_cons hd3]
        simp only [hz, Params.names, List.map_cons, List.map_nil]
        simp
        omega
    · rw [show next (44 :: Params.raw l ++ 41 :: r) = 44 from rfl, if_pos rfl, scan_cons hd3]
      simp only
      have hd4 := drop_succ hd3
      rw [ih e1 (hl2 e1).2.2 hd4 (by simpa [Params.names] using hnd) (by simp at hf; omega)]
      rw [hz]
      simp [Params.names]
      omega

/-- The parameters of a definition. -/
theorem parseArgs_spec {t : List Nat} (hu : Usual t) {l : Params} {r : List Nat} {p : Nat} (hl : l ≠ []) (hrd : Params.Reads l (41 :: r)) (h : t.drop p = 40 :: Params.raw l ++ 41 :: r)
    (hnd : l.names.Nodup) : parseArgs t p = .ok (l.names, p + (40 :: Params.raw l ++ [41]).length) := by
  have hlen : t.length = p + (Params.raw l).length + 2 + r.length := by
    have := congrArg List.length h
    simp only [List.length_append, List.length_drop, List.length_cons] at this ⊢
    omega
  have h0 := until_gaps (l := []) (r := 40 :: (Params.raw l ++ 41 :: r)) (t := t) (p := p) (stops_of (by decide) (by decide) (by decide) (by decide)) trivial (by simp)
    (by rw [h]; simp [gaps]) (by omega) (usual_drop hu _)
  have h1 : t.drop p = 40 :: (Params.raw l ++ 41 :: r) := by rw [h]; rfl
  unfold parseArgs
  rw [h0]
  simp only [next_cons, gaps, List.flatMap_nil, List.length_nil, Nat.add_zero]
  rw [if_neg (by simp), scan_cons h1]
  simp only
  have hcount : ∀ (l : Params) (r : List Nat), Params.Reads l (41 :: r) → l.length ≤ (Params.raw l).length := by
    intro l
    induction l with
    | nil => intro r _; simp
    | cons y l ih =>
      intro r hr
      obtain ⟨a, w, b⟩ := y
      obtain ⟨z, hz, hz'⟩ := Params.raw_cons a b w l
      obtain ⟨hw, _, _, _, hl2⟩ := Params.reads_cons hr
      have : w.length ≠ 0 := by obtain ⟨⟨c, v, rfl, _⟩, _⟩ := hw; simp
      rw [hz]
      rcases hz' with ⟨e1, rfl⟩ | ⟨e1, rfl⟩
      · subst e1; simp; omega
      · have := ih r (hl2 e1).2.2
        simp; omega
  have := hcount l r hrd
  rw [argsLoop_spec hu hl hrd (drop_succ h1) (by simpa using hnd) (by omega)]
  simp
  omega

/-- Without a bracket directly behind the name of the macro there are no parameters. -/
theorem parseArgs_none {t : List Nat} (hu : Usual t) {g : List Gap} {r : List Nat} {p : Nat} (hg : GapsRead g r) (hn : .nl ∉ g) (hs : Stops r) (h : t.drop p = gaps g ++ r) (hp : p ≤ t.length)
    (hb : g ≠ [] ∨ ∀ v, r ≠ 40 :: v) (hr : ∀ c v, r = c :: v → c < 0x200000) : parseArgs t p = .ok ([], p + (gaps g).length) := by
  unfold parseArgs
  rw [until_gaps hs hg hn h hp (usual_drop hu _)]
  simp only
  rw [if_pos]
  rcases hb with hb | hb
  · refine .inr ?_
    cases g with
    | nil => exact absurd rfl hb
    | cons x g =>
      rw [gaps_cons]
      have := Gap.raw_ne x
      have : x.raw.length ≠ 0 := by simpa using this
      rw [List.length_append]
      omega
  · refine .inl ?_
    cases r with
    | nil => show EOFc ≠ 40; unfold EOFc; omega
    | cons c v => rw [next_cons]; intro hc; subst hc; exact hb v rfl

/-! ## The whole definition -/

/-- What is kept of a body without the gap in front of it. -/
def Body.kept (index : Nat) (params : List (List Nat)) : Body → List Nat
  | [] => []
  | (_, x) :: l => Body.code index params (([], x) :: l)

set_option maxHeartbeats 1000000 in
theorem parseContext_spec {t : List Nat} {index : Nat} {params : List (List Nat)} {p q : Nat} (ha : parseArgs t p = .ok (params, q)) (hpar : ∀ w ∈ params, Word w) (hu : Usual t)
    {l : Body} {trail : List Gap} {r : List Nat} (hr : Text.Tail r) (htr : GapsRead trail r) (hnt : .nl ∉ trail) (hrd : Body.Reads params l (gaps trail ++ r))
    (h : t.drop q = Body.raw l ++ (gaps trail ++ r)) (hq : q ≤ t.length) (hb : l.begins = true) :
    parseContext t index p = .ok (params.length, l.kept index params) := by
  unfold parseContext
  rw [ha]
  simp only
  have hlen : ∀ {l : Body}, Body.Reads params l (gaps trail ++ r) → l.length ≤ (Body.raw l).length := by
    intro l
    induction l with
    | nil => intro _; simp
    | cons y l ih =>
      intro hr
      obtain ⟨g, x⟩ := y
      have h1 := ih hr.2.2.2
      obtain ⟨c, v, hc, _⟩ := tok_head hr.2.2.1
      rw [Body.raw_cons, hc]
      simp
      omega
  cases l with
  | nil =>
    have h1 : t.drop q = gaps trail ++ r := by rw [h]; simp [Body.raw]
    rw [until_gaps (tail_stops hr) htr hnt h1 hq (usual_drop hu _)]
    simp only
    have hnx : next r ≠ 35 := by
      rcases hr with rfl | ⟨v, rfl⟩
      · show EOFc ≠ 35; unfold EOFc; omega
      · show 10 ≠ 35; omega
    rw [if_neg (by simp [hnx]), if_neg hnx]
    have h2 := drop_add h1
    have h3 : q + (gaps trail).length ≤ t.length := by
      have := congrArg List.length h1
      simp only [List.length_append, List.length_drop] at this
      omega
    have hun := until_gaps (l := []) (tail_stops hr) trivial (by simp) (show t.drop (q + (gaps trail).length) = gaps [] ++ r by rw [h2]; rfl) h3 (usual_drop hu _)
    have := contentLoop_spec (index := index) (l := []) (trail := []) (fuel := t.length + 2) hpar hu hr trivial (by simp) trivial (by rw [h2]; rfl) h3 (by simp)
    unfold parseContent
    rw [hun] at this ⊢
    simp only [gaps, List.flatMap_nil, List.length_nil, Nat.add_zero] at this ⊢
    rw [this]
    rfl
  | cons y l =>
    obtain ⟨g, x⟩ := y
    obtain ⟨h1, h2, h3, h4⟩ := hrd
    have h' : t.drop q = gaps g ++ (x.raw ++ (Body.raw l ++ (gaps trail ++ r))) := by rw [h, Body.raw_cons]; simp
    obtain ⟨c, v, hc, hc10, hst⟩ := tok_head h3
    rw [until_gaps hst h1 h2 h' hq (usual_drop hu _)]
    simp only
    have hd := drop_add h'
    have hlen' := congrArg List.length h'
    simp only [List.length_append, List.length_drop] at hlen'
    have hc1 : x.raw.length = v.length + 1 := by rw [hc]; rfl
    have hd1 : t.drop (q + (gaps g).length) = c :: (v ++ (Body.raw l ++ (gaps trail ++ r))) := by rw [hd, hc]; rfl
    have hd2 := drop_succ hd1
    rw [show next (x.raw ++ (Body.raw l ++ (gaps trail ++ r))) = c by rw [hc]; rfl]
    have hpos : (if c = 35 then unscan 35 (unscan (scan t (scan t (q + (gaps g).length)).2).1 (scan t (scan t (q + (gaps g).length)).2).2) else q + (gaps g).length) =
        q + (gaps g).length := by
      split
      · rw [scan_cons hd1]
        simp only
        cases hv : v ++ (Body.raw l ++ (gaps trail ++ r)) with
        | nil =>
          rw [hv] at hd2
          rw [scan_nil hd2]
          simp only [Text.unscan, if_true]
          rw [if_neg (by unfold EOFc; omega)]
          omega
        | cons d v' =>
          rw [hv] at hd2
          rw [scan_cons hd2]
          have : d < 0x200000 := (hu d (List.mem_of_mem_drop (by rw [hd2]; simp))).1
          simp only
          rw [unscan_char (not_eof this), unscan_char (by unfold EOFc; omega)]
      · rfl
    have hno : ¬ (c = 35 ∧ (scan t (scan t (q + (gaps g).length)).2).1 = 35) := by
      rintro ⟨rfl, h35⟩
      rw [scan_cons hd1] at h35
      simp only at h35
      cases x with
      | word w => obtain ⟨⟨⟨c', v', rfl, hl⟩, _⟩, _⟩ := h3; cases hc; revert hl; decide
      | str q' b => obtain ⟨hq', _⟩ := h3; cases hc; rcases hq' with h | h <;> cases h
      | chr c' => cases hc; exact h3.2.2.2.2.2.2.1 rfl
      | quote g' w =>
        cases hc
        obtain ⟨hm, hwe, hg, hnl⟩ := h3
        obtain ⟨⟨d, v', hw, hl⟩, _⟩ := hpar w hm
        subst hw
        cases g' with
        | nil =>
          have hd3 : t.drop (q + (gaps g).length + 1) = d :: (v' ++ (Body.raw l ++ (gaps trail ++ r))) := by rw [hd2]; simp [gaps]
          rw [scan_cons hd3] at h35
          simp only at h35
          subst h35
          revert hl; decide
        | cons y g' =>
          have hy := hg.1
          have key : ∀ (e : Nat) (u : List Nat), y.raw = e :: u → e ≠ 35 := by
            intro e u he
            cases y with
            | blank b => cases he; rcases hy with rfl | rfl <;> decide
            | _ => simp [Gap.raw] at he; omega
          cases hyr : y.raw with
          | nil => exact absurd hyr (Gap.raw_ne y)
          | cons e u =>
            have hd3 : t.drop (q + (gaps g).length + 1) = e :: (u ++ (gaps g' ++ (d :: v' ++ (Body.raw l ++ (gaps trail ++ r))))) := by
              rw [hd2, gaps_cons, hyr]; simp
            rw [scan_cons hd3] at h35
            exact key e u hyr h35
      | paste g' w => cases hb
    rw [if_neg hno, hpos]
    have hrd' : Body.Reads params (([], x) :: l) (gaps trail ++ r) := ⟨trivial, by simp, h3, h4⟩
    have hle := hlen hrd'
    have hsum : (Body.raw (([], x) :: l)).length = x.raw.length + (Body.raw l).length := by rw [Body.raw_cons]; simp [gaps]
    have hp' : q + (gaps g).length ≤ t.length := by omega
    have hun := until_gaps (l := []) hst trivial (by simp) (show t.drop (q + (gaps g).length) = gaps [] ++ _ by rw [hd]; rfl) hp' (usual_drop hu _)
    have := contentLoop_spec (index := index) (l := ([], x) :: l) (trail := trail) (r := r) (fuel := t.length + 2) hpar hu hr htr hnt hrd'
      (show t.drop (q + (gaps g).length) = _ by rw [hd, Body.raw_cons]; simp [gaps]) hp' (by omega)
    unfold parseContent
    rw [hun] at this ⊢
    simp only [gaps, List.flatMap_nil, List.length_nil, Nat.add_zero] at this ⊢
    rw [this]
    rfl

end RuC.Subst
