import Verif.Subst.Defs

/-!
# What is made of the kept body when the arguments are known
-/

namespace RuC.Subst
open RuC RuC.Utf8 RuC.Io RuC.Locator RuC.Text

/-- What the tokens of a body stand for, with the gap in front of the first one. -/
def Body.rest (params args : List (List Nat)) (expand : List Nat → List Nat) (l : Body) : List Nat :=
  l.flatMap fun x => (if x.1 = [] ∨ x.2.joins = true then [] else [32]) ++ x.2.stands params args expand

theorem Body.rest_cons (params args : List (List Nat)) (expand : List Nat → List Nat) (g : List Gap) (x : Tok) (l : Body) : Body.rest params args expand ((g, x) :: l) =
    (if g = [] ∨ x.joins = true then [] else [32]) ++ (x.stands params args expand ++ Body.rest params args expand l) := by
  simp [Body.rest]

theorem code_usual {index : Nat} {params : List (List Nat)} {x : Tok} (h : Usual x.raw) : Usual (x.code index params) := by
  have hd : ∀ n, ∀ c ∈ showNat n, c < 0x200000 ∧ c ≠ 13 := by
    intro n c hc
    obtain ⟨h1, h2, _⟩ := digits_word hc
    refine ⟨by omega, ?_⟩
    rintro rfl
    revert h1; decide
  have hm : ∀ (pre : List Nat) (i j : Nat), (∀ c ∈ pre, c < 0x200000 ∧ c ≠ 13) → Usual (pre ++ showNat i ++ [95] ++ showNat j) := by
    intro pre i j hp c hc
    simp only [List.mem_append] at hc
    rcases hc with ((hc | hc) | hc) | hc
    · exact hp c hc
    · exact hd i c hc
    · rw [List.mem_singleton] at hc; subst hc; decide
    · exact hd j c hc
  cases x with
  | word w =>
    show Usual (if w ∈ params then _ else _)
    split
    · exact hm _ _ _ (by decide)
    · exact h
  | str q b => exact h
  | chr c => exact h
  | quote g w => exact hm _ _ _ (by decide)
  | paste g w => exact hm _ _ _ (by decide)

theorem body_code_usual {index : Nat} {params : List (List Nat)} {l : Body} (h : Usual (Body.raw l)) : Usual (Body.code index params l) := by
  induction l with
  | nil => intro c hc; cases hc
  | cons y l ih =>
    obtain ⟨g, x⟩ := y
    rw [Body.raw_cons] at h
    rw [Body.code_cons]
    intro c hc
    rw [List.mem_append, List.mem_append] at hc
    rcases hc with (hc | hc) | hc
    · split at hc
      · cases hc
      · rw [List.mem_singleton] at hc; subst hc; decide
    · exact code_usual (Usual.head (Usual.tail h)) c hc
    · exact ih (Usual.tail (Usual.tail h)) c hc

theorem word_head {w : List Nat} (hw : Word w) : ∃ c v, w = c :: v ∧ isLetter c = true := hw.1

theorem code_word_head {index : Nat} {params : List (List Nat)} {w : List Nat} (hw : Word w) : ∃ c v, (Tok.word w).code index params = c :: v ∧ isLetter c = true := by
  show ∃ c v, (if w ∈ params then _ else _) = c :: v ∧ _
  split
  · exact (argMask_word _ _).1
  · exact hw.1

/-- Behind an identifier of the kept body there is no character of an identifier. -/
theorem code_wordEnds {index : Nat} {params : List (List Nat)} {l : Body} {r : List Nat} (hrd : Body.Reads params l r) (hw : WordEnds (Body.raw l ++ r)) (ha : Apart true l) :
    WordEnds (Body.code index params l) := by
  cases l with
  | nil => intro c v h; cases h
  | cons y l =>
    obtain ⟨g, x⟩ := y
    obtain ⟨_, _, hf, _⟩ := hrd
    rw [Body.code_cons]
    by_cases hg : g = []
    · subst hg
      rw [if_pos (.inl rfl)]
      rw [Body.raw_cons] at hw
      cases x with
      | word w =>
        exfalso
        obtain ⟨c, v, rfl, hc⟩ := hf.1.1
        have := hw c (v ++ (Body.raw l ++ r)) (by simp [gaps, Tok.raw])
        rw [wordChar, hc] at this
        cases this
      | str q b => exact wordEnds_cons (by rcases hf.1 with rfl | rfl <;> decide)
      | chr c => exact wordEnds_cons (hw c (Body.raw l ++ r) (by simp [gaps, Tok.raw]))
      | quote g' w => exact absurd rfl (ha.1 rfl)
      | paste g' w => exact wordEnds_cons (by decide)
    · by_cases hj : x.joins = true
      · rw [if_pos (.inr hj)]
        cases x with
        | paste g' w => exact wordEnds_cons (by decide)
        | _ => cases hj
      · rw [if_neg (by simp [hg, hj])]
        exact wordEnds_cons (by decide)

/-- Behind a slash of the kept body no comment begins, and no end of line is behind anything. -/
theorem code_first {index : Nat} {params : List (List Nat)} {l : Body} {r : List Nat} (hrd : Body.Reads params l r) :
    (∀ v, Body.code index params l ≠ 10 :: v) ∧
    ((∀ v, Body.raw l ++ r ≠ 47 :: v ∧ Body.raw l ++ r ≠ 42 :: v) → ∀ v, Body.code index params l ≠ 47 :: v ∧ Body.code index params l ≠ 42 :: v) := by
  cases l with
  | nil => exact ⟨(by intro v h; cases h), fun _ v => ⟨(by intro h; cases h), (by intro h; cases h)⟩⟩
  | cons y l =>
    obtain ⟨g, x⟩ := y
    obtain ⟨_, _, hf, _⟩ := hrd
    rw [Body.code_cons]
    by_cases hs : g = [] ∨ x.joins = true
    · rw [if_pos hs, List.nil_append]
      cases x with
      | word w =>
        obtain ⟨c, v, hc, hl⟩ := code_word_head (index := index) (params := params) hf.1
        rw [hc]
        have hl' := letter_facts hl
        have h42 : c ≠ 42 := by rintro rfl; revert hl; decide
        refine ⟨?_, fun _ u => ⟨?_, ?_⟩⟩
        · intro u h; cases h; exact hl'.1 rfl
        · intro h; cases h; exact hl'.2.2.2.2.2.2.2.1 rfl
        · intro h; cases h; exact h42 rfl
      | str q b =>
        have := hf.1
        refine ⟨?_, fun _ u => ⟨?_, ?_⟩⟩
        · intro u h; cases h; omega
        · intro h; cases h; omega
        · intro h; cases h; omega
      | chr c =>
        rcases hs with rfl | hs
        · refine ⟨?_, fun hh u => ⟨?_, ?_⟩⟩
          · intro u h; cases h; exact hf.2.1 rfl
          · intro h; cases h; exact (hh (Body.raw l ++ r)).1 (by rw [Body.raw_cons]; simp [gaps, Tok.raw])
          · intro h; cases h; exact (hh (Body.raw l ++ r)).2 (by rw [Body.raw_cons]; simp [gaps, Tok.raw])
        · cases hs
      | quote g' w =>
        refine ⟨?_, fun _ u => ⟨?_, ?_⟩⟩
        · intro u h; cases h
        · intro h; cases h
        · intro h; cases h
      | paste g' w =>
        refine ⟨?_, fun _ u => ⟨?_, ?_⟩⟩
        · intro u h; cases h
        · intro h; cases h
        · intro h; cases h
    · rw [if_neg hs]
      refine ⟨?_, fun _ u => ⟨?_, ?_⟩⟩
      · intro u h; cases h
      · intro h; cases h
      · intro h; cases h

theorem apart_tail {was : Bool} {g : List Gap} {x : Tok} {l : Body} (h : Apart was ((g, x) :: l)) : Apart x.wordy l := by
  cases x with
  | quote g' w => exact h.2
  | _ => exact h

theorem apart_false {was : Bool} {l : Body} (h : Apart was l) : Apart false l := by
  cases l with
  | nil => trivial
  | cons y l =>
    obtain ⟨g, x⟩ := y
    cases x with
    | quote g' w => exact ⟨fun h => (by cases h), h.2⟩
    | _ => exact h

/-- The values of the arguments. -/
abbrev pairs (args : List (List Nat)) (expand : List Nat → List Nat) : List (List Nat × List Nat) := args.map fun a => (a, expand a)

theorem getD_of_lt {args : List (List Nat)} {i : Nat} (h : i < args.length) : args[i]? = some (args.getD i []) := by
  rw [List.getD_eq_getElem?_getD, List.getElem?_eq_getElem h]; rfl

/-- What `observeLoop` does to a name. -/
theorem lookup_tok {index : Nat} {params args : List (List Nat)} {expand : List Nat → List Nat} {x : Tok} {r : List Nat} (hn : params.length = args.length) (hx : x.wordy = true)
    (hf : x.Fits params r) (hfree : ∀ w, x = .word w → w ∉ params → Free index w) (hne : x.stands params args expand ≠ []) :
    Named (x.code index params) ∧ (match (valuesFrom index 0 (pairs args expand)).lookup (x.code index params) with
      | some [] => none
      | some y => some y
      | none => some (x.code index params)) = some (x.stands params args expand) := by
  have hlt : ∀ {w : List Nat}, w ∈ params → params.idxOf w < args.length := fun h => hn ▸ List.idxOf_lt_length_of_mem h
  cases x with
  | word w =>
    by_cases hm : w ∈ params
    · have h1 : (Tok.word w).code index params = argMask index (0 + params.idxOf w) := by simp [Tok.code, hm]
      have h2 : (Tok.word w).stands params args expand = expand (args.getD (params.idxOf w) []) := by simp [Tok.stands, hm]
      rw [h1, lookup_arg, List.getElem?_map, getD_of_lt (hlt hm)]
      refine ⟨Word.named (argMask_word _ _), ?_⟩
      rw [h2] at hne ⊢
      simp only [Option.map_some]
    · have h1 : (Tok.word w).code index params = w := by simp [Tok.code, hm]
      have h2 : (Tok.word w).stands params args expand = w := by simp [Tok.stands, hm]
      rw [h1, h2, lookup_free hf.1 (hfree w rfl hm)]
      exact ⟨Word.named hf.1, rfl⟩
  | quote g w =>
    have hm := hf.1
    have h1 : (Tok.quote g w).code index params = strMask index (0 + params.idxOf w) := by simp [Tok.code]
    rw [h1, lookup_str, List.getElem?_map, getD_of_lt (hlt hm)]
    refine ⟨Word.named (strMask_word _ _), ?_⟩
    simp only [Option.map_some, quoteLoop_escape]
    rfl
  | paste g w =>
    have hm := hf.1
    have h1 : (Tok.paste g w).code index params = tkpMask index (0 + params.idxOf w) := by simp [Tok.code]
    rw [h1, lookup_tkp, List.getElem?_map, getD_of_lt (hlt hm)]
    refine ⟨tkpMask_named _ _, ?_⟩
    have h2 : (Tok.paste g w).stands params args expand = args.getD (params.idxOf w) [] := rfl
    rw [h2] at hne ⊢
    simp only [Option.map_some]
  | str q b => cases hx
  | chr c => cases hx

set_option maxHeartbeats 1000000 in
/-- The loop of `parse_observation` over a kept body. -/
theorem observeLoop_spec {index : Nat} {params args : List (List Nat)} {expand : List Nat → List Nat} (hn : params.length = args.length) {v : List Nat} (hu : Usual v) {r : List Nat} :
    ∀ {l : Body} {was : Bool} {fuel p : Nat}, Body.Reads params l r → Apart was l → (∀ g w, (g, .word w) ∈ l → w ∉ params → Free index w) → l.Filled params args expand →
    v.drop p = Body.code index params l → p ≤ v.length → l.length + 1 ≤ fuel →
    observeLoop (valuesFrom index 0 (pairs args expand)) v fuel p = some (Body.rest params args expand l) := by
  intro l
  induction l with
  | nil =>
    intro was fuel p _ _ _ _ h hp hf
    cases fuel with
    | zero => omega
    | succ fuel =>
      have hun := until_gaps (t := v) (p := p) (l := []) (r := []) (by intro c v h; cases h) trivial (by simp) (by rw [h]; rfl) hp (usual_drop hu _)
      unfold observeLoop
      rw [hun]
      simp only
      rw [if_pos (show next [] = EOFc from rfl)]
      rfl
  | cons y l ih =>
    intro was fuel p hrd hap hfree hfill h hp hf
    obtain ⟨g, x⟩ := y
    cases fuel with
    | zero => omega
    | succ fuel =>
    obtain ⟨_, _, hx, hrd'⟩ := hrd
    rw [Body.code_cons] at h
    -- the blank in front
    obtain ⟨gs, hgs⟩ : ∃ gs : List Gap, gs = if g = [] ∨ x.joins = true then [] else [.blank 32] := ⟨_, rfl⟩
    have hgr : gaps gs = if g = [] ∨ x.joins = true then [] else [32] := by
      rw [hgs]; split <;> rfl
    have hgn : .nl ∉ gs := by rw [hgs]; split <;> simp
    have hgR : ∀ z, GapsRead gs z := by
      intro z; rw [hgs]; split
      · trivial
      · exact ⟨.inl rfl, trivial⟩
    have hge : ∀ p, putsOf (gapEvs gs p) = gaps gs := by
      intro p; rw [hgs]; split <;> rfl
    rw [← hgr, List.append_assoc] at h
    have hfree' : ∀ g w, (g, .word w) ∈ l → w ∉ params → Free index w := fun g w hm => hfree g w (List.mem_cons_of_mem _ hm)
    have hfill' : Body.Filled params args expand l := fun y hm => hfill y (List.mem_cons_of_mem _ hm)
    have hd := drop_add h
    have hd2 := drop_add hd
    have hlen := congrArg List.length h
    simp only [List.length_append, List.length_drop] at hlen
    have hrec := ih (fuel := fuel) hrd' (apart_tail hap) hfree' hfill' hd2 (by omega) (by simp at hf; omega)
    rw [Body.rest_cons, ← hgr]
    obtain ⟨hc1, hc2⟩ := code_first (index := index) hrd'
    by_cases hwy : x.wordy = true
    · obtain ⟨hnm, hlk⟩ := lookup_tok (index := index) (expand := expand) hn hwy hx (fun w he => hfree g w (by rw [he]; simp)) (hfill (g, x) (by simp))
      have hwe : WordEnds (Body.code index params l) := by
        refine code_wordEnds hrd' ?_ (by rw [← hwy]; exact apart_tail hap)
        cases x with
        | word w => exact hx.2
        | quote g' w => exact hx.2.1
        | paste g' w => exact hx.2.1
        | _ => cases hwy
      have hname := nameAt_spec hd hnm hwe
      obtain ⟨c, u, hcu, hc, _⟩ := hnm
      have hst : Stops (x.code index params ++ Body.code index params l) := by
        rw [hcu]
        rcases hc with hc | rfl
        · have := letter_facts hc
          exact stops_of this.2.1 this.2.2.1 this.2.2.2.2.2.2.2.1 this.2.2.2.2.2.2.1
        · exact stops_of (by decide) (by decide) (by decide) (by decide)
      have hun := until_gaps hst (hgR _) hgn h hp (usual_drop hu _)
      have hceof : c ≠ EOFc := by
        rcases hc with hc | rfl
        · exact (letter_facts hc).2.2.2.2.2.2.2.2.2.2
        · unfold EOFc; omega
      unfold observeLoop
      rw [hun]
      simp only
      rw [show next (x.code index params ++ Body.code index params l) = c by rw [hcu]; rfl, if_neg hceof, if_pos hc.symm, hname, hge]
      revert hlk
      cases (valuesFrom index 0 (pairs args expand)).lookup (x.code index params) with
      | none =>
        intro hlk
        simp only at hlk ⊢
        rw [hrec, Option.map_some, Option.some.inj hlk]
        simp
      | some z =>
        cases z with
        | nil => intro hlk; cases hlk
        | cons d z =>
          intro hlk
          simp only at hlk ⊢
          rw [hrec, Option.map_some, Option.some.inj hlk]
          simp
    · cases x with
      | word w => exact absurd rfl hwy
      | quote g' w => exact absurd rfl hwy
      | paste g' w => exact absurd rfl hwy
      | str q b =>
        obtain ⟨hq, hb⟩ := hx
        have hst : Stops ((Tok.str q b).code index params ++ Body.code index params l) :=
          stops_of (by rcases hq with rfl | rfl <;> decide) (by rcases hq with rfl | rfl <;> decide) (by rcases hq with rfl | rfl <;> decide)
            (by rcases hq with rfl | rfl <;> decide)
        have hun := until_gaps hst (hgR _) hgn h hp (usual_drop hu _)
        have hb1 : v.drop (p + (gaps gs).length) = q :: (b ++ q :: Body.code index params l) := by rw [hd]; simp [Tok.code]
        have hb2 := drop_succ hb1
        have h13 : 13 ∉ b := fun hm => (hu 13 (List.mem_of_mem_drop (by rw [hb2]; exact List.mem_append_left _ hm))).2 rfl
        have hqe : q ≠ EOFc := by rcases hq with rfl | rfl <;> (unfold EOFc; omega)
        have hq0 : q < 0x200000 := by omega
        unfold observeLoop
        rw [hun]
        simp only
        rw [show next ((Tok.str q b).code index params ++ Body.code index params l) = q from rfl, if_neg hqe,
          if_neg (by rcases hq with rfl | rfl <;> decide), if_pos hq.symm, scan_cons hb1]
        simp only
        rw [skipString_spec hq hb hb2 h13]
        simp only
        rw [show p + (gaps gs).length + 1 + b.length + 1 = p + (gaps gs).length + ((Tok.str q b).code index params).length by simp [Tok.code]; omega, hrec, Option.map_some, hge,
          putsOf_putc hq0]
        simp [putsOf, putsOf_str, Tok.stands]
      | chr c =>
        obtain ⟨k1, k2, k3, k4, k5, k6, k7, k8, k9⟩ := hx
        have hst : Stops ((Tok.chr c).code index params ++ Body.code index params l) := stops_of' k3 k4 (fun hc => hc2 (k9 hc)) (fun _ => hc1)
        have hun := until_gaps hst (hgR _) hgn h hp (usual_drop hu _)
        have hb1 : v.drop (p + (gaps gs).length) = c :: Body.code index params l := hd
        have hcu : c < 0x200000 := (hu c (List.mem_of_mem_drop (by rw [hb1]; simp))).1
        unfold observeLoop
        rw [hun]
        simp only
        rw [show next ((Tok.chr c).code index params ++ Body.code index params l) = c from rfl, if_neg (not_eof hcu),
          if_neg (by simp [k7, k1]), if_neg (by simp [k5, k6]), scan_cons hb1]
        simp only
        rw [show p + (gaps gs).length + 1 = p + (gaps gs).length + ((Tok.chr c).code index params).length from rfl, hrec, Option.map_some, hge, putsOf_putc hcu]
        simp [Tok.stands]

end RuC.Subst
