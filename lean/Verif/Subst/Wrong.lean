import Verif.Subst.Main

/-!
# Definitions that are refused and calls that are not read
-/

namespace RuC.Subst
open RuC RuC.Utf8 RuC.Io RuC.Locator RuC.Text

set_option maxHeartbeats 1000000 in
/-- What goes wrong behind good tokens makes the whole content wrong. -/
theorem contentLoop_error {t : List Nat} {index : Nat} {params : List (List Nat)} (hpar : ∀ w ∈ params, Word w) (hu : Usual t) {g : List Gap} {r : List Nat} {c : Nat} {u : List Nat}
    (hr : r = c :: u) (hst : Stops r) (hc10 : c ≠ 10) (hg : GapsRead g r) (hn : .nl ∉ g) {e : Err}
    (hbad : ∀ sp p, t.drop p = r → contentStep t index params sp c p = .error e) :
    ∀ {l : Body} {fuel p : Nat}, Body.Reads params l (gaps g ++ r) → t.drop p = Body.raw l ++ (gaps g ++ r) → l.length + 1 ≤ fuel →
    contentLoop t index params fuel p (until' t p).2.1 (until' t p).2.2 = .error e := by
  intro l
  induction l with
  | nil =>
    intro fuel p _ h hf
    cases fuel with
    | zero => omega
    | succ fuel =>
      have h' : t.drop p = gaps g ++ r := by rw [h]; rfl
      have hp : p ≤ t.length := le_len (r := []) (x := gaps g ++ r) (by rw [h', List.append_nil]) (by rw [hr]; simp)
      have hd := drop_add h'
      have hcu : c < 0x200000 := (hu c (List.mem_of_mem_drop (by rw [hd, hr]; simp))).1
      rw [until_gaps hst hg hn h' hp (usual_drop hu p)]
      unfold contentLoop
      rw [show next r = c by rw [hr]; rfl, if_neg (by have := not_eof hcu; simp [hc10, this]), hbad _ _ hd]
  | cons y l ih =>
    intro fuel p hrd h hf
    obtain ⟨g', x⟩ := y
    obtain ⟨h1, h2, h3, h4⟩ := hrd
    cases fuel with
    | zero => omega
    | succ fuel =>
      have h' : t.drop p = gaps g' ++ (x.raw ++ (Body.raw l ++ (gaps g ++ r))) := by rw [h, Body.raw_cons]; simp
      have hp : p ≤ t.length := le_len (r := []) (x := gaps g' ++ (x.raw ++ (Body.raw l ++ (gaps g ++ r)))) (by rw [h', List.append_nil]) (by rw [hr]; simp)
      obtain ⟨c', v, hc, hc10', hst'⟩ := tok_head h3
      have hd := drop_add h'
      have hcu : c' < 0x200000 := (hu c' (List.mem_of_mem_drop (by rw [hd, hc]; simp))).1
      rw [until_gaps hst' h1 h2 h' hp (usual_drop hu p)]
      rw [show next (x.raw ++ (Body.raw l ++ (gaps g ++ r))) = c' by rw [hc]; rfl]
      have hstep := contentStep_tok (index := index) (if p + (gaps g').length ≠ p then [32] else []) hpar hu h3 hd hc
      unfold contentLoop
      simp only
      rw [if_neg (by have := not_eof hcu; simp [hc10', this]), hstep]
      simp only
      rw [ih h4 (drop_add hd) (by simp at hf; omega)]

theorem solid_stops' {r : List Nat} (h : Solid r) : Stops r := h

theorem nameAt_split (t : List Nat) (p : Nat) : ∃ v, t.drop p = nameAt t p ++ v ∧ (nameAt t p ≠ [] → WordEnds v) := by
  unfold nameAt
  split
  · rename_i h; exact ⟨[], by rw [h]; rfl, by intro h; exact absurd rfl h⟩
  · rename_i c r h
    split
    · refine ⟨r.dropWhile wordChar, ?_, ?_⟩
      · rw [h, List.cons_append]
        show _ = c :: (r.takeWhile wordChar ++ r.dropWhile wordChar)
        rw [List.takeWhile_append_dropWhile]
      · intro _ d v he
        have := List.head?_dropWhile_not wordChar r
        rw [he] at this
        simpa using this
    · exact ⟨c :: r, by rw [h]; rfl, by intro h; exact absurd rfl h⟩

theorem not_follows {params : List (List Nat)} {t r : List Nat} {p : Nat} (hpar : ∀ w ∈ params, w ≠ []) (h : t.drop p = r) (hn : ¬ Follows params r) : nameAt t p ∉ params := by
  intro hm
  obtain ⟨v, h1, h2⟩ := nameAt_split t p
  exact hn ⟨_, v, hm, by rw [← h, h1], h2 (hpar _ hm)⟩

theorem Word.ne {w : List Nat} (h : Word w) : w ≠ [] := by
  obtain ⟨⟨c, v, rfl, _⟩, _⟩ := h
  simp

/-- What may not be in a body stops reading. -/
theorem contentStep_wrong {t : List Nat} {index : Nat} {params : List (List Nat)} (hpar : ∀ w ∈ params, Word w) (hu : Usual t) {e : Err} {r : List Nat} (hw : Wrong params e r)
    (sp : List Nat) (p : Nat) (h : t.drop p = r) : contentStep t index params sp 35 p = .error e := by
  have hpar' : ∀ w ∈ params, w ≠ [] := fun w hm => Word.ne (hpar w hm)
  unfold contentStep
  rw [if_pos rfl]
  unfold parseOperator
  cases hw with
  | edge hr hg hn =>
    rename_i g r
    have h2 := drop_succ h
    have h3 := drop_succ h2
    have hl := congrArg List.length h3
    have hlt : p + 2 ≤ t.length := le_of_drop h2
    simp only [scan_cons h, scan_cons h2]
    rw [if_pos True.intro, until_gaps (tail_stops hr) hg hn h3 hlt (usual_drop hu _)]
    simp only
    rw [if_pos]
    rcases hr with rfl | ⟨v, rfl⟩
    · exact .inr rfl
    · exact .inl rfl
  | paste hne h10 hs hf hg hn =>
    rename_i g r
    have h2 := drop_succ h
    have h3 := drop_succ h2
    have hlt : p + 2 ≤ t.length := le_of_drop h2
    simp only [scan_cons h, scan_cons h2]
    rw [if_pos True.intro, until_gaps (solid_stops' hs) hg hn h3 hlt (usual_drop hu _)]
    simp only
    have hd := drop_add h3
    rw [if_neg, numberOf_not (not_follows hpar' hd hf)]
    cases r with
    | nil => exact absurd rfl hne
    | cons c v =>
      have hcu : c < 0x200000 := (hu c (List.mem_of_mem_drop (by rw [hd]; simp))).1
      have := not_eof hcu
      have h10' : c ≠ 10 := by rintro rfl; exact h10 v rfl
      rw [next_cons]
      simp [this, h10']
  | quote h35 hs hf hev hg hn =>
    rename_i g r
    have h2 := drop_succ h
    have hlt : p + 1 ≤ t.length := le_of_drop h
    have hpos : ∃ a, scan t (p + 1) = a ∧ a.1 ≠ 35 ∧ Text.unscan a.1 a.2 = p + 1 := by
      cases hx : gaps g ++ r with
      | nil =>
        rw [hx] at h2
        refine ⟨_, scan_nil h2, ?_, ?_⟩
        · show EOFc ≠ 35; unfold EOFc; omega
        · simp [Text.unscan]
      | cons c v =>
        rw [hx] at h2
        have hcu : c < 0x200000 := (hu c (List.mem_of_mem_drop (by rw [h2]; simp))).1
        refine ⟨_, scan_cons h2, ?_, unscan_char (not_eof hcu)⟩
        rintro rfl
        exact h35 v hx
    obtain ⟨a, ha, ha1, ha2⟩ := hpos
    have hd := drop_add h2
    simp only [scan_cons h, ha]
    rw [if_neg ha1, ha2, until_gaps (solid_stops' hs) hg hn h2 hlt (usual_drop hu _)]
    simp only
    rw [numberOf_not (not_follows hpar' hd hf)]
    simp only
    rw [if_neg]
    intro he
    exact not_follows (params := [[101, 118, 97, 108]]) (by simp) hd hev (by rw [he]; simp)

/-- How the content begins. -/
theorem parseContext_start {t : List Nat} {index : Nat} {params : List (List Nat)} {p q : Nat} (ha : parseArgs t p = .ok (params, q)) (hu : Usual t) {g : List Gap} {c : Nat} {u : List Nat}
    (h : t.drop q = gaps g ++ c :: u) (hst : Stops (c :: u)) (hg : GapsRead g (c :: u)) (hn : .nl ∉ g) :
    parseContext t index p = if c = 35 ∧ u.head? = some 35 then .error .hashOnEdge else
      match contentLoop t index params (t.length + 2) (q + (gaps g).length) (until' t (q + (gaps g).length)).2.1 (until' t (q + (gaps g).length)).2.2 with
      | .error e => .error e
      | .ok v => .ok (params.length, v) := by
  have hp : q ≤ t.length := le_len (r := []) (x := gaps g ++ c :: u) (by rw [h, List.append_nil]) (by simp)
  have hd := drop_add h
  have hd2 := drop_succ hd
  have hp' : q + (gaps g).length ≤ t.length := Nat.le_of_lt (le_of_drop hd)
  have hun2 := until_gaps (l := []) hst trivial (by simp) (show t.drop (q + (gaps g).length) = gaps [] ++ _ by rw [hd]; rfl) hp' (usual_drop hu _)
  unfold parseContext
  rw [ha]
  simp only
  rw [until_gaps hst hg hn h hp (usual_drop hu _)]
  simp only
  rw [next_cons]
  have hhead : (scan t (scan t (q + (gaps g).length)).2).1 = 35 ↔ u.head? = some 35 := by
    rw [scan_cons hd]
    simp only
    cases u with
    | nil => rw [scan_nil hd2]; simp [EOFc]
    | cons d u => rw [scan_cons hd2]; simp
  have hpos : (if c = 35 then Text.unscan 35 (Text.unscan (scan t (scan t (q + (gaps g).length)).2).1 (scan t (scan t (q + (gaps g).length)).2).2) else q + (gaps g).length) =
      q + (gaps g).length := by
    split
    · rw [scan_cons hd]
      simp only
      cases u with
      | nil =>
        rw [scan_nil hd2]
        simp only [Text.unscan, if_true]
        rw [if_neg (by unfold EOFc; omega)]
        omega
      | cons d u =>
        rw [scan_cons hd2]
        have : d < 0x200000 := (hu d (List.mem_of_mem_drop (by rw [hd2]; simp))).1
        simp only
        rw [unscan_char (not_eof this), unscan_char (by unfold EOFc; omega)]
    · rfl
  rw [hpos]
  unfold parseContent
  rw [hun2]
  simp only [next_cons, gaps, List.flatMap_nil, List.length_nil, Nat.add_zero]
  by_cases hcc : c = 35 ∧ u.head? = some 35
  · rw [if_pos hcc, if_pos ⟨hcc.1, hhead.mpr hcc.2⟩]
  · rw [if_neg hcc, if_neg (fun hh => hcc ⟨hh.1, hhead.mp hh.2⟩)]
    rfl

theorem body_length {params : List (List Nat)} {r : List Nat} : ∀ {l : Body}, Body.Reads params l r → l.length ≤ (Body.raw l).length := by
  intro l
  induction l with
  | nil => intro _; simp
  | cons y l ih =>
    intro hr
    obtain ⟨g, x⟩ := y
    have h1 := ih hr.2.2.2
    obtain ⟨c, v, hc, _⟩ := tok_head hr.2.2.1
    rw [Body.raw_cons, hc]
    simp
    omega

theorem wrong_head {params : List (List Nat)} {e : Err} {r : List Nat} (h : Wrong params e r) : ∃ u, r = 35 :: u := by
  cases h with
  | edge => exact ⟨_, rfl⟩
  | paste => exact ⟨_, rfl⟩
  | quote => exact ⟨_, rfl⟩

theorem Body.begins_head {params : List (List Nat)} {g : List Gap} {x : Tok} {l : Body} {r : List Nat} (hpar : ∀ w ∈ params, Word w) (hb : Body.begins ((g, x) :: l) = true)
    (hf : x.Fits params r) : ∃ c v, x.raw = c :: v ∧ ¬ (c = 35 ∧ (v ++ r).head? = some 35) := by
  cases x with
  | word w =>
    obtain ⟨⟨⟨c, v, rfl, hl⟩, _⟩, _⟩ := hf
    exact ⟨c, v, rfl, fun h => (letter_facts hl).2.2.2.2.2.1 h.1⟩
  | str q b => exact ⟨q, b ++ [q], rfl, fun h => by have := hf.1; omega⟩
  | chr c => exact ⟨c, [], rfl, fun h => hf.2.2.2.2.2.2.1 h.1⟩
  | quote g' w =>
    refine ⟨35, gaps g' ++ w, rfl, ?_⟩
    rintro ⟨_, hh⟩
    obtain ⟨hm, hwe, hg, hnl⟩ := hf
    obtain ⟨⟨d, v', rfl, hl⟩, _⟩ := hpar w hm
    cases g' with
    | nil =>
      simp [gaps] at hh
      subst hh
      revert hl; decide
    | cons y g' =>
      have hy := hg.1
      rw [gaps_cons] at hh
      cases y with
      | blank b => simp [Gap.raw] at hh; subst hh; revert hy; show (35 = 32 ∨ 35 = 9) → False; omega
      | _ => simp [Gap.raw] at hh
  | paste g' w => cases hb

/-- A definition with something wrong behind good tokens. -/
theorem parseContext_wrong {t : List Nat} {index : Nat} {params : List (List Nat)} {p q : Nat} (ha : parseArgs t p = .ok (params, q)) (hpar : ∀ w ∈ params, Word w) (hu : Usual t)
    {l : Body} {g : List Gap} {r : List Nat} {e : Err} (hl : l ≠ []) (hb : l.begins = true) (hw : Wrong params e r) (hg : GapsRead g r) (hn : .nl ∉ g)
    (hrd : l.Reads params (gaps g ++ r)) (h : t.drop q = l.raw ++ (gaps g ++ r)) : parseContext t index p = .error e := by
  obtain ⟨u, hr⟩ := wrong_head hw
  cases l with
  | nil => exact absurd rfl hl
  | cons y l =>
    obtain ⟨g', x⟩ := y
    obtain ⟨c, v, hc, hno⟩ := Body.begins_head hpar hb hrd.2.2.1
    obtain ⟨c', v', hc', _, hst⟩ := tok_head hrd.2.2.1
    rw [hc] at hc'
    cases hc'
    have h' : t.drop q = gaps g' ++ c :: (v ++ (Body.raw l ++ (gaps g ++ r))) := by rw [h, Body.raw_cons, hc]; simp
    have hd := drop_add h'
    have hrd' : Body.Reads params (([], x) :: l) (gaps g ++ r) := ⟨trivial, by simp, hrd.2.2⟩
    have hst' : Stops (c :: (v ++ (Body.raw l ++ (gaps g ++ r)))) := by rw [hc] at hst; exact hst
    have h1 := hrd.1
    rw [hc] at h1
    rw [parseContext_start ha hu h' hst' h1 hrd.2.1, if_neg hno]
    have hlen := body_length hrd'
    have hll := congrArg List.length h'
    rw [Body.raw_cons, hc] at hlen
    simp only [List.length_append, List.length_drop, List.length_cons, show (gaps []).length = 0 from rfl] at hll hlen
    rw [contentLoop_error (l := ([], x) :: l) hpar hu hr (by rw [hr]; exact stops_of (by decide) (by decide) (by decide) (by decide)) (by decide) hg hn
      (fun sp p hp => contentStep_wrong hpar hu hw sp p hp) hrd' (by rw [hd, Body.raw_cons, hc]; simp [gaps]) (by simp only [List.length_cons]; omega)]

/-! ## Parameters -/

theorem argsLoop_twice {t : List Nat} (hu : Usual t) {r w : List Nat} {a : List Gap} (hw : Word w) (ha : GapsRead a (w ++ r)) (hna : .nl ∉ a) (hr : WordEnds r) :
    ∀ {l : Params} {names : List (List Nat)} {fuel p : Nat}, l ≠ [] → Params.Reads l (44 :: (gaps a ++ (w ++ r))) → t.drop p = Params.raw l ++ 44 :: (gaps a ++ (w ++ r)) →
    (names ++ l.names).Nodup → w ∈ names ++ l.names → l.length + 1 ≤ fuel →
    argsLoop t fuel names (until' t p).2.1 (until' t p).2.2 = .error .duplicate := by
  intro l
  induction l with
  | nil => intro names fuel p h; exact absurd rfl h
  | cons y l ih =>
    intro names fuel p _ hrd h hnd hmem hf
    obtain ⟨a', w', b⟩ := y
    cases fuel with
    | zero => omega
    | succ fuel =>
    obtain ⟨z, hz, hz'⟩ := Params.raw_cons a' b w' l
    obtain ⟨hw', ha', hb, hl1, hl2⟩ := Params.reads_cons hrd
    have h' : t.drop p = gaps a' ++ (w' ++ (gaps b ++ (z ++ 44 :: (gaps a ++ (w ++ r))))) := by rw [h, hz]; simp
    have hga : GapsRead a' (w' ++ (gaps b ++ (z ++ 44 :: (gaps a ++ (w ++ r))))) := by
      rcases hz' with ⟨e1, rfl⟩ | ⟨e1, rfl⟩
      · exact (hl1 e1).1
      · simpa using (hl2 e1).1
    have hgb : GapsRead b (z ++ 44 :: (gaps a ++ (w ++ r))) := by
      rcases hz' with ⟨e1, rfl⟩ | ⟨e1, rfl⟩
      · exact (hl1 e1).2
      · simpa using (hl2 e1).2.1
    have hzz : ∃ y, z ++ 44 :: (gaps a ++ (w ++ r)) = 44 :: y := by
      rcases hz' with ⟨e1, rfl⟩ | ⟨e1, rfl⟩
      · exact ⟨_, rfl⟩
      · exact ⟨_, rfl⟩
    obtain ⟨y, hy⟩ := hzz
    have hze : WordEnds (z ++ 44 :: (gaps a ++ (w ++ r))) := by rw [hy]; exact wordEnds_cons (by decide)
    have hzs : Stops (z ++ 44 :: (gaps a ++ (w ++ r))) := by rw [hy]; exact stops_of (by decide) (by decide) (by decide) (by decide)
    obtain ⟨e, c, hun, hc, hname⟩ := until_name hw' h' hga ha' (gaps_wordEnds hgb hze) hu
    rw [hun]
    simp only
    obtain ⟨k1, _, _, _, _, _, _, _, _, k2, k3⟩ := letter_facts hc
    unfold argsLoop
    rw [if_neg k2, if_neg (by simp [k1, k3]), if_neg (by simp [hc])]
    simp only [hname]
    have hfresh : w' ∉ names := by
      intro hm
      have := (List.nodup_append.mp hnd).2.2 w' hm w' (by simp [Params.names])
      exact this rfl
    rw [if_neg hfresh]
    have hd := drop_add h'
    have hd2 := drop_add hd
    have hd3 := drop_add hd2
    have hlen : t.length = p + (gaps a').length + w'.length + (gaps b).length + (z ++ 44 :: (gaps a ++ (w ++ r))).length := by
      have := congrArg List.length h'
      rw [hy] at this ⊢
      simp only [List.length_append, List.length_drop, List.length_cons] at this ⊢
      omega
    rw [until_gaps hzs hgb hb hd2 (by omega) (usual_drop hu _)]
    simp only
    rw [show next (z ++ 44 :: (gaps a ++ (w ++ r))) = 44 by rw [hy]; rfl, if_pos rfl, scan_cons (by rw [hd3, hy])]
    simp only
    rcases hz' with ⟨e1, rfl⟩ | ⟨e1, rfl⟩
    · subst e1
      have hd4 : t.drop (p + (gaps a').length + w'.length + (gaps b).length + 1) = gaps a ++ (w ++ r) := drop_succ (by rw [hd3]; rfl)
      obtain ⟨e', c', hun', hc', hname'⟩ := until_name hw hd4 ha hna hr hu
      obtain ⟨m1, _, _, _, _, _, _, _, _, m2, m3⟩ := letter_facts hc'
      rw [hun']
      simp only
      cases fuel with
      | zero => simp at hf
      | succ fuel =>
        unfold argsLoop
        rw [if_neg m2, if_neg (by simp [m1, m3]), if_neg (by simp [hc'])]
        simp only [hname']
        rw [if_pos (by simpa [Params.names] using hmem)]
    · have hd4 : t.drop (p + (gaps a').length + w'.length + (gaps b).length + 1) = Params.raw l ++ 44 :: (gaps a ++ (w ++ r)) := drop_succ (by rw [hd3]; rfl)
      exact ih e1 (hl2 e1).2.2 hd4 (by simpa [Params.names] using hnd) (by simpa [Params.names] using hmem) (by simp at hf; omega)

theorem params_length {r : List Nat} : ∀ {l : Params}, l.length ≤ (Params.raw l).length + 1 := by
  intro l
  induction l with
  | nil => simp
  | cons y l ih =>
    obtain ⟨a, w, b⟩ := y
    obtain ⟨z, hz, hz'⟩ := Params.raw_cons a b w l
    rw [hz]
    rcases hz' with ⟨rfl, rfl⟩ | ⟨_, rfl⟩
    · simp
    · simp only [List.length_append, List.length_cons]
      omega

/-! ## Brackets that are not closed -/

/-- At the end of the text with an open bracket the loop goes on and on. -/
theorem argLoop_forever {t : List Nat} {p : Nat} (h : t.drop p = []) : ∀ (fuel d : Nat) (ok : Bool), d ≠ 0 → argLoop t fuel d ok p EOFc p = none := by
  intro fuel
  induction fuel with
  | zero => intro d ok _; rfl
  | succ fuel ih =>
    intro d ok hd
    have hli : lines' t p = ([], EOFc, p) := by
      unfold lines'
      cases hn : t.length + 1 - p with
      | zero => rfl
      | succ n =>
        unfold skipLines
        have hun : until' t p = ([], EOFc, p) := by
          unfold until'
          rw [hn]
          unfold skipUntil
          rw [scan_nil h]
          simp only
          rw [if_neg (by unfold EOFc; omega), if_neg (by unfold EOFc; omega), if_neg (by unfold EOFc; omega), if_neg (by unfold EOFc; omega)]
          simp [Text.unscan]
        rw [hun]
        simp only
        rw [if_neg (by unfold EOFc; omega)]
        rfl
    unfold argLoop
    rw [if_pos (.inl hd), scan_nil h]
    simp only
    have n1 : ¬ (EOFc = 39 ∨ EOFc = 34) := by unfold EOFc; omega
    have n2 : EOFc ≠ 40 := by unfold EOFc; omega
    have n3 : EOFc ≠ 41 := by unfold EOFc; omega
    rw [if_neg n1]
    simp only
    rw [if_neg n2, if_neg n3, hli]
    simp only
    rw [ih d _ hd, Option.map_none]

end RuC.Subst
