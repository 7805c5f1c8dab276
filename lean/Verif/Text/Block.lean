import Verif.Text.Lines

/-!
# Lemmas about the text between the directives: lines
-/

namespace RuC.Text
open RuC RuC.Utf8 RuC.Io RuC.Locator

theorem raws_length {l : List Piece} (h : Reads l) : l.length ≤ (raws l).length := by
  induction l with
  | nil => simp
  | cons s l ih =>
    have h1 := ih h.2
    have h2 : 0 < s.raw.length := by
      cases hs : s.solid
      · cases s with
        | gap g => exact List.length_pos_iff.2 g.raw_ne
        | _ => cases hs
      · obtain ⟨c, v, hh, _⟩ := solid_head hs h.1
        rw [hh]
        simp
    rw [raws_cons, List.length_append, List.length_cons]
    omega

theorem tailOf_length (ls : List (List Piece)) : ls.length ≤ (tailOf ls).length := by
  induction ls with
  | nil => simp
  | cons l ls ih =>
    rw [tailOf_cons, textOf_cons]
    simp
    omega

theorem empty_gaps (gs : List Gap) : empty (gs.map Piece.gap) = true := by
  simp [empty, Piece.solid]

theorem empty_solid {gs : List Gap} {s : Piece} {z : List Piece} (hs : s.solid = true) : empty (gs.map Piece.gap ++ s :: z) = false := by
  simp only [empty, List.all_append, List.all_cons, hs]
  simp

/-- How `parse_hash` ends: at the end of the text behind empty lines, or at the first piece of a line that is not empty. -/
inductive Hashed (x : Ctx) (mk : Marks) (val : List Nat → List Nat) (req : Bool) (p0 p : Nat) (o : List Nat) (ls : List (List Piece)) (res : Option (List Ev × Nat × Nat)) : Prop
  | «end» {e : List Ev} : ls.all empty = true → res = some (e, EOFc, x.text.length) → Flow mk x.text p0 e x.text.length [] → Hashed x mk val req p0 p o ls res
  | line {es : List (List Piece)} {gs : List Gap} {s : Piece} {z : List Piece} {after : List (List Piece)} {e : List Ev} {c q : Nat} {O : List Nat} :
    ls.all empty = false → ls = es ++ (gs.map Piece.gap ++ s :: z) :: after → s.solid = true → res = some (e, c, q) → c ≠ 35 → x.text.drop q = textOf ((s :: z) :: after) →
    q ≤ x.text.length → Usual (x.text.drop q) → Flow mk x.text p0 e q O →
    (if req = true then [] else o) ++ linesOut x.file mk val p req ls = O ++ lineOut x.file mk val q false (s :: z) ++ (if after ≠ [] ∨ x.file = true then [10] else []) ++
      linesOut x.file mk val (q + (raws (s :: z)).length + 1) (lineEnd x.file false (s :: z)) after →
    Hashed x mk val req p0 p o ls res

theorem hashLoop_lines {x : Ctx} {mk : Marks} {val : List Nat → List Nat} {req : Bool} : ∀ {ls : List (List Piece)} {n p0 p : Nat} {e : List Ev} {o : List Nat}, ls ≠ [] →
    (∀ l ∈ ls, Reads l) → x.text.drop p = textOf ls → p ≤ x.text.length → Usual (x.text.drop p) → ls.length ≤ n → Flow mk x.text p0 e p o →
    Hashed x mk val req p0 p o ls (hashLoop x req n e p) := by
  intro ls
  induction ls with
  | nil => intro _ _ _ _ _ h; exact absurd rfl h
  | cons l ls ih =>
    intro n p0 p e o _ hr h hp hu hn hf
    obtain ⟨n, rfl⟩ : ∃ m, n = m + 1 := ⟨n - 1, by simp at hn; omega⟩
    obtain ⟨e1, o1, he1, ho1, f1⟩ : ∃ e1 o1, e1 = (if req = true then mute e ++ [.mark p] else e) ∧ o1 = (if req = true then mk.usual p else o) ∧ Flow mk x.text p0 e1 p o1 := by
      cases req
      · exact ⟨_, _, rfl, rfl, hf⟩
      · refine ⟨_, _, rfl, rfl, ?_⟩
        have := Flow.append hf.mute (.mark hp .nil)
        simpa using this
    rw [hashLoop]
    dsimp only
    rw [← he1]
    obtain ⟨gs, z, rfl, hz⟩ := split_gaps l
    have ht := tail_tailOf ls
    obtain ⟨h1, h2, h3⟩ := reads_gaps (hr (gs.map Piece.gap ++ z) (by simp)) ht
    have hd : x.text.drop p = gaps gs ++ (raws z ++ tailOf ls) := by rw [h, textOf_cons, raws_gaps, List.append_assoc]
    have hd2 := drop_add hd
    have hp2 : p + (gaps gs).length ≤ x.text.length := by
      have := drop_length hd
      rw [List.length_append] at this
      omega
    have hu2 : Usual (x.text.drop (p + (gaps gs).length)) := by
      rw [hd2]
      rw [hd] at hu
      exact hu.tail
    have fg := flow_gaps (mk := mk) h1 hd
    rcases hz with rfl | ⟨s, z', rfl, hs⟩
    · have hun := until_gaps (r := tailOf ls) (tail_stops ht) h1 h2 hd hp hu
      have hemp : empty (gs.map Piece.gap ++ []) = true := by rw [List.append_nil]; exact empty_gaps gs
      rw [hun]
      dsimp only
      cases ls with
      | nil =>
        have hlen : p + (gaps gs).length = x.text.length := by
          have := drop_length hd2
          simp [tailOf, raws] at this
          omega
        refine .end (e := mute (e1 ++ gapEvs gs p)) (by simpa using hemp) ?_ ?_
        · rw [if_pos (by simp [next, tailOf, EOFc])]
          simp [next, tailOf, hlen]
        · have := (Flow.append f1 fg).mute
          rw [hlen] at this
          exact this
      | cons l2 ls =>
        have hd3 : x.text.drop (p + (gaps gs).length) = 10 :: textOf (l2 :: ls) := by rw [hd2, tailOf_cons]; rfl
        rw [if_neg (by simp [tailOf_cons, next]), scan_cons hd3]
        dsimp only
        have f2 : Flow mk x.text p0 (e1 ++ gapEvs gs p ++ putc 10 ++ [.newline (p + (gaps gs).length + 1)]) (p + (gaps gs).length + 1) (o1 ++ gapsOut gs ++ [10]) := by
          have h3 : Flow mk x.text (p + (gaps gs).length) [.put 10, .newline (p + (gaps gs).length + 1)] (p + (gaps gs).length + 1) [10] := .put (.newline hd3 .nil)
          have := Flow.append (Flow.append f1 fg) h3
          simpa [putc_char] using this
        have hg := drop_succ hd3
        have := ih (n := n) (p0 := p0) (p := p + (gaps gs).length + 1) (by simp) (fun l hl => hr l (List.mem_cons_of_mem _ hl)) hg (le_of_drop hd3)
          (by rw [hg]; rw [hd3] at hu2; exact Usual.tail (a := [10]) hu2) (by simp at hn ⊢; omega) f2
        rcases this with ⟨ha, hres, fl⟩ | ⟨ha, hls, hs, hres, h35, hdr, hq, hu3, fl, hout⟩
        · refine .end ?_ hres fl
          rw [List.all_cons, ha, hemp]
          rfl
        · rename_i es gs' s' z' after e' c q O
          have hall : ((gs.map Piece.gap ++ []) :: l2 :: ls).all empty = false := by rw [List.all_cons, ha, Bool.and_false]
          refine .line (es := (gs.map Piece.gap ++ []) :: es) hall (by rw [hls]; rfl) hs hres h35 hdr hq hu3 fl ?_
          have hlo : linesOut x.file mk val p req ((gs.map Piece.gap ++ []) :: l2 :: ls) = (if req = true then [] else gapsOut gs ++ [10]) ++
              linesOut x.file mk val (p + (gaps gs).length + 1) req (l2 :: ls) := by
            rw [linesOut, if_neg (by rw [hall]; simp), raws_gaps, lineEnd_gaps, lineOut_gaps h2]
            cases req
            · rw [if_neg (by simp)]
              simp [lineOut, lineEnd, raws]
            · rw [if_pos ⟨rfl, hemp⟩]
              simp [raws]
          rw [← hout, hlo, ho1]
          cases req <;> simp
    · have hf' : s.Fits (raws z' ++ tailOf ls) := h3.1.ext ht
      have hst := solid_stops hs hf'
      have e2 : raws (s :: z') ++ tailOf ls = s.raw ++ (raws z' ++ tailOf ls) := by rw [raws_cons, List.append_assoc]
      have hun := until_gaps (r := raws (s :: z') ++ tailOf ls) (by rw [e2]; exact hst.1) h1 h2 hd hp hu
      obtain ⟨c, v, hraw, hc10, _, _, hc35, _⟩ := solid_head hs hf'
      have hnx : next (raws (s :: z') ++ tailOf ls) = c := by rw [e2, hraw]; rfl
      have hcE : c ≠ EOFc := by
        rw [hd2, e2, hraw] at hu2
        exact not_eof (hu2 c (by simp)).1
      rw [hun, hnx]
      dsimp only
      rw [if_pos hc10, if_neg hcE]
      have hemp : empty (gs.map Piece.gap ++ s :: z') = false := empty_solid hs
      have hall : ((gs.map Piece.gap ++ s :: z') :: ls).all empty = false := by rw [List.all_cons, hemp, Bool.false_and]
      refine .line (es := []) hall rfl hs rfl hc35 hd2 hp2 hu2 (Flow.append f1 fg) ?_
      have hno : ¬ (req = true ∧ empty (gs.map Piece.gap ++ s :: z') = true) := by rw [hemp]; simp
      have hlo : linesOut x.file mk val p req ((gs.map Piece.gap ++ s :: z') :: ls) = (if req = true then mk.usual p else []) ++ (gapsOut gs ++
          lineOut x.file mk val (p + (gaps gs).length) false (s :: z')) ++ (if ls ≠ [] ∨ x.file = true then [10] else []) ++
          linesOut x.file mk val (p + (gaps gs).length + (raws (s :: z')).length + 1) (lineEnd x.file false (s :: z')) ls := by
        rw [linesOut, if_neg (by rw [hall]; simp), if_neg hno, lineOut_gaps h2, lineEnd_gaps, raws_gaps, List.length_append, ← Nat.add_assoc p (gaps gs).length]
      rw [hlo, ho1]
      cases req <;> simp

theorem parseUntil_line {x : Ctx} {mk : Marks} {val : List Nat → List Nat} {s : Piece} {z : List Piece} {after : List (List Piece)} {q : Nat} (hra : ∀ l ∈ after, Reads l)
    (hs : s.solid = true) (hr : Reads (s :: z)) (hk : Knows x val (s :: z)) (hb : BareLine (s :: z) after) (h : x.text.drop q = textOf ((s :: z) :: after)) (hq : q ≤ x.text.length)
    (hu : Usual (x.text.drop q)) :
    ∃ e, parseUntil x q false = some (e, next (tailOf after), q + (raws (s :: z)).length + over after, lineEnd x.file false (s :: z)) ∧
      Flow mk x.text q e (q + (raws (s :: z)).length + over after) (lineOut x.file mk val q false (s :: z) ++ (if after ≠ [] ∨ x.file = true then [10] else [])) := by
  have hlen : (s :: z).length + 1 ≤ x.text.length + 2 := by
    have h1 := raws_length hr
    have h2 := drop_length h
    rw [textOf_cons, List.length_append] at h2
    omega
  obtain ⟨e, h1, h2⟩ := untilLoop_line (mk := mk) hra (Nat.le_refl _) hr hk hb h hq hu hlen (.inl rfl)
  unfold parseUntil
  rw [h1, Option.map_some]
  dsimp only
  rw [Bool.false_or]
  cases after with
  | nil =>
    rw [if_neg (by simp [next, tailOf])]
    have hpos : 0 < (raws (s :: z)).length := by
      have := raws_length hr
      simp only [List.length_cons] at this
      omega
    cases hfile : x.file
    · rw [hfile] at h2
      refine ⟨e, by simp, ?_⟩
      simpa [over, overOut] using h2
    · rw [hfile] at h2
      refine ⟨e ++ [.put 10], by rw [if_pos ⟨rfl, by omega⟩], ?_⟩
      have := Flow.append h2 (.put (c := 10) .nil)
      simpa [over, overOut] using this
  | cons a after =>
    rw [if_pos (by simp [tailOf_cons, next, EOFc])]
    refine ⟨_, rfl, ?_⟩
    have hd : x.text.drop (q + (raws (s :: z)).length) = 10 :: textOf (a :: after) := by
      rw [textOf_cons, tailOf_cons] at h
      exact drop_add h
    have := Flow.append h2 (.newline hd .nil)
    simpa [over, overOut] using this

theorem blockLoop_lines {x : Ctx} {mk : Marks} {val : List Nat → List Nat} : ∀ {k : Nat} {ls : List (List Piece)} {n p : Nat} {req : Bool}, ls.length ≤ k → ls ≠ [] →
    (∀ l ∈ ls, Reads l) → (∀ l ∈ ls, Knows x val l) → Bare ls → x.text.drop p = textOf ls → p ≤ x.text.length → Usual (x.text.drop p) → ls.length ≤ n →
    ∃ e, blockLoop x n p req = some e ∧ Flow mk x.text p e x.text.length (linesOut x.file mk val p req ls) := by
  intro k
  induction k with
  | zero =>
    intro ls _ _ _ hk hne
    exact absurd (List.length_eq_zero_iff.1 (by omega)) hne
  | succ k ih =>
    intro ls n p req hk hne hr hkn hb h hp hu hn
    obtain ⟨n, rfl⟩ : ∃ m, n = m + 1 := ⟨n - 1, by have := List.length_pos_iff.2 hne; omega⟩
    have hfuel : ls.length ≤ x.text.length + 2 := by
      have h2 := drop_length h
      cases ls with
      | nil => simp
      | cons l ls =>
        rw [textOf_cons, List.length_append] at h2
        have := tailOf_length ls
        simp only [List.length_cons]
        omega
    have hh := hashLoop_lines (mk := mk) (val := val) (req := req) hne hr h hp hu hfuel (.nil (p := p))
    rw [blockLoop]
    unfold parseHash
    rcases hh with ⟨ha, hres, fl⟩ | ⟨ha, hls, hs, hres, h35, hdr, hq, hu3, fl, hout⟩
    · rename_i e
      rw [hres, Option.bind_some]
      dsimp only
      rw [if_neg (by simp [EOFc])]
      have hend : x.text.drop x.text.length = [] := by simp
      have hpu : parseUntil x x.text.length false = some ([], EOFc, x.text.length, false) := by
        unfold parseUntil
        rw [untilLoop]
        unfold until'
        rw [skipUntil_end hend]
        dsimp only
        unfold untilStep
        rw [scan_nil hend]
        simp [EOFc, isLetter, isRussian, putc]
      rw [hpu, Option.bind_some]
      dsimp only
      rw [if_pos rfl]
      refine ⟨_, rfl, ?_⟩
      have hnil : linesOut x.file mk val p req ls = [] := by
        cases ls with
        | nil => rfl
        | cons l ls => rw [linesOut, if_pos ha]
      rw [hnil, List.append_nil]
      exact fl
    · rename_i es gs s z after e c q O
      rw [hres, Option.bind_some]
      dsimp only
      rw [if_neg h35]
      have hmem : gs.map Piece.gap ++ s :: z ∈ ls := by rw [hls]; simp
      have hrl := hr _ hmem
      have hrz : Reads (s :: z) := (reads_gaps hrl (tail_tailOf after)).2.2
      have hra : ∀ l ∈ after, Reads l := fun l hl => hr l (by rw [hls]; simp [hl])
      have hbl : BareLine (s :: z) after := by
        refine BareLine.drop (k := gs.map Piece.gap) ?_
        intro a y w he
        exact hb es _ after a y w hls he
      obtain ⟨e2, g1, g2⟩ := parseUntil_line (mk := mk) hra hs hrz (hkn _ hmem).drop hbl hdr hq hu3
      rw [g1, Option.bind_some]
      dsimp only
      have hf := Flow.append fl g2
      have hout' : linesOut x.file mk val p req ls = O ++ lineOut x.file mk val q false (s :: z) ++ (if after ≠ [] ∨ x.file = true then [10] else []) ++
        linesOut x.file mk val (q + (raws (s :: z)).length + 1) (lineEnd x.file false (s :: z)) after := by
        rw [← hout]
        simp
      rw [hout']
      cases after with
      | nil =>
        rw [if_pos (by simp [tailOf, next])]
        refine ⟨_, rfl, ?_⟩
        have hlen : q + (raws (s :: z)).length + over [] = x.text.length := by
          have := drop_length hdr
          rw [textOf_cons] at this
          simp [tailOf] at this
          simp [over]
          omega
        rw [hlen] at hf
        simpa [linesOut] using hf
      | cons a after =>
        rw [if_neg (by simp [tailOf_cons, next, EOFc])]
        have hd3 : x.text.drop (q + (raws (s :: z)).length) = 10 :: textOf (a :: after) := by
          rw [textOf_cons, tailOf_cons] at hdr
          exact drop_add hdr
        have hd4 := drop_succ hd3
        obtain ⟨e3, k1, k2⟩ := ih (ls := a :: after) (n := n) (p := q + (raws (s :: z)).length + 1) (req := lineEnd x.file false (s :: z))
          (by rw [hls] at hk; simp at hk ⊢; omega) (by simp) hra (fun l hl => hkn l (by rw [hls]; simp only [List.mem_append]; exact .inr (List.mem_cons_of_mem _ hl)))
          (fun before l after' x' y w h1 => hb (es ++ (gs.map Piece.gap ++ s :: z) :: before) l after' x' y w (by rw [hls, h1]; simp))
          hd4 (le_of_drop hd3)
          (by
            rw [hd4]
            rw [hdr, textOf_cons, tailOf_cons] at hu3
            exact Usual.tail (a := [10]) (Usual.tail (a := raws (s :: z)) hu3))
          (by rw [hls] at hn; simp at hn ⊢; omega)
        have eov : q + (raws (s :: z)).length + over (a :: after) = q + (raws (s :: z)).length + 1 := by simp [over]
        rw [eov] at hf ⊢
        rw [k1, Option.map_some]
        refine ⟨_, rfl, ?_⟩
        have := Flow.append hf k2
        simpa using this

end RuC.Text
