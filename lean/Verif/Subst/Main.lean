import Verif.Subst.Calls

/-!
# A definition and a call of it
-/

namespace RuC.Subst
open RuC RuC.Utf8 RuC.Io RuC.Locator RuC.Text

theorem names_word : ∀ {l : Params} {r : List Nat}, Params.Reads l r → ∀ w ∈ l.names, Word w := by
  intro l
  induction l with
  | nil => intro r _ w hw; cases hw
  | cons y l ih =>
    intro r h w hw
    obtain ⟨a, n, b⟩ := y
    obtain ⟨h1, _, _, _, h2⟩ := Params.reads_cons h
    rcases List.mem_cons.mp hw with rfl | hw
    · exact h1
    · have hl : l ≠ [] := by rintro rfl; cases hw
      exact ih (h2 hl).2.2 w hw

theorem parseContext_defined {t : List Nat} {index p : Nat} {ps : Params} {l : Body} (hu : Usual t) (hd : Defined t p ps l) :
    parseContext t index p = .ok (ps.length, l.kept index ps.names) := by
  obtain ⟨trail, r, hr, h, hps, hl, htr, hnt⟩ := hd.text
  have ha := parseArgs_spec hu hd.some hps (by rw [h]) hd.distinct
  have h1 : t.drop p = (40 :: ps.raw ++ [41]) ++ (l.raw ++ (gaps trail ++ r)) := by rw [h]; simp
  have h2 := drop_add h1
  have hlen := congrArg List.length h1
  simp only [List.length_append, List.length_drop, List.length_cons] at hlen
  have := parseContext_spec (index := index) ha (names_word hps) hu hr htr hnt hl h2 (by simp; omega) hd.begins
  rw [this]
  simp [Params.names]

theorem code_length {index : Nat} {params : List (List Nat)} {r : List Nat} : ∀ {l : Body}, Body.Reads params l r → l.length ≤ (Body.code index params l).length := by
  intro l
  induction l with
  | nil => intro _; simp
  | cons y l ih =>
    intro h
    obtain ⟨g, x⟩ := y
    have h1 := ih h.2.2.2
    have h2 : x.code index params ≠ [] := by
      cases x with
      | word w => obtain ⟨c, v, hc, _⟩ := code_word_head (index := index) (params := params) h.2.2.1.1; rw [hc]; simp
      | _ => simp [Tok.code, strMask, tkpMask]
    have : (x.code index params).length ≠ 0 := by simpa using h2
    rw [Body.code_cons]
    simp only [List.length_append, List.length_cons]
    omega

theorem rest_stands {params args : List (List Nat)} {expand : List Nat → List Nat} (g : List Gap) (x : Tok) (l : Body) :
    Body.rest params args expand (([], x) :: l) = Body.stands params args expand ((g, x) :: l) := by
  rw [Body.rest_cons]
  simp [Body.stands, Body.rest]

theorem raw_usual {t : List Nat} {p : Nat} {l : Body} {a b : List Nat} (hu : Usual t) (h : t.drop p = a ++ (l.raw ++ b)) : Usual l.raw := by
  intro c hc
  exact hu c (List.mem_of_mem_drop (by rw [h]; simp [hc]))

/-- What is kept of a definition and the values of the arguments give what the body stands for. -/
theorem observe_stands {index : Nat} {params args : List (List Nat)} {expand : List Nat → List Nat} {l : Body} {r : List Nat} (hn : params.length = args.length)
    (hu : Usual l.raw) (hrd : Body.Reads params l r) (hap : Apart false l) (hfree : ∀ g w, (g, .word w) ∈ l → w ∉ params → Free index w) (hfill : l.Filled params args expand) :
    observe (valuesFrom index 0 (pairs args expand)) (l.kept index params) = some (l.stands params args expand) := by
  unfold observe
  cases l with
  | nil =>
    exact observeLoop_spec (l := []) (was := false) (r := []) hn (fun c hc => (by cases hc)) trivial trivial (fun _ _ hm => (by cases hm)) (fun _ hm => (by cases hm)) rfl (by simp) (by simp)
  | cons y l =>
    obtain ⟨g, x⟩ := y
    show observeLoop _ (Body.code index params (([], x) :: l)) ((Body.code index params (([], x) :: l)).length + 1) 0 = _
    have hrd' : Body.Reads params (([], x) :: l) r := ⟨trivial, by simp, hrd.2.2⟩
    have hu' : Usual (Body.raw (([], x) :: l)) := by
      rw [Body.raw_cons] at hu ⊢
      exact Usual.tail hu
    have hap' : Apart false (([], x) :: l) := by
      cases x with
      | quote g' w => exact ⟨fun h => (by cases h), hap.2⟩
      | _ => exact hap
    have hlen := code_length (index := index) hrd'
    rw [observeLoop_spec (index := index) (l := ([], x) :: l) (was := false) (r := r) hn (body_code_usual hu') hrd' hap'
      (fun g' w hm => by
        rcases List.mem_cons.mp hm with he | hm
        · cases he; exact hfree g w (by simp)
        · exact hfree g' w (List.mem_cons_of_mem _ hm))
      (fun y hm => by
        rcases List.mem_cons.mp hm with he | hm
        · subst he; exact hfill (g, x) (by simp)
        · exact hfill y (List.mem_cons_of_mem _ hm))
      rfl (by simp) (by omega), rest_stands g]

theorem args_length {r : List Nat} : ∀ {l : List Arg}, l.length ≤ (argsRaw l).length + 1 := by
  intro l
  induction l with
  | nil => simp
  | cons a l ih =>
    obtain ⟨z, hz, hz'⟩ := argsRaw_cons a l
    rw [hz]
    rcases hz' with ⟨rfl, rfl⟩ | ⟨_, rfl⟩
    · simp
    · simp only [List.length_append, List.length_cons]
      omega

/-- Reading of a call. -/
theorem replacement_called {t : List Nat} {p q : Nat} {as : List Arg} {index expected : Nat} {v : List Nat} {expand : List Nat → List Nat} (ho : Ordinary t) (hc : Called t p q as) :
    parseReplacement t index expected v expand p =
      if expected = as.length then (observe (valuesFrom index 0 (pairs (texts as) expand)) v).map fun o => (.ok o, q)
      else some (.error (if as.length < expected then .few else .many), q) := by
  obtain ⟨g, r, h, hg, hr, rfl⟩ := hc.text
  have hu : Usual t := ho.1
  obtain ⟨k1, _, k3⟩ := lines_not_eof hu (c := 40) (v := argsRaw as ++ 41 :: r) (stops_of (by decide) (by decide) (by decide) (by decide)) (by decide) hg h
  have hd := drop_add h
  have hlen := congrArg List.length h
  simp only [List.length_append, List.length_drop, List.length_cons] at hlen
  have hal := args_length (r := r) (l := as)
  have hbr := bracketsLoop_spec hu ho.2 hc.some hr hd (show as.length ≤ t.length + 2 by omega)
  have hd2 : t.drop (p + (gaps g).length + (argsRaw as).length + 1) = 41 :: r := by
    have := drop_add (a := 40 :: argsRaw as) (r := 41 :: r) hd
    rw [List.length_cons] at this
    rw [← this]
    rfl
  unfold parseReplacement
  simp only [k1, k3]
  rw [if_neg (by simp), hbr, Option.bind_some]
  simp only [scan_cons hd2, List.length_map]
  have hpos : p + (gaps g).length + (argsRaw as).length + 1 + 1 = p + (gaps g ++ (40 :: argsRaw as ++ [41])).length := by
    simp only [List.length_append, List.length_cons, List.length_nil]; omega
  rw [hpos]
  simp only [texts, pairs, List.map_map]

end RuC.Subst
