import Verif.Subst.Observe

/-!
# Calls: what is read between the brackets
-/

namespace RuC.Subst
open RuC RuC.Utf8 RuC.Io RuC.Locator RuC.Text

/-- The text of tokens with a blank for the gap in front of the first one. -/
def Arg.flat (l : List (List Gap × Arg.Tok)) : List Nat := l.flatMap fun x => (if x.1 = [] then [] else [32]) ++ x.2.raw

theorem Arg.flat_cons (g : List Gap) (x : Arg.Tok) (l : List (List Gap × Arg.Tok)) : Arg.flat ((g, x) :: l) = (if g = [] then [] else [32]) ++ (x.raw ++ Arg.flat l) := by
  simp [Arg.flat]

theorem Arg.raws_cons (g : List Gap) (x : Arg.Tok) (l : List (List Gap × Arg.Tok)) : Arg.raws ((g, x) :: l) = gaps g ++ (x.raw ++ Arg.raws l) := by
  simp [Arg.raws]

theorem arg_head {x : Arg.Tok} {r : List Nat} (hf : x.Fits r) : ∃ c v, x.raw = c :: v ∧ c ≠ 10 ∧ Stops (x.raw ++ r) := by
  cases x with
  | str q b =>
    obtain ⟨hq, _⟩ := hf
    refine ⟨q, b ++ [q], rfl, ?_, ?_⟩
    · rcases hq with rfl | rfl <;> decide
    · exact stops_of (by rcases hq with rfl | rfl <;> decide) (by rcases hq with rfl | rfl <;> decide) (by rcases hq with rfl | rfl <;> decide)
        (by rcases hq with rfl | rfl <;> decide)
  | chr c =>
    obtain ⟨h1, h2, h3, _, _, h4, h5⟩ := hf
    exact ⟨c, [], rfl, h1, stops_of' h2 h3 h5 h4⟩

theorem space_eq {g : List Gap} {p : Nat} : (if p + (gaps g).length ≠ p then [32] else ([] : List Nat)) = if g = [] then [] else [32] := by
  cases g with
  | nil => simp [gaps]
  | cons y g =>
    have : (gaps (y :: g)).length ≠ 0 := by
      rw [gaps_cons]
      have := Gap.raw_ne y
      simp [this]
    rw [if_pos (by omega), if_neg (by simp)]

/-- The brackets that are open behind a token. -/
def deeper (d : Nat) : Arg.Tok → Nat
  | .chr c => if c = 40 then d + 1 else if c = 41 then d - 1 else d
  | .str .. => d

theorem balanced_cons {d : Nat} {g : List Gap} {x : Arg.Tok} {l : List (List Gap × Arg.Tok)} {r : List Nat} (hf : x.Fits r) (h : Arg.balanced d ((g, x) :: l) = true) :
    Arg.balanced (deeper d x) l = true ∧ (d ≠ 0 ∨ ∀ c v, x.raw = c :: v → c ≠ 44 ∧ c ≠ 41) ∧ (x = .chr 41 → d ≠ 0) := by
  cases x with
  | str q b =>
    refine ⟨h, .inr ?_, by intro h; cases h⟩
    intro c v he
    cases he
    have := hf.1
    omega
  | chr c =>
    unfold Arg.balanced at h
    show Arg.balanced (if c = 40 then d + 1 else if c = 41 then d - 1 else d) l = true ∧ _
    by_cases h1 : c = 40
    · rw [if_pos h1] at h ⊢
      exact ⟨h, .inr (by intro d v he; cases he; omega), by intro he; cases he; omega⟩
    · rw [if_neg h1] at h ⊢
      by_cases h2 : c = 41
      · rw [if_pos h2] at h ⊢
        simp at h
        exact ⟨h.2, .inl h.1, fun _ => h.1⟩
      · rw [if_neg h2] at h ⊢
        by_cases h3 : c = 44
        · rw [if_pos h3] at h
          simp at h
          exact ⟨h.2, .inl h.1, fun _ => h.1⟩
        · rw [if_neg h3] at h
          exact ⟨h, .inr (by intro d v he; cases he; exact ⟨h3, h2⟩), by intro he; cases he; exact absurd rfl h2⟩

/-- One turn of the loop over an argument. -/
theorem argLoop_step {t : List Nat} (hu : Usual t) {g : List Gap} {x : Arg.Tok} {r : List Nat} {fuel d p : Nat} {ok : Bool} (hg : GapsRead g (x.raw ++ r)) (hf : x.Fits r)
    (h : t.drop p = gaps g ++ (x.raw ++ r)) (hd : d ≠ 0 ∨ ∀ c v, x.raw = c :: v → c ≠ 44 ∧ c ≠ 41) (hd' : x = .chr 41 → d ≠ 0) (hb : d < 9223372036854775808) :
    argLoop t (fuel + 1) d ok p (lines' t p).2.1 (lines' t p).2.2 =
      (argLoop t fuel (deeper d x) (ok && decide ((lines' t (p + (gaps g).length + x.raw.length)).2.1 ≠ EOFc)) (p + (gaps g).length + x.raw.length)
        (lines' t (p + (gaps g).length + x.raw.length)).2.1 (lines' t (p + (gaps g).length + x.raw.length)).2.2).map
        fun z => ((if g = [] then [] else [32]) ++ (x.raw ++ z.1), z.2) := by
  obtain ⟨c, v, hc, hc10, hst⟩ := arg_head hf
  have hp : p ≤ t.length := le_len (r := []) (x := gaps g ++ (x.raw ++ r)) (by rw [h, List.append_nil]) (by rw [hc]; simp)
  have hn10 : ∀ v', x.raw ++ r ≠ 10 :: v' := by
    intro v' he; rw [hc] at he; cases he; exact hc10 rfl
  have hli := lines_gaps hst hn10 hg h hp (usual_drop hu _)
  rw [hli]
  have hdr := drop_add h
  have hdr' : t.drop (p + (gaps g).length) = c :: (v ++ r) := by rw [hdr, hc]; rfl
  have hcu : c < 0x200000 := (hu c (List.mem_of_mem_drop (by rw [hdr']; simp))).1
  have hnx : next (x.raw ++ r) = c := by rw [hc]; rfl
  rw [argLoop]
  simp only [hnx]
  rw [if_pos (by
    rcases hd with hd | hd
    · exact .inl hd
    · exact .inr ⟨(hd c v hc).1, (hd c v hc).2, not_eof hcu⟩), scan_cons hdr', space_eq, putsOf_putc hcu]
  simp only
  cases x with
  | str q b =>
    obtain ⟨hq, hb'⟩ := hf
    cases hc
    have hb1 : t.drop (p + (gaps g).length + 1) = b ++ c :: r := by rw [drop_succ hdr']; simp
    have h13 : 13 ∉ b := fun hm => (hu 13 (List.mem_of_mem_drop (by rw [hb1]; exact List.mem_append_left _ hm))).2 rfl
    rw [if_pos hq.symm, skipString_spec hq hb' hb1 h13]
    simp only
    have n1 : c ≠ 40 := by omega
    have n2 : c ≠ 41 := by omega
    rw [if_neg n1, if_neg n2]
    rw [show p + (gaps g).length + 1 + b.length + 1 = p + (gaps g).length + (Arg.Tok.str c b).raw.length by simp [Arg.Tok.raw]; omega]
    simp [putsOf, putsOf_str, Arg.Tok.raw, deeper]
  | chr c' =>
    obtain ⟨_, _, _, k1, k2, _⟩ := hf
    cases hc
    have hno : ¬ (c = 39 ∨ c = 34) := by simp [k1, k2]
    rw [if_neg hno]
    have hdep : (if c = 40 then usz (d + 1) else if c = 41 then usub d 1 else d) = deeper d (.chr c) := by
      show _ = if c = 40 then d + 1 else if c = 41 then d - 1 else d
      rw [usz_of_lt (by omega)]
      split
      · rfl
      · split
        · rename_i h41
          have := hd' (by rw [h41])
          rw [usub_of_le (by omega) (by omega)]
        · rfl
    rw [hdep]
    simp only [Arg.Tok.raw, List.length_cons, List.length_nil, List.append_nil, List.append_assoc, Bool.and_true, Nat.zero_add]

theorem lines_not_eof {t : List Nat} (hu : Usual t) {g : List Gap} {c : Nat} {v : List Nat} {p : Nat} (hs : Stops (c :: v)) (hc : c ≠ 10) (hg : GapsRead g (c :: v))
    (h : t.drop p = gaps g ++ c :: v) : (lines' t p).2.1 = c ∧ c ≠ EOFc ∧ (lines' t p).2.2 = p + (gaps g).length := by
  have hp : p ≤ t.length := le_len (r := []) (x := gaps g ++ c :: v) (by rw [h, List.append_nil]) (by simp)
  have hli := lines_gaps hs (by intro v' he; cases he; exact hc rfl) hg h hp (usual_drop hu _)
  have hcu : c < 0x200000 := (hu c (List.mem_of_mem_drop (by rw [drop_add h]; simp))).1
  rw [hli]
  exact ⟨rfl, not_eof hcu, rfl⟩

theorem deeper_le (d : Nat) (x : Arg.Tok) : deeper d x ≤ d + 1 := by
  cases x with
  | str q b => show d ≤ d + 1; omega
  | chr c =>
    show (if c = 40 then d + 1 else if c = 41 then d - 1 else d) ≤ d + 1
    split
    · omega
    · split <;> omega

/-- The loop over an argument that is ended by a comma or a bracket. -/
theorem argLoop_spec {t : List Nat} (hu : Usual t) {trail : List Gap} {e : Nat} {r : List Nat} (he : e = 44 ∨ e = 41) (htr : GapsRead trail (e :: r)) :
    ∀ {l : List (List Gap × Arg.Tok)} {fuel d p : Nat}, Arg.ReadsToks l (gaps trail ++ e :: r) → Arg.balanced d l = true → t.drop p = Arg.raws l ++ (gaps trail ++ e :: r) →
    d + l.length < 9223372036854775808 → l.length + 1 ≤ fuel →
    argLoop t fuel d true p (lines' t p).2.1 (lines' t p).2.2 = some (Arg.flat l, true, e, p + (Arg.raws l).length + (gaps trail).length) := by
  have hse : Stops (e :: r) := by rcases he with rfl | rfl <;> exact stops_of (by decide) (by decide) (by decide) (by decide)
  have he10 : e ≠ 10 := by omega
  intro l
  induction l with
  | nil =>
    intro fuel d p _ hbal h hb hf
    cases fuel with
    | zero => omega
    | succ fuel =>
    have h' : t.drop p = gaps trail ++ e :: r := by rw [h]; rfl
    obtain ⟨h1, h2, h3⟩ := lines_not_eof hu hse he10 htr h'
    have hd0 : d = 0 := by simpa [Arg.balanced] using hbal
    rw [argLoop, h1, h3, if_neg (by simp [hd0]; omega)]
    rfl
  | cons y l ih =>
    intro fuel d p hrd hbal h hb hf
    obtain ⟨g, x⟩ := y
    obtain ⟨h1, h2, h3⟩ := hrd
    cases fuel with
    | zero => omega
    | succ fuel =>
    have h' : t.drop p = gaps g ++ (x.raw ++ (Arg.raws l ++ (gaps trail ++ e :: r))) := by rw [h, Arg.raws_cons]; simp
    obtain ⟨hb1, hb2, hb3⟩ := balanced_cons h2 hbal
    simp only [List.length_cons] at hb hf
    rw [argLoop_step hu h1 h2 h' hb2 hb3 (by omega)]
    have hd := drop_add (drop_add h')
    have hne : (lines' t (p + (gaps g).length + x.raw.length)).2.1 ≠ EOFc := by
      cases l with
      | nil =>
        obtain ⟨k1, k2, _⟩ := lines_not_eof hu hse he10 htr (show _ = gaps trail ++ e :: r by rw [hd]; rfl)
        rw [k1]; exact k2
      | cons z l =>
        obtain ⟨g', x'⟩ := z
        obtain ⟨m1, m2, _⟩ := h3
        obtain ⟨c, v, hc, hc10, hst⟩ := arg_head m2
        rw [hc] at hst m1
        obtain ⟨k1, k2, _⟩ := lines_not_eof hu hst hc10 m1 (by rw [hd, Arg.raws_cons, hc]; simp)
        rw [k1]; exact k2
    have := deeper_le d x
    rw [decide_eq_true hne, Bool.and_self, ih h3 hb1 hd (by omega) (by omega), Option.map_some, Arg.flat_cons, Arg.raws_cons]
    simp
    omega

theorem flat_text (g : List Gap) (x : Arg.Tok) (l : List (List Gap × Arg.Tok)) : Arg.flat (([], x) :: l) = Arg.text ((g, x) :: l) := by
  simp [Arg.flat, Arg.text]

theorem toks_length {r : List Nat} : ∀ {l : List (List Gap × Arg.Tok)}, Arg.ReadsToks l r → l.length ≤ (Arg.raws l).length := by
  intro l
  induction l with
  | nil => intro _; simp
  | cons y l ih =>
    intro h
    obtain ⟨g, x⟩ := y
    have h1 := ih h.2.2
    obtain ⟨c, v, hc, _⟩ := arg_head h.2.1
    rw [Arg.raws_cons, hc]
    simp
    omega

/-- An argument behind the bracket or the comma in front of it. -/
theorem argLoop_arg {t : List Nat} (hu : Usual t) (hlen : t.length < 4611686018427387904) {a : Arg} {e : Nat} {r : List Nat} {p : Nat} (he : e = 44 ∨ e = 41) (hr : a.Reads (e :: r))
    (h : t.drop p = a.raw ++ e :: r) :
    argLoop t (t.length + 2) 0 true (lines' t p).2.2 (lines' t p).2.1 (lines' t p).2.2 = some (Arg.text a.toks, true, e, p + a.raw.length) := by
  have hse : Stops (e :: r) := by rcases he with rfl | rfl <;> exact stops_of (by decide) (by decide) (by decide) (by decide)
  have he10 : e ≠ 10 := by omega
  obtain ⟨toks, trail⟩ := a
  obtain ⟨h1, h2, h3⟩ := hr
  have hl := congrArg List.length h
  simp only [List.length_append, List.length_drop, List.length_cons] at hl
  cases toks with
  | nil =>
    have h' : t.drop p = gaps trail ++ e :: r := by rw [h]; rfl
    obtain ⟨k1, _, k3⟩ := lines_not_eof hu hse he10 h2 h'
    have hd := drop_add h'
    obtain ⟨m1, _, m3⟩ := lines_not_eof (g := []) hu hse he10 trivial (show t.drop (p + (gaps trail).length) = gaps [] ++ e :: r by rw [hd]; rfl)
    have := argLoop_spec hu (l := []) (trail := []) (d := 0) (fuel := t.length + 2) he trivial trivial rfl (show t.drop (p + (gaps trail).length) = _ by rw [hd]; rfl) (by simp) (by simp)
    rw [m1, m3] at this
    simp only [gaps, List.flatMap_nil, List.length_nil, Nat.add_zero] at this k3
    rw [k1, k3]
    simp only [gaps] at this ⊢
    rw [this]
    simp [Arg.flat, Arg.text, Arg.raw, Arg.raws, gaps]
  | cons y l =>
    obtain ⟨g, x⟩ := y
    obtain ⟨m1, m2, m3⟩ := h1
    have h' : t.drop p = gaps g ++ (x.raw ++ (Arg.raws l ++ (gaps trail ++ e :: r))) := by
      rw [h]; unfold Arg.raw; rw [Arg.raws_cons]; simp
    obtain ⟨c, v, hc, hc10, hst⟩ := arg_head m2
    have hd := drop_add h'
    have hst' := hst
    have m1' := m1
    rw [hc] at hst' m1'
    obtain ⟨k1, _, k3⟩ := lines_not_eof hu hst' hc10 m1' (by rw [h', hc]; rfl)
    obtain ⟨n1, _, n3⟩ := lines_not_eof (g := []) hu hst' hc10 trivial (show t.drop (p + (gaps g).length) = gaps [] ++ _ by rw [hd, hc]; rfl)
    have hlt := toks_length (l := ([], x) :: l) (r := gaps trail ++ e :: r) ⟨trivial, m2, m3⟩
    rw [Arg.raws_cons] at hlt
    simp only [Arg.raw, Arg.raws_cons, List.length_append] at hl
    simp only [gaps, List.flatMap_nil, List.nil_append, List.length_append] at hlt
    have := argLoop_spec hu (l := ([], x) :: l) (trail := trail) (d := 0) (fuel := t.length + 2) he h2 ⟨trivial, m2, m3⟩ (by
      have : Arg.balanced 0 ((g, x) :: l) = true := h3
      cases x <;> exact this) (show t.drop (p + (gaps g).length) = _ by rw [hd, Arg.raws_cons]; simp [gaps]) (by omega) (by omega)
    rw [n1, n3] at this
    simp only [show (gaps []).length = 0 from rfl, Nat.add_zero] at this
    rw [k1, k3, this, flat_text g]
    simp only [Arg.raw, Arg.raws_cons, show gaps ([] : List Gap) = [] from rfl, List.nil_append, List.length_append]
    congr 4
    omega

theorem argsRaw_cons (a : Arg) (l : List Arg) : ∃ z, argsRaw (a :: l) = a.raw ++ z ∧ ((l = [] ∧ z = []) ∨ (l ≠ [] ∧ z = 44 :: argsRaw l)) := by
  cases l with
  | nil => exact ⟨[], by simp [argsRaw], .inl ⟨rfl, rfl⟩⟩
  | cons y l => exact ⟨44 :: argsRaw (y :: l), by simp [argsRaw], .inr ⟨by simp, rfl⟩⟩

theorem argsRead_cons {a : Arg} {l : List Arg} {r : List Nat} (h : ArgsRead (a :: l) r) : (l = [] → a.Reads r) ∧ (l ≠ [] → a.Reads (44 :: argsRaw l ++ r) ∧ ArgsRead l r) := by
  cases l with
  | nil => exact ⟨fun _ => h, fun h => absurd rfl h⟩
  | cons y l => exact ⟨fun h => (by cases h), fun _ => h⟩

/-- The loop over the arguments. -/
theorem bracketsLoop_spec {t : List Nat} (hu : Usual t) (hlen : t.length < 4611686018427387904) {r : List Nat} : ∀ {l : List Arg} {fuel p : Nat} {e : Nat}, l ≠ [] → ArgsRead l (41 :: r) →
    t.drop p = e :: argsRaw l ++ 41 :: r → l.length ≤ fuel →
    bracketsLoop t fuel true p = some (some (l.map fun a => Arg.text a.toks), p + (argsRaw l).length + 1) := by
  intro l
  induction l with
  | nil => intro fuel p e h; exact absurd rfl h
  | cons a l ih =>
    intro fuel p e _ hrd h hf
    cases fuel with
    | zero => simp at hf
    | succ fuel =>
    obtain ⟨z, hz, hz'⟩ := argsRaw_cons a l
    obtain ⟨hl1, hl2⟩ := argsRead_cons hrd
    have h1 : t.drop p = e :: (a.raw ++ (z ++ 41 :: r)) := by rw [h, hz]; simp
    have h2 := drop_succ h1
    rw [bracketsLoop, scan_cons h1]
    simp only
    rcases hz' with ⟨e1, rfl⟩ | ⟨e1, rfl⟩
    · subst e1
      rw [argLoop_arg hu hlen (.inr rfl) (hl1 rfl) h2, Option.bind_some]
      simp only
      rw [if_pos (.inl True.intro), if_pos True.intro, hz]
      simp
      omega
    · rw [argLoop_arg hu hlen (.inl rfl) (hl2 e1).1 h2, Option.bind_some]
      simp only
      have h3 := drop_add h2
      rw [if_neg (by unfold EOFc; omega), ih e1 (hl2 e1).2 h3 (by simp at hf; omega), Option.map_some, hz]
      simp
      omega

end RuC.Subst
