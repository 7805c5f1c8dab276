import Verif.Scope.Defined

/-! Properties C31, C52 and C63. -/

namespace RuC.Scope.Props
open RuC RuC.Scope RuC.Scope.Spec

/-- C31.  After any sequence of declarations and of scopes opened and closed, every name refers to its innermost
declaration, or to what it referred to from the beginning if it has none. -/
theorem names_denote_innermost {s0 : Sx} (hs : Start s0) (hn : s0.refs.length < 9223372036854775808) {ops : List Op} {answers : List Nat} {s : Sx} {st : List Open}
    (hp : AllProper (getRef s0.refs) s0.refs.length 0 ops) (h : run (s0, []) ops = some (answers, s, st)) (ha : Accepted answers)
    (hb : s0.ids.length + 4 * (ops.map weight).sum < 4611686018427387904) :
    ∀ r, getRef s.refs r = denote (getRef s0.refs) (env (ops.zip answers)) r := by
  obtain ⟨_, recs, hi⟩ := inv_run hs hn ops (m := (s0, [])) (inv_start hs) hp h ha (by rw [Nat.zero_add]; exact hb)
  exact hi.refs

/-- C31.  Closing a block gives every name the reference it had when the block was opened, whatever was declared
and whatever blocks were opened and closed in between. -/
theorem block_exit_restores {s0 : Sx} (hs : Start s0) (hn : s0.refs.length < 9223372036854775808) {before inner : List Op} {as bs : List Nat} {s1 s2 : Sx} {st1 st2 : List Open}
    (hnest : Nested inner) (hp : AllProper (getRef s0.refs) s0.refs.length 0 (before ++ .enter :: (inner ++ [.exit])))
    (h1 : run (s0, []) before = some (as, s1, st1)) (h2 : run (s1, st1) (.enter :: (inner ++ [.exit])) = some (bs, s2, st2))
    (ha : Accepted (as ++ bs)) (hb : s0.ids.length + 4 * ((before ++ inner).map weight).sum < 4611686018427387904) :
    s2.refs = s1.refs ∧ s2.displ = s1.displ ∧ s2.lg = s1.lg ∧ s2.curId = s1.curId ∧ st2 = st1 := by
  obtain ⟨hp1, hp2⟩ := allProper_append _ _ hp
  have hb1 : s0.ids.length + 4 * (0 + total before) < 4611686018427387904 := by
    unfold total
    simp only [List.map_append, List.sum_append] at hb
    omega
  obtain ⟨hl1, recs1, hi1⟩ := inv_run hs hn before (m := (s0, [])) (inv_start hs) hp1 h1 (fun a h => ha a (List.mem_append_left _ h)) hb1
  have hd := run_depth before h1
  simp only [List.length_nil] at hd
  have hb2 : s0.ids.length + 4 * (0 + total before + total (Op.enter :: (inner ++ [Op.exit]))) < 4611686018427387904 := by
    simp only [total, List.map_append, List.sum_append, List.map_cons, List.sum_cons, List.map_nil, List.sum_nil, weight] at hb ⊢
    omega
  obtain ⟨hl2, recs2, hi2⟩ := inv_run hs hn _ (m := (s1, st1)) hi1 (by simp only; rw [hd]; exact hp2) h2 (fun a h => ha a (List.mem_append_right _ h)) hb2
  -- the open scopes and the saved fields
  obtain ⟨a, m1, cs, g1, g2, rfl⟩ := run_cons h2
  obtain ⟨m2, xs, ys, g3, g4, rfl⟩ := run_split g2
  obtain ⟨b, m3, zs, g5, g6, rfl⟩ := run_cons g4
  simp only [run, Option.some.injEq, Prod.mk.injEq] at g6
  obtain ⟨rfl, rfl⟩ := g6
  simp only [step, Option.some.injEq, Prod.mk.injEq] at g1
  obtain ⟨rfl, rfl⟩ := g1
  obtain ⟨n1, n2, n3⟩ := nested_run hnest g3
  obtain ⟨k1, sv, k2, k3⟩ := step_exit g5 n1
  simp only [Open.block.injEq] at k2
  subst k2
  have hI : (ITEM_MAX : Int) = 9223372036854775807 := by unfold ITEM_MAX; rfl
  have hsm : Small _ s1.displ s1.lg := hi1.small
  have hnm : ¬ ((blockEnter s1).1.lg = ITEM_MAX ∨ (blockEnter s1).1.displ = ITEM_MAX) := by
    simp only [blockEnter]
    have := hsm.lg
    have := hsm.up
    omega
  unfold blockExit at k3
  rw [if_neg hnm] at k3
  simp only [Option.map_eq_some_iff] at k3
  obtain ⟨refs, _, rfl⟩ := k3
  refine ⟨?_, rfl, rfl, rfl, k1⟩
  refine List.ext_getElem (by rw [hi2.len, hi1.len]) fun i w1 w2 => ?_
  have conv : ∀ (l : List Int) (hl : i < l.length), l[i] = getRef l i := by
    intro l hl
    unfold getRef
    rw [List.getD_eq_getElem?_getD, List.getElem?_eq_getElem hl]
    rfl
  rw [conv _ w1, conv _ w2, hi2.refs i, hi1.refs i]
  congr 1
  have hel := hi1.good.length
  cases he : (before.zip as).foldl envStep [[]] with
  | nil => rw [he] at hel; simp at hel
  | cons f fs =>
    rw [List.zip_cons_cons, List.foldl_cons, List.zip_append n2.symm, List.foldl_append, List.zip_cons_cons, List.foldl_cons]
    simp only [envStep, List.zip_nil_left, List.foldl_nil]
    obtain ⟨g, hg⟩ := n3 [] (f :: fs)
    rw [hg]
    rfl

/-- C31.  Inside a function, a declaration is refused as a repeated one exactly if the name was declared in the
same scope before. -/
theorem repeated_exactly_in_same_scope {s0 : Sx} (hs : Start s0) (hn : s0.refs.length < 9223372036854775808) {ops : List Op} {answers : List Nat} {s : Sx} {o : Open}
    {st : List Open} (hp : AllProper (getRef s0.refs) s0.refs.length 0 ops) (h : run (s0, []) ops = some (answers, s, o :: st)) (ha : Accepted answers)
    (hb : s0.ids.length + 4 * (ops.map weight).sum < 4611686018427387904) {r : Nat} {kind type : Int} {size : Nat} {funcDef : Int} {a : Nat} {s' : Sx}
    (hr : Proper (getRef s0.refs) s0.refs.length (st.length + 1) (.decl r kind type size funcDef)) (hmain : getRef s0.refs r ≠ 0)
    (h' : identAdd s r kind type size funcDef = some (a, s')) :
    a = SIZE_MAX - 1 ↔ ∃ f fs id, env (ops.zip answers) = f :: fs ∧ (r, id) ∈ f := by
  obtain ⟨_, recs, hi⟩ := inv_run hs hn ops (m := (s0, [])) (inv_start hs) hp h ha (by rw [Nat.zero_add]; exact hb)
  obtain ⟨q0, q1, q2, q3, q4⟩ := hr
  have hI : (ITEM_MAX : Int) = 9223372036854775807 := by unfold ITEM_MAX; rfl
  have hS : SIZE_MAX = 18446744073709551615 := by unfold SIZE_MAX; rfl
  have hcl := cells_length hi
  have hct := hi.count
  simp only [total, Nat.zero_add] at hct
  simp only at hi hcl
  have hl : s.ids.length < 4611686018427387904 := by omega
  have hrr := ref_range hs hi hl q2
  obtain ⟨k, f, fs, hcur, he, hpt⟩ : ∃ k f fs, s.curId = s0.ids.length + 4 * k ∧ env (ops.zip answers) = f :: fs ∧ Part s0 recs s.refs k f fs := by
    have hg := hi.good
    unfold env
    generalize s.curId = c at hg ⊢
    generalize (ops.zip answers).foldl envStep [[]] = e at hg ⊢
    cases hg with
    | block _ _ hpt _ => exact ⟨_, _, _, rfl, rfl, hpt⟩
    | func _ hpt _ => exact ⟨_, _, _, rfl, rfl, hpt⟩
  have hden := hi.refs r
  rw [show (ops.zip answers).foldl envStep [[]] = f :: fs from he] at hden
  -- where the name was declared
  have hwhere : (∃ id j y, (r, id) ∈ f ∧ getRef s.refs r = id ∧ k ≤ j ∧ id = s0.ids.length + 4 * j ∧ recs[j]? = some y ∧ y.repr = (r : Int)) ∨
      (∀ id, (r, id) ∉ f) ∧ (getRef s.refs r = ITEM_MAX ∨ 2 ≤ getRef s.refs r ∧ getRef s.refs r < s0.ids.length + 4 * k) := by
    unfold denote at hden
    rw [if_neg hmain, List.flatten_cons, List.find?_append] at hden
    cases hf : f.find? fun x => x.1 = r with
    | some x =>
      rw [hf] at hden
      simp only [Option.some_or] at hden
      have hm := List.mem_of_find?_eq_some hf
      have h1 : x.1 = r := by simpa using List.find?_some hf
      obtain ⟨j, y, o1, o2, o3, o4⟩ := hpt.own x hm
      exact Or.inl ⟨x.2, j, y, by rw [← h1]; exact hm, hden, o1, o2, o3, by rw [o4, h1]⟩
    | none =>
      right
      refine ⟨fun id hm => by simpa using List.find?_eq_none.1 hf _ hm, ?_⟩
      rw [hf] at hden
      simp only [Option.none_or] at hden
      obtain ⟨n, hn⟩ := hs.cells
      split at hden
      · rename_i x hx
        have hm := List.mem_of_find?_eq_some hx
        have := hpt.lower x hm
        have := hi.bound x (by rw [show (ops.zip answers).foldl envStep [[]] = f :: fs from he, List.flatten_cons]; exact List.mem_append_right _ hm)
        right
        omega
      · rcases base_range hs (by omega) r with hh | hh | hh
        · left; rw [hden]; exact hh
        · omega
        · right; omega
  have hprev : ∀ v : Int, 0 ≤ v → v ≤ ITEM_MAX → toSize v = v.toNat := by
    intro v h1 h2
    have := toSize_natCast (n := v.toNat) (by omega)
    rwa [show ((v.toNat : Nat) : Int) = v by omega] at this
  rcases hwhere with ⟨id, j, y, hm, hid, hkj, hidj, hy, hyr⟩ | ⟨hno, hv⟩
  · -- declared in this scope
    have hj := (List.getElem?_eq_some_iff.1 hy).1
    obtain ⟨n, hn0⟩ := hs.cells
    have hpc : prevCell s r = id := by
      unfold prevCell
      rw [hid, if_neg (by omega)]
    have hts : toSize (prevCell s r) = id := by rw [hpc]; exact toSize_natCast (by omega)
    have hrep : isRepeated s r kind funcDef = some true := by
      unfold isRepeated
      rw [if_pos ⟨q3, by rw [hpc]; omega, by rw [hts, hcur]; omega⟩]
      split
      · rfl
      · have hg := (get_rec (pre := s0.ids) hy).2
        have hids : (identOpen s r).ids = s.ids ++ [some (prevCell s r), none, none, none] := rfl
        have hget : get (identOpen s r).ids (id + 1) = some y.repr := by
          rw [← hidj, ← hi.ids] at hg
          rw [hids]
          unfold get at hg ⊢
          rw [if_pos (by omega)] at hg
          rw [if_pos (by simp; omega), List.getElem?_append_left (by omega)]
          exact hg
        rw [hts, usz_of_lt (by omega), hget, Option.map_some, hyr]
        simp
        omega
    unfold identAdd at h'
    rw [if_neg (by omega), hrep] at h'
    simp only [Option.some.injEq, Prod.mk.injEq] at h'
    exact ⟨fun _ => ⟨f, fs, id, he, hm⟩, fun _ => h'.1.symm⟩
  · have hrep : isRepeated s r kind funcDef = some false := by
      unfold isRepeated
      rw [if_neg]
      rintro ⟨_, c1, c2⟩
      unfold prevCell at c1 c2
      rcases hv with hv | hv
      · rw [if_pos hv] at c1; exact c1 rfl
      · rw [if_neg (by omega), hprev _ (by omega) (by omega), hcur] at c2
        omega
    unfold identAdd at h'
    rw [if_neg (by omega), hrep] at h'
    simp only [Option.map_eq_some_iff, Prod.mk.injEq] at h'
    obtain ⟨_, _, e1, _⟩ := h'
    constructor
    · intro e; omega
    · rintro ⟨f', fs', id, e, hm⟩
      rw [he] at e
      cases e
      exact absurd hm (hno id)

/-- C31.  An open block can be closed: the loop over its identifiers ends and reads no cell that was never
written. -/
theorem block_exit_defined {s0 : Sx} (hs : Start s0) (hn : s0.refs.length < 9223372036854775808) {ops : List Op} {answers : List Nat} {s : Sx} {sv : Saved}
    {st : List Open} (hp : AllProper (getRef s0.refs) s0.refs.length 0 ops) (h : run (s0, []) ops = some (answers, s, .block sv :: st)) (ha : Accepted answers)
    (hb : s0.ids.length + 4 * (ops.map weight).sum < 4611686018427387904) : ∃ s', step (s, .block sv :: st) .exit = some (0, s', st) := by
  obtain ⟨_, recs, hi⟩ := inv_run hs hn ops (m := (s0, [])) (inv_start hs) hp h ha (by rw [Nat.zero_add]; exact hb)
  have hcl := cells_length hi
  have hct := hi.count
  simp only [total, Nat.zero_add] at hct
  simp only at hi hcl
  have hg := hi.good
  generalize he : (ops.zip answers).foldl envStep [[]] = e at hg hi
  generalize hc : s.curId = c at hg
  cases hg with
  | block hg hck hpt hsm =>
    obtain ⟨refs', h1, _⟩ := restore_part hs hi hpt (by omega) (by omega)
    simp only [step]
    unfold blockExit
    split
    · exact ⟨_, rfl⟩
    · rw [hc, h1]
      exact ⟨_, rfl⟩

/-- A repeated declaration, which is refused, leaves a record whose cells were never written; closing the block
then reads them. -/
theorem refused_declaration_spoils_exit : ∃ s st, run (⟨[some 0, some 0, some (ITEM_MAX - 1), some 1, some 0, some 0], [ITEM_MAX, 2, ITEM_MAX], 2, 0, -3, -1, 3, 3, []⟩, [])
    [.enter, .decl 2 0 (-1) 1 3, .decl 2 0 (-1) 1 3] = some ([0, 6, SIZE_MAX - 1], s, st) ∧ step (s, st) .exit = none := by
  refine ⟨⟨[some 0, some 0, some (ITEM_MAX - 1), some 1, some 0, some 0, some (ITEM_MAX - 1), some 2, some (-1), some (-3), some 6, none, none, none],
    [ITEM_MAX, 2, 10], 6, 0, -4, -1, 3, 4, []⟩, [.block ⟨-3, -1, 2⟩], ?_, ?_⟩ <;> decide +kernel

/-! ## A concrete case -/

/-- A program: a variable, a function with a parameter, a block with a variable that hides the first one. -/
def sampleStart : Sx := ⟨[some 0, some 0, some (ITEM_MAX - 1), some 1, some 0, some 0], [ITEM_MAX, 2, ITEM_MAX, ITEM_MAX], 2, 0, -3, -1, 3, 3, []⟩

theorem sample_start : Start sampleStart := ⟨⟨0, rfl⟩, rfl, rfl, rfl, by decide +kernel⟩

example : ∃ s st, run (sampleStart, []) [.decl 2 0 (-1) 1 3, .funcEnter, .decl 3 0 (-1) 1 1, .enter, .decl 2 0 (-3) 2 3] = some ([6, 0, 10, 0, 14], s, st) ∧
    getRef s.refs 2 = 14 ∧ s.displ = 6 := by
  refine ⟨⟨[some 0, some 0, some (ITEM_MAX - 1), some 1, some 0, some 0, some (ITEM_MAX - 1), some 2, some (-1), some (-3), some (ITEM_MAX - 1), some 3, some (-1), some 3,
    some 6, some 2, some (-3), some 4], [ITEM_MAX, 2, 14, 10], 14, 0, 6, 1, 6, 4, []⟩, [.block ⟨4, 1, 10⟩, .func (-4)], ?_, ?_, ?_⟩ <;> decide +kernel

example : ∃ s st, run (sampleStart, []) [.decl 2 0 (-1) 1 3, .funcEnter, .decl 3 0 (-1) 1 1, .enter, .decl 2 0 (-3) 2 3, .exit] = some ([6, 0, 10, 0, 14, 0], s, st) ∧
    getRef s.refs 2 = 6 := by
  refine ⟨⟨[some 0, some 0, some (ITEM_MAX - 1), some 1, some 0, some 0, some (ITEM_MAX - 1), some 2, some (-1), some (-3), some (ITEM_MAX - 1), some 3, some (-1), some 3,
    some 6, some 2, some (-3), some 4], [ITEM_MAX, 2, 6, 10], 10, 0, 4, 1, 6, 4, []⟩, [.func (-4)], ?_, ?_⟩ <;> decide +kernel

/-! ## What is recorded, C52 -/

/-- C52 (partial).  An accepted declaration is read back as it was made, and no earlier cell changes.
Missing: functions whose number or type is 1000 or more, where it is false (`late_function_type`,
`late_function_number`). -/
theorem declaration_reads_back_partial {s s' : Sx} {repr a : Nat} {d : Decl} {st st' : List Open} (h : step (s, st) (d.call repr) = some (a, s', st'))
    (ha : a < 18446744073709551614) (hl : s.ids.length < 4611686018427387904) (hr : repr < 9223372036854775808)
    (hf : ∀ number type, d = .function number type ∨ d = .prototype number type → 2 ≤ number ∧ number < 1000 ∧ type < 1000) :
    identRepr s' a = some (d.fields repr s.displ).1 ∧ identType s' a = some (d.fields repr s.displ).2.1 ∧ identDispl s' a = some (d.fields repr s.displ).2.2 ∧
      s.ids <+: s'.ids := by
  have key : ∀ {kind type : Int} {size : Nat} {fd : Int} {x y z : Int}, identAdd s repr kind type size fd = some (a, s') →
      (∀ t, identFill (identOpen s repr) s.ids.length repr kind type size fd = some t → ∃ p, t.ids = s.ids ++ [p, some x, some y, some z]) →
      identRepr s' a = some x ∧ identType s' a = some y ∧ identDispl s' a = some z ∧ s.ids <+: s'.ids := by
    intro kind type size fd x y z hadd hfill
    unfold identAdd at hadd
    split at hadd
    · simp only [Option.some.injEq, Prod.mk.injEq] at hadd
      have := hadd.1
      unfold SIZE_MAX at this
      omega
    · split at hadd
      · cases hadd
      · simp only [Option.some.injEq, Prod.mk.injEq] at hadd
        have := hadd.1
        unfold SIZE_MAX at this
        omega
      · simp only [Option.map_eq_some_iff, Prod.mk.injEq] at hadd
        obtain ⟨t, ht, rfl, rfl⟩ := hadd
        obtain ⟨p, hp⟩ := hfill t ht
        unfold identRepr identType identDispl get
        rw [usz_of_lt (by omega), usz_of_lt (by omega), usz_of_lt (by omega), hp]
        rw [if_pos (by simp), if_pos (by simp), if_pos (by simp), List.getElem?_append_right (by omega), List.getElem?_append_right (by omega),
          List.getElem?_append_right (by omega), Nat.add_sub_cancel_left, Nat.add_sub_cancel_left, Nat.add_sub_cancel_left]
        exact ⟨rfl, rfl, rfl, ⟨_, rfl⟩⟩
  have hit : toItem repr = repr := toItem_of_lt hr
  have hids : (identOpen s repr).ids = s.ids ++ [some (prevCell s repr), none, none, none] := rfl
  have fnc : ∀ {number type : Int} {fd : Int}, 2 ≤ number → number < 1000 → type < 1000 → ∀ t, identFill (identOpen s repr) s.ids.length repr number type 0 fd = some t →
      ∃ p, t.ids = s.ids ++ [p, some (if fd = 2 then -(repr : Int) else repr), some type, some number] := by
    intro number type fd h1 h2 h3 t ht
    unfold identFill at ht
    simp only [hids, set_end.1, set_end.2.1, set_end.2.2] at ht
    rw [if_neg (by omega), if_neg (by omega), if_neg (by omega), if_neg (by omega), if_pos h3] at ht
    split at ht
    · rename_i e
      have hg : get (s.ids ++ [some (prevCell s repr), some (toItem repr), some type, some number]) (s.ids.length + 1) = some (toItem repr) := by
        unfold get
        rw [if_pos (by simp), List.getElem?_append_right (by omega), Nat.add_sub_cancel_left]
        rfl
      rw [hg] at ht
      simp only [Option.map_some, Option.some.injEq, set_end.1, hit] at ht
      subst ht
      exact ⟨_, by rw [if_pos e]⟩
    · rename_i e
      simp only [Option.some.injEq, hit] at ht
      subst ht
      exact ⟨_, by rw [if_neg e]⟩
  simp only [step, Decl.call] at h
  cases d with
  | «variable» type size =>
    simp only [Decl.call, Option.map_eq_some_iff, Prod.mk.injEq] at h
    obtain ⟨⟨b, t⟩, hadd, rfl, rfl, _⟩ := h
    refine key hadd fun t ht => ?_
    unfold identFill getStatic at ht
    simp only [hids, set_end.1, set_end.2.1] at ht
    rw [if_neg (by omega), if_pos (by trivial)] at ht
    simp only [Option.map_map, Option.map_eq_some_iff, Function.comp] at ht
    obtain ⟨d, _, rfl⟩ := ht
    split <;> exact ⟨_, by rw [hit]; exact set_end.2.2⟩
  | functionParameter type =>
    simp only [Option.map_eq_some_iff, Prod.mk.injEq] at h
    obtain ⟨⟨b, t⟩, hadd, rfl, rfl, _⟩ := h
    refine key hadd fun t ht => ?_
    unfold identFill at ht
    simp only [hids, set_end.1, set_end.2.1] at ht
    rw [if_pos (by omega)] at ht
    simp only [Option.map_eq_some_iff] at ht
    obtain ⟨d, _, rfl⟩ := ht
    exact ⟨_, by rw [hit]; exact set_end.2.2⟩
  | typeName type tag =>
    simp only [Option.map_eq_some_iff, Prod.mk.injEq] at h
    obtain ⟨⟨b, t⟩, hadd, rfl, rfl, _⟩ := h
    refine key hadd fun t ht => ?_
    unfold identFill at ht
    simp only [hids, set_end.1, set_end.2.1, set_end.2.2] at ht
    rw [if_neg (by omega), if_neg (by omega), if_neg (by omega), if_pos (by omega)] at ht
    simp only [Option.some.injEq] at ht
    subst ht
    exact ⟨_, by rw [hit]; rfl⟩
  | function number type =>
    simp only [Option.map_eq_some_iff, Prod.mk.injEq] at h
    obtain ⟨⟨b, t⟩, hadd, rfl, rfl, _⟩ := h
    obtain ⟨h1, h2, h3⟩ := hf number type (Or.inl rfl)
    exact key hadd fun t ht => fnc h1 h2 h3 t ht
  | prototype number type =>
    simp only [Option.map_eq_some_iff, Prod.mk.injEq] at h
    obtain ⟨⟨b, t⟩, hadd, rfl, rfl, _⟩ := h
    obtain ⟨h1, h2, h3⟩ := hf number type (Or.inr rfl)
    exact key hadd fun t ht => fnc h1 h2 h3 t ht

/-- The number of a function whose type lies at 1000 or behind in the table of types is not recorded: its cell
stays unwritten, C52 violated. -/
theorem late_function_type : ∃ s a, identAdd sampleStart 2 2 1000 0 1 = some (a, s) ∧ a = 6 ∧ identDispl s a = none := by
  refine ⟨⟨[some 0, some 0, some (ITEM_MAX - 1), some 1, some 0, some 0, some (ITEM_MAX - 1), some 2, some 1000, none], [ITEM_MAX, 2, 6, ITEM_MAX], 2, 0, -3, -1, 3, 3, []⟩, 6,
    ?_, rfl, ?_⟩ <;> decide +kernel

/-- A function with the number 1000 is taken for the name of a type, and its prototype is not remembered, C52 violated. -/
theorem late_function_number : ∃ s a, identAdd sampleStart 2 1000 20 0 2 = some (a, s) ∧ isTypeSpecifier s a = some true ∧ s.predef = [] ∧ identRepr s a = some 2 := by
  refine ⟨⟨[some 0, some 0, some (ITEM_MAX - 1), some 1, some 0, some 0, some (ITEM_MAX - 1), some 2, some 20, some 1000], [ITEM_MAX, 2, 6, ITEM_MAX], 2, 0, -3, -1, 3, 3, []⟩, 6,
    ?_, ?_, rfl, ?_⟩ <;> decide +kernel

example : ∃ s st, step (sampleStart, []) ((Decl.prototype 2 20).call 2) = some (6, s, st) ∧ identRepr s 6 = some (-2) := by
  refine ⟨⟨[some 0, some 0, some (ITEM_MAX - 1), some 1, some 0, some 0, some (ITEM_MAX - 1), some (-2), some 20, some 2], [ITEM_MAX, 2, 6, ITEM_MAX], 2, 0, -3, -1, 3, 3, [2]⟩, [],
    ?_, ?_⟩ <;> decide +kernel

/-! ## The last check, C63 -/

/-- C63.  After a program without errors: `main` is reported as missing exactly if the name was never declared, a
function is reported as undefined exactly if it was declared without a body and not defined afterwards, and the
answer is that the program is correct exactly if nothing is reported. -/
theorem undefined_functions_reported {s0 : Sx} (hs : Start s0) (hn : s0.refs.length < 9223372036854775808) (h0 : s0.predef = []) (h1 : s0.refMain = 0)
    {ops : List Op} {answers : List Nat} {s : Sx} {st : List Open}
    (hp : AllProper (getRef s0.refs) s0.refs.length 0 ops) (h : run (s0, []) ops = some (answers, s, st)) (ha : Accepted answers)
    (hb : s0.ids.length + 4 * (ops.map weight).sum < 4611686018427387904)
    (hf : ∀ r kind type size funcDef, .decl r kind type size funcDef ∈ ops → 2 ≤ kind → kind < 1000 → type < 1000) :
    (.noMain ∈ (isCorrect 0 s).2 ↔ ∀ r, (∃ op ∈ ops, Declares r op) → getRef s0.refs r ≠ 0) ∧
    (∀ r, .undefined r ∈ (isCorrect 0 s).2 ↔ Pending ops r) ∧ ((isCorrect 0 s).1 = true ↔ (isCorrect 0 s).2 = []) := by
  have hk := kept_run hs hn h0 h1 _ (m := (s, st)) rfl hp h ha hb hf
  unfold isCorrect
  rw [if_neg (by simp)]
  simp only
  refine ⟨?_, ?_, ?_⟩
  · rw [← hk.main]
    unfold faults
    rw [List.mem_append, List.mem_map]
    constructor
    · rintro (h | ⟨_, _, h⟩)
      · split at h
        · assumption
        · cases h
      · cases h
    · intro h
      rw [if_pos h]
      exact Or.inl List.mem_cons_self
  · intro r
    by_cases hr : 0 < r
    · rw [← hk.predef r hr]
      unfold faults
      rw [List.mem_append, List.mem_map]
      constructor
      · rintro (h | ⟨x, hx, h⟩)
        · split at h
          · simp at h
          · cases h
        · simp only [List.mem_filter, decide_eq_true_eq] at hx
          simp only [Fault.undefined.injEq] at h
          rcases hk.all x hx.1 with h2 | ⟨q, rfl, _, h4⟩
          · exact absurd h2 hx.2
          · rw [toSize_natCast (by omega)] at h
            subst h
            exact hx.1
      · intro h
        refine Or.inr ⟨r, by simp only [List.mem_filter, decide_eq_true_eq]; exact ⟨h, by omega⟩, ?_⟩
        rcases hk.all _ h with h2 | ⟨q, h3, _, h4⟩
        · omega
        · rw [toSize_natCast (by omega)]
    · obtain rfl : r = 0 := by omega
      constructor
      · intro h
        unfold faults at h
        rw [List.mem_append, List.mem_map] at h
        rcases h with h | ⟨x, hx, h⟩
        · split at h
          · simp at h
          · cases h
        · simp only [List.mem_filter, decide_eq_true_eq] at hx
          simp only [Fault.undefined.injEq] at h
          rcases hk.all x hx.1 with h2 | ⟨q, rfl, h3, h4⟩
          · exact absurd h2 hx.2
          · rw [toSize_natCast (by omega)] at h
            omega
      · rintro ⟨b, op, a, rfl, ⟨k, t, n, rfl, _⟩, _⟩
        obtain ⟨_, hp⟩ := allProper_mem _ hp (.decl 0 k t n 2) (by simp)
        exact absurd hp.1 (by omega)
  · exact List.isEmpty_iff

/-- A program with the name `main` (3): two functions are declared, one of them is defined. -/
def linkStart : Sx := ⟨[some 0, some 0, some (ITEM_MAX - 1), some 1, some 0, some 0], [ITEM_MAX, 2, ITEM_MAX, 0, ITEM_MAX], 2, 0, -3, -1, 3, 3, []⟩

theorem link_start : Start linkStart := ⟨⟨0, rfl⟩, rfl, rfl, rfl, by decide +kernel⟩

def linkOps : List Op := [.decl 2 2 20 0 2, .decl 4 3 20 0 2, .decl 2 4 20 0 1, .funcEnter, .funcExit]

example : ∃ s st, run (linkStart, []) linkOps = some ([6, 10, 14, 0, 0], s, st) ∧ AllProper (getRef linkStart.refs) linkStart.refs.length 0 linkOps ∧
    isCorrect 0 s = (false, [.noMain, .undefined 4]) := by
  have key : (run (linkStart, []) linkOps).map (fun r => (r.1, isCorrect 0 r.2.1)) = some ([6, 10, 14, 0, 0], false, [.noMain, .undefined 4]) := by decide +kernel
  rw [Option.map_eq_some_iff] at key
  obtain ⟨⟨as, s, st⟩, h1, h2⟩ := key
  simp only [Prod.mk.injEq] at h2
  refine ⟨s, st, by rw [h1, h2.1], ?_, by rw [← h2.2]⟩
  have e1 : getRef linkStart.refs 2 = ITEM_MAX := by decide +kernel
  have e2 : getRef linkStart.refs 4 = ITEM_MAX := by decide +kernel
  have hI : (0 : Int) ≤ ITEM_MAX := by decide +kernel
  simp only [linkOps, AllProper, Proper, e1, e2, depthStep]
  simp [linkStart, hI]

/-- A variable with the name `main` counts as the function: a program without `main` is taken for correct. -/
theorem main_variable_counts : ∃ s st, run (linkStart, []) [.decl 3 0 (-1) 1 3] = some ([6], s, st) ∧ isCorrect 0 s = (true, []) := by
  have key : (run (linkStart, []) [.decl 3 0 (-1) 1 3]).map (fun r => (r.1, isCorrect 0 r.2.1)) = some ([6], true, []) := by decide +kernel
  rw [Option.map_eq_some_iff] at key
  obtain ⟨⟨as, s, st⟩, h1, h2⟩ := key
  simp only [Prod.mk.injEq] at h2
  exact ⟨s, st, by rw [h1, h2.1], by rw [← h2.2]⟩

end RuC.Scope.Props
