import Verif.Cond.Total

/-! Runs on properly nested text. -/

namespace RuC.Cond
variable {σ X O : Type} {w : World σ X O}

/-! ## Rules without a bound on the depth -/

/-- `skip_block` answers `r`. -/
def Skips (w : World σ X O) (mac wa : Bool) (b : Kw) (ls : List (Line X)) (st : St σ O) (r : End X × St σ O) : Prop :=
  ∃ n, skip w mac n wa b ls st = some r

/-- The blocks of a nested directive are skipped. -/
def Nests (w : World σ X O) (mac : Bool) (k : Kw) (x : X) (ls : List (Line X)) (st : St σ O)
    (r : List (Line X) × St σ O) : Prop := ∃ n, nest w mac n k x ls st = some r

/-- The remaining blocks are skipped. -/
def Drains (w : World σ X O) (e : End X) (st : St σ O) (r : End X × St σ O) : Prop :=
  ∃ n, drain w n e st = some r

/-- `parse_block` answers `r`. -/
def Blocks (w : World σ X O) (b : Kw) (ls : List (Line X)) (st : St σ O) (r : End X × St σ O) : Prop :=
  ∃ n, block w n b ls st = some r

/-- A directive that opens a block is done. -/
def Opens (w : World σ X O) (k : Kw) (x : X) (ls : List (Line X)) (st : St σ O)
    (r : List (Line X) × St σ O) : Prop := ∃ n, blockOpen w n k x ls st = some r

/-- `parse_elif` answers `r`. -/
def Elifs (w : World σ X O) (x : X) (ls : List (Line X)) (st : St σ O) (r : End X × St σ O) : Prop :=
  ∃ n, elifs w n x ls st = some r

/-- The loop of `parse_while` answers `r`. -/
def Loops (w : World σ X O) (i : Nat) (was : Bool) (x : X) (ls : List (Line X)) (st : St σ O)
    (r : List (Line X) × St σ O) : Prop := ∃ n, loop w n i was x ls st = some r

theorem reset_self (mac : Bool) (st : St σ O) : reset mac st.err st = st := by
  unfold reset; split <;> rfl

theorem Skips.end {mac} {b k : Kw} {x : X} {ls} {st : St σ O} (hk : k.ends = true) (hn : nextOk b k = true) :
    Skips w mac st.err b (.mark k x :: ls) st (some (k, x, ls), st) :=
  ⟨1, by simp only [skip]; rw [if_pos hk, if_pos hn, reset_self]⟩

theorem Skips.plain {mac} {b : Kw} {x : X} {ls} {st : St σ O} {r} (h : Skips w mac st.err b ls st r) :
    Skips w mac st.err b (.plain x :: ls) st r := by
  obtain ⟨n, h⟩ := h
  exact ⟨n + 1, by simp only [skip]; rw [reset_self]; exact h⟩

theorem Skips.nested {mac} {b k : Kw} {x : X} {ls ls'} {st : St σ O} {r} (hk : k.ends = false)
    (ho : k.opens = true) (hn : Nests w mac k x ls st (ls', st)) (h : Skips w mac st.err b ls' st r) :
    Skips w mac st.err b (.mark k x :: ls) st r := by
  obtain ⟨n, h⟩ := h
  obtain ⟨m, hn⟩ := hn
  refine ⟨max n m + 1, ?_⟩
  simp only [skip]
  rw [if_neg (by simp [hk]), if_pos ho, reset_self, nest_mono hn (Nat.le_max_right n m)]
  simp only [reset_self]
  exact skip_mono h (Nat.le_max_left n m)

theorem Nests.stop {mac} {k k' : Kw} {x x' : X} {ls ls'} {st : St σ O}
    (h : Skips w mac st.err k ls st (some (k', x', ls'), st)) (hk : ¬ (k' = .elif ∨ k' = .els)) :
    Nests w mac k x ls st (ls', st) := by
  obtain ⟨n, h⟩ := h
  refine ⟨n + 1, ?_⟩
  simp only [nest]
  rw [h]
  simp only
  rw [if_neg hk]

theorem Nests.step {mac} {k k' : Kw} {x x' : X} {ls ls'} {st : St σ O} {r}
    (h : Skips w mac st.err k ls st (some (k', x', ls'), st)) (hk : k' = .elif ∨ k' = .els)
    (hn : Nests w mac k' x ls' st r) : Nests w mac k x ls st r := by
  obtain ⟨n, h⟩ := h
  obtain ⟨m, hn⟩ := hn
  refine ⟨max n m + 1, ?_⟩
  simp only [nest]
  rw [skip_mono h (Nat.le_max_left n m)]
  simp only
  rw [if_pos hk]
  exact nest_mono hn (Nat.le_max_right n m)

/-- Where a tail begins, with the lines `L` behind it. -/
def Tail.head (t : Tail X) (L : List (Line X)) : Kw × X × List (Line X) :=
  match t with
  | .fin e => (.endif, e, L)
  | .els x b e => (.els, x, b.lines ++ (.mark .endif e :: L))
  | .elif x b t => (.elif, x, b.lines ++ (t.lines ++ L))

theorem Tail.lines_head (t : Tail X) (L : List (Line X)) :
    t.lines ++ L = .mark (t.head L).1 (t.head L).2.1 :: (t.head L).2.2 := by
  cases t <;> simp [Tail.lines, Tail.head]

theorem Tail.head_ends (t : Tail X) (L : List (Line X)) : (t.head L).1.ends = true := by cases t <;> rfl

/-- The keywords a conditional or one of its branches but the last begins with. -/
def Kw.branch : Kw → Bool
  | .ifk | .ifdef | .ifndef | .elif => true
  | _ => false

theorem Tail.head_ok (t : Tail X) (L : List (Line X)) {k : Kw} (hk : k.branch = true) :
    nextOk k (t.head L).1 = true := by
  cases t <;> cases k <;> first | rfl | cases hk

mutual
theorem skips_prog (p : Prog X) : ∀ {mac b L} {st : St σ O} {r}, Skips w mac st.err b L st r →
    Skips w mac st.err b (p.lines ++ L) st r := by
  intro mac b L st r h
  cases p with
  | nil => exact h
  | plain x rest => exact Skips.plain (skips_prog rest h)
  | cond g x body tail rest =>
    simp only [Prog.lines, List.cons_append, List.append_assoc]
    refine Skips.nested (by cases g <;> rfl) (by cases g <;> rfl) ?_ (skips_prog rest h)
    refine nests_tail tail (skips_prog body ?_)
    rw [Tail.lines_head]
    exact Skips.end (Tail.head_ends _ _) (Tail.head_ok _ _ (by cases g <;> rfl))
  | loop x body e rest =>
    simp only [Prog.lines, List.cons_append, List.append_assoc]
    refine Skips.nested rfl rfl ?_ (skips_prog rest h)
    exact Nests.stop (skips_prog body (Skips.end rfl rfl)) (by decide)
  | define x body e rest =>
    simp only [Prog.lines, List.cons_append, List.append_assoc]
    refine Skips.nested rfl rfl ?_ (skips_prog rest h)
    exact Nests.stop (skips_prog body (Skips.end rfl rfl)) (by decide)
theorem nests_tail (t : Tail X) : ∀ {mac k} {x : X} {ls L} {st : St σ O},
    Skips w mac st.err k ls st (some (t.head L), st) → Nests w mac k x ls st (L, st) := by
  intro mac k x ls L st h0
  cases t with
  | fin e => exact Nests.stop h0 (by decide)
  | els x b e =>
    exact Nests.step h0 (by decide) (Nests.stop (skips_prog b (Skips.end rfl rfl)) (by decide))
  | elif x b t =>
    refine Nests.step h0 (by decide) (nests_tail t (skips_prog b ?_))
    rw [Tail.lines_head]
    exact Skips.end (Tail.head_ends _ _) (Tail.head_ok _ _ rfl)
end

theorem skips_body (body : Prog X) (tail : Tail X) {k} {L} {st : St σ O} (hk : k.branch = true) :
    Skips w false st.err k (body.lines ++ (tail.lines ++ L)) st (some (tail.head L), st) := by
  refine skips_prog body ?_
  rw [Tail.lines_head]
  exact Skips.end (Tail.head_ends _ _) (Tail.head_ok _ _ hk)

/-- The last line of a tail. -/
def Tail.last : Tail X → X
  | .fin e => e
  | .els _ _ e => e
  | .elif _ _ t => t.last

theorem Drains.step {k : Kw} {x : X} {ls} {st st' : St σ O} {e} {r} (hk : k ≠ .endif)
    (hs : Skips w false st.err k ls st (e, st')) (h : Drains w e st' r) : Drains w (some (k, x, ls)) st r := by
  obtain ⟨n, hs⟩ := hs
  obtain ⟨m, h⟩ := h
  refine ⟨max n m + 1, ?_⟩
  simp only [drain]
  rw [if_neg hk, skip_mono hs (Nat.le_max_left n m)]
  exact drain_mono h (Nat.le_max_right n m)

theorem Drains.done {x : X} {ls} {st : St σ O} :
    Drains w (some (.endif, x, ls)) st (some (.endif, x, ls), st) :=
  ⟨1, by simp only [drain, if_true]⟩

theorem drains_tail (t : Tail X) : ∀ {L} {st : St σ O},
    Drains w (some (t.head L)) st (some (.endif, t.last, L), st) := by
  intro L st
  match t with
  | .fin e => exact Drains.done
  | .els x b e => exact Drains.step (by decide) (skips_prog b (Skips.end rfl rfl)) Drains.done
  | .elif x b t => exact Drains.step (by decide) (skips_body b t rfl) (drains_tail t)

theorem Blocks.end {b k : Kw} {x : X} {ls} {st : St σ O} (hk : k.ends = true) (hn : nextOk b k = true) :
    Blocks w b (.mark k x :: ls) st (some (k, x, ls), st) :=
  ⟨1, by simp only [block]; rw [if_pos hk, if_pos hn]⟩

theorem Blocks.opened {b k : Kw} {x : X} {ls ls'} {st st' : St σ O} {r} (hk : k.ends = false)
    (ho : Opens w k x ls st (ls', st')) (h : Blocks w b ls' st' r) : Blocks w b (.mark k x :: ls) st r := by
  obtain ⟨n, h⟩ := h
  obtain ⟨m, ho⟩ := ho
  refine ⟨max n m + 1, ?_⟩
  simp only [block]
  rw [if_neg (by simp [hk]), blockOpen_mono ho (Nat.le_max_right n m)]
  exact block_mono h (Nat.le_max_left n m)

theorem Elifs.yes {x : X} {ls} {st st' : St σ O} {e r} (hc : (w.cond x st).1 ≠ 0)
    (hb : Blocks w .elif ls (w.cond x st).2 (e, st')) (hd : Drains w e st' r) : Elifs w x ls st r := by
  obtain ⟨n, hb⟩ := hb
  obtain ⟨m, hd⟩ := hd
  refine ⟨max n m + 1, ?_⟩
  simp only [elifs]
  rw [if_pos hc, block_mono hb (Nat.le_max_left n m)]
  exact drain_mono hd (Nat.le_max_right n m)

/-- What follows a branch not taken. -/
def Nexts (w : World σ X O) (q : Kw × X × List (Line X)) (st : St σ O) (r : End X × St σ O) : Prop :=
  match q with
  | (.elif, x, ls) => Elifs w x ls st r
  | (.els, _, ls) => Blocks w .els ls st r
  | q => r = (some q, st)

theorem Elifs.no {x : X} {ls} {st : St σ O} {q r} (hc : (w.cond x st).1 = 0)
    (hs : Skips w false (w.cond x st).2.err .elif ls (w.cond x st).2 (some q, (w.cond x st).2))
    (hq : Nexts w q (w.cond x st).2 r) : Elifs w x ls st r := by
  obtain ⟨n, hs⟩ := hs
  obtain ⟨k, x', ls'⟩ := q
  cases k
  case elif =>
    obtain ⟨m, h⟩ := hq
    refine ⟨max n m + 1, ?_⟩
    simp only [elifs]
    rw [if_neg (by simp [hc]), skip_mono hs (Nat.le_max_left n m)]
    exact elifs_mono h (Nat.le_max_right n m)
  case els =>
    obtain ⟨m, h⟩ := hq
    refine ⟨max n m + 1, ?_⟩
    simp only [elifs]
    rw [if_neg (by simp [hc]), skip_mono hs (Nat.le_max_left n m)]
    exact block_mono h (Nat.le_max_right n m)
  all_goals
    refine ⟨n + 1, ?_⟩
    simp only [elifs]
    rw [if_neg (by simp [hc]), hs]
    exact congrArg some hq.symm

theorem Opens.ifk {x : X} {ls} {st st' : St σ O} {e} (h : Elifs w x ls st (e, st')) :
    Opens w .ifk x ls st (finish w x e st') := by
  obtain ⟨n, h⟩ := h
  exact ⟨n + 1, by simp only [blockOpen]; rw [h]⟩

/-- `#ifdef` or `#ifndef`. -/
def Guard.want : Guard → Option Bool
  | .ifk => none
  | .ifdef => some true
  | .ifndef => some false

theorem opens_ifdefs {g : Guard} {b : Bool} (hg : g.want = some b) {n x ls} {st : St σ O} :
    blockOpen w (n + 1) g.kw x ls st = ifdefs w n g.kw b x ls st := by
  cases g
  · cases hg
  · obtain rfl : true = b := by simpa [Guard.want] using hg
    rfl
  · obtain rfl : false = b := by simpa [Guard.want] using hg
    rfl

theorem ifdefs_of {n m : Nat} {k b} {x : X} {ls} {st : St σ O} {p q} (h : ifdefHead w n k b x ls st = some p)
    (hd : drain w m p.1 p.2 = some q) :
    ∃ n, ifdefs w n k b x ls st = some (finish w x q.1 q.2) := by
  refine ⟨max n m + 1, ?_⟩
  simp only [ifdefs]
  rw [ifdefHead_mono h (Nat.le_max_left n m)]
  simp only
  rw [drain_mono hd (Nat.le_max_right n m)]

theorem Opens.guard {g : Guard} {b : Bool} (hg : g.want = some b) {n m : Nat} {x : X} {ls} {st : St σ O} {p q}
    (h : ifdefHead w n g.kw b x ls st = some p) (hd : drain w m p.1 p.2 = some q) :
    Opens w g.kw x ls st (finish w x q.1 q.2) := by
  obtain ⟨n, h⟩ := ifdefs_of h hd
  exact ⟨n + 1, by rw [opens_ifdefs hg]; exact h⟩

theorem Opens.guard_none {g : Guard} {b : Bool} (hg : g.want = some b) {x : X} {ls} {st : St σ O} {e st'}
    (hn : (w.name x st).1 = none) (hd : Drains w (some (g.kw, x, ls)) (w.name x st).2 (e, st')) :
    Opens w g.kw x ls st (finish w x e st') := by
  obtain ⟨m, hd⟩ := hd
  exact Opens.guard hg (n := 1) (p := (some (g.kw, x, ls), (w.name x st).2))
    (by simp only [ifdefHead]; rw [if_pos hn]) hd

theorem Opens.guard_yes {g : Guard} {b : Bool} (hg : g.want = some b) {x : X} {ls} {st : St σ O} {e st' e' st''}
    (hn : (w.name x st).1 = some b) (hb : Blocks w g.kw ls (w.name x st).2 (e, st'))
    (hd : Drains w e st' (e', st'')) : Opens w g.kw x ls st (finish w x e' st'') := by
  obtain ⟨m, hd⟩ := hd
  obtain ⟨n, hb⟩ := hb
  exact Opens.guard hg (n := n + 1) (p := (e, st'))
    (by simp only [ifdefHead]; rw [if_neg (by simp [hn]), if_pos hn]; exact hb) hd

theorem Opens.guard_no {g : Guard} {b : Bool} (hg : g.want = some b) {x : X} {ls} {st : St σ O} {q p e' st''}
    (hn : (w.name x st).1 = some (!b))
    (hs : Skips w false (w.name x st).2.err g.kw ls (w.name x st).2 (some q, (w.name x st).2))
    (hq : Nexts w q (w.name x st).2 p) (hd : Drains w p.1 p.2 (e', st'')) :
    Opens w g.kw x ls st (finish w x e' st'') := by
  obtain ⟨m, hd⟩ := hd
  obtain ⟨n, hs⟩ := hs
  have h1 : ¬ (w.name x st).1 = none := by simp [hn]
  have h2 : ¬ (w.name x st).1 = some b := by cases b <;> simp [hn]
  obtain ⟨k, x', ls'⟩ := q
  cases k
  case elif =>
    obtain ⟨n', h⟩ := hq
    refine Opens.guard hg (n := max n n' + 1) (p := p) ?_ hd
    simp only [ifdefHead]
    rw [if_neg h1, if_neg h2, skip_mono hs (Nat.le_max_left n n')]
    exact elifs_mono h (Nat.le_max_right n n')
  case els =>
    obtain ⟨n', h⟩ := hq
    refine Opens.guard hg (n := max n n' + 1) (p := p) ?_ hd
    simp only [ifdefHead]
    rw [if_neg h1, if_neg h2, skip_mono hs (Nat.le_max_left n n')]
    exact block_mono h (Nat.le_max_right n n')
  all_goals
    refine Opens.guard hg (n := n + 1) (p := p) ?_ hd
    simp only [ifdefHead]
    rw [if_neg h1, if_neg h2, hs]
    exact congrArg some hq.symm

theorem Opens.define {x e : X} {body : Prog X} {L} {st : St σ O} :
    Opens w .macro x (body.lines ++ (.mark .endm e :: L)) st
      (L, w.defMacro x body.lines (w.macroHead x st).2) := by
  have hs : Skips w (w.macroHead x st).1 (w.macroHead x st).2.err .macro
      (body.lines ++ (.mark .endm e :: L)) (w.macroHead x st).2 (some (.endm, e, L), (w.macroHead x st).2) :=
    skips_prog body (Skips.end rfl rfl)
  obtain ⟨n, hs⟩ := hs
  refine ⟨n + 1, ?_⟩
  simp only [blockOpen]
  unfold parseMacro
  rw [hs]
  simp only
  congr 2
  congr 1
  have : body.lines.length + (L.length + 1) - L.length - 1 = body.lines.length := by omega
  simp [this]

theorem Opens.while_no {x e : X} {body : Prog X} {L} {st : St σ O} (hc : (w.cond x st).1 = 0) :
    Opens w .whil x (body.lines ++ (.mark .endw e :: L)) st (L, (w.cond x st).2) := by
  have hs : Skips w false (w.cond x st).2.err .whil
      (body.lines ++ (.mark .endw e :: L)) (w.cond x st).2 (some (.endw, e, L), (w.cond x st).2) :=
    skips_prog body (Skips.end rfl rfl)
  obtain ⟨n, hs⟩ := hs
  refine ⟨n + 1, ?_⟩
  simp only [blockOpen]
  rw [if_pos hc]
  unfold whileSkip
  rw [hs]

theorem Opens.while_yes {x : X} {ls} {st : St σ O} {r} (hc : (w.cond x st).1 ≠ 0)
    (h : Loops w 0 (w.cond x st).2.err x ls { (w.cond x st).2 with err := w.quiet && (w.cond x st).2.err } r) :
    Opens w .whil x ls st r := by
  obtain ⟨n, h⟩ := h
  refine ⟨n + 1, ?_⟩
  simp only [blockOpen]
  rw [if_neg hc]
  exact h

theorem error_err (k : ErrKind) (x : X) (st : St σ O) : (w.error k x st).err = true := by
  unfold World.error
  split
  · rename_i h; simp only [Bool.and_eq_true] at h; exact h.2
  · rfl

theorem or_err {st : St σ O} (b : Bool) (h : st.err = true) : ({ st with err := st.err || b } : St σ O) = st := by
  cases st; simp only at h; subst h; rfl

/-- The loop of `parse_while` repeats its body. -/
theorem loops_repeats {x e : X} {body : St σ O → St σ O} {ls L} {was : Bool}
    (hb : ∀ st, Blocks w .whil ls st (some (.endw, e, L), body st)) (d : Nat) :
    ∀ i st, maxIteration - i = d →
      Loops w i was x ls st
        (L, { repeats w x body d st with err := (repeats w x body d st).err || was }) := by
  induction d with
  | zero =>
    intro i st hd
    obtain ⟨n, h⟩ := hb st
    refine ⟨n + 1, ?_⟩
    simp only [loop, repeats]
    rw [h]
    simp only
    rw [if_pos (by omega), or_err _ (error_err _ _ _)]
  | succ d ih =>
    intro i st hd
    obtain ⟨n, h⟩ := hb st
    simp only [repeats]
    by_cases he : (body st).err = true
    · refine ⟨n + 1, ?_⟩
      simp only [loop]
      rw [h]
      simp only
      rw [if_neg (by omega), if_pos he]
      simp only [if_pos he]
      rw [or_err _ he]
    · by_cases hc : (w.cond x (body st)).1 = 0
      · refine ⟨n + 1, ?_⟩
        simp only [loop]
        rw [h]
        simp only
        rw [if_neg (by omega), if_neg he, if_pos hc]
        simp only [if_neg he, if_pos hc]
      · obtain ⟨m, h2⟩ := ih (i + 1) (w.cond x (body st)).2 (by omega)
        refine ⟨max n m + 1, ?_⟩
        simp only [loop]
        rw [block_mono h (Nat.le_max_left n m)]
        simp only
        rw [if_neg (by omega), if_neg he, if_neg hc]
        simp only [if_neg he, if_neg hc]
        exact loop_mono h2 (Nat.le_max_right n m)

/-! ## Runs -/

mutual
theorem blocks_prog (p : Prog X) : ∀ {b L} {st : St σ O} {r}, Blocks w b L (p.meaning w st) r →
    Blocks w b (p.lines ++ L) st r := by
  intro b L st r h
  cases p with
  | nil => exact h
  | plain x rest =>
    obtain ⟨n, h⟩ := blocks_prog rest (st := w.act x st) h
    exact ⟨n + 1, h⟩
  | cond g x body tail rest =>
    simp only [Prog.lines, List.cons_append, List.append_assoc]
    have hk : g.kw.ends = false := by cases g <;> rfl
    have hbr : g.kw.branch = true := by cases g <;> rfl
    refine Blocks.opened hk ?_ (blocks_prog rest h)
    cases hw : g.want with
    | none =>
      have hg : g = .ifk := by cases g <;> first | rfl | cases hw
      subst hg
      simp only [Guard.holds, Option.some.injEq, decide_eq_true_eq, decide_eq_false_iff_not,
        Decidable.not_not]
      have he : Elifs w x (body.lines ++ (tail.lines ++ (rest.lines ++ L))) st
          (some (.endif, tail.last, rest.lines ++ L), if ¬ (w.cond x st).1 = 0 then body.meaning w (w.cond x st).2
            else tail.meaning w (w.cond x st).2) := by
        by_cases hc : (w.cond x st).1 = 0
        · rw [if_neg (by simp [hc])]
          exact Elifs.no hc (skips_body body tail rfl) (nexts_tail tail)
        · rw [if_pos hc]
          refine Elifs.yes hc (e := some (tail.head (rest.lines ++ L))) (blocks_prog body ?_) (drains_tail tail)
          rw [Tail.lines_head]
          exact Blocks.end (Tail.head_ends _ _) (Tail.head_ok _ _ rfl)
      have := Opens.ifk he
      rw [show Guard.ifk.kw = Kw.ifk from rfl]
      by_cases hc : (w.cond x st).1 = 0
      · simpa only [finish, hc, not_true_eq_false, if_false, if_true, ne_eq] using this
      · simpa only [finish, hc, not_false_eq_true, if_true, ne_eq] using this
    | some b =>
      have hh : g.holds w x st = ((w.name x st).1.map (· == b), (w.name x st).2) := by
        cases g
        · cases hw
        · obtain rfl : true = b := by simpa [Guard.want] using hw
          simp [Guard.holds]
        · obtain rfl : false = b := by simpa [Guard.want] using hw
          simp only [Guard.holds, Prod.mk.injEq, and_true]
          congr 1
          funext y
          cases y <;> rfl
      rw [hh]
      cases hn : (w.name x st).1 with
      | none =>
        exact Opens.guard_none hw hn (e := some (.endif, tail.last, rest.lines ++ L))
          (Drains.step (by cases g <;> decide) (skips_body body tail hbr) (drains_tail tail))
      | some y =>
        by_cases hy : y = b
        · subst hy
          simp only [Option.map_some, BEq.rfl, if_true]
          refine Opens.guard_yes hw hn (e := some (tail.head (rest.lines ++ L)))
            (e' := some (.endif, tail.last, rest.lines ++ L)) (blocks_prog body ?_) (drains_tail tail)
          rw [Tail.lines_head]
          exact Blocks.end (Tail.head_ends _ _) (Tail.head_ok _ _ hbr)
        · have hy' : (y == b) = false := by simp [hy]
          simp only [Option.map_some, hy', Option.some.injEq, Bool.false_eq_true, if_false, if_true]
          exact Opens.guard_no hw (by rw [hn]; cases y <;> cases b <;> simp_all)
            (p := (some (.endif, tail.last, rest.lines ++ L), tail.meaning w (w.name x st).2))
            (e' := some (.endif, tail.last, rest.lines ++ L))
            (skips_body body tail hbr) (nexts_tail tail) Drains.done
  | loop x body e rest =>
    simp only [Prog.lines, List.cons_append, List.append_assoc]
    refine Blocks.opened rfl ?_ (blocks_prog rest h)
    unfold whiles
    by_cases hc : (w.cond x st).1 = 0
    · rw [if_pos hc]
      exact Opens.while_no hc
    · rw [if_neg hc]
      refine Opens.while_yes hc (loops_repeats (e := e) (L := rest.lines ++ L) ?_ maxIteration 0 _ rfl)
      exact fun s => blocks_prog body (Blocks.end rfl rfl)
  | define x body e rest =>
    simp only [Prog.lines, List.cons_append, List.append_assoc]
    exact Blocks.opened rfl Opens.define (blocks_prog rest h)
theorem nexts_tail (t : Tail X) : ∀ {L} {st : St σ O},
    Nexts w (t.head L) st (some (.endif, t.last, L), t.meaning w st) := by
  intro L st
  cases t with
  | fin e => rfl
  | els x b e => exact blocks_prog b (Blocks.end rfl rfl)
  | elif x b t =>
    show Elifs w x (b.lines ++ (t.lines ++ L)) st _
    simp only [Tail.meaning]
    by_cases hc : (w.cond x st).1 = 0
    · rw [if_neg (by simp [hc])]
      exact Elifs.no hc (skips_body b t rfl) (nexts_tail t)
    · rw [if_pos hc]
      refine Elifs.yes hc (e := some (t.head L)) (blocks_prog b ?_) (drains_tail t)
      rw [Tail.lines_head]
      exact Blocks.end (Tail.head_ends _ _) (Tail.head_ok _ _ rfl)
end

theorem preprocess_prog {n : Nat} {p : Prog X} {st : St σ O} (hn : depth p.lines.length ≤ n) :
    preprocess w n p.lines st = some (p.meaning w st) := by
  have h : Blocks w .non (p.lines ++ []) st (none, p.meaning w st) := blocks_prog p ⟨1, rfl⟩
  rw [List.append_nil] at h
  obtain ⟨m, h⟩ := h
  obtain ⟨r, h2⟩ := block_total (w := w) (b := .non) (st := st) hn
  have e1 := block_mono h (Nat.le_max_right n m)
  have e2 := block_mono h2 (Nat.le_max_left n m)
  unfold preprocess
  rw [h2, ← e2, e1]
  rfl

end RuC.Cond
