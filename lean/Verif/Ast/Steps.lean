import Verif.Ast.Reads

/-!
# The parts the constructors are made of, on forests of pending trees
-/

namespace RuC.Ast
open RuC Tree

variable {k : Nat} {v : List Int} {P : List (Nat × Tr)} {tops ctx : List Nat} {S : T} {out : List Nat} {O : Nat → List Nat}

/-- A function under the root. -/
theorem Inv.func (I : Inv k v P tops ctx S out O) (ty : Int) (args : List Int) (h0 : 0 ∈ ctx)
    (hb : k + 5 + args.length < 4611686018427387904) :
    ∃ n v' S' out' O', Ast.leaf v 0 ty args = (n, v') ∧
      Inv (k + 5 + args.length) v' ((n, .mk ty args .nil) :: P) (tops ++ [n]) (n :: ctx) S' out' O' := by
  obtain ⟨n, v', S', out', O', e, hn, I', kc, rest⟩ := I.leaf ty args h0 hb
  refine ⟨n, v', S', out', O', e, I'.ses, I'.tree, I'.holds, I'.perm, I'.root, ?_, ?_, ?_, ?_⟩
  · intro c hc
    rcases List.mem_cons.1 hc with rfl | hc
    · simp
    · exact (I'.ctxs c hc).imp id (fun h => by simp [h])
  · intro m hm hmc
    exact I'.clean m hm (fun h => hmc (List.mem_cons_of_mem _ h))
  · intro m hm
    rcases List.mem_append.1 hm with hm | hm
    · exact I'.topsub m hm
    · simp only [List.mem_singleton] at hm
      simp [names, hm]
  · rw [kc, List.filter_append]
    have : ((S.kids 0).filter fun c => decide (c ∈ tops ++ [n])) = tops := by
      refine Eq.trans (List.filter_congr (fun c hc => ?_)) I.order
      have : c ≠ n := fun e => hn (e ▸ I.tree.1.kids_mem I.zero hc)
      simp [this]
    rw [this]
    simp

/-- A declarator of the unit. -/
theorem Inv.global {x : Nat} {t : Tr} (I : Inv k v P tops ctx S out O) (hxm : (x, t) ∈ P) (hx : x ∉ tops) (h0 : 0 ∈ ctx)
    (hb : k + 5 < 4611686018427387904) :
    ∃ v' S' out', Ast.attach v 0 x = some v' ∧ Inv (k + 5) v' P (tops ++ [x]) ctx S' out' O := by
  have hx0 := I.ne_zero hxm (I.mem hxm)
  have hxn : x ∈ names P := List.mem_map.2 ⟨_, hxm, rfl⟩
  obtain ⟨v', S', out', e, s', t', hp, h⟩ := tree_set_child (nop := OP_NOP) I.ses hb I.tree I.zero (I.sub hxm (I.mem hxm)) hx0
    (I.forest hxm (I.clean_of hxm hx)).forest (fun hm => I.ne_zero hxm hm rfl)
  have hstrip : ∀ m ∈ out, strip S' (names P) m = strip S (names P) m := by
    intro m hm
    rw [strip, (h m hm).1, List.filter_append, List.filter_filter]
    have h1 : ((if m = 0 then [x] else []).filter fun c => decide (c ∉ names P)) = [] := by
      split
      · simp [hxn]
      · rfl
    rw [h1, List.append_nil, strip]
    refine List.filter_congr (fun c _ => ?_)
    by_cases e : c = x
    · simp [e, hxn]
    · simp [e]
  refine ⟨v', S', out', e, s', t', ?_, hp.trans I.perm, ?_, ?_, ?_, ?_, ?_⟩
  · intro y hy
    refine (I.holds y hy).congr (fun m hm => ?_)
    have hmo := I.sub hy hm
    exact ⟨hstrip m hmo, (h m hmo).2.2, (h m hmo).2.1⟩
  · rw [hstrip 0 I.zero]; exact I.root
  · intro c hc
    exact (I.ctxs c hc).imp id (fun h => by simp [h])
  · intro m hm hmc c hck hcn
    have hmo := hp.mem_iff.1 hm
    have hm0 : m ≠ 0 := fun e => hmc (e ▸ h0)
    rw [(h m hmo).1, if_neg hm0, List.append_nil, List.mem_filter] at hck
    exact I.clean m hmo hmc c hck.1 hcn
  · intro m hm
    rcases List.mem_append.1 hm with hm | hm
    · exact I.topsub m hm
    · simp only [List.mem_singleton] at hm
      exact hm ▸ hxn
  · rw [(h 0 I.zero).1, if_pos rfl, List.filter_append, List.filter_filter]
    have : ((S.kids 0).filter fun a => decide (a ∈ tops ++ [x]) && decide (a ≠ x)) = tops := by
      refine Eq.trans (List.filter_congr (fun c _ => ?_)) I.order
      by_cases e : c = x
      · simp [e, hx]
      · simp [e]
    rw [this]
    simp

theorem Inv.lt {x : Nat × Tr} (I : Inv k v P tops ctx S out O) (hb : k < 4611686018427387904) (hx : x ∈ P) : x.1 < 4611686018427387904 := by
  obtain ⟨out', R, hl⟩ := session_rep I.ses hb
  have := I.tree.1.det R.tree.1
  subst this
  have := R.lt (I.sub hx (I.mem hx))
  omega

theorem Inv.load {x : Nat × Tr} (I : Inv k v P tops ctx S out O) (hb : k < 4611686018427387904) (hx : x ∈ P) : nodeLoad v x.1 = some x.1 := by
  obtain ⟨r, v1, S1, e, t1, s1⟩ := tree_refines (op := .load x.1) I.ses ⟨out, I.tree.1, I.sub hx (I.mem hx)⟩ (by simpa [Op.cost] using hb)
  cases t1
  simp only [step, Option.some.injEq, Prod.mk.injEq, Res.node.injEq] at e
  exact e.1

/-- The vector `v` holds the pending trees `P`. -/
def J (k : Nat) (v : List Int) (P : List (Nat × Tr)) (tops ctx : List Nat) : Prop :=
  ∃ k' S out O, k' ≤ k ∧ Inv k' v P tops ctx S out O

theorem J.mono (j : J k v P tops ctx) {k' : Nat} (h : k ≤ k') : J k' v P tops ctx := by
  obtain ⟨k1, S, out, O, hk, I⟩ := j
  exact ⟨k1, S, out, O, by omega, I⟩

theorem J.permute (j : J k v P tops ctx) {P' : List (Nat × Tr)} (h : P.Perm P') : J k v P' tops ctx := by
  obtain ⟨k1, S, out, O, hk, I⟩ := j
  exact ⟨k1, S, out, O, hk, I.permute h⟩

theorem J.leaf (j : J k v P tops ctx) {c : Nat} (ty : Int) (args : List Int) (hc : c ∈ ctx)
    (hb : k + 5 + args.length < 4611686018427387904) :
    ∃ n v', Ast.leaf v c ty args = (n, v') ∧ J (k + 5 + args.length) v' ((n, .mk ty args .nil) :: P) tops ctx := by
  obtain ⟨k1, S, out, O, hk, I⟩ := j
  obtain ⟨n, v', S', out', O', e, -, I', -⟩ := I.leaf ty args hc (by omega)
  exact ⟨n, v', e, _, S', out', O', by omega, I'⟩

theorem J.func (j : J k v P tops ctx) (ty : Int) (args : List Int) (hc : 0 ∈ ctx)
    (hb : k + 5 + args.length < 4611686018427387904) :
    ∃ n v', Ast.leaf v 0 ty args = (n, v') ∧ J (k + 5 + args.length) v' ((n, .mk ty args .nil) :: P) (tops ++ [n]) (n :: ctx) := by
  obtain ⟨k1, S, out, O, hk, I⟩ := j
  obtain ⟨n, v', S', out', O', e, I'⟩ := I.func ty args hc (by omega)
  exact ⟨n, v', e, _, S', out', O', by omega, I'⟩

theorem J.global {x : Nat} {t : Tr} (j : J k v P tops ctx) (hxm : (x, t) ∈ P) (hx : x ∉ tops) (h0 : 0 ∈ ctx)
    (hb : k + 5 < 4611686018427387904) : ∃ v', Ast.attach v 0 x = some v' ∧ J (k + 5) v' P (tops ++ [x]) ctx := by
  obtain ⟨k1, S, out, O, hk, I⟩ := j
  obtain ⟨v', S', out', e, I'⟩ := I.global hxm hx h0 (by omega)
  exact ⟨v', e, _, S', out', O, by omega, I'⟩

theorem J.leafIn {p : Nat} {ty : Int} {a : List Int} {ks : Trs} (ty' : Int) (args : List Int)
    (j : J k v ((p, .mk ty a ks) :: P) tops ctx) (hp : p ∈ ctx) (hb : k + 5 + args.length < 4611686018427387904) :
    ∃ n v', Ast.leaf v p ty' args = (n, v') ∧
      J (k + 5 + args.length) v' ((p, .mk ty a (ks.append (.cons (.mk ty' args .nil) .nil))) :: P) tops ctx := by
  obtain ⟨k1, S, out, O, hk, I⟩ := j
  obtain ⟨n, v', S', out', O', e, I'⟩ := I.leafIn ty' args hp (by omega)
  exact ⟨n, v', e, _, S', out', O', by omega, I'⟩

theorem J.attach {p x : Nat} {ty : Int} {a : List Int} {ks : Trs} {t : Tr}
    (j : J k v ((p, .mk ty a ks) :: (x, t) :: P) tops ctx) (hx : x ∉ tops) (hb : k + 5 < 4611686018427387904) :
    ∃ v', Ast.attach v p x = some v' ∧ J (k + 5) v' ((p, .mk ty a (ks.append (.cons t .nil))) :: P) tops ctx := by
  obtain ⟨k1, S, out, O, hk, I⟩ := j
  obtain ⟨v', S', out', O', e, I'⟩ := I.attach hx (by omega)
  exact ⟨v', e, _, S', out', O', by omega, I'⟩

theorem J.insert {x : Nat} {t : Tr} (ty : Int) (argc : Nat) (j : J k v ((x, t) :: P) tops ctx) (hx : x ∉ tops)
    (hb : k + 5 + argc < 4611686018427387904) :
    ∃ n v', insertNode v x ty argc = some (n, v') ∧
      J (k + 5 + argc) v' ((n, .mk ty (List.replicate argc 0) (.cons t .nil)) :: P) tops ctx := by
  obtain ⟨k1, S, out, O, hk, I⟩ := j
  obtain ⟨n, v', S', out', O', e, -, -, I'⟩ := I.insert ty argc hx (by omega)
  exact ⟨n, v', e, _, S', out', O', by omega, I'⟩

theorem J.lt {x : Nat} {t : Tr} (j : J k v P tops ctx) (hb : k < 4611686018427387904) (hx : (x, t) ∈ P) : x < 4611686018427387904 := by
  obtain ⟨k1, S, out, O, hk, I⟩ := j
  exact I.lt (by omega) hx

theorem J.load {x : Nat} {t : Tr} (j : J k v P tops ctx) (hb : k < 4611686018427387904) (hx : (x, t) ∈ P) : nodeLoad v x = some x := by
  obtain ⟨k1, S, out, O, hk, I⟩ := j
  exact I.load (by omega) hx

theorem setAll_eq (l : List Int) : ∀ (a : List Int) (i : Nat), i + l.length ≤ a.length →
    setAll a i l = a.take i ++ l ++ a.drop (i + l.length) := by
  induction l with
  | nil => intro a i h; simp [setAll]
  | cons b l ih =>
    intro a i h
    simp only [List.length_cons] at h
    rw [setAll, ih _ _ (by rw [List.length_set]; omega), List.take_add_one, List.drop_set_of_lt (by omega), List.take_set_of_le (by omega)]
    simp only [List.getElem?_set_self (show i < a.length by omega), Option.toList_some, List.append_assoc, List.cons_append, List.nil_append,
      List.length_cons]
    rw [show i + 1 + l.length = i + (l.length + 1) by omega]

theorem J.setArgs {p : Nat} {ty : Int} {ks : Trs} (l : List Int) {i : Nat} {a : List Int}
    (j : J k v ((p, .mk ty a ks) :: P) tops ctx) (hi : i + l.length ≤ a.length) (hb : k < 4611686018427387904) :
    J k (Ast.setArgs v p i l) ((p, .mk ty (a.take i ++ l ++ a.drop (i + l.length)) ks) :: P) tops ctx := by
  obtain ⟨k1, S, out, O, hk, I⟩ := j
  obtain ⟨S', -, I'⟩ := I.setArgs l hi (by omega)
  rw [setAll_eq l a i hi] at I'
  exact ⟨_, S', out, O, hk, I'⟩

theorem J.setAllArgs {p : Nat} {ty : Int} {ks : Trs} (l : List Int) {a : List Int}
    (j : J k v ((p, .mk ty a ks) :: P) tops ctx) (hi : l.length = a.length) (hb : k < 4611686018427387904) :
    J k (Ast.setArgs v p 0 l) ((p, .mk ty l ks) :: P) tops ctx := by
  have := j.setArgs l (i := 0) (by omega) hb
  rw [List.drop_eq_nil_of_le (by omega)] at this
  simpa using this

theorem J.discard {x : Nat} {t : Tr} (j : J k v ((x, t) :: P) tops ctx) (hx : x ∉ tops) (hb : k < 4611686018427387904) :
    ∃ w, nodeRemove v x = some w ∧ J k w.2 P tops ctx := by
  obtain ⟨k1, S, out, O, hk, I⟩ := j
  obtain ⟨w, S', out', e, I'⟩ := I.discard hx (by omega)
  exact ⟨w, e, _, S', out', O, hk, I'⟩

/-- A new node in the place of a pending one. -/
theorem J.replace {x : Nat} {t : Tr} (ty : Int) (l : List Int) (j : J k v ((x, t) :: P) tops ctx) (hx : x ∉ tops)
    (hb : k + 5 + l.length < 4611686018427387904) :
    ∃ n v' w, insertNode v x ty l.length = some (n, v') ∧ nodeRemove (Ast.setArgs v' n 0 l) x = some w ∧
      J (k + 5 + l.length) w.2 ((n, .mk ty l .nil) :: P) tops ctx := by
  obtain ⟨k1, S, out, O, hk, I⟩ := j
  obtain ⟨n, v', S', out', O', e, hn, hkn, I'⟩ := I.insert ty l.length hx (by omega)
  obtain ⟨S2, e2, I2⟩ := I'.setArgs l (i := 0) (by simp) (by omega)
  have hnt : n ∉ tops := by
    intro h
    obtain ⟨y, hy, e⟩ := List.mem_map.1 (I.topsub n h)
    exact hn (e ▸ I.sub hy (I.mem hy))
  obtain ⟨w, S3, out3, O3, e3, I3⟩ := I2.prune hnt (by rw [e2, hkn]) (by omega)
  rw [setAll_eq l _ 0 (by simp)] at I3
  refine ⟨n, v', w, e, e3, k1 + (5 + l.length), S3, out3, O3, ?_, ?_⟩
  · omega
  · simpa using I3

/-! ## Several operands -/

/-- `node_set_child` for each of the nodes. -/
def attachEach (v : List Int) (p : Nat) : List Nat → Option (List Int)
  | [] => some v
  | n :: l => (Ast.attach v p n).bind fun w => attachEach w p l

theorem ofList_append (l m : List Tr) : Trs.ofList (l ++ m) = (Trs.ofList l).append (.ofList m) := by
  induction l with
  | nil => rfl
  | cons t l ih => simp [Trs.ofList, Trs.append, ih]

theorem J.attachEach {p : Nat} {ty : Int} {a : List Int} (us : List (Nat × Tr)) : ∀ {k : Nat} {v : List Int} {ks : Trs},
    J k v ((p, .mk ty a ks) :: (us ++ P)) tops ctx → (∀ u ∈ us, u.1 ∉ tops) → k + 5 * us.length < 4611686018427387904 →
    ∃ w, Ast.attachEach v p (us.map (·.1)) = some w ∧ attachAll v p (us.map (·.1)) = some w ∧
      J (k + 5 * us.length) w ((p, .mk ty a (ks.append (.ofList (us.map (·.2))))) :: P) tops ctx := by
  induction us with
  | nil =>
    intro k v ks j _ _
    exact ⟨v, rfl, rfl, by simpa [Trs.ofList, Trs.append_nil] using j⟩
  | cons u us ih =>
    intro k v ks j hu hb
    simp only [List.length_cons] at hb
    have hl := j.load (x := u.1) (t := u.2) (by omega) (by simp)
    obtain ⟨w, e, j'⟩ := J.attach (P := us ++ P) j (hu u (by simp)) (by omega)
    obtain ⟨w', e1, e2, j2⟩ := ih j' (fun x hx => hu x (by simp [hx])) (by omega)
    refine ⟨w', ?_, ?_, ?_⟩
    · simp [Ast.attachEach, e, e1]
    · simp [attachAll, hl, e, e2]
    · rw [Trs.append_assoc] at j2
      exact j2.mono (by simp only [List.length_cons]; omega)

/-- A new node above an operand, with further operands. -/
theorem J.node {x : Nat} {t : Tr} (ty : Int) (l : List Int) (us : List (Nat × Tr)) (j : J k v ((x, t) :: (us ++ P)) tops ctx)
    (hx : x ∉ tops) (hu : ∀ u ∈ us, u.1 ∉ tops) (hb : k + 5 + l.length + 5 * us.length < 4611686018427387904) :
    ∃ n v' w, insertNode v x ty l.length = some (n, v') ∧ Ast.attachEach v' n (us.map (·.1)) = some w ∧
      attachAll v' n (us.map (·.1)) = some w ∧
      J (k + 5 + l.length + 5 * us.length) (Ast.setArgs w n 0 l) ((n, .mk ty l (.cons t (.ofList (us.map (·.2))))) :: P) tops ctx := by
  obtain ⟨n, v', e, j1⟩ := j.insert ty l.length hx (by omega)
  obtain ⟨w, e1, e2, j2⟩ := j1.attachEach us hu (by omega)
  refine ⟨n, v', w, e, e1, e2, ?_⟩
  exact j2.setAllArgs l (by simp) (by omega)

/-- A new leaf with operands. -/
theorem J.block {c : Nat} (ty : Int) (l : List Int) (us : List (Nat × Tr)) (j : J k v (us ++ P) tops ctx)
    (hc : c ∈ ctx) (hu : ∀ u ∈ us, u.1 ∉ tops) (hb : k + 5 + l.length + 5 * us.length < 4611686018427387904) :
    ∃ n v' w, Ast.leaf v c ty l = (n, v') ∧ attachAll v' n (us.map (·.1)) = some w ∧
      J (k + 5 + l.length + 5 * us.length) w ((n, .mk ty l (.ofList (us.map (·.2)))) :: P) tops ctx := by
  obtain ⟨n, v', e, j1⟩ := j.leaf ty l hc (by omega)
  obtain ⟨w, e1, e2, j2⟩ := j1.attachEach us hu (by omega)
  exact ⟨n, v', w, e, e2, j2⟩

/-- An operand that may be missing. -/
inductive Opt : Nat → Trs → List (Nat × Tr) → Bool → Prop
  | none : Opt SIZE_MAX .nil [] false
  | some {x t} : Opt x (.cons t .nil) [(x, t)] true

theorem J.attachIf {p x i : Nat} {ty : Int} {a : List Int} {ks ts : Trs} {us : List (Nat × Tr)} {b : Bool} (ho : Opt x ts us b)
    (j : J k v ((p, .mk ty a ks) :: (us ++ P)) tops ctx) (hu : ∀ u ∈ us, u.1 ∉ tops) (hi : a[i]? = some 0) (hb : k + 5 < 4611686018427387904) :
    ∃ w, Ast.attachIf v p i x = some w ∧ J (k + 5) w ((p, .mk ty (a.set i (flag b)) (ks.append ts)) :: P) tops ctx := by
  cases ho with
  | none =>
    refine ⟨v, by simp [Ast.attachIf, isCorrect], ?_⟩
    have : a.set i (flag false) = a := by
      obtain ⟨hlt, e⟩ := List.getElem?_eq_some_iff.1 hi
      rw [show flag false = a[i] by rw [e]; rfl, List.set_getElem_self]
    rw [this, Trs.append_nil]
    exact j.mono (by omega)
  | @some x t =>
    have hlt := (List.getElem?_eq_some_iff.1 hi).1
    have j1 := J.setArgs (P := (x, t) :: P) [1] (i := i) j (by simp; omega) (by omega)
    have e1 : a.take i ++ [1] ++ a.drop (i + [(1 : Int)].length) = a.set i (flag true) := by
      rw [List.set_eq_take_append_cons_drop, if_pos hlt]
      simp [flag]
    rw [e1] at j1
    obtain ⟨w, e, j2⟩ := j1.attach (hu (x, t) (by simp)) hb
    refine ⟨w, ?_, j2⟩
    rw [Ast.attachIf, if_pos]
    · exact e
    · exact isCorrect_lt (j.lt (x := x) (t := t) (by omega) (by simp))

end RuC.Ast
