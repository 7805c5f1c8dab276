import Verif.Codegen.Exps

/-!
# Appending the code of statements, piece by piece
-/

namespace RuC.Codegen

open RuC RuC.Instr
open RuC.Expr (Unary Binary)

/-! ### Cells set in appended code -/

/-- Setting the cell that waits for a label. -/
theorem set_app_next (st : Enc) (X : List Sym) (v : Int) (Y : List Sym) (i : Nat) (hi : i = st.size + X.length) :
    (app st (X ++ .next :: Y)).set i v = app st (X ++ .val v :: Y) := by
  subst hi
  have hlen : (st.mem ++ conc st.heads st.size X).length = st.size + X.length := by simp [Enc.size]
  simp only [app, Enc.set, conc_append, after_append, conc, after, step, cell]
  congr 1
  rw [← List.append_assoc, ← hlen, List.set_append_right _ _ (Nat.le_refl _), Nat.sub_self, List.set_cons_zero, List.append_assoc]

theorem after_brk_of_not_mem {A : List Sym} : ∀ {h : Heads} {a}, Sym.brk ∉ A → (after h a A).brk = h.brk := by
  induction A with
  | nil => intros; rfl
  | cons x A ih =>
    intro h a hn
    simp only [List.mem_cons, not_or] at hn
    rw [after, ih hn.2]
    exact Chain.head_step (k := .brk) x (Ne.symm hn.1) a

theorem after_cont_of_not_mem {A : List Sym} : ∀ {h : Heads} {a}, Sym.cont ∉ A → (after h a A).cont = h.cont := by
  induction A with
  | nil => intros; rfl
  | cons x A ih =>
    intro h a hn
    simp only [List.mem_cons, not_or] at hn
    rw [after, ih hn.2]
    exact Chain.head_step (k := .cont) x (Ne.symm hn.1) a

theorem conc_brk {A : List Sym} : ∀ {h : Heads} {a} (b : Nat), Sym.brk ∉ A →
    conc { h with brk := b } a A = conc h a A ∧ after { h with brk := b } a A = { after h a A with brk := b } := by
  induction A with
  | nil => intros; exact ⟨rfl, rfl⟩
  | cons x A ih =>
    intro h a b hn
    simp only [List.mem_cons, not_or] at hn
    have e1 : cell { h with brk := b } x = cell h x := by cases x <;> simp_all [cell]
    have e2 : step { h with brk := b } a x = { step h a x with brk := b } := by
      cases x <;> simp_all [step]
      split <;> rfl
    rw [conc, after, e1, e2, (ih b hn.2).1, (ih b hn.2).2]
    exact ⟨rfl, rfl⟩

theorem conc_cont {A : List Sym} : ∀ {h : Heads} {a} (b : Nat), Sym.cont ∉ A →
    conc { h with cont := b } a A = conc h a A ∧ after { h with cont := b } a A = { after h a A with cont := b } := by
  induction A with
  | nil => intros; exact ⟨rfl, rfl⟩
  | cons x A ih =>
    intro h a b hn
    simp only [List.mem_cons, not_or] at hn
    have e1 : cell { h with cont := b } x = cell h x := by cases x <;> simp_all [cell]
    have e2 : step { h with cont := b } a x = { step h a x with cont := b } := by
      cases x <;> simp_all [step]
      split <;> rfl
    rw [conc, after, e1, e2, (ih b hn.2).1, (ih b hn.2).2]
    exact ⟨rfl, rfl⟩

/-- The encoder with another head of the chain of `break`. -/
def Enc.setBrk (st : Enc) (b : Nat) : Enc := { st with brk := b }
/-- The encoder with another head of the chain of `continue`. -/
def Enc.setCont (st : Enc) (b : Nat) : Enc := { st with cont := b }
/-- The encoder with another test waiting for its label. -/
def Enc.setNext (st : Enc) (b : Nat) : Enc := { st with next := b }
/-- The encoder with another layout. -/
def Enc.setLay (st : Enc) (l : Layout) : Enc := { st with lay := l }

theorem app_setBrk {st : Enc} {A : List Sym} (b : Nat) (h : Sym.brk ∉ A) : (app st A).setBrk b = app (st.setBrk b) A := by
  have := conc_brk (h := st.heads) (a := st.size) b h
  have e : (st.setBrk b).heads = { st.heads with brk := b } := rfl
  unfold app
  have es : (st.setBrk b).size = st.size := rfl
  rw [e, es, this.1, this.2]
  rfl

theorem app_setCont {st : Enc} {A : List Sym} (b : Nat) (h : Sym.cont ∉ A) : (app st A).setCont b = app (st.setCont b) A := by
  have := conc_cont (h := st.heads) (a := st.size) b h
  have e : (st.setCont b).heads = { st.heads with cont := b } := rfl
  unfold app
  have es : (st.setCont b).size = st.size := rfl
  rw [e, es, this.1, this.2]
  rfl

theorem app_setNext (st : Enc) (A b) : (app st A).setNext b = app (st.setNext b) A := rfl
theorem app_setLay (st : Enc) (A b) : (app st A).setLay b = app (st.setLay b) A := rfl

/-- Walking along a chain in appended code. -/
theorem patch_app (k : Chain) (st : Enc) (A : List Sym) (v : Int) (hk : k = .brk ∨ k = .cont)
    (hne : ∀ i, A[i]? = some k.sym → st.size + i ≠ k.head st.heads) (hsz : st.size + A.length < 4611686018427387904)
    (hst : k.head st.heads < 18446744073709551616) :
    (app st A).patch (k.head (app st A).heads) (k.head st.heads) v = { app st A with mem := st.mem ++ conc st.heads st.size (fill k.sym v A) } := by
  have := walk_fill k v st.mem st.heads (k.head st.heads) (by rcases hk with rfl | rfl <;> trivial) rfl A [] (st.size + A.length)
    (fun x _ => by rcases hk with rfl | rfl <;> trivial) hne (by unfold Enc.size at hsz; omega) hst (by omega)
  simp only [List.append_nil] at this
  unfold Enc.patch
  rw [app_mem, app_heads]
  have hl : (st.mem ++ conc st.heads st.size A).length = st.size + A.length := by simp [Enc.size]
  rw [hl]
  unfold Enc.size at *
  rw [this]

/-- The chain of `break` ends. -/
theorem endBreak_app (st : Enc) (A : List Sym) (hb : st.brk = 0) (h0 : 0 < st.size) (hsz : st.size + A.length < 4611686018427387904) :
    (app st A).endBreak = app st (fill .brk ((st.size + A.length : Nat) : Int) A) := by
  have e0 : Chain.head st.heads .brk = 0 := hb
  have := patch_app .brk st A ((st.size + A.length : Nat) : Int) (.inl rfl) (by rw [e0]; intros; omega) hsz (by rw [e0]; omega)
  rw [e0] at this
  unfold Enc.endBreak
  have e1 : Chain.head (app st A).heads .brk = (app st A).brk := rfl
  rw [e1] at this
  rw [app_size, this]
  have s := Chain.same_after (Chain.same_refl .brk st.heads) ((st.size + A.length : Nat) : Int) A st.size
  have s2 := Chain.head_after_fill (k := .brk) (h := st.heads) ((st.size + A.length : Nat) : Int) A st.size
  simp only [Chain.head, Chain.sym] at s2
  have s3 : st.heads.brk = 0 := hb
  simp only [app, Chain.sym]
  rw [s.1, s.2, s2, s3]
  rfl

/-- The chain of `continue` ends. -/
theorem endCondition_app (st : Enc) (A : List Sym) (hb : st.cont = 0) (h0 : 0 < st.size) (hsz : st.size + A.length < 4611686018427387904) :
    (app st A).endCondition = app st (fill .cont ((st.size + A.length : Nat) : Int) A) := by
  have e0 : Chain.head st.heads .cont = 0 := hb
  have := patch_app .cont st A ((st.size + A.length : Nat) : Int) (.inr rfl) (by rw [e0]; intros; omega) hsz (by rw [e0]; omega)
  rw [e0] at this
  unfold Enc.endCondition
  have e1 : Chain.head (app st A).heads .cont = (app st A).cont := rfl
  rw [e1] at this
  rw [app_size, this]
  have s := Chain.same_after (Chain.same_refl .cont st.heads) ((st.size + A.length : Nat) : Int) A st.size
  have s2 := Chain.head_after_fill (k := .cont) (h := st.heads) ((st.size + A.length : Nat) : Int) A st.size
  simp only [Chain.head, Chain.sym] at s2
  have s3 : st.heads.cont = 0 := hb
  simp only [app, Chain.sym]
  rw [s.1, s.2, s2, s3]
  rfl

/-- The chain of `continue` of a loop whose test comes first ends. -/
theorem beginCondition_app (st : Enc) (A : List Sym) (hb : st.cont = st.size) (hA : A[0]? ≠ some .cont) (hsz : st.size + A.length < 4611686018427387904) :
    (app st A).beginCondition st.size = app st (fill .cont (st.size : Int) A) := by
  have e0 : Chain.head st.heads .cont = st.size := hb
  have := patch_app .cont st A (st.size : Int) (.inr rfl) (by
    rw [e0]; intro i hi
    rcases Nat.eq_zero_or_pos i with rfl | h
    · exact absurd hi hA
    · omega) hsz (by rw [e0]; omega)
  rw [e0] at this
  unfold Enc.beginCondition
  have e1 : Chain.head (app st A).heads .cont = (app st A).cont := rfl
  rw [e1] at this
  rw [this]
  have s := Chain.same_after (Chain.same_refl .cont st.heads) (st.size : Int) A st.size
  have s2 := Chain.head_after_fill (k := .cont) (h := st.heads) (st.size : Int) A st.size
  simp only [Chain.head, Chain.sym] at s2
  have s3 : st.heads.cont = st.size := hb
  simp only [app, Chain.sym]
  rw [s.1, s.2, s2, s3]
  rfl

/-! ### Pieces -/

/-- The encoder with a piece appended: a test that waits for a label gets the first one of the piece. -/
def Enc.toLabel (st : Enc) : Option Nat → Enc
  | none => st
  | some l => if st.next ≠ 0 then st.set st.next l else st

theorem toLabel_zero {st : Enc} (h : st.next = 0) (l) : st.toLabel l = st := by
  cases l with
  | none => rfl
  | some l => exact if_neg (by simp [h])

theorem toLabel_pos {st : Enc} (h : st.next ≠ 0) (l : Nat) : st.toLabel (some l) = st.set st.next l := if_pos h

def nextOf (n : Nat) : Option (Option Nat) → Nat
  | none => n
  | some none => 0
  | some (some a) => a

def appP (st : Enc) (P : Piece) : Enc := (app (st.toLabel P.label) P.code).setNext (nextOf st.next P.pend)

/-- The hole of a piece is the test it leaves. -/
def Piece.Ok (base : Nat) (P : Piece) : Prop :=
  P.label.isSome = P.pend.isSome ∧ (∀ i, P.code[i]? = some .next → P.pend = some (some (base + i))) ∧
    ∀ a, P.pend = some (some a) → ∃ i, a = base + i ∧ P.code[i]? = some .next

@[simp] theorem size_toLabel (st : Enc) (l) : (st.toLabel l).size = st.size := by
  cases l with
  | none => rfl
  | some l => simp only [Enc.toLabel]; split <;> simp
@[simp] theorem lay_toLabel (st : Enc) (l) : (st.toLabel l).lay = st.lay := by
  cases l with
  | none => rfl
  | some l => simp only [Enc.toLabel]; split <;> rfl
@[simp] theorem heads_toLabel (st : Enc) (l) : (st.toLabel l).heads = st.heads := by
  cases l with
  | none => rfl
  | some l => simp only [Enc.toLabel]; split <;> rfl
@[simp] theorem next_toLabel (st : Enc) (l) : (st.toLabel l).next = st.next := by
  cases l with
  | none => rfl
  | some l => simp only [Enc.toLabel]; split <;> rfl

@[simp] theorem size_setNext (st : Enc) (n) : (st.setNext n).size = st.size := rfl
@[simp] theorem size_setBrk (st : Enc) (n) : (st.setBrk n).size = st.size := rfl
@[simp] theorem size_setCont (st : Enc) (n) : (st.setCont n).size = st.size := rfl
@[simp] theorem size_setLay (st : Enc) (n) : (st.setLay n).size = st.size := rfl
@[simp] theorem lay_setNext (st : Enc) (n) : (st.setNext n).lay = st.lay := rfl
@[simp] theorem lay_setBrk (st : Enc) (n) : (st.setBrk n).lay = st.lay := rfl
@[simp] theorem lay_setCont (st : Enc) (n) : (st.setCont n).lay = st.lay := rfl
@[simp] theorem lay_setLay (st : Enc) (n) : (st.setLay n).lay = n := rfl
@[simp] theorem next_setNext (st : Enc) (n) : (st.setNext n).next = n := rfl
@[simp] theorem next_setBrk (st : Enc) (n) : (st.setBrk n).next = st.next := rfl
@[simp] theorem next_setCont (st : Enc) (n) : (st.setCont n).next = st.next := rfl
@[simp] theorem next_setLay (st : Enc) (n) : (st.setLay n).next = st.next := rfl
@[simp] theorem heads_setNext (st : Enc) (n) : (st.setNext n).heads = st.heads := rfl
@[simp] theorem heads_setLay (st : Enc) (n) : (st.setLay n).heads = st.heads := rfl

@[simp] theorem appP_size (st P) : (appP st P).size = st.size + P.code.length := by simp [appP]
@[simp] theorem appP_lay (st P) : (appP st P).lay = st.lay := by simp [appP]
@[simp] theorem appP_next (st P) : (appP st P).next = nextOf st.next P.pend := by simp [appP]
@[simp] theorem appP_heads (st P) : (appP st P).heads = after st.heads st.size P.code := by simp [appP]

theorem appP_setLay (st P L) : (appP st P).setLay L = appP (st.setLay L) P := by
  unfold appP
  cases P.label with
  | none => rfl
  | some l =>
    by_cases h : st.next = 0
    · rw [toLabel_zero h, toLabel_zero (st := st.setLay L) h]; rfl
    · rw [toLabel_pos h, toLabel_pos (st := st.setLay L) h]; rfl

theorem appP_plain (st A) : appP st (plain A) = app st A := rfl

theorem plain_ok {base A} (h : Sym.next ∉ A) : (plain A).Ok base :=
  ⟨rfl, fun _ hi => absurd (List.mem_of_getElem? hi) h, fun _ ha => by cases ha⟩

@[simp] theorem toLabel_length (l A) : (toLabel l A).length = A.length := by
  cases l <;> simp [toLabel]

theorem get_fill {k v A} {i : Nat} {x : Sym} (hx : ∀ u, x ≠ .val u) : (fill k v A)[i]? = some x ↔ A[i]? = some x ∧ x ≠ k := by
  simp only [fill, List.getElem?_map, Option.map_eq_some_iff]
  constructor
  · rintro ⟨y, hy, e⟩
    split at e
    · exact absurd e.symm (hx v)
    · rename_i hne; subst e; exact ⟨hy, hne⟩
  · rintro ⟨h1, h2⟩
    exact ⟨x, h1, if_neg h2⟩

theorem get_toLabel {l A} {i : Nat} {x : Sym} (hx : ∀ u, x ≠ .val u) : (toLabel l A)[i]? = some x ↔ A[i]? = some x ∧ (x = .next → l = none) := by
  cases l with
  | none => simp [toLabel]
  | some l => simp only [toLabel]; rw [get_fill hx]; simp

theorem Piece.Ok.join {base} {P Q : Piece} (hP : P.Ok base) (hQ : Q.Ok (base + P.code.length)) : (P.join Q).Ok base := by
  obtain ⟨p1, p2, p3⟩ := hP
  obtain ⟨q1, q2, q3⟩ := hQ
  refine ⟨?_, fun i hi => ?_, fun a ha => ?_⟩
  · simp only [Piece.join, Option.isSome_or, p1, q1]; exact Bool.or_comm _ _
  · simp only [Piece.join] at hi ⊢
    rcases Nat.lt_or_ge i P.code.length with h | h
    · rw [List.getElem?_append_left (by simpa using h), get_toLabel (by simp)] at hi
      have hl := hi.2 rfl
      have hq : Q.pend = none := by rw [hl] at q1; simpa using q1.symm
      rw [hq, p2 i hi.1]; rfl
    · rw [List.getElem?_append_right (by simpa using h), toLabel_length] at hi
      have := q2 _ hi
      rw [this]
      simp only [Option.some_or]
      congr 2; omega
  · simp only [Piece.join] at ha ⊢
    cases hq : Q.pend with
    | none =>
      rw [hq] at ha q1
      have hl : Q.label = none := by simpa using q1
      obtain ⟨i, e, hi⟩ := p3 a (by simpa using ha)
      refine ⟨i, e, ?_⟩
      rw [hl, List.getElem?_append_left (by simpa using (List.getElem?_eq_some_iff.1 hi).1)]
      exact hi
    | some q =>
      rw [hq] at ha
      obtain ⟨i, e, hi⟩ := q3 a (by rw [hq]; simpa using ha)
      refine ⟨P.code.length + i, by omega, ?_⟩
      rw [List.getElem?_append_right (by simp), toLabel_length]
      simpa using hi

theorem Piece.Ok.fill {base} {P : Piece} (h : P.Ok base) {k} (v) (hk : k ≠ .next) : (P.fill k v).Ok base := by
  obtain ⟨p1, p2, p3⟩ := h
  refine ⟨p1, fun i hi => p2 i ((get_fill (by simp)).1 hi).1, fun a ha => ?_⟩
  obtain ⟨i, e, hi⟩ := p3 a ha
  exact ⟨i, e, (get_fill (by simp)).2 ⟨hi, hk.symm⟩⟩

/-- There is nothing to wait for, or the test that waits is among the cells. -/
def Waits (st : Enc) : Prop := 0 < st.size ∧ st.next < st.size

theorem Piece.Ok.waits {st : Enc} {P : Piece} (h : P.Ok st.size) (hw : Waits st) : Waits (appP st P) := by
  obtain ⟨p1, p2, p3⟩ := h
  unfold Waits at *
  rw [appP_size, appP_next]
  refine ⟨by omega, ?_⟩
  cases hp : P.pend with
  | none => simp only [nextOf]; omega
  | some o =>
    cases o with
    | none => simp only [nextOf]; omega
    | some a =>
      obtain ⟨i, e, hi⟩ := p3 a hp
      have := (List.getElem?_eq_some_iff.1 hi).1
      simp only [nextOf]; omega

theorem next_unique {base} {P : Piece} (h : P.Ok base) {i j : Nat} (hi : P.code[i]? = some .next) (hj : P.code[j]? = some .next) : i = j := by
  have a := h.2.1 i hi
  have b := h.2.1 j hj
  rw [a] at b
  simp at b; omega

/-- Filling the only hole of its kind. -/
theorem fill_one {A X Y : List Sym} {k : Sym} {v} (e : A = X ++ k :: Y) (h : ∀ i, A[i]? = some k → i = X.length) : fill k v A = X ++ .val v :: Y := by
  have hX : k ∉ X := by
    intro hm
    obtain ⟨i, hi⟩ := List.getElem?_of_mem hm
    have hlt := (List.getElem?_eq_some_iff.1 hi).1
    have := h i (by rw [e, List.getElem?_append_left hlt]; exact hi)
    omega
  have hY : k ∉ Y := by
    intro hm
    obtain ⟨i, hi⟩ := List.getElem?_of_mem hm
    have := h (X.length + 1 + i) (by
      rw [e, List.getElem?_append_right (by omega)]
      have : X.length + 1 + i - X.length = i + 1 := by omega
      rw [this, List.getElem?_cons_succ]; exact hi)
    omega
  rw [e, fill_append, fill_of_not_mem hX]
  have : fill k v (k :: Y) = .val v :: fill k v Y := by simp [fill]
  rw [this, fill_of_not_mem hY]

theorem split_at {A : List Sym} {i : Nat} {x} (h : A[i]? = some x) : ∃ X Y, A = X ++ x :: Y ∧ X.length = i := by
  obtain ⟨hl, e⟩ := List.getElem?_eq_some_iff.1 h
  refine ⟨A.take i, A.drop (i + 1), ?_, by simp; omega⟩
  rw [← e, List.getElem_cons_drop, List.take_append_drop]

/-- The label a piece waits for. -/
theorem appP_toLabel {st : Enc} {P : Piece} (h : P.Ok st.size) (hw : Waits st) (l : Nat) :
    (appP st P).toLabel (some l) = appP (if P.pend = none then st.toLabel (some l) else st) { P with code := fill .next l P.code } := by
  cases hp : P.pend with
  | none =>
    have hl : P.label = none := by have := h.1; rw [hp] at this; simpa using this
    have hn : Sym.next ∉ P.code := by
      intro hm
      obtain ⟨i, hi⟩ := List.getElem?_of_mem hm
      have := h.2.1 i hi
      rw [hp] at this; cases this
    have eP : P = ⟨P.code, none, none⟩ := by rw [← hl, ← hp]
    rw [if_pos rfl, fill_of_not_mem hn, hl]
    have en : (appP st P).next = st.next := by rw [appP_next, hp]; rfl
    by_cases h0 : st.next = 0
    · rw [toLabel_zero (en.trans h0), toLabel_zero h0, ← eP]
    · rw [toLabel_pos (by rw [en]; exact h0), toLabel_pos h0, en, eP]
      exact set_app_before st P.code st.next l hw.2
  | some o =>
    rw [if_neg (by simp), ← hp]
    cases o with
    | none =>
      have hn : Sym.next ∉ P.code := by
        intro hm
        obtain ⟨i, hi⟩ := List.getElem?_of_mem hm
        have := h.2.1 i hi
        rw [hp] at this; cases this
      rw [toLabel_zero (by rw [appP_next, hp]; rfl), fill_of_not_mem hn]
    | some a =>
      obtain ⟨i, e, hi⟩ := h.2.2 a hp
      have h0 := hw.1
      have en : (appP st P).next = a := by rw [appP_next, hp]; rfl
      rw [toLabel_pos (by rw [en]; omega), en]
      obtain ⟨X, Y, eA, eX⟩ := split_at hi
      have ef := fill_one (v := l) eA (fun j hj => by rw [eX]; exact next_unique h hj hi)
      unfold appP
      simp only
      rw [ef, eA]
      have := set_app_next (st.toLabel P.label) X l Y a (by rw [size_toLabel]; omega)
      exact congrArg (fun x : Enc => x.setNext (nextOf st.next P.pend)) this

/-- One piece behind the other. -/
theorem appP_appP {st : Enc} {P Q : Piece} (h : P.Ok st.size) (hQ : Q.label.isSome = Q.pend.isSome) (hw : Waits st) :
    appP (appP st P) Q = appP st (P.join Q) := by
  cases hl : Q.label with
  | none =>
    have hq : Q.pend = none := by rw [hl] at hQ; simpa using hQ.symm
    unfold appP
    simp only [Piece.join, hl, hq, Enc.toLabel, toLabel, Option.or_none, Option.none_or, nextOf]
    rw [← app_setNext, app_app]
    rfl
  | some l =>
    have hq : ∃ q, Q.pend = some q := by rw [hl] at hQ; exact Option.isSome_iff_exists.1 hQ.symm
    obtain ⟨q, hq⟩ := hq
    have e := appP_toLabel h hw l
    have e0 : ∀ s : Enc, appP s Q = (app (s.toLabel Q.label) Q.code).setNext (nextOf s.next Q.pend) := fun _ => rfl
    rw [e0, hl, e, hq]
    have en : ∀ n, nextOf n (some q) = nextOf 0 (some q) := by intro n; cases q <;> rfl
    rw [en]
    unfold appP
    simp only [Piece.join, hl, hq, toLabel, Option.some_or]
    rw [en st.next]
    cases hp : P.pend with
    | none =>
      have hlp : P.label = none := by have := h.1; rw [hp] at this; simpa using this
      rw [if_pos rfl, hlp]
      simp only [Option.none_or]
      rw [← app_app]
      rfl
    | some p =>
      have hlp : ∃ x, P.label = some x := by
        have := h.1; rw [hp] at this; exact Option.isSome_iff_exists.1 this
      obtain ⟨x, hlp⟩ := hlp
      rw [if_neg (by simp), hlp]
      simp only [Option.some_or]
      rw [← app_app]
      rfl

/-- Setting a number in a piece. -/
theorem appP_set {st : Enc} {P : Piece} {X Y : List Sym} {u v : Int} {i : Nat} (e : P.code = X ++ .val u :: Y) (hi : i = st.size + X.length) :
    (appP st P).set i v = appP st ⟨X ++ .val v :: Y, P.label, P.pend⟩ := by
  unfold appP
  rw [e]
  have := set_app (st.toLabel P.label) X u v Y i (by simpa using hi)
  exact congrArg (fun x : Enc => x.setNext (nextOf st.next P.pend)) this

theorem join_plain {A : List Sym} (Q : Piece) (h : Sym.next ∉ A) : (plain A).join Q = ⟨A ++ Q.code, Q.label, Q.pend⟩ := by
  have e : toLabel Q.label A = A := by
    cases Q.label with
    | none => rfl
    | some l => exact fill_of_not_mem h
  simp [Piece.join, plain, e]

theorem plain_join (P : Piece) (A : List Sym) : P.join (plain A) = ⟨P.code ++ A, P.label, P.pend⟩ := by
  simp [Piece.join, plain, toLabel]

theorem fill_comm {k m : Sym} {v w} {A} (h : k ≠ m) (hk : ∀ u, k ≠ .val u) (hm : ∀ u, m ≠ .val u) : fill k v (fill m w A) = fill m w (fill k v A) := by
  simp only [fill, List.map_map]
  apply List.map_congr_left
  intro x _
  simp only [Function.comp]
  by_cases h1 : x = m
  · subst h1
    rw [if_pos rfl, if_neg (fun e => hk _ e.symm), if_neg (fun e : x = k => h e.symm), if_pos rfl]
  · rw [if_neg h1]
    by_cases h2 : x = k
    · subst h2
      rw [if_pos rfl, if_neg (fun e => hm _ e.symm)]
    · rw [if_neg h2, if_neg h1]

theorem fill_join {k : Sym} {v} (P Q : Piece) (h : k ≠ .next) (hk : ∀ u, k ≠ .val u) : (P.join Q).fill k v = (P.fill k v).join (Q.fill k v) := by
  simp only [Piece.join, Piece.fill, fill_append]
  congr 2
  cases Q.label with
  | none => rfl
  | some l => exact fill_comm h hk (by simp)

theorem join_assoc (P Q R : Piece) (hQ : Q.label.isSome = Q.pend.isSome) : (P.join Q).join R = P.join (Q.join R) := by
  simp only [Piece.join, Option.or_assoc]
  congr 1
  cases hr : R.label with
  | none => simp [toLabel]
  | some r =>
    simp only [toLabel, fill_append]
    cases hq : Q.label with
    | none => simp
    | some q =>
      simp only [Option.some_or, List.append_assoc]
      congr 1
      apply fill_of_not_mem
      intro hm
      exact (mem_fill hm (by simp)).2 rfl

end RuC.Codegen
