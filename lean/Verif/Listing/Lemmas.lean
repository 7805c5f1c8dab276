import Verif.Listing.Spec

/-!
# Helper lemmas: code that is made of whole instructions
-/

namespace RuC.Listing
open RuC RuC.Instr RuC.Codegen
open RuC.Expr (Unary Binary)

/-- The number of operands of what stands where an instruction is expected, and is not changed when taken for one. -/
def opArgs : Sym → Option Nat
  | .val v => if toInt v = v then some (argcOf (toInt v)) else none
  | .fnOp _ => some 1
  | _ => none

/-- The operand that is an address. -/
def destOf : Sym → List Sym → Option Sym
  | .val v, args =>
    if toInt v = IC_B ∨ toInt v = IC_BE0 ∨ toInt v = IC_BNE0 then args[0]? else if toInt v = IC_FUNC_BEG then args[1]? else none
  | _, _ => none

/-- An address, known or not yet known. -/
def Hits (T : Int → Prop) : Sym → Prop
  | .val v => T v
  | .brk | .cont | .next => True
  | _ => False

/-- Whole instructions, all known addresses in `T`. -/
inductive Lands (T : Int → Prop) : List Sym → Prop
  | nil : Lands T []
  | cons {x : Sym} {args rest : List Sym} (n : opArgs x = some args.length) (d : ∀ y, destOf x args = some y → Hits T y) (r : Lands T rest) :
    Lands T (x :: (args ++ rest))

/-- Whole instructions, whatever the addresses are. -/
inductive Whole : List Sym → Prop
  | nil : Whole []
  | cons {x : Sym} {args rest : List Sym} (n : opArgs x = some args.length) (r : Whole rest) : Whole (x :: (args ++ rest))

theorem Hits.mono {T U : Int → Prop} (h : ∀ v, T v → U v) : ∀ {y : Sym}, Hits T y → Hits U y
  | .val v, hy => h v hy
  | .brk, _ | .cont, _ | .next, _ => trivial
  | .fn _, hy | .fnOp _, hy | .fnArg _, hy => hy.elim

theorem Lands.mono {T U : Int → Prop} (h : ∀ v, T v → U v) {A : List Sym} (hA : Lands T A) : Lands U A := by
  induction hA with
  | nil => exact .nil
  | cons n d _ ih => exact .cons n (fun y hy => (d y hy).mono h) ih

theorem Lands.whole {T : Int → Prop} {A : List Sym} (h : Lands T A) : Whole A := by
  induction h with
  | nil => exact .nil
  | cons n _ _ ih => exact .cons n ih

theorem Whole.append {A B : List Sym} (hA : Whole A) (hB : Whole B) : Whole (A ++ B) := by
  induction hA with
  | nil => exact hB
  | cons n _ ih => rw [List.cons_append, List.append_assoc]; exact .cons n ih

theorem Lands.append {T : Int → Prop} {A B : List Sym} (hA : Lands T A) (hB : Lands T B) : Lands T (A ++ B) := by
  induction hA with
  | nil => exact hB
  | cons n d _ ih => rw [List.cons_append, List.append_assoc]; exact .cons n d ih

theorem Lands.split {T : Int → Prop} {X : List Sym} (hX : Whole X) : ∀ {Y : List Sym}, Lands T (X ++ Y) → Lands T X ∧ Lands T Y := by
  induction hX with
  | nil => intro Y h; exact ⟨.nil, h⟩
  | @cons x args rest n _ ih =>
    intro Y h
    rw [List.cons_append, List.append_assoc] at h
    generalize hZ : x :: (args ++ (rest ++ Y)) = Z at h
    cases h with
    | nil => cases hZ
    | @cons x' args' rest' n' d' r' =>
      obtain ⟨hx, ht⟩ := List.cons.inj hZ
      subst hx
      have hlen : args.length = args'.length := by rw [n] at n'; exact Option.some.inj n'
      obtain ⟨ha, hr⟩ := List.append_inj ht hlen
      subst ha; subst hr
      obtain ⟨h1, h2⟩ := ih r'
      exact ⟨.cons n d' h1, h2⟩

/-- One instruction. -/
theorem Lands.one {T : Int → Prop} {x : Sym} {args : List Sym} (n : opArgs x = some args.length) (d : ∀ y, destOf x args = some y → Hits T y) :
    Lands T (x :: args) := by
  have := Lands.cons n d (.nil (T := T))
  rwa [List.append_nil] at this

/-! ### Addresses of instructions -/

/-- `v` is the address of an instruction of the code at `base`, or the one behind it. -/
def On (base : Nat) (A : List Sym) (v : Int) : Prop := ∃ X Y, A = X ++ Y ∧ Whole X ∧ Whole Y ∧ v = ((base + X.length : Nat) : Int)

theorem On.left {base A B v} (h : On base A v) (hB : Whole B) : On base (A ++ B) v := by
  obtain ⟨X, Y, rfl, hX, hY, rfl⟩ := h
  exact ⟨X, Y ++ B, by simp, hX, hY.append hB, rfl⟩

theorem On.right {base b A B v} (hb : b = base + A.length) (h : On b B v) (hA : Whole A) : On base (A ++ B) v := by
  obtain ⟨X, Y, rfl, hX, hY, rfl⟩ := h
  exact ⟨A ++ X, Y, by simp, hA.append hX, hY, by simp [hb]; omega⟩

theorem on_split {base : Nat} {X Y : List Sym} {v : Int} (hX : Whole X) (hY : Whole Y) (hv : v = ((base + X.length : Nat) : Int)) : On base (X ++ Y) v :=
  ⟨X, Y, rfl, hX, hY, hv⟩

theorem on_end {base : Nat} {X : List Sym} {v : Int} (hX : Whole X) (hv : v = ((base + X.length : Nat) : Int)) : On base X v :=
  ⟨X, [], by simp, hX, .nil, hv⟩

theorem on_start {base : Nat} {X : List Sym} {v : Int} (hX : Whole X) (hv : v = (base : Int)) : On base X v :=
  ⟨[], X, rfl, .nil, hX, by simpa using hv⟩

/-- Whole instructions at `base`; their addresses lead into `T` or to instructions of the code. -/
def G (T : Int → Prop) (base : Nat) (A : List Sym) : Prop := Lands (fun v => T v ∨ On base A v) A

/-- Nowhere. -/
def Non : Int → Prop := fun _ => False

theorem G.whole {T base A} (h : G T base A) : Whole A := Lands.whole h

theorem G.mono {T U : Int → Prop} {base A} (h : G T base A) (hTU : ∀ v, T v → U v) : G U base A :=
  Lands.mono (fun _ hv => hv.imp (hTU _) id) h

theorem G.of_non {T : Int → Prop} {base A} (h : G Non base A) : G T base A := h.mono fun _ hv => hv.elim

theorem G.append {T : Int → Prop} {base b A B} (hA : G T base A) (hB : G T b B) (hb : b = base + A.length) : G T base (A ++ B) :=
  Lands.append (Lands.mono (fun _ hv => hv.imp id fun h => h.left hB.whole) hA) (Lands.mono (fun _ hv => hv.imp id fun h => h.right hb hA.whole) hB)

theorem G.of_all {T : Int → Prop} {base A} (h : ∀ U, Lands U A) : G T base A := h _

theorem G.tail {T : Int → Prop} {base A B} (hA : G T base A) (hB : ∀ U, Lands U B) : G T base (A ++ B) := hA.append (b := base + A.length) (.of_all hB) rfl

theorem G.close {T U : Int → Prop} {base A} (h : G T base A) (hT : ∀ v, T v → U v ∨ On base A v) : G U base A :=
  Lands.mono (fun v hv => hv.elim (hT v) .inr) h

theorem G.nil {T base} : G T base [] := Lands.nil

/-! ### Holes -/

theorem destOf_map {f : Sym → Sym} : ∀ (x : Sym) (args : List Sym), destOf x (args.map f) = (destOf x args).map f
  | .val v, args => by
    simp only [destOf]
    by_cases h1 : toInt v = IC_B ∨ toInt v = IC_BE0 ∨ toInt v = IC_BNE0
    · rw [if_pos h1, if_pos h1]; simp
    · rw [if_neg h1, if_neg h1]
      by_cases h2 : toInt v = IC_FUNC_BEG
      · rw [if_pos h2, if_pos h2]; simp
      · rw [if_neg h2, if_neg h2]; rfl
  | .brk, _ | .cont, _ | .next, _ | .fn _, _ | .fnOp _, _ | .fnArg _, _ => rfl

theorem Lands.fill {T : Int → Prop} {k : Sym} {w : Int} (hk : opArgs k = none) (hw : T w) {A : List Sym} (h : Lands T A) : Lands T (Codegen.fill k w A) := by
  induction h with
  | nil => exact .nil
  | @cons x args rest n d _ ih =>
    have hx : x ≠ k := by rintro rfl; rw [hk] at n; cases n
    have e : Codegen.fill k w (x :: (args ++ rest)) = x :: (args.map (fun y => if y = k then Sym.val w else y) ++ Codegen.fill k w rest) := by
      simp [Codegen.fill, hx]
    rw [e]
    refine .cons (by simpa using n) ?_ ih
    intro y hy
    rw [destOf_map] at hy
    cases hd : destOf x args with
    | none => rw [hd] at hy; cases hy
    | some z =>
      rw [hd, Option.map_some, Option.some.injEq] at hy
      have := d z hd
      by_cases hz : z = k
      · rw [if_pos hz] at hy; subst hy; exact hw
      · rw [if_neg hz] at hy; subst hy; exact this

theorem fill_append (k : Sym) (w : Int) (A B : List Sym) : Codegen.fill k w (A ++ B) = Codegen.fill k w A ++ Codegen.fill k w B := by simp [Codegen.fill]

theorem fill_length (k : Sym) (w : Int) (A : List Sym) : (Codegen.fill k w A).length = A.length := by simp [Codegen.fill]

theorem Whole.fill_whole {k : Sym} {w : Int} (hk : opArgs k = none) {A : List Sym} (h : Whole A) : Whole (Codegen.fill k w A) := by
  induction h with
  | nil => exact .nil
  | @cons x args rest n _ ih =>
    have hx : x ≠ k := by rintro rfl; rw [hk] at n; cases n
    have e : Codegen.fill k w (x :: (args ++ rest)) = x :: (args.map (fun y => if y = k then Sym.val w else y) ++ Codegen.fill k w rest) := by
      simp [Codegen.fill, hx]
    rw [e]
    exact .cons (by simpa using n) ih

theorem On.fill {base A v k w} (hk : opArgs k = none) (h : On base A v) : On base (Codegen.fill k w A) v := by
  obtain ⟨X, Y, rfl, hX, hY, rfl⟩ := h
  exact ⟨_, _, fill_append k w X Y, hX.fill_whole hk, hY.fill_whole hk, by rw [fill_length]⟩

theorem G.fill {T : Int → Prop} {base A k w} (hk : opArgs k = none) (hw : T w) (h : G T base A) : G T base (Codegen.fill k w A) :=
  Lands.fill hk (.inl hw) (Lands.mono (fun _ hv => hv.imp id (On.fill hk)) h)

/-! ### Instructions -/

/-- The instruction has `n` operands and leads nowhere. -/
def plainOp (v : Int) (n : Nat) : Bool :=
  toInt v = v && argcOf (toInt v) = n && toInt v ≠ IC_B && toInt v ≠ IC_BE0 && toInt v ≠ IC_BNE0 && toInt v ≠ IC_FUNC_BEG

theorem plainOp_dest {v : Int} {n : Nat} (h : plainOp v n = true) (args : List Sym) : destOf (.val v) args = none := by
  simp only [plainOp, Bool.and_eq_true, decide_eq_true_eq, ne_eq] at h
  rw [destOf, if_neg (by simp [h.1.1.1.2, h.1.1.2, h.1.2]), if_neg h.2]

theorem plainOp_args {v : Int} {n : Nat} (h : plainOp v n = true) : opArgs (.val v) = some n := by
  simp only [plainOp, Bool.and_eq_true, decide_eq_true_eq] at h
  rw [opArgs, if_pos h.1.1.1.1.1, h.1.1.1.1.2]

theorem lands_op {T : Int → Prop} {v : Int} {args : List Sym} (h : plainOp v args.length = true) : Lands T (.val v :: args) :=
  .one (plainOp_args h) (by intro y hy; rw [plainOp_dest h] at hy; cases hy)

theorem lands_ins {v : Int} {l : List Int} (h : plainOp v l.length = true) (T : Int → Prop) : Lands T (vals (v :: l)) :=
  lands_op (args := vals l) (by simpa [vals] using h)

theorem lands_nil (T : Int → Prop) : Lands T (vals []) := .nil

theorem lands_vals_append {l m : List Int} (hl : ∀ T, Lands T (vals l)) (hm : ∀ T, Lands T (vals m)) (T : Int → Prop) : Lands T (vals (l ++ m)) := by
  have : vals (l ++ m) = vals l ++ vals m := by simp [vals]
  rw [this]; exact (hl T).append (hm T)

/-- The three jumps. -/
def isJump (v : Int) : Bool := v = IC_B || v = IC_BE0 || v = IC_BNE0

theorem jump_facts {v : Int} (h : isJump v = true) : opArgs (.val v) = some 1 ∧ (toInt v = IC_B ∨ toInt v = IC_BE0 ∨ toInt v = IC_BNE0) := by
  simp only [isJump, Bool.or_eq_true, decide_eq_true_eq] at h
  rcases h with (rfl | rfl) | rfl <;> exact ⟨by decide +kernel, by decide +kernel⟩

theorem lands_jump {T : Int → Prop} {v : Int} {y : Sym} (h : isJump v = true) (hy : Hits T y) : Lands T [.val v, y] := by
  obtain ⟨h1, h2⟩ := jump_facts h
  refine .one (by rw [h1]; rfl) ?_
  intro z hz
  rw [destOf, if_pos h2] at hz
  simp at hz
  exact hz ▸ hy

theorem G.jump {T : Int → Prop} {base : Nat} {v d : Int} (h : isJump v = true) (hd : T d) : G T base (vals [v, d]) := lands_jump h (.inl hd)

theorem toInt_self {v : Int} (h1 : -2147483648 ≤ v) (h2 : v < 2147483648) : toInt v = v := by
  unfold toInt; omega

theorem row_none {v : Int} (h : ∀ r ∈ table, r.1 ≠ v) : row v = none := by
  unfold row
  rw [List.find?_eq_none.2 (by intro r hr; simpa using h r hr)]; rfl

theorem table_ops : ∀ r ∈ table, r.1 > 9000 ∨ r.1 < 0 := by decide +kernel

theorem low_plain {c : Int} (h : Low c) : plainOp c 0 = true := by
  obtain ⟨h1, h2⟩ := h
  have ht : toInt c = c := toInt_self (by omega) (by omega)
  have hr : row c = none := row_none (by intro r hr; have := table_ops r hr; omega)
  have ha : argcOf c = 0 := by rw [argcOf, hr]
  have hb : c ≠ IC_B ∧ c ≠ IC_BE0 ∧ c ≠ IC_BNE0 ∧ c ≠ IC_FUNC_BEG := by
    unfold IC_B IC_BE0 IC_BNE0 IC_FUNC_BEG; omega
  simp only [plainOp, ht, ha, Bool.and_eq_true, decide_eq_true_eq]
  exact ⟨⟨⟨⟨⟨trivial, trivial⟩, hb.1⟩, hb.2.1⟩, hb.2.2.1⟩, hb.2.2.2⟩

/-! ### Instructions that leave no value -/

theorem void_table : ∀ k : Fin 300, opArgs (.val (toVoid (9000 + (k.val : Int)))) = opArgs (.val (9000 + (k.val : Int))) ∧
    (plainOp (9000 + (k.val : Int)) (argcOf (toInt (9000 + (k.val : Int)))) = true →
      plainOp (toVoid (9000 + (k.val : Int))) (argcOf (toInt (9000 + (k.val : Int)))) = true) := by decide +kernel

theorem toVoid_out {v : Int} (h : ¬ (9000 ≤ v ∧ v < 9300)) : toVoid v = v := by
  unfold toVoid
  rw [if_neg]
  unfold IC_ASSIGN IC_DIV_ASSIGN_AT IC_POST_INC IC_PRE_DEC_AT IC_ASSIGN_R IC_DIV_ASSIGN_AT_R IC_POST_INC_R IC_PRE_DEC_AT_R
  omega

theorem toVoid_plain {v : Int} {n : Nat} (h : plainOp v n = true) : plainOp (toVoid v) n = true := by
  by_cases hv : 9000 ≤ v ∧ v < 9300
  · obtain ⟨k, hk⟩ : ∃ k : Fin 300, v = 9000 + (k.val : Int) := ⟨⟨(v - 9000).toNat, by omega⟩, by simp; omega⟩
    have := (void_table k).2
    rw [← hk] at this
    have hn : argcOf (toInt v) = n := by
      simp only [plainOp, Bool.and_eq_true, decide_eq_true_eq] at h
      exact h.1.1.1.1.2
    rw [hn] at this
    exact this h
  · rw [toVoid_out hv]; exact h

/-- Code that ends with an instruction that leads nowhere and that is not taken for an operand. -/
def Quiet (A : List Sym) : Prop :=
  ∃ X x args, A = X ++ x :: args ∧ Whole X ∧
    ((∃ v, x = .val v ∧ plainOp v args.length = true ∧ (args ≠ [] ∨ 9000 ≤ v)) ∨ ((∃ f, x = .fnOp f) ∧ args.length = 1))

theorem Quiet.left {A B : List Sym} (hA : Whole A) (h : Quiet B) : Quiet (A ++ B) := by
  obtain ⟨X, x, args, rfl, hX, h⟩ := h
  exact ⟨A ++ X, x, args, by simp, hA.append hX, h⟩

theorem quiet_op {A : List Sym} {v : Int} {args : List Sym} (hA : Whole A) (h : plainOp v args.length = true) (hv : args ≠ [] ∨ 9000 ≤ v) :
    Quiet (A ++ .val v :: args) := ⟨A, _, args, rfl, hA, .inl ⟨v, rfl, h, hv⟩⟩

theorem voidHead_spec : ∀ (B : List Sym), voidHead B = B ∨ ∃ v r, B = .val v :: r ∧ voidHead B = .val (toVoid v) :: r
  | .val v :: r => .inr ⟨v, r, rfl, rfl⟩
  | [] | .brk :: _ | .cont :: _ | .next :: _ | .fn _ :: _ | .fnOp _ :: _ | .fnArg _ :: _ => .inl rfl

theorem voidCode_last {B : List Sym} {x : Sym} : voidCode (B ++ [x]) =
    match x with
    | .val v => if v < MIN_INSTRUCTION_CODE then (voidHead B.reverse).reverse ++ [.val v] else B ++ [.val (toVoid v)]
    | _ => B ++ [x] := by
  unfold voidCode
  cases x <;> simp

theorem Lands.void {T : Int → Prop} {A : List Sym} (h : Lands T A) (hq : Quiet A) : Lands T (voidCode A) := by
  obtain ⟨X, x, args, rfl, hX, hx⟩ := hq
  have hTX := (Lands.split hX h).1
  -- only the instruction and its operands change
  have key : ∃ x' args', voidCode (X ++ x :: args) = X ++ x' :: args' ∧ args'.length = args.length ∧ (x' = x ∨ ∃ v, x = .val v ∧ x' = .val (toVoid v)) := by
    rcases List.eq_nil_or_concat args with rfl | ⟨a, y, rfl⟩
    · rcases hx with ⟨v, rfl, h1, h2⟩ | ⟨_, h2⟩
      · have hv : ¬ v < MIN_INSTRUCTION_CODE := by
          rcases h2 with h2 | h2
          · exact absurd rfl h2
          · unfold MIN_INSTRUCTION_CODE; omega
        refine ⟨.val (toVoid v), [], ?_, rfl, .inr ⟨v, rfl, rfl⟩⟩
        rw [voidCode_last]
        simp only [if_neg hv]
      · cases h2
    · have e : X ++ x :: a.concat y = (X ++ x :: a) ++ [y] := by simp
      rw [e, voidCode_last]
      cases y with
      | val u =>
        simp only
        by_cases hu : u < MIN_INSTRUCTION_CODE
        · rw [if_pos hu]
          rcases voidHead_spec (X ++ x :: a).reverse with h0 | ⟨v, r, h0, h1⟩
          · rw [h0]; exact ⟨x, a ++ [.val u], by simp, by simp, .inl rfl⟩
          · rw [h1]
            rcases List.eq_nil_or_concat a with rfl | ⟨a', z, rfl⟩
            · simp only [List.reverse_append, List.reverse_cons, List.reverse_nil, List.nil_append, List.cons_append] at h0
              obtain ⟨h2, h3⟩ := List.cons.inj h0
              refine ⟨.val (toVoid v), [.val u], ?_, by simp, .inr ⟨v, h2, rfl⟩⟩
              rw [← h3]; simp
            · have e2 : (X ++ x :: a'.concat z).reverse = z :: (X ++ x :: a').reverse := by simp
              rw [e2] at h0
              obtain ⟨h2, h3⟩ := List.cons.inj h0
              refine ⟨x, a' ++ [.val (toVoid v)] ++ [.val u], ?_, by simp, .inl rfl⟩
              rw [← h3]; simp
        · rw [if_neg hu]; exact ⟨x, a ++ [.val (toVoid u)], by simp, by simp, .inl rfl⟩
      | _ => exact ⟨x, a ++ [_], by simp; rfl, by simp, .inl rfl⟩
  obtain ⟨x', args', e, hlen, hx'⟩ := key
  rw [e]
  refine hTX.append ?_
  rcases hx with ⟨v, rfl, h1, _⟩ | ⟨⟨f, rfl⟩, h1⟩
  · rcases hx' with rfl | ⟨w, hw, rfl⟩
    · exact lands_op (by rw [hlen]; exact h1)
    · cases hw; exact lands_op (by rw [hlen]; exact toVoid_plain h1)
  · rcases hx' with rfl | ⟨w, hw, _⟩
    · exact .one (by rw [hlen, h1]; rfl) (by intro y hy; cases hy)
    · cases hw

/-! ### Addresses do not move -/

theorem whole_map : ∀ {A : List Sym}, Whole A → ∀ {B : List Sym}, A.map opArgs = B.map opArgs → Whole B := by
  intro A h
  induction h with
  | nil =>
    intro B e
    cases B with
    | nil => exact .nil
    | cons => cases e
  | @cons x args rest n _ ih =>
    intro B e
    cases B with
    | nil => cases e
    | cons y C =>
      simp only [List.map_cons, List.map_append, List.cons.injEq] at e
      obtain ⟨e1, e2⟩ := e
      have hlen : args.length + rest.length = C.length := by
        have := congrArg List.length e2
        simpa using this
      have hC : C = C.take args.length ++ C.drop args.length := (List.take_append_drop _ _).symm
      have e3 : (C.drop args.length).map opArgs = rest.map opArgs := by
        rw [List.map_drop, ← e2, List.drop_left' (by simp)]
      rw [hC]
      exact .cons (by rw [← e1, n]; simp; omega) (ih e3.symm)

theorem argc_toVoid (v : Int) : opArgs (.val (toVoid v)) = opArgs (.val v) := by
  by_cases hv : 9000 ≤ v ∧ v < 9300
  · obtain ⟨k, hk⟩ : ∃ k : Fin 300, v = 9000 + (k.val : Int) := ⟨⟨(v - 9000).toNat, by omega⟩, by simp; omega⟩
    have := (void_table k).1
    rw [← hk] at this
    exact this
  · rw [toVoid_out hv]

theorem voidHead_map (B : List Sym) : (voidHead B).map opArgs = B.map opArgs := by
  rcases voidHead_spec B with h | ⟨v, r, h1, h2⟩
  · rw [h]
  · rw [h2, h1, List.map_cons, List.map_cons, argc_toVoid]

theorem voidCode_map (A : List Sym) : A.map opArgs = (voidCode A).map opArgs := by
  rcases List.eq_nil_or_concat A with rfl | ⟨B, x, rfl⟩
  · rfl
  · rw [List.concat_eq_append, voidCode_last]
    cases x with
    | val v =>
      simp only
      split
      · rw [List.map_append, List.map_append, List.map_reverse, voidHead_map, List.map_reverse, List.reverse_reverse]
      · rw [List.map_append, List.map_append, List.map_singleton, List.map_singleton, argc_toVoid]
    | _ => rfl

theorem On.moved {base : Nat} {A B : List Sym} {v : Int} (e : A.map opArgs = B.map opArgs) (h : On base A v) : On base B v := by
  obtain ⟨X, Y, rfl, hX, hY, rfl⟩ := h
  have hlen : X.length + Y.length = B.length := by
    have := congrArg List.length e
    simpa using this
  refine ⟨B.take X.length, B.drop X.length, (List.take_append_drop _ _).symm, whole_map hX ?_, whole_map hY ?_, by simp; omega⟩
  · rw [List.map_take, ← e, List.map_append, List.take_left' (by simp)]
  · rw [List.map_drop, ← e, List.map_append, List.drop_left' (by simp)]

theorem G.void {T : Int → Prop} {base : Nat} {A : List Sym} (h : G T base A) (hq : Quiet A) : G T base (voidCode A) :=
  Lands.mono (fun _ hv => hv.imp id (On.moved (voidCode_map A))) (Lands.void h hq)

end RuC.Listing
