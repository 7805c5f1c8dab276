import Verif.Machine.Lemmas

/-!
How the machine holds the variables of a program, and what it means that it follows an evaluation.
-/

namespace RuC.Machine

open RuC RuC.Codegen RuC.Instr
open RuC.Expr (Unary Binary)

/-- The globals have cells of their own. -/
structure Ctx.Ok (C : Ctx) : Prop where
  range : ∀ i, C.global i = true → 3 ≤ - C.D i ∧ - C.D i < C.M.globals
  inj : ∀ i j, C.global i = true → C.global j = true → C.D i = C.D j → i = j

/-- The code may mention the variable: the displacement is the one it has, and is no number of an instruction. -/
def okId (C : Ctx) (L : Layout) (id : Nat) : Prop :=
  (C.global id = true → L.displs id = C.D id) ∧ L.displs id < MIN_INSTRUCTION_CODE

/-- The machine holds the values of the variables, laid out as `L` says. -/
structure Inv (C : Ctx) (L : Layout) (s : Src) (v : State) : Prop where
  out : v.out = s.out
  glob : ∀ i x, C.global i = true → s.var i = some (some x) → v.globals (C.D i) = x
  loc : ∀ i x, C.global i = false → s.var i = some (some x) → v.cells (L.displs i) = x
  range : ∀ i, C.global i = false → (s.var i).isSome → 3 ≤ L.displs i ∧ L.displs i < v.size ∧ L.displs i < L.displ
  inj : ∀ i j, C.global i = false → C.global j = false → (s.var i).isSome → (s.var j).isSome → L.displs i = L.displs j → i = j

theorem Inv.congr {C L s v v'} (h : Inv C L s v) (h1 : v'.out = v.out) (h2 : v'.globals = v.globals) (h3 : v'.cells = v.cells)
    (h4 : v'.size = v.size) : Inv C L s v' :=
  ⟨h1.trans h.out, by rw [h2]; exact h.glob, by rw [h3]; exact h.loc, by rw [h4]; exact h.range, h.inj⟩

/-- The same variables in scope. -/
def Same (s s' : Src) : Prop := ∀ id, (s'.var id).isSome = (s.var id).isSome

theorem Same.refl {s} : Same s s := fun _ => rfl
theorem Same.trans {a b c} (h : Same a b) (g : Same b c) : Same a c := fun id => (g id).trans (h id)

theorem get_global {C : Ctx} (ok : C.Ok) {v : State} {i : Nat} (hg : C.global i = true) : v.get C.M (C.D i) = some (v.globals (C.D i)) := by
  have := ok.range i hg
  rw [State.get, if_pos (by omega), if_pos this]

theorem get_var {C : Ctx} (ok : C.Ok) {L s v id x} (inv : Inv C L s v) (hid : okId C L id) (h : s.var id = some (some x)) :
    v.get C.M (L.displs id) = some x := by
  cases hg : C.global id with
  | true => rw [hid.1 hg, get_global ok hg, inv.glob id x hg h]
  | false =>
    have := inv.range id hg (by rw [h]; rfl)
    rw [State.get, if_neg (by omega), if_pos (by omega), inv.loc id x hg h]

/-- A store keeps everything but memory. -/
structure Kept (v v' : State) : Prop where
  pc : v'.pc = v.pc
  stack : v'.stack = v.stack
  pend : v'.pend = v.pend
  size : v'.size = v.size
  frames : v'.frames = v.frames

theorem same_set {s : Src} {id : Nat} {x : Option Int} (h : (s.var id).isSome) : Same s (s.set id (some x)) := by
  intro j
  by_cases hj : j = id
  · subst hj; simp [Src.set, h]
  · simp [Src.set, hj]

theorem set_var {C : Ctx} (ok : C.Ok) {L s v id} (inv : Inv C L s v) (hid : okId C L id) (h : (s.var id).isSome) (w : Int) :
    ∃ v', v.set C.M (L.displs id) w = some v' ∧ Kept v v' ∧ Inv C L (s.set id (some (some w))) v' := by
  have hs := same_set (x := some w) h
  have key : ∀ j x, (s.set id (some (some w))).var j = some (some x) → (j = id ∧ x = w) ∨ (j ≠ id ∧ s.var j = some (some x)) := by
    intro j x hj
    by_cases e : j = id
    · left; simp [Src.set, e] at hj; exact ⟨e, hj.symm⟩
    · right; simp [Src.set, e] at hj; exact ⟨e, hj⟩
  cases hg : C.global id with
  | true =>
    have hr := ok.range id hg
    refine ⟨{ v with globals := fun x => if x = C.D id then w else v.globals x }, by rw [hid.1 hg, State.set, if_pos (by omega), if_pos hr], ⟨rfl, rfl, rfl, rfl, rfl⟩, ⟨inv.out, ?_, ?_, ?_, ?_⟩⟩
    · intro j x gj hj
      show (if C.D j = C.D id then w else v.globals (C.D j)) = x
      rcases key j x hj with ⟨rfl, rfl⟩ | ⟨ne, hj⟩
      · simp
      · rw [if_neg (fun e => ne (ok.inj j id gj hg e))]; exact inv.glob j x gj hj
    · intro j x gj hj
      rcases key j x hj with ⟨rfl, _⟩ | ⟨ne, hj⟩
      · rw [hg] at gj; cases gj
      · exact inv.loc j x gj hj
    · intro j gj hj; rw [hs j] at hj; exact inv.range j gj hj
    · intro i j gi gj hi hj; rw [hs i] at hi; rw [hs j] at hj; exact inv.inj i j gi gj hi hj
  | false =>
    have hr := inv.range id hg h
    refine ⟨{ v with cells := fun x => if x = L.displs id then w else v.cells x }, by rw [State.set, if_neg (by omega), if_pos (by omega)], ⟨rfl, rfl, rfl, rfl, rfl⟩, ⟨inv.out, ?_, ?_, ?_, ?_⟩⟩
    · intro j x gj hj
      rcases key j x hj with ⟨rfl, _⟩ | ⟨ne, hj⟩
      · rw [hg] at gj; cases gj
      · exact inv.glob j x gj hj
    · intro j x gj hj
      show (if L.displs j = L.displs id then w else v.cells (L.displs j)) = x
      rcases key j x hj with ⟨rfl, rfl⟩ | ⟨ne, hj⟩
      · simp
      · rw [if_neg (fun e => ne (inv.inj j id gj hg (by rw [hj]; rfl) h e))]; exact inv.loc j x gj hj
    · intro j gj hj; rw [hs j] at hj; exact inv.range j gj hj
    · intro i j gi gj hi hj; rw [hs i] at hi; rw [hs j] at hj; exact inv.inj i j gi gj hi hj

/-- Where the machine got to: the address, the stack, and nothing changed about calls. -/
structure Upto (v v' : State) (pc : Nat) (k : List Int) : Prop where
  pc : v'.pc = pc
  stack : v'.stack = k
  pend : v'.pend = v.pend
  size : v'.size = v.size
  frames : v'.frames = v.frames

theorem Upto.trans {v v1 v2 p1 p2 k1 k2} (h : Upto v v1 p1 k1) (g : Upto v1 v2 p2 k2) : Upto v v2 p2 k2 :=
  ⟨g.pc, g.stack, g.pend.trans h.pend, g.size.trans h.size, g.frames.trans h.frames⟩

/-- What the machine has for a value: the value; or, when only its truth is asked for, one that is zero when it is. -/
def Rep (tr : Bool) (x x' : Int) : Prop := x' = x ∨ (tr = true ∧ x ≠ 0 ∧ x' ≠ 0)

theorem Rep.refl {tr x} : Rep tr x x := .inl rfl
theorem Rep.exact {x x'} (h : Rep false x x') : x' = x := by rcases h with h | ⟨h, _⟩; exact h; cases h
theorem Rep.zero {tr x x'} (h : Rep tr x x') : x' = 0 ↔ x = 0 := by
  rcases h with rfl | ⟨_, h1, h2⟩
  · rfl
  · exact ⟨fun e => absurd e h2, fun e => absurd e h1⟩

/-- The machine follows: `P` says where it gets to when there is a result. -/
def Follows (C : Ctx) (n : Nat) (v : State) {α} (P : α → Src → State → Prop) : Res α → Prop
  | .ok a s => ∃ v', Reach C.M 0 v v' ∧ P a s v'
  | .more out => Far C.M n v out
  | .wrong => True

theorem Follows.bindEq {C n v} {α β} {P : α → Src → State → Prop} {Q : β → Src → State → Prop} {r : Res α} {f : α → Src → Res β}
    (h : Follows C n v P r) (g : ∀ a s v', r = .ok a s → P a s v' → Follows C n v' Q (f a s)) : Follows C n v Q (r.bind f) := by
  cases r with
  | wrong => trivial
  | more out => exact h
  | ok a s =>
    obtain ⟨v', h1, h2⟩ := h
    have := g a s v' rfl h2
    show Follows C n v Q (f a s)
    cases hf : f a s with
    | wrong => trivial
    | more out => rw [hf] at this; exact Far.then h1 this
    | ok b s2 =>
      rw [hf] at this
      obtain ⟨v2, h3, h4⟩ := this
      exact ⟨v2, h1.then h3, h4⟩

theorem Follows.bind {C n v} {α β} {P : α → Src → State → Prop} {Q : β → Src → State → Prop} {r : Res α} {f : α → Src → Res β}
    (h : Follows C n v P r) (g : ∀ a s v', P a s v' → Follows C n v' Q (f a s)) : Follows C n v Q (r.bind f) :=
  h.bindEq fun a s v' _ => g a s v'

theorem Follows.start {C n v v1} {α} {P : α → Src → State → Prop} {r : Res α} (h : Reach C.M 0 v v1) (g : Follows C n v1 P r) : Follows C n v P r := by
  cases r with
  | wrong => trivial
  | more out => exact Far.then h g
  | ok a s =>
    obtain ⟨v', g1, g2⟩ := g
    exact ⟨v', h.then g1, g2⟩

theorem Follows.monoEq {C n v} {α} {P Q : α → Src → State → Prop} {r : Res α} (h : Follows C n v P r) (g : ∀ a s v', r = .ok a s → P a s v' → Q a s v') :
    Follows C n v Q r := by
  cases r with
  | wrong => trivial
  | more out => exact h
  | ok a s =>
    obtain ⟨v', h1, h2⟩ := h
    exact ⟨v', h1, g a s v' rfl h2⟩

theorem Follows.mono {C n v} {α} {P Q : α → Src → State → Prop} {r : Res α} (h : Follows C n v P r) (g : ∀ a s v', P a s v' → Q a s v') :
    Follows C n v Q r := h.monoEq fun a s v' _ => g a s v'

theorem Follows.valueEq {C n v} {β} {P : Option Int → Src → State → Prop} {Q : β → Src → State → Prop} {r : Res (Option Int)} {f : Int → Src → Res β}
    (h : Follows C n v P r) (g : ∀ x s v', r = .ok (some x) s → P (some x) s v' → Follows C n v' Q (f x s)) : Follows C n v Q (r.value f) := by
  refine Follows.bindEq h fun a s v' he hp => ?_
  cases a with
  | none => trivial
  | some x => exact g x s v' he hp

theorem Follows.value {C n v} {β} {P : Option Int → Src → State → Prop} {Q : β → Src → State → Prop} {r : Res (Option Int)} {f : Int → Src → Res β}
    (h : Follows C n v P r) (g : ∀ x s v', P (some x) s v' → Follows C n v' Q (f x s)) : Follows C n v Q (r.value f) := by
  refine Follows.bind h fun a s v' hp => ?_
  cases a with
  | none => trivial
  | some x => exact g x s v' hp

/-- After the value of an expression: `k` is the stack before, `s0` had the variables in scope. -/
def AtValue (C : Ctx) (L : Layout) (tr : Bool) (v : State) (pc : Nat) (k : List Int) (s0 : Src) (r : Option Int) (s : Src) (v' : State) : Prop :=
  Inv C L s v' ∧ Same s0 s ∧ match r with
    | some x => ∃ x', Rep tr x x' ∧ Upto v v' pc (x' :: k)
    | none => Upto v v' pc k

/-- After an expression whose value is not asked for. -/
def AtVoid (C : Ctx) (L : Layout) (quiet : Prop) (v : State) (pc : Nat) (k : List Int) (s0 : Src) (r : Option Int) (s : Src) (v' : State) : Prop :=
  Inv C L s v' ∧ Same s0 s ∧ ∃ junk, Upto v v' pc (junk ++ k) ∧ (quiet ∨ r = none → junk = [])

/-- After the values of arguments. -/
def AtValues (C : Ctx) (L : Layout) (v : State) (pc : Nat) (k : List Int) (s0 : Src) (r : List Int) (s : Src) (v' : State) : Prop :=
  Inv C L s v' ∧ Same s0 s ∧ Upto v v' pc (r.reverse ++ k)

/-- The machine follows calls. -/
def CallsOk (C : Ctx) (n : Nat) (call : Calls) : Prop :=
  ∀ (L : Layout) (f : Nat) (vs : List Int) (s : Src) (v : State) (k : List Int) (ks : List (List Int)), Inv C L s v →
    C.M.code[v.pc]? = some IC_CALL2 → C.M.code[v.pc + 1]? = some (C.F f) → v.stack = vs.reverse → v.pend = k :: ks →
    Follows C n v (fun r s' v' => Inv C L s' v' ∧ Same s s' ∧ v'.pc = v.pc + 2 ∧ v'.stack = r.toList ++ k ∧ v'.pend = ks ∧
      v'.size = v.size ∧ v'.frames = v.frames) (call f vs s)

end RuC.Machine
