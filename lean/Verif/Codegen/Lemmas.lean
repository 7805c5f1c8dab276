import Verif.Codegen.Spec

/-!
# Memory as code with threaded holes

While code is being emitted a hole is a link of a chain.  `conc` says what stands in memory for code with holes, and
`app` appends code with holes to an encoder.
-/

namespace RuC.Codegen

open RuC RuC.Instr
open RuC.Expr (Unary Binary)

/-- The heads of the chains. -/
structure Heads where
  brk : Nat
  cont : Nat
  fn : Nat → Int

/-- What stands at the address `a` for a cell of code. -/
def cell (h : Heads) : Sym → Int
  | .val v => v
  | .brk => h.brk
  | .cont => h.cont
  | .next => 0
  | .fn f => (h.fn f).natAbs
  | .fnOp f => if h.fn f ≥ 0 then IC_LI else IC_LOAD
  | .fnArg f => (h.fn f).natAbs

/-- The heads behind it. -/
def step (h : Heads) (a : Nat) : Sym → Heads
  | .brk => { h with brk := a }
  | .cont => { h with cont := a }
  | .fn f => if h.fn f ≤ 0 then { h with fn := update h.fn f (-(a : Int)) } else h
  | _ => h

/-- The cells for code at `a`. -/
def conc (h : Heads) (a : Nat) : List Sym → List Int
  | [] => []
  | x :: A => cell h x :: conc (step h a x) (a + 1) A

/-- The heads behind code at `a`. -/
def after (h : Heads) (a : Nat) : List Sym → Heads
  | [] => h
  | x :: A => after (step h a x) (a + 1) A

theorem conc_append (h a A B) : conc h a (A ++ B) = conc h a A ++ conc (after h a A) (a + A.length) B := by
  induction A generalizing h a with
  | nil => simp [conc, after]
  | cons x A ih => simp only [List.cons_append, conc, after, ih, List.length_cons]; congr 3; omega

theorem after_append (h a A B) : after h a (A ++ B) = after (after h a A) (a + A.length) B := by
  induction A generalizing h a with
  | nil => simp [after]
  | cons x A ih => simp only [List.cons_append, after, ih, List.length_cons]; congr 1; omega

@[simp] theorem conc_length (h a A) : (conc h a A).length = A.length := by
  induction A generalizing h a with
  | nil => rfl
  | cons x A ih => simp [conc, ih]

@[simp] theorem vals_length (l) : (vals l).length = l.length := by simp [vals]
@[simp] theorem vals_nil : vals [] = [] := rfl
@[simp] theorem vals_cons (x l) : vals (x :: l) = .val x :: vals l := rfl
theorem vals_append (l m) : vals (l ++ m) = vals l ++ vals m := by simp [vals]

@[simp] theorem conc_vals (h a l) : conc h a (vals l) = l := by
  induction l generalizing a with
  | nil => rfl
  | cons x l ih => simp [conc, cell, step, ih]

@[simp] theorem after_vals (h a l) : after h a (vals l) = h := by
  induction l generalizing a with
  | nil => rfl
  | cons x l ih => simp [after, step, ih]

def Enc.heads (st : Enc) : Heads := ⟨st.brk, st.cont, st.fn⟩

/-- The encoder with code appended. -/
def app (st : Enc) (A : List Sym) : Enc :=
  { st with
    mem := st.mem ++ conc st.heads st.size A
    brk := (after st.heads st.size A).brk
    cont := (after st.heads st.size A).cont
    fn := (after st.heads st.size A).fn }

@[simp] theorem app_size (st A) : (app st A).size = st.size + A.length := by simp [app, Enc.size]
@[simp] theorem app_lay (st A) : (app st A).lay = st.lay := rfl
@[simp] theorem app_next (st A) : (app st A).next = st.next := rfl
@[simp] theorem app_hung (st A) : (app st A).hung = st.hung := rfl
@[simp] theorem app_funcs (st A) : (app st A).funcs = st.funcs := rfl
@[simp] theorem app_heads (st A) : (app st A).heads = after st.heads st.size A := rfl
theorem app_mem (st A) : (app st A).mem = st.mem ++ conc st.heads st.size A := rfl

@[simp] theorem app_nil (st) : app st [] = st := by
  simp [app, conc, after, Enc.heads]

theorem app_app (st A B) : app (app st A) B = app st (A ++ B) := by
  simp only [app, conc_append, after_append, Enc.size, Enc.heads, List.length_append, conc_length, List.append_assoc]

theorem adds_app (st l) : st.adds l = app st (vals l) := by
  simp [app, Enc.adds, Enc.heads]

theorem add_app (st v) : st.add v = app st (vals [v]) := by
  simp [app, Enc.add, Enc.heads, conc, cell, after, step]

theorem heads_set (st : Enc) (i v) : (st.set i v).heads = st.heads := rfl
@[simp] theorem size_set (st : Enc) (i v) : (st.set i v).size = st.size := by simp [Enc.set, Enc.size]
@[simp] theorem lay_set (st : Enc) (i v) : (st.set i v).lay = st.lay := rfl

/-- Setting a cell that was a number. -/
theorem set_app (st : Enc) (X : List Sym) (u v : Int) (Y : List Sym) (i : Nat) (hi : i = st.size + X.length) :
    (app st (X ++ .val u :: Y)).set i v = app st (X ++ .val v :: Y) := by
  subst hi
  have hlen : (st.mem ++ conc st.heads st.size X).length = st.size + X.length := by simp [Enc.size]
  simp only [app, Enc.set, conc_append, after_append, conc, after, step, cell]
  congr 1
  rw [← List.append_assoc, ← hlen, List.set_append_right _ _ (Nat.le_refl _), Nat.sub_self, List.set_cons_zero, List.append_assoc]

/-- Setting a cell of the memory before. -/
theorem set_app_before (st : Enc) (A : List Sym) (i : Nat) (v : Int) (hi : i < st.size) :
    (app st A).set i v = app (st.set i v) A := by
  unfold Enc.size at hi
  simp only [app, Enc.set, Enc.size, Enc.heads, List.length_set]
  rw [List.set_append_left _ _ hi]

/-- `functions_get` and the cell it is for. -/
theorem functionsGet_app (st : Enc) (f : Nat) : (st.functionsGet f).2.add (st.functionsGet f).1 = app st [.fn f] := by
  simp only [Enc.functionsGet]
  split
  · rename_i h
    simp [app, Enc.add, conc, cell, after, step, Enc.heads, h, Enc.size]
  · rename_i h
    simp [app, Enc.add, conc, cell, after, step, Enc.heads, h]

theorem funArg_app (st : Enc) (f : Nat) : st.adds [(if st.fn f ≥ 0 then IC_LI else IC_LOAD), ((st.fn f).natAbs : Int)] = app st [.fnOp f, .fnArg f] := by
  simp [app, Enc.adds, conc, cell, after, step, Enc.heads]

/-! ### Filling holes -/

@[simp] theorem fill_length (k v A) : (fill k v A).length = A.length := by simp [fill]
theorem fill_append (k v A B) : fill k v (A ++ B) = fill k v A ++ fill k v B := by simp [fill]
@[simp] theorem fill_nil (k v) : fill k v [] = [] := rfl
theorem fill_vals (k v l) (hk : ∀ u, k ≠ .val u) : fill k v (vals l) = vals l := by
  induction l with
  | nil => rfl
  | cons x l ih =>
    simp only [fill, vals_cons, List.map_cons]
    rw [if_neg (fun h => hk x h.symm)]
    exact congrArg _ ih

theorem fill_of_not_mem {k v A} (h : k ∉ A) : fill k v A = A := by
  induction A with
  | nil => rfl
  | cons x A ih =>
    simp only [List.mem_cons, not_or] at h
    simp only [fill, List.map_cons, if_neg (Ne.symm h.1)]
    exact congrArg _ (ih h.2)

theorem mem_fill {x k v A} (h : x ∈ fill k v A) (hx : ∀ u, x ≠ .val u) : x ∈ A ∧ x ≠ k := by
  simp only [fill, List.mem_map] at h
  obtain ⟨y, hy, e⟩ := h
  split at e
  · exact absurd e.symm (hx v)
  · rename_i hne; subst e; exact ⟨hy, hne⟩

/-- The kinds of chains that are walked along. -/
inductive Chain
  | brk | cont
  | fn (f : Nat)

def Chain.sym : Chain → Sym
  | .brk => .brk
  | .cont => .cont
  | .fn f => .fn f

/-- The address a walk starts from. -/
def Chain.head (h : Heads) : Chain → Nat
  | .brk => h.brk
  | .cont => h.cont
  | .fn f => (h.fn f).natAbs

/-- The chain is one that grows. -/
def Chain.Open (h : Heads) : Chain → Prop
  | .fn f => h.fn f ≤ 0
  | _ => True

/-- The heads but for those of the chain. -/
def Chain.Same (k : Chain) (h g : Heads) : Prop :=
  match k with
  | .brk => h.cont = g.cont ∧ h.fn = g.fn
  | .cont => h.brk = g.brk ∧ h.fn = g.fn
  | .fn f => h.brk = g.brk ∧ h.cont = g.cont ∧ ∀ i, i ≠ f → h.fn i = g.fn i

/-- No function of the chain is pushed as a value. -/
def Chain.NoArg (k : Chain) (x : Sym) : Prop :=
  match k with
  | .fn f => x ≠ .fnOp f ∧ x ≠ .fnArg f
  | _ => True

theorem Chain.same_refl (k : Chain) (h) : k.Same h h := by cases k <;> simp [Chain.Same]

theorem Chain.cell_same {k : Chain} {h g : Heads} (s : k.Same h g) {x : Sym} (hx : x ≠ k.sym) (hn : k.NoArg x) : cell h x = cell g x := by
  cases k <;> cases x <;> simp_all [Chain.Same, Chain.sym, Chain.NoArg, cell]

theorem Chain.step_same {k : Chain} {h g : Heads} (s : k.Same h g) {x : Sym} (hx : x ≠ k.sym) (a) : k.Same (step h a x) (step g a x) := by
  cases k <;> cases x <;> simp_all [Chain.Same, Chain.sym, step]
  · split <;> simp_all
  · split <;> simp_all
  · rename_i f i
    split <;> simp_all [update]

theorem Chain.step_hole {k : Chain} {h g : Heads} (s : k.Same h g) (a) : k.Same (step h a k.sym) g := by
  cases k <;> simp_all [Chain.Same, Chain.sym, step]
  split <;> simp_all [update]

theorem Chain.head_step {k : Chain} {h : Heads} (x : Sym) (hx : x ≠ k.sym) (a) : k.head (step h a x) = k.head h := by
  cases k <;> cases x <;> simp_all [Chain.head, Chain.sym, step]
  · split <;> simp_all
  · split <;> simp_all
  · rename_i f i
    split <;> simp_all [update]
    rw [if_neg (fun e => hx e.symm)]

theorem Chain.head_hole {k : Chain} {h : Heads} (o : k.Open h) (a) : k.head (step h a k.sym) = a := by
  cases k <;> simp_all [Chain.head, Chain.sym, step, Chain.Open, update]

theorem Chain.cell_hole {k : Chain} {h : Heads} : cell h k.sym = k.head h := by
  cases k <;> simp [Chain.head, Chain.sym, cell]

theorem Chain.open_step {k : Chain} {h : Heads} (o : k.Open h) (x a) : k.Open (step h a x) := by
  cases k <;> simp_all [Chain.Open]
  rename_i f
  cases x <;> simp_all [step]
  split
  · simp only [update]; split <;> omega
  · exact o

theorem Chain.open_after {k : Chain} {h : Heads} (o : k.Open h) (A a) : k.Open (after h a A) := by
  induction A generalizing h a with
  | nil => exact o
  | cons x A ih => exact ih (Chain.open_step o x a) _

theorem Chain.same_after {k : Chain} {h g : Heads} (s : k.Same h g) (v) (A a) : k.Same (after h a A) (after g a (fill k.sym v A)) := by
  induction A generalizing h g a with
  | nil => exact s
  | cons x A ih =>
    simp only [fill, List.map_cons, after]
    by_cases hx : x = k.sym
    · subst hx; rw [if_pos rfl]; exact ih (Chain.step_hole s a) _
    · rw [if_neg hx]; exact ih (Chain.step_same s hx a) _

theorem Chain.head_after_fill {k : Chain} {h : Heads} (v) (A a) : k.head (after h a (fill k.sym v A)) = k.head h := by
  induction A generalizing h a with
  | nil => rfl
  | cons x A ih =>
    simp only [fill, List.map_cons, after]
    by_cases hx : x = k.sym
    · rw [if_pos hx]; exact ih _
    · rw [if_neg hx]
      exact (ih _).trans (Chain.head_step x hx a)

theorem Chain.sym_ne_val (k : Chain) (v) : k.sym ≠ .val v := by cases k <;> simp [Chain.sym]

@[simp] theorem cell_val (h v) : cell h (.val v) = v := rfl

theorem rev_ind {P : List Sym → Prop} (nil : P []) (snoc : ∀ A x, P A → P (A ++ [x])) (A : List Sym) : P A := by
  have : ∀ B : List Sym, P B.reverse := by
    intro B
    induction B with
    | nil => exact nil
    | cons x B ih => rw [List.reverse_cons]; exact snoc _ _ ih
  have h := this A.reverse
  rwa [List.reverse_reverse] at h

/-- The walk along a chain fills its holes. -/
theorem walk_fill (k : Chain) (v : Int) (M : List Int) (h : Heads) (stop : Nat) (ho : k.Open h) (hs : stop = k.head h) :
    ∀ (A : List Sym) (T : List Int) (fuel : Nat), (∀ x ∈ A, k.NoArg x) →
      (∀ i, A[i]? = some k.sym → M.length + i ≠ stop) → M.length + A.length < 18446744073709551616 → stop < 18446744073709551616 →
      A.length ≤ fuel →
      walk fuel (M ++ conc h M.length A ++ T) (k.head (after h M.length A)) stop v =
        some (M ++ conc h M.length (fill k.sym v A) ++ T) := by
  intro A
  induction A using rev_ind with
  | nil =>
    intro T fuel _ _ _ _ _
    rw [walk.eq_def]
    simp [after, hs, conc]
  | snoc A x ih =>
    intro T fuel hna hne hsz hst hf
    have hsz' : M.length + A.length + 1 < 18446744073709551616 := by simpa [Nat.add_assoc] using hsz
    have hna' : ∀ y ∈ A, k.NoArg y := fun y hy => hna y (by simp [hy])
    have hne' : ∀ i, A[i]? = some k.sym → M.length + i ≠ stop := fun i hi => hne i (by
      rw [List.getElem?_append_left]
      · exact hi
      · rw [List.getElem?_eq_some_iff] at hi; exact hi.1)
    have ho' := Chain.open_after ho A M.length
    rw [fill_append, conc_append, after_append, conc_append]
    by_cases hx : x = k.sym
    · subst hx
      have e1 : fill k.sym v [k.sym] = [.val v] := by simp [fill]
      rw [e1]
      simp only [conc, after, cell_val, fill_length, Chain.head_hole ho', Chain.cell_hole]
      have hne0 := hne A.length (by simp)
      match fuel with
      | 0 => simp at hf
      | fuel + 1 =>
        rw [walk.eq_def]
        rw [if_neg hne0]
        simp only
        have hlen : (M ++ conc h M.length A).length = M.length + A.length := by simp
        have hget : (M ++ (conc h M.length A ++ [(k.head (after h M.length A) : Int)]) ++ T).getD (M.length + A.length) ITEM_MAX = (k.head (after h M.length A) : Int) := by
          rw [List.getD_eq_getElem?_getD, ← List.append_assoc, ← hlen, List.append_assoc, List.getElem?_append_right (Nat.le_refl _), Nat.sub_self]
          simp
        have hset : (M ++ (conc h M.length A ++ [(k.head (after h M.length A) : Int)]) ++ T).set (M.length + A.length) v = M ++ conc h M.length A ++ (v :: T) := by
          rw [← List.append_assoc, ← hlen, List.append_assoc, List.set_append_right _ _ (Nat.le_refl _), Nat.sub_self]
          simp
        rw [hget, hset]
        have hb : k.head (after h M.length A) < 18446744073709551616 := by
          have : ∀ (B : List Sym) (g : Heads) (a : Nat), k.Open g → k.head g < 18446744073709551616 → a + B.length < 18446744073709551616 → k.head (after g a B) < 18446744073709551616 := by
            intro B
            induction B with
            | nil => intro g a _ hg _; exact hg
            | cons y B ihB =>
              intro g a og hg ha
              refine ihB _ _ (Chain.open_step og y a) ?_ (by simp at ha; omega)
              by_cases hy : y = k.sym
              · subst hy; rw [Chain.head_hole og]; simp at ha; omega
              · rw [Chain.head_step y hy]; exact hg
          exact this A h M.length ho (by omega) (by omega)
        rw [toSize_natCast hb, ih (v :: T) fuel hna' hne' (by omega) hst (by simp at hf; omega)]
        simp
    · have e1 : fill k.sym v [x] = [x] := by simp [fill, hx]
      rw [e1]
      simp only [conc, after, fill_length, Chain.head_step x hx]
      have e2 : cell (after h M.length (fill k.sym v A)) x = cell (after h M.length A) x :=
        (Chain.cell_same (Chain.same_after (Chain.same_refl k h) v A M.length) hx (hna x (by simp))).symm
      rw [e2, ← List.append_assoc, List.append_assoc _ [_] T, ih _ fuel hna' hne' (by omega) hst (by simp at hf; omega)]
      simp

end RuC.Codegen
