import Verif.Checks.Grow

/-! Lemmas on the types that declarators build. -/

namespace RuC.Checks

open RuC RuC.Types RuC.Types.Spec RuC.Expr RuC.Builder RuC.Builder.Spec RuC.Checks.Spec

variable {F : Type} {cells : List Int}

/-- The class of the cell decides which rule made the type. -/
theorem full_const_lt {t u : Int} (h : Full cells t) (hc : ConstOf cells t u) : u < t := by
  obtain ⟨n, e, h0, h1, h2⟩ := hc
  have same : ∀ {m : Nat} {x : Int}, t = m → cells[m]? = some x → x = TYPE_CONST := by
    intro m x e2 hx
    have : m = n := by omega
    subst this
    rw [h1] at hx; exact (Option.some.inj hx).symm
  cases h with
  | basic h => omega
  | leaf h hk =>
    rcases hk with hk | hk | hk <;> exact absurd (same rfl hk) (by decide)
  | const hk hlt =>
    obtain ⟨m, e2, -, k1, k2⟩ := hk
    have : m = n := by omega
    subst this
    rw [h2] at k2
    cases k2
    exact hlt
  | array hk => obtain ⟨m, e2, -, k, -⟩ := hk; exact absurd (same e2 k) (by decide)
  | struct hk => obtain ⟨m, e2, -, k, -⟩ := hk; exact absurd (same e2 k) (by decide)

/-- The compiler at work: a table of types after a history of requests. -/
structure World (a b : Int) (h : List (Req × Int)) (tb : Table) : Prop where
  run : Run a b h tb
  proper : Proper h
  first : a ≠ TYPE_ENUM
  second : b ≠ TYPE_ENUM

theorem World.clean {a b : Int} {h : List (Req × Int)} {tb : Table} (w : World a b h tb) (hlen : tb.cells.length < 2305843009213693952) : Clean tb.cells :=
  run_clean w.run hlen w.first w.second

/-- A type of the history may be made `const`: it is neither an enumeration nor `const`, nor a built-in type other than `int`. -/
def Constable (h : List (Req × Int)) (t : Int) : Prop := -1 ≤ t ∧ (∀ fs, (.enum fs, t) ∉ h) ∧ ∀ v, (.const v, t) ∉ h

/-- The table grows. -/
structure Grows (a b : Int) (h : List (Req × Int)) (tb : Table) (h' : List (Req × Int)) (tb' : Table) (n : Nat) : Prop where
  world : World a b h' tb'
  keep : ∀ x ∈ h, x ∈ h'
  ext : ∃ ext, tb'.cells = tb.cells ++ ext
  size : tb'.cells.length ≤ tb.cells.length + n

theorem Grows.refl {a b : Int} {h : List (Req × Int)} {tb : Table} (w : World a b h tb) (n : Nat) : Grows a b h tb h tb n :=
  ⟨w, fun _ hx => hx, ⟨[], by simp⟩, by omega⟩

theorem Grows.trans {a b : Int} {h h' h'' : List (Req × Int)} {tb tb' tb'' : Table} {n m : Nat} (g : Grows a b h tb h' tb' n) (g' : Grows a b h' tb' h'' tb'' m) :
    Grows a b h tb h'' tb'' (n + m) := by
  obtain ⟨e1, h1⟩ := g.ext
  obtain ⟨e2, h2⟩ := g'.ext
  refine ⟨g'.world, fun x hx => g'.keep x (g.keep x hx), ⟨e1 ++ e2, by rw [h2, h1, List.append_assoc]⟩, ?_⟩
  have := g.size; have := g'.size
  omega

theorem Grows.den {a b : Int} {h h' : List (Req × Int)} {tb tb' : Table} {n : Nat} (g : Grows a b h tb h' tb' n) {t : Int} {T : Ty} (d : Den tb.cells t T) : Den tb'.cells t T := by
  obtain ⟨e1, h1⟩ := g.ext
  rw [h1]; exact den_mono d

theorem Grows.ready {a b : Int} {h h' : List (Req × Int)} {tb tb' : Table} {n : Nat} (g : Grows a b h tb h' tb' n) {e : Ex F} (d : Ready tb.cells e) : Ready tb'.cells e := by
  obtain ⟨e1, h1⟩ := g.ext
  rw [h1]; exact ready_mono d

/-- One request. -/
theorem grow_step {a b : Int} {h : List (Req × Int)} {tb : Table} (w : World a b h tb) (hlen : tb.cells.length + 3 < 2305843009213693952) {r : Req} {t : Int} {T : Ty}
    (ht : Of h t) (d : Den tb.cells t T) (hk : r = .pointer t ∨ r = .array t ∨ (r = .const t ∧ Constable h t)) :
    ∃ u tb', build tb r = some (u, tb') ∧ Grows a b h tb ((r, u) :: h) tb' 3 ∧ Den tb'.cells u (match r with | .pointer _ => .pointer T | .array _ => .array T | _ => .const T) := by
  obtain ⟨u, tb', hb, hr', hext, hl, hp'⟩ := small_step w.run hlen w.proper (r := r) (t := t)
    (by rcases hk with h1 | h1 | ⟨h1, h2, h3, h4⟩
        · exact Or.inl h1
        · exact Or.inr (Or.inl h1)
        · exact Or.inr (Or.inr ⟨h1, ⟨h2, h3⟩, h4⟩)) ht
  have g : Grows a b h tb ((r, u) :: h) tb' 3 := ⟨⟨hr', hp', w.first, w.second⟩, fun x hx => List.mem_cons_of_mem _ hx, hext, hl⟩
  refine ⟨u, tb', hb, g, ?_⟩
  have d' := g.den d
  have ent := run_entry hr' (by omega) (r := r) (t := u) List.mem_cons_self
  have full := run_full hr' (by omega) hp' _ List.mem_cons_self
  simp only at full
  rcases hk with rfl | rfl | ⟨rfl, -⟩
  · obtain ⟨n, rfl, h0, h1, h2⟩ := ent
    exact .pointer h0 h1 h2 d'
  · obtain ⟨n, rfl, h0, h1, h2⟩ := ent
    exact .array h0 h1 h2 d'
  · have hlt := full_const_lt full ent
    obtain ⟨n, rfl, h0, h1, h2⟩ := ent
    exact .const h0 h1 h2 hlt d'

/-- The type before the bounds. -/
theorem pointed_spec {a b : Int} {h : List (Req × Int)} {tb : Table} (w : World a b h tb) (hlen : tb.cells.length + 6 < 2305843009213693952) {t : Int} {T : Ty}
    (ht : Of h t) (d : Den tb.cells t T) (star const : Bool) (hc : const = true → star = false → Constable h t) :
    ∃ u tb' h', pointed tb t star const = some (u, tb') ∧ Grows a b h tb h' tb' 6 ∧ Of h' u ∧
      Den tb'.cells u (if const then .const (if star then .pointer T else T) else if star then .pointer T else T) := by
  unfold pointed
  cases star with
  | false =>
    cases const with
    | false => exact ⟨t, tb, h, rfl, .refl w 6, ht, d⟩
    | true =>
      obtain ⟨u, tb', hb, g, du⟩ := grow_step w (by omega) ht d (r := .const t) (Or.inr (Or.inr ⟨rfl, hc rfl rfl⟩))
      exact ⟨u, tb', _, hb, ⟨g.world, g.keep, g.ext, by have := g.size; omega⟩, Or.inr ⟨_, List.mem_cons_self⟩, du⟩
  | true =>
    obtain ⟨u, tb', hb, g, du⟩ := grow_step w (by omega) ht d (r := .pointer t) (Or.inl rfl)
    have hb' : typePointer tb t = some (u, tb') := hb
    simp only [if_true, hb', Option.bind_some]
    have hu : Of ((.pointer t, u) :: h) u := Or.inr ⟨_, List.mem_cons_self⟩
    cases const with
    | false => exact ⟨u, tb', _, rfl, ⟨g.world, g.keep, g.ext, by have := g.size; omega⟩, hu, du⟩
    | true =>
      have hlen' : tb'.cells.length < 2305843009213693952 := by have := g.size; omega
      have ent := run_entry g.world.run hlen' (r := .pointer t) (t := u) List.mem_cons_self
      obtain ⟨n, e, h0, h1, -⟩ := ent
      have hcon : Constable ((.pointer t, u) :: h) u := by
        refine ⟨by omega, fun fs hf => ?_, fun v hf => ?_⟩
        · obtain ⟨m, e2, -, k⟩ := run_entry g.world.run hlen' hf
          have : m = n := by omega
          subst this
          rw [h1] at k; exact absurd (Option.some.inj k) (by decide)
        · obtain ⟨m, e2, -, k, -⟩ := run_entry g.world.run hlen' hf
          have : m = n := by omega
          subst this
          rw [h1] at k; exact absurd (Option.some.inj k) (by decide)
      obtain ⟨u2, tb2, hb2, g2, du2⟩ := grow_step g.world (by have := g.size; omega) hu du (r := .const u) (Or.inr (Or.inr ⟨rfl, hcon⟩))
      have g3 := g.trans g2
      exact ⟨u2, tb2, _, hb2, g3, Or.inr ⟨_, List.mem_cons_self⟩, du2⟩

/-- A bound of an array is good if it is absent or an integer. -/
def Good (cells : List Int) (b : Bound F) : Prop := ∃ E, Den cells b.type E ∧ E.Integral

theorem bounds_spec {a b : Int} : ∀ (bs : List (Bound F)) {h : List (Req × Int)} {tb : Table} (_ : World a b h tb)
    (_ : tb.cells.length + 3 * bs.length < 2305843009213693952) {t : Int} {T : Ty} (_ : Of h t) (_ : Den tb.cells t T) (errors : Nat)
    (_ : ∀ b ∈ bs, ∃ E, Den tb.cells b.type E),
    ∃ u tb' h' n, addBounds tb t errors bs = .ok (u, n, tb') ∧ Grows a b h tb h' tb' (3 * bs.length) ∧ Of h' u ∧ Den tb'.cells u (arrays bs.length T) ∧
      errors ≤ n ∧ (n = errors ↔ ∀ x ∈ bs, Good tb.cells x) := by
  intro bs
  induction bs with
  | nil =>
    intro h tb w _ t T ht d errors _
    exact ⟨t, tb, h, errors, rfl, .refl w _, ht, d, Nat.le_refl _, fun _ => nofun, fun _ => rfl⟩
  | cons x bs ih =>
    intro h tb w hlen t T ht d errors hb
    simp only [List.length_cons] at hlen
    obtain ⟨u, tb', hbd, g, du⟩ := grow_step w (by omega) ht d (r := .array t) (Or.inr (Or.inl rfl))
    have hbd' : typeArray tb t = some (u, tb') := hbd
    have hl' : tb'.cells.length < 2305843009213693952 := by have := g.size; omega
    obtain ⟨E, dE⟩ := hb x List.mem_cons_self
    obtain ⟨ok, e1, i1⟩ := says_integer (by omega) (g.world.clean hl') (g.den dE)
    have hgood : ok = true ↔ Good tb.cells x := by
      rw [i1]
      refine ⟨fun k => ⟨E, dE, k⟩, fun ⟨E', d', k⟩ => ?_⟩
      rw [den_unique dE rfl d']; exact k
    obtain ⟨u2, tb2, h2, n, e2, g2, o2, d2, l2, k2⟩ := ih g.world (by have := g.size; omega) (Or.inr ⟨_, List.mem_cons_self⟩) du (if ok then errors else errors + 1)
      (fun y hy => by obtain ⟨E, dE⟩ := hb y (List.mem_cons_of_mem _ hy); exact ⟨E, g.den dE⟩)
    have same : ∀ y ∈ bs, (Good tb'.cells y ↔ Good tb.cells y) := by
      intro y hy
      obtain ⟨E, dE⟩ := hb y (List.mem_cons_of_mem _ hy)
      constructor
      · rintro ⟨E', d', k⟩
        rw [← den_unique (g.den dE) rfl d'] at k
        exact ⟨E, dE, k⟩
      · rintro ⟨E', d', k⟩
        exact ⟨E', g.den d', k⟩
    refine ⟨u2, tb2, h2, n, ?_, ?_, o2, d2, ?_, ?_⟩
    · unfold addBounds
      simp only [hbd', ask, Out.bind, e1]
      exact e2
    · have := g.trans g2
      rw [List.length_cons, show 3 * (bs.length + 1) = 3 + 3 * bs.length from by omega]
      exact this
    · split at l2 <;> omega
    · constructor
      · intro e y hy
        have hok : ok = true := by
          cases ok with
          | true => rfl
          | false => simp only [Bool.false_eq_true, if_false] at l2; omega
        rw [hok] at k2
        rcases List.mem_cons.1 hy with rfl | hy
        · exact hgood.1 hok
        · exact (same y hy).1 (k2.1 e y hy)
      · intro hall
        have hok := hgood.2 (hall x List.mem_cons_self)
        rw [hok] at k2
        exact k2.2 fun y hy => (same y hy).2 (hall y (List.mem_cons_of_mem _ hy))

theorem any_empty (bs : List (Bound F)) : bs.any Bound.isEmpty = true ↔ Bound.empty ∈ bs := by
  rw [List.any_eq_true]
  constructor
  · rintro ⟨x, hx, e⟩
    cases x with
    | empty => exact hx
    | expr => cases e
  · intro h; exact ⟨_, h, rfl⟩

end RuC.Checks
