import Verif.Ast.Sim

/-!
# The syntax tree: what is built is what is read (C77, C78)
-/

namespace RuC.Ast.Props
open RuC Tree RuC.Ast

/-! ## C77 -/

/-- **C77.** Every call allowed by the specification ends and makes or changes a node, and the history goes on. -/
theorem ast_call_succeeds {k : Nat} {v : List Int} {A : State} {c : Call} {f : Nat → State} (h : Hist k v A) (u : Use A c f)
    (hb : k + c.cost < 4611686018427387904) : ∃ n v', run v c = some (n, v') ∧ Hist (k + c.cost) v' (f n) := by
  obtain ⟨n, v', e, -⟩ := (h.sim (by omega)).step u hb
  exact ⟨n, v', e, .call h u e⟩

/-- **C77.** After any history everything that was built and is not yet a function or part of the unit reads back,
by the getters, exactly as it was built. -/
theorem ast_reads {k : Nat} {v : List Int} {A : State} (h : Hist k v A) (hb : k < 4611686018427387904) {n : Nat} {i : Item}
    (hi : (n, i) ∈ A.items) (ht : n ∉ A.tops) : ReadsItem v n i := by
  obtain ⟨k', S, out, O, hk, I⟩ := (h.sim hb).j
  have hm : (n, encItem i) ∈ enc A.items := List.mem_map.2 ⟨(n, i), hi, rfl⟩
  exact Raw.readsItem (I.raw (by omega) hm (I.clean_of hm ht))

/-- **C77.** Different things have different nodes, none of them is the root, and the answer of a call that makes a
node is no node of anything else. -/
theorem ast_nodes_distinct {k : Nat} {v : List Int} {A : State} (h : Hist k v A) (hb : k < 4611686018427387904) :
    (A.items.map (·.1)).Nodup ∧ ∀ x ∈ A.items, x.1 ≠ 0 := by
  obtain ⟨k', S, out, O, hk, I⟩ := (h.sim hb).j
  refine ⟨?_, ?_⟩
  · have := I.names_nodup
    simpa only [names, enc, List.map_map, Function.comp_def] using this
  · intro x hx
    have hm : (x.1, encItem x.2) ∈ enc A.items := List.mem_map.2 ⟨x, hx, rfl⟩
    exact I.ne_zero hm (I.mem hm)

/-! ## C78 -/

/-- **C78.** When nothing is left unfinished, the unit consists of its functions and declarations in the order in which
they were begun, and every one of them reads back exactly as it was built. -/
theorem ast_unit {k : Nat} {v : List Int} {A : State} (h : Hist k v A) (hb : k < 4611686018427387904)
    (ha : ∀ x ∈ A.items, x.1 ∈ A.tops) :
    translationUnitGetSize v 0 = A.tops.length ∧ (∀ i, translationUnitGetDeclaration v 0 i = A.tops[i]?) ∧
      (∀ n ∈ A.tops, ∃ i, (n, i) ∈ A.items) ∧ ∀ x ∈ A.items, ReadsItem v x.1 x.2 := by
  obtain ⟨k', S, out, O, hk, I⟩ := (h.sim hb).j
  have hn : ∀ c ∈ names (enc A.items), c ∈ A.tops := by
    intro c hc
    obtain ⟨y, hy, rfl⟩ := List.mem_map.1 hc
    obtain ⟨x, hx, rfl⟩ := List.mem_map.1 hy
    exact ha x hx
  have h0 : S.kids 0 = A.tops := by
    refine Eq.trans (List.filter_eq_self.2 ?_).symm I.order
    intro c hc
    have hr := I.root
    rw [strip, List.filter_eq_nil_iff] at hr
    have := hr c hc
    simp only [decide_eq_true_eq, Decidable.not_not] at this
    simpa using hn c this
  obtain ⟨out', t', hr⟩ := tree_reads I.ses (by omega)
  have := I.tree.1.det t'.1
  subst this
  obtain ⟨r1, r2, -⟩ := hr 0 I.zero
  refine ⟨by rw [translationUnitGetSize, r1, h0], fun i => by rw [translationUnitGetDeclaration, r2, h0], ?_, ?_⟩
  · intro n hnt
    obtain ⟨y, hy, rfl⟩ := List.mem_map.1 (I.topsub n hnt)
    obtain ⟨x, hx, rfl⟩ := List.mem_map.1 hy
    exact ⟨x.2, hx⟩
  · intro x hx
    have hm : (x.1, encItem x.2) ∈ enc A.items := List.mem_map.2 ⟨x, hx, rfl⟩
    refine Raw.readsItem (I.raw (by omega) hm (fun m hmo c hc hcn => ?_))
    have sh := I.tree.1.shape I.tree.2
    have hc0 : c ∈ S.kids 0 := by rw [h0]; exact hn c hcn
    exact I.ne_zero hm hmo (sh.parent m (I.sub hm hmo) 0 I.zero c hc hc0)

/-! ## Limits -/

/-- A declaration of a variable given an initializer that is not a node is recorded as having one: it answers a wrong
number of bounds.  The parser gives none (`NULL`) when parsing the initializer failed. -/
theorem broken_initializer_miscounts : ∃ n v, declarationVariable [0, 0, 0] 0 40 [] (some SIZE_MAX) (1, 2) = some (n, v) ∧
    declarationVariableHasInitializer v n = true ∧ declarationVariableGetInitializer v n = none ∧
    declarationVariableGetBoundsAmount v n = 18446744073709551615 :=
  ⟨5, [1, 5, 0, 0, 24, 0, 0, 4, 40, 1, 1, 2], by decide +kernel⟩

/-- A node left unfinished under a function makes the function answer one parameter too many: the hypothesis of
`ast_unit` is needed. -/
theorem unfinished_node_miscounts : ∃ v1 v2 v3 v4, run [0, 0, 0] (.func 12) = some (5, v1) ∧
    run v1 (.null 5 (1, 2)) = some (12, v2) ∧ run v2 (.compound 5 [] (3, 4)) = some (19, v3) ∧
    run v3 (.body 5 19 0) = some (5, v4) ∧ declarationFunctionGetParametersAmount v4 5 = 1 :=
  ⟨[1, 5, 0, 0, 27, 0, 0, 2, 12, 0], [1, 5, 0, 0, 27, 1, 12, 2, 12, 0, -5, 0, 0, 0, 2, 1, 2],
   [1, 5, 0, 0, 27, 2, 12, 2, 12, 0, 19, 0, 0, 0, 2, 1, 2, -5, 14, 0, 0, 2, 3, 4],
   (run [1, 5, 0, 0, 27, 2, 12, 2, 12, 0, 19, 0, 0, 0, 2, 1, 2, -5, 14, 0, 0, 2, 3, 4] (.body 5 19 0)).elim [] (·.2), by decide +kernel⟩

/-! ## A case -/

/-- `int f(int a) { return a + 7; }` with a variable after it, built call by call. -/
theorem sample : Hist 308 [2, 5, 0, 65, 27, 2, 12, 2, 12, 16, 58, 24, 0, 0, 3, 20, 0, 0, 30, 1, 0, 0, 5, -1, 0, 20, 30, 31, -40, 2, 0, 0, 5, -1, 1, 7, 34, 35, -50, 8, 2, 20, 5, -1, 1, 11, 30, 35, -58, 22, 1, 40, 3, 1, 23, 36, -5, 14, 1, 50, 2, 20, 38, 0, 24, 0, 0, 4, 40, 0, 40, 45]
    { items := [(65, .d (.var 40 .nil none (40, 45))), (5, .f 12 [(20, 0)] 16 (some (.compound (.cons (.ret (some (.binary (-1) (.ident (-1) 20 (30, 31)) (.lit (-1) (.int 7) (34, 35)) 11 (30, 35))) (23, 36)) .nil) (20, 38))))]
      tops := [5, 65], ctx := [5, 0] } ∧
    Hist 153 [1, 5, 0, 0, 27, 2, 12, 2, 12, 0, 40, 24, 0, 0, 3, 20, 0, 0, 30, 1, 0, 0, 5, -1, 0, 20, 30, 31, -40, 2, 0, 0, 5, -1, 1, 7, 34, 35, -5, 8, 2, 20, 5, -1, 1, 11, 30, 35]
      { items := [(40, .e (.binary (-1) (.ident (-1) 20 (30, 31)) (.lit (-1) (.int 7) (34, 35)) 11 (30, 35))), (5, .f 12 [(20, 0)] 0 none)], tops := [5], ctx := [5, 0] } := by
  have h0 : Hist 3 [0, 0, 0] { items := [], tops := [], ctx := [0] } := .new (by decide +kernel)
  have h1 : Hist 33 [1, 5, 0, 0, 27, 0, 0, 2, 12, 0]
      { items := [(5, .f 12 [] 0 none)], tops := [5], ctx := [5, 0] } :=
    .call (c := .func 12) (n := 5) h0 (.func) (by decide +kernel)
  have h2 : Hist 63 [1, 5, 0, 0, 27, 1, 12, 2, 12, 0, -5, 24, 0, 0, 3, 20, 0, 0]
      { items := [(5, .f 12 [(20, 0)] 0 none)], tops := [5], ctx := [5, 0] } :=
    .call (c := .param 5 20 0) (n := 12) h1 (.param (rest := []) (.refl _)) (by decide +kernel)
  have h3 : Hist 93 [1, 5, 0, 0, 27, 2, 12, 2, 12, 0, 20, 24, 0, 0, 3, 20, 0, 0, -5, 1, 0, 0, 5, -1, 0, 20, 30, 31]
      { items := [(20, .e (.ident (-1) 20 (30, 31))), (5, .f 12 [(20, 0)] 0 none)], tops := [5], ctx := [5, 0] } :=
    .call (c := .ident 5 (-1) 20 (30, 31)) (n := 20) h2 (.ident (by simp)) (by decide +kernel)
  have h4 : Hist 123 [1, 5, 0, 0, 27, 3, 12, 2, 12, 0, 20, 24, 0, 0, 3, 20, 0, 0, 30, 1, 0, 0, 5, -1, 0, 20, 30, 31, -5, 2, 0, 0, 5, -1, 1, 7, 34, 35]
      { items := [(30, .e (.lit (-1) (.int 7) (34, 35))), (20, .e (.ident (-1) 20 (30, 31))), (5, .f 12 [(20, 0)] 0 none)], tops := [5], ctx := [5, 0] } :=
    .call (c := .intLit 5 (-1) 7 (34, 35)) (n := 30) h3 (.intLit (by simp)) (by decide +kernel)
  have h5 : Hist 153 [1, 5, 0, 0, 27, 2, 12, 2, 12, 0, 40, 24, 0, 0, 3, 20, 0, 0, 30, 1, 0, 0, 5, -1, 0, 20, 30, 31, -40, 2, 0, 0, 5, -1, 1, 7, 34, 35, -5, 8, 2, 20, 5, -1, 1, 11, 30, 35]
      { items := [(40, .e (.binary (-1) (.ident (-1) 20 (30, 31)) (.lit (-1) (.int 7) (34, 35)) 11 (30, 35))), (5, .f 12 [(20, 0)] 0 none)], tops := [5], ctx := [5, 0] } :=
    .call (c := .binary (-1) 20 30 11 (30, 35)) (n := 40) h4 (.binary ⟨.swap _ _ _, by simp⟩) (by decide +kernel)
  have h6 : Hist 183 [1, 5, 0, 0, 27, 2, 12, 2, 12, 0, 50, 24, 0, 0, 3, 20, 0, 0, 30, 1, 0, 0, 5, -1, 0, 20, 30, 31, -40, 2, 0, 0, 5, -1, 1, 7, 34, 35, -50, 8, 2, 20, 5, -1, 1, 11, 30, 35, -5, 22, 1, 40, 3, 1, 23, 36]
      { items := [(50, .s (.ret (some (.binary (-1) (.ident (-1) 20 (30, 31)) (.lit (-1) (.int 7) (34, 35)) 11 (30, 35))) (23, 36))), (5, .f 12 [(20, 0)] 0 none)], tops := [5], ctx := [5, 0] } :=
    .call (c := .ret 5 40 (23, 36)) (n := 50) h5 (.ret (by simp) .some ⟨.refl _, by simp⟩) (by decide +kernel)
  have h7 : Hist 218 [1, 5, 0, 0, 27, 2, 12, 2, 12, 0, 58, 24, 0, 0, 3, 20, 0, 0, 30, 1, 0, 0, 5, -1, 0, 20, 30, 31, -40, 2, 0, 0, 5, -1, 1, 7, 34, 35, -50, 8, 2, 20, 5, -1, 1, 11, 30, 35, -58, 22, 1, 40, 3, 1, 23, 36, -5, 14, 1, 50, 2, 20, 38]
      { items := [(58, .s (.compound (.cons (.ret (some (.binary (-1) (.ident (-1) 20 (30, 31)) (.lit (-1) (.int 7) (34, 35)) 11 (30, 35))) (23, 36)) .nil) (20, 38))), (5, .f 12 [(20, 0)] 0 none)], tops := [5], ctx := [5, 0] } :=
    .call (c := .compound 5 [50] (20, 38)) (n := 58) h6 (.compound (as := [(50, .s (.ret (some (.binary (-1) (.ident (-1) 20 (30, 31)) (.lit (-1) (.int 7) (34, 35)) 11 (30, 35))) (23, 36)))]) (ss := [(.ret (some (.binary (-1) (.ident (-1) 20 (30, 31)) (.lit (-1) (.int 7) (34, 35)) 11 (30, 35))) (23, 36))]) (by simp) ⟨.refl _, by simp⟩ rfl) (by decide +kernel)
  have h8 : Hist 248 [1, 5, 0, 0, 27, 2, 12, 2, 12, 16, 58, 24, 0, 0, 3, 20, 0, 0, 30, 1, 0, 0, 5, -1, 0, 20, 30, 31, -40, 2, 0, 0, 5, -1, 1, 7, 34, 35, -50, 8, 2, 20, 5, -1, 1, 11, 30, 35, -58, 22, 1, 40, 3, 1, 23, 36, -5, 14, 1, 50, 2, 20, 38]
      { items := [(5, .f 12 [(20, 0)] 16 (some (.compound (.cons (.ret (some (.binary (-1) (.ident (-1) 20 (30, 31)) (.lit (-1) (.int 7) (34, 35)) 11 (30, 35))) (23, 36)) .nil) (20, 38))))], tops := [5], ctx := [5, 0] } :=
    .call (c := .body 5 58 16) (n := 5) h7 (.body (rest := []) (.swap _ _ _) (by simp) rfl) (by decide +kernel)
  have h9 : Hist 278 [2, 5, 0, 65, 27, 2, 12, 2, 12, 16, 58, 24, 0, 0, 3, 20, 0, 0, 30, 1, 0, 0, 5, -1, 0, 20, 30, 31, -40, 2, 0, 0, 5, -1, 1, 7, 34, 35, -50, 8, 2, 20, 5, -1, 1, 11, 30, 35, -58, 22, 1, 40, 3, 1, 23, 36, -5, 14, 1, 50, 2, 20, 38, 0, 24, 0, 0, 4, 40, 0, 40, 45]
      { items := [(65, .d (.var 40 .nil none (40, 45))), (5, .f 12 [(20, 0)] 16 (some (.compound (.cons (.ret (some (.binary (-1) (.ident (-1) 20 (30, 31)) (.lit (-1) (.int 7) (34, 35)) 11 (30, 35))) (23, 36)) .nil) (20, 38))))], tops := [5], ctx := [5, 0] } :=
    .call (c := .var 0 40 [] none (40, 45)) (n := 65) h8 (.var (as := []) (by simp) ⟨.refl _, fun o ho => absurd ho (List.not_mem_nil)⟩) (by decide +kernel)
  have h10 : Hist 308 [2, 5, 0, 65, 27, 2, 12, 2, 12, 16, 58, 24, 0, 0, 3, 20, 0, 0, 30, 1, 0, 0, 5, -1, 0, 20, 30, 31, -40, 2, 0, 0, 5, -1, 1, 7, 34, 35, -50, 8, 2, 20, 5, -1, 1, 11, 30, 35, -58, 22, 1, 40, 3, 1, 23, 36, -5, 14, 1, 50, 2, 20, 38, 0, 24, 0, 0, 4, 40, 0, 40, 45]
      { items := [(65, .d (.var 40 .nil none (40, 45))), (5, .f 12 [(20, 0)] 16 (some (.compound (.cons (.ret (some (.binary (-1) (.ident (-1) 20 (30, 31)) (.lit (-1) (.int 7) (34, 35)) 11 (30, 35))) (23, 36)) .nil) (20, 38))))], tops := [5, 65], ctx := [5, 0] } :=
    .call (c := .global 65) (n := 65) h9 (.global ⟨.refl _, by simp⟩) (by decide +kernel)
  exact ⟨h10, h5⟩

/-- The sum is readable while the function is being built. -/
example : ∃ l r, expressionBinaryGetLHS [1, 5, 0, 0, 27, 2, 12, 2, 12, 0, 40, 24, 0, 0, 3, 20, 0, 0, 30, 1, 0, 0, 5, -1, 0, 20, 30, 31, -40, 2, 0, 0, 5, -1, 1, 7, 34, 35, -5, 8, 2, 20, 5, -1, 1, 11, 30, 35] 40 = some l ∧
    expressionIdentifierGetId [1, 5, 0, 0, 27, 2, 12, 2, 12, 0, 40, 24, 0, 0, 3, 20, 0, 0, 30, 1, 0, 0, 5, -1, 0, 20, 30, 31, -40, 2, 0, 0, 5, -1, 1, 7, 34, 35, -5, 8, 2, 20, 5, -1, 1, 11, 30, 35] l = 20 ∧
    expressionBinaryGetRHS [1, 5, 0, 0, 27, 2, 12, 2, 12, 0, 40, 24, 0, 0, 3, 20, 0, 0, 30, 1, 0, 0, 5, -1, 0, 20, 30, 31, -40, 2, 0, 0, 5, -1, 1, 7, 34, 35, -5, 8, 2, 20, 5, -1, 1, 11, 30, 35] 40 = some r := by
  obtain ⟨-, -, ⟨l, h1, -, h2⟩, ⟨r, h3, -⟩⟩ := ast_reads sample.2 (by decide) (n := 40) (List.mem_cons_self ..) (by decide)
  exact ⟨l, r, h1, h2, h3⟩

/-- The unit has two declarations. -/
example : ∃ v, translationUnitGetSize v 0 = 2 ∧ translationUnitGetDeclaration v 0 0 = some 5 ∧
    declarationFunctionGetParametersAmount v 5 = 1 := by
  obtain ⟨h1, h2, -, h4⟩ := ast_unit sample.1 (by decide) (by simp)
  obtain ⟨-, -, -, h⟩ := h4 (5, _) (List.mem_cons_of_mem _ (List.mem_cons_self ..))
  exact ⟨_, h1, h2 0, (h _ rfl).1⟩

end RuC.Ast.Props
