import Verif.Ast.Steps

/-!
# Every allowed call keeps the forest of pending items
-/

namespace RuC.Ast
open RuC Tree

/-- The pending items as they are stored. -/
def enc (l : List (Nat × Item)) : List (Nat × Tr) := l.map fun x => (x.1, encItem x.2)

def Item.isFunc : Item → Bool
  | .f .. => true
  | _ => false

/-- What holds after every history. -/
structure Sim (k : Nat) (v : List Int) (A : State) : Prop where
  j : J k v (enc A.items) A.tops A.ctx
  root : 0 ∈ A.ctx
  funcs : ∀ x ∈ A.items, x.2.isFunc → x.1 ∈ A.ctx ∧ x.1 ∈ A.tops

theorem ofList_es (l : List E) : Trs.ofList (l.map encE) = encEs (.ofList l) := by
  induction l with
  | nil => rfl
  | cons e l ih => simp [Trs.ofList, Es.ofList, encEs, ih]

theorem ofList_ss (l : List St) : Trs.ofList (l.map encSt) = encSs (.ofList l) := by
  induction l with
  | nil => rfl
  | cons e l ih => simp [Trs.ofList, Ss.ofList, encSs, ih]

theorem enc_exprs_fst (as : List (Nat × E)) : (enc (exprs as)).map (·.1) = as.map (·.1) := by simp [enc, exprs]

theorem enc_exprs_snd (as : List (Nat × E)) : Trs.ofList ((enc (exprs as)).map (·.2)) = encEs (.ofList (as.map (·.2))) := by
  rw [← ofList_es]
  simp [enc, exprs, encItem, Function.comp_def]

theorem enc_stmts_fst (as : List (Nat × Item)) : (enc as).map (·.1) = as.map (·.1) := by simp [enc]

theorem enc_stmts_snd {as : List (Nat × Item)} {ss : List St} (h : as.map (·.2.stmt) = ss.map some) :
    Trs.ofList ((enc as).map (·.2)) = encSs (.ofList ss) := by
  rw [← ofList_ss]
  congr 1
  simp only [enc, List.map_map]
  induction as generalizing ss with
  | nil =>
    cases ss with
    | nil => rfl
    | cons _ _ => simp at h
  | cons a as ih =>
    cases ss with
    | nil => simp at h
    | cons s ss =>
      simp only [List.map_cons, List.cons.injEq] at h
      simp only [List.map_cons, Function.comp_apply, encItem_stmt h.1, List.cons.injEq, true_and]
      exact ih h.2

theorem Takes.enc {A : State} {ops rest : List (Nat × Item)} (h : A.Takes ops rest) : (enc A.items).Perm (Ast.enc ops ++ Ast.enc rest) := by
  have := h.1.map fun x => (x.1, encItem x.2)
  simpa [Ast.enc] using this

theorem Takes.tops {A : State} {ops rest : List (Nat × Item)} (h : A.Takes ops rest) : ∀ u ∈ Ast.enc ops, u.1 ∉ A.tops := by
  intro u hu
  obtain ⟨o, ho, rfl⟩ := List.mem_map.1 hu
  exact h.2 o ho

theorem perm_enc {l m : List (Nat × Item)} (h : l.Perm m) : (enc l).Perm (enc m) := h.map _

/-- The state after a call that makes something that is not a function. -/
theorem Sim.put {k k' : Nat} {v v' : List Int} {A : State} (s : Sim k v A) {ops rest : List (Nat × Item)} {n : Nat} {i : Item}
    (hp : A.items.Perm (ops ++ rest)) (hi : i.isFunc = false) (j : J k' v' ((n, encItem i) :: enc rest) A.tops A.ctx) :
    Sim k' v' (A.put rest n i) := by
  refine ⟨j, s.root, ?_⟩
  intro x hx hf
  rcases List.mem_cons.1 hx with rfl | hx
  · rw [hi] at hf; cases hf
  · exact s.funcs x (hp.mem_iff.2 (List.mem_append_right _ hx)) hf

/-- One more leaf. -/
theorem Sim.leaf {k : Nat} {v : List Int} {A : State} (s : Sim k v A) {c : Nat} (hc : c ∈ A.ctx) {ty : Int} {args : List Int} {i : Item}
    (hi : i.isFunc = false) (he : encItem i = .mk ty args .nil) (ha : args.length ≤ 25) (hb : k + 30 < 4611686018427387904) :
    ∃ n v', some (Ast.leaf v c ty args) = some (n, v') ∧ Sim (k + 30) v' (A.put A.items n i) := by
  obtain ⟨n, v', e, j⟩ := s.j.leaf ty args hc (by omega)
  refine ⟨n, v', by rw [e], s.put (ops := []) (.refl _) hi ?_⟩
  rw [he]
  exact j.mono (by omega)

/-- A node above an operand, with at most two further operands. -/
theorem Sim.node {k : Nat} {v : List Int} {A : State} (s : Sim k v A) {rest : List (Nat × Item)} {x : Nat} {y i : Item}
    (us : List (Nat × Item)) (h : A.Takes ((x, y) :: us) rest) (ty : Int) (l : List Int) (hi : i.isFunc = false)
    (he : encItem i = .mk ty l (.cons (encItem y) (.ofList (us.map fun u => encItem u.2))))
    (ha : l.length ≤ 10) (hu : us.length ≤ 2) (hb : k + 30 < 4611686018427387904) :
    ∃ n v' w, insertNode v x ty l.length = some (n, v') ∧ attachEach v' n (us.map (·.1)) = some w ∧
      Sim (k + 30) (setArgs w n 0 l) (A.put rest n i) := by
  have h1 := s.j.permute (Takes.enc h)
  have ht := Takes.tops h
  obtain ⟨n, v', w, e1, e2, -, j⟩ := J.node (P := enc rest) ty l (enc us) h1 (ht (x, encItem y) (by simp [enc]))
    (fun u hu => ht u (by simp only [enc, List.map_cons]; exact List.mem_cons_of_mem _ hu)) (by simp only [enc, List.length_map]; omega)
  refine ⟨n, v', w, e1, by simpa only [enc, List.map_map, Function.comp_def] using e2, s.put h.1 hi ?_⟩
  rw [he]
  have : (enc us).map (·.2) = us.map fun u => encItem u.2 := by simp [enc]
  rw [this] at j
  exact j.mono (by simp only [enc, List.length_map]; omega)

/-- A missing or present operand. -/
theorem OptE.opt {n : Nat} {e : Option E} {os : List (Nat × Item)} (h : OptE n e os) : Opt n (encO e) (enc os) e.isSome := by
  cases h with
  | none => exact .none
  | some => exact .some

theorem OptS.opt {n : Nat} {e : OS} {os : List (Nat × Item)} (h : OptS n e os) : Opt n (encOS e) (enc os) e.isSome := by
  cases h with
  | none => exact .none
  | some h =>
    simp only [enc, List.map_cons, List.map_nil, encItem_stmt h, encOS, OS.isSome]
    exact .some

theorem enc_append (l m : List (Nat × Item)) : enc (l ++ m) = enc l ++ enc m := by simp [enc]

theorem encDs_snoc : ∀ (ds : Ds) (d : D), encDs (ds.snoc d) = (encDs ds).append (.cons (encD d) .nil)
  | .nil, d => rfl
  | .cons d ds, d' => by simp only [Ds.snoc, encDs, Trs.append, encDs_snoc ds d']

theorem loc_length (loc : Loc) : loc.items.length = 2 := rfl

theorem attachEach_one (v : List Int) (p x : Nat) : attachEach v p [x] = attach v p x := by
  simp [attachEach]

theorem attachEach_two (v : List Int) (p x y : Nat) : attachEach v p [x, y] = (attach v p x).bind fun w => attach w p y := by
  simp [attachEach]

theorem noLoc_items : noLoc.items = [ITEM_MAX, ITEM_MAX] := by
  have h : toItem 9223372036854775807 = ITEM_MAX := by
    rw [toItem_of_lt (by decide)]
    unfold ITEM_MAX
    rfl
  show [toItem 9223372036854775807, toItem 9223372036854775807] = _
  rw [h]

/-- Every allowed call succeeds and keeps the forest. -/
theorem Sim.step {k : Nat} {v : List Int} {A : State} {c : Call} {f : Nat → State} (s : Sim k v A) (u : Use A c f)
    (hb : k + c.cost < 4611686018427387904) : ∃ n v', run v c = some (n, v') ∧ Sim (k + c.cost) v' (f n) := by
  cases u with
  | ident hc => exact s.leaf hc rfl rfl (by simp [loc_length]) hb
  | nullLit hc => exact s.leaf hc rfl rfl (by simp [loc_length]) hb
  | boolLit hc => exact s.leaf hc rfl rfl (by simp [loc_length]) hb
  | charLit hc => exact s.leaf hc rfl rfl (by simp [loc_length]) hb
  | intLit hc => exact s.leaf hc rfl rfl (by simp [loc_length]) hb
  | floatLit hc => exact s.leaf hc rfl rfl (by simp [loc_length]) hb
  | strLit hc => exact s.leaf hc rfl rfl (by simp [loc_length]) hb
  | emptyBound hc => exact s.leaf hc rfl rfl (by simp [loc_length]) hb
  | null hc => exact s.leaf hc rfl rfl (by simp [loc_length]) hb
  | «continue» hc => exact s.leaf hc rfl rfl (by simp [loc_length]) hb
  | «break» hc => exact s.leaf hc rfl rfl (by simp [loc_length]) hb
  | struct hc => exact s.leaf hc rfl rfl (by simp [loc_length]) hb
  | decl hc =>
    refine s.leaf (i := .s (.decl .nil noLoc)) hc rfl ?_ (by simp) hb
    simp only [encItem, encSt, encDs, noLoc_items]
  | @«subscript» ty b i loc x y rest h =>
    obtain ⟨n, v', w, e1, e2, s'⟩ := s.node (i := .e (.subscript ty x y loc)) [(i, .e y)] h OP_SLICE
      ([ty, LVALUE] ++ loc.items) rfl rfl (by simp [loc_length]) (by simp) hb
    have e1 : insertNode v b OP_SLICE 4 = some (n, v') := e1
    rw [List.map_cons, List.map_nil, attachEach_one] at e2
    exact ⟨n, _, by simp only [run, expressionSubscript, e1, e2, Option.bind_some, Option.map_some], s'⟩
  | @«member» ty lv i arrow b loc x rest h =>
    obtain ⟨n, v', w, e1, e2, s'⟩ := s.node (i := .e (.member ty lv i arrow x loc)) [] h OP_SELECT
      ([ty, category lv, toItem i.toNat, flag arrow] ++ loc.items) rfl rfl (by simp [loc_length]) (by simp) hb
    have e1 : insertNode v b OP_SELECT 6 = some (n, v') := e1
    cases e2
    exact ⟨n, _, by simp only [run, expressionMember, e1, Option.map_some], s'⟩
  | @«cast» ty src e loc x rest h =>
    obtain ⟨n, v', w, e1, e2, s'⟩ := s.node (i := .e (.cast ty src x loc)) [] h OP_CAST
      ([ty, RVALUE, src] ++ loc.items) rfl rfl (by simp [loc_length]) (by simp) hb
    have e1 : insertNode v e OP_CAST 5 = some (n, v') := e1
    cases e2
    exact ⟨n, _, by simp only [run, expressionCast, e1, Option.map_some], s'⟩
  | @«unary» ty lv e op loc x rest h =>
    obtain ⟨n, v', w, e1, e2, s'⟩ := s.node (i := .e (.unary ty lv x op loc)) [] h OP_UNARY
      ([ty, category lv, (op.toNat : Int)] ++ loc.items) rfl rfl (by simp [loc_length]) (by simp) hb
    have e1 : insertNode v e OP_UNARY 5 = some (n, v') := e1
    cases e2
    exact ⟨n, _, by simp only [run, expressionUnary, e1, Option.map_some], s'⟩
  | @«binary» ty l r op loc x y rest h =>
    obtain ⟨n, v', w, e1, e2, s'⟩ := s.node (i := .e (.binary ty x y op loc)) [(r, .e y)] h OP_BINARY
      ([ty, RVALUE, (op.toNat : Int)] ++ loc.items) rfl rfl (by simp [loc_length]) (by simp) hb
    have e1 : insertNode v l OP_BINARY 5 = some (n, v') := e1
    rw [List.map_cons, List.map_nil, attachEach_one] at e2
    exact ⟨n, _, by simp only [run, expressionBinary, e1, e2, Option.bind_some, Option.map_some], s'⟩
  | @«ternary» ty c l r loc x y z rest h =>
    obtain ⟨n, v', w, e1, e2, s'⟩ := s.node (i := .e (.ternary ty x y z loc)) [(l, .e y), (r, .e z)] h OP_TERNARY
      ([ty, RVALUE] ++ loc.items) rfl rfl (by simp [loc_length]) (by simp) hb
    have e1 : insertNode v c OP_TERNARY 4 = some (n, v') := e1
    rw [List.map_cons, List.map_cons, List.map_nil, attachEach_two] at e2
    obtain ⟨w1, e3, e4⟩ := Option.bind_eq_some_iff.1 e2
    exact ⟨n, _, by simp only [run, expressionTernary, e1, e3, e4, Option.bind_some, Option.map_some], s'⟩
  | @«assign» ty l r op loc x y rest h =>
    obtain ⟨n, v', w, e1, e2, s'⟩ := s.node (i := .e (.assign ty x y op loc)) [(r, .e y)] h OP_ASSIGNMENT
      ([ty, RVALUE, (op.toNat : Int)] ++ loc.items) rfl rfl (by simp [loc_length]) (by simp) hb
    have e1 : insertNode v l OP_ASSIGNMENT 5 = some (n, v') := e1
    rw [List.map_cons, List.map_nil, attachEach_one] at e2
    exact ⟨n, _, by simp only [run, expressionAssignment, e1, e2, Option.bind_some, Option.map_some], s'⟩
  | @«case» e st loc x i y rest h hi =>
    obtain ⟨n, v', w, e1, e2, s'⟩ := s.node (i := .s (.case x y loc)) [(st, i)] h OP_CASE
      (loc.items) rfl (by simp only [List.map_cons, List.map_nil, Trs.ofList, encItem_stmt hi]; rfl) (by simp [loc_length]) (by simp) hb
    have e1 : insertNode v e OP_CASE 2 = some (n, v') := e1
    rw [List.map_cons, List.map_nil, attachEach_one] at e2
    exact ⟨n, _, by simp only [run, statementCase, e1, e2, Option.bind_some, Option.map_some], s'⟩
  | @«default» st loc i y rest h hi =>
    obtain ⟨n, v', w, e1, e2, s'⟩ := s.node (i := .s (.default y loc)) [] h OP_DEFAULT
      (loc.items) rfl (by simp only [List.map_cons, List.map_nil, Trs.ofList, encItem_stmt hi]; rfl) (by simp [loc_length]) (by simp) hb
    have e1 : insertNode v st OP_DEFAULT 2 = some (n, v') := e1
    cases e2
    exact ⟨n, _, by simp only [run, statementDefault, e1, Option.map_some], s'⟩
  | @«switch» c b loc x i y rest h hi =>
    obtain ⟨n, v', w, e1, e2, s'⟩ := s.node (i := .s (.switch x y loc)) [(b, i)] h OP_SWITCH
      (loc.items) rfl (by simp only [List.map_cons, List.map_nil, Trs.ofList, encItem_stmt hi]; rfl) (by simp [loc_length]) (by simp) hb
    have e1 : insertNode v c OP_SWITCH 2 = some (n, v') := e1
    rw [List.map_cons, List.map_nil, attachEach_one] at e2
    exact ⟨n, _, by simp only [run, statementSwitch, e1, e2, Option.bind_some, Option.map_some], s'⟩
  | @«while» c b loc x i y rest h hi =>
    obtain ⟨n, v', w, e1, e2, s'⟩ := s.node (i := .s (.while x y loc)) [(b, i)] h OP_WHILE
      (loc.items) rfl (by simp only [List.map_cons, List.map_nil, Trs.ofList, encItem_stmt hi]; rfl) (by simp [loc_length]) (by simp) hb
    have e1 : insertNode v c OP_WHILE 2 = some (n, v') := e1
    rw [List.map_cons, List.map_nil, attachEach_one] at e2
    exact ⟨n, _, by simp only [run, statementWhile, e1, e2, Option.bind_some, Option.map_some], s'⟩
  | @«doWhile» c b loc x i y rest h hi =>
    obtain ⟨n, v', w, e1, e2, s'⟩ := s.node (i := .s (.doWhile y x loc)) [(c, .e x)] h OP_DO
      (loc.items) rfl (by simp only [List.map_cons, List.map_nil, Trs.ofList, encItem_stmt hi]; rfl) (by simp [loc_length]) (by simp) hb
    have e1 : insertNode v b OP_DO 2 = some (n, v') := e1
    rw [List.map_cons, List.map_nil, attachEach_one] at e2
    exact ⟨n, _, by simp only [run, statementDo, e1, e2, Option.bind_some, Option.map_some], s'⟩
  | @call ty f x loc rest as h =>
    have ht := Takes.tops h
    simp only [Call.cost, List.length_map] at hb
    obtain ⟨n, v', w, e1, -, e2, j⟩ := J.node (P := enc rest) OP_CALL ([ty, RVALUE] ++ loc.items) (enc (exprs as))
      (s.j.permute (Takes.enc h)) (ht (f, encE x) (by simp [enc, encItem]))
      (fun u hu => ht u (List.mem_cons_of_mem _ hu)) (by simp [enc, exprs, loc_length]; omega)
    have e1 : insertNode v f OP_CALL 4 = some (n, v') := e1
    rw [enc_exprs_fst] at e2
    rw [enc_exprs_snd] at j
    refine ⟨n, _, by simp only [run, expressionCall, e1, e2, Option.bind_some, Option.map_some], s.put h.1 rfl (j.mono ?_)⟩
    simp [enc, exprs, loc_length, Call.cost]
    omega
  | @init f x loc rest as h =>
    have ht := Takes.tops h
    simp only [Call.cost, List.length_map] at hb
    have j0 : J k v ((f, encE x) :: (enc (exprs as) ++ enc rest)) A.tops A.ctx := s.j.permute (Takes.enc h)
    have hl : nodeLoad v f = some f := j0.load (x := f) (t := encE x) (by omega) (by simp)
    obtain ⟨n, v', e1, j1⟩ := j0.insert OP_INITIALIZER 4 (ht (f, encE x) (by simp [enc, encItem])) (by omega)
    have j2 := j1.setAllArgs ([TYPE_UNDEFINED, RVALUE] ++ loc.items) rfl (by omega)
    obtain ⟨w, -, e2, j3⟩ := j2.attachEach (enc (exprs as)) (fun u hu => ht u (List.mem_cons_of_mem _ hu)) (by simp [enc, exprs]; omega)
    rw [enc_exprs_fst] at e2
    rw [enc_exprs_snd] at j3
    refine ⟨n, _, ?_, s.put h.1 rfl (j3.mono ?_)⟩
    · simp only [run, expressionInitializer, hl, Option.getD_some, e1, e2, Option.bind_some, Option.map_some]
    · simp [enc, exprs, Call.cost]
      omega
  | @initType nd ty old es loc rest h =>
    simp only [Call.cost] at hb
    have j0 : J k v ((nd, .mk OP_INITIALIZER ([old, RVALUE] ++ loc.items) (encEs es)) :: enc rest) A.tops A.ctx := s.j.permute (perm_enc h)
    have j1 := j0.setArgs (i := 0) [ty] (by simp) (by omega)
    exact ⟨nd, _, rfl, s.put (ops := [_]) h rfl (j1.mono (by simp [Call.cost]))⟩
  | @toFloat nd bits loc ty l old rest h =>
    simp only [Call.cost] at hb
    have ht := Takes.tops h
    obtain ⟨n, v', w, e1, e2, j1⟩ := J.replace (P := enc rest) OP_LITERAL ([TYPE_FLOATING, RVALUE, bits] ++ loc.items)
      (s.j.permute (Takes.enc h)) (ht _ (List.mem_singleton.2 rfl)) (by simp [loc_length]; omega)
    have e1 : insertNode v nd OP_LITERAL 5 = some (n, v') := e1
    refine ⟨n, w.2, ?_, s.put h.1 rfl (j1.mono (by simp [Call.cost, loc_length]))⟩
    simp only [run, literalToFloating, e1, Option.bind_some]
    simp only [e2, Option.map_some]
  | @compound c loc rest as ss hc h hs =>
    simp only [Call.cost, List.length_map] at hb
    obtain ⟨n, v', w, e1, e2, j1⟩ := J.block (P := enc rest) OP_BLOCK loc.items (enc as) (s.j.permute (Takes.enc h)) hc (Takes.tops h)
      (by simp [enc, loc_length]; omega)
    rw [enc_stmts_fst] at e2
    rw [enc_stmts_snd hs] at j1
    refine ⟨n, w, by simp only [run, statementCompound, e1, e2, Option.map_some], s.put h.1 rfl (j1.mono ?_)⟩
    simp [enc, loc_length, Call.cost]
    omega
  | @memberDecl c ty name loc rest as hc h =>
    simp only [Call.cost, List.length_map] at hb
    obtain ⟨n, v', w, e1, e2, j1⟩ := J.block (P := enc rest) OP_DECL_MEMBER ([ty, toItem name.toNat] ++ loc.items) (enc (exprs as))
      (s.j.permute (Takes.enc h)) hc (Takes.tops h) (by simp [enc, exprs, loc_length]; omega)
    rw [enc_exprs_fst] at e2
    rw [enc_exprs_snd] at j1
    refine ⟨n, w, by simp only [run, declarationMember, e1, e2, Option.map_some], s.put h.1 rfl (j1.mono ?_)⟩
    simp [enc, exprs, loc_length, Call.cost]
    omega
  | @var c id loc rest as hc h =>
    simp only [Call.cost, List.length_map] at hb
    obtain ⟨n, v', w, e1, e2, j1⟩ := J.block (P := enc rest) OP_DECL_VAR ([toItem id.toNat, flag false] ++ loc.items) (enc (exprs as))
      (s.j.permute (Takes.enc h)) hc (Takes.tops h) (by simp [enc, exprs, loc_length]; omega)
    rw [enc_exprs_fst] at e2
    rw [enc_exprs_snd] at j1
    refine ⟨n, w, ?_, s.put h.1 rfl ?_⟩
    · simp only [run, declarationVariable, Option.isSome_none, e1, e2, Option.bind_some]
    · rw [show encItem (.d (.var id (.ofList (as.map (·.2))) none loc)) = .mk OP_DECL_VAR ([toItem id.toNat, flag false] ++ loc.items)
        (encEs (.ofList (as.map (·.2)))) by simp [encItem, encD, encO, Trs.append_nil]]
      refine j1.mono ?_
      simp [enc, exprs, loc_length, Call.cost]
      omega
  | @varInit c id loc i x rest as hc h =>
    simp only [Call.cost, List.length_map] at hb
    have ht := Takes.tops h
    have j0 := s.j.permute (Takes.enc h)
    rw [enc_append, List.append_assoc] at j0
    rw [enc_append] at ht
    have hi : isCorrect i = true := isCorrect_lt (j0.lt (x := i) (t := encE x) (by omega) (by simp [enc, encItem]))
    obtain ⟨n, v', w, e1, e2, j1⟩ := J.block (P := (i, encE x) :: enc rest) OP_DECL_VAR ([toItem id.toNat, flag true] ++ loc.items) (enc (exprs as))
      j0 hc (fun u hu => ht u (List.mem_append_left _ hu)) (by simp [enc, exprs, loc_length]; omega)
    rw [enc_exprs_fst] at e2
    rw [enc_exprs_snd] at j1
    obtain ⟨w', e3, j2⟩ := j1.attach (ht (i, encE x) (by simp [enc, encItem])) (by simp [enc, exprs, loc_length]; omega)
    refine ⟨n, w', ?_, s.put h.1 rfl (j2.mono ?_)⟩
    · simp only [run, declarationVariable, Option.isSome_some, e1, e2, Option.bind_some, hi, if_true, e3, Option.map_some]
    · simp [enc, exprs, loc_length, Call.cost]
      omega
  | @ite c t e loc x i y z os rest ho h hi =>
    simp only [Call.cost] at hb
    have ht := Takes.tops h
    have j0 : J k v ((c, encE x) :: (t, encItem i) :: (enc os ++ enc rest)) A.tops A.ctx := s.j.permute (Takes.enc h)
    rw [encItem_stmt hi] at j0
    obtain ⟨n, v', e1, j1⟩ := j0.insert OP_IF 3 (ht (c, encE x) (by simp [enc, encItem])) (by omega)
    obtain ⟨w, e2, j2⟩ := j1.attach (ht (t, encItem i) (by simp [enc])) (by omega)
    have j3 := j2.setAllArgs ([0] ++ loc.items) rfl (by omega)
    obtain ⟨w', e3, j4⟩ := j3.attachIf (i := 0) ho.opt (fun u hu => ht u (List.mem_cons_of_mem _ (List.mem_cons_of_mem _ hu))) rfl (by omega)
    refine ⟨n, w', ?_, s.put h.1 rfl (j4.mono (by simp [Call.cost]))⟩
    simp only [run, statementIf, e1, e2, e3, Option.bind_some, Option.map_some]
  | @«for» i c u b loc x y z q d o1 o2 o3 rest h1 h2 h3 h hq =>
    simp only [Call.cost] at hb
    have ht := Takes.tops h
    have j0 : J k v ((b, encItem q) :: (enc (o1 ++ o2 ++ o3) ++ enc rest)) A.tops A.ctx := s.j.permute (Takes.enc h)
    have ht' : ∀ w, w ∈ enc o1 ∨ w ∈ enc o2 ∨ w ∈ enc o3 → w.1 ∉ A.tops := by
      intro w hw
      refine ht w (List.mem_cons_of_mem _ ?_)
      show w ∈ enc (o1 ++ o2 ++ o3)
      rw [enc_append, enc_append, List.mem_append, List.mem_append, or_assoc]
      exact hw
    rw [enc_append, enc_append, List.append_assoc, List.append_assoc, encItem_stmt hq] at j0
    obtain ⟨n, v', e1, j1⟩ := j0.insert OP_FOR 5 (ht (b, encItem q) (by simp [enc])) (by omega)
    have j2 := j1.setArgs (i := 0) [0, 0, 0] (by simp) (by omega)
    obtain ⟨w1, e2, j3⟩ := j2.attachIf (i := 0) h1.opt (fun w hw => ht' w (.inl hw)) rfl (by omega)
    obtain ⟨w2, e3, j4⟩ := j3.attachIf (i := 1) h2.opt (fun w hw => ht' w (.inr (.inl hw))) rfl (by omega)
    obtain ⟨w3, e4, j5⟩ := j4.attachIf (i := 2) h3.opt (fun w hw => ht' w (.inr (.inr hw))) rfl (by omega)
    have j6 := j5.setArgs (i := 3) loc.items (by simp [loc_length]) (by omega)
    refine ⟨n, setArgs w3 n 3 loc.items, ?_, s.put h.1 rfl (J.mono (k := k + 5 + 5 + 5 + 5 + 5) ?_ (by simp [Call.cost]))⟩
    · simp only [run, statementFor, e1, e2, e3, e4, Option.bind_some, Option.map_some]
    · simp only [Trs.append_assoc] at j6
      exact j6
  | @ret c e loc x os rest hc ho h =>
    simp only [Call.cost] at hb
    obtain ⟨n, v', e1, j1⟩ := (s.j.permute (Takes.enc h)).leaf OP_RETURN ([0] ++ loc.items) hc (by simp [loc_length]; omega)
    obtain ⟨w', e3, j4⟩ := j1.attachIf (i := 0) ho.opt (Takes.tops h) rfl (by simp [loc_length]; omega)
    refine ⟨n, w', ?_, s.put h.1 rfl (j4.mono (by simp [Call.cost, loc_length]))⟩
    simp only [run, statementReturn, e1, e3, Option.map_some]
  | @declAdd nd d ds loc x rest h hd =>
    simp only [Call.cost] at hb
    have j0 : J k v ((nd, .mk OP_DECLSTMT loc.items (encDs ds)) :: (d, encD x) :: enc rest) A.tops A.ctx := s.j.permute (perm_enc h)
    obtain ⟨w, e, j1⟩ := j0.attach hd (by omega)
    refine ⟨nd, w, by simp only [run, statementDeclarationAddDeclarator, e, Option.map_some], s.put (ops := [_, _]) h rfl ?_⟩
    rw [show encItem (.s (.decl (ds.snoc x) loc)) = .mk OP_DECLSTMT loc.items ((encDs ds).append (.cons (encD x) .nil)) by
      simp [encItem, encSt, encDs_snoc]]
    exact j1.mono (by simp [Call.cost])
  | @declLoc nd loc ds old rest h =>
    simp only [Call.cost] at hb
    have j0 : J k v ((nd, .mk OP_DECLSTMT old.items (encDs ds)) :: enc rest) A.tops A.ctx := s.j.permute (perm_enc h)
    have j1 := j0.setAllArgs loc.items (by simp only [loc_length]) (by omega)
    exact ⟨nd, _, rfl, s.put (ops := [_]) h rfl (j1.mono (by simp [Call.cost]))⟩
  | @structAdd nd d name ty ds loc x rest h hd =>
    simp only [Call.cost] at hb
    have j0 : J k v ((nd, .mk OP_DECL_STRUCT ([toItem name.toNat, ty] ++ loc.items) (encDs ds)) :: (d, encD x) :: enc rest) A.tops A.ctx :=
      s.j.permute (perm_enc h)
    obtain ⟨w, e, j1⟩ := j0.attach hd (by omega)
    refine ⟨nd, w, by simp only [run, declarationStructAddDeclarator, e, Option.map_some], s.put (ops := [_, _]) h rfl ?_⟩
    rw [show encItem (.d (.struct name ty (ds.snoc x) loc)) = .mk OP_DECL_STRUCT ([toItem name.toNat, ty] ++ loc.items)
      ((encDs ds).append (.cons (encD x) .nil)) by simp [encItem, encD, encDs_snoc]]
    exact j1.mono (by simp [Call.cost])
  | @structType nd ty name old ds loc rest h =>
    simp only [Call.cost] at hb
    have j0 : J k v ((nd, .mk OP_DECL_STRUCT ([toItem name.toNat, old] ++ loc.items) (encDs ds)) :: enc rest) A.tops A.ctx :=
      s.j.permute (perm_enc h)
    have j1 := j0.setArgs (i := 1) [ty] (by simp [loc_length]) (by omega)
    have j2 : J k (setArgs v nd 1 [ty]) ((nd, .mk OP_DECL_STRUCT ([toItem name.toNat, ty] ++ loc.items) (encDs ds)) :: enc rest) A.tops A.ctx := by
      simpa [Loc.items] using j1
    exact ⟨nd, _, rfl, s.put (ops := [_]) h rfl (j2.mono (by simp [Call.cost]))⟩
  | @structLoc nd ty name old ds loc rest h =>
    simp only [Call.cost] at hb
    have j0 : J k v ((nd, .mk OP_DECL_STRUCT ([toItem name.toNat, ty] ++ old.items) (encDs ds)) :: enc rest) A.tops A.ctx :=
      s.j.permute (perm_enc h)
    have j1 := j0.setArgs (i := 2) loc.items (by simp [loc_length]) (by omega)
    have j2 : J k (setArgs v nd 2 loc.items) ((nd, .mk OP_DECL_STRUCT ([toItem name.toNat, ty] ++ loc.items) (encDs ds)) :: enc rest) A.tops A.ctx := by
      simpa [Loc.items] using j1
    exact ⟨nd, _, rfl, s.put (ops := [_]) h rfl (j2.mono (by simp [Call.cost]))⟩
  | @func id =>
    simp only [Call.cost] at hb
    obtain ⟨n, v', e, j1⟩ := s.j.func OP_FUNC_DEF [toItem id.toNat, 0] s.root (by simp; omega)
    refine ⟨n, v', by simp only [run, functionDefinition, e], j1.mono (by simp [Call.cost]), List.mem_cons_of_mem _ s.root, ?_⟩
    intro x hx hf
    rcases List.mem_cons.1 hx with rfl | hx
    · simp
    · have := s.funcs x hx hf
      exact ⟨List.mem_cons_of_mem _ this.1, by simp [this.2]⟩
  | @param nd id dim fid ps displ rest h =>
    simp only [Call.cost] at hb
    have hf := s.funcs (nd, .f fid ps displ none) (h.mem_iff.2 (by simp)) rfl
    have j0 := s.j.permute (perm_enc h)
    have he : enc ((nd, .f fid ps displ none) :: rest) = (nd, .mk OP_FUNC_DEF [toItem fid.toNat, displ] (.ofList (ps.map encParam))) :: enc rest := by
      simp [enc, encItem, encBody, Trs.append_nil]
    rw [he] at j0
    obtain ⟨n, v', e, j1⟩ := j0.leafIn OP_DECL_VAR [toItem id.toNat, toItem dim.toNat, 0] hf.1 (by simp; omega)
    refine ⟨n, v', by simp only [run, functionParameter, e], ?_, s.root, ?_⟩
    · have he' : enc ((nd, .f fid (ps ++ [(id, dim)]) displ none) :: rest) = (nd, .mk OP_FUNC_DEF [toItem fid.toNat, displ]
          ((Trs.ofList (ps.map encParam)).append (.cons (encParam (id, dim)) .nil))) :: enc rest := by
        simp [enc, encItem, encBody, Trs.append_nil, ofList_append, Trs.ofList]
      show J _ _ (enc ((nd, .f fid (ps ++ [(id, dim)]) displ none) :: rest)) _ _
      rw [he']
      exact j1.mono (by simp [Call.cost])
    · intro x hx hfx
      rcases List.mem_cons.1 hx with rfl | hx
      · exact hf
      · exact s.funcs x (h.mem_iff.2 (List.mem_cons_of_mem _ hx)) hfx
  | @body nd b displ fid ps old i st rest h hbt hi =>
    simp only [Call.cost] at hb
    have hf := s.funcs (nd, .f fid ps old none) (h.mem_iff.2 (by simp)) rfl
    have j0 := s.j.permute (perm_enc h)
    have he : enc ((nd, .f fid ps old none) :: (b, i) :: rest) =
        (nd, .mk OP_FUNC_DEF [toItem fid.toNat, old] (.ofList (ps.map encParam))) :: (b, encSt st) :: enc rest := by
      simp only [enc, List.map_cons, encItem_stmt hi]
      simp [encItem, encBody, Trs.append_nil]
    rw [he] at j0
    obtain ⟨w, e, j1⟩ := j0.attach hbt (by omega)
    have j2 := j1.setArgs (i := 1) [displ] (by simp) (by omega)
    refine ⟨nd, _, by simp only [run, functionBody, e, Option.map_some], j2.mono (by simp [Call.cost]), s.root, ?_⟩
    intro x hx hfx
    rcases List.mem_cons.1 hx with rfl | hx
    · exact hf
    · exact s.funcs x (h.mem_iff.2 (List.mem_cons_of_mem _ (List.mem_cons_of_mem _ hx))) hfx
  | @global nd x rest h =>
    simp only [Call.cost] at hb
    have hm : (nd, encD x) ∈ enc A.items := (Takes.enc h).mem_iff.2 (by simp [enc, encItem])
    obtain ⟨w, e, j1⟩ := s.j.global hm (h.2 (nd, .d x) (by simp)) s.root (by omega)
    refine ⟨nd, w, by simp only [run, globalDeclarator, e, Option.map_some], j1.mono (by simp [Call.cost]), s.root, ?_⟩
    intro y hy hf
    exact ⟨(s.funcs y hy hf).1, List.mem_append_left _ (s.funcs y hy hf).2⟩
  | @discard nd i rest h =>
    simp only [Call.cost] at hb
    obtain ⟨w, e, j1⟩ := J.discard (P := enc rest) (s.j.permute (Takes.enc h)) (h.2 (nd, i) (by simp)) (by omega)
    refine ⟨nd, w.2, by simp only [run, e, Option.map_some], j1.mono (by simp [Call.cost]), s.root, ?_⟩
    intro y hy hf
    exact s.funcs y (h.1.mem_iff.2 (by simp [hy])) hf

theorem Sim.new {v : List Int} (h : nodeGetRoot [] = (some 0, v)) : Sim 3 v { items := [], tops := [], ctx := [0] } := by
  refine ⟨⟨3, Tree.root, [0], fun _ => [], Nat.le_refl _, .new h, ?_, ?_, ?_, ?_, ?_, ?_, ?_, ?_⟩, by simp, by simp⟩
  · exact ⟨Forest.single.2 ⟨[], rfl, .nil⟩, by simp⟩
  · simp [enc]
  · simp [enc]
  · rfl
  · simp
  · simp [Tree.root]
  · simp
  · rfl

/-- Every history keeps the forest. -/
theorem Hist.sim {k : Nat} {v : List Int} {A : State} (h : Hist k v A) (hb : k < 4611686018427387904) : Sim k v A := by
  induction h with
  | new h => exact .new h
  | call h hu hr ih =>
    obtain ⟨n, v', e, s⟩ := (ih (by omega)).step hu hb
    rw [hr] at e
    cases e
    exact s

end RuC.Ast
