import Verif.Ast.Lemmas

/-!
# What the stored trees read as
-/

namespace RuC.Ast
open RuC Tree

/-! ## The stored form of the abstract syntax -/

def encLit : Lit → List Int
  | .null => []
  | .bool b => [flag b]
  | .char c => [(c.toNat : Int)]
  | .int n => [n]
  | .float bits => [bits]
  | .str i => [toItem i.toNat]

mutual
def encE : E → Tr
  | .ident ty id loc => .mk OP_IDENTIFIER ([ty, LVALUE, toItem id.toNat] ++ loc.items) .nil
  | .lit ty l loc => .mk OP_LITERAL ([ty, RVALUE] ++ encLit l ++ loc.items) .nil
  | .subscript ty b i loc => .mk OP_SLICE ([ty, LVALUE] ++ loc.items) (.cons (encE b) (.cons (encE i) .nil))
  | .call ty f as loc => .mk OP_CALL ([ty, RVALUE] ++ loc.items) (.cons (encE f) (encEs as))
  | .member ty lv i arrow b loc =>
    .mk OP_SELECT ([ty, category lv, toItem i.toNat, flag arrow] ++ loc.items) (.cons (encE b) .nil)
  | .cast ty src e loc => .mk OP_CAST ([ty, RVALUE, src] ++ loc.items) (.cons (encE e) .nil)
  | .unary ty lv e op loc => .mk OP_UNARY ([ty, category lv, (op.toNat : Int)] ++ loc.items) (.cons (encE e) .nil)
  | .binary ty l r op loc => .mk OP_BINARY ([ty, RVALUE, (op.toNat : Int)] ++ loc.items) (.cons (encE l) (.cons (encE r) .nil))
  | .ternary ty c l r loc => .mk OP_TERNARY ([ty, RVALUE] ++ loc.items) (.cons (encE c) (.cons (encE l) (.cons (encE r) .nil)))
  | .assign ty l r op loc =>
    .mk OP_ASSIGNMENT ([ty, RVALUE, (op.toNat : Int)] ++ loc.items) (.cons (encE l) (.cons (encE r) .nil))
  | .init ty es loc => .mk OP_INITIALIZER ([ty, RVALUE] ++ loc.items) (encEs es)
  | .emptyBound loc => .mk OP_EMPTY_BOUND ([TYPE_INTEGER, RVALUE] ++ loc.items) .nil
def encEs : Es → Trs
  | .nil => .nil
  | .cons e es => .cons (encE e) (encEs es)
end

def encO : Option E → Trs
  | none => .nil
  | some e => .cons (encE e) .nil

mutual
def encD : D → Tr
  | .var id bounds init loc => .mk OP_DECL_VAR ([toItem id.toNat, flag init.isSome] ++ loc.items) ((encEs bounds).append (encO init))
  | .member ty name bounds loc => .mk OP_DECL_MEMBER ([ty, toItem name.toNat] ++ loc.items) (encEs bounds)
  | .struct name ty ms loc => .mk OP_DECL_STRUCT ([toItem name.toNat, ty] ++ loc.items) (encDs ms)
def encDs : Ds → Trs
  | .nil => .nil
  | .cons d ds => .cons (encD d) (encDs ds)
end

def OS.isSome : OS → Bool
  | .none => false
  | .some _ => true

mutual
def encSt : St → Tr
  | .expr e => encE e
  | .case e s loc => .mk OP_CASE loc.items (.cons (encE e) (.cons (encSt s) .nil))
  | .default s loc => .mk OP_DEFAULT loc.items (.cons (encSt s) .nil)
  | .compound ss loc => .mk OP_BLOCK loc.items (encSs ss)
  | .null loc => .mk OP_NOP loc.items .nil
  | .ite c t e loc => .mk OP_IF ([flag e.isSome] ++ loc.items) (.cons (encE c) (.cons (encSt t) (encOS e)))
  | .switch c b loc => .mk OP_SWITCH loc.items (.cons (encE c) (.cons (encSt b) .nil))
  | .while c b loc => .mk OP_WHILE loc.items (.cons (encE c) (.cons (encSt b) .nil))
  | .doWhile b c loc => .mk OP_DO loc.items (.cons (encSt b) (.cons (encE c) .nil))
  | .for i c n b loc => .mk OP_FOR ([flag i.isSome, flag c.isSome, flag n.isSome] ++ loc.items)
      (.cons (encSt b) ((encOS i).append ((encO c).append (encO n))))
  | .continue loc => .mk OP_CONTINUE loc.items .nil
  | .break loc => .mk OP_BREAK loc.items .nil
  | .ret e loc => .mk OP_RETURN ([flag e.isSome] ++ loc.items) (encO e)
  | .decl ds loc => .mk OP_DECLSTMT loc.items (encDs ds)
def encSs : Ss → Trs
  | .nil => .nil
  | .cons s ss => .cons (encSt s) (encSs ss)
def encOS : OS → Trs
  | .none => .nil
  | .some s => .cons (encSt s) .nil
end

def encParam (p : UInt64 × UInt64) : Tr := .mk OP_DECL_VAR [toItem p.1.toNat, toItem p.2.toNat, 0] .nil

def encBody : Option St → Trs
  | none => .nil
  | some s => .cons (encSt s) .nil

def encItem : Item → Tr
  | .e e => encE e
  | .s s => encSt s
  | .d d => encD d
  | .f id ps displ body => .mk OP_FUNC_DEF [toItem id.toNat, displ] ((Trs.ofList (ps.map encParam)).append (encBody body))

theorem encItem_stmt {i : Item} {s : St} (h : i.stmt = some s) : encItem i = encSt s := by
  cases i <;> simp only [Item.stmt, Option.some.injEq, reduceCtorEq] at h <;> subst h <;> simp [encItem, encSt]

/-! ## What the calls of the tree answer -/

mutual
/-- The tree below `n` reads back by the calls of `tree.h`. -/
def Raw (v : List Int) : Tr → Nat → Prop
  | .mk ty a ks, n => nodeGetType v n = ty ∧ nodeGetArgc v n = a.length ∧
      (∀ i, (hi : i < a.length) → nodeGetArg v n i = a[i]) ∧ nodeGetAmount v n = ks.length ∧ RawL v (nodeGetChild v n) ks 0
def RawL (v : List Int) (get : Nat → Option Nat) : Trs → Nat → Prop
  | .nil, _ => True
  | .cons t ts, i => (∃ m, get i = some m ∧ Raw v t m) ∧ RawL v get ts (i + 1)
end

section
variable {v : List Int} {S : T} {out : List Nat}
  (hr : ∀ nd ∈ out, nodeGetAmount v nd = (S.kids nd).length ∧ (∀ i, nodeGetChild v nd i = (S.kids nd)[i]?) ∧
      (nd ≠ 0 → nodeGetType v nd = S.type nd) ∧ nodeGetArgc v nd = (S.args nd).length ∧
      (∀ i, (hi : i < (S.args nd).length) → nodeGetArg v nd i = (S.args nd)[i]))
include hr

theorem HoldsL.length' {K : Nat → List Nat} {ty : Nat → Int} {ar : Nat → List Int} : ∀ {ts : Trs} {ns o : List Nat},
    HoldsL K ty ar ts ns o → ns.length = ts.length
  | .nil, _, _, h => by
    obtain ⟨rfl, rfl⟩ := h
    rfl
  | .cons t ts, ns, o, h => by
    obtain ⟨n, ns', o1, o2, rfl, rfl, h1, h2⟩ := h
    simp [Trs.length, HoldsL.length' h2]

mutual
theorem Holds.raw : ∀ {t : Tr} {n : Nat} {o : List Nat}, Holds S.kids S.type S.args t n o → (∀ m ∈ o, m ∈ out ∧ m ≠ 0) → Raw v t n
  | .mk t a ks, n, o, h, hm => by
    obtain ⟨h1, h2, o1, rfl, h3⟩ := h
    obtain ⟨hn, hn0⟩ := hm n (by simp)
    obtain ⟨q1, q2, q3, q4, q5⟩ := hr n hn
    subst h1 h2
    refine ⟨q3 hn0, q4, q5, ?_, ?_⟩
    · rw [q1]
      exact HoldsL.length' hr h3
    · exact HoldsL.raw [] (S.kids n) (fun i => q2 i) rfl h3 (fun m hmo => hm m (by simp [hmo]))
theorem HoldsL.raw {get : Nat → Option Nat} : ∀ {ts : Trs} {o : List Nat} (pre ns : List Nat), (∀ i, get i = (pre ++ ns)[i]?) → 
    ∀ {j : Nat}, pre.length = j → HoldsL S.kids S.type S.args ts ns o → (∀ m ∈ o, m ∈ out ∧ m ≠ 0) → RawL v get ts j
  | .nil, _, _, _, _, _, _, _, _ => trivial
  | .cons t ts, o, pre, ns, hg, j, hj, h, hm => by
    obtain ⟨n, ns', o1, o2, rfl, rfl, h1, h2⟩ := h
    refine ⟨⟨n, ?_, h1.raw (fun m hmo => hm m (by simp [hmo]))⟩, ?_⟩
    · rw [hg, ← hj]
      simp
    · exact HoldsL.raw (pre ++ [n]) ns' (by simpa using hg) (by simp [hj]) h2 (fun m hmo => hm m (by simp [hmo]))
end
end

theorem Inv.raw {k : Nat} {v : List Int} {P : List (Nat × Tr)} {tops ctx : List Nat} {S : T} {out : List Nat} {O : Nat → List Nat}
    (I : Inv k v P tops ctx S out O) (hb : k < 4611686018427387904) {x : Nat × Tr} (hx : x ∈ P)
    (hc : ∀ m ∈ O x.1, ∀ c ∈ S.kids m, c ∉ names P) : Raw v x.2 x.1 := by
  obtain ⟨out', t', h⟩ := tree_reads I.ses hb
  have := I.tree.1.det t'.1
  subst this
  refine Holds.raw (S := S) (out := out) ?_ (I.forest hx hc) (fun m hm => ⟨I.sub hx hm, I.ne_zero hx hm⟩)
  intro nd hn
  obtain ⟨a, b, -, c, d, e⟩ := h nd hn
  exact ⟨a, b, c, d, e⟩

/-! ## What the getters answer -/

theorem amount_lt (v : List Int) (nd : Nat) : nodeGetAmount v nd < 18446744073709551616 := by
  unfold nodeGetAmount
  split
  · unfold toSize; omega
  · omega

theorem encEs_length : ∀ es : Es, (encEs es).length = es.length
  | .nil => rfl
  | .cons e es => by simp [encEs, Trs.length, Es.length, encEs_length es]

theorem encDs_length : ∀ ds : Ds, (encDs ds).length = ds.length
  | .nil => rfl
  | .cons d ds => by simp [encDs, Trs.length, Ds.length, encDs_length ds]

theorem encSs_length : ∀ ss : Ss, (encSs ss).length = ss.length
  | .nil => rfl
  | .cons s ss => by simp [encSs, Trs.length, Ss.length, encSs_length ss]

theorem Raw.type {v : List Int} {ty : Int} {a : List Int} {ks : Trs} {n : Nat} (h : Raw v (.mk ty a ks) n) : nodeGetType v n = ty := h.1

theorem Raw.arg {v : List Int} {ty : Int} {a : List Int} {ks : Trs} {n : Nat} (h : Raw v (.mk ty a ks) n) (i : Nat) {x : Int}
    (hx : a[i]? = some x) : nodeGetArg v n i = x := by
  obtain ⟨hi, e⟩ := List.getElem?_eq_some_iff.1 hx
  rw [h.2.2.1 i hi, e]

theorem Raw.amount {v : List Int} {ty : Int} {a : List Int} {ks : Trs} {n : Nat} (h : Raw v (.mk ty a ks) n) :
    nodeGetAmount v n = ks.length := h.2.2.2.1

theorem Raw.at {v : List Int} {ty : Int} {a : List Int} {loc : Loc} {ks : Trs} {n : Nat}
    (h : Raw v (.mk ty (a ++ loc.items) ks) n) : At v n loc := by
  have hl : nodeGetArgc v n = a.length + 2 := by rw [h.2.1]; simp [Loc.items]
  unfold At nodeGetLocation
  simp only [hl]
  rw [show usub (a.length + 2) 2 = a.length by unfold usub; simp,
    show usub (a.length + 2) 1 = a.length + 1 by unfold usub; rw [if_pos (by omega)]; omega]
  rw [h.arg a.length (x := toItem loc.1.toNat) (by simp [Loc.items]),
    h.arg (a.length + 1) (x := toItem loc.2.toNat) (by simp [Loc.items]),
    toSize_toItem loc.1.toNat_lt, toSize_toItem loc.2.toNat_lt]

theorem Raw.at' {v : List Int} {ty : Int} {loc : Loc} {ks : Trs} {n : Nat} (h : Raw v (.mk ty loc.items ks) n) : At v n loc :=
  Raw.at (a := []) h

theorem RawL.get {v : List Int} {f : Nat → Option Nat} : ∀ {ts us : Trs} {i : Nat} {t : Tr}, RawL v f (ts.append (.cons t us)) i →
    ∃ m, f (i + ts.length) = some m ∧ Raw v t m
  | .nil, us, i, t, h => h.1
  | .cons u ts, us, i, t, h => by
    obtain ⟨m, h1, h2⟩ := RawL.get (ts := ts) h.2
    exact ⟨m, by rw [← h1]; simp only [Trs.length]; congr 1; omega, h2⟩

theorem Raw.kid {v : List Int} {ty : Int} {a : List Int} {ks us : Trs} {t : Tr} {n : Nat} (h : Raw v (.mk ty a (ks.append (.cons t us))) n) :
    ∃ m, nodeGetChild v n ks.length = some m ∧ Raw v t m := by
  obtain ⟨m, h1, h2⟩ := RawL.get h.2.2.2.2
  exact ⟨m, by simpa using h1, h2⟩

theorem RawL.left {v : List Int} {f : Nat → Option Nat} : ∀ {ts us : Trs} {i : Nat}, RawL v f (ts.append us) i → RawL v f ts i
  | .nil, _, _, _ => trivial
  | .cons _ ts, _, _, h => ⟨h.1, RawL.left (ts := ts) h.2⟩

/-- The first children. -/
theorem Raw.kid0 {v : List Int} {ty : Int} {a : List Int} {us : Trs} {t : Tr} {n : Nat} (h : Raw v (.mk ty a (.cons t us)) n) :
    ∃ m, nodeGetChild v n 0 = some m ∧ Raw v t m := Raw.kid (ks := .nil) h

theorem Raw.kid1 {v : List Int} {ty : Int} {a : List Int} {us : Trs} {t t' : Tr} {n : Nat} (h : Raw v (.mk ty a (.cons t (.cons t' us))) n) :
    ∃ m, nodeGetChild v n 1 = some m ∧ Raw v t' m := Raw.kid (ks := .cons t .nil) h

theorem Raw.kid2 {v : List Int} {ty : Int} {a : List Int} {us : Trs} {t t' t'' : Tr} {n : Nat}
    (h : Raw v (.mk ty a (.cons t (.cons t' (.cons t'' us)))) n) :
    ∃ m, nodeGetChild v n 2 = some m ∧ Raw v t'' m := Raw.kid (ks := .cons t (.cons t' .nil)) h

theorem toEnum {x : UInt32} : toSize (x.toNat : Int) % 4294967296 = x.toNat := by
  have := x.toNat_lt
  rw [toSize_natCast (by omega)]
  omega

theorem flag_ne (b : Bool) : decide (flag b ≠ 0) = b := by cases b <;> simp [flag]

theorem category_eq (b : Bool) : decide (category b = LVALUE) = b := by cases b <;> rfl

theorem Raw.basic {v : List Int} {op ty c : Int} {a : List Int} {loc : Loc} {ks : Trs} {n : Nat} {cls : ExprClass} {lv : Bool}
    (h : Raw v (.mk op (ty :: c :: a ++ loc.items) ks) n) (hc : ∀ v n, nodeGetType v n = op → expressionGetClass v n = cls)
    (hl : decide (c = LVALUE) = lv) : Basic v n cls ty lv loc := by
  refine ⟨hc v n h.type, h.arg 0 rfl, ?_, h.at⟩
  rw [expressionIsLvalue, h.arg 1 (x := c) rfl, hl]

theorem class_of {op : Int} {cls : ExprClass} (h : op = OP_IDENTIFIER ∧ cls = .identifier ∨ op = OP_LITERAL ∧ cls = .literal ∨
    op = OP_SLICE ∧ cls = .subscript ∨ op = OP_CALL ∧ cls = .call ∨ op = OP_SELECT ∧ cls = .member ∨ op = OP_CAST ∧ cls = .cast ∨
    op = OP_UNARY ∧ cls = .unary ∨ op = OP_BINARY ∧ cls = .binary ∨ op = OP_TERNARY ∧ cls = .ternary ∨
    op = OP_ASSIGNMENT ∧ cls = .assignment ∨ op = OP_INITIALIZER ∧ cls = .initializer ∨ op = OP_EMPTY_BOUND ∧ cls = .emptyBound) :
    ∀ v n, nodeGetType v n = op → expressionGetClass v n = cls := by
  intro v n hn
  simp only [expressionGetClass, hn]
  rcases h with h | h | h | h | h | h | h | h | h | h | h | h <;> obtain ⟨rfl, rfl⟩ := h <;> rfl

mutual
theorem Raw.readsE {v : List Int} : ∀ {e : E} {n : Nat}, Raw v (encE e) n → ReadsE v e n
  | .ident ty id loc, n, h => by
    refine ⟨Raw.basic (a := [toItem id.toNat]) h (class_of (by simp)) (by decide), ?_⟩
    rw [expressionIdentifierGetId, h.arg 2 (x := toItem id.toNat) rfl, toSize_toItem id.toNat_lt]
  | .lit ty l loc, n, h => by
    refine ⟨Raw.basic (a := encLit l) h (class_of (by simp)) (by decide), ?_⟩
    cases l with
    | null => trivial
    | bool b => rw [ReadsLit, expressionLiteralGetBoolean, h.arg 2 (x := flag b) rfl, flag_ne]
    | char c => rw [ReadsLit, expressionLiteralGetCharacter, h.arg 2 (x := (c.toNat : Int)) rfl, toEnum]
    | int x => rw [ReadsLit, expressionLiteralGetInteger, h.arg 2 (x := x) rfl]
    | float x => rw [ReadsLit, expressionLiteralGetFloating, h.arg 2 (x := x) rfl]
    | str i => rw [ReadsLit, expressionLiteralGetString, h.arg 2 (x := toItem i.toNat) rfl, toSize_toItem i.toNat_lt]
  | .subscript ty b i loc, n, h => by
    obtain ⟨m0, g0, r0⟩ := h.kid0
    obtain ⟨m1, g1, r1⟩ := h.kid1
    exact ⟨Raw.basic (a := []) h (class_of (by simp)) (by decide), ⟨m0, g0, r0.readsE⟩, ⟨m1, g1, r1.readsE⟩⟩
  | .call ty f as loc, n, h => by
    obtain ⟨m0, g0, r0⟩ := h.kid0
    have ham : nodeGetAmount v n = as.length + 1 := by rw [h.amount, Trs.length, encEs_length]
    have hlt := amount_lt v n
    refine ⟨Raw.basic (a := []) h (class_of (by simp)) (by decide), ⟨m0, g0, r0.readsE⟩, ?_, ?_⟩
    · rw [expressionCallGetArgumentsAmount, ham]
      unfold usub
      rw [if_pos (by omega)]
      omega
    · refine RawL.readsEs (d := 1) (get := nodeGetChild v n) (fun i hi => ?_) h.2.2.2.2.2
      simp only [Nat.zero_add] at hi
      rw [expressionCallGetArgument, usz_of_lt (by omega), Nat.add_comm]
  | .member ty lv i arrow b loc, n, h => by
    obtain ⟨m0, g0, r0⟩ := h.kid0
    refine ⟨Raw.basic (a := [toItem i.toNat, flag arrow]) h (class_of (by simp)) (category_eq lv), ⟨m0, g0, r0.readsE⟩, ?_, ?_⟩
    · rw [expressionMemberGetMemberIndex, h.arg 2 (x := toItem i.toNat) rfl, toSize_toItem i.toNat_lt]
    · rw [expressionMemberIsArrow, h.arg 3 (x := flag arrow) rfl, flag_ne]
  | .cast ty src e loc, n, h => by
    obtain ⟨m0, g0, r0⟩ := h.kid0
    exact ⟨Raw.basic (a := [src]) h (class_of (by simp)) (by decide), h.arg 2 rfl, m0, g0, r0.readsE⟩
  | .unary ty lv e op loc, n, h => by
    obtain ⟨m0, g0, r0⟩ := h.kid0
    refine ⟨Raw.basic (a := [(op.toNat : Int)]) h (class_of (by simp)) (category_eq lv), ?_, m0, g0, r0.readsE⟩
    rw [expressionUnaryGetOperator, h.arg 2 (x := (op.toNat : Int)) rfl, toEnum]
  | .binary ty l r op loc, n, h => by
    obtain ⟨m0, g0, r0⟩ := h.kid0
    obtain ⟨m1, g1, r1⟩ := h.kid1
    refine ⟨Raw.basic (a := [(op.toNat : Int)]) h (class_of (by simp)) (by decide), ?_, ⟨m0, g0, r0.readsE⟩, ⟨m1, g1, r1.readsE⟩⟩
    rw [expressionBinaryGetOperator, h.arg 2 (x := (op.toNat : Int)) rfl, toEnum]
  | .ternary ty c l r loc, n, h => by
    obtain ⟨m0, g0, r0⟩ := h.kid0
    obtain ⟨m1, g1, r1⟩ := h.kid1
    obtain ⟨m2, g2, r2⟩ := h.kid2
    exact ⟨Raw.basic (a := []) h (class_of (by simp)) (by decide), ⟨m0, g0, r0.readsE⟩, ⟨m1, g1, r1.readsE⟩, ⟨m2, g2, r2.readsE⟩⟩
  | .assign ty l r op loc, n, h => by
    obtain ⟨m0, g0, r0⟩ := h.kid0
    obtain ⟨m1, g1, r1⟩ := h.kid1
    refine ⟨Raw.basic (a := [(op.toNat : Int)]) h (class_of (by simp)) (by decide), ?_, ⟨m0, g0, r0.readsE⟩, ⟨m1, g1, r1.readsE⟩⟩
    rw [expressionAssignmentGetOperator, h.arg 2 (x := (op.toNat : Int)) rfl, toEnum]
  | .init ty es loc, n, h => by
    refine ⟨Raw.basic (a := []) h (class_of (by simp)) (by decide), ?_, ?_⟩
    · rw [expressionInitializerGetSize, h.amount, encEs_length]
    · exact RawL.readsEs (d := 0) (get := nodeGetChild v n) (fun i hi => rfl) h.2.2.2.2
  | .emptyBound loc, n, h => Raw.basic (a := []) h (class_of (by simp)) (by decide)
theorem RawL.readsEs {v : List Int} {get get' : Nat → Option Nat} {d : Nat} : ∀ {es : Es} {j : Nat},
    (∀ i, i < j + es.length → get' i = get (i + d)) → RawL v get (encEs es) (j + d) → ReadsEs v es get' j
  | .nil, _, _, _ => trivial
  | .cons e es, j, hg, h => by
    obtain ⟨⟨m, h1, h2⟩, h3⟩ := h
    simp only [Es.length] at hg
    refine ⟨⟨m, by rw [hg j (by omega), h1], h2.readsE⟩, RawL.readsEs (d := d) (get := get) (fun i hi => hg i (by omega)) ?_⟩
    rw [show j + 1 + d = j + d + 1 by omega]
    exact h3
end

theorem declClass_of {op : Int} {cls : DeclClass} (h : op = OP_DECL_VAR ∧ cls = .var ∨ op = OP_DECL_MEMBER ∧ cls = .member ∨
    op = OP_DECL_STRUCT ∧ cls = .struct ∨ op = OP_FUNC_DEF ∧ cls = .func) :
    ∀ v n, nodeGetType v n = op → declarationGetClass v n = cls := by
  intro v n hn
  simp only [declarationGetClass, hn]
  rcases h with h | h | h | h <;> obtain ⟨rfl, rfl⟩ := h <;> rfl

mutual
theorem Raw.readsD {v : List Int} : ∀ {d : D} {n : Nat}, Raw v (encD d) n → ReadsD v d n
  | .var id bounds init loc, n, h => by
    have hi : declarationVariableHasInitializer v n = init.isSome := by
      rw [declarationVariableHasInitializer, h.arg 1 (x := flag init.isSome) rfl, flag_ne]
    have ham : nodeGetAmount v n = bounds.length + (encO init).length := by rw [h.amount, Trs.length_append, encEs_length]
    refine ⟨declClass_of (by simp) v n h.type, Raw.at h, ?_, ?_, ?_, ?_⟩
    · rw [declarationVariableGetId, h.arg 0 (x := toItem id.toNat) rfl, toSize_toItem id.toNat_lt]
    · rw [declarationVariableGetBoundsAmount, hi, ham]
      cases init with
      | none =>
        unfold usub
        simp [encO, Trs.length]
      | some e =>
        unfold usub
        simp [encO, Trs.length]
    · exact RawL.readsEs (d := 0) (get := nodeGetChild v n) (fun i hi => rfl) (RawL.left h.2.2.2.2)
    · cases init with
      | none => exact hi
      | some e =>
        obtain ⟨m, g, r⟩ := Raw.kid h
        refine ⟨hi, m, ?_, r.readsE⟩
        rw [declarationVariableGetInitializer, ham, ← g, encEs_length]
        congr 1
        unfold usub
        simp [encO, Trs.length]
  | .member ty name bounds loc, n, h => by
    refine ⟨declClass_of (by simp) v n h.type, Raw.at h, h.arg 0 rfl, ?_, ?_, ?_⟩
    · rw [declarationMemberGetName, h.arg 1 (x := toItem name.toNat) rfl, toSize_toItem name.toNat_lt]
    · rw [declarationMemberGetBoundsAmount, h.amount, encEs_length]
    · exact RawL.readsEs (d := 0) (get := nodeGetChild v n) (fun i hi => rfl) h.2.2.2.2
  | .struct name ty ms loc, n, h => by
    refine ⟨declClass_of (by simp) v n h.type, Raw.at h, ?_, h.arg 1 rfl, ?_, ?_⟩
    · rw [declarationStructGetName, h.arg 0 (x := toItem name.toNat) rfl, toSize_toItem name.toNat_lt]
    · rw [declarationStructGetSize, h.amount, encDs_length]
    · exact RawL.readsDs h.2.2.2.2
theorem RawL.readsDs {v : List Int} {get : Nat → Option Nat} : ∀ {ds : Ds} {j : Nat}, RawL v get (encDs ds) j → ReadsDs v ds get j
  | .nil, _, _ => trivial
  | .cons d ds, j, h => by
    obtain ⟨⟨m, h1, h2⟩, h3⟩ := h
    exact ⟨⟨m, h1, h2.readsD⟩, RawL.readsDs h3⟩
end

theorem stmtClass_of {op : Int} {cls : StmtClass} (h : op = OP_DECLSTMT ∧ cls = .decl ∨ op = OP_CASE ∧ cls = .case ∨
    op = OP_DEFAULT ∧ cls = .default ∨ op = OP_BLOCK ∧ cls = .compound ∨ op = OP_NOP ∧ cls = .null ∨ op = OP_IF ∧ cls = .if ∨
    op = OP_SWITCH ∧ cls = .switch ∨ op = OP_WHILE ∧ cls = .while ∨ op = OP_DO ∧ cls = .do ∨ op = OP_FOR ∧ cls = .for ∨
    op = OP_CONTINUE ∧ cls = .continue ∨ op = OP_BREAK ∧ cls = .break ∨ op = OP_RETURN ∧ cls = .return) :
    ∀ v n, nodeGetType v n = op → statementGetClass v n = cls := by
  intro v n hn
  simp only [statementGetClass, hn]
  rcases h with h | h | h | h | h | h | h | h | h | h | h | h | h <;> obtain ⟨rfl, rfl⟩ := h <;> rfl

theorem Raw.exprStmt {v : List Int} {e : E} {n : Nat} (h : Raw v (encE e) n) : statementGetClass v n = .expr := by
  cases e <;> simp only [encE] at h <;> simp only [statementGetClass, h.type] <;> rfl

/-- An operand that may be missing, the `k`-th child if there. -/
theorem RawL.opt {v : List Int} {f : Nat → Option Nat} {c : Option E} {us : Trs} {i : Nat} {has : Bool} {get : Option Nat}
    (h : RawL v f ((encO c).append us) i) (hh : has = c.isSome) (hg : c.isSome → get = f i) : ReadsOpt v has get c := by
  cases c with
  | none => exact hh
  | some e =>
    obtain ⟨⟨m, h1, h2⟩, -⟩ := h
    exact ⟨hh, m, by rw [hg rfl, h1], h2.readsE⟩

theorem RawL.right {v : List Int} {f : Nat → Option Nat} : ∀ {ts us : Trs} {i : Nat}, RawL v f (ts.append us) i → RawL v f us (i + ts.length)
  | .nil, _, _, h => h
  | .cons _ ts, us, i, h => by
    have := RawL.right (ts := ts) h.2
    rw [Trs.length, ← Nat.add_assoc, Nat.add_right_comm]
    exact this

theorem flag_isSome {α : Type} (x : Option α) : decide (flag x.isSome ≠ 0) = x.isSome := flag_ne _

theorem encO_length (c : Option E) : (encO c).length = if c.isSome then 1 else 0 := by cases c <;> rfl

theorem encOS_length (c : OS) : (encOS c).length = if c.isSome then 1 else 0 := by cases c <;> rfl

mutual
theorem Raw.readsSt {v : List Int} : ∀ {s : St} {n : Nat}, Raw v (encSt s) n → ReadsSt v s n
  | .expr e, n, h => by
    simp only [encSt] at h
    exact ⟨h.exprStmt, h.readsE⟩
  | .case e s loc, n, h => by
    obtain ⟨m0, g0, r0⟩ := h.kid0
    obtain ⟨m1, g1, r1⟩ := h.kid1
    exact ⟨stmtClass_of (by simp) v n h.type, h.at', ⟨m0, g0, r0.readsE⟩, ⟨m1, g1, r1.readsSt⟩⟩
  | .default s loc, n, h => by
    obtain ⟨m0, g0, r0⟩ := h.kid0
    exact ⟨stmtClass_of (by simp) v n h.type, h.at', ⟨m0, g0, r0.readsSt⟩⟩
  | .compound ss loc, n, h => by
    refine ⟨stmtClass_of (by simp) v n h.type, h.at', ?_, RawL.readsSs h.2.2.2.2⟩
    rw [statementCompoundGetSize, h.amount, encSs_length]
  | .null loc, n, h => ⟨stmtClass_of (by simp) v n h.type, h.at'⟩
  | .ite c t e loc, n, h => by
    obtain ⟨m0, g0, r0⟩ := h.kid0
    obtain ⟨m1, g1, r1⟩ := h.kid1
    refine ⟨stmtClass_of (by simp) v n h.type, Raw.at (a := [_]) h, ⟨m0, g0, r0.readsE⟩, ⟨m1, g1, r1.readsSt⟩, ?_⟩
    refine RawL.readsOS (us := .nil) (i := 2) (f := nodeGetChild v n) ?_ ?_ (fun _ => rfl)
    · rw [Trs.append_nil]
      exact h.2.2.2.2.2.2
    · rw [statementIfHasElseSubstmt, h.arg 0 (x := flag e.isSome) rfl, flag_ne]
  | .switch c b loc, n, h => by
    obtain ⟨m0, g0, r0⟩ := h.kid0
    obtain ⟨m1, g1, r1⟩ := h.kid1
    exact ⟨stmtClass_of (by simp) v n h.type, h.at', ⟨m0, g0, r0.readsE⟩, ⟨m1, g1, r1.readsSt⟩⟩
  | .while c b loc, n, h => by
    obtain ⟨m0, g0, r0⟩ := h.kid0
    obtain ⟨m1, g1, r1⟩ := h.kid1
    exact ⟨stmtClass_of (by simp) v n h.type, h.at', ⟨m0, g0, r0.readsE⟩, ⟨m1, g1, r1.readsSt⟩⟩
  | .doWhile b c loc, n, h => by
    obtain ⟨m0, g0, r0⟩ := h.kid0
    obtain ⟨m1, g1, r1⟩ := h.kid1
    exact ⟨stmtClass_of (by simp) v n h.type, h.at', ⟨m1, g1, r1.readsE⟩, ⟨m0, g0, r0.readsSt⟩⟩
  | .for i c u b loc, n, h => by
    obtain ⟨m0, g0, r0⟩ := h.kid0
    have hi : statementForHasInition v n = i.isSome := by
      rw [statementForHasInition, h.arg 0 (x := flag i.isSome) rfl, flag_ne]
    have hc : statementForHasCondition v n = c.isSome := by
      rw [statementForHasCondition, h.arg 1 (x := flag c.isSome) rfl, flag_ne]
    have hn : statementForHasIncrement v n = u.isSome := by
      rw [statementForHasIncrement, h.arg 2 (x := flag u.isSome) rfl, flag_ne]
    have ham : nodeGetAmount v n = 1 + (encOS i).length + (encO c).length + (encO u).length := by
      rw [h.amount, Trs.length, Trs.length_append, Trs.length_append]
      omega
    have k1 : RawL v (nodeGetChild v n) ((encOS i).append ((encO c).append (encO u))) 1 := h.2.2.2.2.2
    have k2 := k1.right
    have k3 := k2.right
    refine ⟨stmtClass_of (by simp) v n h.type, Raw.at (a := [_, _, _]) h, ?_, ?_, ?_, ⟨m0, g0, r0.readsSt⟩⟩
    · exact RawL.readsOS k1 hi (fun _ => rfl)
    · refine RawL.opt k2 hc (fun _ => ?_)
      rw [statementForGetCondition, hi, encOS_length]
      cases i.isSome <;> rfl
    · refine RawL.opt (us := .nil) (by rw [Trs.append_nil]; exact k3) hn (fun hu => ?_)
      rw [statementForGetIncrement, ham, encO_length u, hu, if_pos rfl]
      congr 1
      unfold usub
      rw [if_pos (by omega)]
      omega
  | .continue loc, n, h => ⟨stmtClass_of (by simp) v n h.type, h.at'⟩
  | .break loc, n, h => ⟨stmtClass_of (by simp) v n h.type, h.at'⟩
  | .ret e loc, n, h => by
    refine ⟨stmtClass_of (by simp) v n h.type, Raw.at (a := [_]) h, ?_⟩
    refine RawL.opt (us := .nil) (i := 0) (f := nodeGetChild v n) (by rw [Trs.append_nil]; exact h.2.2.2.2) ?_ (fun _ => rfl)
    rw [statementReturnHasExpression, h.amount, encO_length]
    cases e <;> simp
  | .decl ds loc, n, h => by
    refine ⟨stmtClass_of (by simp) v n h.type, h.at', ?_, RawL.readsDs h.2.2.2.2⟩
    rw [statementDeclarationGetSize, h.amount, encDs_length]
theorem RawL.readsSs {v : List Int} {get : Nat → Option Nat} : ∀ {ss : Ss} {j : Nat}, RawL v get (encSs ss) j → ReadsSs v ss get j
  | .nil, _, _ => trivial
  | .cons s ss, j, h => by
    obtain ⟨⟨m, h1, h2⟩, h3⟩ := h
    exact ⟨⟨m, h1, h2.readsSt⟩, RawL.readsSs h3⟩
theorem RawL.readsOS {v : List Int} {f : Nat → Option Nat} : ∀ {c : OS} {us : Trs} {i : Nat} {has : Bool} {get : Option Nat},
    RawL v f ((encOS c).append us) i → has = c.isSome → (c.isSome → get = f i) → ReadsOS v c has get
  | .none, _, _, _, _, _, hh, _ => hh
  | .some s, us, i, has, get, h, hh, hg => by
    obtain ⟨⟨m, h1, h2⟩, -⟩ := h
    exact ⟨hh, m, by rw [hg rfl, h1], h2.readsSt⟩
end

theorem RawL.params {v : List Int} {f : Nat → Option Nat} : ∀ {ps : List (UInt64 × UInt64)} {us : Trs} {j : Nat},
    RawL v f ((Trs.ofList (ps.map encParam)).append us) j →
    ∀ i p, ps[i]? = some p → ∃ m, f (j + i) = some m ∧ Raw v (encParam p) m
  | [], _, _, _, i, p, hp => by simp at hp
  | q :: ps, us, j, h, 0, p, hp => by
    simp only [List.getElem?_cons_zero, Option.some.injEq] at hp
    subst hp
    exact h.1
  | q :: ps, us, j, h, i + 1, p, hp => by
    obtain ⟨m, h1, h2⟩ := RawL.params (ps := ps) h.2 i p (by simpa using hp)
    exact ⟨m, by rw [← h1]; congr 1; omega, h2⟩

theorem ofList_length (l : List Tr) : (Trs.ofList l).length = l.length := by
  induction l with
  | nil => rfl
  | cons t l ih => simp [Trs.ofList, Trs.length, ih]

theorem Raw.readsItem {v : List Int} {i : Item} {n : Nat} (h : Raw v (encItem i) n) : ReadsItem v n i := by
  cases i with
  | e x => exact Raw.readsE h
  | s x => exact Raw.readsSt h
  | d x => exact Raw.readsD h
  | f id ps displ body =>
    refine ⟨declClass_of (by simp) v n h.type, ?_, h.arg 1 rfl, ?_⟩
    · rw [declarationFunctionGetId, h.arg 0 (x := toItem id.toNat) rfl, toSize_toItem id.toNat_lt]
    · rintro b rfl
      have ham : nodeGetAmount v n = ps.length + 1 := by
        rw [h.amount, Trs.length_append, ofList_length, List.length_map]
        rfl
      refine ⟨?_, ?_, ?_⟩
      · rw [declarationFunctionGetParametersAmount, ham]
        unfold usub
        simp
      · intro i p hp
        obtain ⟨m, h1, h2⟩ := RawL.params h.2.2.2.2 i p hp
        rw [Nat.zero_add] at h1
        rw [declarationFunctionGetParameter, h1, Option.getD_some, h2.arg 0 (x := toItem p.1.toNat) rfl, toSize_toItem p.1.toNat_lt]
      · obtain ⟨m, g, r⟩ := Raw.kid h
        refine ⟨m, ?_, r.readsSt⟩
        rw [declarationFunctionGetBody, ham, ← g, ofList_length, List.length_map]
        congr 1
        unfold usub
        simp

end RuC.Ast
