import Verif.Machine.Spec

/-!
What a program means does not depend on how much it was allowed, once it is finished.
-/

namespace RuC.Machine

open RuC RuC.Codegen
open RuC.Expr (Unary Binary)

/-- The second run goes at least as far. -/
def Res.Le {α} (r r' : Res α) : Prop := (∃ out, r = .more out) ∨ r = r'

theorem Res.Le.refl {α} {r : Res α} : r.Le r := .inr rfl

theorem Res.Le.bind {α β} {r r' : Res α} {f f' : α → Src → Res β} (h : r.Le r') (g : ∀ a s, (f a s).Le (f' a s)) : (r.bind f).Le (r'.bind f') := by
  rcases h with ⟨out, rfl⟩ | rfl
  · exact .inl ⟨out, rfl⟩
  · cases r with
    | ok a s => exact g a s
    | more out => exact .inl ⟨out, rfl⟩
    | wrong => exact .refl

theorem Res.Le.value {β} {r r' : Res (Option Int)} {f f' : Int → Src → Res β} (h : r.Le r') (g : ∀ a s, (f a s).Le (f' a s)) : (r.value f).Le (r'.value f') := by
  refine h.bind fun a s => ?_
  cases a with
  | none => exact .refl
  | some a => exact g a s

/-- All calls go at least as far. -/
def CallsLe (c c' : Calls) : Prop := ∀ f vs s, (c f vs s).Le (c' f vs s)

mutual
theorem evalE_le {c c' : Calls} (h : CallsLe c c') : ∀ (e : Exp) (s : Src), (evalE c e s).Le (evalE c' e s)
  | .lit _, s => by simp only [evalE]; exact .refl
  | .ident _ _, s => by simp only [evalE]; exact .refl
  | .cast false e, s => by simp only [evalE]; exact evalE_le h e s
  | .cast true e, s => by simp only [evalE]; exact .refl
  | .unary op e _, s => by
    simp only [evalE]
    exact (evalE_le h e s).value fun _ _ => .refl
  | .binary op l r _, s => by
    simp only [evalE]
    refine (evalE_le h l s).value fun a s => ?_
    split
    · exact .refl
    · split
      · exact .refl
      · exact (evalE_le h r s).value fun _ _ => .refl
  | .comma l r, s => by
    simp only [evalE]
    exact (evalE_le h l s).bind fun _ s => evalE_le h r s
  | .ternary d a b, s => by
    simp only [evalE]
    refine (evalE_le h d s).value fun v s => ?_
    split
    · exact evalE_le h a s
    · exact evalE_le h b s
  | .assign op l r t, s => by
    cases l
    case ident id t' =>
      simp only [evalE]
      exact (evalE_le h r s).value fun _ _ => .refl
    all_goals simp only [evalE]; exact .refl
  | .incdec op l t, s => by
    cases l <;> simp only [evalE] <;> exact .refl
  | .call f args, s => by
    simp only [evalE]
    exact (evalA_le h args s).bind fun vs s => h f vs s
  | .print e t, s => by
    simp only [evalE]
    exact (evalE_le h e s).value fun _ _ => .refl
  | .printf f args m, s => by
    cases f
    case str chars =>
      simp only [evalE]
      exact (evalA_le h args s).bind fun _ _ => .refl
    all_goals simp only [evalE]; exact .refl
  | .flit _, _ | .str _, _ | .subscript _ _ _, _ | .arrow _ _ _, _ | .dot _ _ _ _, _ | .deref _ _, _ | .callParam _ _, _
  | .builtin _ _, _ | .both _ _, _ | .address _, _ | .upb _, _ | .init _ _ _, _ | .funArg _, _ | .paramArg _, _
  | .initArg _ _, _ => by simp only [evalE]; exact .refl
theorem evalA_le {c c' : Calls} (h : CallsLe c c') : ∀ (as : Args) (s : Src), (evalA c as s).Le (evalA c' as s)
  | .nil, s => by simp only [evalA]; exact .refl
  | .cons e rest, s => by
    simp only [evalA]
    exact (evalE_le h e s).value fun _ s => (evalA_le h rest s).bind fun _ _ => .refl
end

theorem evalOpt_le {c c' : Calls} (h : CallsLe c c') (e : Option Exp) (s : Src) : (evalOpt c e s).Le (evalOpt c' e s) := by
  cases e with
  | none => exact .refl
  | some e => exact evalE_le h e s

theorem evalStep_le {c c' : Calls} (h : CallsLe c c') (e : Option Exp) (s : Src) : (evalStep c e s).Le (evalStep c' e s) := by
  cases e with
  | none => exact .refl
  | some e => exact evalE_le h e s

theorem loopT_le {test test' next next' : Src → Res (Option Int)} {body body' : Src → Res Flow} (h1 : ∀ s, (test s).Le (test' s)) (h2 : ∀ s, (body s).Le (body' s))
    (h3 : ∀ s, (next s).Le (next' s)) : ∀ (n n' : Nat) (s : Src), n ≤ n' → (loopT test body next n s).Le (loopT test' body' next' n' s)
  | 0, _, s, _ => .inl ⟨s.out, rfl⟩
  | n + 1, 0, s, h => by omega
  | n + 1, n' + 1, s, h => by
    simp only [loopT]
    refine (h1 s).value fun v s => ?_
    split
    · exact .refl
    · refine (h2 s).bind fun f s => ?_
      cases f with
      | brk => exact .refl
      | ret v => exact .refl
      | normal => exact (h3 s).bind fun _ s => loopT_le h1 h2 h3 n n' s (by omega)
      | cont => exact (h3 s).bind fun _ s => loopT_le h1 h2 h3 n n' s (by omega)

theorem loopB_le {test test' : Src → Res (Option Int)} {body body' : Src → Res Flow} (h1 : ∀ s, (test s).Le (test' s)) (h2 : ∀ s, (body s).Le (body' s)) :
    ∀ (n n' : Nat) (s : Src), n ≤ n' → (loopB body test n s).Le (loopB body' test' n' s)
  | 0, _, s, _ => .inl ⟨s.out, rfl⟩
  | n + 1, 0, s, h => by omega
  | n + 1, n' + 1, s, h => by
    simp only [loopB]
    have round : ∀ s, ((test s).value fun v s => if v = 0 then Res.ok Flow.normal s else loopB body test n s).Le
        ((test' s).value fun v s => if v = 0 then Res.ok Flow.normal s else loopB body' test' n' s) := by
      intro s
      refine (h1 s).value fun v s => ?_
      split
      · exact .refl
      · exact loopB_le h1 h2 n n' s (by omega)
    refine (h2 s).bind fun f s => ?_
    cases f with
    | brk => exact .refl
    | ret v => exact .refl
    | normal => exact round s
    | cont => exact round s

mutual
theorem execS_le {c c' : Calls} (h : CallsLe c c') {n n' : Nat} (hn : n ≤ n') : ∀ (st : Stmt) (s : Src), (execS c n st s).Le (execS c' n' st s)
  | .skip, s | .continue_, s | .break_, s | .return_ none, s => by simp only [execS]; exact .refl
  | .seq a b, s => by
    simp only [execS]
    refine (execS_le h hn a s).bind fun f s => ?_
    split
    · exact execS_le h hn b s
    · exact .refl
  | .block b, s => by
    simp only [execS]
    exact (execS_le h hn b s).bind fun _ _ => .refl
  | .var id t p i, s => by
    cases i with
    | none =>
      simp only [execS]
      exact .refl
    | some e =>
      simp only [execS]
      split
      · exact .refl
      · exact (evalE_le h e _).value fun _ _ => .refl
  | .expr e, s => by
    simp only [execS]
    exact (evalE_le h e s).bind fun _ _ => .refl
  | .if_ d a, s => by
    simp only [execS]
    refine (evalE_le h d s).value fun v s => ?_
    split
    · exact execS_le h hn a s
    · exact .refl
  | .ifElse d a b, s => by
    simp only [execS]
    refine (evalE_le h d s).value fun v s => ?_
    split
    · exact execS_le h hn a s
    · exact execS_le h hn b s
  | .while_ d b, s => by
    simp only [execS]
    exact loopT_le (evalE_le h d) (execS_le h hn b) (fun _ => .refl) n n' s hn
  | .do_ b d, s => by
    simp only [execS]
    exact loopB_le (evalE_le h d) (execS_le h hn b) n n' s hn
  | .for_ i d e b, s => by
    simp only [execS]
    refine Res.Le.bind ?_ fun _ _ => .refl
    refine (execS_le h hn i s).bind fun f s => ?_
    split
    · exact loopT_le (evalOpt_le h d) (execS_le h hn b) (evalStep_le h e) n n' s hn
    · exact .refl
  | .return_ (some (e, m)), s => by
    simp only [execS]
    exact (evalE_le h e s).value fun _ _ => .refl
  | .switch d b, s => by
    simp only [execS]
    exact (evalE_le h d s).value fun v s => (execArms_le h hn b v false s).bind fun _ _ => .refl
  | .arr _ _ _ _ _ _ _, s | .case _ _, s | .default _, s => by simp only [execS]; exact .refl

theorem execArms_le {c c' : Calls} (h : CallsLe c c') {n n' : Nat} (hn : n ≤ n') : ∀ (st : Stmt) (v : Int) (hit : Bool) (s : Src),
    (execArms c n st v hit s).Le (execArms c' n' st v hit s)
  | .skip, v, hit, s => by simp only [execArms]; exact .refl
  | .case e x, v, hit, s => by
    simp only [execArms]
    split
    · exact .refl
    · split
      · exact execS_le h hn x s
      · exact .refl
  | .default x, v, hit, s => by simp only [execArms]; exact execS_le h hn x s
  | .seq (.case e x) r, v, hit, s => by
    simp only [execArms]
    split
    · exact .refl
    · split
      · refine (execS_le h hn x s).bind fun f s => ?_
        split
        · exact execArms_le h hn r v true s
        · exact .refl
      · exact execArms_le h hn r v false s
  | .seq (.default x) r, v, hit, s => by
    simp only [execArms]
    split
    · exact execArms_le h hn r v false s
    · refine (execS_le h hn x s).bind fun f s => ?_
      split
      · exact execArms_le h hn r v true s
      · exact .refl
  | .block b, v, hit, s => by
    simp only [execArms]
    exact (execArms_le h hn b v hit s).bind fun _ _ => .refl
  | .var _ _ _ _, _, _, _ | .arr _ _ _ _ _ _ _, _, _, _ | .expr _, _, _, _ | .if_ _ _, _, _, _ | .ifElse _ _ _, _, _, _ | .switch _ _, _, _, _ | .while_ _ _, _, _, _ | .do_ _ _, _, _, _ | .for_ _ _ _ _, _, _, _ | .continue_, _, _, _ | .break_, _, _, _ | .return_ _, _, _, _ | .seq .skip _, _, _, _ | .seq (.seq _ _) _, _, _, _ | .seq (.block _) _, _, _, _ | .seq (.var _ _ _ _) _, _, _, _ | .seq (.arr _ _ _ _ _ _ _) _, _, _, _ | .seq (.expr _) _, _, _, _ | .seq (.if_ _ _) _, _, _, _ | .seq (.ifElse _ _ _) _, _, _, _ | .seq (.switch _ _) _, _, _, _ | .seq (.while_ _ _) _, _, _, _ | .seq (.do_ _ _) _, _, _, _ | .seq (.for_ _ _ _ _) _, _, _, _ | .seq .continue_ _, _, _, _ | .seq .break_ _, _, _, _ | .seq (.return_ _) _, _, _, _ => by
    simp only [execArms]; exact .refl
end

theorem callF_le (global : Nat → Bool) (fs : List Func) : ∀ (n n' : Nat), n ≤ n' → CallsLe (callF global fs n) (callF global fs n')
  | 0, _, _ => fun _ _ s => .inl ⟨s.out, rfl⟩
  | n + 1, 0, h => by omega
  | n + 1, n' + 1, h => by
    intro f vs s
    have ih := callF_le global fs n n' (by omega)
    simp only [callF]
    split
    · exact .refl
    · split
      · exact .refl
      · exact (execS_le ih (by omega) _ _).bind fun _ _ => .refl

theorem execTops_le {c c' : Calls} (h : CallsLe c c') {n n' : Nat} (hn : n ≤ n') : ∀ (tops : List Top) (s : Src), (execTops c n tops s).Le (execTops c' n' tops s)
  | [], s => .refl
  | .vars d :: rest, s => by
    simp only [execTops]
    refine (execS_le h hn d s).bind fun f s => ?_
    split
    · exact execTops_le h hn rest s
    · exact .refl
  | .func _ :: rest, s => execTops_le h hn rest s

theorem execU_le (tops : List Top) (main : Nat) {n n' : Nat} (hn : n ≤ n') : (execU tops main n).Le (execU tops main n') := by
  have h := callF_le (fun id => decide (id ∈ globalsOf tops)) (defs tops) n n' hn
  exact (execTops_le h hn tops _).bind fun _ s => h main [] s

end RuC.Machine
