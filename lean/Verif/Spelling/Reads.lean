import Verif.Spelling.Lemmas

/-! Helper lemmas: the spelling of a type is read back. -/

namespace RuC.Spelling
open RuC.Types
open Listing (codes)

mutual
/-- The words of a type. -/
def toks : T → List Tok
  | .base b => [.base b]
  | .func r ps => toks r ++ (.lpar :: (toksTs ps ++ [.rpar]))
  | .struct ms => .struct :: .lbrace :: (toksMs ms ++ [.rbrace])
  | .array e => toks e ++ [.lsq, .rsq]
  | .ptr e => toks e ++ [.star]
  | .const e => if isPtr e then toks e ++ [.const] else .const :: toks e

/-- The words of parameters. -/
def toksTs : Ts → List Tok
  | .nil => []
  | .cons t r => toks t ++ (match r with | .nil => [] | .cons .. => .comma :: toksTs r)

/-- The words of members. -/
def toksMs : Ms → List Tok
  | .nil => []
  | .cons t w r => toks t ++ (.ident w :: .semi :: toksMs r)
end

/-! ## Words -/

/-- A text that does not go on with a word. -/
def Sep (r : List Nat) : Prop := ∀ c, r.head? = some c → (separator c).isSome = true

theorem cut_append {r : List Nat} : ∀ (v w : List Nat), (∀ c ∈ v, separator c = none) → cut w (v ++ r) = cut (w ++ v) r := by
  intro v
  induction v with
  | nil => intro w _; simp
  | cons x v ih =>
    intro w h
    simp only [List.cons_append, cut, h x (by simp)]
    rw [ih _ fun c hc => h c (by simp [hc])]
    simp

theorem cut_word {w r : List Nat} (h0 : w ≠ []) (h : ∀ c ∈ w, separator c = none) (hr : Sep r) : cut [] (w ++ r) = classify w :: cut [] r := by
  rw [cut_append w [] h, List.nil_append]
  cases r with
  | nil => simp [cut, flush, h0]
  | cons c r =>
    obtain ⟨t, ht⟩ := Option.isSome_iff_exists.1 (hr c rfl)
    simp only [cut, ht, flush, h0, if_true, if_false]
    rfl

theorem cut_base (b : Base) {r : List Nat} (hr : Sep r) : cut [] (baseText b ++ r) = .base b :: cut [] r := by
  have h : baseText b ≠ [] ∧ (∀ c ∈ baseText b, separator c = none) ∧ classify (baseText b) = .base b := by cases b <;> decide
  rw [cut_word h.1 h.2.1 hr, h.2.2]

theorem cut_name {w r : List Nat} (h : nameOk w = true) (hr : Sep r) : cut [] (w ++ r) = .ident w :: cut [] r := by
  simp only [nameOk, Bool.and_eq_true, decide_eq_true_eq, List.all_eq_true, Option.isNone_iff_eq_none] at h
  rw [cut_word h.1.1 h.1.2 hr]
  unfold classify
  rw [h.2]
  rfl

theorem c_open (r : List Nat) : codes " (" ++ r = 32 :: 40 :: r := rfl
theorem c_close (r : List Nat) : codes ")" ++ r = 41 :: r := rfl
theorem c_arr (r : List Nat) : codes "[]" ++ r = 91 :: 93 :: r := rfl
theorem c_star (r : List Nat) : codes "*" ++ r = 42 :: r := rfl
theorem c_comma (r : List Nat) : codes ", " ++ r = 44 :: 32 :: r := rfl
theorem c_semi (r : List Nat) : codes "; " ++ r = 59 :: 32 :: r := rfl
theorem c_brace (r : List Nat) : codes "}" ++ r = 125 :: r := rfl
theorem c_blank (r : List Nat) : codes " " ++ r = 32 :: r := rfl
theorem c_struct (r : List Nat) : codes "struct { " ++ r = codes "struct" ++ 32 :: 123 :: 32 :: r := rfl
theorem c_const (r : List Nat) : codes "const " ++ r = codes "const" ++ 32 :: r := rfl
theorem c_behind (r : List Nat) : codes " const" ++ r = 32 :: (codes "const" ++ r) := rfl

theorem sep_cons {c : Nat} {r : List Nat} (h : (separator c).isSome = true) : Sep (c :: r) := fun x hx => by
  simp only [List.head?_cons, Option.some.injEq] at hx
  exact hx ▸ h

theorem cut_const {r : List Nat} (hr : Sep r) : cut [] (codes "const" ++ r) = .const :: cut [] r := cut_word (by decide) (by decide) hr
theorem cut_struct {r : List Nat} (hr : Sep r) : cut [] (codes "struct" ++ r) = .struct :: cut [] r := cut_word (by decide) (by decide) hr

mutual
theorem cut_print : ∀ (e : T) (r : List Nat), ok e = true → Sep r → cut [] (print e ++ r) = toks e ++ cut [] r
  | .base b, r, _, hr => cut_base b hr
  | .func t ps, r, h, hr => by
    simp only [ok, Bool.and_eq_true] at h
    simp only [print, toks, List.append_assoc, c_open, c_close, List.cons_append, List.nil_append]
    rw [cut_print t _ h.1 (sep_cons rfl)]
    have := cut_params ps (41 :: r) h.2 (sep_cons rfl)
    rw [show cut [] (32 :: 40 :: (printTs ps ++ 41 :: r)) = .lpar :: cut [] (printTs ps ++ 41 :: r) from rfl, this]
    rfl
  | .struct ms, r, h, hr => by
    simp only [ok] at h
    simp only [print, toks, List.append_assoc, c_struct, c_brace, List.cons_append, List.nil_append]
    rw [cut_struct (sep_cons rfl), show cut [] (32 :: 123 :: 32 :: (printMs ms ++ 125 :: r)) = .lbrace :: cut [] (printMs ms ++ 125 :: r) from rfl, cut_members ms _ h]
    rfl
  | .array e, r, h, hr => by
    simp only [ok] at h
    simp only [print, toks, List.append_assoc, c_arr]
    rw [cut_print e _ h (sep_cons rfl)]
    rfl
  | .ptr e, r, h, hr => by
    simp only [ok] at h
    simp only [print, toks, List.append_assoc, c_star]
    rw [cut_print e _ h (sep_cons rfl)]
    rfl
  | .const e, r, h, hr => by
    simp only [ok, Bool.and_eq_true] at h
    rw [print, toks]
    cases isPtr e with
    | true =>
      simp only [if_true, List.append_assoc, c_behind]
      rw [cut_print e _ h.2 (sep_cons rfl), show cut [] (32 :: (codes "const" ++ r)) = cut [] (codes "const" ++ r) from rfl, cut_const hr]
      rfl
    | false =>
      simp only [Bool.false_eq_true, if_false, List.append_assoc, c_const, List.cons_append]
      rw [cut_const (sep_cons rfl), show cut [] (32 :: (print e ++ r)) = cut [] (print e ++ r) from rfl, cut_print e _ h.2 hr]

theorem cut_params : ∀ (ps : Ts) (r : List Nat), okTs ps = true → Sep r → cut [] (printTs ps ++ r) = toksTs ps ++ cut [] r
  | .nil, r, _, _ => rfl
  | .cons t .nil, r, h, hr => by
    simp only [okTs, Bool.and_true] at h
    simp only [printTs, toksTs, List.append_nil]
    exact cut_print t r h hr
  | .cons t (.cons u p), r, h, hr => by
    have h2 : okTs (.cons u p) = true := by
      rw [okTs, Bool.and_eq_true] at h
      exact h.2
    rw [okTs, Bool.and_eq_true] at h
    have ih := cut_params (.cons u p) r h2 hr
    have e1 : printTs (.cons t (.cons u p)) = print t ++ (codes ", " ++ printTs (.cons u p)) := by rw [printTs.eq_def]
    have e2 : toksTs (.cons t (.cons u p)) = toks t ++ .comma :: toksTs (.cons u p) := by rw [toksTs.eq_def]
    rw [e1, e2]
    simp only [List.append_assoc, c_comma, List.cons_append]
    rw [cut_print t _ h.1 (sep_cons rfl), show cut [] (44 :: 32 :: (printTs (.cons u p) ++ r)) = .comma :: cut [] (printTs (.cons u p) ++ r) from rfl, ih]

theorem cut_members : ∀ (ms : Ms) (r : List Nat), okMs ms = true → cut [] (printMs ms ++ r) = toksMs ms ++ cut [] r
  | .nil, r, _ => rfl
  | .cons t w m, r, h => by
    simp only [okMs, Bool.and_eq_true] at h
    simp only [printMs, toksMs, List.append_assoc, c_blank, c_semi, List.cons_append]
    rw [cut_print t _ h.1.1 (sep_cons rfl), show cut [] (32 :: (w ++ 59 :: 32 :: (printMs m ++ r))) = cut [] (w ++ 59 :: 32 :: (printMs m ++ r)) from rfl, cut_name h.1.2 (sep_cons rfl),
      show cut [] (59 :: 32 :: (printMs m ++ r)) = .semi :: cut [] (printMs m ++ r) from rfl, cut_members m r h.2]
end

/-! ## The reader -/

/-- Parameters as a list. -/
def Ts.list : Ts → List T
  | .nil => []
  | .cons t r => t :: r.list

/-- Members as a list. -/
def Ms.list : Ms → List (T × List Nat)
  | .nil => []
  | .cons t w r => (t, w) :: r.list

theorem of_list : ∀ p : Ts, Ts.of p.list = p
  | .nil => rfl
  | .cons t r => by rw [Ts.list, Ts.of, of_list r]

theorem of_members : ∀ p : Ms, Ms.of p.list = p
  | .nil => rfl
  | .cons t w r => by rw [Ms.list, Ms.of, of_members r]

theorem run_struct {ms : Ms} {c : Bool} {st : List Frame} {r : List Tok}
    (h : run (.struct c [] :: st) (.empty false) (toksMs ms ++ .rbrace :: r) = run (.struct c ([] ++ ms.list) :: st) (.empty false) (.rbrace :: r)) :
    run st (.empty c) (.struct :: .lbrace :: (toksMs ms ++ [.rbrace]) ++ r) = run st (.type (constIf c (.struct ms))) r := by
  simp only [List.cons_append, List.append_assoc, List.nil_append]
  rw [show run st (.empty c) (.struct :: .lbrace :: (toksMs ms ++ .rbrace :: r)) = run (.struct c [] :: st) (.empty false) (toksMs ms ++ .rbrace :: r) from rfl, h, List.nil_append,
    show run (.struct c ms.list :: st) (.empty false) (.rbrace :: r) = run st (.type (constIf c (.struct (.of ms.list)))) r from rfl, of_members]

mutual
theorem run_type : ∀ (e : T) (st : List Frame) (r : List Tok), ok e = true → run st (.empty false) (toks e ++ r) = run st (.type e) r
  | .base b, st, r, _ => rfl
  | .func t ps, st, r, h => by
    simp only [ok, Bool.and_eq_true] at h
    simp only [toks, List.append_assoc, List.cons_append, List.nil_append]
    rw [run_type t st _ h.1]
    rw [show run st (.type t) (.lpar :: (toksTs ps ++ .rpar :: r)) = run (.func t [] :: st) (.empty false) (toksTs ps ++ .rpar :: r) from rfl]
    rcases run_params ps t [] st r h.2 with rfl | e
    · rfl
    · rw [e, List.nil_append, of_list]
  | .struct ms, st, r, h => by
    simp only [ok] at h
    exact run_struct (c := false) (run_members ms false [] st _ h)
  | .array e, st, r, h => by
    simp only [ok] at h
    simp only [toks, List.append_assoc]
    rw [run_type e st _ h]
    rfl
  | .ptr e, st, r, h => by
    simp only [ok] at h
    simp only [toks, List.append_assoc]
    rw [run_type e st _ h]
    rfl
  | .const (.base b), st, r, h => rfl
  | .const (.struct ms), st, r, h => by
    simp only [ok, Bool.and_eq_true] at h
    have h2 : okMs ms = true := h.2
    exact run_struct (c := true) (run_members ms true [] st _ h2)
  | .const (.ptr e), st, r, h => by
    simp only [ok, Bool.and_eq_true] at h
    simp only [toks, isPtr, if_true, List.append_assoc]
    rw [run_type e st _ h.2]
    rfl

theorem run_params : ∀ (ps : Ts) (t : T) (done : List T) (st : List Frame) (r : List Tok), okTs ps = true →
    ps = .nil ∨ run (.func t done :: st) (.empty false) (toksTs ps ++ .rpar :: r) = run st (.type (.func t (.of (done ++ ps.list)))) r
  | .nil, t, done, st, r, h => .inl rfl
  | .cons u p, t, done, st, r, h => by
    rw [okTs, Bool.and_eq_true] at h
    refine .inr ?_
    rcases run_params p t (done ++ [u]) st r h.2 with rfl | e
    · simp only [toksTs, List.append_nil]
      rw [run_type u _ _ h.1]
      rfl
    · cases p with
      | nil =>
        simp only [toksTs, List.append_nil]
        rw [run_type u _ _ h.1]
        rfl
      | cons v p =>
        have e2 : toksTs (.cons u (.cons v p)) = toks u ++ .comma :: toksTs (.cons v p) := by rw [toksTs.eq_def]
        rw [e2, List.append_assoc, run_type u _ _ h.1]
        rw [show run (.func t done :: st) (.type u) (.comma :: toksTs (.cons v p) ++ .rpar :: r) = run (.func t (done ++ [u]) :: st) (.empty false) (toksTs (.cons v p) ++ .rpar :: r) from rfl, e]
        simp only [List.append_assoc, Ts.list, List.cons_append, List.nil_append]

theorem run_members : ∀ (ms : Ms) (c : Bool) (done : List (T × List Nat)) (st : List Frame) (r : List Tok), okMs ms = true →
    run (.struct c done :: st) (.empty false) (toksMs ms ++ r) = run (.struct c (done ++ ms.list) :: st) (.empty false) r
  | .nil, c, done, st, r, _ => by simp only [Ms.list, List.append_nil]; rfl
  | .cons t w m, c, done, st, r, h => by
    simp only [okMs, Bool.and_eq_true] at h
    simp only [toksMs, List.append_assoc, List.cons_append]
    rw [run_type t _ _ h.1.1]
    rw [show run (.struct c done :: st) (.type t) (.ident w :: .semi :: (toksMs m ++ r)) = run (.struct c (done ++ [(t, w)]) :: st) (.empty false) (toksMs m ++ r) from rfl,
      run_members m c _ st r h.2]
    simp only [Ms.list, List.append_assoc, List.cons_append, List.nil_append]
end

theorem read_print (e : T) (h : ok e = true) : read (print e) = some e := by
  have h1 := cut_print e [] h (fun c hc => by simp at hc)
  have h2 := run_type e [] [] h
  rw [List.append_nil] at h1 h2
  rw [read, h1, show cut [] [] = [] from rfl, List.append_nil, h2]
  rfl

theorem print_ne (e : T) : print e ≠ [] := by
  cases e with
  | base b => cases b <;> decide
  | func r ps => simp only [print, c_open]; simp
  | struct ms => rw [print, c_struct]; simp [codes]
  | array e => rw [print]; simp [codes]
  | ptr e => rw [print]; simp [codes]
  | const e => rw [print]; split <;> simp [codes]

end RuC.Spelling
