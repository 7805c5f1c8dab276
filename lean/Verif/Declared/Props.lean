import Verif.Declared.Model
import Verif.Types.Props

/-!
# Declarations of structures: the theorems
-/

namespace RuC.Declared.Props
open RuC RuC.Types RuC.Types.Spec RuC.Declared

theorem collect_map {α : Type} (f : Nat → Option α) (g : Nat → Nat) : ∀ l, collect f (l.map g) = collect (fun i => f (g i)) l
  | [] => rfl
  | i :: is => by simp [collect, collect_map f g is]

theorem collect_members {α β : Type} (g : β → α) : ∀ (ms : List β) (f : Nat → Option α), (∀ i m, ms[i]? = some m → f i = some (g m)) →
    collect f (List.range ms.length) = some (ms.map g)
  | [], _, _ => rfl
  | m :: ms, f, h => by
    have h0 := h 0 m rfl
    have ih := collect_members g ms (fun i => f (i + 1)) (fun i m e => h (i + 1) m (by simpa using e))
    rw [List.length_cons, List.range_succ_eq_map, collect, h0, collect_map]
    simp [ih]

theorem entry_fst {cells : List Int} {i : Nat} {r : List (Nat × List Field)} (h : entry cells i = some r) : ∀ p ∈ r, p.1 = i := by
  unfold entry at h
  cases e : isStructure cells i with
  | none => simp [e] at h
  | some s =>
    cases s with
    | false => simp [e] at h; subst h; simp
    | true =>
      simp only [e, Option.bind_some, if_true, Option.bind_eq_some_iff, Option.map_eq_some_iff] at h
      obtain ⟨_, _, _, _, rfl⟩ := h
      simp

theorem collect_filter {cells : List Int} (k : Nat) : ∀ (l : List Nat) (r : List (List (Nat × List Field))), collect (entry cells) l = some r → l.Nodup →
    (k ∉ l → r.flatten.filter (fun p => p.1 = k) = []) ∧ (k ∈ l → entry cells k = some (r.flatten.filter fun p => p.1 = k))
  | [], r, h, _ => by cases h; simp
  | i :: is, r, h, hn => by
    simp only [collect, Option.bind_eq_some_iff, Option.map_eq_some_iff] at h
    obtain ⟨x, hx, rs, hrs, rfl⟩ := h
    have hn' := List.nodup_cons.mp hn
    obtain ⟨h1, h2⟩ := collect_filter k is rs hrs hn'.2
    have hf := entry_fst hx
    have hother : k ≠ i → x.filter (fun p => p.1 = k) = [] := by
      intro hk; rw [List.filter_eq_nil_iff]; intro p hp; have := hf p hp; simp; omega
    simp only [List.flatten_cons, List.filter_append]
    constructor
    · intro hk
      simp only [List.mem_cons, not_or] at hk
      rw [hother hk.1, h1 hk.2]; rfl
    · intro hk
      by_cases e : k = i
      · subst e
        rw [h1 hn'.1, hx, List.append_nil, List.filter_eq_self.mpr]
        intro p hp; simp [hf p hp]
      · rw [hother e, List.nil_append]
        exact h2 ((List.mem_cons.mp hk).resolve_left e)

/-- C103 (partial).  When the declarations are written after any history of types, every structure built in it without arrays among its members is declared exactly once under its number, with the types of its members in order.  Missing: structures with arrays, for which the text is no LLVM (`C103_array_member`), that nothing else is declared, which is false (`C103_not_a_structure`), and the histories missing in C30. -/
theorem C103_declared_partial {a b : Int} {h : List (Req × Int)} {tb : Table} (hr : Run a b h tb) (hlen : tb.cells.length < 2305843009213693952)
    {ds : List (Nat × List Field)} (hd : declare tb.cells = some ds) {ms : List (Int × Int)} {t : Int} (hx : (.struct ms, t) ∈ h)
    (ha : ∀ m ∈ ms, isArray tb.cells m.1 = some false) :
    ∃ k : Nat, (k : Int) = t ∧ ds.filter (fun p => p.1 = k) = [(k, ms.map fun m => .type m.1)] := by
  have hread := Types.Props.types_read_back_partial hr hlen hx
  obtain ⟨rs, hi⟩ := run_inv hr hlen
  obtain ⟨q, hq, e, _⟩ := hi.recs _ hx
  simp only at e
  have hlt := known_lt hi.lay (t := t) (Or.inr ⟨q, hq, e⟩)
  have hk : ((q.1 + 1 : Nat) : Int) = t := by rw [e]; omega
  refine ⟨q.1 + 1, hk, ?_⟩
  unfold declare at hd
  rw [Option.map_eq_some_iff] at hd
  obtain ⟨r, hc, rfl⟩ := hd
  have h2 := (collect_filter (q.1 + 1) _ r hc List.nodup_range).2 (by rw [List.mem_range]; omega)
  cases hread with
  | @struct _ _ sizes g1 g2 g3 g4 g5 =>
    have hm := collect_members (fun m : Int × Int => Field.type m.1) ms (field tb.cells t) (by
      intro i m hm
      simp [field, (g2 i m hm).1, ha m (List.mem_of_getElem? hm)])
    unfold entry at h2
    rw [hk, g5] at h2
    simp only [Option.bind_some, if_true, g1, hm, Option.map_some, Option.some.injEq] at h2
    exact h2.symm

/-- The case of `Types.Props.sample_run`: the built-in structure and `struct {int * 7; float 8;}`. -/
example : ∃ tb, Run 40 41 [(.pointer (-1), 10), (.struct [(10, 7), (-3, 8)], 13), (.pointer (-1), 10), (msgInfo 40 41, 2)] tb ∧
    declare tb.cells = some [(2, [.type (-1), .type (-1)]), (13, [.type 10, .type (-3)])] ∧ isArray tb.cells 10 = some false := by
  obtain ⟨tb, hr, hc⟩ := Types.Props.sample_run
  refine ⟨tb, hr, ?_, ?_⟩ <;> rw [hc] <;> decide +kernel

/-- What is not so: for a member that is an array the word `here` is written, which is no type. -/
theorem C103_array_member : ((build (initTable 40 41) (.array (-1))).bind fun p => (build p.2 (.struct [(p.1, 7)])).bind fun q => declare q.2.cells) =
    some [(2, [.type (-1), .type (-1)]), (13, [.here])] := by
  decide +kernel

/-- What is not so: when the name of a member has the number 1002, the cell of the name is taken for a structure and declared with types that are none. -/
theorem C103_not_a_structure : ((build (initTable 40 41) (.struct [(-1, 1002), (-1, 5)])).bind fun q => declare q.2.cells) =
    some [(2, [.type (-1), .type (-1)]), (10, [.type (-1), .type (-1)]), (14, [.type ITEM_MAX, .type ITEM_MAX])] := by
  decide +kernel

end RuC.Declared.Props
