import Verif.Workspace.Spec

/-! `ws_unix_path` is a stack machine over components. -/

namespace RuC.Workspace
open RuC

/-- The components kept so far, the last one first, followed by separators. -/
def joinR : List (List Nat) → List Nat
  | [] => []
  | s :: st => joinR st ++ s ++ [47]

/-- What a separator does to the component before it. -/
def push (st : List (List Nat)) (seg : List Nat) : List (List Nat) :=
  if seg = [46] then st
  else if seg = [46, 46] ∧ st ≠ [] ∧ st.head? ≠ some [46, 46] then st.tail
  else seg :: st

/-- The machine. -/
def norm : List Nat → List (List Nat) → List Nat → List (List Nat) × List Nat
  | [], st, cur => (st, cur)
  | c :: cs, st, cur => if isSep c then norm cs (push st cur) [] else norm cs st (cur ++ [c])

/-- The array starts with the text. -/
def Has (b : List (Option Nat)) (t : List Nat) : Prop := ∀ i, (h : i < t.length) → b[i]? = some (some t[i])

theorem Has.prefix {b : List (Option Nat)} {t u : List Nat} (h : Has b (t ++ u)) : Has b t := by
  intro i hi
  have := h i (by simp; omega)
  rwa [List.getElem_append_left hi] at this

theorem Has.poke {b : List (Option Nat)} {t : List Nat} (h : Has b t) (c : Nat) : Has (b.set t.length (some c)) (t ++ [c]) ∨ b.length ≤ t.length := by
  by_cases hl : t.length < b.length
  · left
    intro i hi
    simp only [List.length_append, List.length_singleton] at hi
    by_cases hit : i = t.length
    · subst hit
      rw [List.getElem?_set_self hl]
      simp
    · rw [List.getElem?_set_ne (Ne.symm hit), h i (by omega), List.getElem_append_left (by omega)]
  · right; omega

theorem Has.peek {b : List (Option Nat)} {t : List Nat} (h : Has b t) {i : Nat} (hi : i < t.length) : peek b i = some t[i] := by
  unfold Workspace.peek
  rw [h i hi]

theorem Has.isChar {b : List (Option Nat)} {t : List Nat} (h : Has b t) {i : Nat} (hi : i < t.length) (c : Nat) :
    isChar b i c = some (t[i] == c) := by
  unfold Workspace.isChar
  rw [h.peek hi]
  rfl

theorem getElem_at {a b : List Nat} {c i : Nat} (hi : i < (a ++ c :: b).length) (h : i = a.length) : (a ++ c :: b)[i] = c := by
  subst h
  simp

theorem joinR_end {st : List (List Nat)} (h : st ≠ []) : ∃ u, joinR st = u ++ [47] := by
  cases st with
  | nil => exact absurd rfl h
  | cons s st => exact ⟨joinR st ++ s, rfl⟩

theorem backLoop_spec {b : List (Option Nat)} {st : List (List Nat)} {s r : List Nat} (hs : 47 ∉ s)
    (h : Has b (joinR st ++ s)) : backLoop b ((joinR st).length + s.length) = some (joinR st).length := by
  have base : Has b (joinR st) → backLoop b (joinR st).length = some (joinR st).length := by
    intro h
    by_cases hst : st = []
    · subst hst; rfl
    · obtain ⟨u, e⟩ := joinR_end hst
      rw [e] at h ⊢
      rw [List.length_append, List.length_singleton, backLoop, h.peek (by simp)]
      simp
  have all : ∀ k, k ≤ s.length → backLoop b ((joinR st).length + k) = some (joinR st).length := by
    intro k
    induction k with
    | zero => intro _; exact base h.prefix
    | succ k ih =>
      intro hk
      have hp : peek b ((joinR st).length + k) = some s[k] := by
        rw [h.peek (by simp; omega), List.getElem_append_right (by omega)]
        congr 2
        omega
      rw [← Nat.add_assoc, backLoop, hp]
      simp only
      rw [if_pos (fun e : s[k] = 47 => hs (e ▸ List.getElem_mem (by omega)))]
      exact ih (by omega)
  exact all _ (Nat.le_refl _)

@[simp] theorem andThen_some (a b : Bool) : andThen (some a) (some b) = some (a && b) := by cases a <;> rfl
@[simp] theorem andThen_false (x : Option Bool) : andThen (some false) x = some false := rfl
@[simp] theorem andThen_true (x : Option Bool) : andThen (some true) x = x := by
  cases x with
  | none => rfl
  | some b => cases b <;> rfl
@[simp] theorem orElse_some (a b : Bool) : orElse (some a) (some b) = some (a || b) := by cases a <;> rfl

/-- The test for a component ".." before a component "..". -/
theorem top_test {b : List (Option Nat)} {st : List (List Nat)} {s r : List Nat} (hs : 47 ∉ s)
    (h : Has b (joinR (s :: st) ++ r)) {last : Nat} (hl : last = (joinR (s :: st)).length) :
    orElse
      (andThen (some (decide (last > 3))) (andThen (isChar b (last - 2) 46) (andThen (isChar b (last - 3) 46)
        (isChar b (last - 4) 47))))
      (andThen (some (last == 3)) (andThen (isChar b (last - 2) 46) (isChar b (last - 3) 46))) =
    some (decide (s = [46, 46])) := by
  have hlen : last = (joinR st).length + s.length + 1 := by rw [hl, joinR]; simp; omega
  have h' := h.prefix
  have hj : joinR (s :: st) = joinR st ++ s ++ [47] := rfl
  by_cases hst : st = []
  · subst hst
    simp only [joinR, List.nil_append] at h' hl hlen
    match s, hs with
    | [], hs =>
      simp at hlen
      subst hlen
      simp
    | [c], hs =>
      simp at hlen
      subst hlen
      simp
    | [c, d], hs =>
      simp at hlen
      subst hlen
      rw [h'.isChar (by simp), h'.isChar (by simp)]
      by_cases hc : c = 46 <;> by_cases hd : d = 46 <;> simp [hc, hd]
    | c :: d :: e :: s, hs =>
      have hgt : last > 3 := by simp at hlen; omega
      have hne3 : (last == 3) = false := by simp; omega
      have hlt : last - 4 < (c :: d :: e :: s).length := by simp at hlen ⊢; omega
      have h47 : (c :: d :: e :: s)[last - 4] ≠ 47 := fun e => hs (e ▸ List.getElem_mem hlt)
      have hx : isChar b (last - 4) 47 = some false := by
        rw [h'.isChar (by simp at hlt ⊢; omega), List.getElem_append_left hlt]
        simp [h47]
      rw [h'.isChar (i := last - 2) (by simp at hlen ⊢; omega), h'.isChar (i := last - 3) (by simp at hlen ⊢; omega), hx, hne3]
      simp only [hgt, decide_true, andThen_some, orElse_some, andThen_true, andThen_false]
      generalize ((c :: d :: e :: s ++ [47])[last - 2] == 46) = p
      generalize ((c :: d :: e :: s ++ [47])[last - 3] == 46) = q
      cases p <;> cases q <;> simp
  · obtain ⟨u, eu⟩ := joinR_end hst
    rw [hj, eu] at h'
    have hul : (joinR st).length = u.length + 1 := by rw [eu]; simp
    match s, hs with
    | [], hs =>
      simp only [List.append_nil, List.append_assoc, List.cons_append, List.nil_append] at h'
      simp only [List.length_nil] at hlen
      have hx : isChar b (last - 2) 46 = some false := by
        rw [h'.isChar (by simp; omega), getElem_at _ (by omega)]; rfl
      rw [hx]
      by_cases h3 : last > 3 <;> by_cases h4 : last = 3 <;> simp [h3, h4]
    | [c], hs =>
      simp only [List.append_assoc, List.cons_append, List.nil_append] at h'
      simp only [List.length_singleton] at hlen
      have hx : isChar b (last - 3) 46 = some false := by
        rw [h'.isChar (by simp; omega), getElem_at _ (by omega)]; rfl
      have hy : isChar b (last - 2) 46 = some (c == 46) := by
        have : u ++ 47 :: [c, 47] = (u ++ [47]) ++ c :: [47] := by simp
        rw [this] at h'
        rw [h'.isChar (by simp; omega), getElem_at _ (by simp; omega)]
      rw [hx, hy]
      by_cases h3 : last > 3 <;> by_cases h4 : last = 3 <;> by_cases hc : c = 46 <;> simp [h3, h4, hc]
    | [c, d], hs =>
      simp only [List.append_assoc, List.cons_append, List.nil_append] at h'
      simp only [List.length_cons, List.length_nil] at hlen
      have hz : isChar b (last - 4) 47 = some true := by
        rw [h'.isChar (by simp; omega), getElem_at _ (by omega)]; rfl
      have hx : isChar b (last - 3) 46 = some (c == 46) := by
        have : u ++ 47 :: [c, d, 47] = (u ++ [47]) ++ c :: [d, 47] := by simp
        rw [this] at h'
        rw [h'.isChar (by simp; omega), getElem_at _ (by simp; omega)]
      have hy : isChar b (last - 2) 46 = some (d == 46) := by
        have : u ++ 47 :: [c, d, 47] = (u ++ [47, c]) ++ d :: [47] := by simp
        rw [this] at h'
        rw [h'.isChar (by simp; omega), getElem_at _ (by simp; omega)]
      have h3 : last > 3 := by omega
      have h4 : last ≠ 3 := by omega
      rw [hx, hy, hz]
      by_cases hc : c = 46 <;> by_cases hd : d = 46 <;> simp [h3, h4, hc, hd]
    | c :: d :: e :: s, hs =>
      have hgt : last > 3 := by simp at hlen; omega
      have hne3 : (last == 3) = false := by simp; omega
      have hi : last - 4 < (u ++ [47] ++ (c :: d :: e :: s) ++ [47]).length := by simp at hlen ⊢; omega
      have h47 : (u ++ [47] ++ (c :: d :: e :: s) ++ [47])[last - 4] ≠ 47 := by
        have hlt : last - 4 - (u ++ [47]).length < (c :: d :: e :: s).length := by simp at hlen ⊢; omega
        rw [List.getElem_append_left (by simp at hlen ⊢; omega), List.getElem_append_right (by simp at hlen ⊢; omega)]
        exact fun e => hs (e ▸ List.getElem_mem hlt)
      have hx : isChar b (last - 4) 47 = some false := by
        rw [h'.isChar hi]
        simp only [Option.some.injEq, beq_eq_false_iff_ne]
        exact h47
      rw [h'.isChar (i := last - 2) (by simp at hlen ⊢; omega), h'.isChar (i := last - 3) (by simp at hlen ⊢; omega), hx, hne3]
      simp only [hgt, decide_true, andThen_some, orElse_some, andThen_true, andThen_false]
      simp

theorem separator_spec {b : List (Option Nat)} {st : List (List Nat)} {cur : List Nat} (hst : ∀ s ∈ st, 47 ∉ s)
    (h : Has b (joinR st ++ cur ++ [47])) :
    separator b ((joinR st).length + cur.length + 1) (joinR st).length = some (joinR (push st cur)).length ∧
    Has b (joinR (push st cur)) := by
  have hsub : (joinR st).length + cur.length + 1 - (joinR st).length = cur.length + 1 := by omega
  have hfirst : ∀ c cs, cur = c :: cs → isChar b (joinR st).length 46 = some (c == 46) := by
    intro c cs e
    subst e
    have : joinR st ++ (c :: cs) ++ [47] = joinR st ++ c :: (cs ++ [47]) := by simp
    rw [this] at h
    rw [h.isChar (by simp), getElem_at _ rfl]
  unfold separator
  rw [hsub]
  by_cases hdot : cur = [46]
  · subst hdot
    rw [hfirst 46 [] rfl]
    simp only [andThen_some, andThen_true, andThen_false, List.length_singleton, beq_self_eq_true]
    refine ⟨by simp [push], ?_⟩
    simp only [push, if_true]
    rw [List.append_assoc] at h
    exact h.prefix
  · have h1 : andThen (some (cur.length + 1 == 2)) (isChar b (joinR st).length 46) = some false := by
      match cur, hdot with
      | [], _ => rfl
      | [c], hdot =>
        rw [hfirst c [] rfl]
        have : c ≠ 46 := fun e => hdot (by rw [e])
        simp [this]
      | c :: d :: cs, _ => simp
    rw [h1]
    simp only
    by_cases hdd : cur = [46, 46]
    · subst hdd
      have hsec : isChar b ((joinR st).length + 1) 46 = some true := by
        have : joinR st ++ [46, 46] ++ [47] = (joinR st ++ [46]) ++ 46 :: [47] := by simp
        rw [this] at h
        rw [h.isChar (by simp), getElem_at _ (by simp)]
        rfl
      rw [hfirst 46 [46] rfl, hsec]
      cases st with
      | nil =>
        simp [push, joinR]
        simpa [joinR] using h
      | cons s st =>
        have hs : 47 ∉ s := hst s (by simp)
        rw [List.append_assoc] at h
        rw [top_test hs h rfl]
        have hl0 : ((joinR (s :: st)).length != 0) = true := by simp [joinR]
        rw [hl0]
        by_cases hsd : s = [46, 46]
        · subst hsd
          simp only [andThen_some, andThen_true, andThen_false, List.length_cons, List.length_nil, Option.map_some]
          refine ⟨by simp [push, joinR], ?_⟩
          simp only [push]
          rw [if_neg (by simp), if_neg (by simp)]
          rw [joinR, List.append_assoc]
          exact h
        · simp only [andThen_some, andThen_true, andThen_false, List.length_cons, List.length_nil, Option.map_some, hsd, decide_false, Bool.not_false]
          have hp : push (s :: st) [46, 46] = st := by simp [push, hsd]
          rw [hp]
          have h2 : Has b (joinR st ++ s) := by
            have := h.prefix
            rw [joinR] at this
            exact this.prefix
          refine ⟨?_, h2.prefix⟩
          have := backLoop_spec (r := []) hs h2
          rw [← this]
          simp [joinR]
    · have h2 : andThen (some ((joinR st).length != 0)) (andThen (some (cur.length + 1 == 3)) (andThen (isChar b (joinR st).length 46)
          (andThen (isChar b ((joinR st).length + 1) 46)
          ((orElse
            (andThen (some (decide ((joinR st).length > 3))) (andThen (isChar b ((joinR st).length - 2) 46)
              (andThen (isChar b ((joinR st).length - 3) 46) (isChar b ((joinR st).length - 4) 47))))
            (andThen (some ((joinR st).length == 3)) (andThen (isChar b ((joinR st).length - 2) 46)
              (isChar b ((joinR st).length - 3) 46)))).map (!·))))) = some false := by
        by_cases hz : ((joinR st).length != 0) = true
        · rw [hz]
          match cur, hdd, h with
          | [], _, _ => simp
          | [c], _, _ => simp
          | [c, d], hdd, h =>
            have hsec : isChar b ((joinR st).length + 1) 46 = some (d == 46) := by
              have : joinR st ++ [c, d] ++ [47] = (joinR st ++ [c]) ++ d :: [47] := by simp
              rw [this] at h
              rw [h.isChar (by simp), getElem_at _ (by simp)]
            rw [hfirst c [d] rfl, hsec]
            by_cases hc : c = 46
            · have hd : d ≠ 46 := fun e => hdd (by rw [hc, e])
              have e2 : (d == 46) = false := by simp [hd]
              rw [e2]
              simp
            · have e2 : (c == 46) = false := by simp [hc]
              rw [e2]
              simp
          | c :: d :: e :: cs, _, _ => simp
        · rw [Bool.not_eq_true] at hz
          rw [hz]; rfl
      rw [h2]
      have hp : push st cur = cur :: st := by simp [push, hdot, hdd]
      rw [hp]
      exact ⟨by simp [joinR]; omega, h⟩

theorem push_sep {st : List (List Nat)} {cur : List Nat} (hst : ∀ s ∈ st, 47 ∉ s) (hc : 47 ∉ cur) : ∀ s ∈ push st cur, 47 ∉ s := by
  intro s hs
  unfold push at hs
  split at hs
  · exact hst s hs
  · split at hs
    · exact hst s (List.mem_of_mem_tail hs)
    · rcases List.mem_cons.1 hs with rfl | hs
      · exact hc
      · exact hst s hs

theorem pathLoop_spec {path : List Nat} : ∀ {b : List (Option Nat)} {st : List (List Nat)} {cur : List Nat},
    (∀ s ∈ st, 47 ∉ s) → 47 ∉ cur → Has b (joinR st ++ cur) → (joinR st).length + cur.length + path.length ≤ b.length →
    ∃ b', pathLoop path b ((joinR st).length + cur.length) (joinR st).length =
        some (b', (joinR (norm path st cur).1).length + (norm path st cur).2.length) ∧
      Has b' (joinR (norm path st cur).1 ++ (norm path st cur).2) ∧ b'.length = b.length ∧
      (joinR (norm path st cur).1).length + (norm path st cur).2.length ≤ (joinR st).length + cur.length + path.length := by
  induction path with
  | nil =>
    intro b st cur h1 h2 h3 h4
    exact ⟨b, rfl, h3, rfl, by simp [norm]⟩
  | cons c cs ih =>
    intro b st cur h1 h2 h3 h4
    simp only [List.length_cons] at h4
    have hlt : (joinR st).length + cur.length < b.length := by omega
    simp only [pathLoop]
    by_cases hsep : isSep c = true
    · have hc47 : (if c = 92 then 47 else c) = 47 := by
        simp [isSep] at hsep
        split
        · rfl
        · omega
      rw [hc47, poke, if_pos hlt]
      simp only [if_true]
      have hh := h3.poke 47
      rw [List.length_append] at hh
      rcases hh with hh | hh
      · obtain ⟨e1, e2⟩ := separator_spec h1 hh
        rw [e1]
        simp only
        have hle : (joinR (push st cur)).length ≤ (joinR st).length + cur.length + 1 := by
          unfold push
          split
          · omega
          · split
            · cases st <;> simp [joinR]; omega
            · simp [joinR]; omega
        obtain ⟨b', e3, e4, e5, e6⟩ := ih (cur := []) (push_sep h1 h2) (by simp) (by simpa using e2) (by simp; omega)
        simp only [List.length_nil, Nat.add_zero] at e3 e6
        refine ⟨b', ?_, ?_, ?_, ?_⟩
        · rw [norm, if_pos hsep]; exact e3
        · rw [norm, if_pos hsep]; exact e4
        · simpa using e5
        · rw [norm, if_pos hsep]; simp; omega
      · omega
    · have hc47 : (if c = 92 then 47 else c) = c := by
        simp [isSep] at hsep
        rw [if_neg hsep.2]
      have hcn : c ≠ 47 := by
        simp [isSep] at hsep
        exact hsep.1
      rw [hc47, poke, if_pos hlt]
      simp only [if_neg hcn]
      have hh := h3.poke c
      rw [List.length_append] at hh
      rcases hh with hh | hh
      · obtain ⟨b', e3, e4, e5, e6⟩ := ih (b := b.set ((joinR st).length + cur.length) (some c)) (cur := cur ++ [c]) h1
          (by simp [h2, Ne.symm hcn]) (by rw [← List.append_assoc]; exact hh) (by simp; omega)
        rw [List.length_append, List.length_singleton, ← Nat.add_assoc] at e3 e6
        refine ⟨b', ?_, ?_, ?_, ?_⟩
        · rw [norm, if_neg hsep]; exact e3
        · rw [norm, if_neg hsep]; exact e4
        · simpa using e5
        · rw [norm, if_neg hsep]; simp only [List.length_cons]; omega
      · omega

theorem textOf_spec {b : List (Option Nat)} {t : List Nat} (h : Has b (t ++ [0])) (ht : ∀ c ∈ t, c ≠ 0) : textOf b = some t := by
  induction t generalizing b with
  | nil =>
    have := h 0 (by simp)
    cases b with
    | nil => simp at this
    | cons x b =>
      simp at this
      subst this
      rfl
  | cons c t ih =>
    have h0 := h 0 (by simp)
    cases b with
    | nil => simp at h0
    | cons x b =>
      simp at h0
      subst h0
      have hc : c ≠ 0 := ht c (by simp)
      have hrec : textOf b = some t := by
        refine ih ?_ (fun d hd => ht d (by simp [hd]))
        intro i hi
        have := h (i + 1) (by simp at hi ⊢; omega)
        simpa using this
      cases c with
      | zero => exact absurd rfl hc
      | succ c => simp [textOf, hrec]

theorem norm_text {path : List Nat} : ∀ {st : List (List Nat)} {cur : List Nat}, (∀ c ∈ path, c ≠ 0) → (∀ c ∈ joinR st ++ cur, c ≠ 0) →
    ∀ c ∈ joinR (norm path st cur).1 ++ (norm path st cur).2, c ≠ 0 := by
  induction path with
  | nil => intro st cur _ h; exact h
  | cons d ds ih =>
    intro st cur hp h
    rw [norm]
    split
    · refine ih (fun c hc => hp c (by simp [hc])) ?_
      rw [List.append_nil]
      unfold push
      split
      · exact fun c hc => h c (by simp [hc])
      · split
        · cases st with
          | nil => simp [joinR]
          | cons s st =>
            intro c hc
            exact h c (by simp [joinR] at hc ⊢; simp [hc])
        · intro c hc
          simp only [joinR, List.mem_append, List.mem_singleton] at hc
          rcases hc with (hc | hc) | hc
          · exact h c (by simp [hc])
          · exact h c (by simp [hc])
          · omega
    · refine ih (fun c hc => hp c (by simp [hc])) ?_
      intro c hc
      rw [← List.append_assoc, List.mem_append, List.mem_singleton] at hc
      rcases hc with hc | rfl
      · exact h c hc
      · exact hp c (by simp)

theorem norm_sep {path : List Nat} : ∀ {st : List (List Nat)} {cur : List Nat}, (∀ s ∈ st, 47 ∉ s) → 47 ∉ cur →
    (∀ s ∈ (norm path st cur).1, 47 ∉ s) ∧ 47 ∉ (norm path st cur).2 := by
  induction path with
  | nil => intro st cur h1 h2; exact ⟨h1, h2⟩
  | cons c cs ih =>
    intro st cur h1 h2
    rw [norm]
    split
    · exact ih (push_sep h1 h2) (by simp)
    · rename_i hc
      refine ih h1 ?_
      simp [isSep] at hc
      simp [h2, Ne.symm hc.1]

/-- The result without the trailing separator. -/
def cut (t : List Nat) : List Nat := if t.getLast? = some 47 then t.dropLast else t

/-- The array version computes the stack version, for every path that fits and leaves something. -/
theorem unixPath_spec {path : List Nat} (hfit : path.length < 1024) (ht : ∀ c ∈ path, c ≠ 0)
    (hne : joinR (norm path [] []).1 ++ (norm path [] []).2 ≠ []) :
    unixPath path = some (cut (joinR (norm path [] []).1 ++ (norm path [] []).2)) := by
  have hmax : MAX_ARG_SIZE = 1024 := by unfold MAX_ARG_SIZE; rfl
  obtain ⟨b, e, hb, hl, hle⟩ := pathLoop_spec (path := path) (b := List.replicate MAX_ARG_SIZE none) (st := []) (cur := [])
    (by simp) (by simp) (by intro i hi; simp [joinR] at hi) (by rw [List.length_replicate, hmax]; simp [joinR]; omega)
  rw [List.length_replicate, hmax] at hl
  simp only [joinR, List.length_nil, Nat.zero_add] at e hle
  unfold unixPath
  rw [e]
  simp only
  have htx := norm_text (path := path) (st := []) (cur := []) ht (by simp [joinR])
  rw [← List.length_append] at hle ⊢
  generalize joinR (norm path [] []).1 ++ (norm path [] []).2 = t at *
  have htl : t.length ≠ 0 := fun e => hne (List.length_eq_zero_iff.1 e)
  rw [if_neg htl, hb.peek (by omega)]
  simp only
  obtain ⟨u, x, rfl⟩ : ∃ u x, t = u ++ [x] := by
    rcases List.eq_nil_or_concat t with e | ⟨u, x, e⟩
    · exact absurd e hne
    · exact ⟨u, x, by rw [e, List.concat_eq_append]⟩
  have hx : (u ++ [x])[(u ++ [x]).length - 1]'(by omega) = x := getElem_at _ (by simp)
  rw [hx]
  simp only [List.length_append, List.length_singleton] at hle
  by_cases h47 : x = 47
  · subst h47
    have hc : cut (u ++ [47]) = u := by simp [cut]
    rw [if_pos rfl, hc, poke, if_pos (by simp; omega)]
    simp only
    refine textOf_spec ?_ (fun c hc => htx c (by simp [hc]))
    rcases hb.prefix.poke 0 with h | h
    · simpa using h
    · omega
  · have hc : cut (u ++ [x]) = u ++ [x] := by simp [cut, h47]
    rw [if_neg h47, hc, poke, if_pos (by simp; omega)]
    simp only
    refine textOf_spec ?_ htx
    rcases hb.poke 0 with h | h
    · simpa using h
    · simp at h; omega

/-- An empty remainder makes the code read in front of the array. -/
theorem unixPath_empty {path : List Nat} (hfit : path.length < 1024)
    (he : joinR (norm path [] []).1 ++ (norm path [] []).2 = []) : unixPath path = none := by
  have hmax : MAX_ARG_SIZE = 1024 := by unfold MAX_ARG_SIZE; rfl
  obtain ⟨b, e, hb, hl, hle⟩ := pathLoop_spec (path := path) (b := List.replicate MAX_ARG_SIZE none) (st := []) (cur := [])
    (by simp) (by simp) (by intro i hi; simp [joinR] at hi) (by rw [List.length_replicate, hmax]; simp [joinR]; omega)
  simp only [joinR, List.length_nil, Nat.zero_add] at e
  unfold unixPath
  rw [e]
  simp only
  rw [← List.length_append, he]
  rfl

end RuC.Workspace
