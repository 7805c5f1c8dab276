import Verif.Listing.Show
import Verif.Locator.Marks

/-!
# Helper lemmas: the text of a line determines the line
-/

namespace RuC.Listing
open RuC RuC.Instr RuC.Locator

/-- Two texts are cut in the same way at the first character of a kind. -/
theorem cut {p : Nat → Prop} {c d : Nat} {s t : List Nat} (hc : p c) (hd : p d) : ∀ {a b : List Nat}, (∀ x ∈ a, ¬ p x) → (∀ x ∈ b, ¬ p x) →
    a ++ c :: s = b ++ d :: t → a = b ∧ c = d ∧ s = t
  | [], [], _, _, h => by
    obtain ⟨h1, h2⟩ := List.cons.inj h
    exact ⟨rfl, h1, h2⟩
  | [], x :: b, _, hb, h => by
    obtain ⟨h1, _⟩ := List.cons.inj h
    exact absurd (h1 ▸ hc) (hb x (by simp))
  | x :: a, [], ha, _, h => by
    obtain ⟨h1, _⟩ := List.cons.inj h
    exact absurd (h1 ▸ hd) (ha x (by simp))
  | x :: a, y :: b, ha, hb, h => by
    obtain ⟨h1, h2⟩ := List.cons.inj h
    obtain ⟨e1, e2, e3⟩ := cut hc hd (fun z hz => ha z (by simp [hz])) (fun z hz => hb z (by simp [hz])) h2
    exact ⟨by rw [h1, e1], e2, e3⟩

theorem showNat_inj {m n : Nat} (h : showNat m = showNat n) : m = n := by
  rw [showNat_eq, showNat_eq] at h
  rw [← decimal_digitsOf m m (Nat.le_refl m), h, decimal_digitsOf n n (Nat.le_refl n)]

theorem showNat_digits (n : Nat) : IsDigits (showNat n) := by
  rw [showNat_eq]; exact digitsOf_digits n n

theorem showInt_chars (v : Int) : ∀ c ∈ showInt v, c = 45 ∨ (48 ≤ c ∧ c ≤ 57) := by
  intro c hc
  unfold showInt at hc
  split at hc
  · rcases List.mem_cons.1 hc with rfl | hc
    · exact .inl rfl
    · exact .inr ((showNat_digits _).2 c hc)
  · exact .inr ((showNat_digits _).2 c hc)

theorem showInt_inj {v w : Int} (h : showInt v = showInt w) : v = w := by
  have key : ∀ n m : Nat, showNat n ≠ 45 :: showNat m := by
    intro n m e
    have := (showNat_digits n).2 45 (by rw [e]; simp)
    omega
  unfold showInt at h
  split at h <;> split at h
  · have := showNat_inj (List.cons.inj h).2
    omega
  · exact absurd h.symm (key _ _)
  · exact absurd h (key _ _)
  · have := showNat_inj h
    omega

/-- A number in decimal. -/
def isNum : List Nat → Bool
  | 45 :: r => !r.isEmpty && r.all fun c => 48 ≤ c && c ≤ 57
  | r => !r.isEmpty && r.all fun c => 48 ≤ c && c ≤ 57

theorem showInt_num (v : Int) : isNum (showInt v) = true := by
  have h := showNat_digits v.natAbs
  have ha : (showNat v.natAbs).all (fun c => 48 ≤ c && c ≤ 57) = true := by
    rw [List.all_eq_true]
    intro c hc
    have := h.2 c hc
    simp; omega
  unfold showInt
  split
  · simp [isNum, ha, h.1]
  · cases hs : showNat v.natAbs with
    | nil => exact absurd hs h.1
    | cons c r =>
      have := h.2 c (by rw [hs]; simp)
      rw [hs] at ha
      unfold isNum
      split
      · rename_i e; simp at e; omega
      · simp only [ha, List.isEmpty_cons]; rfl

theorem table_names : (table.map fun r => codes r.2.2.1).Pairwise (· ≠ ·) := by decide +kernel

theorem table_chars : ∀ r ∈ table, isNum (codes r.2.2.1) = false ∧ ∀ c ∈ codes r.2.2.1, c ≠ 32 ∧ c ≠ 10 := by decide +kernel

theorem pairwise_inj {α β : Type} {f : α → β} : ∀ {l : List α}, (l.map f).Pairwise (· ≠ ·) → ∀ {a b : α}, a ∈ l → b ∈ l → f a = f b → a = b
  | [], _, _, _, ha, _, _ => by cases ha
  | x :: l, h, a, b, ha, hb, e => by
    rw [List.map_cons, List.pairwise_cons] at h
    rcases List.mem_cons.1 ha with e1 | ha' <;> rcases List.mem_cons.1 hb with e2 | hb'
    · rw [e1, e2]
    · exact absurd (e1 ▸ e) (h.1 _ (List.mem_map_of_mem hb'))
    · exact absurd (e2 ▸ e.symm) (h.1 _ (List.mem_map_of_mem ha'))
    · exact pairwise_inj h.2 ha' hb' e

theorem row_some {e : Int} {r : Nat × String × List String} (h : row e = some r) : (e, r) ∈ table := by
  unfold row at h
  obtain ⟨x, hx, rfl⟩ := Option.map_eq_some_iff.1 h
  have h1 := List.find?_some hx
  have h2 := List.mem_of_find?_eq_some hx
  have : x.1 = e := by simpa using h1
  exact this ▸ h2

/-- Different instructions have different names. -/
theorem nameOf_inj {a b : Int} (h : nameOf a = nameOf b) : a = b := by
  unfold nameOf at h
  cases ha : row a with
  | none =>
    cases hb : row b with
    | none => rw [ha, hb] at h; exact showInt_inj h
    | some s =>
      rw [ha, hb] at h
      have h1 := (table_chars _ (row_some hb)).1
      have h2 := showInt_num a
      have h' : showInt a = codes s.2.1 := h
      rw [h'] at h2
      rw [h2] at h1
      cases h1
  | some r =>
    cases hb : row b with
    | none =>
      rw [ha, hb] at h
      have h1 := (table_chars _ (row_some ha)).1
      have h2 := showInt_num b
      have h' : codes r.2.1 = showInt b := h
      rw [← h'] at h2
      rw [h2] at h1
      cases h1
    | some s =>
      rw [ha, hb] at h
      have := pairwise_inj (f := fun r : Int × Nat × String × List String => codes r.2.2.1) table_names (row_some ha) (row_some hb) h
      exact congrArg Prod.fst this

theorem nameOf_chars (a : Int) : ∀ c ∈ nameOf a, ¬ (c = 32 ∨ c = 10) := by
  intro c hc
  unfold nameOf at hc
  cases ha : row a with
  | none =>
    rw [ha] at hc
    have := showInt_chars a c hc
    omega
  | some r =>
    rw [ha] at hc
    have := (table_chars _ (row_some ha)).2 c hc
    omega

theorem argsText_head (op : Int) (j : Nat) (args : List Int) (t : List Nat) : ∃ c r, argsText op j args ++ 10 :: t = c :: r ∧ (c = 32 ∨ c = 10) := by
  cases args with
  | nil => exact ⟨10, t, rfl, .inr rfl⟩
  | cons v rest =>
    unfold argsText
    split
    · exact ⟨32, _, rfl, .inl rfl⟩
    · exact ⟨32, _, rfl, .inl rfl⟩

theorem argsText_inj (op : Int) : ∀ (j : Nat) (a b : List Int) (s t : List Nat), a.length = b.length → argsText op j a ++ 10 :: s = argsText op j b ++ 10 :: t →
    a = b ∧ s = t
  | j, [], [], s, t, _, h => ⟨rfl, (List.cons.inj h).2⟩
  | j, [], _ :: _, s, t, hl, h => by simp at hl
  | j, _ :: _, [], s, t, hl, h => by simp at hl
  | j, v :: a, w :: b, s, t, hl, h => by
    have hl' : a.length = b.length := by simpa using hl
    obtain ⟨c, r, hc, hc'⟩ := argsText_head op (j + 1) a s
    obtain ⟨d, q, hd, hd'⟩ := argsText_head op (j + 1) b t
    unfold argsText at h
    simp only [List.append_assoc, List.append_cancel_left_eq] at h
    rw [hc, hd] at h
    have hch : ∀ v : Int, ∀ x ∈ showInt v, ¬ (x = 32 ∨ x = 10) := by
      intro v x hx
      have := showInt_chars v x hx
      omega
    obtain ⟨e1, e2, e3⟩ := cut (p := fun x => x = 32 ∨ x = 10) hc' hd' (hch v) (hch w) h
    obtain ⟨e4, e5⟩ := argsText_inj op (j + 1) a b s t hl' (by rw [hc, hd, e2, e3])
    exact ⟨by rw [showInt_inj e1, e4], e5⟩

/-- A line as `lineAt` makes it, and no floating literal. -/
def Line.Ok (l : Line) : Prop := l.args.length = argcOf l.op ∧ l.next = l.pc + 1 + l.args.length ∧ l.op ≠ IC_LID

theorem lineText_inj (f : Nat → List Nat) {l m : Line} {s t : List Nat} (hl : l.Ok) (hm : m.Ok) (h : lineText f l ++ s = lineText f m ++ t) : l = m ∧ s = t := by
  unfold lineText restText at h
  rw [if_neg hl.2.2, if_neg hm.2.2] at h
  have e1 : codes ") " = [41, 32] := by decide
  rw [e1] at h
  simp only [List.append_assoc, List.append_cancel_left_eq, List.cons_append, List.nil_append] at h
  have hd : ∀ n : Nat, ∀ x ∈ showNat n, ¬ x = 41 := by
    intro n x hx
    have := (showNat_digits n).2 x hx
    omega
  obtain ⟨h1, _, h2⟩ := cut (p := fun x => x = 41) rfl rfl (hd _) (hd _) h
  have h3 := (List.cons.inj h2).2
  obtain ⟨c, r, hc, hc'⟩ := argsText_head l.op 1 l.args s
  obtain ⟨d, q, hd, hd'⟩ := argsText_head m.op 1 m.args t
  rw [hc, hd] at h3
  obtain ⟨h4, h5, h6⟩ := cut (p := fun x => x = 32 ∨ x = 10) hc' hd' (nameOf_chars _) (nameOf_chars _) h3
  have hpc := showNat_inj h1
  have hop := nameOf_inj h4
  have hargs : argsText l.op 1 l.args ++ 10 :: s = argsText l.op 1 m.args ++ 10 :: t := by
    rw [hc, h5, h6, ← hd, hop]
  obtain ⟨h7, h8⟩ := argsText_inj l.op 1 l.args m.args s t (by rw [hl.1, hm.1, hop]) hargs
  refine ⟨?_, h8⟩
  have hnext : l.next = m.next := by rw [hl.2.1, hm.2.1, hpc, h7]
  cases l; cases m
  simp_all

theorem linesText_inj (f : Nat → List Nat) : ∀ (L M : List Line), (∀ l ∈ L, l.Ok) → (∀ l ∈ M, l.Ok) → L.flatMap (lineText f) = M.flatMap (lineText f) → L = M
  | [], [], _, _, _ => rfl
  | [], m :: M, _, _, h => by
    have : lineText f m ++ M.flatMap (lineText f) = [] := by simpa using h.symm
    simp [lineText, show codes "pc " = [112, 99, 32] by decide] at this
  | l :: L, [], _, _, h => by
    have : lineText f l ++ L.flatMap (lineText f) = [] := by simpa using h
    simp [lineText, show codes "pc " = [112, 99, 32] by decide] at this
  | l :: L, m :: M, hL, hM, h => by
    rw [List.flatMap_cons, List.flatMap_cons] at h
    obtain ⟨e1, e2⟩ := lineText_inj f (hL l (by simp)) (hM m (by simp)) h
    rw [e1, linesText_inj f L M (fun x hx => hL x (by simp [hx])) (fun x hx => hM x (by simp [hx])) e2]

theorem linesFrom_at (mem : List Int) : ∀ (fuel i : Nat) (l : Line), l ∈ linesFrom mem fuel i → ∃ k, l = lineAt mem k
  | 0, i, l, h => by simp [linesFrom] at h
  | fuel + 1, i, l, h => by
    rw [linesFrom] at h
    split at h
    · rcases List.mem_cons.1 h with rfl | h
      · exact ⟨i, rfl⟩
      · exact linesFrom_at mem fuel _ l h
    · cases h

theorem lines_ok {mem : List Int} (h : ∀ l ∈ lines mem, l.op ≠ IC_LID) : ∀ l ∈ lines mem, l.Ok := by
  intro l hl
  obtain ⟨k, hk⟩ := linesFrom_at mem _ _ l hl
  refine ⟨?_, ?_, h l hl⟩
  · rw [hk]; simp [lineAt]
  · rw [hk]; simp [lineAt]

end RuC.Listing
