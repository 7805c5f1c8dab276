import Verif.Subst.Spec
import Verif.Text.Lines
import Verif.Locator.Marks

/-!
# Names, masks and gaps in definitions and calls
-/

namespace RuC.Subst
open RuC RuC.Utf8 RuC.Io RuC.Locator RuC.Text

theorem putsOf_append (a b : List Ev) : putsOf (a ++ b) = putsOf a ++ putsOf b := by
  induction a with
  | nil => rfl
  | cons x a ih => cases x <;> simp [putsOf, ih]

theorem putsOf_putc {c : Nat} (h : c < 0x200000) : putsOf (putc c) = [c] := by
  rw [putc_char h]; rfl

theorem putsOf_str {b : List Nat} : ∀ {p : Nat}, putsOf (strEvs p b) = b := by
  induction b with
  | nil => intro p; rfl
  | cons c b ih =>
    intro p
    unfold strEvs
    rw [putsOf_append]
    split <;> simp [putsOf, ih]

/-! ## Names -/

/-- What is read as a name: an identifier, or a hash and an identifier. -/
def Named (w : List Nat) : Prop := ∃ c v, w = c :: v ∧ (isLetter c = true ∨ c = 35) ∧ ∀ c ∈ v, wordChar c = true

theorem Word.named {w : List Nat} (h : Word w) : Named w := by
  obtain ⟨⟨c, v, rfl, hc⟩, hw⟩ := h
  exact ⟨c, v, rfl, .inl hc, fun d hd => hw d (List.mem_cons_of_mem _ hd)⟩

theorem nameAt_spec {t w r : List Nat} {p : Nat} (h : t.drop p = w ++ r) (hw : Named w) (hr : WordEnds r) : nameAt t p = w := by
  obtain ⟨c, v, rfl, hc, hv⟩ := hw
  unfold nameAt
  rw [h, List.cons_append]
  show (if _ then c :: (v ++ r).takeWhile wordChar else []) = _
  rw [if_pos hc, List.takeWhile_append_of_pos hv]
  cases r with
  | nil => simp
  | cons d r => rw [List.takeWhile_cons_of_neg (by simp [hr d r rfl]), List.append_nil]

theorem digits_word {n c : Nat} (h : c ∈ showNat n) : wordChar c = true ∧ c < 128 ∧ c ≠ 95 := by
  rw [showNat_eq] at h
  have := (digitsOf_digits n n).2 c h
  have hc : c = 48 ∨ c = 49 ∨ c = 50 ∨ c = 51 ∨ c = 52 ∨ c = 53 ∨ c = 54 ∨ c = 55 ∨ c = 56 ∨ c = 57 := by omega
  rcases hc with rfl | rfl | rfl | rfl | rfl | rfl | rfl | rfl | rfl | rfl <;> decide

theorem showNat_inj {m n : Nat} (h : showNat m = showNat n) : m = n := by
  rw [showNat_eq, showNat_eq] at h
  rw [← decimal_digitsOf m m (Nat.le_refl m), ← decimal_digitsOf n n (Nat.le_refl n), h]

theorem argMask_word (i j : Nat) : Word (argMask i j) := by
  refine ⟨⟨95, _, rfl, by decide⟩, ?_⟩
  intro c hc
  unfold argMask at hc
  simp only [List.mem_append] at hc
  rcases hc with ((hc | hc) | hc) | hc
  · revert c; decide
  · exact (digits_word hc).1
  · revert c; decide
  · exact (digits_word hc).1

theorem strMask_word (i j : Nat) : Word (strMask i j) := by
  refine ⟨⟨95, _, rfl, by decide⟩, ?_⟩
  intro c hc
  unfold strMask at hc
  simp only [List.mem_append] at hc
  rcases hc with ((hc | hc) | hc) | hc
  · revert c; decide
  · exact (digits_word hc).1
  · revert c; decide
  · exact (digits_word hc).1

theorem tkpMask_named (i j : Nat) : Named (tkpMask i j) := by
  refine ⟨35, _, rfl, .inr rfl, ?_⟩
  intro c hc
  replace hc : c ∈ [95, 95, 84, 75, 80, 95] ++ showNat i ++ [95] ++ showNat j := hc
  simp only [List.mem_append] at hc
  rcases hc with ((hc | hc) | hc) | hc
  · revert c; decide
  · exact (digits_word hc).1
  · revert c; decide
  · exact (digits_word hc).1

theorem mask_inj {pre : List Nat} {i j k : Nat} (h : pre ++ showNat i ++ [95] ++ showNat j = pre ++ showNat i ++ [95] ++ showNat k) : j = k :=
  showNat_inj (List.append_cancel_left h)

theorem argMask_inj {i j k : Nat} (h : argMask i j = argMask i k) : j = k := mask_inj h
theorem strMask_inj {i j k : Nat} (h : strMask i j = strMask i k) : j = k := mask_inj h
theorem tkpMask_inj {i j k : Nat} (h : tkpMask i j = tkpMask i k) : j = k := mask_inj h

theorem arg_ne_str (i j k l : Nat) : argMask i j ≠ strMask k l := by
  intro h; unfold argMask strMask at h; simp at h
theorem arg_ne_tkp (i j k l : Nat) : argMask i j ≠ tkpMask k l := by
  intro h; unfold argMask tkpMask at h; simp at h
theorem str_ne_tkp (i j k l : Nat) : strMask i j ≠ tkpMask k l := by
  intro h; unfold strMask tkpMask at h; simp at h

/-! ## The storage of values -/

theorem lookup_cons_ne {a b : List Nat} {v : List Nat} {l : List (List Nat × List Nat)} (h : a ≠ b) : ((b, v) :: l).lookup a = l.lookup a := by
  rw [List.lookup_cons]
  have : (a == b) = false := by simpa using h
  rw [this]

theorem lookup_cons_eq {a : List Nat} {v : List Nat} {l : List (List Nat × List Nat)} : ((a, v) :: l).lookup a = some v := by
  rw [List.lookup_cons, beq_self_eq_true]

theorem valuesFrom_cons (index arg : Nat) (v e : List Nat) (l : List (List Nat × List Nat)) : valuesFrom index arg ((v, e) :: l) =
    (tkpMask index arg, v) :: (argMask index arg, e) :: (strMask index arg, 34 :: quoteLoop v ++ [34]) :: valuesFrom index (arg + 1) l := rfl

theorem lookup_arg {index i : Nat} {l : List (List Nat × List Nat)} : ∀ {k : Nat}, (valuesFrom index k l).lookup (argMask index (k + i)) = l[i]?.map (·.2) := by
  induction l generalizing i with
  | nil => intro k; rfl
  | cons x l ih =>
    intro k
    obtain ⟨v, e⟩ := x
    rw [valuesFrom_cons, lookup_cons_ne (arg_ne_tkp _ _ _ _)]
    cases i with
    | zero => rw [Nat.add_zero, lookup_cons_eq]; rfl
    | succ i =>
      rw [lookup_cons_ne (fun h => by have := argMask_inj h; omega), lookup_cons_ne (arg_ne_str _ _ _ _), show k + (i + 1) = k + 1 + i by omega, ih]
      rfl

theorem lookup_str {index i : Nat} {l : List (List Nat × List Nat)} : ∀ {k : Nat},
    (valuesFrom index k l).lookup (strMask index (k + i)) = l[i]?.map fun x => 34 :: quoteLoop x.1 ++ [34] := by
  induction l generalizing i with
  | nil => intro k; rfl
  | cons x l ih =>
    intro k
    obtain ⟨v, e⟩ := x
    rw [valuesFrom_cons, lookup_cons_ne (str_ne_tkp _ _ _ _), lookup_cons_ne (arg_ne_str _ _ _ _).symm]
    cases i with
    | zero => rw [Nat.add_zero, lookup_cons_eq]; rfl
    | succ i =>
      rw [lookup_cons_ne (fun h => by have := strMask_inj h; omega), show k + (i + 1) = k + 1 + i by omega, ih]
      rfl

theorem lookup_tkp {index i : Nat} {l : List (List Nat × List Nat)} : ∀ {k : Nat},
    (valuesFrom index k l).lookup (tkpMask index (k + i)) = l[i]?.map (·.1) := by
  induction l generalizing i with
  | nil => intro k; rfl
  | cons x l ih =>
    intro k
    obtain ⟨v, e⟩ := x
    rw [valuesFrom_cons]
    cases i with
    | zero => rw [Nat.add_zero, lookup_cons_eq]; rfl
    | succ i =>
      rw [lookup_cons_ne (fun h => by have := tkpMask_inj h; omega), lookup_cons_ne (arg_ne_tkp _ _ _ _).symm, lookup_cons_ne (str_ne_tkp _ _ _ _).symm,
        show k + (i + 1) = k + 1 + i by omega, ih]
      rfl

theorem lookup_free {index : Nat} {w : List Nat} (hw : Word w) (hf : Free index w) {l : List (List Nat × List Nat)} : ∀ {k : Nat},
    (valuesFrom index k l).lookup w = none := by
  induction l with
  | nil => intro k; rfl
  | cons x l ih =>
    intro k
    obtain ⟨v, e⟩ := x
    have h : w ≠ tkpMask index k := by
      intro h
      obtain ⟨⟨c, u, rfl, hc⟩, _⟩ := hw
      have : c = 35 := by
        have := congrArg List.head? h
        simpa [tkpMask] using this
      subst this
      revert hc; decide
    rw [valuesFrom_cons, lookup_cons_ne h, lookup_cons_ne (hf k).1, lookup_cons_ne (hf k).2, ih]

/-! ## Strings -/

theorem escape_plain {c : Nat} {r : List Nat} (h : c ≠ 92) (h' : c ≠ 34) : escape (c :: r) = c :: escape r := by
  rw [escape.eq_def]
  split
  · rename_i he; exact absurd (List.cons.inj he).1 h
  · rename_i he; exact absurd (List.cons.inj he).1 h
  · rename_i he; exact absurd (List.cons.inj he).1 h
  · rename_i he; exact absurd (List.cons.inj he).1 h'
  · rename_i he; obtain ⟨rfl, rfl⟩ := List.cons.inj he; rfl
  · rename_i he; cases he

theorem quoteLoop_escape : ∀ (v : List Nat), quoteLoop v = escape v := by
  intro v
  fun_induction quoteLoop v with
  | case1 => rfl
  | case2 => rfl
  | case3 => rfl
  | case4 c h h' => rw [escape] <;> simp_all [escape]
  | case5 => simp_all [escape]
  | case6 => simp_all [escape]
  | case7 c d r h ih =>
    rw [ih]
    split
    · rename_i h'; subst h'; rfl
    · rename_i h'
      rw [escape_plain h h']; rfl

theorem skipString_spec {t b r : List Nat} {p q : Nat} (hq : q = 34 ∨ q = 39) (hb : Quoted q b) (h : t.drop p = b ++ q :: r) (h13 : 13 ∉ b) :
    skipString t q p = (.refresh (p - 1) :: strEvs p b, q, p + b.length + 1) := by
  unfold skipString
  rw [h, stringLoop_spec (by rcases hq with rfl | rfl <;> decide) hb h13]

end RuC.Subst
