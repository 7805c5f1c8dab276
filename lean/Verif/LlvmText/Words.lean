import Verif.LlvmText.Model
import Verif.LlvmText.Spec
import Verif.Listing.Text
import Verif.Names.Spec

/-! Helper lemmas: the words of the printed text. -/

namespace RuC.LlvmText
open RuC RuC.Llvm RuC.Locator RuC.Listing

/-! ## Cutting -/

theorem cut_sep {c : Nat} {t : List Tok} (h : separator c = some t) (r : List Nat) :
    ∀ (a w : List Nat), cut w (a ++ c :: r) = cut w (a ++ [c]) ++ cut [] r := by
  intro a
  induction a with
  | nil =>
    intro w
    simp only [List.nil_append, cut, h]
    simp [flush]
  | cons x a ih =>
    intro w
    simp only [List.cons_append, cut]
    cases separator x with
    | some u => simp only [ih, List.append_assoc]
    | none => simp only [ih]

theorem cut_word {r : List Nat} : ∀ (v w : List Nat), (∀ c ∈ v, separator c = none) → cut w (v ++ r) = cut (w ++ v) r := by
  intro v
  induction v with
  | nil => intro w _; simp
  | cons x v ih =>
    intro w h
    simp only [List.cons_append, cut, h x (by simp)]
    rw [ih _ fun c hc => h c (by simp [hc])]
    simp

/-- Ends with a blank or punctuation. -/
def ends (s : List Nat) : Bool :=
  match s.getLast? with
  | some c => (separator c).isSome
  | none => false

/-- Begins with a blank or punctuation. -/
def begins (s : List Nat) : Bool :=
  match s with
  | c :: _ => (separator c).isSome
  | [] => false

theorem cut_lit {a : List Nat} (h : ends a = true) (r : List Nat) : cut [] (a ++ r) = words a ++ cut [] r := by
  unfold ends at h
  cases e : a.getLast? with
  | none => rw [e] at h; exact absurd h (by decide)
  | some c =>
    rw [e] at h
    obtain ⟨t, ht⟩ := Option.isSome_iff_exists.1 h
    obtain ⟨b, rfl⟩ := List.getLast?_eq_some_iff.1 e
    have := cut_sep ht r b []
    rw [List.append_assoc]
    exact this

theorem cut_wd {w r : List Nat} (h : ∀ c ∈ w, separator c = none) (hw : w ≠ []) (hr : begins r = true) :
    cut [] (w ++ r) = classify w :: cut [] r := by
  rw [cut_word w [] h]
  cases r with
  | nil => exact absurd hr (by decide)
  | cons c r =>
    obtain ⟨t, ht⟩ := Option.isSome_iff_exists.1 (show (separator c).isSome = true from hr)
    simp only [List.nil_append, cut, ht, flush, hw, if_true, if_false]
    simp

/-- A word. -/
def Word (w : List Nat) : Prop := w ≠ [] ∧ ∀ c ∈ w, separator c = none

/-- Pieces that are cut where they meet. -/
def Ok : List Seg → Prop
  | [] => True
  | .lit s :: l => ends (codes s) = true ∧ Ok l
  | .wd w :: .lit s :: l => Word w ∧ begins (codes s) = true ∧ Ok (.lit s :: l)
  | .wd _ :: _ => False

/-- The words of pieces. -/
def toks : List Seg → List Tok
  | [] => []
  | .lit s :: l => words (codes s) ++ toks l
  | .wd w :: l => classify w :: toks l

theorem begins_append {a r : List Nat} (h : begins a = true) : begins (a ++ r) = true := by
  cases a with
  | nil => exact absurd h (by decide)
  | cons c a => exact h

theorem text_cons (x : Seg) (l : List Seg) : text (x :: l) = x.text ++ text l := by
  simp [text]

theorem words_text : ∀ (l : List Seg) (r : List Nat), Ok l → cut [] (text l ++ r) = toks l ++ cut [] r
  | [], _, _ => by simp [text, toks]
  | .lit s :: l, r, h => by
    rw [text_cons, List.append_assoc]
    simp only [Seg.text, toks]
    rw [cut_lit h.1, words_text l r h.2, List.append_assoc]
  | .wd w :: .lit s :: l, r, h => by
    rw [text_cons, List.append_assoc]
    simp only [Seg.text]
    rw [cut_wd h.1.2 h.1.1, words_text (.lit s :: l) r h.2.2]
    · rfl
    · rw [text_cons, List.append_assoc]
      exact begins_append h.2.1
  | .wd _ :: .wd _ :: _, _, h => h.elim
  | [.wd _], _, h => h.elim

theorem ok_append : ∀ {a b : List Seg}, Ok a → Ok b → Ok (a ++ b)
  | [], _, _, hb => hb
  | .lit _ :: _, _, ha, hb => ⟨ha.1, ok_append ha.2 hb⟩
  | .wd _ :: .lit s :: l, _, ha, hb => ⟨ha.1, ha.2.1, ok_append (a := .lit s :: l) ha.2.2 hb⟩
  | .wd _ :: .wd _ :: _, _, ha, _ => ha.elim
  | [.wd _], _, ha, _ => ha.elim

theorem toks_append : ∀ (a b : List Seg), toks (a ++ b) = toks a ++ toks b
  | [], _ => rfl
  | .lit s :: l, b => by
    simp only [List.cons_append, toks, toks_append l b, List.append_assoc]
  | .wd w :: l, b => by
    simp only [List.cons_append, toks, toks_append l b]

/-! ## Numbers -/

theorem numeral_showNat (n : Nat) : numeral (showNat n) = some n := by
  have h := showNat_digits n
  unfold numeral
  rw [if_pos ⟨h.1, h.2⟩]
  congr 1
  rw [showNat_eq]
  exact decimal_digitsOf n n (Nat.le_refl n)

theorem showNat_cons (n : Nat) : ∃ d ds, showNat n = d :: ds ∧ (48 ≤ d ∧ d ≤ 57) := by
  have h := showNat_digits n
  cases e : showNat n with
  | nil => exact absurd e h.1
  | cons d ds => exact ⟨d, ds, rfl, h.2 d (by rw [e]; simp)⟩

theorem numbered_self (p : String) (n : Nat) : numbered p (codes p ++ showNat n) = some n := by
  unfold numbered
  have e : chars p = codes p := rfl
  rw [e, if_pos, List.drop_left]
  · exact numeral_showNat n
  · rw [List.isPrefixOf_iff_prefix]
    exact List.prefix_append _ _

theorem numbered_not {p : String} {w : List Nat} (h : (chars p).isPrefixOf w = false) : numbered p w = none := by
  unfold numbered
  rw [h]
  rfl

theorem digit_sep : ∀ c, 48 ≤ c ∧ c ≤ 57 → separator c = none := by
  intro c h
  unfold separator
  repeat rw [if_neg (by omega)]

theorem showNat_word (n : Nat) : ∀ c ∈ showNat n, separator c = none := fun c hc => digit_sep c ((showNat_digits n).2 c hc)

/-! ## Keywords -/

theorem lookup_none {t : List (List Nat × Kw)} {x : List Nat} (h : x ∉ t.map Prod.fst) : t.lookup x = none := by
  induction t with
  | nil => rfl
  | cons p t ih =>
    simp only [List.map_cons, List.mem_cons, not_or] at h
    obtain ⟨a, b⟩ := p
    simp only [List.lookup]
    rw [show (x == a) = false by simpa using h.1]
    exact ih h.2

/-- The texts of the keywords. -/
def keys : List (List Nat) := (keywords.map fun p => (chars p.1, p.2)).map Prod.fst

/-- What the keywords look like. -/
def KeyShape (k : List Nat) : Prop :=
  (k.head? = some 64 → k.tail.head? = some 108 ∧ 46 ∈ k.tail) ∧ k.head? ≠ some 37 ∧ k.head? ≠ some 45 ∧
    (k.head?.any fun c => decide (48 ≤ c ∧ c ≤ 57)) = false ∧ k.getLast? ≠ some 58

instance (k : List Nat) : Decidable (KeyShape k) := by unfold KeyShape; infer_instance

theorem keys_shape : ∀ k ∈ keys, KeyShape k := by decide +kernel

theorem not_key {w : List Nat} (h : ¬ KeyShape w) : (keywords.map fun p => (chars p.1, p.2)).lookup w = none :=
  lookup_none fun hm => h (keys_shape w hm)

theorem percent_key (r : List Nat) : (keywords.map fun p => (chars p.1, p.2)).lookup (37 :: r) = none :=
  not_key fun h => h.2.1 rfl

theorem digit_key {c : Nat} (hc : 48 ≤ c ∧ c ≤ 57) (r : List Nat) :
    (keywords.map fun p => (chars p.1, p.2)).lookup (c :: r) = none := by
  refine not_key fun h => ?_
  have h1 : decide (48 ≤ c ∧ c ≤ 57) = false := h.2.2.2.1
  exact of_decide_eq_false h1 hc

theorem minus_key (r : List Nat) : (keywords.map fun p => (chars p.1, p.2)).lookup (45 :: r) = none :=
  not_key fun h => h.2.2.1 rfl

theorem c_percent : codes "%." = [37, 46] := by decide
theorem c_pvar : codes "%var." = [37, 118, 97, 114, 46] := by decide
theorem c_gvar : codes "@var." = [64, 118, 97, 114, 46] := by decide
theorem c_pdyn : codes "%dyn." = [37, 100, 121, 110, 46] := by decide
theorem c_plab : codes "%label" = [37, 108, 97, 98, 101, 108] := by decide
theorem c_p : codes "%" = [37] := by decide
theorem c_str : codes "@.str" = [64, 46, 115, 116, 114] := by decide
theorem c_label : codes "label" = [108, 97, 98, 101, 108] := by decide
theorem c_at : codes "@" = [64] := by decide
theorem c_colon : codes ":" = [58] := by decide

theorem classify_reg (n : Nat) : classify (codes "%." ++ showNat n) = .reg n := by
  unfold classify
  rw [numbered_self, show codes "%." ++ showNat n = 37 :: (46 :: showNat n) by rw [c_percent]; rfl, percent_key]
  rfl

theorem classify_var (n : Nat) : classify (codes "%var." ++ showNat n) = .var n := by
  have h1 : numbered "%." (codes "%var." ++ showNat n) = none :=
    numbered_not (by rw [c_pvar, show chars "%." = [37, 46] from c_percent]; rfl)
  unfold classify
  rw [numbered_self, h1, c_pvar, List.cons_append, percent_key]
  rfl

theorem classify_glob (n : Nat) : classify (codes "@var." ++ showNat n) = .glob n := by
  have h1 : numbered "%." (codes "@var." ++ showNat n) = none :=
    numbered_not (by rw [c_gvar, show chars "%." = [37, 46] from c_percent]; rfl)
  have h2 : numbered "%var." (codes "@var." ++ showNat n) = none :=
    numbered_not (by rw [c_gvar, show chars "%var." = _ from c_pvar]; rfl)
  have h3 : (keywords.map fun p => (chars p.1, p.2)).lookup (codes "@var." ++ showNat n) = none := by
    rw [c_gvar]
    exact not_key fun h => absurd (h.1 rfl).1 (by simp)
  unfold classify
  rw [numbered_self, h1, h2, h3]
  rfl

theorem classify_dyn (n : Nat) : classify (codes "%dyn." ++ showNat n) = .dyn n := by
  have h1 : numbered "%." (codes "%dyn." ++ showNat n) = none :=
    numbered_not (by rw [c_pdyn, show chars "%." = [37, 46] from c_percent]; rfl)
  have h2 : numbered "%var." (codes "%dyn." ++ showNat n) = none :=
    numbered_not (by rw [c_pdyn, show chars "%var." = _ from c_pvar]; rfl)
  have h3 : numbered "@var." (codes "%dyn." ++ showNat n) = none :=
    numbered_not (by rw [c_pdyn, show chars "@var." = _ from c_gvar]; rfl)
  unfold classify
  rw [numbered_self, h1, h2, h3, c_pdyn, List.cons_append, percent_key]
  rfl

theorem classify_lab (n : Nat) : classify (codes "%label" ++ showNat n) = .lab n := by
  have h1 : numbered "%." (codes "%label" ++ showNat n) = none :=
    numbered_not (by rw [c_plab, show chars "%." = [37, 46] from c_percent]; rfl)
  have h2 : numbered "%var." (codes "%label" ++ showNat n) = none :=
    numbered_not (by rw [c_plab, show chars "%var." = _ from c_pvar]; rfl)
  have h3 : numbered "@var." (codes "%label" ++ showNat n) = none :=
    numbered_not (by rw [c_plab, show chars "@var." = _ from c_gvar]; rfl)
  have h4 : numbered "%dyn." (codes "%label" ++ showNat n) = none :=
    numbered_not (by rw [c_plab, show chars "%dyn." = _ from c_pdyn]; rfl)
  unfold classify
  rw [numbered_self, h1, h2, h3, h4, c_plab, List.cons_append, percent_key]
  rfl

/-- A word whose second character is a digit has no prefix with another second character. -/
theorem second {a b d x : Nat} {p ds : List Nat} (h : b ≠ d) : (a :: b :: p).isPrefixOf (x :: d :: ds) = false := by
  simp [List.isPrefixOf, h]

theorem first {a x : Nat} {p ds : List Nat} (h : a ≠ x) : (a :: p).isPrefixOf (x :: ds) = false := by
  simp [List.isPrefixOf, h]

theorem classify_arg (n : Nat) : classify (codes "%" ++ showNat n) = .arg n := by
  obtain ⟨d, ds, e, hd⟩ := showNat_cons n
  have e' : codes "%" ++ showNat n = 37 :: d :: ds := by rw [c_p, e]; rfl
  have h1 : numbered "%." (37 :: d :: ds) = none :=
    numbered_not (by rw [show chars "%." = [37, 46] from c_percent]; exact second (by omega))
  have h2 : numbered "%var." (37 :: d :: ds) = none :=
    numbered_not (by rw [show chars "%var." = _ from c_pvar]; exact second (by omega))
  have h3 : numbered "@var." (37 :: d :: ds) = none :=
    numbered_not (by rw [show chars "@var." = _ from c_gvar]; exact first (by omega))
  have h4 : numbered "%dyn." (37 :: d :: ds) = none :=
    numbered_not (by rw [show chars "%dyn." = _ from c_pdyn]; exact second (by omega))
  have h5 : numbered "%label" (37 :: d :: ds) = none :=
    numbered_not (by rw [show chars "%label" = _ from c_plab]; exact second (by omega))
  have h6 := numbered_self "%" n
  rw [e'] at h6 ⊢
  unfold classify
  rw [h6, h1, h2, h3, h4, h5, percent_key]
  rfl

theorem classify_str (n : Nat) : classify (codes "@.str" ++ showNat n) = .str n := by
  have h1 : numbered "%." (codes "@.str" ++ showNat n) = none :=
    numbered_not (by rw [c_str, show chars "%." = [37, 46] from c_percent]; rfl)
  have h2 : numbered "%var." (codes "@.str" ++ showNat n) = none :=
    numbered_not (by rw [c_str, show chars "%var." = _ from c_pvar]; rfl)
  have h3 : numbered "@var." (codes "@.str" ++ showNat n) = none :=
    numbered_not (by rw [c_str, show chars "@var." = _ from c_gvar]; rfl)
  have h4 : numbered "%dyn." (codes "@.str" ++ showNat n) = none :=
    numbered_not (by rw [c_str, show chars "%dyn." = _ from c_pdyn]; rfl)
  have h5 : numbered "%label" (codes "@.str" ++ showNat n) = none :=
    numbered_not (by rw [c_str, show chars "%label" = _ from c_plab]; rfl)
  have h6 : numbered "%" (codes "@.str" ++ showNat n) = none :=
    numbered_not (by rw [c_str, show chars "%" = _ from c_p]; rfl)
  have h7 : (keywords.map fun p => (chars p.1, p.2)).lookup (codes "@.str" ++ showNat n) = none := by
    rw [c_str]
    exact not_key fun h => absurd (h.1 rfl).1 (by simp)
  unfold classify
  rw [numbered_self, h1, h2, h3, h4, h5, h6, h7]
  rfl

/-- A word that does not begin with `%` or `@` is a keyword, a label, a number. -/
theorem classify_other {c : Nat} {w : List Nat} (h1 : c ≠ 37) (h2 : c ≠ 64)
    (hk : (keywords.map fun p => (chars p.1, p.2)).lookup (c :: w) = none) :
    classify (c :: w) = firstOf [(labelled (c :: w)).map .labDef, (integer (c :: w)).map .int,
      if (c :: w).head? = some 64 then some (.fn (c :: w).tail) else none] := by
  have n1 : numbered "%." (c :: w) = none :=
    numbered_not (by rw [show chars "%." = [37, 46] from c_percent]; exact first (Ne.symm h1))
  have n2 : numbered "%var." (c :: w) = none :=
    numbered_not (by rw [show chars "%var." = _ from c_pvar]; exact first (Ne.symm h1))
  have n3 : numbered "@var." (c :: w) = none :=
    numbered_not (by rw [show chars "@var." = _ from c_gvar]; exact first (Ne.symm h2))
  have n4 : numbered "%dyn." (c :: w) = none :=
    numbered_not (by rw [show chars "%dyn." = _ from c_pdyn]; exact first (Ne.symm h1))
  have n5 : numbered "%label" (c :: w) = none :=
    numbered_not (by rw [show chars "%label" = _ from c_plab]; exact first (Ne.symm h1))
  have n6 : numbered "%" (c :: w) = none :=
    numbered_not (by rw [show chars "%" = _ from c_p]; exact first (Ne.symm h1))
  have n7 : numbered "@.str" (c :: w) = none :=
    numbered_not (by rw [show chars "@.str" = _ from c_str]; exact first (Ne.symm h2))
  unfold classify
  rw [n1, n2, n3, n4, n5, n6, n7, hk]
  rfl

theorem last_digit {w : List Nat} (h : ∀ c ∈ w, c ≠ 58) : labelled w = none := by
  unfold labelled
  rw [if_neg]
  intro e
  exact h 58 (List.mem_of_getLast? e) rfl

theorem classify_labDef (n : Nat) : classify (codes "label" ++ showNat n ++ codes ":") = .labDef n := by
  have e : codes "label" ++ showNat n ++ codes ":" = 108 :: ([97, 98, 101, 108] ++ showNat n ++ [58]) := by
    rw [c_label, c_colon]; rfl
  have hl : labelled (codes "label" ++ showNat n ++ codes ":") = some n := by
    unfold labelled
    rw [c_colon, if_pos (by simp), List.dropLast_concat]
    exact numbered_self "label" n
  rw [e] at hl ⊢
  rw [classify_other (by decide) (by decide), hl]
  · rfl
  · refine not_key fun h => h.2.2.2.2 ?_
    rw [← List.cons_append]
    exact List.getLast?_concat

theorem integer_nat {n : Nat} {d : Nat} {ds : List Nat} (e : showNat n = d :: ds) (hd : 48 ≤ d ∧ d ≤ 57) : integer (d :: ds) = some (n : Int) := by
  have h := numeral_showNat n
  rw [e] at h
  unfold integer
  split
  · rename_i e; have := (List.cons.inj e).1; omega
  · rw [h]; rfl

theorem classify_nat (n : Nat) : classify (showNat n) = .int n := by
  obtain ⟨d, ds, e, hd⟩ := showNat_cons n
  have hi := integer_nat e hd
  have hc : ∀ c ∈ d :: ds, c ≠ 58 := by
    intro c hc
    have := (showNat_digits n).2 c (by rw [e]; exact hc)
    omega
  rw [e, classify_other (by omega) (by omega) (digit_key hd ds), hi, last_digit hc]
  rfl

theorem classify_int (v : Int) : classify (showInt v) = .int v := by
  unfold showInt
  by_cases hv : v < 0
  · rw [if_pos hv, classify_other (by decide) (by decide) (minus_key _), last_digit]
    · rw [show integer (45 :: showNat v.natAbs) = some v by
        simp only [integer, numeral_showNat]
        rw [Option.map_some, show -((v.natAbs : Nat) : Int) = v by omega]]
      rfl
    · intro c hc
      rcases List.mem_cons.1 hc with rfl | hc
      · decide
      · have := (showNat_digits _).2 c hc
        omega
  · rw [if_neg hv, classify_nat]
    congr 1
    omega

theorem classify_fn {name : List Nat} (h : NameOk name) : classify (codes "@" ++ name) = .fn name := by
  have hp : ∀ c ∈ name, c ≠ 46 ∧ c ≠ 58 := by
    intro c hc
    have := h.2 c hc
    unfold Names.Plain Names.Latin Names.Digit at this
    omega
  have dot : ∀ q : List Nat, 46 ∈ q → (64 :: q).isPrefixOf (64 :: name) = false := by
    intro q hq
    apply Bool.eq_false_iff.2
    intro hpre
    obtain ⟨t, ht⟩ := List.isPrefixOf_iff_prefix.1 hpre
    have := (List.cons.inj ht).2
    exact (hp 46 (by rw [← this]; simp [hq])).1 rfl
  have n1 : numbered "%." (64 :: name) = none :=
    numbered_not (by rw [show chars "%." = [37, 46] from c_percent]; exact first (by decide))
  have n2 : numbered "%var." (64 :: name) = none :=
    numbered_not (by rw [show chars "%var." = _ from c_pvar]; exact first (by decide))
  have n3 : numbered "@var." (64 :: name) = none :=
    numbered_not (by rw [show chars "@var." = _ from c_gvar]; exact dot _ (by decide))
  have n4 : numbered "%dyn." (64 :: name) = none :=
    numbered_not (by rw [show chars "%dyn." = _ from c_pdyn]; exact first (by decide))
  have n5 : numbered "%label" (64 :: name) = none :=
    numbered_not (by rw [show chars "%label" = _ from c_plab]; exact first (by decide))
  have n6 : numbered "%" (64 :: name) = none :=
    numbered_not (by rw [show chars "%" = _ from c_p]; exact first (by decide))
  have n7 : numbered "@.str" (64 :: name) = none :=
    numbered_not (by rw [show chars "@.str" = _ from c_str]; exact dot _ (by decide))
  have n8 : labelled (64 :: name) = none := by
    apply last_digit
    intro c hc
    rcases List.mem_cons.1 hc with rfl | hc
    · decide
    · exact (hp c hc).2
  have n9 : integer (64 :: name) = none := by
    unfold integer
    split
    · rename_i e; exact absurd (List.cons.inj e).1 (by decide)
    · unfold numeral
      rw [if_neg]
      · rfl
      · rintro ⟨_, h⟩
        have := h 64 (by simp)
        omega
  have n0 : (keywords.map fun p => (chars p.1, p.2)).lookup (64 :: name) = none :=
    not_key fun h => (hp 46 (h.1 rfl).2).1 rfl
  rw [c_at]
  unfold classify
  simp only [List.cons_append, List.nil_append]
  rw [n1, n2, n3, n4, n5, n6, n7, n8, n9, n0]
  rfl

theorem classify_true : classify (codes "true") = .kw .true := by decide +kernel
theorem classify_false : classify (codes "false") = .kw .false := by decide +kernel

end RuC.LlvmText
