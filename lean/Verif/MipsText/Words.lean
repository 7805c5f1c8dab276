import Verif.MipsText.Spec
import Verif.LlvmText.Words

/-! Helper lemmas: the words of the printed text. -/

namespace RuC.MipsText
open RuC.Mips
open Llvm (Arith Cmp)
open Locator (showNat)
open Listing (showInt showInt_chars showNat_digits)
open LlvmText (codes chars numeral numbered integer numeral_showNat numbered_self numbered_not showNat_cons integer_nat)

/-! ## Names -/

theorem classify_mn (m : Mn) : classify (codes (mnText m)) = .mn m := by cases m <;> decide +kernel

theorem classify_reg : ∀ r, r < 32 → classify (regText r) = .reg r := by decide +kernel

theorem classify_freg' : ∀ r, r < 64 → 32 ≤ r → classify (regText r) = .freg r := by decide +kernel

/-- The texts of the instructions. -/
def keys : List (List Nat) := (mnemonics.map fun p => (chars p.1, p.2)).map Prod.fst

theorem keys_head : ∀ k ∈ keys, (k.head?.any fun c => decide (97 ≤ c)) = true := by decide +kernel

theorem lookup_none {β : Type} {t : List (List Nat × β)} {x : List Nat} (h : x ∉ t.map Prod.fst) : t.lookup x = none := by
  induction t with
  | nil => rfl
  | cons p t ih =>
    simp only [List.map_cons, List.mem_cons, not_or] at h
    obtain ⟨a, b⟩ := p
    simp only [List.lookup]
    rw [show (x == a) = false by simpa using h.1]
    exact ih h.2

theorem not_mn {c : Nat} (hc : c < 97) (w : List Nat) : (mnemonics.map fun p => (chars p.1, p.2)).lookup (c :: w) = none := by
  refine lookup_none fun h => ?_
  have h1 : decide (97 ≤ c) = true := keys_head _ h
  have := of_decide_eq_true h1
  omega

theorem regs_head : ∀ k ∈ (([("$0", 0), ("$at", 1), ("$t8", 24), ("$t9", 25), ("$gp", 28), ("$sp", 29), ("$fp", 30), ("$ra", 31)] : List (String × Nat)).map
    fun p => (chars p.1, p.2)).map Prod.fst, k.head? = some 36 := by decide +kernel

theorem not_numbered {c : Nat} (hc : c ≠ 36) (w : List Nat) (p : String) (hp : (chars p).head? = some 36) : numbered p (c :: w) = none := by
  refine numbered_not ?_
  cases e : chars p with
  | nil => rw [e] at hp; cases hp
  | cons d l =>
    rw [e] at hp
    have hd : d = 36 := by simpa using hp
    subst hd
    simp only [List.isPrefixOf, Bool.and_eq_false_iff, beq_eq_false_iff_ne, ne_eq]
    exact .inl fun h => hc h.symm

theorem not_int {c : Nat} (hc : c ≠ 36) (w : List Nat) : intReg (c :: w) = none := by
  unfold intReg numberedReg
  rw [lookup_none fun h => hc (by simpa using regs_head _ h), not_numbered hc w "$v" (by decide), not_numbered hc w "$a" (by decide), not_numbered hc w "$t" (by decide),
    not_numbered hc w "$s" (by decide), not_numbered hc w "$k" (by decide)]
  rfl

theorem classify_other {c : Nat} (hc : c < 97) (hd : c ≠ 36) (w : List Nat) :
    classify (c :: w) = match integer (c :: w) with | some v => .int v | none => match labelOf (c :: w) with | some l => .lab l | none => .bad := by
  unfold classify
  rw [not_mn hc, not_int hd, not_numbered hd w "$f" (by decide)]
  rfl

theorem classify_int (v : Int) : classify (showInt v) = .int v := by
  unfold showInt
  by_cases hv : v < 0
  · rw [if_pos hv, classify_other (by decide) (by decide), show integer (45 :: showNat v.natAbs) = some v by
      simp only [integer, numeral_showNat]
      rw [Option.map_some, show -((v.natAbs : Nat) : Int) = v by omega]]
  · rw [if_neg hv]
    obtain ⟨d, ds, e, hd⟩ := showNat_cons v.natAbs
    rw [e, classify_other (by omega) (by omega), integer_nat e hd]
    simp only
    rw [show ((v.natAbs : Nat) : Int) = v by omega]

/-! ## Labels -/

theorem c_main : chars "MAIN" = [77, 65, 73, 78] := by decide
theorem c_func : chars "FUNC" = [70, 85, 78, 67] := by decide
theorem c_next : chars "NEXT" = [78, 69, 88, 84] := by decide
theorem c_fend : chars "FUNCEND" = [70, 85, 78, 67, 69, 78, 68] := by decide
theorem c_strg : chars "STRING" = [83, 84, 82, 73, 78, 71] := by decide
theorem c_else : chars "ELSE" = [69, 76, 83, 69] := by decide
theorem c_end : chars "END" = [69, 78, 68] := by decide
theorem c_beg : chars "BEGIN_CYCLE" = [66, 69, 71, 73, 78, 95, 67, 89, 67, 76, 69] := by decide
theorem c_case : chars "CASE" = [67, 65, 83, 69] := by decide

theorem not_numeral {c : Nat} (hc : 57 < c) (w : List Nat) : numeral (c :: w) = none := by
  unfold numeral
  rw [if_neg]
  intro h
  have := h.2 c (by simp)
  omega

theorem not_integer {c : Nat} (hc : 57 < c) (w : List Nat) : integer (c :: w) = none := by
  unfold integer
  split
  · rename_i e; have := (List.cons.inj e).1; omega
  · rw [not_numeral hc]; rfl

theorem label_self (k : LabelKind) (n : Nat) : labelOf (codes (kindText k) ++ showNat n) = some ⟨k, n⟩ := by
  have hs := numbered_self (kindText k) n
  obtain ⟨d, ds, e, hd⟩ := showNat_cons n
  have h1 : codes (kindText k) ++ showNat n ≠ chars "MAIN" := by
    rw [e]
    cases k <;> simp only [kindText] <;> (intro h; have := congrArg List.length h; have := congrArg List.head? h; revert this; revert h; simp [show ∀ s, codes s = chars s from fun _ => rfl, c_main, c_func, c_next, c_fend, c_strg, c_else, c_end, c_beg, c_case])
  unfold labelOf
  rw [if_neg h1]
  cases k <;> simp only [kindText] at hs ⊢ <;> simp only [List.findSome?, hs, Option.map_some] <;>
    simp [show ∀ s, codes s = chars s from fun _ => rfl, numbered, c_main, c_func, c_next, c_fend, c_strg, c_else, c_end, c_beg, c_case, not_numeral, numeral_showNat]

theorem label_main : labelOf (codes "MAIN") = some ⟨.main, 0⟩ := by decide +kernel

theorem label_head (l : Label) : ∃ c w, labelText l = c :: w ∧ 57 < c ∧ c < 97 := by
  unfold labelText
  cases l.kind <;> exact ⟨_, _, rfl, by decide, by decide⟩

theorem classify_label (l : Label) : classify (labelText l) = .lab l := by
  have h : labelOf (labelText l) = some l := by
    unfold labelText
    by_cases hm : l.kind = .main ∧ l.num = 0
    · obtain ⟨k, n⟩ := l
      obtain ⟨rfl, rfl⟩ := hm
      exact label_main
    · rw [if_neg hm, label_self]
  obtain ⟨c, w, e, h1, h2⟩ := label_head l
  rw [e] at h ⊢
  rw [classify_other h2 (by omega), not_integer h1, h]

/-! ## Words and lines -/

/-- A word: it is not cut, and no comment or end of the line is in it. -/
def Word (w : List Nat) : Prop := w ≠ [] ∧ ∀ c ∈ w, separator c = none ∧ c ≠ 35 ∧ c ≠ 10

instance (w : List Nat) : Decidable (Word w) := by unfold Word; infer_instance

theorem word_mn (m : Mn) : Word (codes (mnText m)) := by cases m <;> decide +kernel

theorem word_reg : ∀ {r}, r < 64 → Word (regText r) := by
  have : ∀ r, r < 64 → Word (regText r) := by decide +kernel
  exact fun {r} h => this r h

theorem digit_ok {c : Nat} (h : c = 45 ∨ (48 ≤ c ∧ c ≤ 57)) : separator c = none ∧ c ≠ 35 ∧ c ≠ 10 := by
  refine ⟨?_, by omega, by omega⟩
  unfold separator
  repeat rw [if_neg (by omega)]

theorem word_int (v : Int) : Word (showInt v) := by
  refine ⟨?_, fun c hc => digit_ok (showInt_chars v c hc)⟩
  unfold showInt
  split
  · simp
  · exact (showNat_digits _).1

theorem kind_ok (k : LabelKind) : Word (codes (kindText k)) := by cases k <;> decide +kernel

theorem word_label (l : Label) : Word (labelText l) := by
  refine ⟨?_, fun c hc => ?_⟩
  · obtain ⟨c, w, e, -⟩ := label_head l
    rw [e]; simp
  · unfold labelText at hc
    rcases List.mem_append.1 hc with hc | hc
    · exact (kind_ok _).2 c hc
    · split at hc
      · cases hc
      · exact digit_ok (.inr ((showNat_digits _).2 c hc))

theorem cut_append {r : List Nat} : ∀ (v w : List Nat), (∀ c ∈ v, separator c = none ∧ c ≠ 35 ∧ c ≠ 10) → cut w (v ++ r) = cut (w ++ v) r := by
  intro v
  induction v with
  | nil => intro w _; simp
  | cons x v ih =>
    intro w h
    simp only [List.cons_append, cut, h x (by simp), if_false]
    rw [ih _ fun c hc => h c (by simp [hc])]
    simp

theorem cut_end {w : List Nat} (h : Word w) : cut [] w = [classify w] := by
  have := cut_append (r := []) w [] h.2
  rw [List.append_nil] at this
  rw [this]
  simp only [List.nil_append, cut, flush, h.1, if_false]

theorem cut_sep {w : List Nat} (h : Word w) {c : Nat} {t : List Tok} (hc : separator c = some t) (h35 : c ≠ 35) (r : List Nat) :
    cut [] (w ++ c :: r) = classify w :: (t ++ cut [] r) := by
  rw [cut_append w [] h.2]
  simp only [List.nil_append, cut, hc, h35, flush, h.1, if_false]
  simp

theorem cut_blank (r : List Nat) : cut [] (32 :: r) = cut [] r := rfl
theorem cut_tab (r : List Nat) : cut [] (9 :: r) = cut [] r := rfl

theorem cut_line (m : Mn) (a : List Nat) : cut [] (line m a) = .mn m :: cut [] a := by
  unfold line
  rw [cut_tab, cut_sep (word_mn m) (c := 32) (t := []) rfl (by decide), classify_mn]
  rfl

theorem cut_pair {a : List Nat} (h : Word a) (b : List Nat) : cut [] (pair a b) = classify a :: .comma :: cut [] b := by
  unfold pair
  rw [cut_sep h (c := 44) (t := [.comma]) rfl (by decide), cut_blank]
  rfl

theorem cut_place (v : Int) {b : Nat} (h : b < 32) : cut [] (place v b) = [.int v, .lpar, .reg b, .rpar] := by
  unfold place
  rw [cut_sep (word_int v) (c := 40) (t := [.lpar]) rfl (by decide), classify_int, cut_sep (word_reg (by omega)) (c := 41) (t := [.rpar]) rfl (by decide), classify_reg b h]
  rfl

theorem cut_reg {r : Nat} (h : r < 32) : cut [] (regText r) = [.reg r] := by rw [cut_end (word_reg (by omega)), classify_reg r h]
theorem cut_int (v : Int) : cut [] (showInt v) = [.int v] := by rw [cut_end (word_int v), classify_int]
theorem cut_label (l : Label) : cut [] (labelText l) = [.lab l] := by rw [cut_end (word_label l), classify_label]
theorem cut_reg_pair {r : Nat} (h : r < 32) (b : List Nat) : cut [] (pair (regText r) b) = .reg r :: .comma :: cut [] b := by
  rw [cut_pair (word_reg (by omega)), classify_reg r h]

/-! ## No end of the line in a line -/

/-- No end of the line. -/
def Clean (t : List Nat) : Prop := 10 ∉ t

theorem Word.clean {w : List Nat} (h : Word w) : Clean w := fun hm => (h.2 10 hm).2.2 rfl
theorem clean_pair {a b : List Nat} (ha : Clean a) (hb : Clean b) : Clean (pair a b) := by
  unfold Clean pair at *
  simp [ha, hb]
theorem clean_line (m : Mn) {a : List Nat} (ha : Clean a) : Clean (line m a) := by
  have := (word_mn m).clean
  unfold Clean line at *
  simp [ha, this]
theorem clean_place (v : Int) {b : Nat} (h : b < 32) : Clean (place v b) := by
  have h1 := (word_int v).clean
  have h2 := (word_reg (r := b) (by omega)).clean
  unfold Clean place at *
  simp [h1, h2]
theorem clean_reg {r : Nat} (h : r < 64) : Clean (regText r) := (word_reg h).clean

theorem split_line {t : List Nat} (h : Clean t) (r : List Nat) : ∀ l, splitLines l (t ++ 10 :: r) = (l ++ t) :: splitLines [] r := by
  induction t with
  | nil => intro l; simp [splitLines]
  | cons c t ih =>
    intro l
    have hc : c ≠ 10 := fun e => h (by rw [e]; simp)
    simp only [List.cons_append, splitLines, hc, if_false]
    rw [ih fun hm => h (by simp [hm])]
    simp

/-! ## Instructions -/

theorem read_instr (i : Instr) (h : Fit i) : readLine (cut [] (lineText i)) = some [i] ∧ Clean (lineText i) := by
  cases i with
  | li d v =>
    cases d <;> cases v <;> simp only [Fit] at h
    simp only [lineText, opdText]
    exact ⟨by rw [cut_line, cut_reg_pair h, cut_int]; rfl, clean_line _ (clean_pair (clean_reg (by omega)) (word_int _).clean)⟩
  | move d s =>
    cases s <;> simp only [Fit] at h
    simp only [lineText, opdText]
    exact ⟨by rw [cut_line, cut_reg_pair h.1, cut_reg h.2]; rfl, clean_line _ (clean_pair (clean_reg (by omega)) (clean_reg (by omega)))⟩
  | lw d off b =>
    simp only [Fit] at h
    simp only [lineText]
    refine ⟨?_, clean_line _ (clean_pair (clean_reg h.1) (clean_place _ h.2))⟩
    by_cases hd : 32 ≤ d
    · rw [if_pos hd, cut_line, cut_pair (word_reg h.1), classify_freg' d h.1 hd, cut_place _ h.2]; rfl
    · rw [if_neg hd, cut_line, cut_reg_pair (by omega), cut_place _ h.2]; rfl
  | sw s off b =>
    cases s <;> simp only [Fit] at h
    rename_i d
    simp only [lineText, opdText]
    refine ⟨?_, clean_line _ (clean_pair (clean_reg h.1) (clean_place _ h.2))⟩
    by_cases hd : 32 ≤ d
    · rw [if_pos hd, cut_line, cut_pair (word_reg h.1), classify_freg' d h.1 hd, cut_place _ h.2]; rfl
    · rw [if_neg hd, cut_line, cut_reg_pair (by omega), cut_place _ h.2]; rfl
  | op imm o d a b =>
    cases imm <;> cases d <;> cases a <;> cases b <;> simp only [Fit] at h
    · simp only [lineText, opdText]
      refine ⟨?_, clean_line _ (clean_pair (clean_reg (by omega)) (clean_pair (clean_reg (by omega)) (clean_reg (by omega))))⟩
      rw [cut_line, cut_reg_pair h.1, cut_reg_pair h.2.1, cut_reg h.2.2]
      cases o <;> rfl
    · simp only [lineText, opdText]
      refine ⟨?_, clean_line _ (clean_pair (clean_reg (by omega)) (clean_pair (clean_reg (by omega)) (word_int _).clean))⟩
      rw [cut_line, cut_reg_pair h.1, cut_reg_pair h.2.1, cut_int]
      cases o <;> first | rfl | exact absurd h.2.2 (by decide)
  | sltiu d a =>
    cases d <;> cases a <;> simp only [Fit] at h
    simp only [lineText, opdText]
    exact ⟨by rw [cut_line, cut_reg_pair h.1, cut_reg_pair h.2, cut_int]; rfl,
      clean_line _ (clean_pair (clean_reg (by omega)) (clean_pair (clean_reg (by omega)) (word_int _).clean))⟩
  | abs d a =>
    cases d <;> cases a <;> simp only [Fit] at h
    simp only [lineText, opdText]
    exact ⟨by rw [cut_line, cut_reg_pair h.1, cut_reg h.2]; rfl, clean_line _ (clean_pair (clean_reg (by omega)) (clean_reg (by omega)))⟩
  | br c r l =>
    simp only [Fit] at h
    simp only [lineText]
    refine ⟨?_, clean_line _ (clean_pair (clean_reg (by omega)) ?_)⟩
    · rw [cut_line, cut_reg_pair h]
      by_cases hc : c = .eq ∨ c = .ne
      · rw [if_pos hc, cut_reg_pair (by decide), cut_label]
        rcases hc with rfl | rfl <;> rfl
      · rw [if_neg hc, cut_label]
        cases c <;> first | rfl | exact absurd (by simp) hc
    · split
      · exact clean_pair (clean_reg (by decide)) (word_label l).clean
      · exact (word_label l).clean
  | j l => exact ⟨by simp only [lineText]; rw [cut_line, cut_label]; rfl, clean_line _ (word_label l).clean⟩
  | jal l => exact ⟨by simp only [lineText]; rw [cut_line, cut_label]; rfl, clean_line _ (word_label l).clean⟩
  | jr r =>
    simp only [Fit] at h
    exact ⟨by simp only [lineText]; rw [cut_line, cut_reg h]; rfl, clean_line _ (clean_reg (by omega))⟩
  | label l =>
    simp only [lineText]
    refine ⟨?_, ?_⟩
    · rw [cut_sep (word_label l) (c := 58) (t := [.colon]) rfl (by decide), classify_label]; rfl
    · have := (word_label l).clean
      unfold Clean at *
      simp [this]

/-- The parts of a text: the instructions are fit, and the comments end with their lines. -/
def PartOk : Part → Prop
  | .instr i => Fit i
  | .blank => True
  | .note c => 10 ∉ c

theorem read_part (p : Part) (h : PartOk p) : readLine (cut [] p.line) = some (instrs [p]) ∧ Clean p.line := by
  cases p with
  | instr i => exact read_instr i h
  | blank => exact ⟨rfl, by simp [Clean, Part.line]⟩
  | note c => exact ⟨rfl, by simpa [Clean, Part.line, PartOk] using h⟩

theorem read_parts : ∀ (l : List Part), (∀ p ∈ l, PartOk p) → read (print l) = some (instrs l)
  | [], _ => rfl
  | p :: l, h => by
    have h1 := read_part p (h p (by simp))
    have h2 := read_parts l fun q hq => h q (by simp [hq])
    unfold read at *
    have e : print (p :: l) = p.line ++ 10 :: print l := by simp [print]
    rw [e, split_line h1.2]
    simp only [List.nil_append, readLines, h1.1, h2, Option.bind_some, Option.map_some]
    cases p <;> rfl

end RuC.MipsText
