import Verif.Builder.Lemmas

/-! The values computed by the folding of literals. -/

namespace RuC.Builder

open RuC RuC.Types RuC.Expr RuC.Builder.Spec

theorem pow63 : (2 : Int) ^ 63 = 9223372036854775808 := by decide

theorem fits_iff (v : Int) : Fits v ↔ (-9223372036854775808 ≤ v ∧ v ≤ 9223372036854775807) := by
  unfold Fits; rw [pow63]; omega

theorem c64_ok {x : Int} (h : Fits x) : c64 x = .ok x := by
  unfold c64; rw [if_pos ((fits_iff x).1 h)]

theorem c64_ub {x : Int} (h : ¬Fits x) : c64 x = .ub := by
  unfold c64; rw [if_neg (fun k => h ((fits_iff x).2 k))]

/-- Taking a remainder by a multiple of the divisor does not change the low part of the quotient. -/
theorem div_of_rem (x p q : Int) (hp : 0 < p) : (x % (p * (2 * q))) / p % 2 = x / p % 2 := by
  have h : x % (p * (2 * q)) = x + p * (-(2 * q * (x / (p * (2 * q))))) := by
    rw [Int.emod_def, Int.mul_neg, Int.mul_assoc p]
    rfl
  rw [h, Int.add_mul_ediv_left _ _ (by omega)]
  rw [Int.mul_assoc]
  omega

theorem bitvec_bit (x : Int) (i : Nat) (h : i < 64) : (BitVec.ofInt 64 x).getLsbD i = true ↔ bit x i := by
  unfold bit
  rw [BitVec.getLsbD, Nat.testBit_eq_decide_div_mod_eq, decide_eq_true_iff, BitVec.toNat_ofInt]
  have h0 : (0 : Int) < 2 ^ i := Int.pow_pos (by decide)
  have h1 : ((2 ^ 64 : Nat) : Int) = 2 ^ i * (2 * 2 ^ (63 - i)) := by
    rw [Int.natCast_pow, ← Int.pow_succ', ← Int.pow_add, show i + (63 - i + 1) = 64 by omega]
    rfl
  have h2 := div_of_rem x (2 ^ i) (2 ^ (63 - i)) h0
  rw [← h1] at h2
  have h3 : 0 ≤ x % ((2 ^ 64 : Nat) : Int) := Int.emod_nonneg _ (by decide)
  rw [← h2]
  generalize x % ((2 ^ 64 : Nat) : Int) = y at h3
  obtain ⟨n, rfl⟩ := Int.eq_ofNat_of_zero_le h3
  rw [Int.toNat_natCast, show (2 : Int) ^ i = ((2 ^ i : Nat) : Int) by rw [Int.natCast_pow]; rfl]
  omega

theorem ofInt_toInt {v : Int} (h : Fits v) : (BitVec.ofInt 64 v).toInt = v := by
  rw [fits_iff] at h
  rw [BitVec.toInt_ofInt]
  unfold Int.bmod
  simp only [Nat.reducePow]
  omega

theorem fits_toInt (b : BitVec 64) : Fits b.toInt := by
  have h1 := BitVec.toInt_lt (x := b)
  have h2 := BitVec.le_toInt (x := b)
  unfold Fits
  simp only [Nat.add_one_sub_one] at h1 h2
  exact ⟨h2, h1⟩

theorem bit_toInt (b : BitVec 64) (i : Nat) (h : i < 64) : bit b.toInt i ↔ b.getLsbD i = true := by
  rw [← bitvec_bit b.toInt i h, BitVec.ofInt_toInt]

/-- Two numbers of 64 bits with the same bits are the same. -/
theorem fits_ext {v w : Int} (hv : Fits v) (hw : Fits w) (h : ∀ i < 64, bit v i ↔ bit w i) : v = w := by
  have : BitVec.ofInt 64 v = BitVec.ofInt 64 w := by
    apply BitVec.eq_of_getLsbD_eq
    intro i hi
    rw [Bool.eq_iff_iff, bitvec_bit v i hi, bitvec_bit w i hi]
    exact h i hi
  rw [← ofInt_toInt hv, this, ofInt_toInt hw]

/-! Division. -/

theorem divides_tdiv (a b : Int) (h : b ≠ 0) : Divides a b (a.tdiv b) (a.tmod b) := by
  refine ⟨?_, ?_, ?_⟩
  · rw [Int.mul_comm]; exact (Int.mul_tdiv_add_tmod a b).symm
  · rw [Int.natAbs_tmod]; exact Nat.mod_lt _ (by omega)
  · rcases Int.lt_trichotomy a 0 with h1 | h1 | h1
    · have := Int.tmod_nonneg b (a := -a) (by omega)
      rw [Int.neg_tmod] at this
      omega
    · subst h1; left; exact Int.zero_tmod b
    · have := Int.tmod_nonneg b (Int.le_of_lt h1)
      omega

/-- A small multiple of a number is zero. -/
theorem mul_small {k b : Int} (h : (k * b).natAbs < b.natAbs) : k = 0 := by
  rw [Int.natAbs_mul] at h
  rcases Nat.eq_zero_or_pos k.natAbs with h0 | h0
  · omega
  · have := Nat.le_mul_of_pos_left b.natAbs h0
    omega

theorem divides_unique {a b q r q' r' : Int} (h : Divides a b q r) (h' : Divides a b q' r') : q = q' ∧ r = r' := by
  obtain ⟨h1, h2, h3⟩ := h
  obtain ⟨g1, g2, g3⟩ := h'
  have e : (q - q') * b = r' - r := by rw [Int.sub_mul]; omega
  have k : ((q - q') * b).natAbs < b.natAbs := by rw [e]; omega
  have z := mul_small k
  rw [z, Int.zero_mul] at e
  omega

/-! The value of an operator is unique. -/

theorem truth_unique {p : Prop} {v w : Int} (h : Truth p v) (h' : Truth p w) : v = w := by
  rcases h with ⟨a, b⟩ | ⟨a, b⟩ <;> rcases h' with ⟨c, d⟩ | ⟨c, d⟩ <;> first | omega | exact absurd a c | exact absurd c a

theorem shr_unique {a v w : Int} {n : Nat} (h1 : v * 2 ^ n ≤ a) (h2 : a < (v + 1) * 2 ^ n) (g1 : w * 2 ^ n ≤ a) (g2 : a < (w + 1) * 2 ^ n) : v = w := by
  have hp : (0 : Int) < 2 ^ n := Int.pow_pos (by decide)
  have k1 := Int.lt_of_mul_lt_mul_right (Int.lt_of_le_of_lt h1 g2) (Int.le_of_lt hp)
  have k2 := Int.lt_of_mul_lt_mul_right (Int.lt_of_le_of_lt g1 h2) (Int.le_of_lt hp)
  omega

theorem value_unique (op : Binary) (a b v w : Int) (h : Value op a b v) (h' : Value op a b w) : v = w := by
  cases op <;> simp only [Value] at h h' <;> try first | exact truth_unique h h' | exact h.elim | (rw [h.1, h'.1])
  case div => obtain ⟨r, d, -⟩ := h; obtain ⟨r', d', -⟩ := h'; exact (divides_unique d d').1
  case rem => obtain ⟨r, d, -⟩ := h; obtain ⟨r', d', -⟩ := h'; exact (divides_unique d d').2
  case shl =>
    obtain ⟨-, n, hn, -, hv, -⟩ := h; obtain ⟨-, m, hm, -, hw, -⟩ := h'
    have : n = m := by omega
    subst this; rw [hv, hw]
  case shr =>
    obtain ⟨n, hn, -, h1, h2⟩ := h; obtain ⟨m, hm, -, g1, g2⟩ := h'
    have : n = m := by omega
    subst this; exact shr_unique h1 h2 g1 g2
  all_goals exact fits_ext h.1 h'.1 fun i hi => (h.2 i hi).trans (h'.2 i hi).symm

theorem uvalue_unique (op : Unary) (a v w : Int) (h : UValue op a v) (h' : UValue op a w) : v = w := by
  cases op <;> simp only [UValue] at h h' <;> try first | exact truth_unique h h' | exact h.elim | omega
  exact fits_ext h.1 h'.1 fun i hi => (h.2 i hi).trans (h'.2 i hi).symm

/-! What the folding answers. -/

variable {F : Type}

/-- The answer is the literal of that value, or undefined behaviour and there is no value. -/
def Folded (o : Out (Ex F)) (truth : Bool) (V : Int → Prop) : Prop :=
  (∃ x, V x ∧ o = .ok (.lit (if truth then TYPE_BOOLEAN else TYPE_INTEGER) (.cell x))) ∨ (o = .ub ∧ ∀ x, ¬V x)

theorem folded_int {V : Int → Prop} {x : Int} (h : V x) : Folded (.ok (intLit x) : Out (Ex F)) false V := Or.inl ⟨x, h, rfl⟩

theorem folded_bool {p : Prop} [Decidable p] : Folded (.ok (boolLit (decide p)) : Out (Ex F)) true (Truth p) := by
  refine Or.inl ⟨if p then 1 else 0, ?_, ?_⟩
  · unfold Truth; split <;> simp_all
  · unfold boolLit; simp

theorem folded_c64 {V : Int → Prop} {y : Int} (h : ∀ x, V x ↔ x = y ∧ Fits x) : Folded ((c64 y).bind fun v => .ok (intLit v) : Out (Ex F)) false V := by
  by_cases k : Fits y
  · rw [c64_ok k]; exact folded_int ((h y).2 ⟨rfl, k⟩)
  · rw [c64_ub k]
    refine Or.inr ⟨rfl, fun x hx => ?_⟩
    obtain ⟨e, f⟩ := (h x).1 hx
    subst e; exact k f

theorem tdiv_fits {a b q r : Int} (h : Divides a b q r) : a.tdiv b = q ∧ a.tmod b = r := by
  have hb : b ≠ 0 := by intro e; have := h.2.1; subst e; simp at this
  exact divides_unique (divides_tdiv a b hb) h

theorem foldInt_folded (op : Binary) (ha : isAssignment op = false) (hc : op ≠ .comma) (a b : Int) :
    Folded (foldInt op a b : Out (Ex F)) (isTruth op) (Value op a b) := by
  cases op <;> first | exact absurd rfl hc | (cases ha; done) | skip
  case mul => exact folded_c64 fun x => Iff.rfl
  case add => exact folded_c64 fun x => Iff.rfl
  case sub => exact folded_c64 fun x => Iff.rfl
  case div =>
    show Folded ((cDiv a b).bind _) _ _
    unfold cDiv
    by_cases hb : b = 0
    · rw [if_pos hb]
      refine Or.inr ⟨rfl, ?_⟩
      rintro x ⟨r, d, -⟩
      have := d.2.1
      subst hb; simp at this
    · rw [if_neg hb]
      refine folded_c64 fun x => ⟨?_, ?_⟩
      · rintro ⟨r, d, f⟩; exact ⟨(tdiv_fits d).1.symm, f⟩
      · rintro ⟨rfl, f⟩; exact ⟨_, divides_tdiv a b hb, f⟩
  case rem =>
    show Folded ((cRem a b).bind _) _ _
    unfold cRem
    by_cases hb : b = 0
    · rw [if_pos hb]
      refine Or.inr ⟨rfl, ?_⟩
      rintro x ⟨r, d, -⟩
      have := d.2.1
      subst hb; simp at this
    · rw [if_neg hb]
      by_cases k : Fits (a.tdiv b)
      · rw [c64_ok k]
        exact folded_int ⟨_, divides_tdiv a b hb, k⟩
      · rw [c64_ub k]
        refine Or.inr ⟨rfl, ?_⟩
        rintro x ⟨q, d, f⟩
        rw [(tdiv_fits d).1] at k
        exact k f
  case shl =>
    show Folded ((cShl a b).bind _) _ _
    unfold cShl
    split
    case isTrue h =>
      refine folded_c64 fun x => ⟨?_, ?_⟩
      · rintro ⟨-, n, e, -, rfl, f⟩; subst e; exact ⟨by rw [Int.toNat_natCast], f⟩
      · rintro ⟨e, f⟩; exact ⟨h.1, b.toNat, by omega, by omega, e, f⟩
    case isFalse h =>
      refine Or.inr ⟨rfl, ?_⟩
      rintro x ⟨h0, n, e, h1, -, -⟩
      omega
  case shr =>
    show Folded ((cShr a b).bind _) _ _
    unfold cShr
    split
    case isTrue h =>
      refine folded_int ⟨b.toNat, by omega, by omega, ?_, ?_⟩
      all_goals
        rw [Int.shiftRight_eq_div_pow]
        have hp : (0 : Int) < ((2 ^ b.toNat : Nat) : Int) := by rw [Int.natCast_pow]; exact Int.pow_pos (by decide)
        rw [show (2 : Int) ^ b.toNat = ((2 ^ b.toNat : Nat) : Int) by rw [Int.natCast_pow]; rfl]
      · exact Int.ediv_mul_le _ (by omega)
      · exact Int.lt_ediv_add_one_mul_self _ hp
    case isFalse h =>
      refine Or.inr ⟨rfl, ?_⟩
      rintro x ⟨n, e, h1, -, -⟩
      omega
  case and =>
    refine folded_int ⟨fits_toInt _, fun i hi => ?_⟩
    rw [cBits, bit_toInt _ i hi, BitVec.getLsbD_and, ← bitvec_bit a i hi, ← bitvec_bit b i hi, Bool.and_eq_true]
  case or =>
    refine folded_int ⟨fits_toInt _, fun i hi => ?_⟩
    rw [cBits, bit_toInt _ i hi, BitVec.getLsbD_or, ← bitvec_bit a i hi, ← bitvec_bit b i hi, Bool.or_eq_true]
  case xor =>
    refine folded_int ⟨fits_toInt _, fun i hi => ?_⟩
    rw [cBits, bit_toInt _ i hi, BitVec.getLsbD_xor, ← bitvec_bit a i hi, ← bitvec_bit b i hi]
    cases (BitVec.ofInt 64 a).getLsbD i <;> cases (BitVec.ofInt 64 b).getLsbD i <;> simp
  all_goals exact folded_bool

/-- The integer part of the folding of unary operators. -/
def foldIntU (op : Unary) (x : Int) : Out (Ex F) :=
  match op with
  | .minus => (c64 (-x)).bind fun y => .ok (intLit y)
  | .not => .ok (intLit (-x - 1))
  | .logNot => .ok (boolLit (decide (x = 0)))
  | .abs => if x ≥ 0 then .ok (intLit x) else (c64 (-x)).bind fun y => .ok (intLit y)
  | _ => .bad

theorem bit_not (x : Int) (i : Nat) : bit (-x - 1) i ↔ ¬bit x i := by
  unfold bit
  have hp : (0 : Int) < 2 ^ i := Int.pow_pos (by decide)
  generalize (2 : Int) ^ i = p at hp
  have h1 : (-x - 1) / p = -(x / p) - 1 := by
    have e := Int.mul_ediv_add_emod x p
    have l := Int.emod_lt_of_pos x hp
    have n := Int.emod_nonneg x (by omega : p ≠ 0)
    rw [show -x - 1 = (p - 1 - x % p) + p * (-(x / p) - 1) by rw [Int.mul_sub, Int.mul_neg]; omega, Int.add_mul_ediv_left _ _ (by omega),
      Int.ediv_eq_zero_of_lt (by omega) (by omega)]
    omega
  rw [h1]
  omega

theorem foldIntU_folded (op : Unary) (hop : op = .minus ∨ op = .not ∨ op = .logNot ∨ op = .abs) (a : Int) (h : Fits a) :
    Folded (foldIntU op a : Out (Ex F)) (decide (op = .logNot)) (UValue op a) := by
  rcases hop with rfl | rfl | rfl | rfl
  · exact folded_c64 fun x => by simp only [UValue]; constructor <;> rintro ⟨e, f⟩ <;> exact ⟨by omega, f⟩
  · refine folded_int ⟨?_, fun i _ => bit_not a i⟩
    rw [fits_iff] at h ⊢; omega
  · exact folded_bool
  · show Folded (if a ≥ 0 then _ else _) _ _
    split
    · exact folded_int ⟨Or.inl rfl, by omega, h⟩
    · exact folded_c64 fun x => by
        simp only [UValue]
        constructor
        · rintro ⟨e, f, g⟩; exact ⟨by omega, g⟩
        · rintro ⟨e, f⟩; exact ⟨by omega, by omega, f⟩

end RuC.Builder
