import Verif.Hash.Lemmas

/-! Helper lemmas: walking a chain of the rendered table. -/

namespace RuC.Hash
open RuC

theorem first_of_ne {b off : Nat} {r : Rec} {S : List Rec} (h : r.bucket ≠ b) :
    first b off (r :: S) = first b (off + r.sz) S := by simp [first, h]

theorem first_of_eq {b off : Nat} {r : Rec} {S : List Rec} (h : r.bucket = b) :
    first b off (r :: S) = off := by simp [first, h]

theorem nat_ne_itemMax {n : Nat} (h : n < 1152921504606846976) : (n : Int) ≠ ITEM_MAX := by
  unfold ITEM_MAX; omega

theorem total_snoc (P : List Rec) (r : Rec) : total (P ++ [r]) = total P + r.sz := by
  rw [total_append]; simp [total]

theorem total_cons_le (P S : List Rec) (r : Rec) :
    total P + 3 + r.vals.length ≤ total (P ++ r :: S) := by
  rw [total_append]; simp only [total, Rec.sz]; omega

/-- Walking the chain for a key that the chain does not hold. -/
theorem indexLoop_absent {b : Nat} {key : Int} (S P : List Rec) (fuel : Nat)
    (hlt : 256 + total (P ++ S) < 1152921504606846976)
    (hk : ∀ q ∈ S, q.bucket = b → q.key ≠ key) (hf : S.length < fuel) :
    indexLoop (render (P ++ S)) key fuel (first b (256 + total P) S : Int) = some SIZE_MAX := by
  induction S generalizing P fuel with
  | nil =>
    cases fuel with
    | zero => omega
    | succ f => simp [indexLoop, first]
  | cons r S ih =>
    have e : P ++ r :: S = (P ++ [r]) ++ S := by simp
    have hlt' := hlt
    rw [e] at hlt'
    have hk' : ∀ q ∈ S, q.bucket = b → q.key ≠ key := fun q hq => hk q (by simp [hq])
    have htl := total_cons_le P S r
    by_cases hb : r.bucket = b
    · cases fuel with
      | zero => omega
      | succ f =>
        rw [first_of_eq hb]
        unfold indexLoop
        rw [if_pos ⟨nat_ne_itemMax (by omega), by omega⟩, toSize_natCast (by omega),
          usz_of_lt (by omega), vget_key, if_neg (hk r (by simp) hb), vget_link, e, hb,
          show 256 + total P + r.sz = 256 + total (P ++ [r]) by rw [total_snoc]; omega]
        exact ih _ _ hlt' hk' (by simp at hf; omega)
    · rw [first_of_ne hb, e, show 256 + total P + r.sz = 256 + total (P ++ [r]) by
        rw [total_snoc]; omega]
      exact ih _ _ hlt' hk' (by simp at hf; omega)

/-- Walking the chain for a key that the chain holds. -/
theorem indexLoop_found {b : Nat} {key : Int} (Q P : List Rec) (r : Rec) (S : List Rec) (fuel : Nat)
    (hlt : 256 + total (P ++ (Q ++ r :: S)) < 1152921504606846976)
    (hk : ∀ q ∈ Q, q.key ≠ key) (hr : r.key = key) (hb : r.bucket = b) (hf : Q.length + 1 ≤ fuel) :
    indexLoop (render (P ++ (Q ++ r :: S))) key fuel (first b (256 + total P) (Q ++ r :: S) : Int) =
      some (256 + total P + total Q) := by
  induction Q generalizing P fuel with
  | nil =>
    cases fuel with
    | zero => omega
    | succ f =>
      have htl := total_cons_le P S r
      simp only [List.nil_append] at hlt ⊢
      rw [first_of_eq hb]
      unfold indexLoop
      rw [if_pos ⟨nat_ne_itemMax (by omega), by omega⟩, toSize_natCast (by omega),
        usz_of_lt (by omega), vget_key, if_pos hr]
      simp [total]
  | cons q Q ih =>
    have e : P ++ (q :: Q ++ r :: S) = (P ++ [q]) ++ (Q ++ r :: S) := by simp
    have hlt' := hlt
    rw [e] at hlt'
    have hk' : ∀ x ∈ Q, x.key ≠ key := fun x hx => hk x (by simp [hx])
    have htl := total_cons_le P (Q ++ r :: S) q
    have hadd : 256 + total (P ++ [q]) + total Q = 256 + total P + total (q :: Q) := by
      rw [total_snoc]; simp only [total]; omega
    rw [← hadd]
    by_cases hqb : q.bucket = b
    · cases fuel with
      | zero => omega
      | succ f =>
        rw [List.cons_append] at hlt ⊢
        rw [first_of_eq hqb]
        unfold indexLoop
        rw [if_pos ⟨nat_ne_itemMax (by omega), by omega⟩, toSize_natCast (by omega),
          usz_of_lt (by omega), vget_key, if_neg (hk q (by simp)), vget_link,
          ← List.cons_append, e, hqb,
          show 256 + total P + q.sz = 256 + total (P ++ [q]) by rw [total_snoc]; omega]
        exact ih _ _ hlt' hk' (by simp at hf; omega)
    · rw [List.cons_append, first_of_ne hqb, ← List.cons_append, e,
        show 256 + total P + q.sz = 256 + total (P ++ [q]) by rw [total_snoc]; omega]
      exact ih _ _ hlt' hk' (by simp at hf; omega)

/-- First removed record of bucket `b` with room for `n` values. -/
def tomb (b n off : Nat) : List Rec → Option Nat
  | [] => none
  | r :: S =>
    if r.bucket = b ∧ r.key = ITEM_MAX ∧ r.vals.length = n then some off
    else tomb b n (off + r.sz) S

theorem tomb_cons (b n off : Nat) (r : Rec) (S : List Rec) :
    tomb b n off (r :: S) =
      if r.bucket = b ∧ r.key = ITEM_MAX ∧ r.vals.length = n then some off
      else tomb b n (off + r.sz) S := rfl

/-- What the walk of `hash_add` ends with when the key is absent. -/
def walkEnd (b n off prev : Nat) (record : Int) (S : List Rec) : Nat × Int × Int :=
  ((last b off S).getD prev, 0,
    if record ≠ ITEM_MAX then record else
      match tomb b n off S with
      | some p => (p : Int)
      | none => ITEM_MAX)

theorem addLoop_absent {b : Nat} {key : Int} {n : Nat} (hn : n < 1152921504606846976)
    (S P : List Rec) (fuel prev : Nat)
    (record : Int) (hlt : 256 + total (P ++ S) < 1152921504606846976)
    (hk : ∀ q ∈ S, q.bucket = b → q.key ≠ key) (hf : S.length < fuel) :
    addLoop (render (P ++ S)) key n fuel prev (first b (256 + total P) S : Int) record =
      some (.inr (walkEnd b n (256 + total P) prev record S)) := by
  induction S generalizing P fuel prev record with
  | nil =>
    cases fuel with
    | zero => omega
    | succ f =>
      simp [addLoop, first, walkEnd, last, tomb]
  | cons r S ih =>
    have e : P ++ r :: S = (P ++ [r]) ++ S := by simp
    have hlt' := hlt
    rw [e] at hlt'
    have hk' : ∀ q ∈ S, q.bucket = b → q.key ≠ key := fun q hq => hk q (by simp [hq])
    have htl := total_cons_le P S r
    have hoff : 256 + total P + r.sz = 256 + total (P ++ [r]) := by rw [total_snoc]; omega
    by_cases hb : r.bucket = b
    · cases fuel with
      | zero => omega
      | succ f =>
        rw [first_of_eq hb]
        unfold addLoop
        simp only
        rw [if_pos ⟨nat_ne_itemMax (by omega), by omega⟩, toSize_natCast (by omega),
          usz_of_lt (show 256 + total P + 1 < _ by omega),
          usz_of_lt (show 256 + total P + 2 < _ by omega), vget_key, vget_len, vget_link,
          toSize_natCast (by omega), if_neg (hk r (by simp) hb), e, hb, hoff]
        have hlast : ∀ prev', (last b (256 + total P) (r :: S)).getD prev' =
            (last b (256 + total (P ++ [r])) S).getD (256 + total P) := by
          intro prev'
          rw [last_cons, hoff]
          cases last b (256 + total (P ++ [r])) S <;> simp [hb]
        split
        · rename_i hc
          rw [ih _ _ _ _ hlt' hk' (by simp at hf; omega)]
          simp only [walkEnd, hlast, Option.some.injEq, Sum.inr.injEq, Prod.mk.injEq, true_and]
          rw [if_pos (nat_ne_itemMax (by omega)), if_neg (by simp [hc.1]), tomb_cons, if_pos ⟨hb, hc.2⟩]
        · rename_i hc
          rw [ih _ _ _ _ hlt' hk' (by simp at hf; omega)]
          simp only [walkEnd, hlast, Option.some.injEq, Sum.inr.injEq, Prod.mk.injEq, true_and]
          split
          · rfl
          · rename_i hrec
            have hrec' : record = ITEM_MAX := by simpa using hrec
            rw [tomb_cons, if_neg (fun h => hc ⟨hrec', h.2⟩), hoff]
    · rw [first_of_ne hb, e, hoff, ih _ _ _ _ hlt' hk' (by simp at hf; omega)]
      have h1 : last b (256 + total P) (r :: S) = last b (256 + total (P ++ [r])) S := by
        rw [last_cons, hoff]
        cases last b (256 + total (P ++ [r])) S <;> simp [hb]
      have h2 : tomb b n (256 + total P) (r :: S) = tomb b n (256 + total (P ++ [r])) S := by
        rw [tomb_cons, if_neg (fun h => hb h.1), hoff]
      simp only [walkEnd, h1, h2]

theorem addLoop_found {b : Nat} {key : Int} {n : Nat} (hkey : key ≠ ITEM_MAX)
    (S P : List Rec) (fuel prev : Nat)
    (record : Int) (hlt : 256 + total (P ++ S) < 1152921504606846976)
    (hk : ∃ q ∈ S, q.bucket = b ∧ q.key = key) (hf : S.length < fuel) :
    addLoop (render (P ++ S)) key n fuel prev (first b (256 + total P) S : Int) record =
      some (.inl ()) := by
  induction S generalizing P fuel prev record with
  | nil => simp at hk
  | cons r S ih =>
    have e : P ++ r :: S = (P ++ [r]) ++ S := by simp
    have hlt' := hlt
    rw [e] at hlt'
    have htl := total_cons_le P S r
    have hoff : 256 + total P + r.sz = 256 + total (P ++ [r]) := by rw [total_snoc]; omega
    by_cases hb : r.bucket = b
    · cases fuel with
      | zero => omega
      | succ f =>
        rw [first_of_eq hb]
        unfold addLoop
        simp only
        rw [if_pos ⟨nat_ne_itemMax (by omega), by omega⟩, toSize_natCast (by omega),
          usz_of_lt (show 256 + total P + 1 < _ by omega),
          usz_of_lt (show 256 + total P + 2 < _ by omega), vget_key, vget_len, vget_link,
          toSize_natCast (by omega)]
        by_cases hrk : r.key = key
        · rw [if_neg (fun h => hkey (hrk.symm.trans h.2.1)), if_pos hrk]
        · have hk' : ∃ q ∈ S, q.bucket = b ∧ q.key = key := by
            obtain ⟨q, hq, h1, h2⟩ := hk
            simp at hq
            rcases hq with rfl | hq
            · exact absurd h2 hrk
            · exact ⟨q, hq, h1, h2⟩
          rw [if_neg hrk, e, hb, hoff]
          split <;> exact ih _ _ _ _ hlt' hk' (by simp at hf; omega)
    · have hk' : ∃ q ∈ S, q.bucket = b ∧ q.key = key := by
        obtain ⟨q, hq, h1, h2⟩ := hk
        simp at hq
        rcases hq with rfl | hq
        · exact absurd h1 hb
        · exact ⟨q, hq, h1, h2⟩
      rw [first_of_ne hb, e, hoff]
      exact ih _ _ _ _ hlt' hk' (by simp at hf; omega)

end RuC.Hash
