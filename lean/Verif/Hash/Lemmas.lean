import Verif.Hash.Spec

/-! Helper lemmas about the hash model: the table is the rendering of a list of records. -/

namespace RuC.Hash
open RuC

/-- A record of the table together with the bucket it hangs on (`key = ITEM_MAX`: removed). -/
structure Rec where
  bucket : Nat
  key : Int
  vals : List Int

def Rec.sz (r : Rec) : Nat := 3 + r.vals.length

def total : List Rec → Nat
  | [] => 0
  | r :: R => r.sz + total R

/-- Position of the first record of bucket `b`, 0 if there is none. -/
def first (b off : Nat) : List Rec → Nat
  | [] => 0
  | r :: R => if r.bucket = b then off else first b (off + r.sz) R

def body (off : Nat) : List Rec → List Int
  | [] => []
  | r :: R =>
    (first r.bucket (off + r.sz) R : Int) :: r.key :: (r.vals.length : Int) ::
      (r.vals ++ body (off + r.sz) R)

/-- The bucket cells. -/
def heads (R : List Rec) : List Int := (List.range 256).map (fun b => (first b 256 R : Int))

def render (R : List Rec) : List Int := heads R ++ body 256 R

theorem heads_length (R : List Rec) : (heads R).length = 256 := by
  unfold heads; rw [List.length_map, List.length_range]

theorem heads_get (R : List Rec) (i : Nat) :
    (heads R)[i]? = if i < 256 then some (first i 256 R : Int) else none := by
  unfold heads
  by_cases h : i < 256
  · rw [List.getElem?_map, List.getElem?_range h]; simp [h]
  · rw [List.getElem?_eq_none (by rw [List.length_map, List.length_range]; omega)]; simp [h]

theorem heads_congr {R R' : List Rec} (h : ∀ b, first b 256 R = first b 256 R') :
    heads R = heads R' := by
  unfold heads; simp only [h]

theorem total_append (P S : List Rec) : total (P ++ S) = total P + total S := by
  induction P with
  | nil => simp [total]
  | cons p P ih => simp [total, ih]; omega

theorem body_length (off : Nat) (R : List Rec) : (body off R).length = total R := by
  induction R generalizing off with
  | nil => rfl
  | cons r R ih => simp [body, total, ih, Rec.sz]; omega

theorem render_length (R : List Rec) : (render R).length = 256 + total R := by
  simp [render, body_length, heads_length]

theorem body_drop (off : Nat) (P S : List Rec) :
    (body off (P ++ S)).drop (total P) = body (off + total P) S := by
  induction P generalizing off with
  | nil => simp [total]
  | cons p P ih =>
    simp only [List.cons_append, body, total]
    have : p.sz + total P = total P + p.vals.length + 1 + 1 + 1 := by unfold Rec.sz; omega
    rw [this, List.drop_succ_cons, List.drop_succ_cons, List.drop_succ_cons,
      Nat.add_comm (total P), ← List.drop_drop, List.drop_left, ih]
    congr 1; unfold Rec.sz; omega

/-- Reading the table inside the record that starts at `256 + total P`. -/
theorem render_get (P S : List Rec) (j : Nat) :
    (render (P ++ S))[256 + total P + j]? = (body (256 + total P) S)[j]? := by
  unfold render
  rw [List.getElem?_append_right (by rw [heads_length]; omega), ← body_drop, List.getElem?_drop,
    heads_length, show 256 + total P + j - 256 = total P + j by omega]

theorem vget_render (P S : List Rec) (j : Nat) :
    vget (render (P ++ S)) (256 + total P + j) =
      ((body (256 + total P) S)[j]?).getD ITEM_MAX := by
  unfold vget; rw [render_get]
  cases (body (256 + total P) S)[j]? <;> rfl

theorem vget_bucket (R : List Rec) {b : Nat} (h : b < 256) :
    vget (render R) b = (first b 256 R : Int) := by
  unfold vget render
  rw [List.getElem?_append_left (by rw [heads_length]; exact h), heads_get]
  simp [h]

theorem vget_link (P S : List Rec) (r : Rec) :
    vget (render (P ++ r :: S)) (256 + total P) =
      (first r.bucket (256 + total P + r.sz) S : Int) := by
  have := vget_render P (r :: S) 0
  simpa [body] using this

theorem vget_key (P S : List Rec) (r : Rec) :
    vget (render (P ++ r :: S)) (256 + total P + 1) = r.key := by
  have := vget_render P (r :: S) 1
  simpa [body] using this

theorem vget_len (P S : List Rec) (r : Rec) :
    vget (render (P ++ r :: S)) (256 + total P + 2) = (r.vals.length : Int) := by
  have := vget_render P (r :: S) 2
  simpa [body] using this

theorem vget_val (P S : List Rec) (r : Rec) {i : Nat} (hi : i < r.vals.length) :
    vget (render (P ++ r :: S)) (256 + total P + 3 + i) = r.vals[i] := by
  have := vget_render P (r :: S) (i + 3)
  rw [show 256 + total P + 3 + i = 256 + total P + (i + 3) by omega, this]
  simp [body, List.getElem?_append_left hi, hi]

/-! ### Rewriting one record -/

theorem first_congr (b off : Nat) (P S : List Rec) {r r' : Rec} (hb : r'.bucket = r.bucket)
    (hl : r'.vals.length = r.vals.length) :
    first b off (P ++ r' :: S) = first b off (P ++ r :: S) := by
  induction P generalizing off with
  | nil => simp [first, hb, Rec.sz, hl]
  | cons p P ih => simp [first, ih]

theorem set_body (off : Nat) (P S : List Rec) {r r' : Rec} (hb : r'.bucket = r.bucket)
    (hl : r'.vals.length = r.vals.length) (j : Nat) (x : Int)
    (h : ∀ off, (body off (r :: S)).set j x = body off (r' :: S)) :
    (body off (P ++ r :: S)).set (total P + j) x = body off (P ++ r' :: S) := by
  induction P generalizing off with
  | nil => simpa [total] using h off
  | cons p P ih =>
    simp only [List.cons_append, body, total]
    have : p.sz + total P + j = (p.vals.length + (total P + j)) + 1 + 1 + 1 := by
      unfold Rec.sz; omega
    rw [this, List.set_cons_succ, List.set_cons_succ, List.set_cons_succ,
      List.set_append_right _ _ (by omega), Nat.add_sub_cancel_left, ih,
      first_congr _ _ _ _ hb hl]

theorem set_render (P S : List Rec) {r r' : Rec} (hb : r'.bucket = r.bucket)
    (hl : r'.vals.length = r.vals.length) (j : Nat) (x : Int)
    (h : ∀ off, (body off (r :: S)).set j x = body off (r' :: S)) :
    vset (render (P ++ r :: S)) (256 + total P + j) x = render (P ++ r' :: S) := by
  unfold vset render
  rw [List.set_append_right _ _ (by rw [heads_length]; omega), heads_length]
  congr 1
  · exact heads_congr fun b => (first_congr _ _ _ _ hb hl).symm
  · rw [← set_body 256 P S hb hl j x h, show 256 + total P + j - 256 = total P + j by omega]

theorem vset_key (P S : List Rec) (r : Rec) (k : Int) :
    vset (render (P ++ r :: S)) (256 + total P + 1) k = render (P ++ { r with key := k } :: S) :=
  set_render P S (r := r) (r' := { r with key := k }) rfl rfl 1 k (fun off => by simp [body, Rec.sz])

theorem vset_val (P S : List Rec) (r : Rec) {i : Nat} (hi : i < r.vals.length) (v : Int) :
    vset (render (P ++ r :: S)) (256 + total P + 3 + i) v =
      render (P ++ { r with vals := r.vals.set i v } :: S) := by
  rw [show 256 + total P + 3 + i = 256 + total P + (i + 3) by omega]
  apply set_render P S (r := r) (r' := { r with vals := r.vals.set i v }) rfl (by simp) (i + 3) v
  intro off
  simp [body, Rec.sz, List.set_append_left _ _ hi]

/-! ### Appending a record -/

/-- Position of the last record of bucket `b`. -/
def last (b off : Nat) : List Rec → Option Nat
  | [] => none
  | r :: R =>
    match last b (off + r.sz) R with
    | some p => some p
    | none => if r.bucket = b then some off else none

theorem last_cons (b off : Nat) (r : Rec) (R : List Rec) :
    last b off (r :: R) =
      match last b (off + r.sz) R with
      | some p => some p
      | none => if r.bucket = b then some off else none := rfl

theorem last_ge {b off : Nat} {R : List Rec} {p : Nat} (h : last b off R = some p) : off ≤ p := by
  induction R generalizing off with
  | nil => simp [last] at h
  | cons r R ih =>
    rw [last_cons] at h
    split at h
    · rename_i q hq
      cases h
      have := ih hq
      omega
    · split at h
      · cases h; omega
      · cases h

theorem first_append (b off : Nat) (R : List Rec) (n : Rec) (hoff : 0 < off) :
    first b off (R ++ [n]) =
      if first b off R = 0 then (if n.bucket = b then off + total R else 0) else first b off R := by
  induction R generalizing off with
  | nil => simp [first, total]
  | cons r R ih =>
    simp only [List.cons_append, first]
    by_cases h : r.bucket = b
    · simp [h, show off ≠ 0 by omega]
    · simp only [h, if_false]
      rw [ih (off + r.sz) (by omega)]
      simp only [total]
      rw [show off + r.sz + total R = off + (r.sz + total R) by omega]

theorem first_eq_zero (b off : Nat) (R : List Rec) (hoff : 0 < off) :
    first b off R = 0 ↔ last b off R = none := by
  induction R generalizing off with
  | nil => simp [first, last]
  | cons r R ih =>
    have := ih (off + r.sz) (by omega)
    rw [last_cons]; unfold first
    cases h : last b (off + r.sz) R with
    | none =>
      rw [h] at this
      by_cases hb : r.bucket = b
      · simp [hb]; omega
      · simp [hb, this]
    | some p =>
      rw [h] at this
      by_cases hb : r.bucket = b
      · simp [hb]; omega
      · simp [hb]; simpa using this

/-- The table after the last link of the bucket of `n` was pointed behind the last record. -/
def relink (off : Nat) (l : List Int) (p : Option Nat) (x : Int) : List Int :=
  match p with
  | none => l
  | some p => l.set (p - off) x

theorem body_append (off : Nat) (R : List Rec) (n : Rec) (hoff : 0 < off) :
    body off (R ++ [n]) =
      relink off (body off R) (last n.bucket off R) ((off + total R : Nat) : Int) ++
        ((0 : Int) :: n.key :: (n.vals.length : Int) :: n.vals) := by
  induction R generalizing off with
  | nil => simp [body, last, relink, first]
  | cons r R ih =>
    simp only [List.cons_append, body]
    rw [ih (off + r.sz) (by omega)]
    have hz := first_eq_zero n.bucket (off + r.sz) R (by omega)
    rw [first_append _ _ _ _ (by omega)]
    have ht : off + r.sz + total R = off + total (r :: R) := by simp [total]; omega
    rw [last_cons]
    cases h : last n.bucket (off + r.sz) R with
    | none =>
      by_cases hb : r.bucket = n.bucket
      · have h0 : first r.bucket (off + r.sz) R = 0 := by rw [hb]; exact hz.2 h
        simp [relink, hb, ht, hz.2 h]
      · have hb' : ¬ n.bucket = r.bucket := fun e => hb e.symm
        have e : (if first r.bucket (off + r.sz) R = 0 then 0 else first r.bucket (off + r.sz) R) =
            first r.bucket (off + r.sz) R := by split <;> simp_all
        simp [relink, hb, hb', e]
    | some p =>
      have hp := last_ge h
      have h0 : first n.bucket (off + r.sz) R ≠ 0 := by
        intro hc
        have := hz.1 hc
        rw [h] at this; cases this
      have e : (if first r.bucket (off + r.sz) R = 0 then
            if n.bucket = r.bucket then off + r.sz + total R else 0
          else first r.bucket (off + r.sz) R) = first r.bucket (off + r.sz) R := by
        by_cases hb : n.bucket = r.bucket
        · rw [← hb]; simp [h0]
        · simp only [hb, if_false]; split <;> simp_all
      rw [e]
      simp only [relink, ht]
      have e2 : p - off = (r.vals.length + (p - (off + r.sz))) + 1 + 1 + 1 := by
        unfold Rec.sz at hp ⊢; omega
      rw [e2, List.set_cons_succ, List.set_cons_succ, List.set_cons_succ,
        List.set_append_right _ _ (by omega), Nat.add_sub_cancel_left]
      simp

/-- The link that a new record of bucket `b` must be hung on. -/
def linkPos (b : Nat) (R : List Rec) : Nat :=
  match last b 256 R with
  | some p => p
  | none => b

theorem last_lt {b off : Nat} {R : List Rec} {p : Nat} (h : last b off R = some p) :
    p + 3 ≤ off + total R := by
  induction R generalizing off with
  | nil => simp [last] at h
  | cons r R ih =>
    rw [last_cons] at h
    split at h
    · rename_i q hq
      cases h
      have := ih hq
      simp [total]; omega
    · split at h
      · cases h; simp [total, Rec.sz]; omega
      · cases h

theorem render_append (R : List Rec) (n : Rec) (hb : n.bucket < 256) :
    render (R ++ [n]) =
      vset (render R) (linkPos n.bucket R) ((256 + total R : Nat) : Int) ++
        ((0 : Int) :: n.key :: (n.vals.length : Int) :: n.vals) := by
  unfold render
  rw [body_append _ _ _ (by omega), ← List.append_assoc]
  congr 1
  unfold vset linkPos
  have hz := first_eq_zero n.bucket 256 R (by omega)
  cases h : last n.bucket 256 R with
  | none =>
    simp only [relink]
    rw [List.set_append_left _ _ (by rw [heads_length]; exact hb)]
    congr 1
    apply List.ext_getElem?
    intro i
    rw [List.getElem?_set, heads_get, heads_get, heads_length]
    by_cases hi : i < 256
    · simp only [hi, if_true]
      rw [first_append _ _ _ _ (by omega)]
      by_cases hin : n.bucket = i
      · subst hin
        simp [hz.2 h, hi]
      · simp only [hin, if_false]
        congr 2
        split <;> simp_all
    · have hn : ¬ n.bucket = i := by omega
      simp [hi, hn]
  | some p =>
    have hp := last_ge h
    have hl := last_lt h
    simp only [relink]
    rw [List.set_append_right _ _ (by rw [heads_length]; exact hp), heads_length]
    congr 1
    apply heads_congr
    intro b
    rw [first_append _ _ _ _ (by omega)]
    by_cases hbn : n.bucket = b
    · subst hbn
      have h0 : first n.bucket 256 R ≠ 0 := by
        intro hc
        have := hz.1 hc
        rw [h] at this; cases this
      simp [h0]
    · simp only [hbn, if_false]
      split <;> simp_all

end RuC.Hash
