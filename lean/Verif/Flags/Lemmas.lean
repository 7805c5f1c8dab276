import Verif.Flags.Model
import Verif.Flags.Spec
import Verif.Utf8.Props
import Verif.Map.Lemmas
import Verif.Storage.Refine

/-! Helper lemmas on the flags of the macro preprocessor. -/

namespace RuC.Flags
open RuC RuC.Utf8 RuC.Storage

theorem good_lt {c : Nat} (h : Good c) : c < 0x200000 := by unfold Good at h; omega

theorem size_good {c : Nat} (h : Good c) : utf8Size c = (encode c).length := by
  have := good_lt h
  rw [utf8_size_exact (by omega), if_pos this]

theorem nameChar_good {c : Nat} (h : NameChar c) : c ≠ 0 ∧ Good c :=
  Map.isLetter_good (h.imp id .inl)

theorem nameChar_test {c : Nat} (h : NameChar c) : (isLetter c || isDigit c) = true := by
  rcases h with h | h <;> simp [h]

theorem not_nameChar {c : Nat} (h : ¬ NameChar c) : (isLetter c || isDigit c) = false := by
  unfold NameChar at h
  simp only [not_or, Bool.not_eq_true] at h
  simp [h.1, h.2]

theorem encode_pos {c : Nat} (h : Good c) : 0 < (encode c).length := by
  obtain ⟨b, s, e, _, _⟩ := symbolSize_encode' (good_lt h)
  rw [e]; simp

theorem encode_nonzero {c : Nat} (hc : c ≠ 0) : 0 ∉ encode c := by
  unfold encode
  split
  · simp; omega
  split
  · simp; omega
  split
  · simp; omega
  · simp; omega

/-- The loop reads the rest of the name. -/
theorem nameLoop_spec {d : Nat} (hd : Good d) (hn : ¬ NameChar d) (rest : List Nat) :
    ∀ (t pre : List Nat) (fuel : Nat), (∀ x ∈ t, NameChar x) → pre.length + t.length < 1024 → t.length < fuel →
      nameLoop ((pre ++ t).flatMap encode ++ (encode d ++ rest)) fuel pre (pre.flatMap encode).length =
        some (pre ++ t, d, ((pre ++ t).flatMap encode).length + (encode d).length) := by
  intro t
  induction t with
  | nil =>
    intro pre fuel _ hl hf
    cases fuel with
    | zero => simp at hf
    | succ fuel =>
      unfold nameLoop
      simp only [List.length_nil] at hl
      rw [if_neg (by unfold MAX_ARG_SIZE; omega), List.append_nil, List.drop_left, convert_encode' (good_lt hd)]
      simp only [not_nameChar hn, size_good hd]
      simp
  | cons c t ih =>
    intro pre fuel hx hl hf
    cases fuel with
    | zero => simp at hf
    | succ fuel =>
      have hc := hx c (by simp)
      have hg := (nameChar_good hc).2
      have hi := ih (pre ++ [c]) fuel (fun x m => hx x (by simp [m]))
        (by rw [List.length_append]; simp only [List.length_cons, List.length_nil] at hl ⊢; omega)
        (by simp only [List.length_cons] at hf; omega)
      have e1 : (pre ++ c :: t).flatMap encode = pre.flatMap encode ++ (encode c ++ t.flatMap encode) := by
        simp
      have e2 : pre ++ [c] ++ t = pre ++ c :: t := by simp
      have e3 : ((pre ++ [c]).flatMap encode).length = (pre.flatMap encode).length + (encode c).length := by
        simp
      rw [e2, e3] at hi
      simp only [List.length_cons] at hl
      unfold nameLoop
      rw [if_neg (by unfold MAX_ARG_SIZE; omega)]
      have e4 : ((pre ++ c :: t).flatMap encode ++ (encode d ++ rest)).drop (pre.flatMap encode).length =
          encode c ++ (t.flatMap encode ++ (encode d ++ rest)) := by
        rw [e1, List.append_assoc, List.drop_left, List.append_assoc]
      rw [e4, convert_encode' (good_lt hg)]
      simp only [nameChar_test hc, if_true, size_good hg]
      exact hi

/-- A name that is too long leaves the array. -/
theorem nameLoop_long (rest : List Nat) :
    ∀ (t pre : List Nat) (fuel : Nat), (∀ x ∈ t, NameChar x) → 1024 ≤ pre.length + t.length →
      nameLoop ((pre ++ t).flatMap encode ++ rest) fuel pre (pre.flatMap encode).length = none := by
  intro t
  induction t with
  | nil =>
    intro pre fuel _ hl
    cases fuel with
    | zero => rfl
    | succ fuel =>
      unfold nameLoop
      rw [if_pos (by unfold MAX_ARG_SIZE; simpa using hl)]
  | cons c t ih =>
    intro pre fuel hx hl
    cases fuel with
    | zero => rfl
    | succ fuel =>
      have hc := hx c (by simp)
      have hg := (nameChar_good hc).2
      have hi := ih (pre ++ [c]) fuel (fun x m => hx x (by simp [m]))
        (by rw [List.length_append]; simp only [List.length_cons, List.length_nil] at hl ⊢; omega)
      have e2 : pre ++ [c] ++ t = pre ++ c :: t := by simp
      have e3 : ((pre ++ [c]).flatMap encode).length = (pre.flatMap encode).length + (encode c).length := by
        simp
      rw [e2, e3] at hi
      unfold nameLoop
      split
      · rfl
      have e4 : ((pre ++ c :: t).flatMap encode ++ rest).drop (pre.flatMap encode).length =
          encode c ++ (t.flatMap encode ++ rest) := by
        rw [List.flatMap_append, List.flatMap_cons, List.append_assoc, List.drop_left, List.append_assoc]
      rw [e4, convert_encode' (good_lt hg)]
      simp only [nameChar_test hc, if_true, size_good hg]
      exact hi

theorem name_length {t : List Nat} (h : ∀ x ∈ t, NameChar x) : t.length ≤ (t.flatMap encode).length := by
  induction t with
  | nil => simp
  | cons c t ih =>
    have h1 := encode_pos (nameChar_good (h c (by simp))).2
    have h2 := ih fun x m => h x (by simp [m])
    rw [List.flatMap_cons, List.length_append, List.length_cons]
    omega

/-- A flag with a name and a character behind it. -/
theorem parseName_spec {k : List Nat} (hk : Name k) {d : Nat} (hd : Good d) (hn : ¬ NameChar d) (rest : List Nat) :
    wsParseName (k.flatMap encode ++ (encode d ++ rest)) =
      some (.name ((k.flatMap encode).length + if d = 61 then 1 else 0) k) := by
  obtain ⟨c, t, rfl, hc, ht, hl⟩ := hk
  have hg := (nameChar_good (.inl hc)).2
  have hlt := name_length ht
  have h := nameLoop_spec hd hn rest t [c]
    ((((c :: t).flatMap encode) ++ (encode d ++ rest)).length + 1) ht
    (by simp only [List.length_cons, List.length_nil] at hl ⊢; omega)
    (by rw [List.length_append, List.flatMap_cons, List.length_append]; omega)
  have e0 : [c] ++ t = c :: t := rfl
  have e1 : ([c].flatMap encode).length = utf8Size c := by rw [size_good hg]; simp
  rw [e0, e1] at h
  have hcv : convert ((c :: t).flatMap encode ++ (encode d ++ rest)) = some c := by
    rw [List.flatMap_cons, List.append_assoc]
    exact convert_encode' (good_lt hg) _
  have hne : ¬ (c = 0 ∨ c = 61) := by
    intro e
    rcases e with rfl | rfl <;> exact absurd hc (by decide)
  have hcf : ¬ isLetter c = false := by rw [hc]; decide
  unfold wsParseName
  rw [hcv]
  simp only
  rw [if_neg hne, if_neg hcf, h]
  simp only
  by_cases h0 : d = 0
  · subst h0
    rw [if_pos rfl, if_neg (by decide), show (encode 0).length = 1 by decide]
    simp
  · rw [if_neg h0]
    by_cases h1 : d = 61
    · subst h1
      rw [if_pos rfl, if_pos rfl, show (encode 61).length = 1 by decide]
    · rw [if_neg h1, if_neg h1, size_good hd]
      simp

/-- A flag with a name that is too long. -/
theorem parseName_long {c : Nat} {t : List Nat} (hc : isLetter c = true) (ht : ∀ x ∈ t, NameChar x)
    (hl : 1024 ≤ (c :: t).length) (rest : List Nat) : wsParseName ((c :: t).flatMap encode ++ rest) = none := by
  have hg := (nameChar_good (.inl hc)).2
  have h := nameLoop_long rest t [c] (((c :: t).flatMap encode ++ rest).length + 1) ht
    (by simp only [List.length_cons, List.length_nil] at hl ⊢; omega)
  have e0 : [c] ++ t = c :: t := rfl
  have e1 : ([c].flatMap encode).length = utf8Size c := by rw [size_good hg]; simp
  rw [e0, e1] at h
  have hcv : convert ((c :: t).flatMap encode ++ rest) = some c := by
    rw [List.flatMap_cons, List.append_assoc]
    exact convert_encode' (good_lt hg) _
  have hne : ¬ (c = 0 ∨ c = 61) := by
    intro e
    rcases e with rfl | rfl <;> exact absurd hc (by decide)
  have hcf : ¬ isLetter c = false := by rw [hc]; decide
  unfold wsParseName
  rw [hcv]
  simp only
  rw [if_neg hne, if_neg hcf, h]

theorem cstr {v : List Nat} (h : 0 ∉ v) : (v ++ [0]).takeWhile (· ≠ 0) = v := by
  induction v with
  | nil => rfl
  | cons b s ih =>
    simp only [List.mem_cons, not_or] at h
    simp only [List.cons_append, List.takeWhile]
    rw [show decide (b ≠ 0) = true by simpa using Ne.symm h.1]
    simp only
    rw [ih h.2]

/-- The flag that defines. -/
theorem flag_define (g : Stg) {f k v : List Nat} (h : Means f (.define k v)) :
    wsFlag g f = parseFlag g (.utf8 (k ++ [0])) v ∧ Name k ∧ 0 ∉ v := by
  cases h with
  | plain _ hk =>
    refine ⟨?_, hk, by simp⟩
    unfold wsFlag
    rw [if_pos ⟨rfl, rfl⟩]
    have e : k.flatMap encode ++ [0] = k.flatMap encode ++ (encode 0 ++ []) := by simp [encode]
    simp only [List.drop_succ_cons, List.drop_zero]
    have hp := parseName_spec hk (d := 0) (by decide) (by unfold NameChar; decide) []
    rw [← e] at hp
    rw [hp]
    simp only
    rw [show 2 + ((k.flatMap encode).length + if (0 : Nat) = 61 then 1 else 0) = (k.flatMap encode).length + 2 by
      rw [if_neg (by decide)]; omega]
    simp only [List.drop_succ_cons]
    rw [List.drop_left]
    rfl
  | assign _ _ hk hv =>
    refine ⟨?_, hk, hv⟩
    unfold wsFlag
    rw [if_pos ⟨rfl, rfl⟩]
    have e : k.flatMap encode ++ 61 :: (v ++ [0]) = k.flatMap encode ++ (encode 61 ++ (v ++ [0])) := by simp [encode]
    simp only [List.drop_succ_cons, List.drop_zero]
    have hp := parseName_spec hk (d := 61) (by decide) (by unfold NameChar; decide) (v ++ [0])
    rw [← e, if_pos rfl] at hp
    rw [hp]
    simp only
    rw [show 2 + ((k.flatMap encode).length + 1) = ((k.flatMap encode).length + 1) + 2 by omega]
    simp only [List.drop_succ_cons]
    have hd : (k.flatMap encode ++ 61 :: (v ++ [0])).drop ((k.flatMap encode).length + 1) = v ++ [0] := by
      rw [← List.drop_drop, List.drop_left]
      rfl
    rw [hd, cstr hv]
  | glued _ c w hk hv hc hn =>
    have h0 : 0 ∉ encode c ++ w := by
      rw [List.mem_append, not_or]
      exact ⟨encode_nonzero hc.1, hv⟩
    refine ⟨?_, hk, h0⟩
    unfold wsFlag
    rw [if_pos ⟨rfl, rfl⟩]
    simp only [List.drop_succ_cons, List.drop_zero]
    have hp := parseName_spec hk hc.2.2 hn (w ++ [0])
    rw [← List.append_assoc (encode c)] at hp
    rw [hp]
    simp only
    rw [show 2 + ((k.flatMap encode).length + if c = 61 then 1 else 0) = (k.flatMap encode).length + 2 by
      rw [if_neg hc.2.1]; omega]
    simp only [List.drop_succ_cons]
    rw [List.drop_left, cstr h0]

theorem flag_wrong (g : Stg) {f : List Nat} (h : Means f .wrong) : wsFlag g f = some (false, g) := by
  cases h with
  | bare => rfl
  | bad c v hc hn =>
    unfold wsFlag
    rw [if_pos ⟨rfl, rfl⟩]
    simp only [List.drop_succ_cons, List.drop_zero]
    have e : wsParseName (encode c ++ v ++ [0]) = some .error := by
      unfold wsParseName
      rw [List.append_assoc, convert_encode' (good_lt hc.2)]
      simp only
      by_cases h1 : c = 0 ∨ c = 61
      · rw [if_pos h1]
      · rw [if_neg h1, if_pos hn]
    rw [e]

theorem flag_nothing (g : Stg) {f : List Nat} (h : Means f .nothing) : wsFlag g f = some (true, g) := by
  cases h with
  | other s hs =>
    unfold wsFlag
    rw [if_neg]
    rintro ⟨h1, h2⟩
    match s, hs, h1, h2 with
    | [], _, h1, _ => cases h1
    | [a], _, _, h2 => cases h2
    | a :: b :: r, hs, h1, h2 =>
      have ea : a = 45 := by simpa using h1
      have eb : b = 68 := by simpa using h2
      exact hs ⟨r, by rw [ea, eb]⟩

theorem name_valid {k : List Nat} (h : Name k) : Map.Denotes (.utf8 (k ++ [0])) k ∧ IsName k := by
  obtain ⟨c, t, rfl, hc, ht, _⟩ := h
  refine ⟨.utf8 _ ⟨by simp, ?_⟩, ⟨c, t, rfl, hc⟩⟩
  intro x hx
  rcases List.mem_cons.1 hx with rfl | hx
  · exact nameChar_good (.inl hc)
  · exact nameChar_good (ht x hx)

/-- What a definition does to the storage. -/
theorem parseFlag_spec {g G T b k v} (h : Rel g G T b) (hS : Small T) (hk : Name k) (hv : 0 ∉ v)
    (hb : b + room (.define k v) < 4294967296) :
    ∃ g' G', parseFlag g (.utf8 (k ++ [0])) v = some (decide (T k = none), g') ∧
      Rel g' G' (if T k = none then T.put k (some (0, v)) else T) (b + room (.define k v)) ∧
      Small (if T k = none then T.put k (some (0, v)) else T) := by
  obtain ⟨hd, hi⟩ := name_valid hk
  have hcost : (Storage.Op.flag (.utf8 (k ++ [0])) v).cost = room (.define k v) := by
    unfold Storage.Op.cost room
    simp [Storage.Op.key, Storage.Op.value, Map.KeyArg.size]
  have hl : (Event.flag k v).Legal T := ⟨hi, hv⟩
  obtain ⟨g', G', e, r⟩ := step_spec h hS (.flag v hd) hl (by rw [hcost]; exact hb)
  have hs := small_apply hS hl
  rw [hcost] at r
  simp only [step] at e
  cases hp : parseFlag g (.utf8 (k ++ [0])) v with
  | none => rw [hp] at e; cases e
  | some q =>
    obtain ⟨ok, g1⟩ := q
    rw [hp] at e
    simp only [Option.map_some, Option.some.injEq, Prod.mk.injEq] at e
    obtain ⟨e1, rfl⟩ := e
    simp only [Event.apply] at e1 r hs
    by_cases ht : T k = none
    · rw [if_pos ht] at e1 r hs ⊢
      refine ⟨g1, G', ?_, r, hs⟩
      cases ok with
      | true => simp [ht]
      | false => simp at e1
    · rw [if_neg ht] at e1 r hs ⊢
      refine ⟨g1, G', ?_, r, hs⟩
      cases ok with
      | true => simp at e1
      | false => simp [ht]

theorem wsParse_spec {g G T b} {fs : List (List Nat)} {ss : List Setting} (h : Rel g G T b) (hS : Small T)
    (hm : AllMean fs ss) (hb : b + (ss.map room).sum < 4294967296) :
    ∃ g' G' b', wsParse g fs = some ((settle T ss).1, g') ∧ Rel g' G' (settle T ss).2 b' ∧
      Small (settle T ss).2 ∧ b' ≤ b + (ss.map room).sum := by
  induction hm generalizing g G T b with
  | nil => exact ⟨g, G, b, rfl, h, hS, by simp⟩
  | @cons f s fs ss hf ht ih =>
    simp only [List.map_cons, List.sum_cons] at hb ⊢
    cases s with
    | nothing =>
      obtain ⟨g', G', b', e, r, hs, l⟩ := ih h hS (by omega)
      refine ⟨g', G', b', ?_, r, hs, by omega⟩
      unfold wsParse
      rw [flag_nothing g hf]
      exact e
    | wrong =>
      refine ⟨g, G, b, ?_, h, hS, by omega⟩
      unfold wsParse
      rw [flag_wrong g hf]
      rfl
    | define k v =>
      obtain ⟨e0, hk, hv⟩ := flag_define g hf
      obtain ⟨g1, G1, e1, r1, s1⟩ := parseFlag_spec h hS hk hv (by omega)
      unfold settle
      by_cases hT : T k = none
      · rw [if_pos hT] at r1 s1
        obtain ⟨g', G', b', e, r, hs, l⟩ := ih r1 s1 (by omega)
        refine ⟨g', G', b', ?_, by rw [if_pos hT]; exact r, by rw [if_pos hT]; exact hs, by omega⟩
        unfold wsParse
        rw [e0, e1, if_pos hT, show decide (T k = none) = true by simpa using hT]
        exact e
      · rw [if_neg hT] at r1 s1
        refine ⟨g1, G1, _, ?_, by rw [if_neg hT]; exact r1, by rw [if_neg hT]; exact s1, by omega⟩
        unfold wsParse
        rw [e0, e1, if_neg hT, show decide (T k = none) = false by simpa using hT]

end RuC.Flags
