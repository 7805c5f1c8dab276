import Verif.Map.Spec
import Verif.Utf8.Lemmas

/-! Helper lemmas: octets in the key block, and pushing a key text behind it. -/

namespace RuC.Map
open RuC Utf8

/-! ### Octets at a place -/

/-- The octets `s` stand at `pos`. -/
def BytesAt (mem : List (Option Nat)) (pos : Nat) : List Nat → Prop
  | [] => True
  | a :: s => mem[pos]? = some (some a) ∧ BytesAt mem (pos + 1) s

theorem bytesAt_append {mem : List (Option Nat)} {pos : Nat} {s t : List Nat} :
    BytesAt mem pos (s ++ t) ↔ BytesAt mem pos s ∧ BytesAt mem (pos + s.length) t := by
  induction s generalizing pos with
  | nil => simp [BytesAt]
  | cons a s ih =>
    simp only [List.cons_append, BytesAt, ih, List.length_cons]
    rw [show pos + 1 + s.length = pos + (s.length + 1) by omega, and_assoc]

theorem bytesAt_mono {mem mem' : List (Option Nat)} {pos n : Nat} {s : List Nat}
    (h : BytesAt mem pos s) (hn : pos + s.length ≤ n) (he : ∀ i, i < n → mem'[i]? = mem[i]?) :
    BytesAt mem' pos s := by
  induction s generalizing pos with
  | nil => trivial
  | cons a s ih =>
    simp only [List.length_cons] at hn
    exact ⟨by rw [he pos (by omega)]; exact h.1, ih h.2 (by omega)⟩

theorem bytesAt_map (pre post : List (Option Nat)) (s : List Nat) :
    BytesAt (pre ++ s.map some ++ post) pre.length s := by
  induction s generalizing pre with
  | nil => trivial
  | cons a s ih =>
    refine ⟨by simp, ?_⟩
    have := ih (pre ++ [some a])
    simpa using this

theorem strEq_spec {mem : List (Option Nat)} {s t : List Nat} (hs : 0 ∉ s) (ht : 0 ∉ t) {fuel i j : Nat}
    (h1 : BytesAt mem i (s ++ [0])) (h2 : BytesAt mem j (t ++ [0])) (hf : s.length < fuel) :
    strEq mem fuel i j = some (decide (s = t)) := by
  induction s generalizing t fuel i j with
  | nil =>
    cases fuel with
    | zero => omega
    | succ fuel =>
      cases t with
      | nil =>
        simp only [List.nil_append, BytesAt] at h1 h2
        simp [strEq, h1.1, h2.1]
      | cons b t =>
        simp only [List.nil_append, List.cons_append, BytesAt] at h1 h2
        simp only [List.mem_cons, not_or] at ht
        simp [strEq, h1.1, h2.1, ht.1]
  | cons a s ih =>
    simp only [List.mem_cons, not_or] at hs
    cases fuel with
    | zero => omega
    | succ fuel =>
      simp only [List.cons_append, BytesAt] at h1
      cases t with
      | nil =>
        simp only [List.nil_append, BytesAt] at h2
        have : a ≠ 0 := fun h => hs.1 h.symm
        simp [strEq, h1.1, h2.1, this]
      | cons b t =>
        simp only [List.cons_append, BytesAt] at h2
        simp only [List.mem_cons, not_or] at ht
        have ha : a ≠ 0 := fun h => hs.1 h.symm
        unfold strEq
        rw [h1.1, h2.1]
        simp only
        by_cases hab : a = b
        · subst hab
          rw [if_neg (by simp), if_neg ha, ih hs.2 ht.2 h1.2 h2.2 (by simp at hf; omega)]
          simp
        · rw [if_pos hab]
          simp [hab]

theorem readStr_spec {mem : List (Option Nat)} {s : List Nat} (hs : 0 ∉ s) {fuel i : Nat}
    (h1 : BytesAt mem i (s ++ [0])) (hf : s.length < fuel) : readStr mem fuel i = some s := by
  induction s generalizing fuel i with
  | nil =>
    cases fuel with
    | zero => omega
    | succ fuel =>
      simp only [List.nil_append, BytesAt] at h1
      simp [readStr, h1.1]
  | cons a s ih =>
    simp only [List.mem_cons, not_or] at hs
    cases fuel with
    | zero => omega
    | succ fuel =>
      simp only [List.cons_append, BytesAt] at h1
      have ha : a ≠ 0 := fun h => hs.1 h.symm
      simp [readStr, h1.1, ha, ih hs.2 h1.2 (by simp at hf; omega)]

theorem store_spec {mem : List (Option Nat)} {pos : Nat} {bs : List Nat}
    (h : pos + bs.length ≤ mem.length) :
    ∃ mem', store mem pos bs = some mem' ∧ mem'.length = mem.length ∧
      (∀ i, i < pos → mem'[i]? = mem[i]?) ∧ BytesAt mem' pos bs := by
  refine ⟨mem.take pos ++ bs.map some ++ mem.drop (pos + bs.length), by simp [store, h], ?_, ?_, ?_⟩
  · simp; omega
  · intro i hi
    rw [List.append_assoc, List.getElem?_append_left (by simp; omega), List.getElem?_take]
    simp [hi]
  · have := bytesAt_map (mem.take pos) (mem.drop (pos + bs.length)) bs
    rw [List.length_take, Nat.min_eq_left (by omega)] at this
    exact this

/-! ### Texts -/

theorem encode_zero {c : Nat} (h : c ≠ 0) : 0 ∉ encode c := by
  unfold encode
  repeat' split
  all_goals simp only [List.mem_cons, List.not_mem_nil, or_false, not_or]
  all_goals omega

theorem encode_length {c : Nat} : (encode c).length ≤ 4 ∧ 1 ≤ (encode c).length := by
  unfold encode
  repeat' split
  all_goals simp

theorem good_lt {c : Nat} (h : Good c) : c < 0x200000 := by unfold Good at h; omega

theorem toStr_of_good {c : Nat} (h : Good c) : toStr c = encode c := toStr_good' h

theorem toStr_ne_nil {c : Nat} (h : Good c) : toStr c ≠ [] := by
  intro e
  have := (encode_length (c := c)).2
  rw [toStr_of_good h] at e
  rw [e] at this
  simp at this

theorem octets_cons (c : Nat) (ks : List Nat) : octets (c :: ks) = encode c ++ octets ks := by
  simp [octets]

theorem octets_zero {ks : List Nat} (h : ∀ c ∈ ks, c ≠ 0 ∧ Good c) : 0 ∉ octets ks := by
  intro hm
  simp only [octets, List.mem_flatMap] at hm
  obtain ⟨c, hc, h0⟩ := hm
  exact encode_zero (h c hc).1 h0

theorem octets_length (ks : List Nat) : (octets ks).length ≤ 4 * ks.length := by
  induction ks with
  | nil => simp [octets]
  | cons c ks ih =>
    have := (encode_length (c := c)).1
    rw [octets_cons]
    simp; omega

theorem octets_inj {ks ks' : List Nat} (h : ∀ c ∈ ks, c ≠ 0 ∧ Good c) (h' : ∀ c ∈ ks', c ≠ 0 ∧ Good c)
    (he : octets ks = octets ks') : ks = ks' := by
  induction ks generalizing ks' with
  | nil =>
    cases ks' with
    | nil => rfl
    | cons c ks' =>
      have := (encode_length (c := c)).2
      rw [octets_cons] at he
      have hl := congrArg List.length he
      simp only [octets, List.flatMap_nil, List.length_nil, List.length_append] at hl
      omega
  | cons c ks ih =>
    cases ks' with
    | nil =>
      have := (encode_length (c := c)).2
      rw [octets_cons] at he
      have hl := congrArg List.length he
      simp only [octets, List.flatMap_nil, List.length_nil, List.length_append] at hl
      omega
    | cons c' ks' =>
      rw [octets_cons, octets_cons] at he
      have e1 := convert_encode' (good_lt (h c (by simp)).2) (octets ks)
      have e2 := convert_encode' (good_lt (h' c' (by simp)).2) (octets ks')
      rw [he, e2] at e1
      cases e1
      rw [List.append_cancel_left_eq] at he
      rw [ih (fun x hx => h x (by simp [hx])) (fun x hx => h' x (by simp [hx])) he]

/-! ### Pushing symbols -/

/-- `m'` differs from `m` only in the key block from `n` on. -/
structure Ext (n : Nat) (m m' : Map) : Prop where
  values : m'.values = m.values
  alloc : m'.valuesAlloc = m.valuesAlloc
  size : m'.keysSize = m.keysSize
  same : ∀ i, i < n → m'.keys[i]? = m.keys[i]?
  len : m.keys.length ≤ m'.keys.length
  max : m'.keys.length ≤ 2305843009213693952

theorem Ext.trans {n n' : Nat} {m m' m'' : Map} (h : Ext n m m') (h' : Ext n' m' m'') (hn : n ≤ n') :
    Ext n m m'' :=
  ⟨h'.values.trans h.values, h'.alloc.trans h.alloc, h'.size.trans h.size,
    fun i hi => (h'.same i (by omega)).trans (h.same i hi), Nat.le_trans h.len h'.len, h'.max⟩

theorem addKeySymbol_spec {m : Map} {n ch : Nat} (ok : Bool) (fuel : Nat) (hn : m.keysNext = some n)
    (h1 : n ≤ m.keys.length) (h2 : 2048 ≤ m.keys.length) (h3 : m.keys.length ≤ 2305843009213693952)
    (h4 : n + 8 < 1152921504606846976) (hg : Good ch) :
    (∃ m', addKeySymbol (fuel + 2) m ch ok = some (some m') ∧ Ext n m m' ∧
      m'.keysNext = some (n + (encode ch).length) ∧ BytesAt m'.keys n (encode ch ++ [0]) ∧
      n + (encode ch).length + 1 ≤ m'.keys.length) ∨
    (ok = false ∧ addKeySymbol (fuel + 2) m ch ok = some none) := by
  have hstep : ∀ (f : Nat) (m : Map), m.keysNext = some n → n + 8 ≤ m.keys.length →
      m.keys.length ≤ 2305843009213693952 →
      ∃ m', addKeySymbol (f + 1) m ch ok = some (some m') ∧ Ext n m m' ∧
        m'.keysNext = some (n + (encode ch).length) ∧ BytesAt m'.keys n (encode ch ++ [0]) ∧
        n + (encode ch).length + 1 ≤ m'.keys.length := by
    intro f m hn hl hm
    have hlen := (encode_length (c := ch)).1
    obtain ⟨mem', e1, e2, e3, e4⟩ := store_spec (mem := m.keys) (pos := n) (bs := encode ch ++ [0])
      (by simp; omega)
    refine ⟨{ m with keys := mem', keysNext := some (n + (encode ch).length) }, ?_, ?_, rfl, e4, ?_⟩
    · have hu : usub m.keys.length n = m.keys.length - n := usub_of_le (by omega) (by omega)
      unfold addKeySymbol
      rw [hn]
      dsimp only
      rw [hu, if_pos (by unfold MAX_SYMBOL_SIZE; omega)]
      unfold storeSymbol
      rw [if_neg (toStr_ne_nil hg), toStr_of_good hg, e1]
    · exact ⟨rfl, rfl, rfl, e3, by simp [e2], by simp [e2]; exact hm⟩
    · simp [e2]; omega
  by_cases hr : n + 8 ≤ m.keys.length
  · left
    exact hstep (fuel + 1) m hn hr h3
  · have hu : usub m.keys.length n = m.keys.length - n := usub_of_le (by omega) (by omega)
    have hz : usz (2 * m.keys.length) = 2 * m.keys.length := usz_of_lt (by omega)
    cases ok with
    | false =>
      right
      refine ⟨rfl, ?_⟩
      unfold addKeySymbol
      rw [hn]
      dsimp only
      rw [hu, if_neg (by unfold MAX_SYMBOL_SIZE; omega)]
      rfl
    | true =>
      left
      have hlen : (reallocOctets m.keys (2 * m.keys.length)).length = 2 * m.keys.length := by
        simp [reallocOctets]; omega
      obtain ⟨m', e1, e2, e3, e4, e5⟩ := hstep fuel
        { m with keys := reallocOctets m.keys (2 * m.keys.length) } hn
        (by simp only [hlen]; omega) (by simp only [hlen]; omega)
      refine ⟨m', ?_, ?_, e3, e4, e5⟩
      · unfold addKeySymbol
        rw [hn]
        dsimp only
        rw [hu, if_neg (by unfold MAX_SYMBOL_SIZE; omega), hz, if_pos rfl, ← hn]
        exact e1
      · refine ⟨e2.values, e2.alloc, e2.size, ?_, ?_, e2.max⟩
        · intro i hi
          rw [e2.same i hi]
          simp only [reallocOctets]
          rw [List.getElem?_append_left (by simp; omega), List.getElem?_take]
          simp; omega
        · have := e2.len
          simp only [hlen] at this
          omega

theorem growFuel_eq : 62 + 2 = growFuel := by unfold growFuel; rfl

/-- Push symbols one after the other; `false` when the allocator refused. -/
def pushAll (ok : Bool) : List Nat → Map → Option (Bool × Map)
  | [], m => some (true, m)
  | c :: ks, m =>
    match addKeySymbol growFuel m c ok with
    | none => none
    | some none => some (false, m)
    | some (some m') => pushAll ok ks m'

theorem pushAll_spec {m : Map} {n : Nat} (ok : Bool) (ks : List Nat) (hn : m.keysNext = some n)
    (h1 : n ≤ m.keys.length) (h2 : 2048 ≤ m.keys.length) (h3 : m.keys.length ≤ 2305843009213693952)
    (h4 : n + (octets ks).length + 8 < 1152921504606846976) (hg : ∀ c ∈ ks, Good c) :
    (∃ m', pushAll ok ks m = some (true, m') ∧ Ext n m m' ∧
      m'.keysNext = some (n + (octets ks).length) ∧ BytesAt m'.keys n (octets ks) ∧
      (ks ≠ [] → BytesAt m'.keys n (octets ks ++ [0]) ∧ n + (octets ks).length + 1 ≤ m'.keys.length)) ∨
    (ok = false ∧ ∃ m', pushAll ok ks m = some (false, m') ∧ Ext n m m') := by
  induction ks generalizing m n with
  | nil =>
    left
    refine ⟨m, rfl, ⟨rfl, rfl, rfl, fun _ _ => rfl, Nat.le_refl _, h3⟩, by simpa [octets] using hn,
      trivial, fun h => absurd rfl h⟩
  | cons c ks ih =>
    rw [octets_cons] at h4 ⊢
    simp only [List.length_append] at h4 ⊢
    rcases growFuel_eq ▸ addKeySymbol_spec ok 62 hn h1 h2 h3 (by omega) (hg c (by simp)) with
      ⟨m1, e1, e2, e3, e4, e5⟩ | ⟨rfl, e1⟩
    · rcases ih (m := m1) e3 (by omega) (Nat.le_trans h2 e2.len) e2.max (by omega)
        (fun x hx => hg x (by simp [hx])) with ⟨m', f1, f2, f3, f4, f5⟩ | ⟨rfl, m', f1, f2⟩
      · left
        refine ⟨m', by simp [pushAll, e1, f1], e2.trans f2 (by omega), ?_, ?_, ?_⟩
        · rw [f3, Nat.add_assoc]
        · rw [bytesAt_append]
          exact ⟨bytesAt_mono (bytesAt_append.1 e4).1 (Nat.le_refl _) f2.same, f4⟩
        · intro _
          rw [List.append_assoc, bytesAt_append]
          by_cases hk : ks = []
          · subst hk
            simp only [pushAll, Option.some.injEq, Prod.mk.injEq, true_and] at f1
            subst f1
            rw [bytesAt_append] at e4
            simp only [octets, List.flatMap_nil, List.nil_append, List.length_nil, Nat.add_zero]
            exact ⟨e4, e5⟩
          · refine ⟨⟨bytesAt_mono (bytesAt_append.1 e4).1 (Nat.le_refl _) f2.same, (f5 hk).1⟩, ?_⟩
            have := (f5 hk).2
            omega
      · right
        exact ⟨rfl, m', by simp [pushAll, e1, f1], e2.trans f2 (by omega)⟩
    · right
      exact ⟨rfl, m, by simp [pushAll, e1],
        ⟨rfl, rfl, rfl, fun _ _ => rfl, Nat.le_refl _, h3⟩⟩

/-- The running sum of the code points. -/
def usum (h : Nat) : List Nat → Nat
  | [] => h
  | c :: ks => usum (usz (h + c)) ks

/-- The bucket of a key text. -/
def keyHash (ks : List Nat) : Nat := ks.sum % 256

theorem usum_mod (h : Nat) (ks : List Nat) : usum h ks % 256 = (h + ks.sum) % 256 := by
  induction ks generalizing h with
  | nil => simp [usum]
  | cons c ks ih =>
    simp only [usum, ih, List.sum_cons]
    unfold usz
    omega

def hashed (h : Nat) (ks : List Nat) (r : Bool × Map) : Hashed :=
  (if r.1 then some (usum h ks % 256) else none, r.2)

theorem hashUtf8Loop_eq (ok : Bool) (ks : List Nat) (m : Map) (h : Nat) (hz : 0 ∉ ks) :
    hashUtf8Loop ok (ks ++ [0]) m h = (pushAll ok ks m).map (hashed h ks) := by
  induction ks generalizing m h with
  | nil => simp [hashUtf8Loop, pushAll, hashed, usum, MAP_HASH_MAX]
  | cons c ks ih =>
    simp only [List.mem_cons, not_or] at hz
    have hc : c ≠ 0 := fun e => hz.1 e.symm
    simp only [List.cons_append, hashUtf8Loop, hc, if_false, pushAll]
    cases addKeySymbol growFuel m c ok with
    | none => rfl
    | some r =>
      cases r with
      | none => rfl
      | some m' => simp only [ih m' _ hz.2]; rfl

theorem hashIoLoop_eq (ok : Bool) (ks tail : List Nat) (m : Map) (h : Nat)
    (hk : ∀ x ∈ ks, isLetter x = true ∨ isDigit x = true)
    (ht : ∀ x, tail.head? = some x → isLetter x = false ∧ isDigit x = false) :
    hashIoLoop ok (ks ++ tail) m h = (pushAll ok ks m).map (hashed h ks) := by
  induction ks generalizing m h with
  | nil =>
    cases tail with
    | nil => simp [hashIoLoop, pushAll, hashed, usum, MAP_HASH_MAX]
    | cons x tail =>
      have := ht x rfl
      simp [hashIoLoop, this.1, this.2, pushAll, hashed, usum, MAP_HASH_MAX]
  | cons c ks ih =>
    have hc : (isLetter c || isDigit c) = true := by
      rcases hk c (by simp) with h | h <;> simp [h]
    simp only [List.cons_append, hashIoLoop, hc, if_true, pushAll]
    cases addKeySymbol growFuel m c ok with
    | none => rfl
    | some r =>
      cases r with
      | none => rfl
      | some m' => simp only [ih m' _ (fun x hx => hk x (by simp [hx]))]; rfl

theorem addKeySymbol_next {f : Nat} {m m' : Map} {ch n : Nat} {ok : Bool} (hn : m.keysNext = some n)
    (h : addKeySymbol f m ch ok = some (some m')) :
    m'.keysNext = some (n + (toStr ch).length) ∧ m'.keysSize = m.keysSize := by
  induction f generalizing m with
  | zero => simp [addKeySymbol] at h
  | succ f ih =>
    unfold addKeySymbol at h
    rw [hn] at h
    dsimp only at h
    split at h
    · split at h
      · simp at h
      · simp only [Option.some.injEq] at h
        subst h
        exact ⟨rfl, rfl⟩
    · split at h
      · exact ih (m := { m with keys := reallocOctets m.keys (usz (2 * m.keys.length)) }) hn (by rw [hn]; exact h)
      · simp at h

theorem hashStrStep_end {key : List Nat} {ok : Bool} {m : Map} {h n : Nat} (hn : m.keysNext = some n)
    (hr : keyRest key n m.keysSize = [0]) :
    hashStrStep key ok m h = some (.inl (some (h % 256), m)) := by
  unfold hashStrStep
  simp only [hn, hr, if_true, MAP_HASH_MAX]

theorem hashStrStep_next {key : List Nat} {ok : Bool} {m : Map} {h n c b : Nat} {s : List Nat}
    (hn : m.keysNext = some n) (hr : keyRest key n m.keysSize = b :: s) (hb : b ≠ 0)
    (hc : convert (b :: s) = some c) :
    hashStrStep key ok m h =
      (addKeySymbol growFuel m c ok).map fun
        | none => .inl (none, m)
        | some m' => .inr (m', usz (h + c)) := by
  unfold hashStrStep
  simp only [hn, hr, hb, hc, if_false]
  cases addKeySymbol growFuel m c ok with
  | none => rfl
  | some r => cases r <;> rfl

theorem hashStrLoop_eq (ok : Bool) (done ks : List Nat) (m : Map) (h fuel : Nat)
    (hn : m.keysNext = some (m.keysSize + (octets done).length))
    (hb : m.keysSize + (octets done).length + (octets ks).length < 1152921504606846976)
    (hg : ∀ c ∈ ks, c ≠ 0 ∧ Good c) (hf : ks.length < fuel) :
    hashStrLoop (octets done ++ octets ks ++ [0]) ok fuel m h = (pushAll ok ks m).map (hashed h ks) := by
  induction ks generalizing done m h fuel with
  | nil =>
    cases fuel with
    | zero => omega
    | succ fuel =>
      have hu : usub (m.keysSize + (octets done).length) m.keysSize = (octets done).length := by
        rw [usub_of_le (by omega) (by omega)]; omega
      have hr : keyRest (octets done ++ octets [] ++ [0]) (m.keysSize + (octets done).length) m.keysSize =
          [0] := by
        unfold keyRest
        rw [hu]
        simp [octets]
      unfold hashStrLoop
      rw [hashStrStep_end hn hr]
      simp [pushAll, hashed, usum]
  | cons c ks ih =>
    cases fuel with
    | zero => omega
    | succ fuel =>
      have hc := hg c (by simp)
      rw [octets_cons] at hb ⊢
      simp only [List.length_append] at hb
      have hu : usub (m.keysSize + (octets done).length) m.keysSize = (octets done).length := by
        rw [usub_of_le (by omega) (by omega)]; omega
      have hcv := convert_encode' (good_lt hc.2) (octets ks ++ [0])
      obtain ⟨b, s, e1, _, e3⟩ := symbolSize_encode' (good_lt hc.2)
      have hb0 : b ≠ 0 := fun e => hc.1 (e3.1 e)
      rw [e1, List.cons_append] at hcv
      have hr : keyRest (octets done ++ (encode c ++ octets ks) ++ [0])
          (m.keysSize + (octets done).length) m.keysSize = b :: (s ++ (octets ks ++ [0])) := by
        unfold keyRest
        rw [hu, e1]
        simp
      unfold hashStrLoop
      rw [hashStrStep_next hn hr hb0 hcv]
      simp only [pushAll]
      cases hk : addKeySymbol growFuel m c ok with
      | none => rfl
      | some r =>
        cases r with
        | none => rfl
        | some m' =>
          obtain ⟨f1, f2⟩ := addKeySymbol_next hn hk
          rw [toStr_of_good hc.2] at f1
          have hod : octets (done ++ [c]) = octets done ++ encode c := by simp [octets]
          have := ih (done ++ [c]) m' (usz (h + c)) fuel
            (by rw [f1, f2, hod, List.length_append, Nat.add_assoc])
            (by rw [f2, hod, List.length_append]; omega)
            (fun x hx => hg x (by simp [hx])) (by simp at hf; omega)
          rw [hod] at this
          simp only [List.append_assoc] at this ⊢
          simp only [Option.map_some, this]
          rfl

theorem isLetter_good {c : Nat} (h : isLetter c = true ∨ isDigit c = true ∨ c = 35) : c ≠ 0 ∧ Good c := by
  unfold isLetter isRussian isDigit at h
  simp only [Bool.or_eq_true, Bool.and_eq_true, decide_eq_true_eq, beq_iff_eq] at h
  unfold Good
  omega

/-- What reading a key argument does: the text stands behind the stored keys, or the allocator
refused. -/
theorem getHash_spec {m : Map} {a : KeyArg} {ks : List Nat} (ok : Bool) (hd : Denotes a ks)
    (hv : ValidKey ks) (h1 : m.keysSize ≤ m.keys.length) (h2 : 2048 ≤ m.keys.length)
    (h3 : m.keys.length ≤ 2305843009213693952)
    (h4 : m.keysSize + (octets ks).length + 8 < 1152921504606846976) :
    (∃ m', getHash m a ok = some (some (keyHash ks), m') ∧ Ext m.keysSize m m' ∧
      m'.keysNext = some (m.keysSize + (octets ks).length) ∧
      BytesAt m'.keys m.keysSize (octets ks ++ [0]) ∧
      m.keysSize + (octets ks).length + 1 ≤ m'.keys.length) ∨
    (ok = false ∧ ∃ m', getHash m a ok = some (none, m') ∧ Ext m.keysSize m m') := by
  have hg : ∀ c ∈ ks, Good c := fun c hc => (hv.2 c hc).2
  have key : getHash m a ok =
      (pushAll ok ks { m with keysNext := some m.keysSize }).map (hashed 0 ks) := by
    cases hd with
    | str =>
      obtain ⟨c, ks, rfl⟩ := List.exists_cons_of_ne_nil hv.1
      have hc := hv.2 c (by simp)
      have := hashStrLoop_eq ok [] (c :: ks) { m with keysNext := some m.keysSize } 0
        ((octets (c :: ks) ++ [0]).length + 1) (by simp [octets]) (by simp [octets] at h4 ⊢; omega)
        hv.2 (by
          have : ∀ ks : List Nat, ks.length ≤ (octets ks).length := by
            intro ks
            induction ks with
            | nil => simp
            | cons c ks ih =>
              have := (encode_length (c := c)).2
              rw [octets_cons]; simp; omega
          have := this (c :: ks)
          simp only [List.length_append] at this ⊢; omega)
      simp only [octets, List.flatMap_nil, List.nil_append] at this
      obtain ⟨b, s, e1, _, e3⟩ := symbolSize_encode' (good_lt hc.2)
      have hb0 : b ≠ 0 := fun e => hc.1 (e3.1 e)
      simp only [getHash, getHashStr]
      have ho : octets (c :: ks) ++ [0] = b :: (s ++ octets ks ++ [0]) := by
        rw [octets_cons, e1]; simp
      rw [← this]
      change (match octets (c :: ks) ++ [0] with
        | [] => none
        | b :: _ => if b = 0 then some (none, m)
            else hashStrLoop (octets (c :: ks) ++ [0]) ok ((octets (c :: ks) ++ [0]).length + 1) _ 0) =
          hashStrLoop (octets (c :: ks) ++ [0]) ok ((octets (c :: ks) ++ [0]).length + 1) _ 0
      rw [ho]
      dsimp only
      rw [if_neg hb0]
    | utf8 =>
      obtain ⟨c, ks, rfl⟩ := List.exists_cons_of_ne_nil hv.1
      have hc := hv.2 c (by simp)
      rw [← hashUtf8Loop_eq ok (c :: ks) _ 0 (fun h => (hv.2 0 h).1 rfl)]
      simp [getHash, getHashUtf8, hc.1]
    | io c ks tail hc hk ht =>
      have hc' : (!isLetter c && c != 35) = false := by
        rcases hc with h | h <;> simp [h]
      simp only [getHash, getHashIo, List.cons_append, hc', pushAll]
      cases addKeySymbol growFuel { m with keysNext := some m.keysSize } c ok with
      | none => rfl
      | some r =>
        cases r with
        | none => rfl
        | some m' =>
          simp only [Bool.false_eq_true, if_false]
          rw [hashIoLoop_eq ok ks tail m' c hk ht]
          have hc2 : c < 18446744073709551616 := by
            have := good_lt (hv.2 c (by simp)).2; omega
          cases pushAll ok ks m' with
          | none => rfl
          | some r => simp [hashed, usum, usz_of_lt hc2]
  rcases pushAll_spec (m := { m with keysNext := some m.keysSize }) ok ks rfl h1 h2 h3 h4 hg with
    ⟨m', e1, e2, e3, e4, e5⟩ | ⟨rfl, m', e1, e2⟩
  · left
    refine ⟨m', ?_, ⟨e2.values, e2.alloc, e2.size, e2.same, e2.len, e2.max⟩, e3, (e5 hv.1).1, (e5 hv.1).2⟩
    rw [key, e1]
    simp [hashed, usum_mod, keyHash]
  · right
    refine ⟨rfl, m', ?_, ⟨e2.values, e2.alloc, e2.size, e2.same, e2.len, e2.max⟩⟩
    rw [key, e1]
    simp [hashed]

end RuC.Map
