import Verif.Checks.Init
import Verif.Utf8.Props

/-! The formats of `printf`. -/

namespace RuC.Checks

open RuC RuC.Types RuC.Expr RuC.Builder RuC.Builder.Spec RuC.Checks.Spec RuC.Utf8

variable {F : Type}

theorem asks_unique {c : Nat} {a a' : Asked} (h : (c, a) ∈ asks) (h' : (c, a') ∈ asks) : a = a' :=
  (by decide : ∀ p ∈ asks, ∀ q ∈ asks, p.1 = q.1 → p.2 = q.2) _ h _ h' rfl

theorem format_unique {cs : List Nat} {as : List Asked} (h : Format cs as) : ∀ {as'}, Format cs as' → as = as' := by
  induction h with
  | done => intro as' k; cases k; rfl
  | text hc _ ih =>
    intro as' k
    cases k with
    | text _ k => exact ih k
    | percent => exact absurd rfl hc
    | value => exact absurd rfl hc
  | percent _ ih =>
    intro as' k
    cases k with
    | text hc _ => exact absurd rfl hc
    | percent k => exact ih k
    | value k _ => simp [asks] at k
  | @value c a cs as hc _ ih =>
    intro as' k
    cases k with
    | text hc _ => exact absurd rfl hc
    | percent k => simp [asks] at hc
    | @value _ a' _ _ k k' =>
      rw [ih k', asks_unique hc k]

theorem specifier_spec (str : Int) (c : Nat) :
    (∃ a, (c, a) ∈ asks ∧ specifier str c = .value (a.type str)) ∨ (c = 37 ∧ specifier str c = .percent) ∨
    (c ≠ 37 ∧ (∀ a, (c, a) ∉ asks) ∧ specifier str c = .wrong) := by
  unfold specifier
  by_cases h1 : c = 105 ∨ c = 0x446 ∨ c = 99 ∨ c = 0x43B
  · rw [if_pos h1]
    exact Or.inl ⟨.int, by rcases h1 with rfl | rfl | rfl | rfl <;> decide, rfl⟩
  rw [if_neg h1]
  by_cases h2 : c = 102 ∨ c = 0x432
  · rw [if_pos h2]
    exact Or.inl ⟨.float, by rcases h2 with rfl | rfl <;> decide, rfl⟩
  rw [if_neg h2]
  by_cases h3 : c = 115 ∨ c = 0x441
  · rw [if_pos h3]
    exact Or.inl ⟨.string, by rcases h3 with rfl | rfl <;> decide, rfl⟩
  rw [if_neg h3]
  by_cases h4 : c = 37
  · rw [if_pos h4]; exact Or.inr (Or.inl ⟨h4, rfl⟩)
  rw [if_neg h4]
  refine Or.inr (Or.inr ⟨h4, fun a k => ?_, rfl⟩)
  unfold asks at k
  simp only [List.mem_cons, Prod.mk.injEq, List.not_mem_nil, or_false] at k
  omega

theorem octets_cons (c : Nat) (cs : List Nat) : octets (c :: cs) = encode c ++ octets cs := by
  unfold octets
  simp

/-- Reading one code point of a string. -/
theorem read_octets {c : Nat} (hc : c < 0x200000) (h0 : 0 < c) (rest : List Nat) :
    ∃ b s, encode c ++ rest = b :: s ∧ b ≠ 0 ∧ convert (b :: s) = some c ∧ (b :: s).drop (symbolSize b) = rest := by
  obtain ⟨b, s, h1, h2⟩ := utf8_symbol_size_exact hc
  refine ⟨b, s ++ rest, by rw [h1]; rfl, ?_, ?_, ?_⟩
  · rintro rfl
    unfold encode at h1
    repeat' split at h1
    all_goals
      simp only [List.cons.injEq] at h1
      omega
  · have := utf8_convert_encode hc rest
    rw [h1] at this
    exact this
  · rw [h2, h1, ← List.cons_append, List.drop_left]

theorem encode_length_pos (c : Nat) : 0 < (encode c).length := by
  unfold encode
  repeat' split
  all_goals simp

theorem octets_length (cs : List Nat) : cs.length < (octets cs).length := by
  induction cs with
  | nil => simp [octets]
  | cons c cs ih =>
    rw [octets_cons, List.length_append, List.length_cons]
    have := encode_length_pos c
    omega

theorem convert_end : convert (octets []) = some 0 := by decide +kernel

/-- What is found in a format. -/
theorem evaluate_spec (str : Int) : ∀ (fuel : Nat) (cs : List Nat) (args : List Int), cs.length < fuel → (∀ c ∈ cs, 0 < c ∧ c < 0x200000) → args.length ≤ 20 →
    (∃ as, Format cs as ∧ args.length + as.length ≤ 20 ∧ evaluateArgs str fuel (octets cs) args = some (some (args ++ as.map (Asked.type str)))) ∨
    ((∀ as, Format cs as → 20 < args.length + as.length) ∧ evaluateArgs str fuel (octets cs) args = some none) := by
  intro fuel
  induction fuel with
  | zero => intro cs args h; omega
  | succ fuel ih =>
    intro cs args hf hcs ha
    cases cs with
    | nil =>
      refine Or.inl ⟨[], .done, by simpa using ha, ?_⟩
      show evaluateArgs str (fuel + 1) [0] args = _
      rw [evaluateArgs, if_pos rfl]
      simp
    | cons c cs =>
      obtain ⟨c0, c1⟩ := hcs c List.mem_cons_self
      obtain ⟨b, s, e, hb, hcv, hd⟩ := read_octets c1 c0 (octets cs)
      rw [octets_cons, e, evaluateArgs, if_neg hb, hcv]
      simp only [hd]
      simp only [List.length_cons] at hf
      by_cases hp : c = 37
      · subst hp
        rw [if_pos rfl]
        cases cs with
        | nil =>
          rw [convert_end]
          simp only
          refine Or.inr ⟨fun as k => ?_, ?_⟩
          · cases k with
            | text h => exact absurd rfl h
          · by_cases h : 0 ≠ 37 ∧ args.length = MAX_PRINTF_ARGS
            · rw [if_pos h]
            · rw [if_neg h]
              rfl
        | cons c' cs =>
          obtain ⟨c0', c1'⟩ := hcs c' (by simp)
          obtain ⟨b', s', e', hb', hcv', hd'⟩ := read_octets c1' c0' (octets cs)
          have hcs' : ∀ c ∈ cs, 0 < c ∧ c < 0x200000 := fun x hx => hcs x (by simp [hx])
          rw [octets_cons, e', hcv']
          simp only [List.headD_cons, hd']
          simp only [List.length_cons] at hf
          rcases specifier_spec str c' with ⟨a, k1, k2⟩ | ⟨k1, k2⟩ | ⟨k0, k1, k2⟩
          · have hne : c' ≠ 37 := by rintro rfl; simp [asks] at k1
            have uni : ∀ {as}, Format (37 :: c' :: cs) as → ∃ as', as = a :: as' ∧ Format cs as' := by
              intro as h
              cases h with
              | text h => exact absurd rfl h
              | percent => exact absurd rfl hne
              | @value _ a' _ as' h h' =>
                exact ⟨as', by rw [asks_unique h k1], h'⟩
            rw [k2]
            by_cases hl : args.length = 20
            · rw [if_pos ⟨hne, hl⟩]
              refine Or.inr ⟨fun as h => ?_, rfl⟩
              obtain ⟨as', rfl, -⟩ := uni h
              simp only [List.length_cons]
              omega
            · rw [if_neg (fun h => hl h.2)]
              have hl2 : (args ++ [a.type str]).length = args.length + 1 := by simp
              rcases ih cs (args ++ [a.type str]) (by omega) hcs' (by omega) with ⟨as, i1, i2, i3⟩ | ⟨i1, i2⟩
              · refine Or.inl ⟨a :: as, .value k1 i1, by simp only [List.length_cons]; omega, ?_⟩
                simp only
                rw [i3]
                simp
              · refine Or.inr ⟨fun as h => ?_, i2⟩
                obtain ⟨as', rfl, h'⟩ := uni h
                have := i1 as' h'
                simp only [List.length_cons]
                omega
          · subst k1
            rw [k2, if_neg (fun h => h.1 rfl)]
            rcases ih cs args (by omega) hcs' ha with ⟨as, i1, i2, i3⟩ | ⟨i1, i2⟩
            · exact Or.inl ⟨as, .percent i1, i2, i3⟩
            · refine Or.inr ⟨fun as h => ?_, i2⟩
              cases h with
              | text h => exact absurd rfl h
              | percent h => exact i1 as h
              | value h => simp [asks] at h
          · refine Or.inr ⟨fun as h => ?_, ?_⟩
            · cases h with
              | text h => exact absurd rfl h
              | percent => exact absurd rfl k0
              | value h => exact absurd h (k1 _)
            · rw [k2]
              split <;> rfl
      · rw [if_neg hp]
        rcases ih cs args (by omega) (fun x hx => hcs x (by simp [hx])) ha with ⟨as, i1, i2, i3⟩ | ⟨i1, i2⟩
        · exact Or.inl ⟨as, .text hp i1, i2, i3⟩
        · refine Or.inr ⟨fun as h => ?_, i2⟩
          cases h with
          | text _ h => exact i1 as h
          | percent => exact absurd rfl hp
          | value => exact absurd rfl hp

/-- The arguments of a call. -/
theorem judged_args (D : Doubles F) {cells : List Int} (hlen : cells.length < 4611686018427387904) (hc : Clean cells) :
    ∀ (ts : List Int) (es : List (Ex F)), ts.length = es.length → (∀ t ∈ ts, Full cells t) → (∀ e ∈ es, Ready cells e) →
    (TakesAll cells ts es ∧ ∃ es', checkArgs D cells ts es = .ok es' ∧ es'.length = es.length ∧
      ∀ (i : Nat) t e e', ts[i]? = some t → es[i]? = some e → es'[i]? = some e' → Stored cells t e e') ∨
    (¬TakesAll cells ts es ∧ checkArgs D cells ts es = .bad) := by
  intro ts
  induction ts with
  | nil =>
    intro es hl _ _
    cases es with
    | nil => exact Or.inl ⟨⟨rfl, nofun⟩, [], by rw [checkArgs], rfl, nofun⟩
    | cons => simp at hl
  | cons t ts ih =>
    intro es hl ht he
    cases es with
    | nil => simp at hl
    | cons e es =>
      simp only [List.length_cons, Nat.add_right_cancel_iff] at hl
      rw [checkArgs]
      simp only [bind_eq, pure_eq]
      rcases judged hlen D hc true (he e List.mem_cons_self) (ht t List.mem_cons_self) with ⟨k1, e', k2, k3⟩ | ⟨k1, k2⟩
      · rw [k2]
        simp only [Out.bind]
        rcases ih es hl (fun x hx => ht x (List.mem_cons_of_mem _ hx)) (fun x hx => he x (List.mem_cons_of_mem _ hx)) with ⟨i1, es', i2, i3, i4⟩ | ⟨i1, i2⟩
        · rw [i2]
          refine Or.inl ⟨⟨by simp [hl], fun i x y hx hy => ?_⟩, _, rfl, by simp [i3], fun i x y y' hx hy hy' => ?_⟩
          · cases i with
            | zero => simp only [List.getElem?_cons_zero, Option.some.injEq] at hx hy; subst hx hy; exact k1
            | succ i => rw [List.getElem?_cons_succ] at hx hy; exact i1.2 i x y hx hy
          · cases i with
            | zero => simp only [List.getElem?_cons_zero, Option.some.injEq] at hx hy hy'; subst hx hy hy'; exact k3
            | succ i => rw [List.getElem?_cons_succ] at hx hy hy'; exact i4 i x y y' hx hy hy'
        · rw [i2]
          exact Or.inr ⟨fun k => i1 ⟨hl, fun i x y hx hy => k.2 (i + 1) x y hx hy⟩, rfl⟩
      · rw [k2]
        exact Or.inr ⟨fun k => k1 (k.2 0 t e rfl rfl), rfl⟩

theorem says_string {cells : List Int} (hlen : cells.length < 4611686018427387904) {t : Int} {T : Ty} (d : Den cells t T) :
    Says (isString cells t) (T.bare = .array .char) := by
  obtain ⟨t', e, d', k⟩ := behind_den hlen d
  obtain ⟨b, e1, i1⟩ := says_array hlen d
  unfold isString
  rw [e1]
  cases b with
  | false =>
    refine ⟨false, rfl, ⟨nofun, fun h => ?_⟩⟩
    exact absurd (i1.2 ⟨_, h⟩) (by decide)
  | true =>
    obtain ⟨E, hE⟩ := i1.1 rfl
    rw [hE] at d'
    unfold arrayElement
    rw [e, Option.map_some]
    cases d' with
    | array h0 h1 h2 h3 =>
      rename_i n u
      have g := get_some h1 hlen
      have ha : hasClass cells n TYPE_ARRAY := ⟨by omega, by rw [g.2.1, g.2.2]⟩
      rw [if_pos ha, get_some_succ h2 hlen]
      refine ⟨_, rfl, ?_⟩
      rw [decide_eq_true_iff, (builtin_den h3).1, hE]
      exact ⟨fun h => by rw [h], fun h => by injection h⟩

end RuC.Checks
