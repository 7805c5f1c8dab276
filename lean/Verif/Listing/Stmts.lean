import Verif.Listing.Exps

/-!
# Helper lemmas: the code of statements and units is made of whole instructions
-/

namespace RuC.Listing
open RuC RuC.Instr RuC.Codegen
open RuC.Expr (Unary Binary)

/-- A piece made of whole instructions, its label among them. -/
def PG (T : Int → Prop) (base : Nat) (P : Piece) : Prop := G T base P.code ∧ ∀ l : Nat, P.label = some l → T l ∨ On base P.code l

theorem PG.plain {T : Int → Prop} {base : Nat} {A : List Sym} (h : G T base A) : PG T base (plain A) := ⟨h, by intro l hl; cases hl⟩

theorem PG.mono {T U : Int → Prop} {base : Nat} {P : Piece} (h : PG T base P) (hTU : ∀ v, T v → U v) : PG U base P :=
  ⟨h.1.mono hTU, fun l hl => (h.2 l hl).imp (hTU _) id⟩

theorem PG.of_non {T : Int → Prop} {base : Nat} {P : Piece} (h : PG Non base P) : PG T base P := h.mono fun _ hv => hv.elim

theorem PG.close {T U : Int → Prop} {base : Nat} {P : Piece} (h : PG T base P) (hT : ∀ v, T v → U v ∨ On base P.code v) : PG U base P :=
  ⟨h.1.close hT, fun l hl => (h.2 l hl).elim (hT _) .inr⟩

theorem PG.fill {T : Int → Prop} {base : Nat} {P : Piece} {k : Sym} {w : Int} (hk : opArgs k = none) (hw : T w) (h : PG T base P) : PG T base (P.fill k w) :=
  ⟨h.1.fill hk hw, fun l hl => (h.2 l hl).imp id (On.fill hk)⟩

theorem toLabel_length (l : Option Nat) (A : List Sym) : (toLabel l A).length = A.length := by
  cases l with
  | none => rfl
  | some l => exact fill_length _ _ _

theorem join_length (P Q : Piece) : (P.join Q).code.length = P.code.length + Q.code.length := by
  show (toLabel Q.label P.code ++ Q.code).length = _
  rw [List.length_append, toLabel_length]

theorem on_toLabel {base : Nat} {A : List Sym} {v : Int} (l : Option Nat) (h : On base A v) : On base (toLabel l A) v := by
  cases l with
  | none => exact h
  | some l => exact h.fill rfl

theorem whole_toLabel {A : List Sym} (l : Option Nat) (h : Whole A) : Whole (toLabel l A) := by
  cases l with
  | none => exact h
  | some l => exact h.fill_whole rfl

theorem PG.join {T : Int → Prop} {base b : Nat} {P Q : Piece} (hP : PG T base P) (hQ : PG T b Q) (hb : b = base + P.code.length) : PG T base (P.join Q) := by
  have hw : Whole (toLabel Q.label P.code) := whole_toLabel _ hP.1.whole
  have hb' : b = base + (toLabel Q.label P.code).length := by rw [toLabel_length]; exact hb
  have hPl : ∀ v, On base P.code v → On base (toLabel Q.label P.code ++ Q.code) v := fun v hv => (on_toLabel _ hv).left hQ.1.whole
  have hQl : ∀ v, On b Q.code v → On base (toLabel Q.label P.code ++ Q.code) v := fun v hv => hv.right hb' hw
  refine ⟨?_, ?_⟩
  · show Lands _ (toLabel Q.label P.code ++ Q.code)
    refine Lands.append ?_ (Lands.mono (fun v hv => hv.imp id (hQl v)) hQ.1)
    have h1 : Lands (fun v => T v ∨ On base (toLabel Q.label P.code ++ Q.code) v) P.code := Lands.mono (fun v hv => hv.imp id (hPl v)) hP.1
    cases hl : Q.label with
    | none => simpa [hl, toLabel, Piece.join] using h1
    | some l =>
      have h2 := hQ.2 l hl
      have h3 : T (l : Int) ∨ On base (toLabel Q.label P.code ++ Q.code) (l : Int) := h2.imp id (hQl _)
      have := Lands.fill (k := .next) rfl h3 h1
      have e : (P.join Q).code = toLabel Q.label P.code ++ Q.code := rfl
      rw [e]
      exact this
  · intro l hl
    have hl' : P.label.or Q.label = some l := hl
    cases hp : P.label with
    | none =>
      rw [hp, Option.none_or] at hl'
      exact (hQ.2 l hl').imp id (hQl _)
    | some l' =>
      rw [hp, Option.some_or] at hl'
      exact (hP.2 l (by rw [hp]; exact hl')).imp id (hPl _)

theorem codeV_G (D : Nat → Int) {e : Exp} {base : Nat} (h : e.FineV) : G Non base (codeV D base e) := by
  unfold codeV
  by_cases hl : e.isLvalue = true
  · rw [if_pos hl]; exact codeL_G D e base h.1
  · rw [if_neg hl]
    have he := codeE_G D e base h.1
    exact he.1.void (he.2 (h.2.resolve_left hl))

theorem codeOpt_G (D : Nat → Int) {c : Option Exp} {base : Nat} (h : ∀ e, c = some e → e.Fine) : G Non base (codeOpt D base c) := by
  cases c with
  | none => exact .nil
  | some e => exact (codeE_G D e base (h e rfl)).1

theorem codeOptV_G (D : Nat → Int) {c : Option Exp} {base : Nat} (h : ∀ e, c = some e → e.FineV) : G Non base (codeOptV D base c) := by
  cases c with
  | none => exact .nil
  | some e => exact codeV_G D (h e rfl)

theorem codeVar_G (D : Nat → Int) {base : Nat} {d : Int} {t : Ty} {p : Int} {i : Option Exp} (h : ∀ e, i = some e → e.Fine) :
    G Non base (codeVar D base d t p i) := by
  have hP : ∀ b : Prop, [Decidable b] → ∀ T : Int → Prop, Lands T (vals (if b then [IC_STRUCT_WITH_ARR, d, p] else [])) := by
    intro b _ T
    split
    · exact lands_ins (show plainOp _ 2 = true by decide +kernel) T
    · exact .nil
  unfold codeVar
  cases i with
  | none => exact .of_all (hP _)
  | some e =>
    refine G.tail (G.append (.of_all (hP _)) (codeE_G D e _ (h e rfl)).1 rfl) ?_
    intro T
    have h1 : plainOp IC_ASSIGN_V 1 = true := by decide +kernel
    have h2 : plainOp IC_ASSIGN_R_V 1 = true := by decide +kernel
    have h3 : plainOp IC_COPY0ST_ASSIGN 2 = true := by decide +kernel
    cases t
    case «structure» n => exact lands_ins (v := IC_COPY0ST_ASSIGN) (l := [d, (n : Int)]) h3 T
    case floating => exact lands_ins (v := IC_ASSIGN_R_V) (l := [d]) h2 T
    all_goals exact lands_ins (v := IC_ASSIGN_V) (l := [d]) h1 T

theorem codeArr_G (D0 D : Nat → Int) {base : Nat} {d : Int} {bs : Args} {n : Nat} {em : Bool} {t : Ty} {p : Int} {i : Option Exp} (hb : bs.Fine)
    (h : ∀ e, i = some e → e.Fine) : G Non base (codeArr D0 D base d bs n em t p i) := by
  have h7 : plainOp IC_DEFARR 7 = true := by decide +kernel
  have h4 : plainOp IC_ARR_INIT 4 = true := by decide +kernel
  unfold codeArr
  have hB := codeA_G D0 bs base hb
  cases i with
  | none => exact hB.tail (lands_ins (v := IC_DEFARR) (l := [_, _, _, _, _, _, _]) h7)
  | some e =>
    have hH := fun a b c d e f g => hB.tail (lands_ins (v := IC_DEFARR) (l := [a, b, c, d, e, f, g]) h7)
    exact G.tail (G.append (hH _ _ _ _ _ _ _) (codeE_G D e _ (h e rfl)).1 rfl) (lands_ins (v := IC_ARR_INIT) (l := [_, _, _, _]) h4)

theorem j_BE0 : isJump IC_BE0 = true := by decide +kernel
theorem j_BNE0 : isJump IC_BNE0 = true := by decide +kernel
theorem j_B : isJump IC_B = true := by decide +kernel

theorem vals_len (l : List Int) : (vals l).length = l.length := by simp [vals]

theorem codeS_G : ∀ (s : Stmt) (L : Layout) (base : Nat), s.Fine → PG Non base (codeS L base s)
  | .skip, L, base, _ => .plain .nil
  | .seq a b, L, base, h => (codeS_G a L base h.1).join (codeS_G b _ _ h.2) rfl
  | .block s, L, base, h => codeS_G s L base h
  | .var id t p i, L, base, h => .plain (codeVar_G _ h)
  | .arr id bs n em t p i, L, base, h => .plain (codeArr_G _ _ h.1 h.2)
  | .expr e, L, base, h => .plain (codeV_G _ h)
  | .case e s, L, base, h => by
    rw [codeS]
    have hE := (codeE_G L.displs e (base + 1) h.1).1
    have hs := codeS_G s L (base + 1 + (codeE L.displs (base + 1) e).length + 3) h.2
    generalize codeE L.displs (base + 1) e = E at hE hs ⊢
    have hT : G Non base (vals [IC_DUPLICATE] ++ E ++ vals [IC_EQ, IC_BE0] ++ [.next]) := by
      have e1 : vals [IC_DUPLICATE] ++ E ++ vals [IC_EQ, IC_BE0] ++ [.next] = vals [IC_DUPLICATE] ++ E ++ vals [IC_EQ] ++ [.val IC_BE0, .next] := by
        simp [vals]
      rw [e1]
      refine G.append (b := base + 1 + E.length + 1) (G.tail (G.append (.of_all (lands_ins (show plainOp _ 0 = true by decide +kernel))) hE rfl)
        (lands_ins (show plainOp _ 0 = true by decide +kernel))) (lands_jump j_BE0 trivial) ?_
      simp [vals]; omega
    refine PG.join ⟨hT, ?_⟩ hs ?_
    · intro l hl
      have : base = l := by simpa using hl
      exact .inr (on_start hT.whole (by rw [this]))
    · simp [vals]; omega
  | .default s, L, base, h => by
    rw [codeS]
    refine PG.join (b := base) ⟨.nil, ?_⟩ (codeS_G s L base h) rfl
    intro l hl
    have : base = l := by simpa using hl
    exact .inr (on_start .nil (by rw [this]))
  | .if_ c s, L, base, h => by
    rw [codeS]
    have hC := (codeE_G L.displs c base h.1).1
    generalize codeE L.displs base c = C at hC ⊢
    have hs := codeS_G s L (base + C.length + 2) h.2
    generalize codeS L (base + C.length + 2) s = S at hs ⊢
    generalize hd : ((base + C.length + 2 + S.code.length : Nat) : Int) = d
    have h1 : PG (fun v => v = d) base (plain (C ++ vals [IC_BE0, d])) := .plain (G.append hC.of_non (.jump j_BE0 rfl) rfl)
    have h2 := h1.join hs.of_non (by simp [plain, vals]; omega)
    refine h2.close fun v hv => .inr (on_end h2.1.whole ?_)
    rw [hv, ← hd, join_length]
    simp [plain, vals]; omega
  | .ifElse c a b, L, base, h => by
    rw [codeS]
    have hC := (codeE_G L.displs c base h.1).1
    generalize codeE L.displs base c = C at hC ⊢
    have ha := codeS_G a L (base + C.length + 2) h.2.1
    generalize codeS L (base + C.length + 2) a = A at ha ⊢
    have hb := codeS_G b (layS L a) (base + C.length + 2 + A.code.length + 2) h.2.2
    generalize codeS (layS L a) (base + C.length + 2 + A.code.length + 2) b = B at hb ⊢
    generalize hd1 : ((base + C.length + 2 + A.code.length + 2 : Nat) : Int) = d1
    generalize hd2 : ((base + C.length + 2 + A.code.length + 2 + B.code.length : Nat) : Int) = d2
    have h1 : PG (fun v => v = d1 ∨ v = d2) base (plain (C ++ vals [IC_BE0, d1])) := .plain (G.append hC.of_non (.jump j_BE0 (.inl rfl)) rfl)
    have h2 := h1.join ha.of_non (by simp [plain, vals]; omega)
    have h3 := h2.join (b := base + C.length + 2 + A.code.length) (.plain (.jump j_B (.inr rfl) (v := IC_B) (d := d2))) (by rw [join_length]; simp [plain, vals]; omega)
    have h4 := h3.join hb.of_non (by rw [join_length, join_length]; simp [plain, vals]; omega)
    refine h4.close fun v hv => .inr ?_
    rcases hv with hv | hv
    · refine on_split (whole_toLabel _ h3.1.whole) hb.1.whole ?_
      rw [hv, ← hd1, toLabel_length, join_length, join_length]
      simp [plain, vals]; omega
    · refine on_end h4.1.whole ?_
      rw [hv, ← hd2, join_length, join_length, join_length]
      simp [plain, vals]; omega
  | .switch c s, L, base, h => by
    rw [codeS]
    have hC := (codeE_G L.displs c base h.1).1
    generalize codeE L.displs base c = C at hC ⊢
    have hs := codeS_G s L (base + C.length) h.2
    generalize codeS L (base + C.length) s = S at hs ⊢
    generalize hd : ((base + C.length + S.code.length : Nat) : Int) = d
    have h1 : G (fun v => v = d) base (C ++ fill .brk d (fill .next d S.code)) :=
      G.append hC.of_non (G.fill rfl rfl (G.fill rfl rfl hs.1.of_non)) rfl
    refine .plain (h1.close fun v hv => .inr (on_end h1.whole ?_))
    rw [hv, ← hd, List.length_append, fill_length, fill_length]
    omega
  | .while_ c s, L, base, h => by
    rw [codeS]
    have hC := (codeE_G L.displs c base h.1).1
    generalize codeE L.displs base c = C at hC ⊢
    have hs := codeS_G s L (base + C.length + 2) h.2
    generalize codeS L (base + C.length + 2) s = S at hs ⊢
    generalize hd : ((base + C.length + 2 + S.code.length + 2 : Nat) : Int) = d
    have h1 : PG (fun v => v = (base : Int) ∨ v = d) base (plain (C ++ vals [IC_BE0, d])) := .plain (G.append hC.of_non (.jump j_BE0 (.inr rfl)) rfl)
    have h2 := h1.join (PG.fill (k := .brk) (w := d) rfl (.inr rfl) (PG.fill (k := .cont) (w := (base : Int)) rfl (.inl rfl) hs.of_non))
      (by simp [plain, vals]; omega)
    have h3 := h2.join (.plain (.jump j_B (.inl rfl) (v := IC_B) (d := (base : Int)))) rfl
    refine h3.close fun v hv => .inr ?_
    rcases hv with hv | hv
    · exact on_start h3.1.whole hv
    · refine on_end h3.1.whole ?_
      rw [hv, ← hd, join_length, join_length]
      simp [plain, vals, Piece.fill, fill_length]; omega
  | .do_ s c, L, base, h => by
    rw [codeS]
    have hs := codeS_G s L base h.2
    generalize codeS L base s = S at hs ⊢
    have hC := (codeE_G (layS L s).displs c (base + S.code.length) h.1).1
    generalize codeE (layS L s).displs (base + S.code.length) c = C at hC ⊢
    generalize hd : ((base + S.code.length + C.length + 2 : Nat) : Int) = d
    have h1 : PG (fun v => v = (base : Int) ∨ v = ((base + S.code.length : Nat) : Int) ∨ v = d) base ((S.fill .cont ((base + S.code.length : Nat) : Int)).fill .brk d) :=
      PG.fill rfl (.inr (.inr rfl)) (PG.fill rfl (.inr (.inl rfl)) hs.of_non)
    have h2 := h1.join (.plain (G.append hC.of_non (.jump j_BNE0 (.inl rfl) (v := IC_BNE0) (d := (base : Int))) rfl)) (by simp [Piece.fill, fill_length])
    refine h2.close fun v hv => .inr ?_
    rcases hv with hv | hv | hv
    · exact on_start h2.1.whole hv
    · refine on_split (whole_toLabel _ h1.1.whole) (hC.whole.append (G.jump (T := fun _ => True) (base := 0) j_BNE0 trivial).whole) ?_
      rw [hv, toLabel_length]
      simp [Piece.fill, fill_length]
    · refine on_end h2.1.whole ?_
      rw [hv, ← hd, join_length]
      simp [plain, vals, Piece.fill, fill_length]; omega
  | .for_ i c inc s, L, base, h => by
    rw [codeS]
    have hi := codeS_G i L base h.1
    generalize codeS L base i = I at hi ⊢
    generalize hL : layS L i = L1
    have hC := codeOpt_G L1.displs (base := base + I.code.length) h.2.1
    generalize codeOpt L1.displs (base + I.code.length) c = C at hC ⊢
    generalize hk : (if c.isSome then 2 else 0) = k
    have hs := codeS_G s L1 (base + I.code.length + C.length + k) h.2.2.2
    generalize codeS L1 (base + I.code.length + C.length + k) s = S at hs ⊢
    have hN := codeOptV_G (layS L1 s).displs (base := base + I.code.length + C.length + k + S.code.length) h.2.2.1
    generalize codeOptV (layS L1 s).displs (base + I.code.length + C.length + k + S.code.length) inc = N at hN ⊢
    generalize hd1 : ((base + I.code.length : Nat) : Int) = test
    generalize hd2 : ((base + I.code.length + C.length + k + S.code.length : Nat) : Int) = step
    generalize hd3 : ((base + I.code.length + C.length + k + S.code.length + N.length + 2 : Nat) : Int) = after
    have hTl : (C ++ vals (if c.isSome then [IC_BE0, after] else [])).length = C.length + k := by
      rw [← hk]; cases c <;> simp [vals]
    have hT : G (fun v => v = test ∨ v = step ∨ v = after) (base + I.code.length) (C ++ vals (if c.isSome then [IC_BE0, after] else [])) := by
      refine G.append hC.of_non ?_ rfl
      cases c
      · exact .nil
      · exact .jump j_BE0 (.inr (.inr rfl))
    have h1 : PG (fun v => v = test ∨ v = step ∨ v = after) base (I.join (plain (C ++ vals (if c.isSome then [IC_BE0, after] else [])))) :=
      PG.join hi.of_non (.plain hT) rfl
    have hS : PG (fun v => v = test ∨ v = step ∨ v = after) (base + I.code.length + C.length + k) ((S.fill .cont step).fill .brk after) :=
      PG.fill rfl (.inr (.inr rfl)) (PG.fill rfl (.inr (.inl rfl)) hs.of_non)
    have l1 : (I.join (plain (C ++ vals (if c.isSome then [IC_BE0, after] else [])))).code.length = I.code.length + (C.length + k) := by
      rw [join_length]; show I.code.length + (C ++ _).length = _; rw [hTl]
    have h2 := h1.join hS (by rw [l1]; omega)
    have l2 : ((I.join (plain (C ++ vals (if c.isSome then [IC_BE0, after] else [])))).join ((S.fill .cont step).fill .brk after)).code.length =
        I.code.length + (C.length + k) + S.code.length := by
      rw [join_length, l1]; simp [Piece.fill, fill_length]
    have hNB : G (fun v => v = test ∨ v = step ∨ v = after) (base + I.code.length + C.length + k + S.code.length) (N ++ vals [IC_B, test]) :=
      G.append hN.of_non (.jump j_B (.inl rfl)) rfl
    have h3 := h2.join (.plain hNB) (by rw [l2]; omega)
    refine h3.close fun v hv => .inr ?_
    rcases hv with hv | hv | hv
    · -- behind the first part
      have h0 : On base (I.join (plain (C ++ vals (if c.isSome then [IC_BE0, after] else [])))).code v := by
        refine on_split (whole_toLabel _ hi.1.whole) hT.whole ?_
        rw [hv, ← hd1, toLabel_length]
      exact (on_toLabel _ ((on_toLabel _ h0).left hS.1.whole)).left hNB.whole
    · refine on_split (whole_toLabel _ h2.1.whole) hNB.whole ?_
      rw [hv, toLabel_length, l2, ← hd2]
      omega
    · refine on_end h3.1.whole ?_
      rw [hv, join_length, l2, ← hd3]
      show _ = ((base + (_ + (N ++ vals [IC_B, test]).length) : Nat) : Int)
      simp [vals]; omega
  | .continue_, L, base, _ => .plain (lands_jump j_B trivial)
  | .break_, L, base, _ => .plain (lands_jump j_B trivial)
  | .return_ none, L, base, _ => .plain (.of_all (lands_ins (show plainOp _ 0 = true by decide +kernel)))
  | .return_ (some (e, n)), L, base, h => by
    have hE := (codeE_G L.displs e base (h _ rfl)).1
    exact .plain (hE.tail (lands_ins (v := IC_RETURN_VAL) (l := [(n : Int)]) (show plainOp _ 1 = true by decide +kernel)))

theorem codeF_G {L : Layout} {base : Nat} {f : Func} (h : f.body.Fine) : G Non base (codeF L base f) := by
  unfold codeF
  have hb := (codeS_G f.body (layEntry L f) (base + 3) h).1
  generalize (codeS (layEntry L f) (base + 3) f.body).code = B at hb ⊢
  generalize (layS (layEntry L f) f.body).maxLocal = m
  generalize hd : ((base + 3 + B.length + 1 : Nat) : Int) = d
  have hF : opArgs (.val IC_FUNC_BEG) = some 2 ∧ ¬ (toInt IC_FUNC_BEG = IC_B ∨ toInt IC_FUNC_BEG = IC_BE0 ∨ toInt IC_FUNC_BEG = IC_BNE0) ∧ toInt IC_FUNC_BEG = IC_FUNC_BEG := by
    decide +kernel
  have h1 : G (fun v => v = d) base (vals [IC_FUNC_BEG, m, d]) := by
    refine Lands.one (x := .val IC_FUNC_BEG) (args := [.val m, .val d]) (by rw [hF.1]; rfl) ?_
    intro y hy
    rw [destOf, if_neg hF.2.1, if_pos hF.2.2] at hy
    have : Sym.val d = y := by simpa using hy
    exact this ▸ .inl rfl
  have h2 := G.tail (G.append h1 hb.of_non (by simp [vals])) (lands_ins (v := IC_RETURN_VOID) (l := []) (show plainOp _ 0 = true by decide +kernel))
  have h3 : G Non base (vals [IC_FUNC_BEG, m, d] ++ B ++ vals [IC_RETURN_VOID]) := by
    refine h2.close fun v hv => .inr (on_end h2.whole ?_)
    rw [hv, ← hd]
    simp [vals]; omega
  subst hd
  exact h3

theorem codeTops_G : ∀ (tops : List Top) (L : Layout) (base : Nat), (∀ t ∈ tops, t.Fine) → G Non base (codeTops L base tops)
  | [], L, base, _ => .nil
  | .vars s :: rest, L, base, h =>
    G.append (codeS_G s L base (h (.vars s) (by simp))).1 (codeTops_G rest _ _ fun t ht => h t (by simp [ht])) rfl
  | .func f :: rest, L, base, h =>
    G.append (codeF_G (h (.func f) (by simp))) (codeTops_G rest _ _ fun t ht => h t (by simp [ht])) rfl

/-- Every function begins with an instruction, and it is the beginning of a function. -/
theorem addrs_on : ∀ (tops : List Top) (L : Layout) (base : Nat), (∀ t ∈ tops, t.Fine) → ∀ a ∈ addrs L base tops,
    ∃ X Y, codeTops L base tops = X ++ .val IC_FUNC_BEG :: Y ∧ Whole X ∧ Whole (.val IC_FUNC_BEG :: Y) ∧ a = base + X.length
  | [], L, base, _, a, ha => by cases ha
  | .vars s :: rest, L, base, h, a, ha => by
    obtain ⟨X, Y, e, hX, hY, hl⟩ := addrs_on rest _ _ (fun t ht => h t (by simp [ht])) a ha
    refine ⟨(codeS L base s).code ++ X, Y, ?_, (codeS_G s L base (h (.vars s) (by simp))).1.whole.append hX, hY, by rw [hl, List.length_append]; omega⟩
    rw [List.append_assoc, ← e]; rfl
  | .func f :: rest, L, base, h, a, ha => by
    rcases List.mem_cons.1 ha with rfl | ha
    · exact ⟨[], _, rfl, .nil, (codeTops_G (.func f :: rest) L a h).whole, rfl⟩
    · obtain ⟨X, Y, e, hX, hY, hl⟩ := addrs_on rest _ _ (fun t ht => h t (by simp [ht])) a ha
      refine ⟨codeF L base f ++ X, Y, ?_, (codeF_G (h (.func f) (by simp))).whole.append hX, hY, by rw [hl, List.length_append]; omega⟩
      rw [List.append_assoc, ← e]; rfl

end RuC.Listing
