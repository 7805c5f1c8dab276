import Verif.Checks.Declare

/-! Properties of assignments of lists (rest of C34), initialisers (C57), calls (C58), formats (C59), subscripts and
members (C60), conditions and `return` (C61) and declarators (C62). -/

namespace RuC.Checks.Props

open RuC RuC.Types RuC.Types.Spec RuC.Expr RuC.Builder RuC.Builder.Spec RuC.Checks RuC.Checks.Spec

variable {F : Type}

/-! ## C34: assignments -/

/-- C34, assignments with any right side: accepted exactly when the left side is a place that takes the right side
and the operands suit the operator; what is stored is the value of the right side. -/
theorem assignment_types (D : Doubles F) {cells : List Int} (hlen : cells.length < 4611686018427387904) (hc : Clean cells) (l r : Ex F) {L R : Ty}
    (fl : Full cells l.type) (dl : Den cells l.type L) (dr : Den cells r.type R) (hr : Ready cells r) (op : Binary) (ha : isAssignment op = true) :
    (buildBinary D cells l r op = .bad ↔ ¬(l.lvalue = true ∧ Takes cells false l.type r ∧ OperandRule op L R)) ∧
    (buildBinary D cells l r op ≠ .bad → ∃ r', buildBinary D cells l r op = .ok (.assign l.type op l r') ∧ Stored cells l.type r r') := by
  unfold buildBinary
  rw [ha, if_pos rfl]
  by_cases hlv : l.lvalue = false
  · rw [if_pos hlv]
    exact ⟨⟨fun _ k => by rw [hlv] at k; exact absurd k.1 (by decide), fun _ => rfl⟩, fun k => absurd rfl k⟩
  rw [if_neg hlv]
  have hlv : l.lvalue = true := by simpa using hlv
  rcases judged hlen D hc false hr fl with ⟨k1, r', e, st⟩ | ⟨k1, e⟩ <;> rw [e]
  · simp only [Out.bind]
    unfold buildBinaryCase
    obtain ⟨b1, e1, i1⟩ := says_integer hlen hc dl
    obtain ⟨b2, e2, i2⟩ := says_integer hlen hc dr
    obtain ⟨b3, e3, i3⟩ := says_arithmetic hlen hc dl
    obtain ⟨b4, e4, i4⟩ := says_arithmetic hlen hc dr
    have arith : ∀ {b b' : Bool}, (!b || !b') = true ↔ ¬(b = true ∧ b' = true) := by decide
    cases hg : group op <;> simp only [bind_eq, pure_eq, e1, e2, e3, e4, ask, Out.bind]
    case assign =>
      have ho : OperandRule op L R := by cases op <;> first | (cases hg; done) | trivial
      exact ⟨⟨nofun, fun k => absurd ⟨hlv, k1, ho⟩ k⟩, fun _ => ⟨r', rfl, st⟩⟩
    case integralAssign =>
      have ho : OperandRule op L R ↔ (L.Integral ∧ R.Integral) := by cases op <;> first | (cases hg; done) | exact Iff.rfl
      rw [ho]
      by_cases h : (!b1 || !b2) = true
      · rw [if_pos h]
        rw [arith, i1, i2] at h
        exact ⟨⟨fun _ k => h k.2.2, fun _ => rfl⟩, fun k => absurd rfl k⟩
      · rw [if_neg h]
        rw [arith, i1, i2] at h
        exact ⟨⟨nofun, fun k => absurd ⟨hlv, k1, Classical.not_not.1 h⟩ k⟩, fun _ => ⟨r', rfl, st⟩⟩
    case arithmeticAssign =>
      have ho : OperandRule op L R ↔ (L.Arithmetic ∧ R.Arithmetic) := by cases op <;> first | (cases hg; done) | exact Iff.rfl
      rw [ho]
      by_cases h : (!b3 || !b4) = true
      · rw [if_pos h]
        rw [arith, i3, i4] at h
        exact ⟨⟨fun _ k => h k.2.2, fun _ => rfl⟩, fun k => absurd rfl k⟩
      · rw [if_neg h]
        rw [arith, i3, i4] at h
        exact ⟨⟨nofun, fun k => absurd ⟨hlv, k1, Classical.not_not.1 h⟩ k⟩, fun _ => ⟨r', rfl, st⟩⟩
    all_goals cases op <;> first | (cases hg; done) | (cases ha; done)
  · exact ⟨⟨fun _ k => k1 k.2.1, fun _ => rfl⟩, fun k => absurd rfl k⟩

/-! ## C57: initialisers and arguments -/

/-- C57: an initialiser, an argument or the right side of an assignment is refused exactly when the place does not
take it; otherwise what is stored has the value converted and the lists typed as the place demands. -/
theorem initialiser_taken (D : Doubles F) {a b : Int} {h : List (Req × Int)} {tb : Table} (w : World a b h tb) (hlen : tb.cells.length < 2305843009213693952)
    (decl : Bool) {t : Int} (ht : Of h t) {e : Ex F} (hr : Ready tb.cells e) :
    (checkAssign D tb.cells decl t e = .bad ↔ ¬Takes tb.cells decl t e) ∧
    (checkAssign D tb.cells decl t e ≠ .bad → ∃ e', checkAssign D tb.cells decl t e = .ok e' ∧ Stored tb.cells t e e') := by
  rcases judged (by omega) D (w.clean hlen) decl hr (of_full w.run hlen w.proper ht) with ⟨k, e', e1, st⟩ | ⟨k, e1⟩ <;> rw [e1]
  · exact ⟨⟨nofun, fun n => absurd k n⟩, fun _ => ⟨e', rfl, st⟩⟩
  · exact ⟨⟨fun _ => k, fun _ => rfl⟩, fun n => absurd rfl n⟩

/-! ## C58: calls -/

/-- C58: a call of an ordinary function is refused exactly when the arguments are not as many as the parameters or
one is not taken by its parameter; the call has the type of the result and is not a place. -/
theorem call_checked (D : Doubles F) {a b : Int} {h : List (Req × Int)} {tb : Table} (w : World a b h tb) (hlen : tb.cells.length < 2305843009213693952)
    (strings : Nat → List Nat) {callee : Ex F} {r : Int} {ps : List Int} (hf : (Req.function r ps, callee.type) ∈ h)
    (hs : ∀ id, identOf callee = some id → id ≠ BI_PRINTF ∧ id ≠ BI_PRINT ∧ id ≠ BI_PRINTID ∧ id ≠ BI_GETID) {args : List (Ex F)} (ha : ∀ e ∈ args, Ready tb.cells e) :
    (buildCall D tb.cells strings callee args = .bad ↔ ¬TakesAll tb.cells ps args) ∧
    (buildCall D tb.cells strings callee args ≠ .bad → ∃ args', buildCall D tb.cells strings callee args = .ok ⟨.place r false, args', false⟩ ∧
      args'.length = args.length ∧ ∀ (i : Nat) p e e', ps[i]? = some p → args[i]? = some e → args'[i]? = some e' → Stored tb.cells p e e') := by
  have sig : Signature tb.cells callee.type r ps := run_entry w.run hlen hf
  obtain ⟨s1, s2, s3, s4⟩ := signature_read (by omega) sig
  have hof : ∀ p ∈ ps, Full tb.cells p := by
    intro p hp
    have hm : p ∈ mentioned (Req.function r ps) := List.mem_cons_of_mem _ hp
    obtain ⟨rs, hi⟩ := run_inv w.run hlen
    rcases hi.known _ hf p hm with h0 | ⟨q, hq, e⟩
    · exact of_full w.run hlen w.proper (Or.inl (w.proper.builtin _ hf p hm h0))
    · obtain ⟨x, hx, e2⟩ := run_covered w.run hlen hi q hq
      have : p = x.2 := by omega
      exact of_full w.run hlen w.proper (Or.inr ⟨x.1, by rw [this]; exact hx⟩)
  have no : ∀ id, (id = BI_PRINTF ∨ id = BI_PRINT ∨ id = BI_PRINTID ∨ id = BI_GETID) → identOf callee ≠ some id := by
    intro id hid e
    have := hs id e
    omega
  unfold buildCall
  rw [if_neg (by rw [s1]; decide), if_neg (no _ (by simp)), if_neg (no _ (by simp)), if_neg (not_or.2 ⟨no _ (by simp), no _ (by simp)⟩)]
  unfold buildPlainCall
  rw [s2, s3]
  by_cases hl : ps.length = args.length
  · rw [if_neg (fun k => k hl), ← hl, s4]
    rcases judged_args D (by omega) (w.clean hlen) ps args hl hof ha with ⟨k, args', e1, l1, st⟩ | ⟨k, e1⟩ <;> rw [e1]
    · exact ⟨⟨nofun, fun n => absurd k n⟩, fun _ => ⟨args', rfl, l1.trans hl.symm, st⟩⟩
    · exact ⟨⟨fun _ => k, fun _ => rfl⟩, fun n => absurd rfl n⟩
  · rw [if_pos hl]
    exact ⟨⟨fun _ k => hl k.1, fun _ => rfl⟩, fun n => absurd rfl n⟩

/-- C58: only functions can be called. -/
theorem call_of_other (D : Doubles F) {a b : Int} {h : List (Req × Int)} {tb : Table} (w : World a b h tb) (hlen : tb.cells.length < 2305843009213693952)
    (strings : Nat → List Nat) {callee : Ex F} (ht : Of h callee.type) (hn : ∀ r ps, (Req.function r ps, callee.type) ∉ h) (args : List (Ex F)) :
    buildCall D tb.cells strings callee args = .bad := by
  have : isFunction tb.cells callee.type = false := by
    refine decide_eq_false ?_
    rintro ⟨h0, hcl⟩
    rcases ht with h1 | ⟨q, hq⟩
    · simp only [List.mem_cons, List.not_mem_nil, or_false] at h1
      omega
    · have ent := run_entry w.run hlen hq
      have cls : ∀ {n : Nat} {c : Int}, callee.type = n → tb.cells[n]? = some c → c = TYPE_FUNCTION := by
        intro n c e hc
        have g := get_some hc (by omega)
        rw [e, g.2.1, g.2.2] at hcl
        exact hcl
      cases q with
      | function r ps => exact hn r ps hq
      | const => obtain ⟨n, e, -, k, -⟩ := ent; exact absurd (cls e k) (by decide)
      | pointer => obtain ⟨n, e, -, k, -⟩ := ent; exact absurd (cls e k) (by decide)
      | array => obtain ⟨n, e, -, k, -⟩ := ent; exact absurd (cls e k) (by decide)
      | struct => obtain ⟨n, e, -, k, -⟩ := ent; exact absurd (cls e k) (by decide)
      | enum => obtain ⟨n, e, -, k⟩ := ent; exact absurd (cls e k) (by decide)
  unfold buildCall
  rw [if_pos this]

/-- C58: `print` takes one or more arguments, none of which is a pointer (behind `const`). -/
theorem print_checked {cells : List Int} (hlen : cells.length < 4611686018427387904) {args : List (Ex F)} (ha : ∀ e ∈ args, ∃ E, Den cells e.type E) :
    (buildPrint cells args = .bad ↔ args = [] ∨ ∃ e ∈ args, ∃ E, Den cells e.type E ∧ E.Pointer) ∧
    (buildPrint cells args ≠ .bad → buildPrint cells args = .ok ⟨.place TYPE_VOID false, args, false⟩) := by
  have key : ∀ args : List (Ex F), (∀ e ∈ args, ∃ E, Den cells e.type E) → Says (anyPointer cells args) (∃ e ∈ args, ∃ E, Den cells e.type E ∧ E.Pointer) := by
    intro args
    induction args with
    | nil => intro _; exact ⟨false, rfl, nofun, fun ⟨_, h, _⟩ => nomatch h⟩
    | cons e args ih =>
      intro ha
      obtain ⟨E, d⟩ := ha e List.mem_cons_self
      obtain ⟨b, e1, i1⟩ := says_pointer hlen d
      obtain ⟨b2, e2, i2⟩ := ih fun x hx => ha x (List.mem_cons_of_mem _ hx)
      unfold anyPointer
      rw [e1]
      cases b with
      | true => exact ⟨true, rfl, fun _ => ⟨e, List.mem_cons_self, E, d, i1.1 rfl⟩, fun _ => rfl⟩
      | false =>
        refine ⟨b2, e2, i2.trans ⟨fun ⟨x, hx, k⟩ => ⟨x, List.mem_cons_of_mem _ hx, k⟩, ?_⟩⟩
        rintro ⟨x, hx, E', d', k⟩
        rcases List.mem_cons.1 hx with rfl | hx
        · rw [← den_unique d rfl d'] at k
          exact absurd (i1.2 k) (by decide)
        · exact ⟨x, hx, E', d', k⟩
  obtain ⟨b, e1, i1⟩ := key args ha
  unfold buildPrint
  by_cases hn : args = []
  · rw [if_pos hn]
    exact ⟨⟨fun _ => Or.inl hn, fun _ => rfl⟩, fun k => absurd rfl k⟩
  · rw [if_neg hn, e1]
    simp only [ask, Out.bind]
    cases b with
    | true =>
      rw [if_pos rfl]
      exact ⟨⟨fun _ => Or.inr (i1.1 rfl), fun _ => rfl⟩, fun k => absurd rfl k⟩
    | false =>
      rw [if_neg (by decide)]
      refine ⟨⟨nofun, ?_⟩, fun _ => rfl⟩
      rintro (k | k)
      · exact absurd k hn
      · exact absurd (i1.2 k) (by decide)

/-- C58: `printid` and `getid` take one or more identifiers and nothing else. -/
theorem ids_checked (args : List (Ex F)) :
    (buildIds args = .bad ↔ args = [] ∨ ∃ e ∈ args, ∀ t id, e ≠ .ident t id) ∧
    (buildIds args ≠ .bad → buildIds args = .ok ⟨.place TYPE_VOID false, args, false⟩) := by
  have hid : ∀ e : Ex F, isIdent e = true ↔ ∃ t id, e = .ident t id := by
    intro e
    cases e <;> simp [isIdent]
  unfold buildIds
  by_cases hn : args = []
  · rw [if_pos hn]
    exact ⟨⟨fun _ => Or.inl hn, fun _ => rfl⟩, fun k => absurd rfl k⟩
  · rw [if_neg hn]
    by_cases hall : args.all isIdent = true
    · rw [if_pos hall]
      refine ⟨⟨nofun, ?_⟩, fun _ => rfl⟩
      rintro (k | ⟨e, he, k⟩)
      · exact absurd k hn
      · obtain ⟨t, id, e2⟩ := (hid e).1 (List.all_eq_true.1 hall e he)
        exact absurd e2 (k t id)
    · rw [if_neg hall]
      refine ⟨⟨fun _ => Or.inr ?_, fun _ => rfl⟩, fun k => absurd rfl k⟩
      rw [List.all_eq_true] at hall
      apply Classical.byContradiction
      intro hno
      apply hall
      intro e he
      apply Classical.byContradiction
      intro h2
      exact hno ⟨e, he, fun t id k => h2 ((hid e).2 ⟨t, id, k⟩)⟩

/-! ## C59: formats of `printf` -/

/-- C59: with fewer than 20 arguments, `printf` with the literal format `cs` is accepted exactly when `cs` is a format and
the other arguments are taken by the types it asks for. -/
theorem printf_format (D : Doubles F) {a b : Int} {h : List (Req × Int)} {tb : Table} (w : World a b h tb) (hlen : tb.cells.length < 2305843009213693952)
    (strings : Nat → List Nat) {t : Int} {i : Nat} {cs : List Nat} (hi : i < 9223372036854775808) (ht : (Req.array TYPE_CHARACTER, t) ∈ h) (hs : strings i = octets cs)
    (hcs : ∀ c ∈ cs, 0 < c ∧ c < 0x200000) {rest : List (Ex F)} (hl : rest.length + 1 < 20) (ha : ∀ e ∈ rest, Ready tb.cells e) :
    (∃ as, Format cs as ∧ TakesAll tb.cells (as.map (Asked.type t)) rest ∧ ∃ rest', rest'.length = rest.length ∧
      (∀ (j : Nat) a e e', as[j]? = some a → rest[j]? = some e → rest'[j]? = some e' → Stored tb.cells (a.type t) e e') ∧
      buildPrintf D tb.cells strings (.lit t (.cell i) :: rest) = .ok ⟨.place TYPE_INTEGER false, .lit t (.cell i) :: rest', false⟩) ∨
    ((¬∃ as, Format cs as ∧ TakesAll tb.cells (as.map (Asked.type t)) rest) ∧
      (buildPrintf D tb.cells strings (.lit t (.cell i) :: rest) = .bad ∨
       ∃ c, buildPrintf D tb.cells strings (.lit t (.cell i) :: rest) = .ok c ∧ c.reported = true)) := by
  have hlen' : tb.cells.length < 4611686018427387904 := by omega
  have ent : ArrayOf tb.cells t TYPE_CHARACTER := run_entry w.run hlen ht
  have hd : Den tb.cells t (.array .char) := by
    obtain ⟨n, rfl, h0, h1, h2⟩ := ent
    exact .array h0 h1 h2 .char
  have ft : Full tb.cells t := run_full w.run hlen w.proper _ ht
  obtain ⟨b1, e1, i1⟩ := says_string hlen' hd
  have hb1 : b1 = true := i1.2 rfl
  subst hb1
  have step : buildPrintf D tb.cells strings (.lit t (.cell i) :: rest) =
      (ask (evaluateArgs t ((octets cs).length + 1) (octets cs) [])).bind (printfEnd D tb.cells (.lit t (.cell i)) rest) := by
    simp only [buildPrintf]
    rw [if_neg (by unfold MAX_PRINTF_ARGS; omega)]
    simp only [e1, ask, Out.bind, toSize_natCast (show i < 18446744073709551616 by omega), Val.integer, hs]
    rfl
  rw [step]
  rcases evaluate_spec t ((octets cs).length + 1) cs [] (by have := octets_length cs; omega) hcs (by simp) with ⟨as, hf, hle, e2⟩ | ⟨hno, e2⟩
  · rw [e2]
    simp only [ask, Out.bind, List.nil_append]
    simp only [printfEnd]
    by_cases hlr : (as.map (Asked.type t)).length = rest.length
    · rw [if_neg (fun k => k hlr)]
      rcases judged_args D hlen' (w.clean hlen) (as.map (Asked.type t)) rest hlr (by
          intro x hx
          obtain ⟨q, -, rfl⟩ := List.mem_map.1 hx
          cases q
          · exact .basic (t := -1) (by decide) .int
          · exact .basic (t := -3) (by decide) .float
          · exact ft) ha with ⟨k, rest', e3, l3, st⟩ | ⟨k, e3⟩ <;> rw [e3]
      · exact Or.inl ⟨as, hf, k, rest', l3, fun j a e e' h1 h2 h3 => st j _ e e' (by rw [List.getElem?_map, h1]; rfl) h2 h3, rfl⟩
      · refine Or.inr ⟨?_, Or.inl rfl⟩
        rintro ⟨as', hf', k'⟩
        rw [← format_unique hf hf'] at k'
        exact k k'
    · rw [if_pos hlr]
      refine Or.inr ⟨?_, Or.inl rfl⟩
      rintro ⟨as', hf', k'⟩
      rw [← format_unique hf hf'] at k'
      exact hlr k'.1
  · rw [e2]
    simp only [ask, Out.bind]
    refine Or.inr ⟨?_, ?_⟩
    · rintro ⟨as, hf, k⟩
      have h1 := hno as hf
      have h2 := k.1
      simp only [List.length_map, List.length_nil] at h1 h2
      omega
    · simp only [printfEnd]
      by_cases h0 : rest.length ≠ 0
      · rw [if_pos h0]; exact Or.inl rfl
      · rw [if_neg h0]; exact Or.inr ⟨_, rfl, rfl⟩

/-- C59: asking for the type of strings when there is one answers it and leaves the table as it is (`type_string`, syntax.c:789-792, called
for `%s`). -/
theorem string_type_found {a b : Int} {h : List (Req × Int)} {tb : Table} (w : World a b h tb) (hlen : tb.cells.length + 3 < 2305843009213693952) {t : Int}
    (ht : (Req.array TYPE_CHARACTER, t) ∈ h) : typeArray tb TYPE_CHARACTER = some (t, tb) := by
  have hl : tb.cells.length < 2305843009213693952 := by omega
  obtain ⟨u, tb', hb, g, -⟩ := grow_step w hlen (t := TYPE_CHARACTER) (Or.inl (by decide)) .char (r := .array TYPE_CHARACTER) (Or.inr (Or.inl rfl))
  have hl' : tb'.cells.length < 2305843009213693952 := by have := g.size; omega
  obtain ⟨rs', hi'⟩ := run_inv g.world.run hl'
  obtain ⟨rs, hi⟩ := run_inv w.run hl
  have hu : u = t := ((List.pairwise_cons.1 hi'.pairs).1 _ ht).2 ⟨rfl, nofun⟩
  obtain ⟨q, hq, e, -⟩ := hi.recs _ ht
  have hs := (lay_stored hi.lay q hq).2.1
  have hb' : typeArray tb TYPE_CHARACTER = some (u, tb') := hb
  rw [hb', hu]
  rcases build_grown2 hi hl hb with ⟨g1, g2⟩ | ⟨-, -, g3⟩
  · have hst : startOf rs < 2305843009213693952 := by
      cases hq : rs with
      | nil => simp [startOf]
      | cons q qs =>
        have := (lay_stored hi.lay q (by rw [hq]; exact List.mem_cons_self)).2.1
        simp only [startOf]; omega
    have start : toSize (toItem tb.start) = tb.start := by
      rw [hi.start, toItem_of_lt (by omega), toSize_natCast (by omega)]
    rw [start] at g2
    cases tb; cases tb'
    simp only at g1 g2
    subst g1 g2
    rfl
  · rw [toItem_of_lt (by omega)] at g3
    simp only at e
    omega

/-- C59: the first argument of `printf` has to be a literal of a string. -/
theorem printf_needs_format (D : Doubles F) {cells : List Int} (hlen : cells.length < 4611686018427387904) (strings : Nat → List Nat) {fmt : Ex F} {T : Ty}
    (d : Den cells fmt.type T) {rest : List (Ex F)} (hl : rest.length + 1 < 20) (hn : (∀ t v, fmt ≠ .lit t v) ∨ T.bare ≠ .array .char) :
    buildPrintf D cells strings (fmt :: rest) = .bad := by
  simp only [buildPrintf]
  rw [if_neg (by unfold MAX_PRINTF_ARGS; omega)]
  split
  · next t v =>
    rcases hn with hn | hn
    · exact absurd rfl (hn t v)
    · obtain ⟨b1, e1, i1⟩ := says_string hlen d
      have : b1 = false := by
        cases b1 with
        | false => rfl
        | true => exact absurd (i1.1 rfl) hn
      subst this
      have e1' : isString cells t = some false := e1
      rw [e1']
      rfl
  · rfl

/-- C59 violated for longer calls: with 20 or more arguments the report of "too many arguments" itself is undefined
behaviour, since its message reads a number that is not given. -/
theorem printf_many_arguments (D : Doubles F) (cells : List Int) (strings : Nat → List Nat) (fmt : Ex F) (rest : List (Ex F)) (hl : 20 ≤ rest.length + 1) :
    buildPrintf D cells strings (fmt :: rest) = .ub := by
  simp only [buildPrintf]
  rw [if_pos (by unfold MAX_PRINTF_ARGS; omega)]

/-! ## C60: subscripts and members -/

/-- C60: a subscript needs an array (behind `const`) and an integer; it is a place of the type of the elements. -/
theorem subscript_checked {cells : List Int} (hlen : cells.length < 4611686018427387904) (hc : Clean cells) {base index : Ex F} {I : Ty}
    (fb : Full cells base.type) (di : Den cells index.type I) :
    (buildSubscript cells base index = .bad ↔ ¬((∃ s u, Once cells base.type s ∧ ArrayOf cells s u) ∧ I.Integral)) ∧
    ∀ s u, Once cells base.type s → ArrayOf cells s u → I.Integral → buildSubscript cells base index = .ok (.place u true) := by
  obtain ⟨b1, e1, i1⟩ := full_is_array hlen fb
  obtain ⟨b2, e2, i2⟩ := says_integer hlen hc di
  have ok : ∀ s u, Once cells base.type s → ArrayOf cells s u → I.Integral → buildSubscript cells base index = .ok (.place u true) := by
    intro s u h1 h2 h3
    have hb1 := i1.2 ⟨s, u, h1, h2⟩
    have hb2 := i2.2 h3
    subst hb1 hb2
    unfold buildSubscript
    simp only [bind_eq, pure_eq, e1, e2, (full_array hlen fb h1 h2).2, ask, Out.bind]
    rfl
  refine ⟨⟨fun k => ?_, fun k => ?_⟩, ok⟩
  · rintro ⟨⟨s, u, h1, h2⟩, h3⟩
    rw [ok s u h1 h2 h3] at k
    cases k
  · unfold buildSubscript
    simp only [bind_eq, pure_eq, e1, e2, ask, Out.bind]
    cases b1 with
    | false => rfl
    | true =>
      cases b2 with
      | false => rfl
      | true => exact absurd ⟨i1.1 rfl, i2.1 rfl⟩ k

/-- C60, `base.name` and `base->name`: `st` is the type of the structure (behind `const`), with the members `ms`.  Refused when no
member has the name; otherwise the first member of that name, whose type is made `const` when the structure is `const`. -/
theorem member_found {a b : Int} {h : List (Req × Int)} {tb : Table} (w : World a b h tb) (hlen : tb.cells.length + 3 < 2305843009213693952)
    {base : Ex F} {arrow : Bool} {st s : Int} {ms : List (Int × Int)} (hst : Of h st)
    (hb : (arrow = false ∧ base.type = st) ∨ (arrow = true ∧ Elem tb.cells base.type st ∧ ∃ B, Den tb.cells base.type B))
    (ho : Once tb.cells st s) (hs : (Req.struct ms, s) ∈ h) (hn : ∀ m ∈ ms, ∃ k : Nat, m.2 = k ∧ k < 9223372036854775808)
    (name : Nat)
    (hm : Constant tb.cells st → ∀ m ∈ ms, m.2 = name → Constable h m.1 ∨ Constant tb.cells m.1) :
    (buildMember tb base name arrow = .bad ↔ ∀ m ∈ ms, m.2 ≠ name) ∧
    ∀ i ty, FirstNamed ms name i ty → ∃ e tb', buildMember tb base name arrow = .ok (e, i, tb') ∧ e.lvalue = (arrow || base.lvalue) ∧
      (∃ ext, tb'.cells = tb.cells ++ ext) ∧
      ((Constant tb.cells st ∧ ¬Constant tb.cells ty ∧ ConstOf tb'.cells e.type ty) ∨ (¬(Constant tb.cells st ∧ ¬Constant tb.cells ty) ∧ e.type = ty ∧ tb' = tb)) := by
  have hlen' : tb.cells.length < 4611686018427387904 := by omega
  have hl : tb.cells.length < 2305843009213693952 := by omega
  have fst := of_full w.run hl w.proper hst
  have hf : Fields tb.cells s ms := run_entry w.run hl hs
  obtain ⟨r1, r2, r3⟩ := full_members hlen' fst ho hf
  obtain ⟨S, dS⟩ := full_den hlen' fst
  have hofm : ∀ m ∈ ms, Of h m.1 := by
    intro m hmm
    have hmen : m.1 ∈ mentioned (Req.struct ms) := List.mem_map_of_mem hmm
    obtain ⟨rs, hi⟩ := run_inv w.run hl
    rcases hi.known _ hs m.1 hmen with h0 | ⟨q, hq, e⟩
    · exact Or.inl (w.proper.builtin _ hs m.1 hmen h0)
    · obtain ⟨x, hx, e2⟩ := run_covered w.run hl hi q hq
      have : m.1 = x.2 := by omega
      exact Or.inr ⟨x.1, by rw [this]; exact hx⟩
  -- both forms come to `memberOf`
  have enter : ∃ lv, lv = (arrow || base.lvalue) ∧ buildMember tb base name arrow = memberOf tb st lv name := by
    rcases hb with ⟨rfl, e⟩ | ⟨rfl, he, B, dB⟩
    · refine ⟨base.lvalue, by simp, ?_⟩
      unfold buildMember
      rw [if_pos rfl, e]
      simp only [bind_eq, r1, ask, Out.bind]
      rfl
    · refine ⟨true, by simp, ?_⟩
      have hp : B.Pointer := by
        obtain ⟨t', e, d', nk⟩ := behind_den hlen' dB
        have hel := (strip_elem hlen' _ dB e st).1 he
        obtain ⟨b1, e2, i2⟩ := says_pointer hlen' dB
        apply i2.1
        cases hel with
        | here h0 h1 h2 =>
          have g := get_some h1 hlen'
          unfold isPointer at e2
          rw [e, Option.map_some] at e2
          rw [← Option.some.inj e2, decide_eq_true_iff]
          exact ⟨by omega, by rw [g.2.1, g.2.2]⟩
        | behind hcc _ => exact absurd ((constant_iff hlen' d').1 ⟨_, hcc⟩) nk
      obtain ⟨p, P, e1, dP, k⟩ := element_den hlen' dB hp
      have hpe : p = st := ((k st).1 he).symm
      subst hpe
      obtain ⟨b1, e2, i2⟩ := says_pointer hlen' dB
      have : b1 = true := i2.2 hp
      subst this
      have esp : isStructPointer tb.cells base.type = some true := by
        unfold isStructPointer
        rw [e2]
        simp only [Option.bind_some, if_true, e1, r1]
      unfold buildMember
      rw [if_neg (by decide)]
      simp only [bind_eq, esp, e1, ask, Out.bind]
      rfl
  obtain ⟨lv, hlv, hbm⟩ := enter
  rw [hbm]
  have hgo : ∀ {q : Option Nat}, findMember tb.cells st name ms.length 0 = some q → (memberOf tb st lv name : Out (Ex F × Nat × Table)) =
      (match q with
       | none => .bad
       | some i => (ask (memberType tb.cells st i)).bind fun m =>
          if isConst tb.cells st ∧ ¬isConst tb.cells m then (ask (typeConst tb m)).bind fun p => .ok (.place p.1 lv, i, p.2) else .ok (.place m lv, i, tb)) := by
    intro q hq
    unfold memberOf
    simp only [bind_eq, pure_eq, r2, hq, ask, Out.bind]
    cases q <;> rfl
  rcases find_spec ms hn (fun i m hmi => (r3 i m hmi).2) ms.length 0 (by omega) (fun j m hj => by omega) with ⟨k, ty, hk, ef⟩ | ⟨hno, ef⟩
  · have hmem : (ty, (name : Int)) ∈ ms := List.mem_of_getElem? hk.1
    have found : ∃ e tb', (memberOf tb st lv name : Out (Ex F × Nat × Table)) = .ok (e, k, tb') ∧ e.lvalue = (arrow || base.lvalue) ∧
        (∃ ext, tb'.cells = tb.cells ++ ext) ∧
        ((Constant tb.cells st ∧ ¬Constant tb.cells ty ∧ ConstOf tb'.cells e.type ty) ∨ (¬(Constant tb.cells st ∧ ¬Constant tb.cells ty) ∧ e.type = ty ∧ tb' = tb)) := by
      rw [hgo ef]
      simp only [(r3 k _ hk.1).1, ask, Out.bind]
      have fty := of_full w.run hl w.proper (hofm _ hmem)
      obtain ⟨T, dT⟩ := full_den hlen' fty
      by_cases hcc : isConst tb.cells st ∧ ¬isConst tb.cells ty
      · rw [if_pos hcc]
        have h1 := (constant_iff hlen' dS).2 hcc.1
        have h2 : ¬Constant tb.cells ty := fun k => hcc.2 ((constant_iff hlen' dT).1 k)
        have hcon : Constable h ty := (hm h1 _ hmem rfl).resolve_right h2
        obtain ⟨u, tb', hbd, g, -⟩ := grow_step w hlen (hofm _ hmem) dT (r := .const ty) (Or.inr (Or.inr ⟨rfl, hcon⟩))
        have hbd' : typeConst tb ty = some (u, tb') := hbd
        have ent : ConstOf tb'.cells u ty := run_entry g.world.run (by have := g.size; omega) (r := .const ty) List.mem_cons_self
        rw [hbd']
        exact ⟨_, _, rfl, hlv, g.ext, Or.inl ⟨h1, h2, ent⟩⟩
      · rw [if_neg hcc]
        refine ⟨_, _, rfl, hlv, ⟨[], by simp⟩, Or.inr ⟨?_, rfl, rfl⟩⟩
        rintro ⟨h1, h2⟩
        exact hcc ⟨(constant_iff hlen' dS).1 h1, fun k => h2 ((constant_iff hlen' dT).2 k)⟩
    refine ⟨⟨fun k2 => ?_, fun k2 => absurd rfl (k2 _ hmem)⟩, ?_⟩
    · obtain ⟨e, tb', e1, -⟩ := found
      rw [e1] at k2
      cases k2
    · intro i ty' hi
      have : i = k := by
        rcases Nat.lt_trichotomy i k with hik | hik | hik
        · exact absurd rfl (hk.2 i _ hik hi.1)
        · exact hik
        · exact absurd rfl (hi.2 k _ hik hk.1)
      subst this
      have : ty' = ty := by
        have := hi.1.symm.trans hk.1
        exact congrArg (fun x => (x.getD default).1) this
      subst this
      exact found
  · rw [hgo ef]
    refine ⟨⟨fun _ => hno, fun _ => rfl⟩, fun i ty hi => ?_⟩
    exact absurd rfl (hno _ (List.mem_of_getElem? hi.1))

/-- C60: only structures and pointers to structures have members. -/
theorem member_of_other {cells : List Int} {start : Nat} (hlen : cells.length < 4611686018427387904) {base : Ex F} (fb : Full cells base.type)
    (hn : ∀ s ms, Once cells base.type s → ¬Fields cells s ms) (name : Nat) : buildMember ⟨cells, start⟩ base name false = .bad := by
  obtain ⟨b1, e1, i1⟩ := full_struct hlen fb
  have : b1 = false := by
    cases b1 with
    | false => rfl
    | true =>
      obtain ⟨s, ms, h1, h2, -⟩ := i1.1 rfl
      exact absurd h2 (hn s ms h1)
  subst this
  unfold buildMember
  rw [if_pos rfl]
  simp only [bind_eq, e1, ask, Out.bind]
  rfl

/-- C60: `->` needs a pointer to a structure. -/
theorem arrow_of_other {cells : List Int} {start : Nat} (hlen : cells.length < 4611686018427387904) {base : Ex F} {B : Ty} (db : Den cells base.type B)
    (hp : ∀ p, Elem cells base.type p → Full cells p) (hn : ∀ p s ms, Elem cells base.type p → Once cells p s → ¬Fields cells s ms) (name : Nat) :
    buildMember ⟨cells, start⟩ base name true = .bad := by
  obtain ⟨b1, e1, i1⟩ := says_pointer hlen db
  have : isStructPointer cells base.type = some false := by
    unfold isStructPointer
    rw [e1]
    cases b1 with
    | false => rfl
    | true =>
      obtain ⟨p, P, e2, dP, k⟩ := element_den hlen db (i1.1 rfl)
      have he := (k p).2 rfl
      obtain ⟨b2, e3, i2⟩ := full_struct hlen (hp p he)
      simp only [Option.bind_some, if_true, e2, e3, Option.some.injEq]
      cases b2 with
      | false => rfl
      | true =>
        obtain ⟨s, ms, h1, h2, -⟩ := i2.1 rfl
        exact absurd h2 (hn p s ms he h1)
  unfold buildMember
  rw [if_neg (by decide)]
  simp only [bind_eq, this, ask, Out.bind]
  rfl

/-! ## C61: conditions and `return` -/

/-- C61: a condition has to be an integer, a boolean, a pointer or `NULL` (not a floating number); what `switch` and `case` select by has to
be an integer. -/
theorem condition_checked {cells : List Int} (hlen : cells.length < 4611686018427387904) (hc : Clean cells) {e : Ex F} {E : Ty} (d : Den cells e.type E) :
    (checkCondition cells e = .bad ↔ ¬E.Scalar) ∧ (checkCondition cells e = .ok () ↔ E.Scalar) ∧
    (checkSelector cells e = .bad ↔ ¬E.Integral) ∧ (checkSelector cells e = .ok () ↔ E.Integral) := by
  obtain ⟨b1, e1, i1⟩ := says_scalar hlen hc d
  obtain ⟨b2, e2, i2⟩ := says_integer hlen hc d
  have c1 : checkCondition cells e = if b1 = false then .bad else .ok () := by
    unfold checkCondition
    simp only [bind_eq, pure_eq, e1, ask, Out.bind]
  have c2 : checkSelector cells e = if b2 = false then .bad else .ok () := by
    unfold checkSelector
    simp only [bind_eq, pure_eq, e2, ask, Out.bind]
  rw [c1, c2, ← i1, ← i2]
  cases b1 <;> cases b2 <;> simp

/-- C61: `return` without a value is refused exactly in functions with a result. -/
theorem return_nothing (D : Doubles F) {a b : Int} {h : List (Req × Int)} {tb : Table} (w : World a b h tb) (hlen : tb.cells.length < 2305843009213693952)
    {func r : Int} {ps : List Int} (hf : (Req.function r ps, func) ∈ h) :
    buildReturn D tb func none = if r = TYPE_VOID then .ok ⟨none, 0, tb⟩ else .bad := by
  have sig : Signature tb.cells func r ps := run_entry w.run hlen hf
  unfold buildReturn
  simp only
  rw [(signature_read (by omega) sig).2.1]
  by_cases hr : r = TYPE_VOID
  · rw [if_neg (fun k => k hr), if_pos hr]
  · rw [if_pos hr, if_neg hr]

/-- C61: `return e` is refused in functions without a result; elsewhere it is reported exactly when the type of the result does not take the
value, except in functions with the result `void *`. -/
theorem return_value (D : Doubles F) {a b : Int} {h : List (Req × Int)} {tb : Table} (w : World a b h tb) (hlen : tb.cells.length + 3 < 2305843009213693952)
    {func r : Int} {ps : List Int} (hf : (Req.function r ps, func) ∈ h) {e : Ex F} (he : Ready tb.cells e) :
    (r = TYPE_VOID → buildReturn D tb func (some e) = .bad) ∧
    (r ≠ TYPE_VOID → (Req.pointer TYPE_VOID, r) ∉ h → ∃ e' n tb', buildReturn D tb func (some e) = .ok ⟨some e', n, tb'⟩ ∧ (∃ ext, tb'.cells = tb.cells ++ ext) ∧
      ((n = 0 ∧ Takes tb'.cells true r e ∧ Stored tb'.cells r e e') ∨ (n = 1 ∧ ¬Takes tb'.cells true r e))) := by
  have hl : tb.cells.length < 2305843009213693952 := by omega
  have sig : Signature tb.cells func r ps := run_entry w.run hl hf
  have hret := (signature_read (by omega) sig).2.1
  refine ⟨fun hv => ?_, fun hv hp => ?_⟩
  · unfold buildReturn
    simp only
    rw [hret, if_pos hv]
  · obtain ⟨u, tb', hb, g, -⟩ := grow_step w hlen (t := TYPE_VOID) (Or.inl (by decide)) .void (r := .pointer TYPE_VOID) (Or.inl rfl)
    have hb' : typePointer tb TYPE_VOID = some (u, tb') := hb
    have hl' : tb'.cells.length < 2305843009213693952 := by have := g.size; omega
    have hmen : r ∈ mentioned (Req.function r ps) := List.mem_cons_self
    have hofr : Of h r := by
      obtain ⟨rs, hi⟩ := run_inv w.run hl
      rcases hi.known _ hf r hmen with h0 | ⟨q, hq, e⟩
      · exact Or.inl (w.proper.builtin _ hf r hmen h0)
      · obtain ⟨x, hx, e2⟩ := run_covered w.run hl hi q hq
        have : r = x.2 := by omega
        exact Or.inr ⟨x.1, by rw [this]; exact hx⟩
    have hne : r ≠ u := by
      intro e1
      have pos := run_pos g.world.run hl' (q := .pointer TYPE_VOID) (t := u) List.mem_cons_self
      rcases hofr with h1 | ⟨q, hq⟩
      · simp only [List.mem_cons, List.not_mem_nil, or_false] at h1
        omega
      · obtain ⟨rs', hi'⟩ := run_inv g.world.run hl'
        have := ((List.pairwise_cons.1 hi'.pairs).1 _ hq).1 e1.symm
        simp only at this
        rw [← this.1] at hq
        exact hp hq
    have step : buildReturn D tb func (some e) = (attempt e (checkAssign D tb'.cells true r e)).bind fun x => .ok ⟨some x.1, x.2, tb'⟩ := by
      unfold buildReturn
      simp only
      rw [hret, if_neg hv, hb']
      simp only [ask, Out.bind]
      rw [if_pos hne]
    rw [step]
    rcases judged (by omega) D (g.world.clean hl') true (g.ready he) (of_full g.world.run hl' g.world.proper (hofr.mono g.keep)) with ⟨k, e', e1, st⟩ | ⟨k, e1⟩ <;> rw [e1]
    · exact ⟨e', 0, tb', rfl, g.ext, Or.inl ⟨rfl, k, st⟩⟩
    · exact ⟨e, 1, tb', rfl, g.ext, Or.inr ⟨rfl, k⟩⟩

/-- C61, a deviation: a function with the result `void *` may return any value at all, such as a floating number. -/
theorem void_pointer_returns_anything (D : Doubles F) {a b : Int} {h : List (Req × Int)} {tb : Table} (w : World a b h tb) (hlen : tb.cells.length + 3 < 2305843009213693952)
    {func r : Int} {ps : List Int} (hf : (Req.function r ps, func) ∈ h) (hp : (Req.pointer TYPE_VOID, r) ∈ h) (e : Ex F) :
    ∃ tb', buildReturn D tb func (some e) = .ok ⟨some e, 0, tb'⟩ := by
  have hl : tb.cells.length < 2305843009213693952 := by omega
  have sig : Signature tb.cells func r ps := run_entry w.run hl hf
  have hret := (signature_read (by omega) sig).2.1
  obtain ⟨u, tb', hb, g, -⟩ := grow_step w hlen (t := TYPE_VOID) (Or.inl (by decide)) .void (r := .pointer TYPE_VOID) (Or.inl rfl)
  have hb' : typePointer tb TYPE_VOID = some (u, tb') := hb
  have hl' : tb'.cells.length < 2305843009213693952 := by have := g.size; omega
  have pos := run_pos w.run hl hp
  obtain ⟨rs', hi'⟩ := run_inv g.world.run hl'
  have hru : u = r := ((List.pairwise_cons.1 hi'.pairs).1 _ hp).2 ⟨rfl, nofun⟩
  refine ⟨tb', ?_⟩
  unfold buildReturn
  simp only
  rw [hret, if_neg (by unfold TYPE_VOID; omega), hb']
  simp only [ask, Out.bind]
  rw [if_neg (fun k => k hru.symm)]

/-! ## C62: declarators -/

/-- C62: a declarator of a variable gets the type its text says, and is accepted without a report exactly when the type it starts from is not `void`,
the bounds are integers, and the initialiser is taken, or, without one, there is no empty bound and no `const` part. -/
theorem declarator_checked (D : Doubles F) {a b : Int} {h : List (Req × Int)} {tb : Table} (w : World a b h tb) {type : Int} {T : Ty} (star const : Bool)
    (bounds : List (Bound F)) (init : Option (Ex F)) (hlen : tb.cells.length + 6 + 3 * bounds.length < 2305843009213693952) (ht : Of h type)
    (d : Den tb.cells type T) (hc : const = true → star = false → Constable h type) (hb : ∀ x ∈ bounds, ∃ E, Den tb.cells x.type E)
    (hi : ∀ e, init = some e → Ready tb.cells e) :
    ∃ t init' n tb', buildDeclarator D tb type star const bounds init = .ok ⟨(t, init'), n, tb'⟩ ∧ (∃ ext, tb'.cells = tb.cells ++ ext) ∧
      Den tb'.cells t (declared T star const bounds.length) ∧
      (n = 0 ↔ type ≠ TYPE_VOID ∧ (∀ x ∈ bounds, Good tb.cells x) ∧
        ((∃ e e', init = some e ∧ init' = some e' ∧ Takes tb'.cells true t e ∧ Stored tb'.cells t e e') ∨
         (init = none ∧ init' = none ∧ Bound.empty ∉ bounds ∧ ¬HasConst tb'.cells t))) := by
  obtain ⟨u, tb1, h1, e1, g1, o1, d1⟩ := pointed_spec w (by omega) ht d star const hc
  obtain ⟨v, tb2, h2, n, e2, g2, o2, d2, l2, k2⟩ := bounds_spec bounds g1.world (by have := g1.size; omega) o1 d1 (if type = TYPE_VOID then 1 else 0)
    (fun x hx => by obtain ⟨E, dE⟩ := hb x hx; exact ⟨E, g1.den dE⟩)
  have same : (∀ x ∈ bounds, Good tb1.cells x) ↔ ∀ x ∈ bounds, Good tb.cells x := by
    constructor
    · intro k x hx
      obtain ⟨E, dE⟩ := hb x hx
      obtain ⟨E', d', k'⟩ := k x hx
      rw [← den_unique (g1.den dE) rfl d'] at k'
      exact ⟨E, dE, k'⟩
    · intro k x hx
      obtain ⟨E', d', k'⟩ := k x hx
      exact ⟨E', g1.den d', k'⟩
  rw [same] at k2
  have g := g1.trans g2
  have hl2 : tb2.cells.length < 2305843009213693952 := by have := g.size; omega
  have fv := of_full g.world.run hl2 g.world.proper o2
  have zero : n = 0 ↔ type ≠ TYPE_VOID ∧ ∀ x ∈ bounds, Good tb.cells x := by
    rw [← k2]
    by_cases hv : type = TYPE_VOID
    · rw [if_pos hv] at l2
      exact ⟨fun k => by omega, fun k => absurd hv k.1⟩
    · rw [if_neg hv]
      exact ⟨fun k => ⟨hv, k⟩, fun k => k.2⟩
  have step : ∀ {i' : Option (Ex F)} {m : Nat}, checkInit D tb2.cells v (bounds.any Bound.isEmpty) init = .ok (i', m) →
      buildDeclarator D tb type star const bounds init = .ok ⟨(v, i'), n + m, tb2⟩ := by
    intro i' m k
    unfold buildDeclarator
    rw [e1]
    simp only [ask, Out.bind]
    rw [e2]
    simp only
    rw [k]
  have fin : ∀ {i' : Option (Ex F)} {m : Nat} {P : Prop}, checkInit D tb2.cells v (bounds.any Bound.isEmpty) init = .ok (i', m) → (m = 0 ↔ P) →
      (P ↔ ((∃ e e', init = some e ∧ i' = some e' ∧ Takes tb2.cells true v e ∧ Stored tb2.cells v e e') ∨
         (init = none ∧ i' = none ∧ Bound.empty ∉ bounds ∧ ¬HasConst tb2.cells v))) →
      ∃ t init' n tb', buildDeclarator D tb type star const bounds init = .ok ⟨(t, init'), n, tb'⟩ ∧ (∃ ext, tb'.cells = tb.cells ++ ext) ∧
      Den tb'.cells t (declared T star const bounds.length) ∧
      (n = 0 ↔ type ≠ TYPE_VOID ∧ (∀ x ∈ bounds, Good tb.cells x) ∧
        ((∃ e e', init = some e ∧ init' = some e' ∧ Takes tb'.cells true t e ∧ Stored tb'.cells t e e') ∨
         (init = none ∧ init' = none ∧ Bound.empty ∉ bounds ∧ ¬HasConst tb'.cells t))) := by
    intro i' m P k hm hP
    refine ⟨v, i', n + m, tb2, step k, g.ext, d2, ?_⟩
    rw [← hP, ← hm, show (n + m = 0) = (n = 0 ∧ m = 0) from by rw [Nat.add_eq_zero_iff], zero, and_assoc]
  cases init with
  | some e =>
    rcases judged (by omega) D (g.world.clean hl2) true (g.ready (hi e rfl)) fv with ⟨k, e', e3, st⟩ | ⟨k, e3⟩
    · refine fin (i' := some e') (m := 0) (P := True) (by simp only [checkInit]; rw [e3]; rfl) (by simp) ?_
      exact ⟨fun _ => Or.inl ⟨e, e', rfl, rfl, k, st⟩, fun _ => trivial⟩
    · refine fin (i' := some e) (m := 1) (P := False) (by simp only [checkInit]; rw [e3]; rfl) (by simp) ?_
      refine ⟨False.elim, ?_⟩
      rintro (⟨x, e', h1, -, h3, -⟩ | ⟨h1, -⟩)
      · cases h1; exact k h3
      · cases h1
  | none =>
    by_cases hem : bounds.any Bound.isEmpty = true
    · refine fin (i' := none) (m := 1) (P := False) (by simp only [checkInit]; rw [if_pos hem]) (by simp) ?_
      refine ⟨False.elim, ?_⟩
      rintro (⟨x, e', h1, -⟩ | ⟨-, -, h3, -⟩)
      · cases h1
      · exact h3 ((any_empty bounds).1 hem)
    · obtain ⟨b1, e3, i3⟩ := requires_full (by omega) fv
      refine fin (i' := none) (m := if b1 then 1 else 0) (P := b1 = false) (by simp only [checkInit]; rw [if_neg hem, e3]; rfl) (by cases b1 <;> simp) ?_
      have hem' : Bound.empty ∉ bounds := fun k => hem ((any_empty bounds).2 k)
      constructor
      · intro k
        refine Or.inr ⟨rfl, rfl, hem', fun hk => ?_⟩
        rw [i3.2 hk] at k; cases k
      · rintro (⟨x, e', h1, -⟩ | ⟨-, -, -, h4⟩)
        · cases h1
        · cases b1 with
          | false => rfl
          | true => exact absurd (i3.1 rfl) h4

/-- C62, members of structures: the same without initialisers. -/
theorem member_declarator_checked {a b : Int} {h : List (Req × Int)} {tb : Table} (w : World a b h tb) {type : Int} {T : Ty} (star const : Bool)
    (bounds : List (Bound F)) (hlen : tb.cells.length + 6 + 3 * bounds.length < 2305843009213693952) (ht : Of h type)
    (d : Den tb.cells type T) (hc : const = true → star = false → Constable h type) (hb : ∀ x ∈ bounds, ∃ E, Den tb.cells x.type E) :
    ∃ t n tb', buildMemberDecl tb type star const bounds = .ok ⟨t, n, tb'⟩ ∧ (∃ ext, tb'.cells = tb.cells ++ ext) ∧
      Den tb'.cells t (declared T star const bounds.length) ∧ (n = 0 ↔ type ≠ TYPE_VOID ∧ ∀ x ∈ bounds, Good tb.cells x) := by
  obtain ⟨u, tb1, h1, e1, g1, o1, d1⟩ := pointed_spec w (by omega) ht d star const hc
  obtain ⟨v, tb2, h2, n, e2, g2, o2, d2, l2, k2⟩ := bounds_spec bounds g1.world (by have := g1.size; omega) o1 d1 (if type = TYPE_VOID then 1 else 0)
    (fun x hx => by obtain ⟨E, dE⟩ := hb x hx; exact ⟨E, g1.den dE⟩)
  have same : (∀ x ∈ bounds, Good tb1.cells x) ↔ ∀ x ∈ bounds, Good tb.cells x := by
    constructor
    · intro k x hx
      obtain ⟨E, dE⟩ := hb x hx
      obtain ⟨E', d', k'⟩ := k x hx
      rw [← den_unique (g1.den dE) rfl d'] at k'
      exact ⟨E, dE, k'⟩
    · intro k x hx
      obtain ⟨E', d', k'⟩ := k x hx
      exact ⟨E', g1.den d', k'⟩
  rw [same] at k2
  refine ⟨v, n, tb2, ?_, (g1.trans g2).ext, d2, ?_⟩
  · unfold buildMemberDecl
    rw [e1]
    simp only [ask, Out.bind]
    rw [e2]
  · rw [← k2]
    by_cases hv : type = TYPE_VOID
    · rw [if_pos hv] at l2
      exact ⟨fun k => by omega, fun k => absurd hv k.1⟩
    · rw [if_neg hv]
      exact ⟨fun k => ⟨hv, k⟩, fun k => k.2⟩

/-- C60, a deviation: in a `const` structure with the members `float f` and `char c`, once `s.f` has been built the member `s.c` gets the type
`const float`: the table does not tell `const` built-in types apart. -/
theorem const_member_confused : ∃ (tb tb1 tb2 : Table) (t u : Int), World 40 41 [(.const 10, 18), (.struct [(-3, 50), (-2, 51)], 10), (msgInfo 40 41, 2)] tb ∧
    buildMember tb (.ident 18 0 : Ex F) 50 false = .ok (.place t true, 0, tb1) ∧ buildMember tb1 (.ident 18 0 : Ex F) 51 false = .ok (.place u true, 1, tb2) ∧
    Den tb2.cells u (.const .float) ∧ memberType tb.cells 10 1 = some TYPE_CHARACTER := by
  refine ⟨⟨[0, 0, 1002, 2, 4, -1, 40, -1, 41, 1, 1002, 3, 4, -3, 50, -2, 51, 9, 1006, 10], 17⟩,
    ⟨[0, 0, 1002, 2, 4, -1, 40, -1, 41, 1, 1002, 3, 4, -3, 50, -2, 51, 9, 1006, 10, 17, 1006, -3], 20⟩,
    ⟨[0, 0, 1002, 2, 4, -1, 40, -1, 41, 1, 1002, 3, 4, -3, 50, -2, 51, 9, 1006, 10, 17, 1006, -3], 20⟩, 21, 21, ?_, ?_, ?_, ?_, ?_⟩
  · refine ⟨?_, ⟨?_, ?_⟩, by decide, by decide⟩
    · refine .step (tb := ⟨[0, 0, 1002, 2, 4, -1, 40, -1, 41, 1, 1002, 3, 4, -3, 50, -2, 51], 9⟩) (.step .init ?_ (by decide +kernel)) ?_ (by decide +kernel)
      · exact ⟨by simp [mentioned], nofun, nofun, fun ms e => by cases e; simp, nofun⟩
      · exact ⟨by simp [mentioned], fun t e => by cases e; exact ⟨by omega, by simp [msgInfo]⟩, nofun, nofun, nofun⟩
    · simp [mentioned, msgInfo]
    · simp [msgInfo]
  · have h1 : isStructure [0, 0, 1002, 2, 4, -1, 40, -1, 41, 1, 1002, 3, 4, -3, 50, -2, 51, 9, 1006, 10] 18 = some true := by decide +kernel
    have h2 : memberAmount [0, 0, 1002, 2, 4, -1, 40, -1, 41, 1, 1002, 3, 4, -3, 50, -2, 51, 9, 1006, 10] 18 = some 2 := by decide +kernel
    have h3 : findMember [0, 0, 1002, 2, 4, -1, 40, -1, 41, 1, 1002, 3, 4, -3, 50, -2, 51, 9, 1006, 10] 18 50 2 0 = some (some 0) := by decide +kernel
    have h4 : memberType [0, 0, 1002, 2, 4, -1, 40, -1, 41, 1, 1002, 3, 4, -3, 50, -2, 51, 9, 1006, 10] 18 0 = some (-3) := by decide +kernel
    have h5 : isConst [0, 0, 1002, 2, 4, -1, 40, -1, 41, 1, 1002, 3, 4, -3, 50, -2, 51, 9, 1006, 10] 18 ∧ ¬isConst [0, 0, 1002, 2, 4, -1, 40, -1, 41, 1, 1002, 3, 4, -3, 50, -2, 51, 9, 1006, 10] (-3) := by decide +kernel
    have h6 : typeConst ⟨[0, 0, 1002, 2, 4, -1, 40, -1, 41, 1, 1002, 3, 4, -3, 50, -2, 51, 9, 1006, 10], 17⟩ (-3) =
      some (21, ⟨[0, 0, 1002, 2, 4, -1, 40, -1, 41, 1, 1002, 3, 4, -3, 50, -2, 51, 9, 1006, 10, 17, 1006, -3], 20⟩) := by decide +kernel
    unfold buildMember memberOf
    simp only [Ex.type, Ex.lvalue, h1, h2, h3, h4, h6, ask, bind_eq, pure_eq, Out.bind, if_true, if_pos h5]
    rfl
  · have h1 : isStructure [0, 0, 1002, 2, 4, -1, 40, -1, 41, 1, 1002, 3, 4, -3, 50, -2, 51, 9, 1006, 10, 17, 1006, -3] 18 = some true := by decide +kernel
    have h2 : memberAmount [0, 0, 1002, 2, 4, -1, 40, -1, 41, 1, 1002, 3, 4, -3, 50, -2, 51, 9, 1006, 10, 17, 1006, -3] 18 = some 2 := by decide +kernel
    have h3 : findMember [0, 0, 1002, 2, 4, -1, 40, -1, 41, 1, 1002, 3, 4, -3, 50, -2, 51, 9, 1006, 10, 17, 1006, -3] 18 51 2 0 = some (some 1) := by decide +kernel
    have h4 : memberType [0, 0, 1002, 2, 4, -1, 40, -1, 41, 1, 1002, 3, 4, -3, 50, -2, 51, 9, 1006, 10, 17, 1006, -3] 18 1 = some (-2) := by decide +kernel
    have h5 : isConst [0, 0, 1002, 2, 4, -1, 40, -1, 41, 1, 1002, 3, 4, -3, 50, -2, 51, 9, 1006, 10, 17, 1006, -3] 18 ∧
      ¬isConst [0, 0, 1002, 2, 4, -1, 40, -1, 41, 1, 1002, 3, 4, -3, 50, -2, 51, 9, 1006, 10, 17, 1006, -3] (-2) := by decide +kernel
    have h6 : typeConst ⟨[0, 0, 1002, 2, 4, -1, 40, -1, 41, 1, 1002, 3, 4, -3, 50, -2, 51, 9, 1006, 10, 17, 1006, -3], 20⟩ (-2) =
      some (21, ⟨[0, 0, 1002, 2, 4, -1, 40, -1, 41, 1, 1002, 3, 4, -3, 50, -2, 51, 9, 1006, 10, 17, 1006, -3], 20⟩) := by decide +kernel
    unfold buildMember memberOf
    simp only [Ex.type, Ex.lvalue, h1, h2, h3, h4, h6, ask, bind_eq, pure_eq, Out.bind, if_true, if_pos h5]
    rfl
  · exact .const (n := 21) (by omega) rfl rfl (by omega) .float
  · decide +kernel

/-! ## Concrete cases

The history of a program with the types `char []` (10), `struct { int x; float y; }` (13), that structure `const` (21), the function
`int f(float, char [])` (24), a pointer to the structure (30), `void *` (33) and a function `void *g()` (36). -/

def cells1 : List Int := [0, 0, 1002, 2, 4, -1, 40, -1, 41, 1, 1003, -2]
def cells2 : List Int := cells1 ++ [9, 1002, 3, 4, -1, 50, -3, 51]
def cells3 : List Int := cells2 ++ [12, 1006, 13]
def cells4 : List Int := cells3 ++ [20, 1001, -1, 2, -3, 10]
def cells5 : List Int := cells4 ++ [23, 1004, 13]
def cells6 : List Int := cells5 ++ [29, 1004, -6]
def cells7 : List Int := cells6 ++ [32, 1001, 33, 0]

def history : List (Req × Int) :=
  [(.function 33 [], 36), (.pointer (-6), 33), (.pointer 13, 30), (.function (-1) [-3, 10], 24), (.const 13, 21), (.struct [(-1, 50), (-3, 51)], 13), (.array (-2), 10), (msgInfo 40 41, 2)]

theorem sample_world : World 40 41 history ⟨cells7, 35⟩ := by
  refine ⟨?_, ⟨?_, ?_⟩, by decide, by decide⟩
  · refine .step (tb := ⟨cells6, 32⟩) (.step (tb := ⟨cells5, 29⟩) (.step (tb := ⟨cells4, 23⟩) (.step (tb := ⟨cells3, 20⟩) (.step (tb := ⟨cells2, 12⟩)
      (.step (tb := ⟨cells1, 9⟩) (.step .init ?_ (by decide +kernel)) ?_ (by decide +kernel)) ?_ (by decide +kernel)) ?_ (by decide +kernel)) ?_ (by decide +kernel)) ?_ (by decide +kernel)) ?_ (by decide +kernel)
    · exact ⟨by simp [mentioned], nofun, nofun, nofun, nofun⟩
    · exact ⟨by simp [mentioned], nofun, nofun, fun ms e => by cases e; simp, nofun⟩
    · exact ⟨by simp [mentioned], fun t e => by cases e; exact ⟨by omega, by simp [msgInfo]⟩, nofun, nofun, nofun⟩
    · exact ⟨by simp [mentioned], nofun, fun u ps e => by cases e; simp, nofun, nofun⟩
    · exact ⟨by simp [mentioned], nofun, nofun, nofun, nofun⟩
    · exact ⟨by simp [mentioned], nofun, nofun, nofun, nofun⟩
    · exact ⟨by simp [mentioned], nofun, fun u ps e => by cases e; simp, nofun, nofun⟩
  · simp [mentioned, msgInfo, history]
  · simp [msgInfo, history]

theorem sample_short : (⟨cells7, 35⟩ : Table).cells.length < 2305843009213693000 := by
  show cells7.length < _
  decide

/-- The numbers 1 and 2 as the parser makes them. -/
theorem ready_number (cells : List Int) (x : Int) : Ready cells (.lit TYPE_INTEGER (.cell x) : Ex F) := .plain rfl .int (Or.inl rfl)

/-- A number fits in places of the types `int` and `float`. -/
theorem takes_number (cells : List Int) (x : Int) : Takes cells true (-1) (.lit TYPE_INTEGER (.cell x) : Ex F) ∧ Takes cells true (-3) (.lit TYPE_INTEGER (.cell x) : Ex F) :=
  ⟨.plain rfl (fun _ => rfl) .int .int (Or.inr (Or.inl ⟨by simp [Ty.Integral, Ty.bare], by simp [Ty.Integral, Ty.bare]⟩)),
   .plain rfl (fun _ => rfl) .float .int (Or.inl ⟨rfl, by simp [Ty.Integral, Ty.bare]⟩)⟩

/-- C57: `const struct .. s = {1, 2}` is accepted, `= {1}` is not. -/
example (D : Doubles F) : (∃ e', checkAssign D cells7 true 21 (.init TYPE_UNDEFINED [.lit TYPE_INTEGER (.cell 1), .lit TYPE_INTEGER (.cell 2)]) = .ok e') ∧
    checkAssign D cells7 true 21 (.init TYPE_UNDEFINED [.lit TYPE_INTEGER (.cell 1)]) = .bad := by
  have hlen := sample_short
  have hf : Fields cells7 13 [(-1, 50), (-3, 51)] := run_entry sample_world.run (by omega) (r := .struct [(-1, 50), (-3, 51)]) (t := 13) (by simp [history])
  have hco : ConstOf cells7 21 13 := run_entry sample_world.run (by omega) (r := .const 13) (t := 21) (by simp [history])
  have rd : Ready cells7 (.init TYPE_UNDEFINED [.lit TYPE_INTEGER (.cell 1), .lit TYPE_INTEGER (.cell 2)] : Ex F) := by
    refine .init fun e he => ?_
    simp only [List.mem_cons, List.not_mem_nil, or_false] at he
    rcases he with rfl | rfl <;> exact ready_number _ _
  have rd1 : Ready cells7 (.init TYPE_UNDEFINED [.lit TYPE_INTEGER (.cell 1)] : Ex F) := by
    refine .init fun e he => ?_
    simp only [List.mem_cons, List.not_mem_nil, or_false] at he
    subst he; exact ready_number _ _
  have ht : Of history 21 := Or.inr ⟨.const 13, by simp [history]⟩
  constructor
  · obtain ⟨e', h1, -⟩ := (initialiser_taken D sample_world (by omega) true ht rd).2 (by
      intro k
      refine (initialiser_taken D sample_world (by omega) true ht rd).1.1 k (.struct (fun _ => rfl) (Or.inl hco) hf rfl ?_)
      intro j m e h1 h2
      match j with
      | 0 => cases h1; cases h2; exact (takes_number _ _).1
      | 1 => cases h1; cases h2; exact (takes_number _ _).2
      | j + 2 => cases h1)
    exact ⟨e', h1⟩
  · refine (initialiser_taken D sample_world (by omega) true ht rd1).1.2 fun k => ?_
    have hlen4 : cells7.length < 4611686018427387904 := by decide
    cases k with
    | plain h => cases h
    | struct _ ho hf' hl =>
      rcases ho with ho | ⟨ho, -⟩
      · obtain ⟨n, e, h0, h1, h2⟩ := hco
        obtain ⟨n', e', -, h1', h2'⟩ := ho
        have : n' = n := by omega
        subst this
        rw [h2] at h2'; cases h2'
        rw [fields_unique hlen4 hf' hf] at hl
        cases hl
      · exact ho _ hco
    | array _ ho ha =>
      rcases ho with ho | ⟨ho, -⟩
      · obtain ⟨n, e, h0, h1, h2⟩ := hco
        obtain ⟨n', e', -, h1', h2'⟩ := ho
        have : n' = n := by omega
        subst this
        rw [h2] at h2'; cases h2'
        exact array_not_struct hlen4 ha hf
      · exact ho _ hco

/-- C34: `s = {1, 2}` is accepted for a variable of the structure type, and refused for a `const` one. -/
example (D : Doubles F) : (∃ e, buildBinary D cells7 (.ident 13 5) (.init TYPE_UNDEFINED [.lit TYPE_INTEGER (.cell 1), .lit TYPE_INTEGER (.cell 2)]) .assign = .ok e) ∧
    buildBinary D cells7 (.ident 21 5) (.init TYPE_UNDEFINED [.lit TYPE_INTEGER (.cell 1), .lit TYPE_INTEGER (.cell 2)]) .assign = .bad := by
  have hlen := sample_short
  have hlen4 : cells7.length < 4611686018427387904 := by decide
  have hf : Fields cells7 13 [(-1, 50), (-3, 51)] := run_entry sample_world.run (by omega) (r := .struct [(-1, 50), (-3, 51)]) (t := 13) (by simp [history])
  have hco : ConstOf cells7 21 13 := run_entry sample_world.run (by omega) (r := .const 13) (t := 21) (by simp [history])
  have rd : Ready cells7 (.init TYPE_UNDEFINED [.lit TYPE_INTEGER (.cell 1), .lit TYPE_INTEGER (.cell 2)] : Ex F) := by
    refine .init fun e he => ?_
    simp only [List.mem_cons, List.not_mem_nil, or_false] at he
    rcases he with rfl | rfl <;> exact ready_number _ _
  have hcl := sample_world.clean (by omega)
  have f13 : Full cells7 13 := of_full sample_world.run (by omega) sample_world.proper (Or.inr ⟨.struct [(-1, 50), (-3, 51)], by simp [history]⟩)
  have f21 : Full cells7 21 := of_full sample_world.run (by omega) sample_world.proper (Or.inr ⟨.const 13, by simp [history]⟩)
  obtain ⟨T, d13⟩ := full_den hlen4 f13
  obtain ⟨U, d21⟩ := full_den hlen4 f21
  have nc : ∀ v, ¬ConstOf cells7 13 v := by
    rintro v ⟨n, e, -, h, -⟩
    obtain ⟨m, e', -, h', -⟩ := hf
    have : n = m := by omega
    subst this
    rw [h] at h'
    exact absurd (Option.some.inj h') (by decide)
  constructor
  · have ha := assignment_types D hlen4 hcl (.ident 13 5) _ (L := T) f13 d13 .undefined rd .assign rfl
    obtain ⟨r', h1, -⟩ := ha.2 (by
      intro k
      refine ha.1.1 k ⟨rfl, .struct (fun ⟨v, hv⟩ => absurd hv (nc v)) (Or.inr ⟨nc, rfl⟩) hf rfl ?_, trivial⟩
      intro j m e h1 h2
      match j with
      | 0 =>
        cases h1; cases h2
        exact .plain rfl (fun ⟨v, n, e, h, _⟩ => by omega) .int .int (Or.inr (Or.inl ⟨by simp [Ty.Integral, Ty.bare], by simp [Ty.Integral, Ty.bare]⟩))
      | 1 =>
        cases h1; cases h2
        exact .plain rfl (fun ⟨v, n, e, h, _⟩ => by omega) .float .int (Or.inl ⟨rfl, by simp [Ty.Integral, Ty.bare]⟩)
      | j + 2 => cases h1)
    exact ⟨_, h1⟩
  · refine (assignment_types D hlen4 hcl (.ident 21 5) _ (L := U) f21 d21 .undefined rd .assign rfl).1.2 ?_
    rintro ⟨-, k, -⟩
    cases k with
    | plain h => cases h
    | struct h => exact absurd (h ⟨_, hco⟩) (by decide)
    | array h => exact absurd (h ⟨_, hco⟩) (by decide)

/-- C60: `s[1]` with `char s[]` is a place of the type `char`; `1[1]` is refused. -/
example : buildSubscript cells7 (.ident 10 5 : Ex F) (.lit TYPE_INTEGER (.cell 1)) = .ok (.place (-2) true) ∧
    buildSubscript cells7 (.lit TYPE_INTEGER (.cell 1) : Ex F) (.lit TYPE_INTEGER (.cell 1)) = .bad := by
  have hlen4 : cells7.length < 4611686018427387904 := by decide
  have hcl := sample_world.clean (by have := sample_short; omega)
  have harr : ArrayOf cells7 10 (-2) := run_entry sample_world.run (by have := sample_short; omega) (r := .array (-2)) (t := 10) (by simp [history])
  have hint : Ty.Integral .int := by simp [Ty.Integral, Ty.bare]
  constructor
  · refine (subscript_checked hlen4 hcl (base := (.ident 10 5 : Ex F)) (of_full sample_world.run (by have := sample_short; omega) sample_world.proper (Or.inr ⟨.array (-2), by simp [history, Ex.type]⟩)) .int).2
      10 (-2) (Or.inr ⟨fun v hv => ?_, rfl⟩) harr hint
    obtain ⟨n, e, -, h, -⟩ := hv
    obtain ⟨m, e', -, h', -⟩ := harr
    have e : (10 : Int) = n := e
    have : n = m := by omega
    subst this
    rw [h] at h'
    exact absurd (Option.some.inj h') (by decide)
  · refine (subscript_checked hlen4 hcl (base := (.lit TYPE_INTEGER (.cell 1) : Ex F)) (.basic (t := -1) (by decide) .int) .int).1.2 ?_
    rintro ⟨⟨s, u, ho, n, e, h0, -⟩, -⟩
    rcases ho with ⟨m, e', h, -⟩ | ⟨-, e'⟩
    · have e' : (-1 : Int) = m := e'
      omega
    · have e' : s = -1 := e'
      omega

/-- C58: `f(1)` is refused, since `f` has two parameters. -/
example (D : Doubles F) (strings : Nat → List Nat) : buildCall D cells7 strings (.ident 24 200) [.lit TYPE_INTEGER (.cell 1)] = .bad := by
  refine (call_checked D sample_world (by have := sample_short; omega) strings (callee := .ident 24 200) (r := -1) (ps := [-3, 10]) (by simp [history, Ex.type])
    (by intro id e; cases e; decide) (by intro e he; rw [List.mem_singleton] at he; subst he; exact ready_number _ _)).1.2 ?_
  rintro ⟨k, -⟩
  cases k

/-- C58: `f(1, s)` with `char s[]` is accepted. -/
example (D : Doubles F) (strings : Nat → List Nat) : ∃ args', buildCall D cells7 strings (.ident 24 200) [.lit TYPE_INTEGER (.cell 1), .ident 10 201] = .ok ⟨.place (-1) false, args', false⟩ := by
  have harr : ArrayOf cells7 10 (-2) := run_entry sample_world.run (by have := sample_short; omega) (r := .array (-2)) (t := 10) (by simp [history])
  have hd : Den cells7 10 (.array .char) := by
    obtain ⟨n, e, h0, h1, h2⟩ := harr
    rw [e]; exact .array h0 h1 h2 .char
  have hc := call_checked D sample_world (by have := sample_short; omega) strings (callee := .ident 24 200) (r := -1) (ps := [-3, 10]) (by simp [history, Ex.type])
    (by intro id e; cases e; decide) (args := [.lit TYPE_INTEGER (.cell 1), .ident 10 201]) (by
      intro e he
      simp only [List.mem_cons, List.not_mem_nil, or_false] at he
      rcases he with rfl | rfl
      · exact ready_number _ _
      · exact .plain rfl hd trivial)
  obtain ⟨args', h1, -⟩ := hc.2 (by
    intro k
    refine hc.1.1 k ⟨rfl, fun i t e h1 h2 => ?_⟩
    match i with
    | 0 => cases h1; cases h2; exact (takes_number _ _).2
    | 1 =>
      cases h1; cases h2
      refine .plain rfl (fun _ => rfl) hd hd (Or.inr (Or.inr (Or.inr (Or.inr ⟨10, ?_, ?_⟩))))
      all_goals
        refine Or.inr ⟨fun v hv => ?_, rfl⟩
        obtain ⟨n, e, -, h, -⟩ := hv
        obtain ⟨m, e', -, h', -⟩ := harr
        have : n = m := by
          have e : (10 : Int) = n := e
          omega
        subst this
        rw [h] at h'
        exact absurd (Option.some.inj h') (by decide)
    | i + 2 => cases h1)
  exact ⟨args', h1⟩

/-- C59: `printf("%i%%", 1)` is accepted without a report, `printf("%i%%")` is not. -/
example (D : Doubles F) : (∃ rest', buildPrintf D cells7 (fun _ => octets [0x25, 0x69, 0x25, 0x25]) [.lit 10 (.cell 7), .lit TYPE_INTEGER (.cell 1)] =
      .ok ⟨.place TYPE_INTEGER false, .lit 10 (.cell 7) :: rest', false⟩) ∧
    ¬∃ c, buildPrintf D cells7 (fun _ => octets [0x25, 0x69, 0x25, 0x25]) [.lit 10 (.cell 7)] = .ok c ∧ c.reported = false := by
  have fmt : Format [0x25, 0x69, 0x25, 0x25] [.int] := .value (by decide) (.percent .done)
  have hcs : ∀ c ∈ [0x25, 0x69, 0x25, 0x25], 0 < c ∧ c < 0x200000 := by decide
  constructor
  · rcases printf_format D sample_world (by have := sample_short; omega) (fun _ => octets [0x25, 0x69, 0x25, 0x25]) (t := 10) (i := 7) (by decide) (by simp [history, TYPE_CHARACTER]) rfl hcs
      (rest := [.lit TYPE_INTEGER (.cell 1)]) (by simp) (by intro e he; rw [List.mem_singleton] at he; subst he; exact ready_number _ _) with ⟨_, -, -, rest', -, -, h⟩ | ⟨k, -⟩
    · exact ⟨rest', h⟩
    · refine absurd ⟨[.int], fmt, rfl, fun i t e h1 h2 => ?_⟩ k
      match i with
      | 0 => cases h1; cases h2; exact (takes_number _ _).1
      | i + 1 => cases h1
  · rintro ⟨c, hc, hr⟩
    rcases printf_format D sample_world (by have := sample_short; omega) (fun _ => octets [0x25, 0x69, 0x25, 0x25]) (t := 10) (i := 7) (by decide) (by simp [history, TYPE_CHARACTER]) rfl hcs
      (rest := []) (by simp) nofun with ⟨as, hf, ⟨k, -⟩, -⟩ | ⟨-, h | ⟨c', h, hr'⟩⟩
    · rw [← format_unique fmt hf] at k
      cases k
    · rw [show ((7 : Nat) : Int) = 7 from rfl] at h
      rw [h] at hc; cases hc
    · rw [show ((7 : Nat) : Int) = 7 from rfl] at h
      rw [h] at hc; cases hc
      rw [hr] at hr'; cases hr'

/-- C60: the member `x` (50) of a `const` structure is a place of the type `const int`. -/
example : ∃ e tb', buildMember ⟨cells7, 35⟩ (.ident 21 5 : Ex F) 50 false = .ok (e, 0, tb') ∧ e.lvalue = true ∧ ConstOf tb'.cells e.type (-1) := by
  have hco : ConstOf cells7 21 13 := run_entry sample_world.run (by have := sample_short; omega) (r := .const 13) (t := 21) (by simp [history])
  obtain ⟨e, tb', h1, h2, -, h3⟩ := (member_found sample_world (by have := sample_short; omega) (base := (.ident 21 5 : Ex F)) (arrow := false) (st := 21) (s := 13) (ms := [(-1, 50), (-3, 51)])
    (Or.inr ⟨.const 13, by simp [history]⟩) (Or.inl ⟨rfl, rfl⟩) (Or.inl hco) (by simp [history]) (by
      intro m hm
      simp only [List.mem_cons, List.not_mem_nil, or_false] at hm
      rcases hm with rfl | rfl
      · exact ⟨50, rfl, by decide⟩
      · exact ⟨51, rfl, by decide⟩) 50 (by
      intro _ m hm e
      simp only [List.mem_cons, List.not_mem_nil, or_false] at hm
      rcases hm with rfl | rfl
      · exact Or.inl ⟨by decide, by simp [history, msgInfo], by simp [history, msgInfo]⟩
      · exact absurd e (by decide))).2 0 (-1) ⟨rfl, by intro j m h; omega⟩
  refine ⟨e, tb', h1, h2, ?_⟩
  rcases h3 with ⟨-, -, h⟩ | ⟨k, -⟩
  · exact h
  · exfalso
    apply k
    refine ⟨⟨_, hco⟩, ?_⟩
    rintro ⟨u, n, e, h0, -⟩
    omega

/-- C61: a floating condition is refused. -/
example : checkCondition [] (.ident TYPE_FLOATING 0 : Ex F) = .bad :=
  (condition_checked (by decide) (by intro k _ _; simp) (e := .ident TYPE_FLOATING 0) .float).1.2 (by simp [Ty.Scalar, Ty.Integral, Ty.Pointer, Ty.bare])

/-- C61: the function `g`, whose result is `void *`, may return a floating number. -/
example (D : Doubles F) (x : F) : ∃ tb', buildReturn D ⟨cells7, 35⟩ 36 (some (.lit TYPE_FLOATING (.dbl x))) = .ok ⟨some (.lit TYPE_FLOATING (.dbl x)), 0, tb'⟩ :=
  void_pointer_returns_anything D sample_world (by have := sample_short; omega) (r := 33) (ps := []) (by simp [history]) (by simp [history, TYPE_VOID]) _

/-- C62: `int a[2][]` without an initialiser is reported, and is an array of arrays of `int`. -/
example (D : Doubles F) : ∃ t i n tb', buildDeclarator D ⟨cells7, 35⟩ (-1) false false [.expr (.lit TYPE_INTEGER (.cell 2)), .empty] none = .ok ⟨(t, i), n, tb'⟩ ∧
    Den tb'.cells t (.array (.array .int)) ∧ n ≠ 0 := by
  obtain ⟨t, i, n, tb', h1, -, h2, h3⟩ := declarator_checked D sample_world (type := -1) false false [.expr (.lit TYPE_INTEGER (.cell 2)), .empty] none
    (by have := sample_short; simp only [List.length_cons, List.length_nil] at this ⊢; omega) (Or.inl (by decide)) .int nofun
    (by intro x hx; simp only [List.mem_cons, List.not_mem_nil, or_false] at hx; rcases hx with rfl | rfl <;> exact ⟨_, .int⟩) nofun
  refine ⟨t, i, n, tb', h1, h2, fun k => ?_⟩
  rcases (h3.1 k).2.2 with ⟨e, e', h, -⟩ | ⟨-, -, h, -⟩
  · cases h
  · exact h (by simp)

/-- C62, a deviation: `void *p;` is reported. -/
example (D : Doubles F) : ∃ t i n tb', buildDeclarator D ⟨cells7, 35⟩ (-6) true false [] none = .ok ⟨(t, i), n, tb'⟩ ∧ Den tb'.cells t (.pointer .void) ∧ n ≠ 0 := by
  obtain ⟨t, i, n, tb', h1, -, h2, h3⟩ := declarator_checked D sample_world (type := -6) true false [] none
    (by have := sample_short; simp only [List.length_nil] at this ⊢; omega) (Or.inl (by decide)) .void nofun nofun nofun
  exact ⟨t, i, n, tb', h1, h2, fun k => (h3.1 k).1 rfl⟩

end RuC.Checks.Props
