import Verif.Logger.Print
import Verif.Locator.Search

/-!
# Properties of messages: C83, C84, C85
-/

namespace RuC.Logger.Props
open RuC RuC.Utf8 RuC.Io RuC.Locator RuC.Logger

/-! ## C83 -/

/-- What is marked is determined by the line and the character. -/
theorem marked_unique {a b before word after before' word' after' : List Nat} {c : Nat} (h : Marked a c b before word after)
    (h' : Marked a c b before' word' after') : before = before' ∧ word = word' ∧ after = after' := by
  by_cases hw : InWord c
  · -- both begin at the same place
    have key : ∀ {x y z x' y' z' : List Nat}, Marked a c b x y z → Marked a c b x' y' z' → x.length ≤ x'.length := by
      intro x y z x' y' z' g g'
      by_cases hl : x.length ≤ x'.length
      · exact hl
      · exfalso
        have hne : x ≠ [] := by intro h0; rw [h0] at hl; simp at hl
        obtain ⟨s, d, rfl⟩ : ∃ s d, x = s ++ [d] := ⟨x.dropLast, x.getLast hne, (List.dropLast_concat_getLast hne).symm⟩
        have e : (s ++ [d] ++ y ++ z)[s.length]? = some d := by simp
        rw [g.line, ← g'.line] at e
        simp only [List.length_append, List.length_cons, List.length_nil] at hl
        have hin := g'.inside.2
        have hin2 := g.inside.1
        simp only [List.length_append, List.length_cons, List.length_nil] at hin2
        rw [List.append_assoc, List.getElem?_append_right (by omega), List.getElem?_append_left (by omega)] at e
        exact g.starts hw s d rfl (g'.letters hw d (List.mem_of_getElem? e))
    have key2 : ∀ {x y z x' y' z' : List Nat}, Marked a c b x y z → Marked a c b x' y' z' → x.length = x'.length → y'.length ≤ y.length := by
      intro x y z x' y' z' g g' hxx
      by_cases hl : y'.length ≤ y.length
      · exact hl
      · exfalso
        have hlen := congrArg List.length (g.line.trans g'.line.symm)
        simp only [List.length_append] at hlen
        cases z with
        | nil => simp only [List.length_nil] at hlen; omega
        | cons d s =>
          have e : (x ++ y ++ d :: s)[x.length + y.length]? = some d := by
            rw [List.getElem?_append_right (by simp)]; simp
          rw [g.line, ← g'.line] at e
          rw [List.append_assoc, List.getElem?_append_right (by omega), List.getElem?_append_left (by omega)] at e
          exact g.ends hw d s rfl (g'.letters hw d (List.mem_of_getElem? e))
    have hb : before.length = before'.length := Nat.le_antisymm (key h h') (key h' h)
    have hlw : word.length = word'.length := Nat.le_antisymm (key2 h' h hb.symm) (key2 h h' hb)
    have he := h.line.trans h'.line.symm
    rw [List.append_assoc, List.append_assoc] at he
    obtain ⟨e1, e2⟩ := List.append_inj he hb
    obtain ⟨e3, e4⟩ := List.append_inj e2 hlw
    exact ⟨e1, e3, e4⟩
  · have e1 := h.alone hw
    have e2 := h'.alone hw
    have hi := h.inside
    have hi' := h'.inside
    rw [e1] at hi
    rw [e2] at hi'
    simp only [List.length_cons, List.length_nil] at hi hi'
    have he := h.line.trans h'.line.symm
    rw [List.append_assoc, List.append_assoc] at he
    obtain ⟨e3, e4⟩ := List.append_inj he (by omega)
    rw [e1, e2] at e4
    exact ⟨e3, e1.trans e2.symm, List.append_cancel_left e4⟩

/-- C83: a message about a character of a line hands the handler the message, the line and marks below the word the character is in,
whichever octet of the character the position is. -/
theorem log_marks (h : Handlers) (func : Nat) {tag msg a b ts : List Nat} {c i : Nat} (ht : 10 ∉ tag) (hm : 10 ∉ msg)
    (hl : ∀ x ∈ a ++ c :: b, Inner x) (hb : Behind ts) (hi : i < (encode c).length) :
    ∃ before word after, Marked a c b before word after ∧
      (msg.length + (encodeAll (a ++ c :: b)).length + before.length + word.length + 2 < 4096 →
        logMain h func (some tag) (some msg) (some (encodeAll (a ++ c :: b ++ ts))) ((encodeAll a).length + i) =
          some [⟨func, tag, msg ++ [10] ++ encodeAll (a ++ c :: b) ++ [10] ++ marks before word⟩]) ∧
      (4096 ≤ msg.length + (encodeAll (a ++ c :: b)).length + before.length + word.length + 2 →
        logMain h func (some tag) (some msg) (some (encodeAll (a ++ c :: b ++ ts))) ((encodeAll a).length + i) = none) := by
  obtain ⟨before, word, after, h1, h2⟩ := splice_marks msg hl hb hi
  have hw : 0 < word.length := by have := h1.inside; omega
  have hlen : (msg ++ [10] ++ encodeAll (a ++ c :: b) ++ [10] ++ marks before word).length =
      msg.length + (encodeAll (a ++ c :: b)).length + before.length + word.length + 2 := by
    simp only [marks, List.length_append, List.length_cons, List.length_nil, List.length_map, List.length_replicate]
    omega
  have hok : checkArgs h (some tag) (some msg) = [] := by simp [checkArgs, checkArg, ht, hm]
  refine ⟨before, word, after, h1, fun hs => ?_, fun hs => ?_⟩
  · rw [logMain, if_pos hok]
    simp only [Option.getD_some]
    rw [h2, fit, if_pos (by rw [hlen]; exact hs)]
    rfl
  · rw [logMain, if_pos hok]
    simp only [Option.getD_some]
    rw [h2, fit, if_neg (by rw [hlen]; simp only [MAX_MSG_SIZE]; omega)]
    rfl

/-- C83: a message about a position behind the line, up to the terminating zero of the text, hands over the message and the line without
marks. -/
theorem log_plain (h : Handlers) (func : Nat) {tag msg cs ts a b : List Nat} {c i : Nat} (ht : 10 ∉ tag) (hm : 10 ∉ msg)
    (hl : ∀ x ∈ cs, Inner x) (hb : Behind ts) (he : ts ++ [0] = a ++ c :: b) (hi : i < (encode c).length)
    (hs : msg.length + (encodeAll cs).length + 1 < 4096) :
    logMain h func (some tag) (some msg) (some (encodeAll (cs ++ ts))) ((encodeAll (cs ++ a)).length + i) =
      some [⟨func, tag, msg ++ [10] ++ encodeAll cs⟩] := by
  have hok : checkArgs h (some tag) (some msg) = [] := by simp [checkArgs, checkArg, ht, hm]
  rw [logMain, if_pos hok]
  simp only [Option.getD_some]
  rw [splice_plain msg hl hb he hi, fit, if_pos (by simp only [MAX_MSG_SIZE, List.length_append, List.length_cons, List.length_nil]; omega)]
  rfl

/-- `int счёт1 = x;`: the position is the second octet of the second letter of the name, and the whole name is marked. -/
example : logMain ⟨1, 2, 3⟩ 1 (some (octets "a.c:1:6")) (some (octets "плохо")) (some (octets "int\tсчёт1 = x;\nint y;")) 7 =
    some [⟨1, octets "a.c:1:6", octets "плохо\nint\tсчёт1 = x;\n   \t^~~~~"⟩] := by decide +kernel

example : Marked (octets "int\t" ++ [0x441]) 0x447 ([0x451, 0x442, 49] ++ octets " = x;") (octets "int\t") [0x441, 0x447, 0x451, 0x442, 49] (octets " = x;") where
  line := by decide +kernel
  inside := by decide +kernel
  alone := fun h => absurd (by decide : InWord 0x447) h
  letters := fun _ => by decide
  starts := by
    intro _ s x h
    have : x = 9 := by
      have := congrArg List.getLast? h
      rw [List.getLast?_append] at this
      simpa [show (octets "int\t").getLast? = some 9 by decide +kernel] using this.symm
    rw [this]; decide
  ends := by
    intro _ x s h
    have : x = 32 := by
      have := congrArg List.head? h
      simpa [show (octets " = x;").head? = some 32 by decide +kernel] using this.symm
    rw [this]; decide

/-- Not a word: one mark; behind the line: none; in a line behind it: none. -/
example : logMain ⟨1, 2, 3⟩ 1 (some [116]) (some [109]) (some (octets "a == b\ncc")) 2 = some [⟨1, [116], octets "m\na == b\n  ^"⟩] ∧
    logMain ⟨1, 2, 3⟩ 1 (some [116]) (some [109]) (some (octets "a == b\ncc")) 6 = some [⟨1, [116], octets "m\na == b"⟩] ∧
    logMain ⟨1, 2, 3⟩ 1 (some [116]) (some [109]) (some (octets "a == b\ncc")) 8 = some [⟨1, [116], octets "m\na == b"⟩] ∧
    logMain ⟨1, 2, 3⟩ 1 (some [116]) (some [109]) (some (octets "a == b\ncc")) 10 = none := by decide +kernel

theorem skip_spec {as : List Nat} : ∀ {io : In} {before rest : List Nat}, Stands io before (as ++ rest) → (∀ c ∈ as, Inner c) →
    skipChars as.length io = some (encodeAll (before ++ as)).length := by
  induction as with
  | nil => intro io before rest h _; rw [List.length_nil, skipChars, h.2, List.append_nil]
  | cons c as ih =>
    intro io before rest h hv
    obtain ⟨io', e1, e2⟩ := scanChar_spec h (hv c (by simp)).1
    rw [List.length_cons, skipChars, e1]
    simp only
    rw [ih e2 (fun x hx => hv x (by simp [hx]))]
    simp

theorem flat_toStr {cs : List Nat} (h : ∀ c ∈ cs, Good c) : cs.flatMap toStr = encodeAll cs := by
  induction cs with
  | nil => rfl
  | cons c cs ih =>
    rw [List.flatMap_cons, encodeAll_cons, toStr_good' (h c (by simp)), ih (fun x hx => h x (by simp [hx]))]

/-- C83: a message about a location in a text marks the word at the column of the location in its line of code, below the tag
`path:line:column`. -/
theorem auto_marks (h : Handlers) (func : Nat) {own text msg : List Nat} {loc : Loc} {front a b rest path : List Nat} {c : Nat} (hm : 10 ∉ msg)
    (hp : getPath own text loc = some path) (hpath : path ≠ [] ∧ ∀ x ∈ path, Good x)
    (hs : Stands ⟨text, loc.code⟩ front (a ++ c :: b ++ rest)) (hr : rest = [] ∨ ∃ more, rest = 10 :: more)
    (hl : ∀ x ∈ a ++ c :: b, Inner x ∧ Good x) (hcol : loc.symbol = a.length + 1)
    (htag : (encodeAll path ++ [58] ++ showNat loc.line ++ [58] ++ showNat loc.symbol).length < 4096) :
    ∃ before word after, Marked a c b before word after ∧
      (msg.length + (encodeAll (a ++ c :: b)).length + before.length + word.length + 2 < 4096 →
        logAuto h func own text (some loc) (some msg) =
          some [⟨func, encodeAll path ++ [58] ++ showNat loc.line ++ [58] ++ showNat loc.symbol,
            msg ++ [10] ++ encodeAll (a ++ c :: b) ++ [10] ++ marks before word⟩]) := by
  have hin : ∀ x ∈ a ++ c :: b, Inner x := fun x hx => (hl x hx).1
  obtain ⟨before, word, after, h1, h2⟩ := splice_marks msg (ts := []) (i := 0) hin ⟨by simp, .inl rfl⟩
    (List.length_pos_iff.2 (encode_ne_nil c))
  rw [List.append_nil, Nat.add_zero] at h2
  refine ⟨before, word, after, h1, fun hsz => ?_⟩
  have hlen : (msg ++ [10] ++ encodeAll (a ++ c :: b) ++ [10] ++ marks before word).length =
      msg.length + (encodeAll (a ++ c :: b)).length + before.length + word.length + 2 := by
    have hw : 0 < word.length := by have := h1.inside; omega
    simp only [marks, List.length_append, List.length_cons, List.length_nil, List.length_map, List.length_replicate]
    omega
  have hok : checkArg h (some msg) = [] := by simp [checkArg, hm]
  have htext : (a ++ c :: b).length < text.length + 1 := by
    have h0 : text = encodeAll (front ++ (a ++ c :: b ++ rest)) := hs.1
    have := length_encodeAll (front ++ (a ++ c :: b ++ rest))
    rw [← h0] at this
    simp only [List.length_append, List.length_cons] at this ⊢
    omega
  have hcode : codeLine text loc = some (a ++ c :: b) := restOfLine_spec hs hin htext hr
  have hidx : getIndex text loc = some (encodeAll a).length := by
    rw [getIndex, hcol, Nat.add_sub_cancel]
    rw [skip_spec (rest := c :: b ++ rest) (by simpa using hs) (fun x hx => hin x (by simp [hx]))]
    have : loc.code = (encodeAll front).length := hs.2
    simp only [Option.map_some, Option.some.injEq]
    rw [this, encodeAll_append, List.length_append]
    omega
  have htg : getTag own text loc = some (encodeAll path ++ [58] ++ showNat loc.line ++ [58] ++ showNat loc.symbol) := by
    rw [getTag, hp, Option.map_some, if_neg hpath.1, flat_toStr hpath.2]
  have hline : (encodeAll (a ++ c :: b)).length < 4096 := by omega
  rw [logAuto, if_pos hok, htg]
  generalize hT : encodeAll path ++ [58] ++ showNat loc.line ++ [58] ++ showNat loc.symbol = T at htag ⊢
  cases T with
  | nil =>
    have := congrArg List.length hT
    simp only [List.length_append, List.length_cons, List.length_nil] at this
    omega
  | cons t T =>
    simp only
    rw [hcode]
    generalize hC : a ++ c :: b = C at *
    cases C with
    | nil => simp at hC
    | cons d C =>
      simp only
      rw [hidx, flat_toStr (fun x hx => (hl x hx).2), fit, if_pos (by simpa [MAX_MSG_SIZE] using htag), fit, if_pos (by simpa [MAX_MSG_SIZE] using hline)]
      simp only [Option.getD_some]
      rw [h2, fit, if_pos (by rw [hlen]; simpa [MAX_MSG_SIZE] using hsz)]
      rfl

/-- Searching a text and logging the place found. -/
example : (search (octets "x;\nпять = y;") 5).bind (fun loc => logAuto ⟨1, 2, 3⟩ 2 (octets "a.c") (octets "x;\nпять = y;") (some loc) (some (octets "нет"))) =
    some [⟨2, octets "a.c:2:2", octets "нет\nпять = y;\n^~~~"⟩] := by decide +kernel

/-! ## C84 -/

theorem setLog_of (h : Handlers) (k k' : Kind) (f : Nat) : (setLog h k (some f)).2.of k' = if k = k' then f else h.of k' := by
  cases k <;> cases k' <;> rfl

theorem perform_state {h h' : Handlers} {op : Op} {calls : List Call} (hp : perform h op = some (calls, h')) (k : Kind) :
    h'.of k = handlerAfter h k [op] := by
  cases op with
  | set k' func =>
    simp only [perform, Option.some.injEq, Prod.mk.injEq] at hp
    rw [← hp.2]
    cases func with
    | none => cases k' <;> simp [handlerAfter, setLog]
    | some f =>
      rw [setLog_of]
      by_cases hk : k' = k <;> simp [handlerAfter, hk]
  | log k' tag msg line symbol =>
    simp only [perform, Option.map_eq_some_iff, Prod.mk.injEq] at hp
    obtain ⟨_, _, _, rfl⟩ := hp
    simp [handlerAfter]
  | auto k' own text loc msg =>
    simp only [perform, Option.map_eq_some_iff, Prod.mk.injEq] at hp
    obtain ⟨_, _, _, rfl⟩ := hp
    simp [handlerAfter]
  | system k' tag msg =>
    simp only [perform, Option.some.injEq, Prod.mk.injEq] at hp
    rw [← hp.2]
    simp [handlerAfter]

theorem handlerAfter_cons {h h' : Handlers} {op : Op} {k : Kind} (hk : h'.of k = handlerAfter h k [op]) (ops : List Op) :
    handlerAfter h' k ops = handlerAfter h k (op :: ops) := by
  unfold handlerAfter at hk ⊢
  rw [List.reverse_cons, List.findSome?_append]
  rw [hk]
  simp only [List.reverse_cons, List.reverse_nil, List.nil_append]
  generalize ops.reverse.findSome? _ = x
  cases x with
  | none => simp
  | some x => simp

theorem null_text : ARG_NULL = octets "NULL указатель на строку" := by decide +kernel
theorem multiline_text : ARG_MULTILINE = octets "многострочный входной параметр" := by decide +kernel
theorem location_text : NO_LOCATION = octets "позиционирование невозможно" := by decide +kernel
theorem logger_text : TAG_LOGGER = octets "logger" := by decide +kernel

theorem checkArg_cases (h : Handlers) (arg : Option (List Nat)) : (checkArg h arg = [] ∧ ∃ s, arg = some s ∧ 10 ∉ s) ∨
    (¬ (∃ s, arg = some s ∧ 10 ∉ s) ∧ ∃ call : Call, checkArg h arg = [call] ∧ call.handler = h.error ∧ call.tag = octets "logger" ∧ Complaint call.text) := by
  cases arg with
  | none => exact .inr ⟨by rintro ⟨s, hs, _⟩; simp at hs, _, rfl, rfl, logger_text, .inl null_text⟩
  | some s =>
    by_cases hs : 10 ∈ s
    · refine .inr ⟨?_, _, by simp only [checkArg, if_pos hs]; rfl, rfl, logger_text, .inr (.inl multiline_text)⟩
      rintro ⟨t, ht, hn⟩
      simp only [Option.some.injEq] at ht
      rw [← ht] at hn
      exact hn hs
    · exact .inl ⟨by simp [checkArg, hs], s, rfl, hs⟩

theorem checkArgs_cases (h : Handlers) (tag msg : Option (List Nat)) :
    (checkArgs h tag msg = [] ∧ (∃ t, tag = some t ∧ 10 ∉ t) ∧ ∃ m, msg = some m ∧ 10 ∉ m) ∨
    (¬ ((∃ t, tag = some t ∧ 10 ∉ t) ∧ ∃ m, msg = some m ∧ 10 ∉ m) ∧
      ∃ call : Call, checkArgs h tag msg = [call] ∧ call.handler = h.error ∧ call.tag = octets "logger" ∧ Complaint call.text) := by
  rcases checkArg_cases h tag with ⟨e1, e2⟩ | ⟨e1, call, e2, e3⟩
  · rcases checkArg_cases h msg with ⟨f1, f2⟩ | ⟨f1, call, f2, f3⟩
    · exact .inl ⟨by rw [checkArgs, if_pos e1, f1], e2, f2⟩
    · exact .inr ⟨fun hh => f1 hh.2, call, by rw [checkArgs, if_pos e1, f2], f3⟩
  · exact .inr ⟨fun hh => e1 hh.1, call, by rw [checkArgs, if_neg (by rw [e2]; simp), e2], e3⟩

theorem splice_prefix {msg line text : List Nat} {symbol : Nat} (h : splice msg line symbol = some text) : msg <+: text := by
  have hfit : ∀ {s : List Nat}, fit (msg ++ s) = some text → msg <+: text := by
    intro s hs
    unfold fit at hs
    split at hs
    · simp only [Option.some.injEq] at hs; exact ⟨s, hs⟩
    · simp at hs
  unfold splice at h
  split at h
  · simp at h
  · split at h
    · simp at h
    · rw [List.append_assoc] at h; exact hfit h
    · simp only [List.append_assoc] at h; exact hfit h

theorem perform_delivers {h h' : Handlers} {op : Op} {calls : List Call} (hp : perform h op = some (calls, h')) :
    match op.logs with
    | none => calls = []
    | some k => Delivered h k op calls := by
  cases op with
  | set k func =>
    simp only [perform, Option.some.injEq, Prod.mk.injEq] at hp
    exact hp.1.symm
  | log k tag msg line symbol =>
    simp only [perform, Option.map_eq_some_iff, Prod.mk.injEq] at hp
    obtain ⟨calls', hc, rfl, rfl⟩ := hp
    show Delivered h k _ _
    unfold logMain at hc
    rcases checkArgs_cases h tag msg with ⟨e1, e2, e3⟩ | ⟨e1, call, e2, e3⟩
    · rw [if_pos e1] at hc
      cases line with
      | none =>
        simp only [Option.some.injEq] at hc
        exact ⟨_, hc.symm, fun hr => by obtain ⟨_, _, l, hl⟩ := hr; simp at hl, fun _ => ⟨rfl, logger_text, .inl null_text⟩⟩
      | some line =>
        simp only [Option.map_eq_some_iff] at hc
        obtain ⟨text, ht, hc⟩ := hc
        refine ⟨_, hc.symm, fun _ => ⟨rfl, ?_, splice_prefix ht⟩, fun hn => absurd ⟨e2, e3, line, rfl⟩ hn⟩
        obtain ⟨t, rfl, _⟩ := e2
        rfl
    · rw [if_neg (by rw [e2]; simp), Option.some.injEq] at hc
      exact ⟨call, by rw [← hc, e2], fun hr => absurd ⟨hr.1, hr.2.1⟩ e1, fun _ => e3⟩
  | auto k own text loc msg =>
    simp only [perform, Option.map_eq_some_iff, Prod.mk.injEq] at hp
    obtain ⟨calls', hc, rfl, rfl⟩ := hp
    show Delivered h k _ _
    unfold logAuto at hc
    rcases checkArg_cases h msg with ⟨e1, e2⟩ | ⟨e1, call, e2, e3⟩
    · rw [if_pos e1] at hc
      cases loc with
      | none =>
        simp only [Option.some.injEq] at hc
        exact ⟨_, hc.symm, fun hr => by obtain ⟨_, l, _, _, hl, _⟩ := hr; simp at hl, fun _ => ⟨rfl, logger_text, .inr (.inr location_text)⟩⟩
      | some loc =>
        simp only at hc
        cases hg : getPath own text loc with
        | none => simp [getTag, hg] at hc
        | some p =>
          by_cases hpn : p = []
          · simp only [getTag, hg, Option.map_some, hpn, if_true, Option.some.injEq] at hc
            refine ⟨_, hc.symm, fun hr => ?_, fun _ => ⟨rfl, logger_text, .inr (.inr location_text)⟩⟩
            obtain ⟨_, l, p', _, hl, hp', hne, _⟩ := hr
            simp only [Option.some.injEq] at hl
            rw [← hl, hg, Option.some.injEq] at hp'
            exact absurd (hp'.symm.trans hpn) hne
          · have htg : getTag own text loc = some (p.flatMap toStr ++ ([58] ++ showNat loc.line ++ [58] ++ showNat loc.symbol)) := by
              rw [getTag, hg, Option.map_some, if_neg hpn]; simp
            rw [htg] at hc
            generalize hT : p.flatMap toStr ++ ([58] ++ showNat loc.line ++ [58] ++ showNat loc.symbol) = T at hc
            cases T with
            | nil =>
              have := congrArg List.length hT
              simp only [List.length_append, List.length_cons, List.length_nil] at this
              omega
            | cons t T =>
              simp only at hc
              cases hcl : codeLine text loc with
              | none => rw [hcl] at hc; simp at hc
              | some cs =>
                rw [hcl] at hc
                cases cs with
                | nil =>
                  simp only [Option.some.injEq] at hc
                  refine ⟨_, hc.symm, fun hr => ?_, fun _ => ⟨rfl, logger_text, .inr (.inr location_text)⟩⟩
                  obtain ⟨_, l, p', c', hl, _, _, hcc, hne⟩ := hr
                  simp only [Option.some.injEq] at hl
                  rw [← hl, hcl, Option.some.injEq] at hcc
                  exact absurd hcc.symm hne
                | cons d cs =>
                  simp only at hc
                  cases h1 : fit (t :: T) with
                  | none => rw [h1] at hc; simp at hc
                  | some tag =>
                    cases h2 : fit ((d :: cs).flatMap toStr) with
                    | none => rw [h1, h2] at hc; simp at hc
                    | some line =>
                      cases h3 : getIndex text loc with
                      | none => rw [h1, h2, h3] at hc; simp at hc
                      | some index =>
                        rw [h1, h2, h3] at hc
                        simp only [Option.map_eq_some_iff] at hc
                        obtain ⟨out, ho, hc⟩ := hc
                        have htag : t :: T = tag := by
                          unfold fit at h1
                          split at h1
                          · simpa using h1
                          · simp at h1
                        refine ⟨_, hc.symm, fun _ => ⟨rfl, ⟨loc, p, rfl, hg, ?_⟩, splice_prefix ho⟩, fun hn => absurd ⟨e2, loc, p, _, rfl, hg, hpn, hcl, by simp⟩ hn⟩
                        exact ⟨_, by rw [hT, htag]⟩
    · rw [if_neg (by rw [e2]; simp), Option.some.injEq] at hc
      exact ⟨call, by rw [← hc, e2], fun hr => absurd hr.1 e1, fun _ => e3⟩
  | system k tag msg =>
    simp only [perform, Option.some.injEq, Prod.mk.injEq] at hp
    obtain ⟨hc, rfl⟩ := hp
    show Delivered h k _ _
    unfold logSystem at hc
    rcases checkArgs_cases h tag msg with ⟨e1, e2, e3⟩ | ⟨e1, call, e2, e3⟩
    · rw [if_pos e1] at hc
      refine ⟨_, hc.symm, fun _ => ⟨rfl, ?_, List.prefix_refl _⟩, fun hn => absurd ⟨e2, e3⟩ hn⟩
      obtain ⟨t, rfl, _⟩ := e2
      rfl
    · rw [if_neg (by rw [e2]; simp)] at hc
      exact ⟨call, by rw [← hc, e2], fun hr => absurd hr e1, fun _ => e3⟩

/-- C84: in any sequence of calls each call that logs calls one handler once: the one last set for its kind, with its tag and a text that
begins with its message; or, if its arguments are wrong, the one last set for errors, with a complaint. -/
theorem each_delivered_once : ∀ {ops : List Op} {h h' : Handlers} {r : List (List Call)}, performAll h ops = some (r, h') →
    r.length = ops.length ∧ ∀ before op after, ops = before ++ op :: after → ∃ calls, r[before.length]? = some calls ∧
      match op.logs with
      | none => calls = []
      | some k => Delivered ⟨handlerAfter h .error before, handlerAfter h .warning before, handlerAfter h .note before⟩ k op calls := by
  intro ops
  induction ops with
  | nil =>
    intro h h' r hr
    simp only [performAll, Option.some.injEq, Prod.mk.injEq] at hr
    exact ⟨by rw [← hr.1]; rfl, by intro before op after he; simp at he⟩
  | cons op ops ih =>
    intro h h' r hr
    rw [performAll] at hr
    cases hp : perform h op with
    | none => rw [hp] at hr; simp at hr
    | some p =>
      obtain ⟨calls, h1⟩ := p
      rw [hp] at hr
      simp only [Option.map_eq_some_iff] at hr
      obtain ⟨⟨r', h2⟩, hr', he⟩ := hr
      simp only [Prod.mk.injEq] at he
      obtain ⟨rfl, rfl⟩ := he
      obtain ⟨hlen, hall⟩ := ih hr'
      refine ⟨by simp [hlen], ?_⟩
      intro before op' after hsplit
      cases before with
      | nil =>
        simp only [List.nil_append, List.cons.injEq] at hsplit
        obtain ⟨rfl, rfl⟩ := hsplit
        exact ⟨calls, rfl, by simpa [handlerAfter, Handlers.of] using perform_delivers hp⟩
      | cons b before =>
        simp only [List.cons_append, List.cons.injEq] at hsplit
        obtain ⟨rfl, hs⟩ := hsplit
        obtain ⟨cs, e1, e2⟩ := hall before op' after hs
        refine ⟨cs, by simpa using e1, ?_⟩
        rw [handlerAfter_cons (perform_state hp _), handlerAfter_cons (perform_state hp _), handlerAfter_cons (perform_state hp _)] at e2
        exact e2

/-- C84: a handler that is not `NULL` is accepted, `NULL` is refused and changes nothing. -/
theorem set_answers (h : Handlers) (k : Kind) (func : Option Nat) : (setLog h k func).1 = (if func = none then -1 else 0) ∧
    ∀ k', (setLog h k func).2.of k' = if k' = k then func.getD (h.of k') else h.of k' := by
  cases func with
  | none =>
    refine ⟨by cases k <;> rfl, fun k' => ?_⟩
    by_cases hk : k' = k <;> simp [setLog, hk]
  | some f =>
    refine ⟨by cases k <;> rfl, fun k' => ?_⟩
    rw [setLog_of]
    by_cases hk : k' = k
    · simp [hk]
    · rw [if_neg (fun hh => hk hh.symm), if_neg hk]

/-- Two settings, a message, a warning of two lines, a `NULL` handler, a note about a line. -/
example : performAll ⟨1, 2, 3⟩ [.set .error (some 7), .system .error (some [116]) (some [109]), .system .warning (some [116]) (some [109, 10]),
      .set .note none, .log .note (some [116]) (some [109]) (some [97, 98]) 1] =
    some ([[], [⟨7, [116], [109]⟩], [⟨7, TAG_LOGGER, ARG_MULTILINE⟩], [], [⟨3, [116], [109, 10, 97, 98, 10, 94, 126]⟩]], ⟨7, 2, 3⟩) := by
  decide +kernel

/-! ## C85 -/

theorem default_eq (k : Kind) (tag text : List Nat) : defaultOf tag text k = (printMsg k.color text).map fun r =>
    [.color 39] ++ put (tag ++ [58, 32]) ++ [.color k.color] ++ put (octets k.name ++ [58, 32]) ++ r := by
  have h1 : TAG_ERROR = octets "ошибка" := by decide +kernel
  have h2 : TAG_WARNING = octets "предупреждение" := by decide +kernel
  have h3 : TAG_NOTE = octets "примечание" := by decide +kernel
  cases k
  · simp only [defaultOf, defaultLog, h1]; rfl
  · simp only [defaultOf, defaultLog, h2]; rfl
  · simp only [defaultOf, defaultLog, h3]; rfl

/-- C85: a message about a character of a line, given to the handler there is from the beginning, is shown with the marked word, its marks
and the name of the kind in the colour of the kind, the rest without it; the console is left without colour. -/
theorem marked_shown (h : Handlers) (k : Kind) {tag msg a b ts : List Nat} {c i : Nat} (ht : 10 ∉ tag) (hm : 10 ∉ msg)
    (hl : ∀ x ∈ a ++ c :: b, Inner x) (hb : Behind ts) (hi : i < (encode c).length) :
    ∃ before word after, Marked a c b before word after ∧
      (msg.length + (encodeAll (a ++ c :: b)).length + before.length + word.length + 2 < 4096 → ∃ text out,
        logMain h (h.of k) (some tag) (some msg) (some (encodeAll (a ++ c :: b ++ ts))) ((encodeAll a).length + i) = some [⟨h.of k, tag, text⟩] ∧
        defaultOf tag text k = some out ∧ (∀ k0, leftWith k0 out = 0) ∧
        ∀ k0, shown k0 out = shownHead k tag ++ colored 0 (msg ++ [10] ++ encodeAll before) ++ colored k.color (encodeAll word) ++
          colored 0 (encodeAll after) ++ colored k.color ([10] ++ marks before word ++ [10])) := by
  obtain ⟨before, word, after, h1, h2, _⟩ := log_marks h (h.of k) ht hm hl hb hi
  have hp := print_marked k.color hm (by rw [h1.line]; exact hl) (by intro h0; have := h1.inside; rw [h0] at this; simp at this; omega)
  rw [h1.line] at hp
  refine ⟨before, word, after, h1, fun hs => ⟨_, _, h2 hs, by rw [default_eq, hp]; rfl, ?_, ?_⟩⟩
  · intro k0
    simp only [List.append_assoc, left_color, left_put]
    rfl
  · intro k0
    simp only [List.append_assoc, shown_color, shown_put, shownHead, COLOR_DEFAULT]
    simp only [colored, List.map_append, List.map_cons, List.map_nil, List.append_assoc, List.singleton_append, List.cons_append, List.nil_append]
    rfl

/-- C85: the same for a message without a place. -/
theorem plain_shown (h : Handlers) (k : Kind) {tag msg : List Nat} (ht : 10 ∉ tag) (hm : 10 ∉ msg) :
    logSystem h (h.of k) (some tag) (some msg) = [⟨h.of k, tag, msg⟩] ∧ ∃ out, defaultOf tag msg k = some out ∧ (∀ k0, leftWith k0 out = 0) ∧
      ∀ k0, shown k0 out = shownHead k tag ++ colored 0 (msg ++ [10]) := by
  refine ⟨by simp [logSystem, checkArgs, checkArg, ht, hm], _, by rw [default_eq, print_plain _ hm]; rfl, ?_, ?_⟩
  · intro k0
    simp only [List.append_assoc, left_color, left_put]
    rfl
  · intro k0
    simp only [List.append_assoc, shown_color, shown_put, shownHead, COLOR_DEFAULT]
    simp only [colored, List.map_append, List.map_cons, List.map_nil, List.append_assoc]
    rfl

/-- C85: the same for a position behind the line. -/
theorem line_shown (h : Handlers) (k : Kind) {tag msg cs ts a b : List Nat} {c i : Nat} (ht : 10 ∉ tag) (hm : 10 ∉ msg)
    (hl : ∀ x ∈ cs, Inner x) (hb : Behind ts) (he : ts ++ [0] = a ++ c :: b) (hi : i < (encode c).length)
    (hs : msg.length + (encodeAll cs).length + 1 < 4096) : ∃ text out,
    logMain h (h.of k) (some tag) (some msg) (some (encodeAll (cs ++ ts))) ((encodeAll (cs ++ a)).length + i) = some [⟨h.of k, tag, text⟩] ∧
      defaultOf tag text k = some out ∧ (∀ k0, leftWith k0 out = 0) ∧
      ∀ k0, shown k0 out = shownHead k tag ++ colored 0 (msg ++ [10] ++ encodeAll cs ++ [10]) := by
  refine ⟨_, _, log_plain h (h.of k) ht hm hl hb he hi hs, by rw [default_eq, print_line _ hm (no10 hl)]; rfl, ?_, ?_⟩
  · intro k0
    simp only [List.append_assoc, left_color, left_put]
    rfl
  · intro k0
    simp only [List.append_assoc, shown_color, shown_put, shownHead, COLOR_DEFAULT]
    simp only [colored, List.map_append, List.map_cons, List.map_nil, List.append_assoc, List.singleton_append, List.cons_append, List.nil_append]
    rfl

/-- A warning about `ab` in `x ab;`. -/
example : (defaultOf [116] (octets "m\nx ab;\n  ^~") .warning).map (shown 0) =
    some (colored 39 (octets "t: ") ++ colored 35 (octets "предупреждение: ") ++ colored 0 (octets "m\nx ") ++ colored 35 (octets "ab") ++
      colored 0 (octets ";") ++ colored 35 (octets "\n  ^~\n")) := by decide +kernel

/-- A line of 2039 letters and a message of 16 octets leave no room for the marks: the buffer is overrun. -/
theorem long_line_overruns (h : Handlers) (func : Nat) : ∃ line msg : List Nat, line = List.replicate 2039 97 ∧ msg = List.replicate 16 109 ∧
    logMain h func (some [116]) (some msg) (some line) 0 = none := by
  refine ⟨_, _, rfl, rfl, ?_⟩
  have hrep : (97 :: List.replicate 2038 97) = List.replicate 2039 97 := rfl
  have hin : ∀ x ∈ ([] : List Nat) ++ 97 :: List.replicate 2038 97, Inner x := by
    intro x hx
    rw [List.nil_append, hrep] at hx
    rw [(List.mem_replicate.1 hx).2]; decide
  have hasc : encodeAll (List.replicate 2039 97) = List.replicate 2039 97 := encodeAll_ascii (by intro c hc; rw [(List.mem_replicate.1 hc).2]; decide)
  obtain ⟨before, word, after, h1, _, h3⟩ := log_marks h func (tag := [116]) (msg := List.replicate 16 109) (a := []) (b := List.replicate 2038 97) (ts := [])
    (c := 97) (i := 0) (by decide) (by intro h10; have := (List.mem_replicate.1 h10).2; omega) hin ⟨by simp, .inl rfl⟩ (by decide)
  rw [List.append_nil, List.nil_append, hrep, hasc, encodeAll_nil, List.length_nil] at h3
  apply h3
  have hb : before = [] := List.length_eq_zero_iff.1 (Nat.le_zero.1 h1.inside.1)
  have ha : after = [] := by
    cases hx : after with
    | nil => rfl
    | cons x s =>
      exfalso
      have hm : x ∈ List.replicate 2039 97 := by
        have := h1.line
        rw [List.nil_append, hrep] at this
        rw [← this, hx]; simp
      have hx97 := (List.mem_replicate.1 hm).2
      exact h1.ends (by decide) x s hx (by rw [hx97]; decide)
  have hw : word.length = 2039 := by
    have := congrArg List.length h1.line
    rw [hb, ha, List.nil_append, List.nil_append, List.append_nil, hrep, List.length_replicate] at this
    exact this
  rw [hb, hw]
  simp only [List.length_replicate, List.length_nil]
  omega

end RuC.Logger.Props
