import Verif.Streams.Spec

/-!
# The model of streams keeps to the specification
-/

namespace RuC.Streams
open RuC RuC.Streams.Spec

/-- A record for input stands for a source. -/
def InRep (io : In) : Source → Prop
  | .nothing => io.file = none ∧ io.buffer = none ∧ io.user = none
  | .file h o p =>
    io.file = some ⟨h, o, p⟩ ∧ io.buffer = none ∧ io.user = none ∧ io.position = p ∧ io.func = some .file ∧ o.length < 9223372036854775808
  | .text o p => io.file = none ∧ io.buffer = some o ∧ io.user = none ∧ io.size = o.length ∧ io.position = p ∧ io.func = some .buffer
  | .func f => io.file = none ∧ io.buffer = none ∧ io.user = some f ∧ io.func = some .user

/-- A record for output stands for a sink. -/
def OutRep (io : Out) : Sink → Prop
  | .nothing => io.file = none ∧ io.buffer = none ∧ io.user = none
  | .file h => io.file = some h ∧ io.buffer = none ∧ io.user = none ∧ io.func = some .file
  | .text b o =>
    io.file = none ∧ io.buffer = some (b, o) ∧ io.user = none ∧ io.position = o.length ∧ o.length < io.size ∧ io.size ≤ maxBlock ∧ io.func = some .buffer
  | .func f => io.file = none ∧ io.buffer = none ∧ io.user = some f ∧ io.func = some .user

theorem inClear_rep {io : In} {s : Source} (h : InRep io s) :
    (inClear io).2 = s.leave ∧ (inClear io).1.file = none ∧ (inClear io).1.buffer = none ∧ (inClear io).1.user = none := by
  cases s <;> simp_all [InRep, inClear, inCloseFile, Source.leave]

theorem outClear_rep {io : Out} {s : Sink} (h : OutRep io s) :
    (outClear io).2 = s.leave ∧ (outClear io).1.file = none ∧ (outClear io).1.buffer = none ∧ (outClear io).1.user = none := by
  cases s <;> simp_all [OutRep, outClear, outCloseFile, outExtract, Sink.leave]

theorem inSetFile_rep {io : In} {s : Source} (h : InRep io s) (i : Option Nat) (n : Nat) (octets : Option (List Nat))
    (hl : ∀ o, octets = some o → o.length < 9223372036854775808) :
    ∃ s', InCall (.inSetFile i n octets) s (status (inSetFile n octets io)).1 s' (status (inSetFile n octets io)).2.2 ∧
      InRep (status (inSetFile n octets io)).2.1 s' := by
  obtain ⟨h1, h2, h3, h4⟩ := inClear_rep h
  cases octets with
  | none => exact ⟨.nothing, ⟨rfl, rfl, h1⟩, h2, h3, h4⟩
  | some o => exact ⟨.file n o 0, ⟨rfl, rfl, by simp [status, inSetFile, h1]⟩, rfl, h3, h4, rfl, rfl, hl o rfl⟩

theorem inSetBuffer_rep {io : In} {s : Source} (h : InRep io s) (i : Option Nat) (text : List Nat) :
    ∃ s', InCall (.inSetBuffer i text) s (status (inSetBuffer text io)).1 s' (status (inSetBuffer text io)).2.2 ∧
      InRep (status (inSetBuffer text io)).2.1 s' := by
  obtain ⟨h1, h2, h3, h4⟩ := inClear_rep h
  exact ⟨.text text 0, ⟨rfl, rfl, h1⟩, h2, rfl, h4, rfl, rfl, rfl⟩

theorem inSetFunc_rep {io : In} {s : Source} (h : InRep io s) (i : Option Nat) (f : Option Nat) :
    ∃ s', InCall (.inSetFunc i f) s (status (inSetFunc f io)).1 s' (status (inSetFunc f io)).2.2 ∧ InRep (status (inSetFunc f io)).2.1 s' := by
  obtain ⟨h1, h2, h3, h4⟩ := inClear_rep h
  cases f with
  | none => exact ⟨.nothing, ⟨rfl, rfl, h1⟩, h2, h3, rfl⟩
  | some f => exact ⟨.func f, ⟨rfl, rfl, h1⟩, h2, h3, rfl, rfl⟩

theorem inSetPosition_rep {io : In} {s : Source} (h : InRep io s) (i : Option Nat) (p : Nat) :
    ∃ s', InCall (.inSetPosition i p) s (.status (inSetPosition p io).1) s' [] ∧ InRep (inSetPosition p io).2 s' := by
  refine ⟨(s.seek p).2, ?_⟩
  cases s with
  | nothing => simp_all [InRep, InCall, inSetPosition, Source.seek]
  | func f => simp_all [InRep, InCall, inSetPosition, Source.seek]
  | text o q =>
    obtain ⟨h1, h2, h3, h4, h5, h6⟩ := h
    simp only [InCall, inSetPosition, h2, h4, Source.seek]
    by_cases hp : p ≤ o.length
    · simp [hp, InRep, h1, h2, h3, h4, h6]
    · simp [hp, InRep, h1, h2, h3, h4, h5, h6]
  | file n o q =>
    obtain ⟨h1, h2, h3, h4, h5, h6⟩ := h
    simp only [InCall, inSetPosition, h2, h1, Source.seek]
    unfold seekFile
    by_cases h0 : p = 0
    · subst h0
      simp [InRep, h2, h3, h5, h6]
    · rw [if_neg h0]
      by_cases hp : p ≤ o.length
      · rw [if_pos (by simp only; omega), if_pos hp]
        refine ⟨⟨by simp, by simp, by simp⟩, ?_, h2, h3, by simp, h5, h6⟩
        simp only [Option.some.injEq, File.mk.injEq, true_and]
        omega
      · rw [if_neg (by simp only; omega), if_neg hp]
        exact ⟨⟨by simp, by simp, by simp⟩, by simp [h4], h2, h3, h4, h5, h6⟩

theorem inClose_rep {io : In} {s : Source} (h : InRep io s) (i : Option Nat) (ok : Bool) :
    ∃ s', InCall (.inClose i ok) s (status (inCloseFile ok io)).1 s' (status (inCloseFile ok io)).2.2 ∧ InRep (status (inCloseFile ok io)).2.1 s' := by
  refine ⟨(s.close ok).2.1, ?_⟩
  cases s <;> simp_all [InRep, InCall, inCloseFile, Source.close, status]

theorem inClear_rep' {io : In} {s : Source} (h : InRep io s) (i : Option Nat) :
    ∃ s', InCall (.inClear i) s (.status 0) s' (inClear io).2 ∧ InRep (inClear io).1 s' := by
  obtain ⟨h1, h2, h3, h4⟩ := inClear_rep h
  exact ⟨.nothing, ⟨rfl, rfl, h1⟩, h2, h3, h4⟩

theorem inGetPosition_rep {io : In} {s : Source} (h : InRep io s) (i : Option Nat) :
    ∃ s', InCall (.inGetPosition i) s (.number (inGetPosition io)) s' [] ∧ InRep io s' := by
  refine ⟨s, ⟨?_, rfl, rfl⟩, h⟩
  cases s <;> simp_all [InRep, inGetPosition, Source.position]

theorem inIs_rep {io : In} {s : Source} (h : InRep io s) (i : Option Nat) :
    ∃ s', InCall (.inIs i) s (.is io.file.isSome io.buffer.isSome io.user.isSome) s' [] ∧ InRep io s' := by
  refine ⟨s, ⟨?_, rfl, rfl⟩, h⟩
  cases s <;> simp_all [InRep, Source.is]

theorem scan_rep {io : In} {s : Source} (h : InRep io s) (i : Option Nat) :
    ∃ c io' es, scan io = some (c, io', es) ∧ ∃ s', InCall (.scan i) s (.octet c) s' es ∧ InRep io' s' := by
  cases s with
  | nothing => exact ⟨none, io, [], by simp_all [InRep, scan, inIsCorrect], .nothing, ⟨rfl, rfl, rfl⟩, h⟩
  | func f =>
    refine ⟨none, io, [.calledIn f], ?_, .func f, ⟨rfl, rfl, rfl⟩, h⟩
    obtain ⟨h1, h2, h3, h4⟩ := h
    simp [scan, inIsCorrect, h1, h2, h3, h4, scanUser]
  | text o p =>
    obtain ⟨h1, h2, h3, h4, h5, h6⟩ := h
    cases hc : o[p]? with
    | none =>
      refine ⟨none, io, [], ?_, .text o p, ⟨by simp [Source.scan, hc], by simp [Source.scan, hc, next], rfl⟩, h1, h2, h3, h4, h5, h6⟩
      simp [scan, inIsCorrect, h1, h2, h3, h6, scanBuffer, h5, hc]
    | some c =>
      refine ⟨some c, { io with position := io.position + 1 }, [], ?_, .text o (p + 1), ⟨by simp [Source.scan, hc], by simp [Source.scan, hc, next], rfl⟩,
        h1, h2, h3, h4, ?_, h6⟩
      · simp [scan, inIsCorrect, h1, h2, h3, h6, scanBuffer, h5, hc]
      · simp [h5]
  | file n o p =>
    obtain ⟨h1, h2, h3, h4, h5, h6⟩ := h
    cases hc : o[p]? with
    | none =>
      refine ⟨none, io, [.read n], ?_, .file n o p, ⟨by simp [Source.scan, hc], by simp [Source.scan, hc, next], rfl⟩, h1, h2, h3, h4, h5, h6⟩
      simp [scan, inIsCorrect, h1, h2, h3, h5, scanFile, hc]
    | some c =>
      refine ⟨some c, { io with file := some ⟨n, o, p + 1⟩, position := io.position + 1 }, [.read n], ?_, .file n o (p + 1),
        ⟨by simp [Source.scan, hc], by simp [Source.scan, hc, next], rfl⟩, rfl, h2, h3, ?_, h5, h6⟩
      · simp [scan, inIsCorrect, h1, h2, h3, h5, scanFile, hc]
      · simp [h4]

theorem outSetFile_rep {io : Out} {s : Sink} (h : OutRep io s) (i : Option Nat) (n : Nat) (ok : Bool) :
    ∃ s', OutCall (.outSetFile i n ok) s (status (outSetFile n ok io)).1 s' (status (outSetFile n ok io)).2.2 ∧
      OutRep (status (outSetFile n ok io)).2.1 s' := by
  obtain ⟨h1, h2, h3, h4⟩ := outClear_rep h
  cases ok with
  | false => exact ⟨.nothing, ⟨rfl, rfl, h1⟩, h2, h3, h4⟩
  | true => exact ⟨.file n, ⟨rfl, rfl, by simp [status, outSetFile, h1]⟩, rfl, h3, h4, rfl⟩

theorem outSetBuffer_rep {io : Out} {s : Sink} (h : OutRep io s) (i : Option Nat) (b size : Nat) (ok : Bool) (hs : size < 18446744073709551615) :
    ∃ n io' es, outSetBuffer b size ok io = some (n, io', es) ∧ ∃ s', OutCall (.outSetBuffer i b size ok) s (.status n) s' es ∧ OutRep io' s' := by
  obtain ⟨h1, h2, h3, h4⟩ := outClear_rep h
  have hu : usz (size + 1) = size + 1 := by unfold usz; omega
  unfold outSetBuffer
  rw [hu]
  by_cases hc : ok = true ∧ size < maxBlock
  · rw [if_pos ⟨hc.1, by omega⟩, if_neg (by omega)]
    refine ⟨_, _, _, rfl, .text b [], ?_, h2, rfl, h4, rfl, ?_, ?_, rfl⟩
    · simp only [OutCall]
      rw [if_pos hc]
      exact ⟨by simp, by simp, by rw [h1]⟩
    · simp
    · have := hc.2
      simp only
      omega
  · rw [if_neg (by intro hn; exact hc ⟨hn.1, by omega⟩)]
    refine ⟨_, _, _, rfl, .nothing, ?_, h2, h3, h4⟩
    simp only [OutCall]
    rw [if_neg hc]
    exact ⟨by simp, by simp, h1⟩

theorem outSetFunc_rep {io : Out} {s : Sink} (h : OutRep io s) (i : Option Nat) (f : Option Nat) :
    ∃ s', OutCall (.outSetFunc i f) s (status (outSetFunc f io)).1 s' (status (outSetFunc f io)).2.2 ∧ OutRep (status (outSetFunc f io)).2.1 s' := by
  obtain ⟨h1, h2, h3, h4⟩ := outClear_rep h
  cases f with
  | none => exact ⟨.nothing, ⟨rfl, rfl, h1⟩, h2, h3, rfl⟩
  | some f => exact ⟨.func f, ⟨rfl, rfl, h1⟩, h2, h3, rfl, rfl⟩

theorem outGive_rep {io : Out} {s : Sink} (h : OutRep io s) (i : Option Nat) :
    ∃ s', OutCall (.outExtract i) s (outGive io).1 s' (outGive io).2.2 ∧ OutRep (outGive io).2.1 s' := by
  refine ⟨s.extract.2.1, ?_⟩
  cases s <;> simp_all [OutRep, OutCall, outGive, outExtract, Sink.extract]

theorem outClose_rep {io : Out} {s : Sink} (h : OutRep io s) (i : Option Nat) (ok : Bool) :
    ∃ s', OutCall (.outClose i ok) s (status (outCloseFile ok io)).1 s' (status (outCloseFile ok io)).2.2 ∧
      OutRep (status (outCloseFile ok io)).2.1 s' := by
  refine ⟨(s.close ok).2.1, ?_⟩
  cases s <;> simp_all [OutRep, OutCall, outCloseFile, Sink.close, status]

theorem outClear_rep' {io : Out} {s : Sink} (h : OutRep io s) (i : Option Nat) :
    ∃ s', OutCall (.outClear i) s (.status 0) s' (outClear io).2 ∧ OutRep (outClear io).1 s' := by
  obtain ⟨h1, h2, h3, h4⟩ := outClear_rep h
  exact ⟨.nothing, ⟨rfl, rfl, h1⟩, h2, h3, h4⟩

theorem outIs_rep {io : Out} {s : Sink} (h : OutRep io s) (i : Option Nat) :
    ∃ s', OutCall (.outIs i) s (.is io.file.isSome io.buffer.isSome io.user.isSome) s' [] ∧ OutRep io s' := by
  refine ⟨s, ⟨?_, rfl, rfl⟩, h⟩
  cases s <;> simp_all [OutRep, Sink.is]

theorem printBuffer_rep (text : List Nat) : ∀ (grants : List Nat) {io : Out} {b : Nat} {o : List Nat}, OutRep io (.text b o) →
    ∃ n io' es, printBuffer text grants io = some (n, io', es) ∧ ∃ s', Print text grants (.text b o) n s' es ∧ OutRep io' s'
  | [], io, b, o, h => by
    obtain ⟨h1, h2, h3, h4, h5, h6, h7⟩ := h
    unfold printBuffer
    rw [h2]
    simp only [h4]
    by_cases hf : text.length + o.length < io.size
    · rw [if_pos hf]
      exact ⟨_, _, _, rfl, _, Print.text b o [] (List.nil_prefix), h1, rfl, h3, by simp, by simp; omega, h6, h7⟩
    · rw [if_neg hf]
      exact ⟨_, _, _, rfl, _, Print.refused b o [] (List.nil_prefix) (.inl rfl), h1, h2, h3, h4, h5, h6, h7⟩
  | b' :: rest, io, b, o, h => by
    obtain ⟨h1, h2, h3, h4, h5, h6, h7⟩ := h
    unfold printBuffer
    rw [h2]
    simp only [h4]
    by_cases hf : text.length + o.length < io.size
    · rw [if_pos hf]
      exact ⟨_, _, _, rfl, _, Print.text b o [] (List.nil_prefix), h1, rfl, h3, by simp, by simp; omega, h6, h7⟩
    · rw [if_neg hf]
      have hm : maxBlock = 9223372036854775807 := rfl
      have hu : usz (2 * io.size) = 2 * io.size := by unfold usz; omega
      have hu' : usz (io.size * 2) = io.size * 2 := by unfold usz; omega
      rw [hu]
      by_cases hg : 2 * io.size > maxBlock
      · rw [if_pos hg]
        exact ⟨_, _, _, rfl, _, Print.refused b o [] (List.nil_prefix) (.inr (by omega)), h1, h2, h3, h4, h5, h6, h7⟩
      · rw [if_neg hg]
        obtain ⟨n, io', es, hp, s', hs, hr⟩ := printBuffer_rep text rest (io := { io with buffer := some (b', o), size := usz (io.size * 2) })
          (b := b') (o := o) ⟨h1, rfl, h3, h4, by simp only [hu']; omega, by simp only [hu']; omega, h7⟩
        refine ⟨n, io', .moved b b' :: es, by rw [h4] at hp; rw [hp]; rfl, ?_⟩
        cases hs with
        | text _ _ bs hb => exact ⟨_, Print.text b o (b' :: bs) (List.prefix_cons_inj b' |>.2 hb), hr⟩
        | refused _ _ bs hb hc =>
          refine ⟨_, Print.refused b o (b' :: bs) (List.prefix_cons_inj b' |>.2 hb) ?_, hr⟩
          rcases hc with hc | hc
          · exact .inl (by rw [hc])
          · exact .inr hc

theorem print_rep {io : Out} {s : Sink} (h : OutRep io s) (i : Option Nat) (text grants : List Nat) :
    ∃ n io' es, print text grants io = some (n, io', es) ∧ ∃ s', OutCall (.print i text grants) s (.status n) s' es ∧ OutRep io' s' := by
  cases s with
  | nothing => exact ⟨-1, io, [], by simp_all [OutRep, print, outIsCorrect], .nothing, ⟨_, rfl, .nothing⟩, h⟩
  | func f =>
    refine ⟨0, io, [.calledOut f text], ?_, .func f, ⟨_, rfl, .func f⟩, h⟩
    obtain ⟨h1, h2, h3, h4⟩ := h
    simp [print, outIsCorrect, h1, h2, h3, h4, printUser]
  | file n =>
    refine ⟨text.length, io, [.wrote n text], ?_, .file n, ⟨_, rfl, .file n⟩, h⟩
    obtain ⟨h1, h2, h3, h4⟩ := h
    simp [print, outIsCorrect, h1, h2, h3, h4, printFile]
  | text b o =>
    obtain ⟨n, io', es, hp, s', hs, hr⟩ := printBuffer_rep text grants h
    refine ⟨n, io', es, ?_, s', ⟨_, rfl, hs⟩, hr⟩
    obtain ⟨h1, h2, h3, h4, h5, h6, h7⟩ := h
    rw [← hp]
    simp [print, outIsCorrect, h1, h2, h3, h7]

/-! ## Lists that agree place by place -/

/-- Each record stands for the source or sink at its place. -/
def Each {α β : Type} (R : α → β → Prop) (l : List α) (m : List β) : Prop :=
  l.length = m.length ∧ ∀ (k : Nat) (a : α) (b : β), l[k]? = some a → m[k]? = some b → R a b

theorem each_get {α β : Type} {R : α → β → Prop} {l : List α} {m : List β} (h : Each R l m) {k : Nat} (hk : k < l.length) :
    ∃ a b, l[k]? = some a ∧ m[k]? = some b ∧ R a b := by
  have hm : k < m.length := h.1 ▸ hk
  exact ⟨l[k], m[k], List.getElem?_eq_getElem hk, List.getElem?_eq_getElem hm,
    h.2 k _ _ (List.getElem?_eq_getElem hk) (List.getElem?_eq_getElem hm)⟩

theorem each_set {α β : Type} {R : α → β → Prop} {l : List α} {m : List β} (h : Each R l m) (k : Nat) {a : α} {b : β} (hr : R a b) :
    Each R (l.set k a) (m.set k b) := by
  refine ⟨by simp [h.1], ?_⟩
  intro j x y hx hy
  rw [List.getElem?_set] at hx hy
  by_cases hj : k = j
  · subst hj
    rw [if_pos rfl] at hx hy
    split at hx
    · split at hy
      · cases hx; cases hy; exact hr
      · cases hy
    · cases hx
  · rw [if_neg hj] at hx hy
    exact h.2 j x y hx hy

theorem each_replicate {α β : Type} {R : α → β → Prop} {a : α} {b : β} (n : Nat) (hr : R a b) : Each R (List.replicate n a) (List.replicate n b) := by
  refine ⟨by simp, ?_⟩
  intro k x y hx hy
  rw [List.getElem?_replicate] at hx hy
  by_cases hk : k < n
  · rw [if_pos hk] at hx hy
    cases hx
    cases hy
    exact hr
  · rw [if_neg hk] at hx
    cases hx

/-- The records of a program stand for sources and sinks. -/
def Rep (w : World) (s : Spec.World) : Prop :=
  Each InRep w.ins s.ins ∧ Each OutRep w.outs s.outs

theorem onIn_rep {w : World} {s : Spec.World} (h : Rep w s) {op : Op} {i : Option Nat} (hi : inOf op = some i) (hn : i ∈ streams op)
    {g : In → Option (Answer × In × List Event)} (hk : ∀ k, i = some k → k < w.ins.length)
    (hg : ∀ io src, InRep io src → ∃ a io' es, g io = some (a, io', es) ∧ ∃ s', InCall op src a s' es ∧ InRep io' s') :
    ∃ a w' es, onIn w i (nullAnswer op) g = some (a, w', es) ∧ w'.ins.length = w.ins.length ∧ w'.outs.length = w.outs.length ∧
      ∃ s', Step s op a s' es ∧ Rep w' s' := by
  cases i with
  | none => exact ⟨_, w, [], rfl, rfl, rfl, s, .null hn, h⟩
  | some k =>
    obtain ⟨io, src, h1, h2, h3⟩ := each_get h.1 (hk k rfl)
    obtain ⟨a, io', es, h4, s', h5, h6⟩ := hg io src h3
    refine ⟨a, { w with ins := w.ins.set k io' }, es, ?_, by simp, rfl, { s with ins := s.ins.set k s' }, .input hi h2 h5, each_set h.1 k h6, h.2⟩
    simp [onIn, h1, h4]

theorem onOut_rep {w : World} {s : Spec.World} (h : Rep w s) {op : Op} {i : Option Nat} (hi : outOf op = some i) (hn : i ∈ streams op)
    {g : Out → Option (Answer × Out × List Event)} (hk : ∀ k, i = some k → k < w.outs.length)
    (hg : ∀ io src, OutRep io src → ∃ a io' es, g io = some (a, io', es) ∧ ∃ s', OutCall op src a s' es ∧ OutRep io' s') :
    ∃ a w' es, onOut w i (nullAnswer op) g = some (a, w', es) ∧ w'.ins.length = w.ins.length ∧ w'.outs.length = w.outs.length ∧
      ∃ s', Step s op a s' es ∧ Rep w' s' := by
  cases i with
  | none => exact ⟨_, w, [], rfl, rfl, rfl, s, .null hn, h⟩
  | some k =>
    obtain ⟨io, src, h1, h2, h3⟩ := each_get h.2 (hk k rfl)
    obtain ⟨a, io', es, h4, s', h5, h6⟩ := hg io src h3
    refine ⟨a, { w with outs := w.outs.set k io' }, es, ?_, rfl, by simp, { s with outs := s.outs.set k s' }, .output hi h2 h5, h.1, each_set h.2 k h6⟩
    simp [onOut, h1, h4]

theorem step_rep {n : Nat} {w : World} {s : Spec.World} (h : Rep w s) (hi : w.ins.length = n) (ho : w.outs.length = n) {op : Op}
    (ha : Admissible n op) :
    ∃ a w' es, step w op = some (a, w', es) ∧ w'.ins.length = w.ins.length ∧ w'.outs.length = w.outs.length ∧ ∃ s', Step s op a s' es ∧ Rep w' s' := by
  obtain ⟨hb, hc⟩ := ha
  cases op with
  | inSetFile i f octets =>
    refine onIn_rep h (op := .inSetFile i f octets) rfl (by simp [streams, inOf]) (by intro k hk; rw [hi]; exact hb k (by simp [streams, inOf, hk])) ?_
    intro io src hr
    refine ⟨_, _, _, rfl, inSetFile_rep hr i f octets ?_⟩
    intro o ho
    subst ho
    exact hc
  | inSetBuffer i text =>
    refine onIn_rep h (op := .inSetBuffer i text) rfl (by simp [streams, inOf]) (by intro k hk; rw [hi]; exact hb k (by simp [streams, inOf, hk])) ?_
    exact fun io src hr => ⟨_, _, _, rfl, inSetBuffer_rep hr i text⟩
  | inSetFunc i f =>
    refine onIn_rep h (op := .inSetFunc i f) rfl (by simp [streams, inOf]) (by intro k hk; rw [hi]; exact hb k (by simp [streams, inOf, hk])) ?_
    exact fun io src hr => ⟨_, _, _, rfl, inSetFunc_rep hr i f⟩
  | inSetPosition i p =>
    refine onIn_rep h (op := .inSetPosition i p) rfl (by simp [streams, inOf]) (by intro k hk; rw [hi]; exact hb k (by simp [streams, inOf, hk])) ?_
    exact fun io src hr => ⟨_, _, _, rfl, inSetPosition_rep hr i p⟩
  | inClose i ok =>
    refine onIn_rep h (op := .inClose i ok) rfl (by simp [streams, inOf]) (by intro k hk; rw [hi]; exact hb k (by simp [streams, inOf, hk])) ?_
    exact fun io src hr => ⟨_, _, _, rfl, inClose_rep hr i ok⟩
  | inClear i =>
    refine onIn_rep h (op := .inClear i) rfl (by simp [streams, inOf]) (by intro k hk; rw [hi]; exact hb k (by simp [streams, inOf, hk])) ?_
    exact fun io src hr => ⟨_, _, _, rfl, inClear_rep' hr i⟩
  | inGetPosition i =>
    refine onIn_rep h (op := .inGetPosition i) rfl (by simp [streams, inOf]) (by intro k hk; rw [hi]; exact hb k (by simp [streams, inOf, hk])) ?_
    exact fun io src hr => ⟨_, _, _, rfl, inGetPosition_rep hr i⟩
  | inIs i =>
    refine onIn_rep h (op := .inIs i) rfl (by simp [streams, inOf]) (by intro k hk; rw [hi]; exact hb k (by simp [streams, inOf, hk])) ?_
    exact fun io src hr => ⟨_, _, _, rfl, inIs_rep hr i⟩
  | scan i =>
    refine onIn_rep h (op := .scan i) rfl (by simp [streams, inOf]) (by intro k hk; rw [hi]; exact hb k (by simp [streams, inOf, hk])) ?_
    intro io src hr
    obtain ⟨c, io', es, h1, h2⟩ := scan_rep hr i
    exact ⟨.octet c, io', es, by rw [h1]; rfl, h2⟩
  | outSetFile i f ok =>
    refine onOut_rep h (op := .outSetFile i f ok) rfl (by simp [streams, inOf, outOf])
      (by intro k hk; rw [ho]; exact hb k (by simp [streams, inOf, outOf, hk])) ?_
    exact fun io src hr => ⟨_, _, _, rfl, outSetFile_rep hr i f ok⟩
  | outSetBuffer i b size ok =>
    refine onOut_rep h (op := .outSetBuffer i b size ok) rfl (by simp [streams, inOf, outOf])
      (by intro k hk; rw [ho]; exact hb k (by simp [streams, inOf, outOf, hk])) ?_
    intro io src hr
    obtain ⟨c, io', es, h1, h2⟩ := outSetBuffer_rep hr i b size ok hc
    exact ⟨.status c, io', es, by rw [h1]; rfl, h2⟩
  | outSetFunc i f =>
    refine onOut_rep h (op := .outSetFunc i f) rfl (by simp [streams, inOf, outOf])
      (by intro k hk; rw [ho]; exact hb k (by simp [streams, inOf, outOf, hk])) ?_
    exact fun io src hr => ⟨_, _, _, rfl, outSetFunc_rep hr i f⟩
  | outExtract i =>
    refine onOut_rep h (op := .outExtract i) rfl (by simp [streams, inOf, outOf])
      (by intro k hk; rw [ho]; exact hb k (by simp [streams, inOf, outOf, hk])) ?_
    exact fun io src hr => ⟨_, _, _, rfl, outGive_rep hr i⟩
  | outClose i ok =>
    refine onOut_rep h (op := .outClose i ok) rfl (by simp [streams, inOf, outOf])
      (by intro k hk; rw [ho]; exact hb k (by simp [streams, inOf, outOf, hk])) ?_
    exact fun io src hr => ⟨_, _, _, rfl, outClose_rep hr i ok⟩
  | outClear i =>
    refine onOut_rep h (op := .outClear i) rfl (by simp [streams, inOf, outOf])
      (by intro k hk; rw [ho]; exact hb k (by simp [streams, inOf, outOf, hk])) ?_
    exact fun io src hr => ⟨_, _, _, rfl, outClear_rep' hr i⟩
  | outIs i =>
    refine onOut_rep h (op := .outIs i) rfl (by simp [streams, inOf, outOf])
      (by intro k hk; rw [ho]; exact hb k (by simp [streams, inOf, outOf, hk])) ?_
    exact fun io src hr => ⟨_, _, _, rfl, outIs_rep hr i⟩
  | print i text grants =>
    refine onOut_rep h (op := .print i text grants) rfl (by simp [streams, inOf, outOf])
      (by intro k hk; rw [ho]; exact hb k (by simp [streams, inOf, outOf, hk])) ?_
    intro io src hr
    obtain ⟨c, io', es, h1, h2⟩ := print_rep hr i text grants
    exact ⟨.status c, io', es, by rw [h1]; rfl, h2⟩
  | inSwap i j =>
    cases i with
    | none => exact ⟨_, w, [], rfl, rfl, rfl, s, .null (op := .inSwap none j) (by simp [streams]), h⟩
    | some i =>
      cases j with
      | none => exact ⟨_, w, [], rfl, rfl, rfl, s, .null (op := .inSwap (some i) none) (by simp [streams]), h⟩
      | some j =>
        obtain ⟨a, x, h1, h2, h3⟩ := each_get h.1 (k := i) (by rw [hi]; exact hb i (by simp [streams]))
        obtain ⟨b, y, h4, h5, h6⟩ := each_get h.1 (k := j) (by rw [hi]; exact hb j (by simp [streams]))
        exact ⟨.status 0, { w with ins := (w.ins.set i b).set j a }, [], by simp [step, inSwap, h1, h4], by simp, rfl, _, .inSwap h2 h5,
          each_set (each_set h.1 i h6) j h3, h.2⟩
  | outSwap i j =>
    cases i with
    | none => exact ⟨_, w, [], rfl, rfl, rfl, s, .null (op := .outSwap none j) (by simp [streams]), h⟩
    | some i =>
      cases j with
      | none => exact ⟨_, w, [], rfl, rfl, rfl, s, .null (op := .outSwap (some i) none) (by simp [streams]), h⟩
      | some j =>
        obtain ⟨a, x, h1, h2, h3⟩ := each_get h.2 (k := i) (by rw [ho]; exact hb i (by simp [streams]))
        obtain ⟨b, y, h4, h5, h6⟩ := each_get h.2 (k := j) (by rw [ho]; exact hb j (by simp [streams]))
        exact ⟨.status 0, { w with outs := (w.outs.set i b).set j a }, [], by simp [step, outSwap, h1, h4], rfl, by simp, _, .outSwap h2 h5,
          h.1, each_set (each_set h.2 i h6) j h3⟩
  | erase i =>
    cases i with
    | none => exact ⟨_, w, [], rfl, rfl, rfl, s, .null (op := .erase none) (by simp [streams]), h⟩
    | some k =>
      obtain ⟨a, x, h1, h2, h3⟩ := each_get h.1 (k := k) (by rw [hi]; exact hb k (by simp [streams]))
      obtain ⟨b, y, h4, h5, h6⟩ := each_get h.2 (k := k) (by rw [ho]; exact hb k (by simp [streams]))
      obtain ⟨c1, c2, c3, c4⟩ := inClear_rep h3
      obtain ⟨d1, d2, d3, d4⟩ := outClear_rep h6
      refine ⟨.status 0, ⟨w.ins.set k (inClear a).1, w.outs.set k (outClear b).1⟩, (inClear a).2 ++ (outClear b).2, by simp [step, erase, h1, h4],
        by simp, by simp, ⟨s.ins.set k .nothing, s.outs.set k .nothing⟩, ?_, each_set h.1 k ⟨c2, c3, c4⟩, each_set h.2 k ⟨d2, d3, d4⟩⟩
      rw [c1, d1]
      exact .erase h2 h5

theorem run_rep {n : Nat} : ∀ (ops : List Op) {w : World} {s : Spec.World}, Rep w s → w.ins.length = n → w.outs.length = n →
    (∀ op ∈ ops, Admissible n op) → ∃ as w' es, run w ops = some (as, w', es) ∧ ∃ s', Run s ops as s' es ∧ Rep w' s'
  | [], w, s, h, _, _, _ => ⟨[], w, [], rfl, s, .nil, h⟩
  | op :: ops, w, s, h, hi, ho, ha => by
    obtain ⟨a, w1, es, h1, h2, h3, s1, h4, h5⟩ := step_rep h hi ho (ha op (by simp))
    obtain ⟨as, w2, es2, h6, s2, h7, h8⟩ := run_rep ops h5 (h2.trans hi) (h3.trans ho) (fun o hm => ha o (by simp [hm]))
    exact ⟨a :: as, w2, es ++ es2, by simp [run, h1, h6], s2, .cons h4 h7, h8⟩

theorem start_rep (n : Nat) : Rep (start n) (Spec.start n) :=
  ⟨each_replicate n ⟨rfl, rfl, rfl⟩, each_replicate n ⟨rfl, rfl, rfl⟩⟩

end RuC.Streams
