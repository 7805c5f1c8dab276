import Verif.Streams.Held

/-!
# Properties of streams
-/

namespace RuC.Streams.Props
open RuC RuC.Streams RuC.Streams.Spec

/-- C88: whatever calls a program makes on any number of streams, in any order, with whatever the system answers: no function pointer or file that is not
there is used, and the answers and effects are those of streams that read from what was set last, octet by octet from the position they tell, and write to
what was set last; that keep input and output, and one stream and another, apart; and that exchange all when swapped. -/
theorem streams_follow_last_setting (n : Nat) (ops : List Op) (ha : ∀ op ∈ ops, Admissible n op) :
    ∃ as w es, run (Streams.start n) ops = some (as, w, es) ∧ ∃ s, Run (Spec.start n) ops as s es := by
  obtain ⟨as, w, es, h1, s, h2, _⟩ := run_rep ops (start_rep n) (by simp [Streams.start]) (by simp [Streams.start]) ha
  exact ⟨as, w, es, h1, s, h2⟩

/-- C88: a call changes no stream but the ones it is given. -/
theorem other_streams_untouched {w w' : Streams.World} {op : Op} {a : Answer} {es : List Event} (h : step w op = some (a, w', es)) (k : Nat)
    (hk : some k ∉ streams op) : w'.ins[k]? = w.ins[k]? ∧ w'.outs[k]? = w.outs[k]? := by
  have hin : ∀ {i : Option Nat} {nul : Answer} {g : In → Option (Answer × In × List Event)}, some k ≠ i → onIn w i nul g = some (a, w', es) →
      w'.ins[k]? = w.ins[k]? ∧ w'.outs[k]? = w.outs[k]? := by
    intro i nul g hi h
    unfold onIn at h
    cases i with
    | none => cases h; exact ⟨rfl, rfl⟩
    | some j =>
      simp only at h
      cases hj : w.ins[j]? with
      | none => rw [hj] at h; cases h
      | some io =>
        rw [hj] at h
        simp only at h
        cases hg : g io with
        | none => rw [hg] at h; cases h
        | some r =>
          rw [hg] at h
          cases h
          exact ⟨List.getElem?_set_ne (fun he => hi (by rw [he])), rfl⟩
  have hout : ∀ {i : Option Nat} {nul : Answer} {g : Out → Option (Answer × Out × List Event)}, some k ≠ i → onOut w i nul g = some (a, w', es) →
      w'.ins[k]? = w.ins[k]? ∧ w'.outs[k]? = w.outs[k]? := by
    intro i nul g hi h
    unfold onOut at h
    cases i with
    | none => cases h; exact ⟨rfl, rfl⟩
    | some j =>
      simp only at h
      cases hj : w.outs[j]? with
      | none => rw [hj] at h; cases h
      | some io =>
        rw [hj] at h
        simp only at h
        cases hg : g io with
        | none => rw [hg] at h; cases h
        | some r =>
          rw [hg] at h
          cases h
          exact ⟨rfl, List.getElem?_set_ne (fun he => hi (by rw [he]))⟩
  cases op with
  | inSwap i j =>
    have h' : inSwap w i j = some (a, w', es) := h
    unfold inSwap at h'
    simp only [streams, List.mem_cons, List.not_mem_nil, or_false, not_or] at hk
    split at h'
    · split at h'
      · cases h'
        refine ⟨?_, rfl⟩
        rw [List.getElem?_set_ne (fun he => hk.2 (by rw [he])), List.getElem?_set_ne (fun he => hk.1 (by rw [he]))]
      · cases h'
    · cases h'
      exact ⟨rfl, rfl⟩
  | outSwap i j =>
    have h' : outSwap w i j = some (a, w', es) := h
    unfold outSwap at h'
    simp only [streams, List.mem_cons, List.not_mem_nil, or_false, not_or] at hk
    split at h'
    · split at h'
      · cases h'
        refine ⟨rfl, ?_⟩
        rw [List.getElem?_set_ne (fun he => hk.2 (by rw [he])), List.getElem?_set_ne (fun he => hk.1 (by rw [he]))]
      · cases h'
    · cases h'
      exact ⟨rfl, rfl⟩
  | erase i =>
    have h' : erase w i = some (a, w', es) := h
    unfold erase at h'
    simp only [streams, List.mem_cons, List.not_mem_nil, or_false] at hk
    split at h'
    · cases h'
      exact ⟨rfl, rfl⟩
    · split at h'
      · cases h'
        exact ⟨List.getElem?_set_ne (fun he => hk (by rw [he])), List.getElem?_set_ne (fun he => hk (by rw [he]))⟩
      · cases h'
  | inSetFile i f o => exact hin (by simpa [streams, inOf, outOf] using hk) h
  | inSetBuffer i t => exact hin (by simpa [streams, inOf, outOf] using hk) h
  | inSetFunc i f => exact hin (by simpa [streams, inOf, outOf] using hk) h
  | inSetPosition i p => exact hin (by simpa [streams, inOf, outOf] using hk) h
  | inClose i ok => exact hin (by simpa [streams, inOf, outOf] using hk) h
  | inClear i => exact hin (by simpa [streams, inOf, outOf] using hk) h
  | inGetPosition i => exact hin (by simpa [streams, inOf, outOf] using hk) h
  | inIs i => exact hin (by simpa [streams, inOf, outOf] using hk) h
  | scan i => exact hin (by simpa [streams, inOf, outOf] using hk) h
  | outSetFile i f o => exact hout (by simpa [streams, inOf, outOf] using hk) h
  | outSetBuffer i b s o => exact hout (by simpa [streams, inOf, outOf] using hk) h
  | outSetFunc i f => exact hout (by simpa [streams, inOf, outOf] using hk) h
  | outExtract i => exact hout (by simpa [streams, inOf, outOf] using hk) h
  | outClose i ok => exact hout (by simpa [streams, inOf, outOf] using hk) h
  | outClear i => exact hout (by simpa [streams, inOf, outOf] using hk) h
  | outIs i => exact hout (by simpa [streams, inOf, outOf] using hk) h
  | print i t g => exact hout (by simpa [streams, inOf, outOf] using hk) h

/-- A program with two streams: it reads a file, exchanges the inputs and reads on; it prints to a buffer that grows, takes the text and prints to a file. -/
def sample : List Op :=
  [.inSetFile (some 0) 7 (some [104, 105]), .scan (some 0), .inSwap (some 0) (some 1), .inGetPosition (some 1), .scan (some 1), .scan (some 1),
    .inSetPosition (some 1) 3, .inSetPosition (some 1) 1, .scan (some 1), .scan (some 0), .outSetBuffer (some 0) 20 2 true,
    .print (some 0) [97, 98, 99] [21], .print (some 0) [100] [22], .outExtract (some 0), .print (some 0) [97] [], .outSetFile (some 0) 8 true,
    .print (some 0) [97] [], .outSetFunc (some 0) (some 5), .print (some 0) [98] [], .inSetBuffer (some 1) [120], .scan (some 1)]

example : (∀ op ∈ sample, Admissible 2 op) ∧
    (run (Streams.start 2) sample).map (fun r => (r.1, r.2.2)) = some
      ([.status 0, .octet (some 104), .status 0, .number 1, .octet (some 105), .octet none, .status (-1), .status 0, .octet (some 105), .octet none,
        .status 0, .status 3, .status 1, .text (some (21, [97, 98, 99, 100])), .status (-1), .status 0, .status 1, .status 0, .status 0, .status 0,
        .octet (some 120)],
       [.opened 7, .read 7, .read 7, .read 7, .read 7, .allocated 20, .moved 20 21, .gave 21, .opened 8, .wrote 8 [97], .closed 8, .calledOut 5 [98],
        .closed 7]) := by
  constructor
  · intro op hop
    refine ⟨?_, ?_⟩
    · simp only [sample, List.mem_cons, List.not_mem_nil, or_false] at hop
      rcases hop with rfl | rfl | rfl | rfl | rfl | rfl | rfl | rfl | rfl | rfl | rfl | rfl | rfl | rfl | rfl | rfl | rfl | rfl | rfl | rfl | rfl <;>
        simp [streams, inOf, outOf]
    · simp only [sample, List.mem_cons, List.not_mem_nil, or_false] at hop
      rcases hop with rfl | rfl | rfl | rfl | rfl | rfl | rfl | rfl | rfl | rfl | rfl | rfl | rfl | rfl | rfl | rfl | rfl | rfl | rfl | rfl | rfl <;>
        simp
  · decide +kernel

theorem each_tail {α β : Type} {R : α → β → Prop} {a : α} {b : β} {l : List α} {m : List β} (h : Each R (a :: l) (b :: m)) : R a b ∧ Each R l m :=
  ⟨h.2 0 a b rfl rfl, by simpa using h.1, fun k x y hx hy => h.2 (k + 1) x y (by simpa using hx) (by simpa using hy)⟩

theorem each_count {α β : Type} {R : α → β → Prop} {p : α → Bool} {f : β → List Nat} (hr : ∀ a b, R a b → (f b).length = (p a).toNat) :
    ∀ (l : List α) (m : List β), Each R l m → (m.flatMap f).length = l.countP p
  | [], [], _ => rfl
  | [], _ :: _, h => by simp [Each] at h
  | _ :: _, [], h => by simp [Each] at h
  | a :: l, b :: m, h => by
    obtain ⟨h1, h2⟩ := each_tail h
    rw [List.flatMap_cons, List.length_append, each_count hr l m h2, hr a b h1, List.countP_cons]
    cases p a <;> simp <;> omega

/-- C89: files and blocks of memory have one owner: whatever calls are made, no file is used or closed that is not open, no block is moved, freed or given to
the user that the stream does not have; at every time the files that are open are as many as the streams that say they read or write a file, and the
blocks as many as the streams that say they write a buffer; the system is taken to number files and blocks afresh. -/
theorem files_and_blocks_have_one_owner (n : Nat) (ops : List Op) (ha : ∀ op ∈ ops, Admissible n op) (hf : (ops.flatMap newFiles).Nodup)
    (hb : (ops.flatMap newBlocks).Nodup) :
    ∃ as w es, run (Streams.start n) ops = some (as, w, es) ∧
      (∃ live, files [] es = some live ∧ live.Nodup ∧
        live.length = w.ins.countP (fun io => io.file.isSome) + w.outs.countP (fun io => io.file.isSome)) ∧
      (∃ live, blocks [] es = some live ∧ live.Nodup ∧ live.length = w.outs.countP (fun io => io.buffer.isSome)) := by
  obtain ⟨as, w, es, h1, s, h2, h3⟩ := run_rep ops (start_rep n) (by simp [Streams.start]) (by simp [Streams.start]) ha
  refine ⟨as, w, es, h1, ?_, ?_⟩
  · obtain ⟨live, h4, h5, h6⟩ := run_files h2 (live := []) (by rw [start_held]) List.nodup_nil hf (by simp)
    refine ⟨live, h4, h6, ?_⟩
    rw [h5.length_eq]
    unfold Spec.World.held
    rw [List.length_append]
    congr 1
    · refine each_count ?_ _ _ h3.1
      intro a b hr
      cases b <;> simp_all [InRep, Source.held]
    · refine each_count ?_ _ _ h3.2
      intro a b hr
      cases b <;> simp_all [OutRep, Sink.held]
  · obtain ⟨live, h4, h5, h6⟩ := run_blocks h2 (live := []) (by rw [start_blocks]) List.nodup_nil hb (by simp)
    refine ⟨live, h4, h6, ?_⟩
    rw [h5.length_eq]
    refine each_count ?_ _ _ h3.2
    intro a b hr
    cases b <;> simp_all [OutRep, Sink.block]

/-- C89: when every stream is erased at the end, no file is left open and no block is left that was not given to the user. -/
theorem nothing_left_after_erase (n : Nat) (ops : List Op) (ha : ∀ op ∈ ops, Admissible n op) (hf : (ops.flatMap newFiles).Nodup)
    (hb : (ops.flatMap newBlocks).Nodup) :
    ∃ as w es, run (Streams.start n) (ops ++ (List.range n).map fun k => Op.erase (some k)) = some (as, w, es) ∧
      files [] es = some [] ∧ blocks [] es = some [] := by
  have ha' : ∀ op ∈ ops ++ (List.range n).map (fun k => Op.erase (some k)), Admissible n op := by
    intro op hop
    rcases List.mem_append.1 hop with h | h
    · exact ha op h
    · obtain ⟨k, hk, rfl⟩ := List.mem_map.1 h
      refine ⟨?_, trivial⟩
      intro j hj
      simp only [streams, List.mem_cons, List.not_mem_nil, or_false, Option.some.injEq] at hj
      rw [hj]
      exact List.mem_range.1 hk
  obtain ⟨as, w, es, h1, s, h2, h3⟩ := run_rep _ (start_rep n) (by simp [Streams.start]) (by simp [Streams.start]) ha'
  refine ⟨as, w, es, h1, ?_⟩
  obtain ⟨s1, as1, es1, as2, es2, h4, h5⟩ := run_append h2
  have hl := run_length h2
  obtain ⟨hz1, hz2⟩ := cleared_held (erase_all n h5) (by rw [hl.1]; simp [Spec.start]) (by rw [hl.2]; simp [Spec.start])
  have hf' : ((ops ++ (List.range n).map fun k => Op.erase (some k)).flatMap newFiles) = ops.flatMap newFiles := by
    rw [List.flatMap_append, erase_ops_new, List.append_nil]
  have hb' : ((ops ++ (List.range n).map fun k => Op.erase (some k)).flatMap newBlocks) = ops.flatMap newBlocks := by
    rw [List.flatMap_append, erase_ops_blocks, List.append_nil]
  obtain ⟨l1, c1, c2, _⟩ := run_files h2 (live := []) (by rw [start_held]) List.nodup_nil (by rw [hf']; exact hf) (by simp)
  obtain ⟨l2, d1, d2, _⟩ := run_blocks h2 (live := []) (by rw [start_blocks]) List.nodup_nil (by rw [hb']; exact hb) (by simp)
  rw [hz1] at c2
  rw [hz2] at d2
  exact ⟨by rw [c1, c2.eq_nil], by rw [d1, d2.eq_nil]⟩

example : (sample.flatMap newFiles).Nodup ∧ (sample.flatMap newBlocks).Nodup ∧
    ((run (Streams.start 2) (sample ++ [.outSetBuffer (some 1) 23 9 true, .inSetFile (some 1) 9 (some []), .erase (some 0), .erase (some 1)])).bind
      fun r => (files [] r.2.2).map fun l => (l, blocks [] r.2.2)) = some ([], some []) := by
  decide +kernel

/-- C89: the record of events is not blind: a file closed twice, a block freed after it was given away and a file left open are seen. -/
theorem ledger_sees_faults : files [] [.opened 1, .closed 1, .closed 1] = none ∧ blocks [] [.allocated 1, .gave 1, .freed 1] = none ∧
    files [] [.opened 1, .opened 2, .closed 2] = some [1] := by
  decide +kernel

/-- C88: a buffer asked to be so large that its size with the terminating zero wraps gets a block without octets, and the zero is written behind it. -/
theorem buffer_size_wraps : step (Streams.start 1) (.outSetBuffer (some 0) 1 18446744073709551615 true) = none := by
  decide +kernel

end RuC.Streams.Props
