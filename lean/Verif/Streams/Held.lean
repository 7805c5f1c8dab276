import Verif.Streams.Lemmas

/-!
# Files and blocks have one owner
-/

namespace RuC.Streams.Spec
open RuC RuC.Streams

theorem count_set {α : Type} (f : α → List Nat) (x : Nat) : ∀ (l : List α) (k : Nat) (s s' : α), l[k]? = some s →
    ((l.set k s').flatMap f).count x + (f s).count x = (l.flatMap f).count x + (f s').count x
  | [], k, s, s', h => by simp at h
  | a :: l, 0, s, s', h => by
    simp only [List.getElem?_cons_zero, Option.some.injEq] at h
    subst h
    simp only [List.set_cons_zero, List.flatMap_cons, List.count_append]
    omega
  | a :: l, k + 1, s, s', h => by
    simp only [List.getElem?_cons_succ] at h
    have ih := count_set f x l k s s' h
    simp only [List.set_cons_succ, List.flatMap_cons, List.count_append]
    omega

theorem swap_perm {α : Type} (f : α → List Nat) {l : List α} {i j : Nat} {s t : α} (hi : l[i]? = some s) (hj : l[j]? = some t) :
    ((l.flatMap f)).Perm (((l.set i t).set j s).flatMap f) := by
  rw [List.perm_iff_count]
  intro x
  have h1 := count_set f x l i s t hi
  have hi' : i < l.length := by
    rcases Nat.lt_or_ge i l.length with h | h
    · exact h
    · rw [List.getElem?_eq_none h] at hi
      cases hi
  have hj' : (l.set i t)[j]? = some t := by
    rw [List.getElem?_set]
    by_cases h : i = j
    · rw [if_pos h, if_pos hi']
    · rw [if_neg h, hj]
  have h2 := count_set f x (l.set i t) j t s hj'
  omega

theorem set_perm {α : Type} (f : α → List Nat) {l : List α} {k : Nat} {s : α} (h : l[k]? = some s) :
    ∃ rest, (l.flatMap f).Perm (f s ++ rest) ∧ ∀ s', ((l.set k s').flatMap f).Perm (f s' ++ rest) := by
  have hk : k < l.length := by
    rcases Nat.lt_or_ge k l.length with h' | h'
    · exact h'
    · rw [List.getElem?_eq_none h'] at h
      cases h
  refine ⟨(l.take k).flatMap f ++ (l.drop (k + 1)).flatMap f, ?_, ?_⟩
  · have he : l[k] = s := by rw [List.getElem?_eq_getElem hk] at h; exact Option.some.inj h
    have : l = l.take k ++ s :: l.drop (k + 1) := by
      rw [← he, List.getElem_cons_drop, List.take_append_drop]
    have hp : (l.take k ++ s :: l.drop (k + 1)).flatMap f = (l.take k).flatMap f ++ (f s ++ (l.drop (k + 1)).flatMap f) := by
      simp [List.flatMap_append, List.flatMap_cons]
    rw [← this] at hp
    rw [hp]
    exact List.perm_append_comm_assoc _ _ _
  · intro s'
    rw [List.set_eq_take_append_cons_drop, if_pos hk, List.flatMap_append, List.flatMap_cons]
    exact List.perm_append_comm_assoc _ _ _

/-- The owned numbers after a call: exactly the ones held, each once, and none out of nowhere. -/
def Next (live new target live' : List Nat) : Prop :=
  live'.Perm target ∧ live'.Nodup ∧ ∀ x ∈ live', x ∈ live ∨ x ∈ new

theorem Next.same {live new target : List Nat} (h : live.Perm target) (hn : live.Nodup) : Next live new target live :=
  ⟨h, hn, fun _ hx => .inl hx⟩

theorem Next.drop {live rest : List Nat} {x : Nat} (new : List Nat) (h : live.Perm (x :: rest)) (hn : live.Nodup) : Next live new rest (live.erase x) := by
  refine ⟨?_, hn.erase x, fun y hy => .inl (List.mem_of_mem_erase hy)⟩
  have := h.erase x
  simpa using this

theorem Next.add {live rest live1 new : List Nat} {x : Nat} (h : Next live [] rest live1) (hx : x ∉ live) (hn : x ∈ new) :
    Next live new (x :: rest) (x :: live1) ∧ x ∉ live1 := by
  have hx1 : x ∉ live1 := by
    intro hm
    rcases h.2.2 x hm with h' | h'
    · exact hx h'
    · simp at h'
  refine ⟨⟨List.Perm.cons x h.1, List.nodup_cons.2 ⟨hx1, h.2.1⟩, ?_⟩, hx1⟩
  intro y hy
  rcases List.mem_cons.1 hy with hy | hy
  · exact .inr (hy ▸ hn)
  · rcases h.2.2 y hy with h' | h'
    · exact .inl h'
    · simp at h'

theorem mem_of_perm {live rest : List Nat} {x : Nat} (h : live.Perm (x :: rest)) : x ∈ live := h.mem_iff.2 (by simp)

theorem files_append (live : List Nat) (es es' : List Event) : files live (es ++ es') = (files live es).bind fun l => files l es' := by
  unfold files
  rw [List.foldlM_append]
  rfl

theorem blocks_append (live : List Nat) (es es' : List Event) : blocks live (es ++ es') = (blocks live es).bind fun l => blocks l es' := by
  unfold blocks
  rw [List.foldlM_append]
  rfl

theorem files_nil (live : List Nat) : files live [] = some live := rfl

theorem files_one (live : List Nat) (e : Event) : files live [e] = fileEvent live e := by
  unfold files
  simp [List.foldlM]

theorem blocks_nil (live : List Nat) : blocks live [] = some live := rfl

theorem blocks_one (live : List Nat) (e : Event) : blocks live [e] = blockEvent live e := by
  unfold blocks
  simp [List.foldlM]

/-! ## Files -/

theorem source_leave {s : Source} {live rest : List Nat} (new : List Nat) (h : live.Perm (s.held ++ rest)) (hn : live.Nodup) :
    ∃ live', files live s.leave = some live' ∧ Next live new rest live' := by
  cases s with
  | file n o p => exact ⟨live.erase n, by simp [Source.leave, files_one, fileEvent, mem_of_perm (by simpa [Source.held] using h)], Next.drop new h hn⟩
  | _ => exact ⟨live, rfl, .same h hn⟩

theorem sink_leave {s : Sink} {live rest : List Nat} (new : List Nat) (h : live.Perm (s.held ++ rest)) (hn : live.Nodup) :
    ∃ live', files live s.leave = some live' ∧ Next live new rest live' := by
  cases s with
  | file n => exact ⟨live.erase n, by simp [Sink.leave, files_one, fileEvent, mem_of_perm (by simpa [Sink.held] using h)], Next.drop new h hn⟩
  | text b o => exact ⟨live, by simp [Sink.leave, files_one, fileEvent], .same h hn⟩
  | _ => exact ⟨live, rfl, .same h hn⟩

theorem in_files {op : Op} {s s' : Source} {a : Answer} {es : List Event} {live rest : List Nat} (hc : InCall op s a s' es)
    (h : live.Perm (s.held ++ rest)) (hn : live.Nodup) (hf : ∀ x ∈ newFiles op, x ∉ live) :
    ∃ live', files live es = some live' ∧ Next live (newFiles op) (s'.held ++ rest) live' := by
  cases op with
  | inSetFile i n octets =>
    cases octets with
    | none =>
      obtain ⟨_, rfl, rfl⟩ := hc
      exact source_leave _ h hn
    | some o =>
      obtain ⟨_, rfl, rfl⟩ := hc
      obtain ⟨l1, h1, h2⟩ := source_leave [] h hn
      obtain ⟨h3, h4⟩ := Next.add (new := newFiles (.inSetFile i n (some o))) h2 (hf n (by simp [newFiles])) (by simp [newFiles])
      exact ⟨n :: l1, by rw [files_append, h1]; simp [files_one, fileEvent, h4], h3⟩
  | inSetBuffer i text =>
    obtain ⟨_, rfl, rfl⟩ := hc
    exact source_leave _ h hn
  | inSetFunc i f =>
    obtain ⟨_, rfl, rfl⟩ := hc
    cases f <;> exact source_leave _ h hn
  | inSetPosition i p =>
    obtain ⟨_, rfl, rfl⟩ := hc
    refine ⟨live, rfl, .same ?_ hn⟩
    cases s with
    | file n o q => simp only [Source.seek]; split <;> exact h
    | text o q => simp only [Source.seek]; split <;> exact h
    | _ => exact h
  | inClose i ok =>
    obtain ⟨_, rfl, rfl⟩ := hc
    cases s with
    | file n o q => exact source_leave (s := .file n o q) _ h hn
    | _ => exact ⟨live, rfl, .same h hn⟩
  | inClear i =>
    obtain ⟨_, rfl, rfl⟩ := hc
    exact source_leave _ h hn
  | inGetPosition i =>
    obtain ⟨_, rfl, rfl⟩ := hc
    exact ⟨live, rfl, .same h hn⟩
  | inIs i =>
    obtain ⟨_, rfl, rfl⟩ := hc
    exact ⟨live, rfl, .same h hn⟩
  | scan i =>
    obtain ⟨_, rfl, rfl⟩ := hc
    cases s with
    | file n o q => exact ⟨live, by simp [Source.scan, files_one, fileEvent, mem_of_perm (by simpa [Source.held] using h)], .same h hn⟩
    | func f => exact ⟨live, by simp [Source.scan, files_one, fileEvent], .same h hn⟩
    | _ => exact ⟨live, rfl, .same h hn⟩
  | _ => exact hc.elim

theorem moves_files (live : List Nat) : ∀ (bs : List Nat) (b : Nat), files live (moves b bs).2 = some live
  | [], b => rfl
  | b' :: bs, b => by
    have : files live (.moved b b' :: (moves b' bs).2) = files live (moves b' bs).2 := by
      unfold files
      simp [List.foldlM, fileEvent]
    rw [moves, this, moves_files live bs b']

theorem print_held {text grants : List Nat} {s s' : Sink} {n : Int} {es : List Event} {live rest : List Nat} (h : Print text grants s n s' es)
    (hl : live.Perm (s.held ++ rest)) : files live es = some live ∧ s'.held = s.held := by
  cases h with
  | nothing => exact ⟨rfl, rfl⟩
  | file f => exact ⟨by simp [files_one, fileEvent, mem_of_perm (by simpa [Sink.held] using hl)], rfl⟩
  | func f => exact ⟨by simp [files_one, fileEvent], rfl⟩
  | text b o bs hb => exact ⟨moves_files live bs b, rfl⟩
  | refused b o bs hb hr => exact ⟨moves_files live bs b, rfl⟩

theorem out_files {op : Op} {s s' : Sink} {a : Answer} {es : List Event} {live rest : List Nat} (hc : OutCall op s a s' es)
    (h : live.Perm (s.held ++ rest)) (hn : live.Nodup) (hf : ∀ x ∈ newFiles op, x ∉ live) :
    ∃ live', files live es = some live' ∧ Next live (newFiles op) (s'.held ++ rest) live' := by
  cases op with
  | outSetFile i n ok =>
    cases ok with
    | false =>
      obtain ⟨_, rfl, rfl⟩ := hc
      exact sink_leave _ h hn
    | true =>
      obtain ⟨_, rfl, rfl⟩ := hc
      obtain ⟨l1, h1, h2⟩ := sink_leave [] h hn
      obtain ⟨h3, h4⟩ := Next.add (new := newFiles (.outSetFile i n true)) h2 (hf n (by simp [newFiles])) (by simp [newFiles])
      exact ⟨n :: l1, by rw [files_append, h1]; simp [files_one, fileEvent, h4], h3⟩
  | outSetBuffer i b size ok =>
    simp only [OutCall] at hc
    split at hc
    · obtain ⟨_, rfl, rfl⟩ := hc
      obtain ⟨l1, h1, h2⟩ := sink_leave (newFiles (.outSetBuffer i b size ok)) h hn
      exact ⟨l1, by rw [files_append, h1]; simp [files_one, fileEvent], h2⟩
    · obtain ⟨_, rfl, rfl⟩ := hc
      exact sink_leave _ h hn
  | outSetFunc i f =>
    obtain ⟨_, rfl, rfl⟩ := hc
    cases f <;> exact sink_leave _ h hn
  | outExtract i =>
    obtain ⟨_, rfl, rfl⟩ := hc
    cases s with
    | text b o => exact ⟨live, by simp [Sink.extract, files_one, fileEvent], .same h hn⟩
    | _ => exact ⟨live, rfl, .same h hn⟩
  | outClose i ok =>
    obtain ⟨_, rfl, rfl⟩ := hc
    cases s with
    | file n => exact sink_leave (s := .file n) _ h hn
    | _ => exact ⟨live, rfl, .same h hn⟩
  | outClear i =>
    obtain ⟨_, rfl, rfl⟩ := hc
    exact sink_leave _ h hn
  | outIs i =>
    obtain ⟨_, rfl, rfl⟩ := hc
    exact ⟨live, rfl, .same h hn⟩
  | print i text grants =>
    obtain ⟨n, _, hp⟩ := hc
    obtain ⟨h1, h2⟩ := print_held hp h
    exact ⟨live, h1, .same (by rw [h2]; exact h) hn⟩
  | _ => exact hc.elim

theorem step_files {w w' : World} {op : Op} {a : Answer} {es : List Event} {live : List Nat} (hs : Step w op a w' es)
    (h : live.Perm w.held) (hn : live.Nodup) (hf : ∀ x ∈ newFiles op, x ∉ live) :
    ∃ live', files live es = some live' ∧ Next live (newFiles op) w'.held live' := by
  cases hs with
  | null h' => exact ⟨live, rfl, .same h hn⟩
  | input hk hs hc =>
    obtain ⟨rest, h1, h2⟩ := set_perm Source.held hs
    obtain ⟨l, h3, h4⟩ := in_files (rest := rest ++ w.outs.flatMap Sink.held) hc
      (h.trans (by unfold World.held; rw [← List.append_assoc]; exact h1.append_right _)) hn hf
    refine ⟨l, h3, h4.1.trans ?_, h4.2⟩
    unfold World.held
    rw [← List.append_assoc]
    exact ((h2 _).append_right _).symm
  | output hk hs hc =>
    obtain ⟨rest, h1, h2⟩ := set_perm Sink.held hs
    obtain ⟨l, h3, h4⟩ := out_files (rest := w.ins.flatMap Source.held ++ rest) hc
      (h.trans ((h1.append_left _).trans (List.perm_append_comm_assoc _ _ _))) hn hf
    refine ⟨l, h3, h4.1.trans ?_, h4.2⟩
    exact (List.perm_append_comm_assoc _ _ _).trans ((h2 _).symm.append_left _)
  | inSwap hi hj => exact ⟨live, rfl, .same (h.trans ((swap_perm Source.held hi hj).append_right _)) hn⟩
  | outSwap hi hj => exact ⟨live, rfl, .same (h.trans ((swap_perm Sink.held hi hj).append_left _)) hn⟩
  | erase hi hj =>
    rename_i k s t
    obtain ⟨r1, h1, h2⟩ := set_perm Source.held hi
    obtain ⟨r2, h3, h4⟩ := set_perm Sink.held hj
    have hp : live.Perm (s.held ++ (r1 ++ w.outs.flatMap Sink.held)) := by
      refine h.trans ?_
      unfold World.held
      rw [← List.append_assoc]
      exact h1.append_right _
    obtain ⟨l1, e1, n1⟩ := source_leave [] hp hn
    have hp2 : l1.Perm (t.held ++ (r1 ++ r2)) := n1.1.trans ((h3.append_left _).trans (List.perm_append_comm_assoc _ _ _))
    obtain ⟨l2, e2, n2⟩ := sink_leave [] hp2 n1.2.1
    refine ⟨l2, by rw [files_append, e1]; exact e2, n2.1.trans ?_, n2.2.1, ?_⟩
    · exact ((h2 .nothing).append (h4 .nothing)).symm
    · intro x hx
      rcases n2.2.2 x hx with hx | hx
      · rcases n1.2.2 x hx with hx | hx
        · exact .inl hx
        · simp at hx
      · simp at hx

theorem run_files {w w' : World} {ops : List Op} {as : List Answer} {es : List Event} (hr : Run w ops as w' es) : ∀ {live : List Nat},
    live.Perm w.held → live.Nodup → (ops.flatMap newFiles).Nodup → (∀ x ∈ ops.flatMap newFiles, x ∉ live) →
    ∃ live', files live es = some live' ∧ live'.Perm w'.held ∧ live'.Nodup := by
  induction hr with
  | nil => exact fun h hn _ _ => ⟨_, rfl, h, hn⟩
  | cons hs _ ih =>
    intro live h hn hd hf
    rw [List.flatMap_cons] at hd hf
    obtain ⟨l1, h1, h2, h3, h4⟩ := step_files hs h hn (fun x hx => hf x (List.mem_append_left _ hx))
    obtain ⟨l2, h5, h6⟩ := ih h2 h3 (List.nodup_append.1 hd).2.1 (by
      intro x hx hl
      rcases h4 x hl with h' | h'
      · exact hf x (List.mem_append_right _ hx) h'
      · exact (List.nodup_append.1 hd).2.2 x h' x hx rfl)
    exact ⟨l2, by rw [files_append, h1]; exact h5, h6⟩

/-! ## Blocks -/

theorem sink_leave_blocks {s : Sink} {live rest : List Nat} (new : List Nat) (h : live.Perm (s.block ++ rest)) (hn : live.Nodup) :
    ∃ live', blocks live s.leave = some live' ∧ Next live new rest live' := by
  cases s with
  | text n o => exact ⟨live.erase n, by simp [Sink.leave, blocks_one, blockEvent, mem_of_perm (by simpa [Sink.block] using h)], Next.drop new h hn⟩
  | file b => exact ⟨live, by simp [Sink.leave, blocks_one, blockEvent], .same h hn⟩
  | _ => exact ⟨live, rfl, .same h hn⟩

theorem source_leave_blocks (s : Source) (live : List Nat) : blocks live s.leave = some live := by
  cases s <;> rfl

theorem in_blocks {op : Op} {s s' : Source} {a : Answer} {es : List Event} (live : List Nat) (hc : InCall op s a s' es) : blocks live es = some live := by
  cases op with
  | inSetFile i n octets =>
    cases octets with
    | none =>
      obtain ⟨_, rfl, rfl⟩ := hc
      exact source_leave_blocks _ _
    | some o =>
      obtain ⟨_, rfl, rfl⟩ := hc
      rw [blocks_append, source_leave_blocks]
      rfl
  | inSetBuffer i text =>
    obtain ⟨_, rfl, rfl⟩ := hc
    exact source_leave_blocks _ _
  | inSetFunc i f =>
    obtain ⟨_, rfl, rfl⟩ := hc
    exact source_leave_blocks _ _
  | inSetPosition i p =>
    obtain ⟨_, rfl, rfl⟩ := hc
    rfl
  | inClose i ok =>
    obtain ⟨_, rfl, rfl⟩ := hc
    cases s <;> rfl
  | inClear i =>
    obtain ⟨_, rfl, rfl⟩ := hc
    exact source_leave_blocks _ _
  | inGetPosition i =>
    obtain ⟨_, rfl, rfl⟩ := hc
    rfl
  | inIs i =>
    obtain ⟨_, rfl, rfl⟩ := hc
    rfl
  | scan i =>
    obtain ⟨_, rfl, rfl⟩ := hc
    cases s <;> rfl
  | _ => exact hc.elim

theorem moves_blocks : ∀ (bs : List Nat) (b : Nat) {live rest : List Nat}, live.Perm (b :: rest) → live.Nodup → bs.Nodup → (∀ x ∈ bs, x ∉ live) →
    ∃ live', blocks live (moves b bs).2 = some live' ∧ Next live bs ((moves b bs).1 :: rest) live'
  | [], b, live, rest, h, hn, _, _ => ⟨live, rfl, .same h hn⟩
  | b' :: bs, b, live, rest, h, hn, hd, hf => by
    have h1 := Next.drop [] h hn
    obtain ⟨h2, h3⟩ := Next.add (new := [b']) h1 (hf b' (by simp)) (by simp)
    obtain ⟨l, h4, h5, h6, h7⟩ := moves_blocks bs b' (live := b' :: live.erase b) (rest := rest) h2.1 h2.2.1 (List.nodup_cons.1 hd).2 (by
      intro x hx hm
      rcases List.mem_cons.1 hm with hm | hm
      · exact (List.nodup_cons.1 hd).1 (hm ▸ hx)
      · exact hf x (by simp [hx]) (List.mem_of_mem_erase hm))
    refine ⟨l, ?_, h5, h6, ?_⟩
    · have : blocks live (.moved b b' :: (moves b' bs).2) = blocks (b' :: live.erase b) (moves b' bs).2 := by
        unfold blocks
        simp only [List.foldlM, blockEvent]
        rw [if_pos (mem_of_perm h), if_neg h3]
        rfl
      exact this.trans h4
    · intro x hx
      rcases h7 x hx with h' | h'
      · rcases List.mem_cons.1 h' with h' | h'
        · exact .inr (by simp [h'])
        · exact .inl (List.mem_of_mem_erase h')
      · exact .inr (by simp [h'])

theorem Next.wider {live new new' target live' : List Nat} (h : Next live new target live') (hs : ∀ x ∈ new, x ∈ new') : Next live new' target live' :=
  ⟨h.1, h.2.1, fun x hx => (h.2.2 x hx).imp id (hs x)⟩

theorem print_blocks {text grants : List Nat} {s s' : Sink} {n : Int} {es : List Event} {live rest : List Nat} (h : Print text grants s n s' es)
    (hl : live.Perm (s.block ++ rest)) (hn : live.Nodup) (hd : grants.Nodup) (hf : ∀ x ∈ grants, x ∉ live) :
    ∃ live', blocks live es = some live' ∧ Next live grants (s'.block ++ rest) live' := by
  cases h with
  | nothing => exact ⟨live, rfl, .same hl hn⟩
  | file f => exact ⟨live, rfl, .same hl hn⟩
  | func f => exact ⟨live, rfl, .same hl hn⟩
  | text b o bs hb =>
    obtain ⟨l, h1, h2⟩ := moves_blocks bs b hl hn (hd.sublist hb.sublist) (fun x hx => hf x (hb.subset hx))
    exact ⟨l, h1, h2.wider (fun x hx => hb.subset hx)⟩
  | refused b o bs hb hr =>
    obtain ⟨l, h1, h2⟩ := moves_blocks bs b hl hn (hd.sublist hb.sublist) (fun x hx => hf x (hb.subset hx))
    exact ⟨l, h1, h2.wider (fun x hx => hb.subset hx)⟩

theorem out_blocks {op : Op} {s s' : Sink} {a : Answer} {es : List Event} {live rest : List Nat} (hc : OutCall op s a s' es)
    (h : live.Perm (s.block ++ rest)) (hn : live.Nodup) (hd : (newBlocks op).Nodup) (hf : ∀ x ∈ newBlocks op, x ∉ live) :
    ∃ live', blocks live es = some live' ∧ Next live (newBlocks op) (s'.block ++ rest) live' := by
  cases op with
  | outSetFile i n ok =>
    cases ok with
    | false =>
      obtain ⟨_, rfl, rfl⟩ := hc
      exact sink_leave_blocks _ h hn
    | true =>
      obtain ⟨_, rfl, rfl⟩ := hc
      obtain ⟨l1, h1, h2⟩ := sink_leave_blocks (newBlocks (.outSetFile i n true)) h hn
      exact ⟨l1, by rw [blocks_append, h1]; simp [blocks_one, blockEvent], h2⟩
  | outSetBuffer i b size ok =>
    simp only [OutCall] at hc
    split at hc
    · obtain ⟨_, rfl, rfl⟩ := hc
      obtain ⟨l1, h1, h2⟩ := sink_leave_blocks [] h hn
      obtain ⟨h3, h4⟩ := Next.add (new := newBlocks (.outSetBuffer i b size ok)) h2 (hf b (by simp [newBlocks])) (by simp [newBlocks])
      exact ⟨b :: l1, by rw [blocks_append, h1]; simp [blocks_one, blockEvent, h4], h3⟩
    · obtain ⟨_, rfl, rfl⟩ := hc
      exact sink_leave_blocks _ h hn
  | outSetFunc i f =>
    obtain ⟨_, rfl, rfl⟩ := hc
    cases f <;> exact sink_leave_blocks _ h hn
  | outExtract i =>
    obtain ⟨_, rfl, rfl⟩ := hc
    cases s with
    | text b o =>
      exact ⟨live.erase b, by simp [Sink.extract, blocks_one, blockEvent, mem_of_perm (by simpa [Sink.block] using h)], Next.drop _ h hn⟩
    | _ => exact ⟨live, rfl, .same h hn⟩
  | outClose i ok =>
    obtain ⟨_, rfl, rfl⟩ := hc
    cases s <;> exact ⟨live, rfl, .same h hn⟩
  | outClear i =>
    obtain ⟨_, rfl, rfl⟩ := hc
    exact sink_leave_blocks _ h hn
  | outIs i =>
    obtain ⟨_, rfl, rfl⟩ := hc
    exact ⟨live, rfl, .same h hn⟩
  | print i text grants =>
    obtain ⟨n, _, hp⟩ := hc
    exact print_blocks hp h hn hd hf
  | _ => exact hc.elim

theorem step_blocks {w w' : World} {op : Op} {a : Answer} {es : List Event} {live : List Nat} (hs : Step w op a w' es)
    (h : live.Perm w.blocks) (hn : live.Nodup) (hd : (newBlocks op).Nodup) (hf : ∀ x ∈ newBlocks op, x ∉ live) :
    ∃ live', blocks live es = some live' ∧ Next live (newBlocks op) w'.blocks live' := by
  cases hs with
  | null h' => exact ⟨live, rfl, .same h hn⟩
  | input hk hs hc => exact ⟨live, in_blocks live hc, .same h hn⟩
  | output hk hs hc =>
    obtain ⟨rest, h1, h2⟩ := set_perm Sink.block hs
    obtain ⟨l, h3, h4⟩ := out_blocks (rest := rest) hc (h.trans h1) hn hd hf
    exact ⟨l, h3, h4.1.trans (h2 _).symm, h4.2⟩
  | inSwap hi hj => exact ⟨live, rfl, .same h hn⟩
  | outSwap hi hj => exact ⟨live, rfl, .same (h.trans (swap_perm Sink.block hi hj)) hn⟩
  | erase hi hj =>
    obtain ⟨r2, h3, h4⟩ := set_perm Sink.block hj
    obtain ⟨l2, e2, n2⟩ := sink_leave_blocks (newBlocks (.erase none)) (h.trans h3) hn
    exact ⟨l2, by rw [blocks_append, source_leave_blocks]; exact e2, n2.1.trans (h4 .nothing).symm, n2.2⟩

theorem run_blocks {w w' : World} {ops : List Op} {as : List Answer} {es : List Event} (hr : Run w ops as w' es) : ∀ {live : List Nat},
    live.Perm w.blocks → live.Nodup → (ops.flatMap newBlocks).Nodup → (∀ x ∈ ops.flatMap newBlocks, x ∉ live) →
    ∃ live', blocks live es = some live' ∧ live'.Perm w'.blocks ∧ live'.Nodup := by
  induction hr with
  | nil => exact fun h hn _ _ => ⟨_, rfl, h, hn⟩
  | cons hs _ ih =>
    intro live h hn hd hf
    rw [List.flatMap_cons] at hd hf
    obtain ⟨l1, h1, h2, h3, h4⟩ := step_blocks hs h hn (List.nodup_append.1 hd).1 (fun x hx => hf x (List.mem_append_left _ hx))
    obtain ⟨l2, h5, h6⟩ := ih h2 h3 (List.nodup_append.1 hd).2.1 (by
      intro x hx hl
      rcases h4 x hl with h' | h'
      · exact hf x (List.mem_append_right _ hx) h'
      · exact (List.nodup_append.1 hd).2.2 x h' x hx rfl)
    exact ⟨l2, by rw [blocks_append, h1]; exact h5, h6⟩

/-! ## When everything is given up -/

theorem erase_ops_new (n : Nat) : ((List.range n).map fun k => Op.erase (some k)).flatMap newFiles = [] := by
  simp [List.flatMap_eq_nil_iff, newFiles]

theorem erase_ops_blocks (n : Nat) : ((List.range n).map fun k => Op.erase (some k)).flatMap newBlocks = [] := by
  simp [List.flatMap_eq_nil_iff, newBlocks]

theorem start_held (n : Nat) : (start n).held = [] := by
  simp [World.held, start, List.flatMap_eq_nil_iff, List.mem_replicate, Source.held, Sink.held]

theorem start_blocks (n : Nat) : (start n).blocks = [] := by
  simp [World.blocks, start, List.flatMap_eq_nil_iff, List.mem_replicate, Sink.block]

/-- The first `m` streams have been erased. -/
def Cleared (m : Nat) (w : World) : Prop :=
  (∀ k s, k < m → w.ins[k]? = some s → s = .nothing) ∧ (∀ k s, k < m → w.outs[k]? = some s → s = .nothing)

theorem step_length {w w' : World} {op : Op} {a : Answer} {es : List Event} (h : Step w op a w' es) :
    w'.ins.length = w.ins.length ∧ w'.outs.length = w.outs.length := by
  cases h <;> simp

theorem run_length {w w' : World} {ops : List Op} {as : List Answer} {es : List Event} (h : Run w ops as w' es) :
    w'.ins.length = w.ins.length ∧ w'.outs.length = w.outs.length := by
  induction h with
  | nil => exact ⟨rfl, rfl⟩
  | cons hs _ ih => exact ⟨ih.1.trans (step_length hs).1, ih.2.trans (step_length hs).2⟩

theorem run_append {ops ops' : List Op} : ∀ {w w' : World} {as : List Answer} {es : List Event}, Run w (ops ++ ops') as w' es →
    ∃ w1 as1 es1 as2 es2, Run w ops as1 w1 es1 ∧ Run w1 ops' as2 w' es2 := by
  induction ops with
  | nil => exact fun {w w' as es} h => ⟨w, [], [], as, es, .nil, h⟩
  | cons op ops ih =>
    intro w w' as es h
    cases h with
    | cons hs ht =>
      obtain ⟨w1, as1, es1, as2, es2, h1, h2⟩ := ih ht
      exact ⟨w1, _, _, as2, es2, .cons hs h1, h2⟩

theorem erase_cleared {w w' : World} {m : Nat} {a : Answer} {es : List Event} (h : Step w (.erase (some m)) a w' es) (hc : Cleared m w) :
    Cleared (m + 1) w' := by
  generalize ho : Op.erase (some m) = op at h
  cases h with
  | null h' => subst ho; simp [streams] at h'
  | input hk _ _ => subst ho; simp [inOf] at hk
  | output hk _ _ => subst ho; simp [outOf] at hk
  | inSwap _ _ => cases ho
  | outSwap _ _ => cases ho
  | erase hi hj =>
    cases ho
    constructor
    · intro k s hk hs
      rw [List.getElem?_set] at hs
      split at hs
      · split at hs
        · exact (Option.some.inj hs).symm
        · cases hs
      · exact hc.1 k s (by omega) hs
    · intro k s hk hs
      rw [List.getElem?_set] at hs
      split at hs
      · split at hs
        · exact (Option.some.inj hs).symm
        · cases hs
      · exact hc.2 k s (by omega) hs

theorem erase_all : ∀ (n : Nat) {w w' : World} {as : List Answer} {es : List Event},
    Run w ((List.range n).map fun k => Op.erase (some k)) as w' es → Cleared n w'
  | 0, w, w', as, es, h => ⟨by intro k _ hk; omega, by intro k _ hk; omega⟩
  | n + 1, w, w', as, es, h => by
    rw [List.range_succ, List.map_append] at h
    obtain ⟨w1, as1, es1, as2, es2, h1, h2⟩ := run_append h
    have hc := erase_all n h1
    cases h2 with
    | cons hs ht =>
      cases ht
      exact erase_cleared hs hc

theorem cleared_held {w : World} {n : Nat} (h : Cleared n w) (hi : w.ins.length = n) (ho : w.outs.length = n) : w.held = [] ∧ w.blocks = [] := by
  have h1 : ∀ s ∈ w.ins, s = .nothing := by
    intro s hs
    obtain ⟨k, hk, he⟩ := List.mem_iff_getElem.1 hs
    exact h.1 k s (hi ▸ hk) (by rw [List.getElem?_eq_getElem hk, he])
  have h2 : ∀ s ∈ w.outs, s = .nothing := by
    intro s hs
    obtain ⟨k, hk, he⟩ := List.mem_iff_getElem.1 hs
    exact h.2 k s (ho ▸ hk) (by rw [List.getElem?_eq_getElem hk, he])
  constructor
  · unfold World.held
    rw [List.append_eq_nil_iff, List.flatMap_eq_nil_iff, List.flatMap_eq_nil_iff]
    exact ⟨fun s hs => by rw [h1 s hs]; rfl, fun s hs => by rw [h2 s hs]; rfl⟩
  · unfold World.blocks
    rw [List.flatMap_eq_nil_iff]
    exact fun s hs => by rw [h2 s hs]; rfl

end RuC.Streams.Spec
