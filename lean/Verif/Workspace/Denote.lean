import Verif.Workspace.Path

/-! The stack machine keeps the meaning of a plain path. -/

namespace RuC.Workspace
open RuC

def NoSep (s : List Nat) : Prop := ∀ c ∈ s, isSep c = false

theorem NoSep.no47 {s : List Nat} (h : NoSep s) : 47 ∉ s := fun hm => by simpa [isSep] using h 47 hm

theorem comps_ne (p : List Nat) : comps p ≠ [] := by
  cases p with
  | nil => simp [comps]
  | cons c cs =>
    rw [comps]
    split
    · simp
    · split <;> simp

theorem comps_noSep (p : List Nat) : ∀ s ∈ comps p, NoSep s := by
  induction p with
  | nil => intro s hs; simp [comps] at hs; subst hs; intro c hc; simp at hc
  | cons c cs ih =>
    intro s hs
    rw [comps] at hs
    split at hs
    · rcases List.mem_cons.1 hs with rfl | hs
      · intro c hc; simp at hc
      · exact ih s hs
    · rename_i hc
      split at hs
      · rename_i he; exact absurd he (comps_ne cs)
      · rename_i d ds he
        rw [he] at ih
        rcases List.mem_cons.1 hs with rfl | hs
        · intro x hx
          rcases List.mem_cons.1 hx with rfl | hx
          · simpa using hc
          · exact ih d (by simp) x hx
        · exact ih s (by simp [hs])

theorem comps_append {s v : List Nat} (hs : NoSep s) : comps (s ++ 47 :: v) = s :: comps v := by
  induction s with
  | nil => simp [comps, isSep]
  | cons c s ih =>
    have hc : isSep c = false := hs c (by simp)
    rw [List.cons_append, comps, ih (fun x hx => hs x (by simp [hx]))]
    simp [hc]

theorem comps_self {s : List Nat} (hs : NoSep s) : comps s = [s] := by
  induction s with
  | nil => rfl
  | cons c s ih =>
    have hc : isSep c = false := hs c (by simp)
    rw [comps, ih (fun x hx => hs x (by simp [hx]))]
    simp [hc]

theorem comps_join {st : List (List Nat)} (h : ∀ s ∈ st, NoSep s) (v : List Nat) : comps (joinR st ++ v) = st.reverse ++ comps v := by
  induction st generalizing v with
  | nil => simp [joinR]
  | cons s st ih =>
    have : joinR (s :: st) ++ v = joinR st ++ (s ++ 47 :: v) := by simp [joinR]
    rw [this, ih (fun x hx => h x (by simp [hx])), comps_append (h s (by simp))]
    simp

/-- The components with the text already read put before the first. -/
def grow (cur : List Nat) : List (List Nat) → List (List Nat)
  | [] => [cur]
  | d :: ds => (cur ++ d) :: ds

theorem norm_comps (p : List Nat) : ∀ (st : List (List Nat)) (cur : List Nat),
    norm p st cur = ((grow cur (comps p)).dropLast.foldl push st, (grow cur (comps p)).getLast?.getD []) := by
  induction p with
  | nil => intro st cur; simp [norm, comps, grow]
  | cons c cs ih =>
    intro st cur
    rw [norm, comps]
    have hne := comps_ne cs
    split
    · rw [ih]
      cases he : comps cs with
      | nil => exact absurd he hne
      | cons d ds => simp [grow]
    · rw [ih]
      cases he : comps cs with
      | nil => exact absurd he hne
      | cons d ds => simp [grow]

theorem norm_comps' (p : List Nat) : norm p [] [] = ((comps p).dropLast.foldl push [], (comps p).getLast?.getD []) := by
  rw [norm_comps]
  cases he : comps p with
  | nil => exact absurd he (comps_ne p)
  | cons d ds => simp [grow]

/-! ## Normal stacks -/

def Name (s : List Nat) : Prop := s ≠ [] ∧ s ≠ [46] ∧ s ≠ [46, 46]

/-- A normal stack: names above some ".." (not in an absolute path), above the empty component of an
absolute path. -/
inductive Nrm : Bool → List (List Nat) → Prop
  | rel : Nrm false []
  | abs : Nrm true [[]]
  | up {st} : Nrm false st → (st = [] ∨ st.head? = some [46, 46]) → Nrm false ([46, 46] :: st)
  | name {ab st n} : Nrm ab st → Name n → NoSep n → Nrm ab (n :: st)

theorem Nrm.noSep {ab : Bool} {st : List (List Nat)} (h : Nrm ab st) : ∀ s ∈ st, NoSep s := by
  induction h with
  | rel => simp
  | abs => intro s hs; simp at hs; subst hs; intro c hc; simp at hc
  | up _ _ ih =>
    intro s hs
    rcases List.mem_cons.1 hs with rfl | hs
    · intro c hc; simp at hc; subst hc; rfl
    · exact ih s hs
  | name _ _ hn ih =>
    intro s hs
    rcases List.mem_cons.1 hs with rfl | hs
    · exact hn
    · exact ih s hs

theorem Nrm.depth_abs {ab : Bool} {st : List (List Nat)} (h : Nrm ab st) (hab : ab = true) : st ≠ [] ∧ depth st = (st.length : Int) - 1 := by
  induction h with
  | rel => cases hab
  | abs => simp [depth]
  | up => cases hab
  | name _ hn _ ih =>
    refine ⟨by simp, ?_⟩
    rw [depth, (ih hab).2, if_neg (fun h => h.elim hn.1 hn.2.1), if_neg hn.2.2]
    simp
    omega

theorem Nrm.fold {ab : Bool} {st : List (List Nat)} (h : Nrm ab st) : st.reverse.foldl push [] = st := by
  induction h with
  | rel => rfl
  | abs => rfl
  | up _ hc ih =>
    rw [List.reverse_cons, List.foldl_append, ih]
    simp only [List.foldl_cons, List.foldl_nil, push]
    rw [if_neg (by simp), if_neg (fun h => hc.elim h.2.1 h.2.2)]
  | name _ hn _ ih =>
    rw [List.reverse_cons, List.foldl_append, ih]
    simp only [List.foldl_cons, List.foldl_nil, push]
    rw [if_neg hn.2.1, if_neg (fun h => hn.2.2 h.1)]

theorem FS.goAll_append (fs : FS) (d : fs.Node) (a b : List (List Nat)) :
    fs.goAll d (a ++ b) = (fs.goAll d a).bind fun e => fs.goAll e b := by
  induction a generalizing d with
  | nil => rfl
  | cons s a ih =>
    simp only [List.cons_append, FS.goAll]
    cases fs.go d s with
    | none => rfl
    | some e => exact ih e

theorem FS.goAll_single (fs : FS) (d : fs.Node) (s : List Nat) : fs.goAll d [s] = fs.go d s := by
  simp only [FS.goAll]
  cases fs.go d s <;> rfl

/-- How far a component leads. -/
def weight (s : List Nat) : Int := if s = [] ∨ s = [46] then 0 else if s = [46, 46] then -1 else 1

theorem depth_cons (s : List Nat) (ss : List (List Nat)) : depth (s :: ss) = weight s + depth ss := rfl

theorem depth_append (a b : List (List Nat)) : depth (a ++ b) = depth a + depth b := by
  induction a with
  | nil => simp [depth]
  | cons s a ih => rw [List.cons_append, depth_cons, depth_cons, ih]; omega

theorem push_step {ab : Bool} {st : List (List Nat)} {seg : List Nat} (h : Nrm ab st) (hs : NoSep seg) (hne : seg ≠ [])
    (hd : ab = true → 0 ≤ depth st + weight seg) :
    Nrm ab (push st seg) ∧ depth (push st seg) = depth st + weight seg ∧
    ∀ (fs : FS) (s0 d e : fs.Node), fs.goAll s0 st.reverse = some d → fs.go d seg = some e →
      fs.goAll s0 (push st seg).reverse = some e := by
  by_cases hdot : seg = [46]
  · subst hdot
    have hp : push st [46] = st := by simp [push]
    rw [hp]
    refine ⟨h, by simp [weight], ?_⟩
    intro fs s0 d e h1 h2
    simp [FS.go] at h2
    rw [h1, h2]
  · by_cases hdd : seg = [46, 46]
    · subst hdd
      have keep : (st = [] ∨ st.head? = some [46, 46]) → Nrm false st → Nrm false (push st [46, 46]) ∧
          depth (push st [46, 46]) = depth st + weight [46, 46] ∧
          ∀ (fs : FS) (s0 d e : fs.Node), fs.goAll s0 st.reverse = some d → fs.go d [46, 46] = some e →
            fs.goAll s0 (push st [46, 46]).reverse = some e := by
        intro hc hn
        have hp : push st [46, 46] = [46, 46] :: st := by
          unfold push
          rw [if_neg (by simp), if_neg (fun h => hc.elim h.2.1 h.2.2)]
        rw [hp]
        refine ⟨.up hn hc, by rw [depth_cons]; omega, ?_⟩
        intro fs s0 d e h1 h2
        rw [List.reverse_cons, FS.goAll_append, h1]
        simp only [Option.bind_some, FS.goAll_single]
        exact h2
      cases h with
      | rel => exact keep (.inl rfl) .rel
      | abs =>
        have := hd rfl
        simp [depth, weight] at this
      | up h1 h2 => exact keep (.inr rfl) (.up h1 h2)
      | @name ab st n h1 h2 h3 =>
        have hp : push (n :: st) [46, 46] = st := by simp [push, h2.2.2]
        rw [hp]
        have hw : weight n = 1 := by
          unfold weight
          rw [if_neg (fun h => h.elim h2.1 h2.2.1), if_neg h2.2.2]
        refine ⟨h1, by rw [depth_cons, hw]; simp [weight]; omega, ?_⟩
        intro fs s0 d e g1 g2
        rw [List.reverse_cons, FS.goAll_append] at g1
        cases hx : fs.goAll s0 st.reverse with
        | none => rw [hx] at g1; simp at g1
        | some d' =>
          rw [hx] at g1
          simp only [Option.bind_some, FS.goAll_single, FS.go] at g1
          rw [if_neg (fun h => h.elim h2.1 h2.2.1), if_neg h2.2.2] at g1
          have := fs.up d' n d h2.1 h2.2.1 h2.2.2 g1
          simp [FS.go] at g2
          rw [← g2, this]
    · have hp : push st seg = seg :: st := by simp [push, hdot, hdd]
      rw [hp]
      refine ⟨.name h ⟨hne, hdot, hdd⟩ hs, by rw [depth_cons]; omega, ?_⟩
      intro fs s0 d e h1 h2
      rw [List.reverse_cons, FS.goAll_append, h1]
      simp only [Option.bind_some, FS.goAll_single]
      exact h2

theorem push_all {ab : Bool} {segs : List (List Nat)} : ∀ {st : List (List Nat)}, Nrm ab st → (∀ s ∈ segs, NoSep s ∧ s ≠ []) →
    (ab = true → ∀ a b, segs = a ++ b → 0 ≤ depth st + depth a) →
    Nrm ab (segs.foldl push st) ∧ depth (segs.foldl push st) = depth st + depth segs ∧
    ∀ (fs : FS) (s0 d e : fs.Node), fs.goAll s0 st.reverse = some d → fs.goAll d segs = some e →
      fs.goAll s0 (segs.foldl push st).reverse = some e := by
  induction segs with
  | nil =>
    intro st h _ _
    refine ⟨h, by simp [depth], ?_⟩
    intro fs s0 d e h1 h2
    simp [FS.goAll] at h2
    rw [List.foldl_nil, h1, h2]
  | cons s ss ih =>
    intro st h hs hd
    obtain ⟨a1, a2, a3⟩ := push_step h (hs s (by simp)).1 (hs s (by simp)).2 (fun hab => by
      have := hd hab [s] ss (by simp)
      rw [depth_cons] at this
      simpa [depth] using this)
    obtain ⟨b1, b2, b3⟩ := ih a1 (fun x hx => hs x (by simp [hx])) (fun hab a b e => by
      have := hd hab (s :: a) b (by simp [e])
      rw [depth_cons] at this
      omega)
    refine ⟨b1, by rw [List.foldl_cons, b2, a2, depth_cons]; omega, ?_⟩
    intro fs s0 d e h1 h2
    simp only [FS.goAll] at h2
    cases hx : fs.go d s with
    | none => rw [hx] at h2; simp at h2
    | some m =>
      rw [hx] at h2
      exact b3 fs s0 m e (a3 fs s0 d m h1 hx) h2

/-! ## The components of a plain path -/

theorem comps_head {p : List Nat} (h : isSep (p.head?.getD 0) = false) (hp : p ≠ []) : ∃ d ds, comps p = d :: ds ∧ d ≠ [] := by
  cases p with
  | nil => exact absurd rfl hp
  | cons c cs =>
    simp only [List.head?_cons, Option.getD_some] at h
    rw [comps]
    simp only [h, Bool.false_eq_true, if_false]
    split
    · exact ⟨[c], [], rfl, by simp⟩
    · rename_i d ds _
      exact ⟨c :: d, ds, rfl, by simp⟩

theorem comps_inner {p : List Nat} (h : ∀ a c d b, p = a ++ c :: d :: b → ¬ (isSep c ∧ isSep d)) :
    ∀ s ∈ (comps p).tail.dropLast, s ≠ [] := by
  induction p with
  | nil => simp [comps]
  | cons c cs ih =>
    have ih := ih (fun a x y b e => h (c :: a) x y b (by rw [e]; rfl))
    rw [comps]
    split
    · rename_i hc
      simp only [List.tail_cons]
      cases cs with
      | nil => simp [comps]
      | cons d cs =>
        have hd : isSep d = false := by
          have := h [] c d cs rfl
          simp [hc] at this
          exact this
        obtain ⟨x, xs, e, hx⟩ := comps_head (p := d :: cs) (by simpa using hd) (by simp)
        rw [e] at ih ⊢
        intro s hs
        cases xs with
        | nil => simp at hs
        | cons y ys =>
          rw [List.dropLast_cons_of_ne_nil (by simp)] at hs
          rcases List.mem_cons.1 hs with rfl | hs
          · exact hx
          · exact ih s (by simpa using hs)
    · split
      · simp
      · rename_i d ds e
        rw [e] at ih
        simpa using ih

theorem comps_last {p : List Nat} (h : (comps p).getLast?.getD [] = []) : p = [] ∨ isSep (p.getLast?.getD 0) = true := by
  induction p with
  | nil => exact .inl rfl
  | cons c cs ih =>
    right
    rw [comps] at h
    cases cs with
    | nil =>
      by_cases hc : isSep c = true
      · simpa using hc
      · simp [hc, comps] at h
    | cons d cs =>
      have hg : (c :: d :: cs).getLast?.getD 0 = (d :: cs).getLast?.getD 0 := by simp
      rw [hg]
      have hh : (comps (d :: cs)).getLast?.getD [] = [] ∨ isSep c = false ∧ ∃ x, comps (d :: cs) = [x] ∧ (c :: x) = [] := by
        cases hcs : comps (d :: cs) with
        | nil => exact absurd hcs (comps_ne _)
        | cons x xs =>
          rw [hcs] at h
          split at h
          · left; simpa using h
          · cases xs with
            | nil => simp at h
            | cons y ys => left; simpa using h
      rcases hh with hh | ⟨_, x, _, hx⟩
      · rcases ih hh with h0 | h0
        · cases h0
        · exact h0
      · cases hx

theorem getLast_noSep {s : List Nat} (hs : NoSep s) (hne : s ≠ []) (u : List Nat) : cut (u ++ s) = u ++ s := by
  unfold cut
  rw [if_neg]
  intro h
  obtain ⟨v, x, rfl⟩ : ∃ v x, s = v ++ [x] := by
    rcases List.eq_nil_or_concat s with e | ⟨v, x, e⟩
    · exact absurd e hne
    · exact ⟨v, x, by rw [e, List.concat_eq_append]⟩
  rw [← List.append_assoc] at h
  simp at h
  subst h
  simpa [isSep] using hs 47 (by simp)

theorem norm_length (path : List Nat) (st : List (List Nat)) (cur : List Nat) :
    (joinR (norm path st cur).1).length + (norm path st cur).2.length ≤ (joinR st).length + cur.length + path.length := by
  induction path generalizing st cur with
  | nil => simp [norm]
  | cons c cs ih =>
    rw [norm]
    split
    · have := ih (push st cur) []
      have hle : (joinR (push st cur)).length ≤ (joinR st).length + cur.length + 1 := by
        unfold push
        split
        · omega
        · split
          · cases st <;> simp [joinR]; omega
          · simp [joinR]; omega
      simp only [List.length_nil, List.length_cons] at *
      omega
    · have := ih st (cur ++ [c])
      simp only [List.length_append, List.length_cons, List.length_nil] at *
      omega

/-- First character of a text made of a normal stack and a last component. -/
theorem start_of {ab : Bool} {st : List (List Nat)} (h : Nrm ab st) {last : List Nat} (hl : NoSep last) (hne : last ≠ []) :
    ∃ c cs, joinR st ++ last = c :: cs ∧ isSep c = ab := by
  have key : ∀ v, v ≠ [] → (∀ c cs, v = c :: cs → ab = false → isSep c = false) → ∃ c cs, joinR st ++ v = c :: cs ∧ isSep c = ab := by
    induction h with
    | rel =>
      intro v hv hc
      cases v with
      | nil => exact absurd rfl hv
      | cons c cs => exact ⟨c, cs, rfl, hc c cs rfl rfl⟩
    | abs => intro v _ _; exact ⟨47, v, rfl, rfl⟩
    | up _ _ ih =>
      intro v _ _
      obtain ⟨c, cs, e, hc⟩ := ih ([46, 46] ++ 47 :: v) (by simp) (fun c cs e _ => by simp at e; rw [← e.1]; rfl)
      exact ⟨c, cs, by rw [← e]; simp [joinR], hc⟩
    | @name ab st n _ hn hs ih =>
      intro v _ _
      obtain ⟨c, cs, e, hc⟩ := ih (n ++ 47 :: v) (by simp) (fun c cs e _ => by
        cases n with
        | nil => exact absurd rfl hn.1
        | cons x n => simp at e; exact hs c (by simp [e.1]))
      exact ⟨c, cs, by rw [← e]; simp [joinR], hc⟩
  exact key last hne (fun c cs e _ => hl c (by simp [e]))

theorem joinR_noback {st : List (List Nat)} (h : ∀ s ∈ st, NoSep s) : 92 ∉ joinR st := by
  induction st with
  | nil => simp [joinR]
  | cons s st ih =>
    simp only [joinR, List.mem_append, List.mem_singleton, not_or]
    refine ⟨⟨ih (fun x hx => h x (by simp [hx])), fun hm => ?_⟩, by omega⟩
    simpa [isSep] using h s (by simp) 92 hm

/-- A text made of a normal stack and a nonempty last component is its own normal form. -/
theorem unixPath_normal {ab : Bool} {st : List (List Nat)} {last : List Nat} (h : Nrm ab st) (hl : NoSep last) (hne : last ≠ [])
    (hfit : (joinR st ++ last).length < 1024) (ht : ∀ c ∈ joinR st ++ last, c ≠ 0) :
    unixPath (joinR st ++ last) = some (joinR st ++ last) := by
  have hn : norm (joinR st ++ last) [] [] = (st, last) := by
    rw [norm_comps', comps_join h.noSep, comps_self hl]
    simp [List.dropLast_concat, h.fold]
  rw [unixPath_spec hfit ht (by rw [hn]; simp [hne]), hn]
  simp only
  rw [getLast_noSep hl hne]

theorem resolve_of {ab : Bool} {st : List (List Nat)} {last : List Nat} (fs : FS) (h : Nrm ab st) (hl : NoSep last) (hne : last ≠ []) :
    fs.resolve (joinR st ++ last) = fs.goAll (if ab then fs.root else fs.cwd) (st.reverse ++ [last]) := by
  obtain ⟨c, cs, e, hc⟩ := start_of h hl hne
  rw [e, FS.resolve, ← e, comps_join h.noSep, comps_self hl, hc]

/-- The stack left by a plain path. -/
theorem plain_stack {p : List Nat} (hp : Plain p) : ∃ st, (norm p [] []).1 = st ∧ Nrm (isSep (p.head?.getD 0)) st ∧
    depth st = depth (comps p).dropLast ∧
    ∀ (fs : FS) (d : fs.Node), fs.goAll (if isSep (p.head?.getD 0) then fs.root else fs.cwd) (comps p).dropLast = some d →
      fs.goAll (if isSep (p.head?.getD 0) then fs.root else fs.cwd) st.reverse = some d := by
  refine ⟨_, rfl, ?_⟩
  rw [norm_comps']
  simp only
  have hin := comps_inner hp.single
  have hns := comps_noSep p
  have hcl := hp.climb
  by_cases hab : isSep (p.head?.getD 0) = true
  · obtain ⟨ds, e⟩ : ∃ ds, comps p = [] :: ds := by
      cases hpp : p with
      | nil => exact absurd hpp hp.nonempty
      | cons c cs => rw [hpp] at hab; simp at hab; rw [comps]; simp [hab]
    have hds : ds ≠ [] := by
      intro h0
      cases hpp : p with
      | nil => exact absurd hpp hp.nonempty
      | cons c cs =>
        rw [hpp] at hab e; simp at hab; rw [comps] at e; simp [hab] at e
        exact comps_ne cs (e.trans h0)
    rw [e] at hin hns
    have hcl := hcl hab
    rw [e, List.dropLast_cons_of_ne_nil hds] at hcl ⊢
    rw [List.foldl_cons, hab]
    have hp0 : push [] [] = [[]] := rfl
    rw [hp0]
    obtain ⟨a1, a2, a3⟩ := push_all (segs := ds.dropLast) Nrm.abs
      (fun s hs => ⟨hns s (List.mem_cons_of_mem _ (List.dropLast_subset _ hs)), hin s (by simpa using hs)⟩)
      (fun _ a b e => by
        have := hcl ([] :: a) b (by simp [e])
        rw [depth_cons] at this
        simp [depth, weight] at this ⊢
        exact this)
    refine ⟨a1, ?_, ?_⟩
    · rw [a2, depth_cons]; simp [depth, weight]
    · intro fs d h
      refine a3 fs _ fs.root d (by simp [FS.goAll, FS.go]) ?_
      simpa [FS.goAll, FS.go] using h
  · rw [Bool.not_eq_true] at hab
    obtain ⟨x, xs, e, hx⟩ := comps_head hab hp.nonempty
    rw [hab]
    rw [e] at hin hns
    obtain ⟨a1, a2, a3⟩ := push_all (segs := (comps p).dropLast) Nrm.rel
      (fun s hs => by
        rw [e] at hs
        refine ⟨hns s (List.dropLast_subset _ hs), ?_⟩
        cases xs with
        | nil => simp at hs
        | cons y ys =>
          rw [List.dropLast_cons_of_ne_nil (by simp)] at hs
          rcases List.mem_cons.1 hs with rfl | hs
          · exact hx
          · exact hin s (by simpa using hs))
      (fun h => by cases h)
    refine ⟨a1, by rw [a2]; simp [depth], ?_⟩
    intro fs d h
    exact a3 fs _ fs.cwd d (by simp [FS.goAll]) (by simpa using h)

theorem plain_result {p : List Nat} (hp : Plain p) : ∃ st last, Nrm (isSep (p.head?.getD 0)) st ∧ NoSep last ∧ last ≠ [] ∧
    unixPath p = some (joinR st ++ last) ∧ unixPath (joinR st ++ last) = some (joinR st ++ last) ∧
    ∀ (fs : FS) (d : fs.Node), fs.resolve p = some d →
      fs.goAll (if isSep (p.head?.getD 0) then fs.root else fs.cwd) (st.reverse ++ [last]) = some d := by
  obtain ⟨st, e, hst, hdep, hgo⟩ := plain_stack hp
  have hlast : (norm p [] []).2 = (comps p).getLast?.getD [] := by rw [norm_comps']
  have hres : ∀ fs : FS, fs.resolve p = fs.goAll (if isSep (p.head?.getD 0) then fs.root else fs.cwd) (comps p) := by
    intro fs
    cases hpp : p with
    | nil => exact absurd hpp hp.nonempty
    | cons c cs => rfl
  have hsplit : comps p = (comps p).dropLast ++ [(comps p).getLast?.getD []] := by
    have := List.dropLast_concat_getLast (comps_ne p)
    rw [List.getLast?_eq_some_getLast (comps_ne p)]
    exact this.symm
  have hnl : NoSep ((comps p).getLast?.getD []) := by
    rw [List.getLast?_eq_some_getLast (comps_ne p)]
    exact comps_noSep p _ (List.getLast_mem _)
  have htx := norm_text (path := p) (st := []) (cur := []) hp.text (by simp [joinR])
  have hlen := norm_length p [] []
  have hfit := hp.fits
  rw [hlast, e] at htx hlen
  simp only [joinR, List.length_nil, Nat.zero_add] at hlen
  by_cases hl0 : (comps p).getLast?.getD [] = []
  · have hd : depth (comps p) ≠ 0 := by
      rcases comps_last hl0 with h | h
      · exact absurd h hp.nonempty
      · exact hp.ends h
    rw [hsplit, depth_append, ← hdep, hl0] at hd
    simp [depth] at hd
    have hstep : ∃ t st', st = t :: st' ∧ Nrm (isSep (p.head?.getD 0)) st' ∧ t ≠ [] := by
      generalize isSep (p.head?.getD 0) = ab at hst
      cases hst with
      | rel => simp [depth] at hd
      | abs => simp [depth] at hd
      | up h _ => exact ⟨_, _, rfl, h, by simp⟩
      | name h hn _ => exact ⟨_, _, rfl, h, hn.1⟩
    obtain ⟨t, st', rfl, hst', hte⟩ := hstep
    have htn : NoSep t := hst.noSep t (by simp)
    rw [hl0] at htx hlen hlast
    simp only [List.append_nil, List.length_nil, Nat.add_zero] at htx hlen
    refine ⟨st', t, hst', htn, hte, ?_, ?_, ?_⟩
    · rw [unixPath_spec hp.fits hp.text (by rw [e, hlast]; simp [joinR]), e, hlast]
      simp [joinR, cut]
    · refine unixPath_normal hst' htn hte ?_ (fun c hc => htx c (by rw [joinR, List.mem_append]; exact .inl hc))
      simp only [joinR, List.length_append, List.length_singleton] at hlen ⊢
      omega
    · intro fs d h
      rw [hres, hsplit, FS.goAll_append, hl0] at h
      cases hx : fs.goAll (if isSep (p.head?.getD 0) then fs.root else fs.cwd) (comps p).dropLast with
      | none => rw [hx] at h; simp at h
      | some m =>
        rw [hx] at h
        simp only [Option.bind_some, FS.goAll_single, FS.go, true_or, if_true, Option.some.injEq] at h
        rw [← h]
        have := hgo fs m hx
        rwa [List.reverse_cons] at this
  · refine ⟨st, (comps p).getLast?.getD [], hst, hnl, hl0, ?_, ?_, ?_⟩
    · rw [unixPath_spec hp.fits hp.text (by rw [hlast]; simp [hl0]), e, hlast, getLast_noSep hnl hl0]
    · refine unixPath_normal hst hnl hl0 ?_ htx
      rw [List.length_append]; omega
    · intro fs d h
      rw [hres, hsplit, FS.goAll_append] at h
      cases hx : fs.goAll (if isSep (p.head?.getD 0) then fs.root else fs.cwd) (comps p).dropLast with
      | none => rw [hx] at h; simp at h
      | some m =>
        rw [hx] at h
        rw [FS.goAll_append, hgo fs m hx]
        exact h

end RuC.Workspace
