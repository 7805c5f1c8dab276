import Verif.Llvm.Targets

/-!
# Lemmas: running texts without calls
-/

namespace RuC.Llvm

instance (fr : Frame) (x : Nat) : Decidable (fr.cameFrom x) := by
  unfold Frame.cameFrom
  infer_instance

/-- An instruction that is not a call. -/
def stepC (code : List Instr) : Conf → Option Conf
  | (.arith r op a b :: rest, fr, w) =>
    match fr.opd .int a, fr.opd .int b with
    | some (.i32 x), some (.i32 y) => (arithL op x y).map fun z => (rest, fr.setReg r (.i32 z), w)
    | _, _ => none
  | (.cmp r op .int a b :: rest, fr, w) =>
    match fr.opd .int a, fr.opd .int b with
    | some (.i32 x), some (.i32 y) => some (rest, fr.setReg r (.i1 (cmpL op x y)), w)
    | _, _ => none
  | (.cmp r .ne .bool a b :: rest, fr, w) =>
    match fr.opd .bool a, fr.opd .bool b with
    | some (.i1 x), some (.i1 y) => some (rest, fr.setReg r (.i1 (x != y)), w)
    | _, _ => none
  | (.flip r a :: rest, fr, w) =>
    match fr.opd .bool (.reg a) with
    | some (.i1 x) => some (rest, fr.setReg r (.i1 !x), w)
    | _ => none
  | (.abs r a :: rest, fr, w) =>
    match fr.opd .int (.reg a) with
    | some (.i32 x) => (fit (if x.toInt < 0 then -x.toInt else x.toInt)).map fun y => (rest, fr.setReg r (.i32 y), w)
    | _ => none
  | (.load r ty l id :: rest, fr, w) => (fr.get w l id ty).map fun v => (rest, fr.setReg r v, w)
  | (.store ty a l id :: rest, fr, w) => (fr.opd ty a).bind fun v => (fr.set w l id v).map fun x => (rest, x.1, x.2)
  | (.alloca id _ :: rest, fr, w) =>
    some (rest, { fr with addr := fun j => if j = id then some fr.stack.length else fr.addr j, stack := fr.stack ++ [none] }, w)
  | (.param ty i id :: rest, fr, w) => (fr.args[i]?).bind fun v => if v.ty = ty then (fr.set w true id v).map fun x => (rest, x.1, x.2) else none
  | (.br l :: _, fr, w) => (find l code).map fun r => (r, fr.enter l, w)
  | (.cbr c a b :: _, fr, w) =>
    match fr.opd .bool (.reg c) with
    | some (.i1 x) => (find (if x then a else b) code).map fun r => (r, fr.enter (if x then a else b), w)
    | _ => none
  | (.phi r ty a x b y :: rest, fr, w) =>
    if fr.cameFrom x then (fr.opd ty a).map fun v => (rest, fr.setReg r v, w)
    else if fr.cameFrom y then (fr.opd ty b).map fun v => (rest, fr.setReg r v, w)
    else none
  | (.save k _ :: rest, fr, w) => some (rest, { fr with dyn := fun j => if j = k then some fr.stack.length else fr.dyn j }, w)
  | (.restore k _ :: rest, fr, w) => (fr.dyn k).bind fun d => if d ≤ fr.stack.length then some (rest, { fr with stack := fr.stack.take d }, w) else none
  | (.switch r d t :: _, fr, w) =>
    match fr.opd .int (.reg r) with
    | some (.i32 x) =>
      (find (((t.find? fun y => fit y.1 == some x).map (·.2)).getD d) code).map fun q => (q, fr.enter (((t.find? fun y => fit y.1 == some x).map (·.2)).getD d), w)
    | _ => none
  | _ => none

theorem stepC_sound {crel : CallRel} {code : List Instr} {c d : Conf} (h : stepC code c = some d) : Step crel code c d := by
  unfold stepC at h
  split at h
  · split at h
    · obtain ⟨z, hz, rfl⟩ := Option.map_eq_some_iff.mp h
      exact .arith ‹_› ‹_› hz
    · cases h
  · split at h
    · cases h; exact .cmpInt ‹_› ‹_›
    · cases h
  · split at h
    · cases h; exact .cmpBool ‹_› ‹_›
    · cases h
  · split at h
    · cases h; exact .flip ‹_›
    · cases h
  · split at h
    · obtain ⟨z, hz, rfl⟩ := Option.map_eq_some_iff.mp h
      exact .abs ‹_› hz
    · cases h
  · obtain ⟨z, hz, rfl⟩ := Option.map_eq_some_iff.mp h
    exact .load hz
  · obtain ⟨v, hv, h⟩ := Option.bind_eq_some_iff.mp h
    obtain ⟨z, hz, rfl⟩ := Option.map_eq_some_iff.mp h
    exact .store hv hz
  · cases h; exact .alloca
  · obtain ⟨v, hv, h⟩ := Option.bind_eq_some_iff.mp h
    split at h
    · obtain ⟨z, hz, rfl⟩ := Option.map_eq_some_iff.mp h
      exact .param hv ‹_› hz
    · cases h
  · obtain ⟨z, hz, rfl⟩ := Option.map_eq_some_iff.mp h
    exact .br hz
  · split at h
    · obtain ⟨z, hz, rfl⟩ := Option.map_eq_some_iff.mp h
      exact .cbr ‹_› hz
    · cases h
  · split at h
    · obtain ⟨z, hz, rfl⟩ := Option.map_eq_some_iff.mp h
      exact .phiFst ‹_› hz
    · split at h
      · obtain ⟨z, hz, rfl⟩ := Option.map_eq_some_iff.mp h
        exact .phiSnd ‹_› ‹_› hz
      · cases h
  · cases h; exact .save
  · obtain ⟨v, hv, h⟩ := Option.bind_eq_some_iff.mp h
    split at h
    · cases h; exact .restore hv ‹_›
    · cases h
  · split at h
    · obtain ⟨z, hz, rfl⟩ := Option.map_eq_some_iff.mp h
      exact .switch ‹_› hz
    · cases h
  · cases h

/-- Whether a call comes next. -/
def callsNext : List Instr → Bool
  | .call .. :: _ => true
  | _ => false

theorem stepC_complete {crel : CallRel} {code : List Instr} {c d : Conf} (h : Step crel code c d) (hc : callsNext c.1 = false) : stepC code c = some d := by
  cases h with
  | call => simp [callsNext] at hc
  | callVoid => simp [callsNext] at hc
  | _ => simp_all [stepC]

/-- At most `n` instructions. -/
def runC (code : List Instr) : Nat → Conf → Conf
  | 0, c => c
  | n + 1, c =>
    match stepC code c with
    | some d => runC code n d
    | none => c

theorem runC_star {crel : CallRel} {code : List Instr} : ∀ (n : Nat) (c : Conf), Star crel code c (runC code n c)
  | 0, c => .refl
  | n + 1, c => by
    unfold runC
    split
    · exact .step (stepC_sound ‹_›) (runC_star n _)
    · exact .refl

theorem star_end {crel : CallRel} {code : List Instr} (hc : ∀ f vs w v1 w1 v2 w2, crel f vs w v1 w1 → crel f vs w v2 w2 → v1 = v2 ∧ w1 = w2) {c d e : Conf}
    (h : Star crel code c d) (k : Star crel code c e) (hd : ∀ x, ¬ Step crel code d x) (he : ∀ x, ¬ Step crel code e x) : d = e := by
  induction h with
  | refl =>
    cases k with
    | refl => rfl
    | step s _ => exact absurd s (hd _)
  | step s _ ih =>
    cases k with
    | refl => exact absurd s (he _)
    | step s' k =>
      have := step_det hc s s'
      subst this
      exact ih k hd

/-- The run is over without the value `v`. -/
def amiss (code : List Instr) (v : Option V) (c : Conf) : Bool :=
  match c.1 with
  | .ret a :: _ => c.2.1.result a != some v
  | r => !callsNext r && (stepC code c).isNone

/-- The source gives a value that the text does not give. -/
theorem wrong {isLocal : Nat → Bool} {lib : Calls} {main : Nat} {f : Func} {g : Gen} {vs : List V} {w : World} (n k : Nat) {v : Option V}
    (hs : (callF isLocal lib main [f] n f.id vs w).map (·.1) = some v)
    (hr : amiss (emitF isLocal (f.id == main) f g).1 v
      (runC (emitF isLocal (f.id == main) f g).1 k ((emitF isLocal (f.id == main) f g).1, ⟨fun _ => none, fun _ => none, fun _ => none, [], vs, none, none⟩, w)) = true) :
    ∃ v w', callF isLocal lib main [f] n f.id vs w = some (v, w') ∧ ∀ m w'', ¬ callL lib (emitU isLocal main [f] g) m f.id vs w v w'' := by
  obtain ⟨⟨v', w'⟩, h1, rfl⟩ := Option.map_eq_some_iff.mp hs
  refine ⟨v', w', h1, ?_⟩
  intro m w'' h
  cases m with
  | zero => exact h
  | succ m =>
    rw [callL] at h
    simp only [emitU, List.find?_cons, beq_self_eq_true] at h
    obtain ⟨a, r, fr, t, e⟩ := h
    generalize (emitF isLocal (f.id == main) f g).1 = code at *
    have t' := runC_star (crel := callL lib [(f, code)] m) (code := code) k (code, ⟨fun _ => none, fun _ => none, fun _ => none, [], vs, none, none⟩, w)
    generalize hfin : runC code k (code, ⟨fun _ => none, fun _ => none, fun _ => none, [], vs, none, none⟩, w) = fin at *
    have := star_end (callL_det m) t t' (by intro x hx; cases hx) (by
      intro x hx
      unfold amiss at hr
      split at hr
      · rename_i a' r' hret
        obtain ⟨c1, c2⟩ := fin
        simp only at hret
        subst hret
        cases hx
      · simp only [Bool.and_eq_true, Bool.not_eq_true'] at hr
        have := stepC_complete hx hr.1
        rw [this] at hr
        exact absurd hr.2 (by simp))
    subst this
    simp only [amiss, e, bne_self_eq_false, Bool.false_eq_true] at hr

end RuC.Llvm
