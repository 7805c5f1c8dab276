import Verif.LlvmText.Made
import Verif.LlvmText.Strings
import Verif.Llvm.Props

/-! Properties of the text printed by the LLVM generator (C93, C94). -/

namespace RuC.LlvmText.Props
open RuC RuC.Llvm RuC.LlvmText

/-! ## C93: the text says what was made -/

/-- C93: the text of functions is read back as these functions: their names, their types and every instruction. -/
theorem C93_read_back (env : Env) (ref : List Nat → Option Nat) (fs : List Fn)
    (h : ∀ f ∈ fs, NameOk (env.name f.id) ∧ ref (env.name f.id) = some f.id ∧ ∀ i ∈ f.code, Printable env.name ref i) :
    read ⟨ref, env.sig, fun i => env.len i + 1⟩ (unitText env fs) = some (fs.map fun f => (f.id, f.ret, f.params.map some, f.code)) := by
  have hw : words (unitText env fs) = toks (fs.flatMap (fnSegs env)) := by
    have := words_text (fs.flatMap (fnSegs env)) [] (ok_fns env ref fs h)
    rw [List.append_nil] at this
    unfold words unitText
    rw [this, show cut [] [] = [] from rfl, List.append_nil]
  unfold read
  rw [hw]
  exact read_fns env fs _ h (fns_length env fs)

/-- C93: different functions have different texts. -/
theorem C93_different (env : Env) (ref : List Nat → Option Nat) (fs gs : List Fn)
    (hf : ∀ f ∈ fs, NameOk (env.name f.id) ∧ ref (env.name f.id) = some f.id ∧ ∀ i ∈ f.code, Printable env.name ref i)
    (hg : ∀ f ∈ gs, NameOk (env.name f.id) ∧ ref (env.name f.id) = some f.id ∧ ∀ i ∈ f.code, Printable env.name ref i)
    (he : unitText env fs = unitText env gs) : fs = gs := by
  have h1 := C93_read_back env ref fs hf
  rw [he, C93_read_back env ref gs hg] at h1
  have h2 := Option.some.inj h1
  clear h1 he hf hg
  induction fs generalizing gs with
  | nil => simpa using h2
  | cons f fs ih =>
    cases gs with
    | nil => simp at h2
    | cons g gs =>
      simp only [List.map_cons, List.cons.injEq, Prod.mk.injEq] at h2
      obtain ⟨⟨e1, e2, e3, e4⟩, h3⟩ := h2
      have e5 : g.params = f.params := (List.map_inj_right fun _ _ h => Option.some.inj h).1 e3
      have : g = f := by
        cases g; cases f
        simp only at e1 e2 e4 e5
        subst e1 e2 e4 e5
        rfl
      rw [this, ih gs h3]

/-- What a definition is: its number, its result (`main` gives a number), its parameters, its instructions. -/
def meant (main : Nat) (d : Func × List Instr) : Nat × Option Ty × List (Option Ty) × List Instr :=
  (d.1.id, if d.1.id = main then some .int else d.1.ret, d.1.params.map fun p => some p.2, d.2)

/-- C93: the text of a unit whose trees have no floating values is read back as the instructions made for it. -/
theorem C93_unit_read_back (env : Env) (ref : List Nat → Option Nat) (isLocal : Nat → Bool) (main : Nat) (fs : List Func) (g : Gen)
    (hn : ∀ f ∈ fs, NameOk (env.name f.id) ∧ ref (env.name f.id) = some f.id)
    (ht : ∀ f ∈ fs, TextB (fun f => NameOk (env.name f) ∧ ref (env.name f) = some f) f.body) :
    read ⟨ref, env.sig, fun i => env.len i + 1⟩ (unitText env ((emitU isLocal main fs g).map (printed main))) =
      some ((emitU isLocal main fs g).map (meant main)) := by
  rw [C93_read_back env ref]
  · simp only [printed, List.map_map, Function.comp_def]
    rfl
  · intro f hf
    obtain ⟨d, hd, rfl⟩ := List.mem_map.1 hf
    have := allU isLocal main fs g ht d hd
    exact ⟨(hn _ this.1).1, (hn _ this.1).2, this.2⟩

/-! Some functions -/

/-- The names of the sample. -/
def name0 (f : Nat) : List Nat :=
  if f = 10 then codes "fact" else if f = 11 then codes "count" else if f = 12 then codes "main" else codes "print"

/-- Who has these names. -/
def ref0 (n : List Nat) : Option Nat :=
  if n = codes "fact" then some 10 else if n = codes "count" then some 11 else if n = codes "main" then some 12
  else if n = codes "print" then some 20 else none

/-- The tables of the sample. -/
def env0 : Env := ⟨name0, fun f => if f = 20 then (none, [some .int, none]) else (some .int, [some .int]), fun _ => 5⟩

theorem known0 : ∀ f, f = 10 ∨ f = 11 ∨ f = 12 ∨ f = 20 → NameOk (name0 f) ∧ ref0 (name0 f) = some f := by
  have hp : ∀ s ∈ ["fact", "count", "main", "print"], ∀ c ∈ codes s, (65 ≤ c ∧ c ≤ 90 ∨ 97 ≤ c ∧ c ≤ 122) ∨ (48 ≤ c ∧ c ≤ 57) ∨ c = 95 := by
    decide +kernel
  intro f hf
  rcases hf with rfl | rfl | rfl | rfl
  · exact ⟨⟨by decide, hp "fact" (by decide)⟩, by decide⟩
  · exact ⟨⟨by decide, hp "count" (by decide)⟩, by decide⟩
  · exact ⟨⟨by decide, hp "main" (by decide)⟩, by decide⟩
  · exact ⟨⟨by decide, hp "print" (by decide)⟩, by decide⟩

/-- The sample of `Verif/Llvm/Props.lean` is read back. -/
example : read ⟨ref0, env0.sig, fun i => env0.len i + 1⟩ (unitText env0 ((emitU (fun _ => true) 12 [Llvm.Props.fact, Llvm.Props.count, Llvm.Props.prog] Llvm.Props.g0).map (printed 12))) =
    some ((emitU (fun _ => true) 12 [Llvm.Props.fact, Llvm.Props.count, Llvm.Props.prog] Llvm.Props.g0).map (meant 12)) := by
  apply C93_unit_read_back
  · intro f hf
    simp only [List.mem_cons, List.not_mem_nil, or_false] at hf
    rcases hf with rfl | rfl | rfl
    · exact known0 10 (by decide)
    · exact known0 11 (by decide)
    · exact known0 12 (by decide)
  · intro f hf
    simp only [List.mem_cons, List.not_mem_nil, or_false] at hf
    have k10 := known0 10 (by decide)
    have k11 := known0 11 (by decide)
    have k20 := known0 20 (by decide)
    rcases hf with rfl | rfl | rfl
    · simp [Llvm.Props.fact, Llvm.Props.seq, TextB, TextS, TextE, TextO, TextA, Exp.ty, valued, literal]
      exact k10
    · simp [Llvm.Props.count, Llvm.Props.seq, TextB, TextS, TextE, TextO, TextA, Exp.ty, valued, literal]
    · simp [Llvm.Props.prog, Llvm.Props.seq, TextB, TextS, TextE, TextO, TextA, Exp.ty, valued, literal]
      exact ⟨k20, k10, k11⟩

/-- C74: what reads the text runs the program.  The functions read from the text do what the source means, for the trees of C74: a call that gives a value in the source gives
it in the text, with the same effects.  Missing: the trees that are not `okF`. -/
theorem C74_text_runs_partial (env : Env) (ref : List Nat → Option Nat) (isLocal : Nat → Bool) (lib : Calls) (main : Nat) (fs : List Func) (g : Gen)
    (hn : ∀ f ∈ fs, NameOk (env.name f.id) ∧ ref (env.name f.id) = some f.id)
    (ht : ∀ f ∈ fs, TextB (fun f => NameOk (env.name f) ∧ ref (env.name f) = some f) f.body) (hok : ∀ f ∈ fs, okF main f = true) :
    ∃ code, read ⟨ref, env.sig, fun i => env.len i + 1⟩ (unitText env ((emitU isLocal main fs g.start).map (printed main))) = some (code.map (meant main)) ∧
      ∀ n f vs w v w', callF isLocal lib main fs n f vs w = some (v, w') → callL lib code n f vs w v w' :=
  ⟨_, C93_unit_read_back env ref isLocal main fs g.start hn ht, fun n f vs w v w' h =>
    (Llvm.Props.unit_refines_partial isLocal lib main fs g hok n f vs w v w' h).1⟩

/-- Two functions with one name: the reader takes one for the other. -/
theorem C93_same_name_confused : ∃ (env : Env) (fs gs : List Fn), fs ≠ gs ∧ unitText env fs = unitText env gs :=
  ⟨⟨fun _ => codes "f", fun _ => (none, []), fun _ => 0⟩, [⟨1, none, [], [.ret none]⟩], [⟨2, none, [], [.ret none]⟩], by decide, by decide +kernel⟩

/-! ## C94: strings -/

/-- C94: the strings of a program without quotes and backslashes are read back from the text, each with its number, its size and a zero behind
it. -/
theorem C94_strings_read_back (l : List (List Nat)) (h : ∀ s ∈ l, ∀ c ∈ s, c ≠ 34 ∧ c ≠ 92) :
    readStrings (l.length + 1) (stringsText l) = some (l.zipIdx.map fun x => (x.2, x.1.length + 1, x.1 ++ [0])) :=
  readStrings_text l 0 (l.length + 1) h (Nat.lt_succ_self _)

example : readStrings 3 (stringsText [codes "a\nb", codes "x = %i\n"]) =
    some [(0, 4, codes "a\nb" ++ [0]), (1, 8, codes "x = %i\n" ++ [0])] :=
  C94_strings_read_back [codes "a\nb", codes "x = %i\n"] (by decide +kernel)

/-- The text of the strings decides what they are. -/
theorem C94_different (l m : List (List Nat)) (hl : ∀ s ∈ l, ∀ c ∈ s, c ≠ 34 ∧ c ≠ 92) (hm : ∀ s ∈ m, ∀ c ∈ s, c ≠ 34 ∧ c ≠ 92)
    (e : stringsText l = stringsText m) : l = m := by
  have h1 := readStrings_text l 0 (l.length + m.length + 1) hl (by omega)
  have h2 := readStrings_text m 0 (l.length + m.length + 1) hm (by omega)
  rw [show stringsFrom 0 l = stringsFrom 0 m from e, h2] at h1
  have h3 := congrArg (List.map fun x : Nat × Nat × List Nat => x.2.2.dropLast) (Option.some.inj h1)
  simp only [List.map_map, Function.comp_def, List.dropLast_concat] at h3
  have hz : ∀ l : List (List Nat), (l.zipIdx.map fun x => x.1) = l := by
    intro l
    exact List.zipIdx_map_fst 0 l
  rw [hz, hz] at h3
  exact h3.symm

/-- A quote in a string ends it: the text is not read. -/
theorem C94_quote_breaks : readStrings 2 (stringsText [codes "say \"no\""]) = none := by decide +kernel

/-- A backslash with two digits becomes a byte, and the declared size is wrong. -/
theorem C94_backslash_changes : readStrings 2 (stringsText [codes "a\\41"]) = some [(0, 5, codes "aA" ++ [0])] := by decide +kernel

/-- A backslash at the end swallows the zero. -/
theorem C94_backslash_at_end : readStrings 2 (stringsText [codes "a\\"]) = some [(0, 3, codes "a\\00")] := by decide +kernel

end RuC.LlvmText.Props
