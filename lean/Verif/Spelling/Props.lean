import Verif.Spelling.Reads

/-! Properties of the spelling of types (C98). -/

namespace RuC.Spelling.Props
open RuC.Types RuC.Spelling
open Listing (codes)

/-- C98: what is put into the buffer for a type is read back as this type. -/
theorem C98_read_back (name : Nat → List Nat) (cells : List Int) (hlen : cells.length < 4611686018427387904) (t : Int) (e : T) (hok : ok e = true) (h : means name cells t e)
    (fuel : Nat) (hf : depth e ≤ fuel) : ∃ s, spell name cells fuel t = some s ∧ read s = some e :=
  ⟨print e, spell_means hlen e t fuel hok h hf, read_print e hok⟩

/-- C98: two numbers that are spelled alike stand for the same type, even in different tables. -/
theorem C98_different (name name' : Nat → List Nat) (cells cells' : List Int) (hlen : cells.length < 4611686018427387904) (hlen' : cells'.length < 4611686018427387904) (t t' : Int)
    (e e' : T) (hok : ok e = true) (hok' : ok e' = true) (h : means name cells t e) (h' : means name' cells' t' e') (fuel fuel' : Nat) (hf : depth e ≤ fuel) (hf' : depth e' ≤ fuel')
    (he : spell name cells fuel t = spell name' cells' fuel' t') : e = e' := by
  obtain ⟨s, h1, h2⟩ := C98_read_back name cells hlen t e hok h fuel hf
  obtain ⟨s', h1', h2'⟩ := C98_read_back name' cells' hlen' t' e' hok' h' fuel' hf'
  rw [he, h1'] at h1
  obtain rfl := Option.some.inj h1
  rw [h2'] at h2
  exact (Option.some.inj h2).symm

/-- C98: a text of fewer than 128 characters is written as it is; a longer one is put over the end of the buffer. -/
theorem C98_written (name : Nat → List Nat) (cells : List Int) (hlen : cells.length < 4611686018427387904) (t : Int) (e : T) (hok : ok e = true) (h : means name cells t e)
    (fuel : Nat) (hf : depth e ≤ fuel) :
    ∃ s, read s = some e ∧ (s.length < 128 → writeType name cells fuel t = some s) ∧ (128 ≤ s.length → writeType name cells fuel t = none) := by
  have h1 := spell_means hlen e t fuel hok h hf
  refine ⟨print e, read_print e hok, fun hl => ?_, fun hl => ?_⟩
  · rw [writeType, h1, Option.bind_some, if_pos ⟨print_ne e, hl⟩]
  · rw [writeType, h1, Option.bind_some, if_neg (fun k => absurd k.2 (by unfold MAX_STRING_LENGTH; omega))]

/-- Names for the examples: member 1 is `x`, member 2 is `next`. -/
def names (n : Nat) : List Nat := if n = 1 then codes "x" else codes "next"

/-- `const char` at 1, `const char*` at 3, `const char* const` at 5, `struct { int x; const char* next; }` at 7, a pointer to it at 14, a function with it and `double` at 16, and
arrays of it at 21. -/
def table : List Int := [0, TYPE_CONST, -2, TYPE_POINTER, 1, TYPE_CONST, 3, TYPE_STRUCTURE, 2, 4, -1, 1, 3, 2, TYPE_POINTER, 7, TYPE_FUNCTION, 5, 2, 14, -3, TYPE_ARRAY, 16]

/-- The type at 21. -/
def sample : T := .array (.func (.const (.ptr (.const (.base .char)))) (.cons (.ptr (.struct (.cons (.base .int) (codes "x") (.cons (.ptr (.const (.base .char))) (codes "next") .nil))))
  (.cons (.base .float) .nil)))

theorem sample_means : means names table 21 sample := by
  unfold sample table
  simp only [means, meansAll, meansMembers, Ts.len, Ms.len]
  have p3 : ∃ (n : Nat) (u : Int), (3 : Int) = n ∧ 0 < n ∧ table[n]? = some TYPE_POINTER ∧ table[n + 1]? = some u ∧ ∃ (n : Nat) (v : Int), u = n ∧ 0 < n ∧ table[n]? = some TYPE_CONST ∧
      table[n + 1]? = some v ∧ v = Base.char.num := ⟨3, 1, rfl, by decide, rfl, rfl, 1, -2, rfl, by decide, rfl, rfl, rfl⟩
  exact ⟨21, 16, rfl, by decide, rfl, rfl, 16, 5, rfl, by decide, rfl, rfl, rfl, ⟨5, 3, rfl, by decide, rfl, rfl, p3⟩,
    ⟨14, rfl, 14, 7, rfl, by decide, rfl, rfl, 7, rfl, by decide, rfl, rfl, ⟨-1, 1, rfl, rfl, by decide, rfl, rfl⟩, ⟨3, 2, rfl, rfl, by decide, rfl, p3⟩, trivial⟩, ⟨-3, rfl, rfl⟩, trivial⟩

example : ∃ s, spell names table 7 21 = some s ∧ read s = some sample := C98_read_back names table (by decide) 21 sample (by decide +kernel) sample_means 7 (by decide)

example : spell names table 7 21 = some (codes "const char* const (struct { int x; const char* next; }*, double)[]") := by decide +kernel

/-- A constant array and an array of constants are spelled alike. -/
theorem C98_const_array : spell names [0, TYPE_ARRAY, -1, TYPE_CONST, 1, TYPE_CONST, -1, TYPE_ARRAY, 5] 5 3 = some (codes "const int[]") ∧
    spell names [0, TYPE_ARRAY, -1, TYPE_CONST, 1, TYPE_CONST, -1, TYPE_ARRAY, 5] 5 7 = some (codes "const int[]") := by decide +kernel

/-- `void` with 26 parameters of type `int`: the text has 135 characters, the buffer 128. -/
theorem C98_too_long : (spell names ([0, TYPE_FUNCTION, -6, 26] ++ List.replicate 26 (-1)) 5 1).map List.length = some 135 ∧
    writeType names ([0, TYPE_FUNCTION, -6, 26] ++ List.replicate 26 (-1)) 5 1 = none := by decide +kernel

/-- For an enumeration nothing is put into the buffer, which is printed all the same; a pointer to it is `*`. -/
theorem C98_enum_lost : spell names [0, TYPE_ENUM, 1, 0, TYPE_POINTER, 1] 5 1 = some [] ∧ writeType names [0, TYPE_ENUM, 1, 0, TYPE_POINTER, 1] 5 1 = none ∧
    writeType names [0, TYPE_ENUM, 1, 0, TYPE_POINTER, 1] 5 4 = some (codes "*") := by decide +kernel

end RuC.Spelling.Props
