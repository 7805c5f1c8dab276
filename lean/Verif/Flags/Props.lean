import Verif.Flags.Lemmas

/-! Properties of the flags of the macro preprocessor (C92). -/

namespace RuC.Flags.Props
open RuC RuC.Utf8 RuC.Storage RuC.Flags

/-- C92: a command line of flags defines the macros that its flags say, in order, up to the first that
is wrong or repeats a name, and answers whether there was such a flag; from then on every history of
directives and lookups answers what it answers over these definitions. -/
theorem C92_flags_define_macros (flags : List (List Nat)) (settings : List Setting) (h : AllMean flags settings)
    (hb : 8000 + (settings.map room).sum < 4294967296) :
    ∃ g, (storageCreate.bind fun g => wsParse g flags) = some ((settle (fun _ => none) settings).1, g) ∧
      ∀ (ops : List Op) (evs : List Event), Tells ops evs → Legal (settle (fun _ => none) settings).2 evs →
        8000 + (settings.map room).sum + (ops.map Op.cost).sum < 4294967296 →
        (run g ops).map Prod.fst = some (meaning (settle (fun _ => none) settings).2 evs) := by
  obtain ⟨g, G, e, r, _⟩ := create_spec
  obtain ⟨g', G', b', e', r', s', l⟩ := wsParse_spec r (fun _ _ _ h => by cases h) h hb
  refine ⟨g', by rw [e, Option.bind_some, e'], ?_⟩
  intro ops evs ht hl hc
  obtain ⟨g'', e''⟩ := run_spec r' s' ht hl (by omega)
  rw [e'']
  rfl

/-- The name `SIZE`. -/
def nSize : List Nat := [83, 73, 90, 69]
/-- The name `Отладка`. -/
def nDebug : List Nat := [0x41E, 0x442, 0x43B, 0x430, 0x434, 0x43A, 0x430]

theorem size_name : Name nSize := ⟨83, [73, 90, 69], rfl, by decide, by unfold NameChar; decide, by decide⟩
theorem debug_name : Name nDebug :=
  ⟨0x41E, [0x442, 0x43B, 0x430, 0x434, 0x43A, 0x430], rfl, by decide, by unfold NameChar; decide, by decide⟩

/-- The command line `-DSIZE=10 -Wno -DОтладка`. -/
def line : List (List Nat) := [45 :: 68 :: (nSize.flatMap encode ++ 61 :: ([49, 48] ++ [0])), [45, 87, 110, 111] ++ [0],
  45 :: 68 :: (nDebug.flatMap encode ++ [0])]

example : ∃ g, (storageCreate.bind fun g => wsParse g line) = some (0, g) ∧
    (run g [.lookup (.utf8 (nSize ++ [0])), .lookup (.utf8 (nDebug ++ [0])), .lookup (.utf8 ([65] ++ [0]))]).map Prod.fst =
      some [.found 0 (some [49, 48]), .found 0 none, .absent] := by
  obtain ⟨g, e, h⟩ := C92_flags_define_macros line [.define nSize [49, 48], .nothing, .define nDebug []]
    (.cons (.assign nSize [49, 48] size_name (by decide)) (.cons (.other [45, 87, 110, 111] (by rintro ⟨r, e⟩; simp at e))
      (.cons (.plain nDebug debug_name) .nil))) (by decide)
  refine ⟨g, ?_, ?_⟩
  · rw [e]
    congr 1
  · rw [h _ [.lookup nSize, .lookup nDebug, .lookup [65]] (.cons (.lookup (name_valid size_name).1)
      (.cons (.lookup (name_valid debug_name).1) (.cons (.lookup (.utf8 _ (by decide))) .nil))) ⟨trivial, trivial, trivial, trivial⟩
      (by decide)]
    simp only [meaning, Event.apply, answer, directiveOf_codes]
    decide +kernel

/-- C92: the name in a flag is read as it is written, up to `=`, to the end or to another character. -/
theorem C92_name_is_read (g : Stg) (f k v : List Nat) (h : Means f (.define k v)) :
    wsFlag g f = parseFlag g (.utf8 (k ++ [0])) v := (flag_define g h).1

example (g : Stg) : wsFlag g [45, 68, 65, 43, 49, 0] = parseFlag g (.utf8 [65, 0]) [43, 49] :=
  C92_name_is_read g _ [65] [43, 49] (.glued [65] 43 [49] ⟨65, [], rfl, by decide, by simp, by decide⟩ (by decide)
    (by decide) (by unfold NameChar; decide))

/-- Outside these flags: a name of 1024 characters or more is written behind the end of the array. -/
theorem C92_long_name_witness (g : Stg) (c : Nat) (t rest : List Nat) (hc : isLetter c = true)
    (ht : ∀ x ∈ t, NameChar x) (hl : 1024 ≤ (c :: t).length) :
    wsFlag g (45 :: 68 :: ((c :: t).flatMap encode ++ rest)) = none := by
  unfold wsFlag
  rw [if_pos ⟨rfl, rfl⟩]
  simp only [List.drop_succ_cons, List.drop_zero]
  rw [parseName_long hc ht hl rest]

example (g : Stg) : wsFlag g (45 :: 68 :: ((65 :: List.replicate 1023 65).flatMap encode ++ [0])) = none :=
  C92_long_name_witness g 65 _ [0] (by decide)
    (fun x hx => by rw [List.eq_of_mem_replicate hx]; exact .inl (by decide)) (by rw [List.length_cons, List.length_replicate]; decide)

end RuC.Flags.Props
