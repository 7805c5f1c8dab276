import Verif.Storage.Witness

/-! Properties of the macro storage (C41). -/

namespace RuC.Storage
open RuC

/-- C41: every history of definitions, redefinitions, removals, flags and lookups answers what a map
from names to definitions beside the fixed set of directives answers.  The history must not remove
what is not defined, nor replace a value by an empty one, and its texts are below four gigabytes. -/
theorem C41_storage_is_a_map (ops : List Op) (evs : List Event) (h : Tells ops evs)
    (hl : Legal (fun _ => none) evs) (hb : 8000 + (ops.map Op.cost).sum < 4294967296) :
    exec ops = some (meaning (fun _ => none) evs) := by
  obtain ⟨g, G, e, r, _⟩ := create_spec
  obtain ⟨g', e'⟩ := run_spec r (fun _ _ _ h => by cases h) h hl hb
  exact exec_of e e'

/-- A sample name. -/
def nameF : List Nat := [102, 117, 110]

example : exec [.define (.utf8 (nameA ++ [0])) (some (0, [49])), .lookup (.utf8 (nameA ++ [0])),
      .set (.utf8 (nameF ++ [0])) (some (2, [120, 43, 121])), .undef (.utf8 (nameA ++ [0])),
      .lookup (.utf8 (nameA ++ [0])), .lookup (.utf8 (nameF ++ [0])), .lookup (.utf8 (hashDefine ++ [0])),
      .flag (.utf8 (nameF ++ [0])) [50], .lookup (.utf8 (nameF ++ [0]))] =
    some [.done, .found 0 (some [49]), .done, .done, .absent, .found 2 (some [120, 43, 121]), .keyword 4,
      .refused, .found 2 (some [120, 43, 121])] := by
  have dA : Map.Denotes (.utf8 (nameA ++ [0])) nameA := .utf8 _ (by decide)
  have dF : Map.Denotes (.utf8 (nameF ++ [0])) nameF := .utf8 _ (by decide)
  have dD : Map.Denotes (.utf8 (hashDefine ++ [0])) hashDefine := .utf8 _ (by decide)
  have lA : IsName nameA := ⟨65, [], rfl, by decide⟩
  have lF : IsName nameF := ⟨102, [117, 110], rfl, by decide⟩
  rw [C41_storage_is_a_map _ _ (.cons (.define (some (0, [49])) dA) (.cons (.lookup dA) (.cons (.set (some (2, [120, 43, 121])) dF) (.cons (.undef dA)
    (.cons (.lookup dA) (.cons (.lookup dF) (.cons (.lookup dD) (.cons (.flag _ dF) (.cons (.lookup dF) .nil)))))))))
    ⟨⟨lA, by decide, by decide, by simp⟩, trivial, ⟨lF, by decide, by decide, by simp⟩, ⟨lA, by decide⟩, trivial, trivial,
      trivial, ⟨lF, by decide⟩, trivial, trivial⟩ (by decide)]
  simp only [meaning, Event.apply, answer, directiveOf_codes]
  decide +kernel

/-- Outside these histories: `#define A 1`, `#define B 2`, `#define A` leaves the old value of `A`, though
the map would answer an empty one. -/
theorem C41_witness_empty_value :
    exec [.define (.utf8 (nameA ++ [0])) (some (0, [49])), .define (.utf8 (nameB ++ [0])) (some (0, [50])),
      .define (.utf8 (nameA ++ [0])) (some (0, [])), .lookup (.utf8 (nameA ++ [0]))] =
        some [.done, .done, .done, .found 0 (some [49])] ∧
      meaning (fun _ => none) [.define nameA (some (0, [49])), .define nameB (some (0, [50])),
        .define nameA (some (0, [])), .lookup nameA] = [.done, .done, .done, .found 0 none] :=
  ⟨empty_keeps_old, by
    simp only [meaning, Event.apply, answer, directiveOf_codes]
    decide +kernel⟩

/-- Outside these histories: `#define AWh 1`, then `#undef` of a name that is not defined, and the
directive `#define` is not a directive any more. -/
theorem C41_witness_undef_unknown :
    exec [.define (.utf8 (nameAWh ++ [0])) (some (0, [49])), .lookup (.utf8 (hashDefine ++ [0])),
      .undef (.utf8 (nameNope ++ [0])), .lookup (.utf8 (hashDefine ++ [0]))] =
        some [.done, .keyword 4, .done, .absent] ∧
      meaning (fun _ => none) [.define nameAWh (some (0, [49])), .lookup hashDefine, .undef nameNope,
        .lookup hashDefine] = [.done, .keyword 4, .done, .keyword 4] :=
  ⟨undef_unknown, by
    simp only [meaning, Event.apply, answer, directiveOf_codes]
    decide +kernel⟩

end RuC.Storage
