import Verif.Pairs.Spec

/-!
# The property of directives that belong together
-/

namespace RuC.Pairs.Props

/-- C100: for every spelling of a directive that ends or continues a block, the message about the missing beginning names the directive that begins such a block, in the same language and in letters of the same size, and nothing behind the spelling is read. -/
theorem C100_without : ∀ e ∈ Storage.keywordTable, ∀ k, opens e.2 = some k →
    ∃ t, spellings k e.1 = [t] ∧ (withoutMessage (octets e.1)).map (fun m => m.toList.map Char.toNat) = some (" без ".toList.map Char.toNat ++ t) := by
  have h : ∀ e ∈ Storage.keywordTable, (opens e.2).all (fun k =>
      match spellings k e.1 with
      | [t] => (withoutMessage (octets e.1)).map (fun m => m.toList.map Char.toNat) == some (" без ".toList.map Char.toNat ++ t)
      | _ => false) = true := by decide +kernel
  intro e he k hk
  have := h e he
  rw [hk, Option.all_some] at this
  split at this
  · next t ht => exact ⟨t, ht, by simpa using this⟩
  · cases this

/-- C100: for every spelling of `#elif` and `#else` the message about one behind `#else` names `#else` in the same language and in letters of the same size. -/
theorem C100_after : ∀ e ∈ Storage.keywordTable, e.2 = 12 ∨ e.2 = 13 →
    ∃ t, spellings 13 e.1 = [t] ∧ (afterMessage (octets e.1)).map (fun m => m.toList.map Char.toNat) = some (" после ".toList.map Char.toNat ++ t) := by
  have h : ∀ e ∈ Storage.keywordTable, (decide (e.2 = 12 ∨ e.2 = 13) → (
      match spellings 13 e.1 with
      | [t] => (afterMessage (octets e.1)).map (fun m => m.toList.map Char.toNat) == some (" после ".toList.map Char.toNat ++ t)
      | _ => false) = true) := by decide +kernel
  intro e he hk
  have := h e he (by simpa using hk)
  split at this
  · next t ht => exact ⟨t, ht, by simpa using this⟩
  · cases this

/-- `#КОНЕЦП` wants `#ПОКА`. -/
example : opens 17 = some 16 ∧ withoutMessage (octets ("#КОНЕЦП".toList.map Char.toNat)) = some " без #ПОКА" := by decide +kernel

/-- There are 20 spellings the first property is about. -/
example : (Storage.keywordTable.filter fun e => (opens e.2).isSome).length = 20 := by decide +kernel

end RuC.Pairs.Props
