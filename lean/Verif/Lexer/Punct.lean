import Verif.Lexer.Text

/-!
# C22: punctuators
-/

namespace RuC.Lexer
open RuC RuC.Utf8

/-- The spellings as code points. -/
theorem spellings_codes : spellings.map (fun e => (codes e.1, e.2)) = [
    ([91], .lSquare), ([93], .rSquare), ([40], .lParen), ([41], .rParen), ([123], .lBrace), ([125], .rBrace),
    ([44], .comma), ([58], .colon), ([59], .semicolon), ([63], .question), ([126], .tilde), ([46], .period),
    ([43], .plus), ([45], .minus), ([42], .star), ([47], .slash), ([37], .percent), ([33], .exclaim),
    ([94], .caret), ([124], .pipe), ([38], .amp), ([61], .equal), ([60], .less), ([62], .greater),
    ([45, 62], .arrow), ([43, 61], .plusEqual), ([43, 43], .plusPlus), ([45, 61], .minusEqual),
    ([45, 45], .minusMinus), ([42, 61], .starEqual), ([47, 61], .slashEqual), ([37, 61], .percentEqual),
    ([33, 61], .exclaimEqual), ([94, 61], .caretEqual), ([124, 61], .pipeEqual), ([124, 124], .pipePipe),
    ([38, 61], .ampEqual), ([38, 38], .ampAmp), ([61, 61], .equalEqual), ([60, 61], .lessEqual),
    ([60, 60], .lessLess), ([62, 61], .greaterEqual), ([62, 62], .greaterGreater),
    ([60, 60, 61], .lessLessEqual), ([62, 62, 61], .greaterGreaterEqual)] := by decide

set_option maxHeartbeats 1000000 in
/-- C22.  When the text starts with a punctuator, and not with a comment or with a period before a digit,
the lexer answers the longest punctuator and leaves what follows it, without any error. -/
theorem punctuator_longest (refs : List Nat → Int) {s : List Nat} {k : Punct} {rest : List Nat}
    (h : LongestPunct s k rest) (hc : ¬ StartsComment s) (hf : ¬ StartsFraction s) :
    lex refs s = .tok (.punct k) [] rest := by
  obtain ⟨p, hp, hs, hl⟩ := h
  have hp' : (codes p, k) ∈ spellings.map (fun e => (codes e.1, e.2)) := List.mem_map.2 ⟨_, hp, rfl⟩
  have hl' : ∀ e ∈ spellings.map (fun e => (codes e.1, e.2)), e.1 <+: s → e.1.length ≤ (codes p).length := by
    intro e he
    obtain ⟨x, hx, rfl⟩ := List.mem_map.1 he
    exact hl x hx
  rw [StartsComment, show codes "//" = [47, 47] by decide, show codes "/*" = [47, 42] by decide] at hc
  rw [StartsFraction] at hf
  have hfrac : ∀ d t, s = 46 :: d :: t → isDigit d = false := by
    intro d t e
    cases hd : isDigit d with
    | false => rfl
    | true =>
      simp [isDigit] at hd
      exact absurd ⟨d, hd.1, hd.2, by rw [e]; exact ⟨t, rfl⟩⟩ hf
  rw [spellings_codes] at hp' hl'
  generalize codes p = q at *
  subst hs
  clear hp hl hf
  simp only [List.mem_cons, Prod.mk.injEq, List.not_mem_nil, or_false] at hp'
  rw [lex_eq]
  rcases hp' with ⟨rfl, rfl⟩ | ⟨rfl, rfl⟩ | ⟨rfl, rfl⟩ | ⟨rfl, rfl⟩ | ⟨rfl, rfl⟩ | ⟨rfl, rfl⟩ | ⟨rfl, rfl⟩ | ⟨rfl, rfl⟩ | ⟨rfl, rfl⟩ | ⟨rfl, rfl⟩ | ⟨rfl, rfl⟩ | ⟨rfl, rfl⟩ | ⟨rfl, rfl⟩ | ⟨rfl, rfl⟩ | ⟨rfl, rfl⟩ | ⟨rfl, rfl⟩ | ⟨rfl, rfl⟩ | ⟨rfl, rfl⟩ | ⟨rfl, rfl⟩ | ⟨rfl, rfl⟩ | ⟨rfl, rfl⟩ | ⟨rfl, rfl⟩ | ⟨rfl, rfl⟩ | ⟨rfl, rfl⟩ | ⟨rfl, rfl⟩ | ⟨rfl, rfl⟩ | ⟨rfl, rfl⟩ | ⟨rfl, rfl⟩ | ⟨rfl, rfl⟩ | ⟨rfl, rfl⟩ | ⟨rfl, rfl⟩ | ⟨rfl, rfl⟩ | ⟨rfl, rfl⟩ | ⟨rfl, rfl⟩ | ⟨rfl, rfl⟩ | ⟨rfl, rfl⟩ | ⟨rfl, rfl⟩ | ⟨rfl, rfl⟩ | ⟨rfl, rfl⟩ | ⟨rfl, rfl⟩ | ⟨rfl, rfl⟩ | ⟨rfl, rfl⟩ | ⟨rfl, rfl⟩ | ⟨rfl, rfl⟩ | ⟨rfl, rfl⟩
  all_goals
    cases rest with
    | nil => simp [skipWhitespace, isDigit, lexPunct]
    | cons d rest =>
      simp [isDigit] at hl' hc hfrac
      simp [skipWhitespace, isDigit, lexPunct]
      try simp_all [Ne.symm]
      try (intros; omega)

end RuC.Lexer
