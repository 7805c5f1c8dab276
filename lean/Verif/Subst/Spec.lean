import Verif.Text.Spec
import Verif.Subst.Model

/-!
# What a macro with arguments stands for

The body of a definition is made of tokens with gaps (blanks, comments, ends of lines behind a backslash) in front of them, and so are the arguments
of a call.  A call stands for the body with the arguments in the places of the parameters; gaps become single blanks.
-/

namespace RuC.Subst
open RuC RuC.Utf8 RuC.Text

/-! ## Definitions -/

/-- A token of the body of a definition. -/
inductive Tok
  /-- an identifier -/
  | word (w : List Nat)
  /-- a string -/
  | str (q : Nat) (b : List Nat)
  /-- any other character -/
  | chr (c : Nat)
  /-- a hash and the name of a parameter -/
  | quote (g : List Gap) (w : List Nat)
  /-- two hashes and the name of a parameter -/
  | paste (g : List Gap) (w : List Nat)
  deriving DecidableEq, Repr

/-- The characters of a token. -/
def Tok.raw : Tok → List Nat
  | .word w => w
  | .str q b => q :: b ++ [q]
  | .chr c => [c]
  | .quote g w => 35 :: gaps g ++ w
  | .paste g w => 35 :: 35 :: gaps g ++ w

/-- The body of a definition: tokens with the gaps in front of them. -/
abbrev Body := List (List Gap × Tok)

/-- The characters of a body. -/
def Body.raw (l : Body) : List Nat := l.flatMap fun x => gaps x.1 ++ x.2.raw

/-- No character of an identifier is first. -/
def WordEnds (r : List Nat) : Prop := ∀ c v, r = c :: v → wordChar c = false

/-- When a token is read as such in front of the characters `r`. -/
def Tok.Fits (params : List (List Nat)) (r : List Nat) : Tok → Prop
  | .word w => Word w ∧ WordEnds r
  | .str q b => (q = 34 ∨ q = 39) ∧ Quoted q b
  | .chr c => isLetter c = false ∧ c ≠ 10 ∧ c ≠ 32 ∧ c ≠ 9 ∧ c ≠ 34 ∧ c ≠ 39 ∧ c ≠ 35 ∧ (c = 92 → ∀ v, r ≠ 10 :: v) ∧ (c = 47 → ∀ v, r ≠ 47 :: v ∧ r ≠ 42 :: v)
  | .quote g w => w ∈ params ∧ WordEnds r ∧ GapsRead g (w ++ r) ∧ .nl ∉ g
  | .paste g w => w ∈ params ∧ WordEnds r ∧ GapsRead g (w ++ r) ∧ .nl ∉ g

/-- A body whose tokens are read as such in front of the characters `r`. -/
def Body.Reads (params : List (List Nat)) : Body → List Nat → Prop
  | [], _ => True
  | (g, x) :: l, r => GapsRead g (x.raw ++ (Body.raw l ++ r)) ∧ .nl ∉ g ∧ x.Fits params (Body.raw l ++ r) ∧ Body.Reads params l r

/-- Whether a token ends with an identifier. -/
def Tok.wordy : Tok → Bool
  | .word _ | .quote .. | .paste .. => true
  | _ => false

/-- Between an identifier and a hash with a parameter there is a gap. -/
def Apart : Bool → Body → Prop
  | _, [] => True
  | was, (g, .quote ..) :: l => (was = true → g ≠ []) ∧ Apart true l
  | _, (_, x) :: l => Apart x.wordy l

/-- A body does not begin with two hashes. -/
def Body.begins : Body → Bool
  | (_, .paste ..) :: _ => false
  | _ => true

/-- A list of parameters in brackets: every name with the gaps in front of it and behind it. -/
abbrev Params := List (List Gap × List Nat × List Gap)

/-- The characters of parameters. -/
def Params.raw : Params → List Nat
  | [] => []
  | [(a, w, b)] => gaps a ++ w ++ gaps b
  | (a, w, b) :: l => gaps a ++ w ++ gaps b ++ 44 :: Params.raw l

/-- The names of the parameters. -/
def Params.names (l : Params) : List (List Nat) := l.map (·.2.1)

/-- Parameters that are read as such in front of the characters `r`. -/
def Params.Reads : Params → List Nat → Prop
  | [], _ => True
  | [(a, w, b)], r => Word w ∧ .nl ∉ a ∧ .nl ∉ b ∧ GapsRead a (w ++ gaps b ++ r) ∧ GapsRead b r
  | (a, w, b) :: l, r => Word w ∧ .nl ∉ a ∧ .nl ∉ b ∧ GapsRead a (w ++ gaps b ++ 44 :: Params.raw l ++ r) ∧ GapsRead b (44 :: Params.raw l ++ r) ∧ Params.Reads l r

/-! ## Calls -/

/-- A token of an argument. -/
inductive Arg.Tok
  /-- a string -/
  | str (q : Nat) (b : List Nat)
  /-- any other character -/
  | chr (c : Nat)
  deriving DecidableEq, Repr

/-- The characters of a token. -/
def Arg.Tok.raw : Arg.Tok → List Nat
  | .str q b => q :: b ++ [q]
  | .chr c => [c]

/-- An argument: tokens with the gaps in front of them, and the gaps at the end. -/
structure Arg where
  toks : List (List Gap × Arg.Tok)
  trail : List Gap

/-- The characters of tokens with gaps. -/
def Arg.raws (l : List (List Gap × Arg.Tok)) : List Nat := l.flatMap fun x => gaps x.1 ++ x.2.raw

/-- The characters of an argument. -/
def Arg.raw (a : Arg) : List Nat := Arg.raws a.toks ++ gaps a.trail

/-- When a token is read as such in front of the characters `r`. -/
def Arg.Tok.Fits (r : List Nat) : Arg.Tok → Prop
  | .str q b => (q = 34 ∨ q = 39) ∧ Quoted q b
  | .chr c => c ≠ 10 ∧ c ≠ 32 ∧ c ≠ 9 ∧ c ≠ 34 ∧ c ≠ 39 ∧ (c = 92 → ∀ v, r ≠ 10 :: v) ∧ (c = 47 → ∀ v, r ≠ 47 :: v ∧ r ≠ 42 :: v)

/-- Tokens that are read as such in front of the characters `r`. -/
def Arg.ReadsToks : List (List Gap × Arg.Tok) → List Nat → Prop
  | [], _ => True
  | (g, x) :: l, r => GapsRead g (x.raw ++ (Arg.raws l ++ r)) ∧ x.Fits (Arg.raws l ++ r) ∧ Arg.ReadsToks l r

/-- Brackets are closed in their order, and commas are in brackets. -/
def Arg.balanced : Nat → List (List Gap × Arg.Tok) → Bool
  | d, [] => d == 0
  | d, (_, .chr c) :: l =>
    if c = 40 then Arg.balanced (d + 1) l
    else if c = 41 then d != 0 && Arg.balanced (d - 1) l
    else if c = 44 then d != 0 && Arg.balanced d l
    else Arg.balanced d l
  | d, (_, .str ..) :: l => Arg.balanced d l

/-- An argument that is read as such in front of the characters `r`. -/
def Arg.Reads (a : Arg) (r : List Nat) : Prop := Arg.ReadsToks a.toks (gaps a.trail ++ r) ∧ GapsRead a.trail r ∧ Arg.balanced 0 a.toks = true

/-- The characters of arguments. -/
def argsRaw : List Arg → List Nat
  | [] => []
  | [a] => a.raw
  | a :: l => a.raw ++ 44 :: argsRaw l

/-- Arguments that are read as such in front of the characters `r`. -/
def ArgsRead : List Arg → List Nat → Prop
  | [], _ => True
  | [a], r => a.Reads r
  | a :: l, r => a.Reads (44 :: argsRaw l ++ r) ∧ ArgsRead l r

/-- The text of an argument: tokens with a blank in the place of gaps, and no gaps at its ends. -/
def Arg.text : List (List Gap × Arg.Tok) → List Nat
  | [] => []
  | x :: l => x.2.raw ++ l.flatMap fun x => (if x.1 = [] then [] else [32]) ++ x.2.raw

/-- The characters of a string for a text: quotes get a backslash, and so does a backslash in front of a quote. -/
def escape : List Nat → List Nat
  | 92 :: 34 :: r => 92 :: 92 :: 92 :: 34 :: escape r
  | 92 :: c :: r => 92 :: c :: escape r
  | [92] => []
  | 34 :: r => 92 :: 34 :: escape r
  | c :: r => c :: escape r
  | [] => []

/-- What a token of the body stands for; `value` is for the text of an argument, `expand` for the text with its own macros replaced. -/
def Tok.stands (params args : List (List Nat)) (expand : List Nat → List Nat) : Tok → List Nat
  | .word w => if w ∈ params then expand (args.getD (params.idxOf w) []) else w
  | .str q b => q :: b ++ [q]
  | .chr c => [c]
  | .quote _ w => 34 :: escape (args.getD (params.idxOf w) []) ++ [34]
  | .paste _ w => args.getD (params.idxOf w) []

/-- Whether a token is joined to the one in front of it. -/
def Tok.joins : Tok → Bool
  | .paste .. => true
  | _ => false

/-- What the body of a definition stands for: gaps become single blanks, or nothing in front of two hashes and at the ends. -/
def Body.stands (params args : List (List Nat)) (expand : List Nat → List Nat) : Body → List Nat
  | [] => []
  | x :: l => x.2.stands params args expand ++
    l.flatMap fun x => (if x.1 = [] ∨ x.2.joins = true then [] else [32]) ++ x.2.stands params args expand

/-- An identifier that no macro with the number `index` uses for its parameters. -/
def Free (index : Nat) (w : List Nat) : Prop := ∀ i, w ≠ argMask index i ∧ w ≠ strMask index i

/-- What the parameters of a body stand for is not empty. -/
def Body.Filled (params args : List (List Nat)) (expand : List Nat → List Nat) (l : Body) : Prop :=
  ∀ x ∈ l, x.2.stands params args expand ≠ []

/-- A definition behind the name of the macro: parameters in brackets, the body, gaps, and the end of the line or of the text. -/
structure Defined (t : List Nat) (p : Nat) (ps : Params) (l : Body) : Prop where
  some : ps ≠ []
  distinct : ps.names.Nodup
  begins : l.begins = true
  apart : Apart false l
  text : ∃ trail r, (r = [] ∨ ∃ v, r = 10 :: v) ∧ t.drop p = 40 :: ps.raw ++ 41 :: (l.raw ++ (gaps trail ++ r)) ∧ ps.Reads (41 :: (l.raw ++ (gaps trail ++ r))) ∧
    l.Reads ps.names (gaps trail ++ r) ∧ GapsRead trail r ∧ .nl ∉ trail

/-- A call behind the name of the macro: arguments in brackets, with gaps and ends of lines in front of them. -/
structure Called (t : List Nat) (p q : Nat) (as : List Arg) : Prop where
  some : as ≠ []
  text : ∃ g r, t.drop p = gaps g ++ (40 :: argsRaw as ++ 41 :: r) ∧ GapsRead g (40 :: argsRaw as ++ 41 :: r) ∧ ArgsRead as (41 :: r) ∧
    q = p + (gaps g ++ (40 :: argsRaw as ++ [41])).length

/-- The name of a parameter is next. -/
def Follows (params : List (List Nat)) (r : List Nat) : Prop := ∃ w v, w ∈ params ∧ r = w ++ v ∧ WordEnds v

/-- No blank and no comment is next. -/
def Solid (r : List Nat) : Prop := ∀ c v, r = c :: v → c ≠ 32 ∧ c ≠ 9 ∧ (c = 47 → ∀ w, v ≠ 47 :: w ∧ v ≠ 42 :: w) ∧ (c = 92 → ∀ w, v ≠ 10 :: w)

/-- What may not be in the body of a definition. -/
inductive Wrong (params : List (List Nat)) : Err → List Nat → Prop
  /-- two hashes at the end -/
  | edge {g : List Gap} {r : List Nat} : (r = [] ∨ ∃ v, r = 10 :: v) → GapsRead g r → .nl ∉ g → Wrong params .hashOnEdge (35 :: 35 :: (gaps g ++ r))
  /-- two hashes and no parameter behind them -/
  | paste {g : List Gap} {r : List Nat} : r ≠ [] → (∀ v, r ≠ 10 :: v) → Solid r → ¬ Follows params r → GapsRead g r → .nl ∉ g → Wrong params .hashNotFollowed (35 :: 35 :: (gaps g ++ r))
  /-- a hash and no parameter behind it -/
  | quote {g : List Gap} {r : List Nat} : (∀ v, gaps g ++ r ≠ 35 :: v) → Solid r → ¬ Follows params r → ¬ Follows [[101, 118, 97, 108]] r → GapsRead g r → .nl ∉ g →
    Wrong params .hashNotFollowed (35 :: (gaps g ++ r))

/-- Characters that are read in the usual way, and not too many of them. -/
def Ordinary (t : List Nat) : Prop := (∀ c ∈ t, c < 0x200000 ∧ c ≠ 13) ∧ t.length < 4611686018427387904

/-- The texts of arguments. -/
def texts (as : List Arg) : List (List Nat) := as.map fun a => Arg.text a.toks

/-- What a string stands for: a backslash and a character stand for the character. -/
def unescape : List Nat → List Nat
  | 92 :: c :: r => c :: unescape r
  | c :: r => c :: unescape r
  | [] => []

end RuC.Subst
