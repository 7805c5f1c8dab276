import Verif.Base

/-!
# Multi-line directives of the macro processor (libs/macro/parser.c)

`parse_block`, `skip_block` and the functions they call on each other, over lines.  A line is a
directive that opens, continues or closes a block, or anything else.  What a single line does (text,
`#define`, `#include`, the value of a condition, ..) is a parameter of the model (`World`): it may be
any function of the state.

Left out: the scanning inside a line (comments, joined lines, the last line without a line break),
warnings about extra tokens, `#line` marks, locations.  Messages found by `skip_macro` inside the body
of a `#macro` belong to `World.defMacro`.
-/

namespace RuC.Cond

/-- The keywords that open, continue or close a block; `non` is `NON_KEYWORD`. -/
inductive Kw
  | non | ifdef | ifndef | ifk | elif | els | endif | whil | endw | macro | endm
deriving Repr, DecidableEq

/-- A line with its text behind the keyword. -/
inductive Line (X : Type)
  | plain (x : X)
  | mark (k : Kw) (x : X)
deriving Repr, DecidableEq

/-- The keyword opens a block. -/
def Kw.opens : Kw → Bool
  | .ifdef | .ifndef | .ifk | .whil | .macro => true
  | _ => false

/-- The keyword continues or closes a block: the cases of skip_block, macro/parser.c:497-569, and of
parse_block, macro/parser.c:2310-2368 (`default`). -/
def Kw.ends : Kw → Bool
  | .elif | .els | .endif | .endw | .endm => true
  | _ => false

/-- The error messages about blocks. -/
inductive ErrKind
  | unterminated | without | after | iterationMax
deriving Repr, DecidableEq

/-- The state: everything single lines work on, the error flag of the parser, the text and messages
written so far. -/
structure St (σ O : Type) where
  env : σ
  err : Bool
  out : List O
deriving Repr, DecidableEq

/-- What single lines do. -/
structure World (σ X O : Type) where
  /-- `is_recovery_disabled`. -/
  quiet : Bool
  /-- A line that is no block directive. -/
  act : X → St σ O → St σ O
  /-- `parse_expression` on the rest of a line. -/
  cond : X → St σ O → Int × St σ O
  /-- `parse_name`, `storage_search`: is the name defined; `none` if there is no name. -/
  name : X → St σ O → Option Bool × St σ O
  /-- The line of a `#macro`: may the body be recorded? -/
  macroHead : X → St σ O → Bool × St σ O
  /-- A `#macro` line with its body. -/
  defMacro : X → List (Line X) → St σ O → St σ O
  /-- The message about a line. -/
  report : ErrKind → X → O

variable {σ X O : Type}

/-- `parser_error`, macro/parser.c:60-74. -/
def World.error (w : World σ X O) (k : ErrKind) (x : X) (st : St σ O) : St σ O :=
  if w.quiet && st.err then st else { st with err := true, out := st.out ++ [w.report k x] }

/-- The test of `parse_next`, macro/parser.c:2284-2297. -/
def nextOk : Kw → Kw → Bool
  | .ifdef, .elif | .ifdef, .els | .ifdef, .endif
  | .ifndef, .elif | .ifndef, .els | .ifndef, .endif
  | .ifk, .elif | .ifk, .els | .ifk, .endif
  | .elif, .elif | .elif, .els | .elif, .endif
  | .els, .endif | .whil, .endw | .macro, .endm => true
  | _, _ => false

/-- The message of `parse_next`, macro/parser.c:2284-2297. -/
def nextErr (begin next : Kw) : ErrKind :=
  if begin = .els ∧ (next = .elif ∨ next = .els) then .after else .without

/-- Where a block ended: the keyword, the rest of its line and the lines behind; `none` at the end of
the text. -/
abbrev End (X : Type) := Option (Kw × X × List (Line X))

/-- What `skip_block`, macro/parser.c:497-569, does with the error flag for each line it reads: outside
the body of a `#macro` that is recorded (`mac`) it restores the flag it was called with. -/
def reset (mac was : Bool) (st : St σ O) : St σ O :=
  if mac then st else { st with err := was }

mutual
/-- `skip_block`, macro/parser.c:497-569: nothing is written but messages.  The number bounds the depth
of calls; `was` is the error flag at the start of the block. -/
def skip (w : World σ X O) (mac : Bool) : Nat → Bool → Kw → List (Line X) → St σ O →
    Option (End X × St σ O)
  | 0, _, _, _, _ => none
  | _ + 1, _, _, [], st => some (none, st)
  | n + 1, was, begin, .plain _ :: ls, st => skip w mac n was begin ls (reset mac was st)
  | n + 1, was, begin, .mark k x :: ls, st =>
    if k.ends then
      if nextOk begin k then some (some (k, x, ls), reset mac was st)
      else skip w mac n was begin ls (w.error (nextErr begin k) x (reset mac was st))
    else if k.opens then
      match nest w mac n k x ls (reset mac was st) with
      | none => none
      | some (ls', st) => skip w mac n was begin ls' (reset mac was st)
    else skip w mac n was begin ls (reset mac was st)

/-- The inner loop of `skip_block`, macro/parser.c:497-569: all blocks of a nested directive `x`. -/
def nest (w : World σ X O) (mac : Bool) : Nat → Kw → X → List (Line X) → St σ O →
    Option (List (Line X) × St σ O)
  | 0, _, _, _, _ => none
  | n + 1, k, x, ls, st =>
    match skip w mac n st.err k ls st with
    | none => none
    | some (none, st) => some ([], w.error .unterminated x st)
    | some (some (k', _, ls'), st) =>
      if k' = .elif ∨ k' = .els then nest w mac n k' x ls' st else some (ls', st)
end

/-- The loops at the end of `parse_elif`, macro/parser.c:2141-2182, and of `parse_ifdef_ifndef`,
macro/parser.c:2214-2271: skip the blocks that remain. -/
def drain (w : World σ X O) : Nat → End X → St σ O → Option (End X × St σ O)
  | 0, _, _ => none
  | _ + 1, none, st => some (none, st)
  | n + 1, some (k, x, ls), st =>
    if k = .endif then some (some (k, x, ls), st)
    else
      match skip w false n st.err k ls st with
      | none => none
      | some (e, st) => drain w n e st

/-- `MAX_ITERATION`, macro/parser.c. -/
@[irreducible] def maxIteration : Nat := 32768

/-- The end of `parse_if`, macro/parser.c:2191-2204, and of `parse_ifdef_ifndef`,
macro/parser.c:2214-2271: the lines behind the block. -/
def finish (w : World σ X O) (x : X) (e : End X) (st : St σ O) : List (Line X) × St σ O :=
  match e with
  | some (.endif, _, ls) => (ls, st)
  | some (_, _, ls) => (ls, w.error .unterminated x st)
  | none => ([], w.error .unterminated x st)

/-- `parse_macro`, macro/parser.c:2007-2067: the body is what is skipped. -/
def parseMacro (w : World σ X O) (n : Nat) (x : X) (ls : List (Line X)) (st : St σ O) :
    Option (List (Line X) × St σ O) :=
  match skip w (w.macroHead x st).1 n (w.macroHead x st).2.err .macro ls (w.macroHead x st).2 with
  | none => none
  | some (none, st) => some ([], w.defMacro x ls (w.error .unterminated x st))
  | some (some (_, _, ls'), st) => some (ls', w.defMacro x (ls.take (ls.length - ls'.length - 1)) st)

/-- The first lines of `parse_while`, macro/parser.c:2076-2132, when the condition is zero. -/
def whileSkip (w : World σ X O) (n : Nat) (x : X) (ls : List (Line X)) (st : St σ O) :
    Option (List (Line X) × St σ O) :=
  match skip w false n st.err .whil ls st with
  | none => none
  | some (none, st) => some ([], w.error .unterminated x st)
  | some (some (_, _, ls'), st) => some (ls', st)

mutual
/-- `parse_block`, macro/parser.c:2310-2368. -/
def block (w : World σ X O) : Nat → Kw → List (Line X) → St σ O → Option (End X × St σ O)
  | 0, _, _, _ => none
  | _ + 1, _, [], st => some (none, st)
  | n + 1, begin, .plain x :: ls, st => block w n begin ls (w.act x st)
  | n + 1, begin, .mark k x :: ls, st =>
    if k.ends then
      if nextOk begin k then some (some (k, x, ls), st)
      else block w n begin ls (w.error (nextErr begin k) x st)
    else
      match blockOpen w n k x ls st with
      | none => none
      | some (ls', st) => block w n begin ls' st

/-- The functions `parse_block`, macro/parser.c:2310-2368, calls for the directives that open a
block. -/
def blockOpen (w : World σ X O) : Nat → Kw → X → List (Line X) → St σ O → Option (List (Line X) × St σ O)
  | 0, _, _, _, _ => none
  | n + 1, .ifk, x, ls, st =>
    match elifs w n x ls st with
    | none => none
    | some (e, st) => some (finish w x e st)
  | n + 1, .whil, x, ls, st =>
    if (w.cond x st).1 = 0 then whileSkip w n x ls (w.cond x st).2
    else
      loop w n 0 (w.cond x st).2.err x ls
        { (w.cond x st).2 with err := w.quiet && (w.cond x st).2.err }
  | n + 1, .macro, x, ls, st => parseMacro w n x ls st
  | n + 1, .ifdef, x, ls, st => ifdefs w n .ifdef true x ls st
  | n + 1, .ifndef, x, ls, st => ifdefs w n .ifndef false x ls st
  | _ + 1, _, _, ls, st => some (ls, st)

/-- `parse_ifdef_ifndef`, macro/parser.c:2214-2271; `want` tells whether the name has to be
defined. -/
def ifdefs (w : World σ X O) : Nat → Kw → Bool → X → List (Line X) → St σ O →
    Option (List (Line X) × St σ O)
  | 0, _, _, _, _, _ => none
  | n + 1, k, want, x, ls, st =>
    match ifdefHead w n k want x ls st with
    | none => none
    | some (e, st) =>
      match drain w n e st with
      | none => none
      | some (e, st) => some (finish w x e st)

/-- The first half of `parse_ifdef_ifndef`, macro/parser.c:2214-2271. -/
def ifdefHead (w : World σ X O) : Nat → Kw → Bool → X → List (Line X) → St σ O → Option (End X × St σ O)
  | 0, _, _, _, _, _ => none
  | n + 1, k, want, x, ls, st =>
    if (w.name x st).1 = none then some (some (k, x, ls), (w.name x st).2)
    else if (w.name x st).1 = some want then block w n k ls (w.name x st).2
    else
      match skip w false n (w.name x st).2.err k ls (w.name x st).2 with
      | none => none
      | some (some (.elif, x', ls'), st) => elifs w n x' ls' st
      | some (some (.els, _, ls'), st) => block w n .els ls' st
      | some (e, st) => some (e, st)

/-- `parse_elif`, macro/parser.c:2141-2182. -/
def elifs (w : World σ X O) : Nat → X → List (Line X) → St σ O → Option (End X × St σ O)
  | 0, _, _, _ => none
  | n + 1, x, ls, st =>
    if (w.cond x st).1 ≠ 0 then
      match block w n .elif ls (w.cond x st).2 with
      | none => none
      | some (e, st) => drain w n e st
    else
      match skip w false n (w.cond x st).2.err .elif ls (w.cond x st).2 with
      | none => none
      | some (some (.elif, x', ls'), st) => elifs w n x' ls' st
      | some (some (.els, _, ls'), st) => block w n .els ls' st
      | some (e, st) => some (e, st)

/-- The loop of `parse_while`, macro/parser.c:2076-2132: `i` iterations are done, `was` is the error
flag before the loop. -/
def loop (w : World σ X O) : Nat → Nat → Bool → X → List (Line X) → St σ O →
    Option (List (Line X) × St σ O)
  | 0, _, _, _, _, _ => none
  | n + 1, i, was, x, ls, st =>
    match block w n .whil ls st with
    | none => none
    | some (none, st) => some ([], w.error .unterminated x st)
    | some (some (_, _, ls'), st) =>
      if i + 1 > maxIteration then some (ls', w.error .iterationMax x st)
      else if st.err then some (ls', st)
      else if (w.cond x st).1 = 0 then
        some (ls', { (w.cond x st).2 with err := (w.cond x st).2.err || was })
      else loop w n (i + 1) was x ls (w.cond x st).2
end

/-- `parser_preprocess`, macro/parser.c:2408-2430, on a whole text; the number bounds the depth of
calls. -/
def preprocess (w : World σ X O) (n : Nat) (ls : List (Line X)) (st : St σ O) : Option (St σ O) :=
  (block w n .non ls st).map Prod.snd

end RuC.Cond
