import Verif.Cond.Model

/-!
# What block directives are supposed to mean

Properly nested text as a tree, the text it is written as, and its meaning: of a conditional the first
branch whose condition holds, of a loop its body as long as the condition holds.
-/

namespace RuC.Cond

/-- The ways to begin a conditional. -/
inductive Guard
  | ifk | ifdef | ifndef
deriving Repr, DecidableEq

mutual
/-- Properly nested text.  Each directive line carries the text behind its keyword. -/
inductive Prog (X : Type)
  | nil
  | plain (x : X) (rest : Prog X)
  | cond (g : Guard) (x : X) (body : Prog X) (tail : Tail X) (rest : Prog X)
  | loop (x : X) (body : Prog X) (e : X) (rest : Prog X)
  | define (x : X) (body : Prog X) (e : X) (rest : Prog X)
/-- What follows a branch. -/
inductive Tail (X : Type)
  | fin (e : X)
  | els (x : X) (body : Prog X) (e : X)
  | elif (x : X) (body : Prog X) (tail : Tail X)
end

variable {σ X O : Type}

/-- The keyword of a beginning. -/
def Guard.kw : Guard → Kw
  | .ifk => .ifk
  | .ifdef => .ifdef
  | .ifndef => .ifndef

mutual
/-- The lines of a tree. -/
def Prog.lines : Prog X → List (Line X)
  | .nil => []
  | .plain x rest => .plain x :: rest.lines
  | .cond g x body tail rest => .mark g.kw x :: (body.lines ++ (tail.lines ++ rest.lines))
  | .loop x body e rest => .mark .whil x :: (body.lines ++ (.mark .endw e :: rest.lines))
  | .define x body e rest => .mark .macro x :: (body.lines ++ (.mark .endm e :: rest.lines))
def Tail.lines : Tail X → List (Line X)
  | .fin e => [.mark .endif e]
  | .els x body e => .mark .els x :: (body.lines ++ [.mark .endif e])
  | .elif x body tail => .mark .elif x :: (body.lines ++ tail.lines)
end

/-- Does the condition of a branch hold?  `none`: the directive has no name. -/
def Guard.holds (w : World σ X O) : Guard → X → St σ O → Option Bool × St σ O
  | .ifk, x, st => (some (decide ((w.cond x st).1 ≠ 0)), (w.cond x st).2)
  | .ifdef, x, st => w.name x st
  | .ifndef, x, st => ((w.name x st).1.map (! ·), (w.name x st).2)

/-- Repeat a body: `n` more times at most, then with a message.  An error in the body ends the loop. -/
def repeats (w : World σ X O) (x : X) (body : St σ O → St σ O) : Nat → St σ O → St σ O
  | 0, st => w.error .iterationMax x (body st)
  | n + 1, st =>
    if (body st).err then body st
    else if (w.cond x (body st)).1 = 0 then (w.cond x (body st)).2
    else repeats w x body n (w.cond x (body st)).2

/-- A loop.  Errors before the loop are forgotten inside it, unless recovery is disabled. -/
def whiles (w : World σ X O) (x : X) (body : St σ O → St σ O) (limit : Nat) (st : St σ O) : St σ O :=
  if (w.cond x st).1 = 0 then (w.cond x st).2
  else
    let s := repeats w x body limit { (w.cond x st).2 with err := w.quiet && (w.cond x st).2.err }
    { s with err := s.err || (w.cond x st).2.err }

mutual
/-- The meaning of a tree. -/
def Prog.meaning (w : World σ X O) : Prog X → St σ O → St σ O
  | .nil, st => st
  | .plain x rest, st => rest.meaning w (w.act x st)
  | .cond g x body tail rest, st =>
    rest.meaning w
      (if (g.holds w x st).1 = some true then body.meaning w (g.holds w x st).2
        else if (g.holds w x st).1 = some false then tail.meaning w (g.holds w x st).2
        else (g.holds w x st).2)
  | .loop x body _ rest, st => rest.meaning w (whiles w x (body.meaning w) maxIteration st)
  | .define x body _ rest, st => rest.meaning w (w.defMacro x body.lines (w.macroHead x st).2)
def Tail.meaning (w : World σ X O) : Tail X → St σ O → St σ O
  | .fin _, st => st
  | .els _ body _, st => body.meaning w st
  | .elif x body tail, st =>
    if (w.cond x st).1 ≠ 0 then body.meaning w (w.cond x st).2 else tail.meaning w (w.cond x st).2
end

/-- The body has run `n` times without an error, and each time the condition was not zero
afterwards. -/
inductive Rounds (w : World σ X O) (x : X) (body : St σ O → St σ O) : Nat → St σ O → St σ O → Prop
  | zero (s) : Rounds w x body 0 s s
  | succ {n s t} (h : Rounds w x body n s t) (he : (body t).err = false) (hc : (w.cond x (body t)).1 ≠ 0) :
      Rounds w x body (n + 1) s (w.cond x (body t)).2

/-- The messages about the nesting of blocks written so far. -/
def told (m : O → Bool) (st : St σ O) : Nat := (st.out.filter m).length

/-- `m` picks the messages about nesting: they are reported only by the functions on blocks. -/
structure Fair (w : World σ X O) (m : O → Bool) : Prop where
  loud : w.quiet = false
  rep : ∀ k x, m (w.report k x) = decide (k ≠ .iterationMax)
  act : ∀ x st, told m (w.act x st) = told m st
  cond : ∀ x st, told m (w.cond x st).2 = told m st
  name : ∀ x st, told m (w.name x st).2 = told m st
  head : ∀ x st, told m (w.macroHead x st).2 = told m st
  defs : ∀ x ls st, told m (w.defMacro x ls st) = told m st

/-- No line pretends to be a directive. -/
def Sound (ls : List (Line X)) : Prop := ∀ x, Line.mark .non x ∉ ls

/-- `m` picks the messages about blocks without an end and about endless loops, and perhaps others that
single lines report; these set the error flag if they report one, and do not clear it. -/
structure Sticky (w : World σ X O) (m : O → Bool) : Prop where
  rep : ∀ k x, m (w.report k x) = decide (k = .unterminated ∨ k = .iterationMax)
  act : ∀ x st, ((w.act x st).err = false → told m (w.act x st) = told m st) ∧ (st.err = true → (w.act x st).err = true)
  cond : ∀ x st, ((w.cond x st).2.err = false → told m (w.cond x st).2 = told m st) ∧
    (st.err = true → (w.cond x st).2.err = true)
  name : ∀ x st, ((w.name x st).2.err = false → told m (w.name x st).2 = told m st) ∧
    (st.err = true → (w.name x st).2.err = true)
  head : ∀ x st, ((w.macroHead x st).2.err = false → told m (w.macroHead x st).2 = told m st) ∧
    (st.err = true → (w.macroHead x st).2.err = true)
  defs : ∀ x ls st, ((w.defMacro x ls st).err = false → told m (w.defMacro x ls st) = told m st) ∧
    (st.err = true → (w.defMacro x ls st).err = true)

end RuC.Cond
