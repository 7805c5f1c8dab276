import Verif.Linker.Model

/-!
# What includes are supposed to mean
-/

namespace RuC.Linker
open RuC RuC.Workspace RuC.Cond

/-- `d` is the directory part of a path: what stands up to the last `/`. -/
def IsDir (path d : List Nat) : Prop := ∃ b, path = d ++ b ∧ 47 ∉ b ∧ (d = [] ∨ ∃ u, d = u ++ [47])

/-- How the name behind `#include` is read: a doubled backslash is a separator, a backslash with a line
break is nothing, other characters stand for themselves. -/
inductive Reads : List Nat → List Nat → Prop
  | nil : Reads [] []
  | char {c name text} : c ≠ 92 → c ≠ 10 → Reads name text → Reads (c :: name) (c :: text)
  | sep {name text} : name.head? ≠ some 92 → Reads name text → Reads (92 :: 92 :: name) (47 :: text)
  | joined {name text} : Reads name text → Reads (92 :: 10 :: name) text

/-- The paths that are tried, in order: a name in quotes beside the file that was opened last, then in
the directories; a name in angle brackets in the directories first. -/
def tries (lk : Link) : Inc → List (Option (List Nat))
  | .malformed => []
  | .quoted name =>
    makePath name (wsGetFile lk.ws lk.current) true :: lk.ws.dirs.map fun d => makePath name (some d) false
  | .angle name =>
    lk.ws.dirs.map (fun d => makePath name (some d) false) ++ [makePath name (wsGetFile lk.ws lk.current) true]

/-- What was opened in a run: every header at most once, and not if it had been opened as a source
before; the sources once, in order; nesting is bounded; different numbers are different paths. -/
structure Orderly (ws : Ws) (lk : Link) : Prop where
  headers : ∀ i, (lk.log.filter fun o => o.header && o.index == i).length ≤ 1
  first : ∀ a b c o p, lk.log = a ++ o :: b ++ p :: c → o.index = p.index → p.header = false
  sources : ((lk.log.filter fun o => !o.header).map (·.index)).Pairwise (· < ·)
  given : ∀ o ∈ lk.log, o.header = false → o.index < ws.files.length ∧ o.level = 0
  levels : ∀ o ∈ lk.log, o.header = true → 1 ≤ o.level ∧ o.level ≤ 32
  known : ∀ o ∈ lk.log, o.index < lk.ws.files.length
  distinct : lk.ws.files.Nodup
  kept : ws.files <+: lk.ws.files

end RuC.Linker
