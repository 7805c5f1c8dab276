import Verif.Hash.Model

/-!
# Model of `libs/utils/tree.c`

A tree is a vector of cells; the vector calls are modelled by their sequence meaning (C01), with
every allocation granted.  A node handle is an index; the handle of `node_broken` is `none`.
Loops over links take fuel; running out of fuel (`none`) stands for a loop that does not end.
Both handles of `node_order` and `node_swap` are in the same tree.  The accessors for doubles and
64-bit values are not modelled: one such value takes one cell, see C16.
-/

namespace RuC.Tree
open RuC Hash

/-- `is_negative`, tree.c:20-23. -/
def isNegative (x : Int) : Bool := decide (x < 0)

/-- `to_negative`, tree.c:25-28. -/
def toNegative (n : Nat) : Int := wrapI64 (-(toItem n))

/-- `from_negative`, tree.c:30-33. -/
def fromNegative (x : Int) : Nat := toSize (wrapI64 (-x))

/-- `vector_swap`, tree.c:36-41. -/
def vswap (v : List Int) (i j : Nat) : List Int :=
  let t := vget v i
  vset (vset v i (vget v j)) j t

/-- `ref_get_next`, tree.c:44-47. -/
def refNext (nd : Nat) : Nat := usub nd 2

/-- `ref_get_children`, tree.c:54-57. -/
def refChildren (nd : Nat) : Nat := usz (nd + 1)

/-- `ref_get_argc`, tree.c:59-62. -/
def refArgc (nd : Nat) : Nat := usz (nd + 2)

/-- `node_is_correct`, tree.c:526-529, for a handle into a correct vector. -/
def isCorrect (nd : Nat) : Bool := nd ≠ SIZE_MAX

/-- `node_get_amount`, tree.c:191-194. -/
def nodeGetAmount (v : List Int) (nd : Nat) : Nat := if isCorrect nd then toSize (vget v nd) else 0

/-- The loop of `node_search_parent`, tree.c:93-115: the last link and the child number. -/
def parentLoop (v : List Int) : Nat → Int → Nat → Option (Int × Nat)
  | 0, _, _ => none
  | fuel + 1, index, number =>
    if ¬ isNegative index ∧ index ≠ 0 then
      parentLoop v fuel (vget v (usub (toSize index) 2)) (usz (number + 1))
    else some (index, number)

/-- `node_search_parent`, tree.c:93-115: the parent (inner `none`: broken) and the child number. -/
def searchParent (v : List Int) (nd : Nat) : Option (Option (Nat × Nat)) :=
  if ¬ isCorrect nd ∨ nd = 0 then some none
  else
    match parentLoop v (v.length + 1) (vget v (refNext nd)) 1 with
    | none => none
    | some (index, number) =>
      let parent := fromNegative index
      some (some (parent, usub (nodeGetAmount v parent) number))

/-- `node_get_root`, tree.c:127-141: the handle and the vector afterwards. -/
def nodeGetRoot (v : List Int) : Option Nat × List Int :=
  if v.length = 0 then (some 0, vinc v 3)
  else if v.length < 3 ∨ vget v 2 < 0 then (none, v)
  else (some 0, v)

/-- The loop of `node_get_child`, tree.c:143-158. -/
def childLoop (v : List Int) : Nat → Nat → Nat
  | 0, c => c
  | i + 1, c => childLoop v i (toSize (vget v (usub c 2)))

/-- `node_get_child`, tree.c:143-158. -/
def nodeGetChild (v : List Int) (nd index : Nat) : Option Nat :=
  if ¬ isCorrect nd ∨ index ≥ nodeGetAmount v nd then none
  else some (childLoop v index (toSize (vget v (refChildren nd))))

/-- `node_get_parent`, tree.c:160-163. -/
def nodeGetParent (v : List Int) (nd : Nat) : Option (Option Nat) :=
  (searchParent v nd).map fun r => r.map Prod.fst

/-- `node_get_type`, tree.c:166-169. -/
def nodeGetType (v : List Int) (nd : Nat) : Int :=
  if isCorrect nd ∧ nd ≠ 0 then vget v (usub nd 1) else ITEM_MAX

/-- `node_get_argc`, tree.c:171-174. -/
def nodeGetArgc (v : List Int) (nd : Nat) : Nat := if isCorrect nd then toSize (vget v (refArgc nd)) else 0

/-- `node_get_arg`, tree.c:176-179. -/
def nodeGetArg (v : List Int) (nd index : Nat) : Int :=
  if index < nodeGetArgc v nd then vget v (usz (refArgc nd + 1 + index)) else ITEM_MAX

/-- The loop of `node_get_next`, tree.c:197-219. -/
def nextLoop (v : List Int) : Nat → Int → Option Int
  | 0, _ => none
  | fuel + 1, index =>
    if isNegative index then nextLoop v fuel (vget v (usub (fromNegative index) 2)) else some index

/-- `node_get_next`, tree.c:197-219 (inner `none`: broken). -/
def nodeGetNext (v : List Int) (nd : Nat) : Option (Option Nat) :=
  if ¬ isCorrect nd then some none
  else if nodeGetAmount v nd = 0 then
    match nextLoop v (v.length + 1) (vget v (refNext nd)) with
    | none => none
    | some index => some (if toSize index ≠ 0 then some (toSize index) else none)
  else
    let next := toSize (vget v (refChildren nd))
    some (if next ≠ 0 then some next else none)

/-- A walk `while (node_set_next(&nd) == 0)`, tree.c:221-231, from `nd`: the nodes visited after it. -/
def walk (v : List Int) : Nat → Nat → Option (List Nat)
  | 0, _ => none
  | fuel + 1, nd =>
    match nodeGetNext v nd with
    | none => none
    | some none => some []
    | some (some next) => if isCorrect next then (walk v fuel next).map (next :: ·) else some []

/-- `node_add_child`, tree.c:234-260. -/
def nodeAddChild (v : List Int) (nd : Nat) (type : Int) : Option Nat × List Int :=
  if ¬ isCorrect nd then (none, v)
  else
    let v := v ++ [toNegative nd]
    let v := v ++ [type]
    let child := v.length
    let v := v ++ [0]
    let v := vinc v 2
    let amount := nodeGetAmount v nd
    let v := vset v nd (toItem (usz (amount + 1)))
    if amount = 0 then (some child, vset v (refChildren nd) (toItem child))
    else
      match nodeGetChild v nd (usub amount 1) with
      | some prev => (some child, vset v (refNext prev) (toItem child))
      | none => (some child, v)

/-- `node_set_type`, tree.c:262-275. -/
def nodeSetType (v : List Int) (nd : Nat) (type : Int) : Int × List Int :=
  if ¬ isCorrect nd then (-1, v)
  else if nd = 0 then (-2, v)
  else (vsetCode v (usub nd 1), vset v (usub nd 1) type)

/-- `node_add_arg`, tree.c:277-293. -/
def nodeAddArg (v : List Int) (nd : Nat) (arg : Int) : Int × List Int :=
  if ¬ isCorrect nd then (-1, v)
  else if nodeGetAmount v nd ≠ 0 then (-2, v)
  else
    let v := v ++ [arg]
    (0, vset v (refArgc nd) (wrapI64 (toItem (nodeGetArgc v nd) + 1)))

/-- `node_set_arg`, tree.c:331-339. -/
def nodeSetArg (v : List Int) (nd index : Nat) (arg : Int) : Int × List Int :=
  if index ≥ nodeGetArgc v nd then (-1, v)
  else (vsetCode v (usz (refArgc nd + 1 + index)), vset v (usz (refArgc nd + 1 + index)) arg)

/-- `node_load`, tree.c:380-389, on a correct vector. -/
def nodeLoad (v : List Int) (index : Nat) : Option Nat :=
  if vget v (usz (index + 2)) ≥ toItem (usub (usub v.length index) 2) then none else some index

/-- `node_insert`, tree.c:391-421. -/
def nodeInsert (v : List Int) (nd : Nat) (type : Int) (argc : Nat) : Option (Option Nat × List Int) :=
  match searchParent v nd with
  | none => none
  | some none => some (none, v)
  | some (some (parent, index)) =>
    if ¬ isCorrect parent then some (none, v)
    else
      let reference := if index = 0 then refChildren parent
        else match nodeGetChild v parent (usub index 1) with
          | some prev => refNext prev
          | none => refNext SIZE_MAX
      let v := v ++ [vget v (refNext nd)]
      let v := v ++ [type]
      let child := v.length
      let v := v ++ [1]
      let v := v ++ [toItem nd]
      let v := v ++ [toItem argc]
      let v := vinc v argc
      let v := vset v reference (toItem child)
      some (some child, vset v (refNext nd) (toNegative child))

/-- The cell that refers to child number `index` of `parent`, as chosen in tree.c:450-487. -/
def refOf (v : List Int) (parent index : Nat) : Nat :=
  if index = 0 then refChildren parent
  else match nodeGetChild v parent (usub index 1) with
    | some prev => refNext prev
    | none => refNext SIZE_MAX

/-- `node_swap`, tree.c:450-487. -/
def nodeSwap (v : List Int) (fst snd : Nat) : Option (Int × List Int) :=
  match searchParent v fst with
  | none => none
  | some p =>
    match searchParent v snd with
    | none => none
    | some q =>
      match p, q with
      | some (fp, fi), some (sp, si) =>
        if ¬ isCorrect fp ∨ ¬ isCorrect sp then some (-1, v)
        else
          let v := vswap v (refOf v fp fi) (refOf v sp si)
          some (0, vswap v (refNext fst) (refNext snd))
      | _, _ => some (-1, v)

/-- `node_order`, tree.c:423-448. -/
def nodeOrder (v : List Int) (fst snd : Nat) : Option (Int × List Int) :=
  match nodeSwap v fst snd with
  | none => none
  | some (code, v) =>
    if code ≠ 0 then some (-1, v)
    else
      let v := vswap v fst snd
      let v := vswap v (refChildren fst) (refChildren snd)
      let fix (v : List Int) (nd : Nat) :=
        if nodeGetAmount v nd ≠ 0 then
          match nodeGetChild v nd (usub (nodeGetAmount v nd) 1) with
          | some child => vset v (refNext child) (toNegative nd)
          | none => v
        else v
      some (0, fix (fix v fst) snd)

/-- The end of `node_remove`, tree.c:489-524: storage at the end of the vector is given back. -/
def removeFinish (v : List Int) (nd : Nat) : List Int :=
  if nodeGetAmount v nd = 0 ∧ usz (refArgc nd + nodeGetArgc v nd) = usub v.length 1 then
    v.take (refNext nd)
  else v

/-- `node_remove`, tree.c:489-524. -/
def nodeRemove (v : List Int) (nd : Nat) : Option (Int × List Int) :=
  match searchParent v nd with
  | none => none
  | some none => some (-1, v)
  | some (some (parent, index)) =>
    if ¬ isCorrect parent then some (-1, v)
    else if index = 0 then
      let v := vset v parent (wrapI64 (toItem (nodeGetAmount v parent) - 1))
      let v := if nodeGetAmount v parent ≠ 0 then vset v (refChildren parent) (vget v (refNext nd)) else v
      some (0, removeFinish v nd)
    else
      match nodeGetChild v parent (usub index 1) with
      | none => none
      | some prev =>
        let reference := toSize (vget v (refNext prev))
        let v := vset v (refNext prev) (vget v (usub reference 2))
        let v := vset v parent (wrapI64 (toItem (nodeGetAmount v parent) - 1))
        some (0, removeFinish v reference)

/-! ## Histories -/

/-- One call. -/
inductive Op
  | addChild (nd : Nat) (type : Int)
  | addArg (nd : Nat) (arg : Int)
  | setArg (nd index : Nat) (arg : Int)
  | setType (nd : Nat) (type : Int)
  | insert (nd : Nat) (type : Int) (argc : Nat)
  | swap (fst snd : Nat)
  | remove (nd : Nat)
  | getChild (nd index : Nat)
  | getParent (nd : Nat)
  | getType (nd : Nat)
  | getAmount (nd : Nat)
  | getArgc (nd : Nat)
  | getArg (nd index : Nat)
  | getNext (nd : Nat)
  | load (index : Nat)
deriving Repr, DecidableEq

/-- What a call returned. -/
inductive Res
  | node (nd : Option Nat)
  | code (c : Int)
  | item (x : Int)
  | size (n : Nat)
deriving Repr, DecidableEq

/-- Execute one call. -/
def step (v : List Int) : Op → Option (Res × List Int)
  | .addChild nd t => let (r, v') := nodeAddChild v nd t; some (.node r, v')
  | .addArg nd a => let (r, v') := nodeAddArg v nd a; some (.code r, v')
  | .setArg nd i a => let (r, v') := nodeSetArg v nd i a; some (.code r, v')
  | .setType nd t => let (r, v') := nodeSetType v nd t; some (.code r, v')
  | .insert nd t n => (nodeInsert v nd t n).map fun (r, v') => (.node r, v')
  | .swap a b => (nodeSwap v a b).map fun (r, v') => (.code r, v')
  | .remove nd => (nodeRemove v nd).map fun (r, v') => (.code r, v')
  | .getChild nd i => some (.node (nodeGetChild v nd i), v)
  | .getParent nd => (nodeGetParent v nd).map fun r => (.node r, v)
  | .getType nd => some (.item (nodeGetType v nd), v)
  | .getAmount nd => some (.size (nodeGetAmount v nd), v)
  | .getArgc nd => some (.size (nodeGetArgc v nd), v)
  | .getArg nd i => some (.item (nodeGetArg v nd i), v)
  | .getNext nd => (nodeGetNext v nd).map fun r => (.node r, v)
  | .load i => some (.node (nodeLoad v i), v)

/-- `node_set_child`, compiler/AST.c:30-35. -/
def nodeSetChild (v : List Int) (parent child : Nat) (nop : Int) : Option (List Int) :=
  match nodeAddChild v parent nop with
  | (none, v) =>
    match nodeSwap v child SIZE_MAX with
    | none => none
    | some (_, v) => (nodeRemove v SIZE_MAX).map Prod.snd
  | (some temp, v) =>
    match nodeSwap v child temp with
    | none => none
    | some (_, v) => (nodeRemove v temp).map Prod.snd

end RuC.Tree
