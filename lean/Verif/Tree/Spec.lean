import Verif.Tree.Model

/-!
# What a tree is supposed to be

An ordered tree with named nodes: every node has a list of children, a type and a list of arguments.
The names are the handles the calls answer; the root is named 0.
-/

namespace RuC.Tree
open RuC

/-- An ordered, labelled graph; `last` is the node made most recently. -/
structure T where
  kids : Nat → List Nat
  type : Nat → Int
  args : Nat → List Int
  last : Nat

/-- `Forest K ns out`: following the children lists `K` below the nodes `ns` gives finite trees, and
`out` is the list of their nodes in depth-first preorder. -/
inductive Forest (K : Nat → List Nat) : List Nat → List Nat → Prop
  | nil : Forest K [] []
  | cons {n ns o1 o2} (h1 : Forest K (K n) o1) (h2 : Forest K ns o2) : Forest K (n :: ns) (n :: (o1 ++ o2))

/-- `S` is a tree with the nodes `out` in preorder: below the root there are finite trees and no
node occurs twice. -/
def IsTree (S : T) (out : List Nat) : Prop := Forest S.kids [0] out ∧ out.Nodup

/-- `n` is a node of the tree. -/
def Live (S : T) (n : Nat) : Prop := ∃ out, Forest S.kids [0] out ∧ n ∈ out

/-- `y` is `x` or below `x`. -/
def Below (S : T) (x y : Nat) : Prop := ∃ out, Forest S.kids [x] out ∧ y ∈ out

/-- Change one value of a function. -/
def upd {α : Type} (f : Nat → α) (n : Nat) (x : α) : Nat → α := fun m => if m = n then x else f m

/-- Exchange two names. -/
def exchange (x y c : Nat) : Nat := if c = x then y else if c = y then x else c

/-- The meaning of one call. -/
inductive TStep : T → Op → Res → T → Prop
  /-- A new leaf becomes the last child. -/
  | addChild {S nd type n} (hl : Live S nd) (hn : ¬ Live S n) :
      TStep S (.addChild nd type) (.node (some n))
        { kids := upd (upd S.kids nd (S.kids nd ++ [n])) n []
          type := upd S.type n type
          args := upd S.args n []
          last := n }
  /-- Arguments can be given to a leaf. -/
  | addArg {S nd arg} (hk : S.kids nd = []) :
      TStep S (.addArg nd arg) (.code 0) { S with args := upd S.args nd (S.args nd ++ [arg]) }
  | addArgBusy {S nd arg} (hk : S.kids nd ≠ []) : TStep S (.addArg nd arg) (.code (-2)) S
  | setArg {S nd i arg} (h : i < (S.args nd).length) :
      TStep S (.setArg nd i arg) (.code 0) { S with args := upd S.args nd ((S.args nd).set i arg) }
  | setArgOut {S nd i arg} (h : (S.args nd).length ≤ i) : TStep S (.setArg nd i arg) (.code (-1)) S
  | setType {S nd type} (h : nd ≠ 0) :
      TStep S (.setType nd type) (.code 0) { S with type := upd S.type nd type }
  | setTypeRoot {S type} : TStep S (.setType 0 type) (.code (-2)) S
  /-- A new node takes the place of `nd`, which becomes its only child. -/
  | insert {S nd type argc n} (h : nd ≠ 0) (hn : ¬ Live S n) :
      TStep S (.insert nd type argc) (.node (some n))
        { kids := upd (fun m => (S.kids m).map fun c => if c = nd then n else c) n [nd]
          type := upd S.type n type
          args := upd S.args n (List.replicate argc 0)
          last := n }
  | insertRoot {S type argc} : TStep S (.insert 0 type argc) (.node none) S
  /-- The two subtrees change places. -/
  | swap {S x y} (hx : x ≠ 0) (hy : y ≠ 0) :
      TStep S (.swap x y) (.code 0) { S with kids := fun m => (S.kids m).map (exchange x y) }
  | swapRoot {S x y} (h : x = 0 ∨ y = 0) : TStep S (.swap x y) (.code (-1)) S
  /-- The subtree is cut off. -/
  | remove {S nd} (h : nd ≠ 0) :
      TStep S (.remove nd) (.code 0) { S with kids := fun m => (S.kids m).filter (· ≠ nd) }
  | removeRoot {S} : TStep S (.remove 0) (.code (-1)) S
  | getChild {S nd i} : TStep S (.getChild nd i) (.node (S.kids nd)[i]?) S
  | getParent {S nd p} (hl : Live S p) (h : nd ∈ S.kids p) : TStep S (.getParent nd) (.node (some p)) S
  | getParentRoot {S} : TStep S (.getParent 0) (.node none) S
  | getType {S nd} (h : nd ≠ 0) : TStep S (.getType nd) (.item (S.type nd)) S
  | getTypeRoot {S} : TStep S (.getType 0) (.item ITEM_MAX) S
  | getAmount {S nd} : TStep S (.getAmount nd) (.size (S.kids nd).length) S
  | getArgc {S nd} : TStep S (.getArgc nd) (.size (S.args nd).length) S
  | getArg {S nd i} : TStep S (.getArg nd i) (.item ((S.args nd)[i]?.getD ITEM_MAX)) S
  /-- The next node in preorder. -/
  | getNext {S nd before after} (h : Forest S.kids [0] (before ++ nd :: after)) :
      TStep S (.getNext nd) (.node after.head?) S
  | load {S nd} : TStep S (.load nd) (.node (some nd)) S

/-- What a caller must respect: handles are nodes of the tree, arguments are only added to the
node made last (see `tree_add_arg_misplaced`), exchanged nodes are not below one another
(see `tree_swap_ancestor`), and `node_get_next` is not asked of a childless root
(see `tree_next_of_empty_root`). -/
def Op.Valid (S : T) : Op → Prop
  | .addArg nd _ => Live S nd ∧ (S.kids nd = [] → nd = S.last)
  | .swap x y => Live S x ∧ Live S y ∧ (x = y ∨ x = 0 ∨ y = 0 ∨ (¬ Below S x y ∧ ¬ Below S y x))
  | .getNext nd => Live S nd ∧ S.kids 0 ≠ []
  | .addChild nd _ | .setArg nd _ _ | .setType nd _ | .insert nd _ _ | .remove nd | .getChild nd _
  | .getParent nd | .getType nd | .getAmount nd | .getArgc nd | .getArg nd _ | .load nd => Live S nd

/-- Cells a call may need. -/
def Op.cost : Op → Nat
  | .addChild .. => 5
  | .addArg .. => 1
  | .insert _ _ argc => 5 + argc
  | _ => 0

/-- The tree consisting of a root. -/
def root : T := { kids := fun _ => [], type := fun _ => 0, args := fun _ => [], last := 0 }

/-- The stored vectors that calls made as required can produce from a new tree, with what they
mean and how many cells were asked for.  The handles a caller passes may depend on earlier answers. -/
inductive Session : Nat → List Int → T → Prop
  | new {v} (h : nodeGetRoot [] = (some 0, v)) : Session 3 v root
  | call {c v S op r v' S'} (s : Session c v S) (hv : op.Valid S) (h : step v op = some (r, v'))
      (t : TStep S op r S') : Session (c + op.cost) v' S'

end RuC.Tree
