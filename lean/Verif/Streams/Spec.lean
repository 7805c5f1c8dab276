import Verif.Streams.Model

/-!
# What a stream is to its user

A stream reads from nothing, from a file, from a text or with a function, and writes to nothing, to a file, to a text or with a function.
-/

namespace RuC.Streams.Spec
open RuC RuC.Streams

/-- Where a stream reads from. -/
inductive Source
  | nothing
  | file (h : Nat) (octets : List Nat) (position : Nat)
  | text (octets : List Nat) (position : Nat)
  | func (f : Nat)
  deriving DecidableEq, Repr

/-- Where a stream writes to. -/
inductive Sink
  | nothing
  | file (h : Nat)
  | text (b : Nat) (octets : List Nat)
  | func (f : Nat)
  deriving DecidableEq, Repr

/-- All streams. -/
structure World where
  ins : List Source
  outs : List Sink
  deriving Repr

/-- `n` streams that read from nothing and write to nothing. -/
def start (n : Nat) : World := ⟨List.replicate n .nothing, List.replicate n .nothing⟩

/-- What happens when a source is given up: a file is closed. -/
def Source.leave : Source → List Event
  | .file h _ _ => [.closed h]
  | _ => []

/-- What happens when a sink is given up: a file is closed and the block of a text is freed. -/
def Sink.leave : Sink → List Event
  | .file h => [.closed h]
  | .text b _ => [.freed b]
  | _ => []

/-- The function of the user, if it is one. -/
def Source.ofFunc : Option Nat → Source
  | none => .nothing
  | some f => .func f

/-- The function of the user, if it is one. -/
def Sink.ofFunc : Option Nat → Sink
  | none => .nothing
  | some f => .func f

/-- The place of the next octet. -/
def Source.position : Source → Nat
  | .file _ _ p => p
  | .text _ p => p
  | _ => 0

/-- Moving to a place that is in the source or right behind it. -/
def Source.seek (p : Nat) : Source → Int × Source
  | .file h o q => if p ≤ o.length then (0, .file h o p) else (-1, .file h o q)
  | .text o q => if p ≤ o.length then (0, .text o p) else (-1, .text o q)
  | s => (-1, s)

/-- Closing a file. -/
def Source.close (ok : Bool) : Source → Int × Source × List Event
  | .file h _ _ => (if ok then 0 else -1, .nothing, [.closed h])
  | s => (-1, s, [])

/-- Closing a file. -/
def Sink.close (ok : Bool) : Sink → Int × Sink × List Event
  | .file h => (if ok then 0 else -1, .nothing, [.closed h])
  | s => (-1, s, [])

/-- Which kind of source it is. -/
def Source.is : Source → Answer
  | .nothing => .is false false false
  | .file _ _ _ => .is true false false
  | .text _ _ => .is false true false
  | .func _ => .is false false true

/-- Which kind of sink it is. -/
def Sink.is : Sink → Answer
  | .nothing => .is false false false
  | .file _ => .is true false false
  | .text _ _ => .is false true false
  | .func _ => .is false false true

/-- The next place, if there is an octet. -/
def next (p : Nat) : Option Nat → Nat
  | none => p
  | some _ => p + 1

/-- Reading one octet. -/
def Source.scan : Source → Option Nat × Source × List Event
  | .nothing => (none, .nothing, [])
  | .file h o p => (o[p]?, .file h o (next p o[p]?), [.read h])
  | .text o p => (o[p]?, .text o (next p o[p]?), [])
  | .func f => (none, .func f, [.calledIn f])

/-- Taking the text out. -/
def Sink.extract : Sink → Answer × Sink × List Event
  | .text b o => (.text (some (b, o)), .nothing, [.gave b])
  | s => (.text none, s, [])

/-- A block is moved several times; the last block and the events. -/
def moves : Nat → List Nat → Nat × List Event
  | b, [] => (b, [])
  | b, b' :: rest => ((moves b' rest).1, .moved b b' :: (moves b' rest).2)

/-- Writing a text: all of it goes to the sink; or, when the allocator has granted all it grants, or no block can be large enough, none of it goes to a
text. -/
inductive Print (text : List Nat) (grants : List Nat) : Sink → Int → Sink → List Event → Prop
  | nothing : Print text grants .nothing (-1) .nothing []
  | file (h : Nat) : Print text grants (.file h) text.length (.file h) [.wrote h text]
  | func (f : Nat) : Print text grants (.func f) 0 (.func f) [.calledOut f text]
  | text (b : Nat) (o bs : List Nat) (hb : bs <+: grants) :
      Print text grants (.text b o) text.length (.text (moves b bs).1 (o ++ text)) (moves b bs).2
  | refused (b : Nat) (o bs : List Nat) (hb : bs <+: grants) (hr : bs = grants ∨ 4611686018427387904 ≤ o.length + text.length) :
      Print text grants (.text b o) (-1) (.text (moves b bs).1 o) (moves b bs).2

/-- A call answers `a`, leads from source `s` to source `s'` and makes the events `es`. -/
def InCall : Op → Source → Answer → Source → List Event → Prop
  | .inSetFile _ h (some o), s, a, s', es => a = .status 0 ∧ s' = .file h o 0 ∧ es = s.leave ++ [.opened h]
  | .inSetFile _ _ none, s, a, s', es => a = .status (-1) ∧ s' = .nothing ∧ es = s.leave
  | .inSetBuffer _ text, s, a, s', es => a = .status 0 ∧ s' = .text text 0 ∧ es = s.leave
  | .inSetFunc _ f, s, a, s', es => a = .status 0 ∧ s' = .ofFunc f ∧ es = s.leave
  | .inSetPosition _ p, s, a, s', es => a = .status (s.seek p).1 ∧ s' = (s.seek p).2 ∧ es = []
  | .inClose _ ok, s, a, s', es => a = .status (s.close ok).1 ∧ s' = (s.close ok).2.1 ∧ es = (s.close ok).2.2
  | .inClear _, s, a, s', es => a = .status 0 ∧ s' = .nothing ∧ es = s.leave
  | .inGetPosition _, s, a, s', es => a = .number s.position ∧ s' = s ∧ es = []
  | .inIs _, s, a, s', es => a = s.is ∧ s' = s ∧ es = []
  | .scan _, s, a, s', es => a = .octet s.scan.1 ∧ s' = s.scan.2.1 ∧ es = s.scan.2.2
  | _, _, _, _, _ => False

/-- A call answers `a`, leads from sink `s` to sink `s'` and makes the events `es`. -/
def OutCall : Op → Sink → Answer → Sink → List Event → Prop
  | .outSetFile _ h true, s, a, s', es => a = .status 0 ∧ s' = .file h ∧ es = s.leave ++ [.opened h]
  | .outSetFile _ _ false, s, a, s', es => a = .status (-1) ∧ s' = .nothing ∧ es = s.leave
  | .outSetBuffer _ b size ok, s, a, s', es =>
    if ok ∧ size < maxBlock then a = .status 0 ∧ s' = .text b [] ∧ es = s.leave ++ [.allocated b]
    else a = .status (-1) ∧ s' = .nothing ∧ es = s.leave
  | .outSetFunc _ f, s, a, s', es => a = .status 0 ∧ s' = .ofFunc f ∧ es = s.leave
  | .outExtract _, s, a, s', es => a = s.extract.1 ∧ s' = s.extract.2.1 ∧ es = s.extract.2.2
  | .outClose _ ok, s, a, s', es => a = .status (s.close ok).1 ∧ s' = (s.close ok).2.1 ∧ es = (s.close ok).2.2
  | .outClear _, s, a, s', es => a = .status 0 ∧ s' = .nothing ∧ es = s.leave
  | .outIs _, s, a, s', es => a = s.is ∧ s' = s ∧ es = []
  | .print _ text grants, s, a, s', es => ∃ n, a = .status n ∧ Print text grants s n s' es
  | _, _, _, _, _ => False

/-- The stream whose source a call is about. -/
def inOf : Op → Option (Option Nat)
  | .inSetFile i _ _ | .inSetBuffer i _ | .inSetFunc i _ | .inSetPosition i _ | .inClose i _ | .inClear i | .inGetPosition i | .inIs i | .scan i => some i
  | _ => none

/-- The stream whose sink a call is about. -/
def outOf : Op → Option (Option Nat)
  | .outSetFile i _ _ | .outSetBuffer i _ _ _ | .outSetFunc i _ | .outExtract i | .outClose i _ | .outClear i | .outIs i | .print i _ _ => some i
  | _ => none

/-- What a call answers for a stream that is `NULL`. -/
def nullAnswer : Op → Answer
  | .inGetPosition _ => .number 0
  | .inIs _ | .outIs _ => .is false false false
  | .scan _ => .octet none
  | .outExtract _ => .text none
  | _ => .status (-1)

/-- The streams of a call. -/
def streams : Op → List (Option Nat)
  | .inSwap i j | .outSwap i j => [i, j]
  | .erase i => [i]
  | op => (inOf op).toList ++ (outOf op).toList

/-- A call leads from one world to another: a call for a source changes that source only, a call for a sink that sink only, a swap exchanges two of them,
and `io_erase` leaves both. -/
inductive Step : World → Op → Answer → World → List Event → Prop
  | null {w op} (h : none ∈ streams op) : Step w op (nullAnswer op) w []
  | input {w op k s a s' es} (hk : inOf op = some (some k)) (hs : w.ins[k]? = some s) (h : InCall op s a s' es) :
      Step w op a { w with ins := w.ins.set k s' } es
  | output {w op k s a s' es} (hk : outOf op = some (some k)) (hs : w.outs[k]? = some s) (h : OutCall op s a s' es) :
      Step w op a { w with outs := w.outs.set k s' } es
  | inSwap {w i j s t} (hi : w.ins[i]? = some s) (hj : w.ins[j]? = some t) :
      Step w (.inSwap (some i) (some j)) (.status 0) { w with ins := (w.ins.set i t).set j s } []
  | outSwap {w i j s t} (hi : w.outs[i]? = some s) (hj : w.outs[j]? = some t) :
      Step w (.outSwap (some i) (some j)) (.status 0) { w with outs := (w.outs.set i t).set j s } []
  | erase {w k s t} (hi : w.ins[k]? = some s) (hj : w.outs[k]? = some t) :
      Step w (.erase (some k)) (.status 0) ⟨w.ins.set k .nothing, w.outs.set k .nothing⟩ (s.leave ++ t.leave)

/-- Several calls. -/
inductive Run : World → List Op → List Answer → World → List Event → Prop
  | nil {w} : Run w [] [] w []
  | cons {w op a w' es ops as w'' es'} (h : Step w op a w' es) (t : Run w' ops as w'' es') : Run w (op :: ops) (a :: as) w'' (es ++ es')

/-- A call that a program with `n` streams may make: the streams are there, a file is not larger than files are, and a buffer is not asked to be so large
that its size with the terminating zero wraps. -/
def Admissible (n : Nat) (op : Op) : Prop :=
  (∀ k, some k ∈ streams op → k < n) ∧
  match op with
  | .inSetFile _ _ (some o) => o.length < 9223372036854775808
  | .outSetBuffer _ _ size _ => size < 18446744073709551615
  | _ => True

/-! ## Files and blocks -/

/-- The open files after an event; `none` if a file is opened twice, or one that is not open is used or closed. -/
def fileEvent (live : List Nat) : Event → Option (List Nat)
  | .opened h => if h ∈ live then none else some (h :: live)
  | .closed h => if h ∈ live then some (live.erase h) else none
  | .wrote h _ | .read h => if h ∈ live then some live else none
  | _ => some live

/-- The blocks after an event; `none` if a block is given twice by the allocator, or one that is not allocated, or that belongs to the user, is moved,
freed or given to the user. -/
def blockEvent (live : List Nat) : Event → Option (List Nat)
  | .allocated b => if b ∈ live then none else some (b :: live)
  | .freed b | .gave b => if b ∈ live then some (live.erase b) else none
  | .moved b b' => if b ∈ live then if b' ∈ live.erase b then none else some (b' :: live.erase b) else none
  | _ => some live

/-- The open files after several events. -/
def files (live : List Nat) (es : List Event) : Option (List Nat) := es.foldlM fileEvent live

/-- The blocks after several events. -/
def blocks (live : List Nat) (es : List Event) : Option (List Nat) := es.foldlM blockEvent live

/-- The file a call may open. -/
def newFiles : Op → List Nat
  | .inSetFile _ h _ | .outSetFile _ h _ => [h]
  | _ => []

/-- The blocks a call may allocate. -/
def newBlocks : Op → List Nat
  | .outSetBuffer _ b _ _ => [b]
  | .print _ _ grants => grants
  | _ => []

/-- The file of a source. -/
def Source.held : Source → List Nat
  | .file h _ _ => [h]
  | _ => []

/-- The file of a sink. -/
def Sink.held : Sink → List Nat
  | .file h => [h]
  | _ => []

/-- The block of a sink. -/
def Sink.block : Sink → List Nat
  | .text b _ => [b]
  | _ => []

/-- All files the streams have. -/
def World.held (w : World) : List Nat := w.ins.flatMap Source.held ++ w.outs.flatMap Sink.held

/-- All blocks the streams have. -/
def World.blocks (w : World) : List Nat := w.outs.flatMap Sink.block

end RuC.Streams.Spec
