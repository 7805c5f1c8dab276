import Verif.Base

/-!
# Streams: `universal_io`

The fields of `universal_io` (uniio.h:57-76) are kept in two records, one for the input and one for the output: no function of uniio.c
but `io_create` and `io_erase` touches both.  A program has several streams and names them by numbers.  Files and blocks of memory are numbered as they
are opened and allocated; what happens to them is an event.  An opened file is the octets it has, which do not change while it is open for input, and
the place of the next octet read.  A text to be read is a string without zeros.  `none` is undefined behaviour: a function pointer or a file that is
`NULL` is used.
-/

namespace RuC.Streams
open RuC

/-- What happens outside: files, blocks of memory, and functions of the user. -/
inductive Event
  | opened (h : Nat)
  | closed (h : Nat)
  | wrote (h : Nat) (text : List Nat)
  | allocated (b : Nat)
  | moved (b b' : Nat)
  | freed (b : Nat)
  | gave (b : Nat)
  | read (h : Nat)
  | calledIn (f : Nat)
  | calledOut (f : Nat) (text : List Nat)
  deriving DecidableEq, Repr

/-- What a call answers: a status, a number, an octet or none, a text with its block or none, or which of file, buffer and function a stream is. -/
inductive Answer
  | status (n : Int)
  | number (n : Nat)
  | octet (c : Option Nat)
  | text (t : Option (Nat × List Nat))
  | is (file buffer func : Bool)
  deriving DecidableEq, Repr

/-- Which function `in_func` and `out_func` are. -/
inductive Kind
  | file
  | buffer
  | user
  deriving DecidableEq, Repr

/-- `FILE` open for input. -/
structure File where
  h : Nat
  octets : List Nat
  offset : Nat
  deriving DecidableEq, Repr

/-- The fields of `universal_io` for input, uniio.h:57-76. -/
structure In where
  file : Option File
  buffer : Option (List Nat)
  size : Nat
  position : Nat
  user : Option Nat
  func : Option Kind
  deriving DecidableEq, Repr

/-- The fields of `universal_io` for output, uniio.h:57-76; a buffer is a block and the text in it up to the terminating zero. -/
structure Out where
  file : Option Nat
  buffer : Option (Nat × List Nat)
  size : Nat
  position : Nat
  user : Option Nat
  func : Option Kind
  deriving DecidableEq, Repr

/-- `io_create`, uniio.c:235-258. -/
def In.new : In := ⟨none, none, 0, 0, none, none⟩

/-- `io_create`, uniio.c:235-258. -/
def Out.new : Out := ⟨none, none, 0, 0, none, none⟩

/-- `in_close_file`, uniio.c:417-430, for a stream that is not `NULL`; `fclose` answers 0 if `ok`. -/
def inCloseFile (ok : Bool) (io : In) : Int × In × List Event :=
  match io.file with
  | none => (-1, io, [])
  | some f => (if ok then 0 else -1, { io with file := none, position := 0 }, [.closed f.h])

/-- `in_clear`, uniio.c:432-457, for a stream that is not `NULL`. -/
def inClear (io : In) : In × List Event :=
  match io.file with
  | some _ => ({ (inCloseFile true io).2.1 with func := none }, (inCloseFile true io).2.2)
  | none =>
    match io.buffer with
    | some _ => ({ io with buffer := none, size := 0, position := 0, func := none }, [])
    | none => ({ io with user := none, func := none }, [])

/-- `in_set_file`, uniio.c:261-279; `octets` is what the file holds, or `none` if `fopen` fails; `h` is the number of the file. -/
def inSetFile (h : Nat) (octets : Option (List Nat)) (io : In) : Int × In × List Event :=
  match octets with
  | none => (-1, (inClear io).1, (inClear io).2)
  | some o => (0, { (inClear io).1 with file := some ⟨h, o, 0⟩, position := 0, func := some .file }, (inClear io).2 ++ [.opened h])

/-- `in_set_buffer`, uniio.c:281-296, for a buffer that is not `NULL`. -/
def inSetBuffer (text : List Nat) (io : In) : Int × In × List Event :=
  (0, { (inClear io).1 with buffer := some text, size := text.length, position := 0, func := some .buffer }, (inClear io).2)

/-- `in_set_func`, uniio.c:298-309. -/
def inSetFunc (f : Option Nat) (io : In) : Int × In × List Event :=
  (0, { (inClear io).1 with user := f, func := some .user }, (inClear io).2)

/-- The part of `in_set_position`, uniio.c:311-338, for a file: `fseek` fails for an offset that is negative as a `long`, and `fgetc` at or behind the
end. -/
def seekFile (position : Nat) (f : File) (io : In) : Int × In :=
  if position = 0 then (0, { io with file := some { f with offset := 0 }, position := 0 })
  else if position - 1 < 9223372036854775808 ∧ position - 1 < f.octets.length then
    (0, { io with file := some { f with offset := position - 1 + 1 }, position := position })
  else (-1, { io with file := some { f with offset := io.position } })

/-- `in_set_position`, uniio.c:311-338. -/
def inSetPosition (position : Nat) (io : In) : Int × In :=
  match io.buffer with
  | some _ => if position ≤ io.size then (0, { io with position := position }) else (-1, io)
  | none =>
    match io.file with
    | some f => seekFile position f io
    | none => (-1, io)

/-- `in_is_correct`, uniio.c:375-378. -/
def inIsCorrect (io : In) : Bool := io.file.isSome || io.buffer.isSome || io.user.isSome

/-- `in_get_position`, uniio.c:411-414. -/
def inGetPosition (io : In) : Nat := if io.buffer.isSome || io.file.isSome then io.position else 0

/-- `scan_file_arg`, uniio.c:60-71, for the format `%c`. -/
def scanFile (io : In) : Option (Option Nat × In × List Event) :=
  match io.file with
  | none => none
  | some f =>
    match f.octets[f.offset]? with
    | none => some (none, io, [.read f.h])
    | some c => some (some c, { io with file := some { f with offset := f.offset + 1 }, position := io.position + 1 }, [.read f.h])

/-- `scan_buffer_arg`, uniio.c:73-84, for the format `%c`. -/
def scanBuffer (io : In) : Option (Option Nat × In × List Event) :=
  match io.buffer with
  | none => none
  | some s =>
    match s[io.position]? with
    | none => some (none, io, [])
    | some c => some (some c, { io with position := io.position + 1 }, [])

/-- `in_func_user`, uniio.c:150-153; what the function reads is not looked at. -/
def scanUser (io : In) : Option (Option Nat × In × List Event) :=
  match io.user with
  | none => none
  | some f => some (none, io, [.calledIn f])

/-- `uni_scanf`, uniscanner.c:23-38, with the format `%c`, and with it `in_func_position`, uniio.c:86-137, for one conversion: the octet, or that there is
none. -/
def scan (io : In) : Option (Option Nat × In × List Event) :=
  if inIsCorrect io = false then some (none, io, [])
  else
    match io.func with
    | none => none
    | some .file => scanFile io
    | some .buffer => scanBuffer io
    | some .user => scanUser io

/-- `out_extract_buffer`, uniio.c:587-602: the block and the text in it. -/
def outExtract (io : Out) : Option (Nat × List Nat) × Out :=
  match io.buffer with
  | none => (none, io)
  | some b => (some b, { io with buffer := none, size := 0, position := 0, func := none })

/-- A call of `out_extract_buffer`, uniio.c:587-602, by the user, who owns the block afterwards. -/
def outGive (io : Out) : Answer × Out × List Event :=
  match (outExtract io).1 with
  | none => (.text none, (outExtract io).2, [])
  | some b => (.text (some b), (outExtract io).2, [.gave b.1])

/-- `out_close_file`, uniio.c:604-615, for a stream that is not `NULL`. -/
def outCloseFile (ok : Bool) (io : Out) : Int × Out × List Event :=
  match io.file with
  | none => (-1, io, [])
  | some h => (if ok then 0 else -1, { io with file := none }, [.closed h])

/-- `out_clear`, uniio.c:617-639, for a stream that is not `NULL`. -/
def outClear (io : Out) : Out × List Event :=
  match io.file with
  | some _ => ({ (outCloseFile true io).2.1 with func := none }, (outCloseFile true io).2.2)
  | none =>
    match io.buffer with
    | some b => ({ (outExtract io).2 with func := none }, [.freed b.1])
    | none => ({ io with user := none, func := none }, [])

/-- `out_set_file`, uniio.c:460-476. -/
def outSetFile (h : Nat) (ok : Bool) (io : Out) : Int × Out × List Event :=
  if ok then (0, { (outClear io).1 with file := some h, func := some .file }, (outClear io).2 ++ [.opened h])
  else (-1, (outClear io).1, (outClear io).2)

/-- The largest block the allocator gives. -/
def maxBlock : Nat := 9223372036854775807

/-- `out_set_buffer`, uniio.c:478-500; the allocator gives no block above `maxBlock`.  A block without octets cannot take the terminating zero. -/
def outSetBuffer (b size : Nat) (ok : Bool) (io : Out) : Option (Int × Out × List Event) :=
  if ok ∧ usz (size + 1) ≤ maxBlock then
    if usz (size + 1) = 0 then none
    else some (0, { (outClear io).1 with buffer := some (b, []), size := usz (size + 1), position := 0, func := some .buffer },
      (outClear io).2 ++ [.allocated b])
  else some (-1, { (outClear io).1 with size := 0 }, (outClear io).2)

/-- `out_set_func`, uniio.c:502-513. -/
def outSetFunc (f : Option Nat) (io : Out) : Int × Out × List Event :=
  (0, { (outClear io).1 with user := f, func := some .user }, (outClear io).2)

/-- `out_is_correct`, uniio.c:550-553. -/
def outIsCorrect (io : Out) : Bool := io.file.isSome || io.buffer.isSome || io.user.isSome

/-- `out_func_file`, uniio.c:156-159. -/
def printFile (text : List Nat) (io : Out) : Option (Int × Out × List Event) :=
  match io.file with
  | none => none
  | some h => some (text.length, io, [.wrote h text])

/-- `out_func_buffer`, uniio.c:161-185.  The allocator answers with a block for each request it grants; when the answers are used up, and
for a block above `maxBlock`, it refuses.  (What
is in the block is the subject of `Io`.) -/
def printBuffer (text : List Nat) : List Nat → Out → Option (Int × Out × List Event)
  | [], io =>
    match io.buffer with
    | none => none
    | some (b, s) =>
      if text.length + io.position < io.size then some (text.length, { io with buffer := some (b, s ++ text), position := io.position + text.length }, [])
      else some (-1, io, [])
  | b' :: rest, io =>
    match io.buffer with
    | none => none
    | some (b, s) =>
      if text.length + io.position < io.size then some (text.length, { io with buffer := some (b, s ++ text), position := io.position + text.length }, [])
      else if usz (2 * io.size) > maxBlock then some (-1, io, [])
      else (printBuffer text rest { io with buffer := some (b', s), size := usz (io.size * 2) }).map fun r => (r.1, r.2.1, .moved b b' :: r.2.2)

/-- `out_func_user`, uniio.c:187-190; its answer is taken to be 0. -/
def printUser (text : List Nat) (io : Out) : Option (Int × Out × List Event) :=
  match io.user with
  | none => none
  | some f => some (0, io, [.calledOut f text])

/-- `uni_printf`, uniprinter.c:22-37. -/
def print (text : List Nat) (grants : List Nat) (io : Out) : Option (Int × Out × List Event) :=
  if outIsCorrect io = false then some (-1, io, [])
  else
    match io.func with
    | none => none
    | some .file => printFile text io
    | some .buffer => printBuffer text grants io
    | some .user => printUser text io

/-- All streams of a program. -/
structure World where
  ins : List In
  outs : List Out
  deriving Repr

/-- A call of a function of `uniio.h`, `uniprinter.h` and `uniscanner.h`, with what the system answers to it.  A stream is given by its number, `none` is
`NULL`. -/
inductive Op
  | inSetFile (i : Option Nat) (h : Nat) (octets : Option (List Nat))
  | inSetBuffer (i : Option Nat) (text : List Nat)
  | inSetFunc (i : Option Nat) (f : Option Nat)
  | inSetPosition (i : Option Nat) (position : Nat)
  | inSwap (i j : Option Nat)
  | inClose (i : Option Nat) (ok : Bool)
  | inClear (i : Option Nat)
  | inGetPosition (i : Option Nat)
  | inIs (i : Option Nat)
  | scan (i : Option Nat)
  | outSetFile (i : Option Nat) (h : Nat) (ok : Bool)
  | outSetBuffer (i : Option Nat) (b size : Nat) (ok : Bool)
  | outSetFunc (i : Option Nat) (f : Option Nat)
  | outSwap (i j : Option Nat)
  | outExtract (i : Option Nat)
  | outClose (i : Option Nat) (ok : Bool)
  | outClear (i : Option Nat)
  | outIs (i : Option Nat)
  | print (i : Option Nat) (text : List Nat) (grants : List Nat)
  | erase (i : Option Nat)
  deriving Repr

/-- A call that changes the input of a stream. -/
def onIn (w : World) (i : Option Nat) (null : Answer) (g : In → Option (Answer × In × List Event)) : Option (Answer × World × List Event) :=
  match i with
  | none => some (null, w, [])
  | some k =>
    match w.ins[k]? with
    | none => none
    | some io => (g io).map fun r => (r.1, { w with ins := w.ins.set k r.2.1 }, r.2.2)

/-- A call that changes the output of a stream. -/
def onOut (w : World) (i : Option Nat) (null : Answer) (g : Out → Option (Answer × Out × List Event)) : Option (Answer × World × List Event) :=
  match i with
  | none => some (null, w, [])
  | some k =>
    match w.outs[k]? with
    | none => none
    | some io => (g io).map fun r => (r.1, { w with outs := w.outs.set k r.2.1 }, r.2.2)

/-- The answer of a call that gives a status. -/
def status {α : Type} (r : Int × α × List Event) : Answer × α × List Event := (.status r.1, r.2.1, r.2.2)

/-- `in_swap`, uniio.c:340-372: all six fields are exchanged, one after the other. -/
def inSwap (w : World) : Option Nat → Option Nat → Option (Answer × World × List Event)
  | some i, some j =>
    match w.ins[i]?, w.ins[j]? with
    | some a, some b => some (.status 0, { w with ins := (w.ins.set i b).set j a }, [])
    | _, _ => none
  | _, _ => some (.status (-1), w, [])

/-- `out_swap`, uniio.c:515-547. -/
def outSwap (w : World) : Option Nat → Option Nat → Option (Answer × World × List Event)
  | some i, some j =>
    match w.outs[i]?, w.outs[j]? with
    | some a, some b => some (.status 0, { w with outs := (w.outs.set i b).set j a }, [])
    | _, _ => none
  | _, _ => some (.status (-1), w, [])

/-- `io_erase`, uniio.c:642-645. -/
def erase (w : World) : Option Nat → Option (Answer × World × List Event)
  | none => some (.status (-1), w, [])
  | some k =>
    match w.ins[k]?, w.outs[k]? with
    | some a, some b => some (.status 0, ⟨w.ins.set k (inClear a).1, w.outs.set k (outClear b).1⟩, (inClear a).2 ++ (outClear b).2)
    | _, _ => none

/-- A call. -/
def step (w : World) : Op → Option (Answer × World × List Event)
  | .inSetFile i h octets => onIn w i (.status (-1)) fun io => some (status (inSetFile h octets io))
  | .inSetBuffer i text => onIn w i (.status (-1)) fun io => some (status (inSetBuffer text io))
  | .inSetFunc i f => onIn w i (.status (-1)) fun io => some (status (inSetFunc f io))
  | .inSetPosition i position => onIn w i (.status (-1)) fun io => some (.status (inSetPosition position io).1, (inSetPosition position io).2, [])
  | .inSwap i j => inSwap w i j
  | .inClose i ok => onIn w i (.status (-1)) fun io => some (status (inCloseFile ok io))
  | .inClear i => onIn w i (.status (-1)) fun io => some (.status 0, (inClear io).1, (inClear io).2)
  | .inGetPosition i => onIn w i (.number 0) fun io => some (.number (inGetPosition io), io, [])
  | .inIs i => onIn w i (.is false false false) fun io => some (.is io.file.isSome io.buffer.isSome io.user.isSome, io, [])
  | .scan i => onIn w i (.octet none) fun io => (scan io).map fun r => (.octet r.1, r.2.1, r.2.2)
  | .outSetFile i h ok => onOut w i (.status (-1)) fun io => some (status (outSetFile h ok io))
  | .outSetBuffer i b size ok => onOut w i (.status (-1)) fun io => (outSetBuffer b size ok io).map status
  | .outSetFunc i f => onOut w i (.status (-1)) fun io => some (status (outSetFunc f io))
  | .outSwap i j => outSwap w i j
  | .outExtract i => onOut w i (.text none) fun io => some (outGive io)
  | .outClose i ok => onOut w i (.status (-1)) fun io => some (status (outCloseFile ok io))
  | .outClear i => onOut w i (.status (-1)) fun io => some (.status 0, (outClear io).1, (outClear io).2)
  | .outIs i => onOut w i (.is false false false) fun io => some (.is io.file.isSome io.buffer.isSome io.user.isSome, io, [])
  | .print i text grants => onOut w i (.status (-1)) fun io => (print text grants io).map status
  | .erase i => erase w i

/-- Several calls: the answers and all events. -/
def run (w : World) : List Op → Option (List Answer × World × List Event)
  | [] => some ([], w, [])
  | op :: ops =>
    match step w op with
    | none => none
    | some (a, w', es) => (run w' ops).map fun r => (a :: r.1, r.2.1, es ++ r.2.2)

/-- `n` streams, each made by `io_create`. -/
def start (n : Nat) : World := ⟨List.replicate n .new, List.replicate n .new⟩

end RuC.Streams
