import Verif.Workspace.Model
import Verif.Cond.Model

/-!
# Included files (libs/macro/linker.c and the `#include` of libs/macro/parser.c)

The linker works on a workspace (`Verif.Workspace.Model`); the files it opens are texts of lines
(`Verif.Cond.Model`) whose other lines may do anything.  The vector of flags is modelled by the list
it means (C01), with every allocation granted.

Left out: the scanning of the name between the quotes (`skip_string`), warnings, locations, `#line`
marks, macro names given by `-D` (`ws_parse`), the output file.
-/

namespace RuC.Linker
open RuC RuC.Workspace RuC.Cond

/-! ## Paths -/

/-- The loop of `linker_make_path`, macro/linker.c:31-58: `\` is written as `/`; a line break and a `\`
that is not followed by another one are overwritten by what follows. -/
def nameOf : List Nat → List Nat
  | [] => []
  | c :: cs =>
    if c = 10 ∨ (c = 92 ∧ cs.head? ≠ some 92) then nameOf cs
    else (if c = 92 then 47 else c) :: nameOf cs

/-- The text up to the last `/`, with it: `strrchr` in `linker_make_path`, macro/linker.c:31-58. -/
def dirPart (path : List Nat) : List Nat :=
  (path.reverse.dropWhile (· != 47)).reverse

/-- `linker_make_path`, macro/linker.c:31-58, into an array of `MAX_ARG_SIZE` characters; `none`: written
outside. -/
def makePath (name : List Nat) (path : Option (List Nat)) (isFile : Bool) : Option (List Nat) :=
  let dir :=
    match path with
    | none => []
    | some p => if isFile then dirPart p else p ++ [47]
  if (dir ++ nameOf name).length < MAX_ARG_SIZE then some (dir ++ nameOf name) else none

/-! ## The linker -/

/-- What was opened: as a header or as a source, at which depth of includes (not in the C code). -/
structure Opened where
  header : Bool
  index : Nat
  level : Nat
deriving Repr, DecidableEq

/-- `linker`, macro/linker.h, with what was opened so far and whether anything undefined has happened
(neither is in the C code). -/
structure Link where
  ws : Ws
  included : List Int
  current : Nat
  log : List Opened
  undef : Bool
deriving Repr, DecidableEq

/-- `linker_create`, macro/linker.c:111-118; the flags are zero (`vector_increase`). -/
def linkerCreate (ws : Ws) : Link :=
  { ws := ws, included := List.replicate (wsGetFilesNum ws) 0, current := SIZE_MAX, log := [], undef := false }

/-- The common part of `linker_internal_path` and `linker_external_path`, macro/linker.c:79-99, for a path
that exists: the file gets a number, a new one a flag. -/
def register (access : List Nat → Bool) (lk : Link) (path : List Nat) : Nat × Link :=
  match wsAddFile access lk.ws path with
  | none => (SIZE_MAX, { lk with undef := true })
  | some (index, ws) =>
    (index, { lk with ws := ws, included := if index = wsGetFilesNum lk.ws then lk.included ++ [0] else lk.included })

/-- `linker_internal_path`, macro/linker.c:60-77. -/
def internalPath (access : List Nat → Bool) (lk : Link) (file : List Nat) : Nat × Link :=
  match makePath file (wsGetFile lk.ws lk.current) true with
  | none => (SIZE_MAX, { lk with undef := true })
  | some path => if access path then register access lk path else (SIZE_MAX, lk)

/-- The loop of `linker_external_path`, macro/linker.c:79-99, over the remaining directories. -/
def externalLoop (access : List Nat → Bool) (lk : Link) (file : List Nat) : List (List Nat) → Nat × Link
  | [] => (SIZE_MAX, lk)
  | d :: ds =>
    match makePath file (some d) false with
    | none => (SIZE_MAX, { lk with undef := true })
    | some path => if access path then register access lk path else externalLoop access lk file ds

/-- `linker_external_path`, macro/linker.c:79-99. -/
def externalPath (access : List Nat → Bool) (lk : Link) (file : List Nat) : Nat × Link :=
  externalLoop access lk file lk.ws.dirs

/-- `linker_search_internal`, macro/linker.c:148-157. -/
def searchInternal (access : List Nat → Bool) (lk : Link) (file : List Nat) : Nat × Link :=
  if lk.ws.wasError then (SIZE_MAX, lk)
  else
    let r := internalPath access lk file
    if r.1 ≠ SIZE_MAX then r
    else if r.2.ws.wasError then (SIZE_MAX, r.2)
    else externalPath access r.2 file

/-- `linker_search_external`, macro/linker.c:159-168. -/
def searchExternal (access : List Nat → Bool) (lk : Link) (file : List Nat) : Nat × Link :=
  if lk.ws.wasError then (SIZE_MAX, lk)
  else
    let r := externalPath access lk file
    if r.1 ≠ SIZE_MAX then r else internalPath access r.2 file

variable {X : Type}

/-- `linker_add_source`, macro/linker.c:121-132; `read` tells what a file that can be opened contains. -/
def addSource (read : List Nat → Option (List (Line X))) (lk : Link) (index : Nat) : Option (List (Line X)) × Link :=
  if lk.ws.wasError then (none, lk)
  else
    match (wsGetFile lk.ws index).bind read with
    | none => (none, lk)
    | some ls =>
      (some ls, { lk with
        included := if index < lk.included.length then lk.included.set index 1 else lk.included
        current := index
        log := lk.log ++ [{ header := false, index := index, level := 0 }] })

/-- `linker_add_header`, macro/linker.c:134-145; an index outside is answered by `ITEM_MAX`. -/
def addHeader (read : List Nat → Option (List (Line X))) (level : Nat) (lk : Link) (index : Nat) :
    Option (List (Line X)) × Link :=
  if lk.ws.wasError || lk.included[index]? == some 1 then (none, lk)
  else
    match (wsGetFile lk.ws index).bind read with
    | none => (none, lk)
    | some ls =>
      (some ls, { lk with
        included := if index < lk.included.length then lk.included.set index 1 else lk.included
        current := index
        log := lk.log ++ [{ header := true, index := index, level := level }] })

/-! ## The directive -/

/-- The text behind `#include`. -/
inductive Inc
  /-- no name in quotes -/
  | malformed
  | quoted (name : List Nat)
  | angle (name : List Nat)
deriving Repr, DecidableEq

/-- The messages about `#include`. -/
inductive IncErr
  | depth | expects | noFile
deriving Repr, DecidableEq

/-- Files, what lines that are no `#include` do, and which lines are. -/
structure Env (σ X O : Type) where
  access : List Nat → Bool
  read : List Nat → Option (List (Line X))
  base : World σ X O
  inc : X → Option Inc
  report : IncErr → X → O

variable {σ O : Type}

/-- A function on the rest of the state. -/
def liftSt (st : St (Link × σ) O) (r : St σ O) : St (Link × σ) O :=
  { env := (st.env.1, r.env), err := r.err, out := r.out }

/-- The rest of the state. -/
def rest (st : St (Link × σ) O) : St σ O := { env := st.env.2, err := st.err, out := st.out }

/-- `parser_error`, macro/parser.c:60-74, for `#include`. -/
def Env.error (e : Env σ X O) (k : IncErr) (x : X) (st : St (Link × σ) O) : St (Link × σ) O :=
  if e.base.quiet && st.err then st else { st with err := true, out := st.out ++ [e.report k x] }

/-- The search of `parse_path`, macro/parser.c:1074-1108. -/
def Env.search (e : Env σ X O) (lk : Link) : Inc → Nat × Link
  | .malformed => (SIZE_MAX, lk)
  | .quoted name => searchInternal e.access lk name
  | .angle name => searchExternal e.access lk name

/-- A depth of calls that is enough for a text, see `C43_terminates`. -/
def enough (ls : List (Line X)) : Nat := (maxIteration + 10) * (ls.length + 1)

/-- `parse_path`, macro/parser.c:1074-1108, behind the search, in a world for the included text. -/
def Env.enter (e : Env σ X O) (w : World (Link × σ) X O) (level : Nat) (x : X) (r : Nat × Link)
    (st : St (Link × σ) O) : St (Link × σ) O :=
  if r.1 = SIZE_MAX then e.error .noFile x { st with env := (r.2, st.env.2) }
  else
    match addHeader e.read level r.2 r.1 with
    | (none, lk) => { st with env := (lk, st.env.2) }
    | (some ls, lk) =>
      (preprocess w (enough ls) ls { st with env := (lk, st.env.2) }).getD { st with env := (lk, st.env.2) }

/-- `MAX_INCLUDE_DEPTH`, macro/parser.c:37. -/
def MAX_INCLUDE_DEPTH : Nat := 32

/-- A world like `base` whose `#include` lines do what is given. -/
def Env.worldOf (e : Env σ X O) (incl : Inc → X → St (Link × σ) O → St (Link × σ) O) :
    World (Link × σ) X O where
  quiet := e.base.quiet
  act x st :=
    match e.inc x with
    | none => liftSt st (e.base.act x (rest st))
    | some i => incl i x st
  cond x st := ((e.base.cond x (rest st)).1, liftSt st (e.base.cond x (rest st)).2)
  name x st := ((e.base.name x (rest st)).1, liftSt st (e.base.name x (rest st)).2)
  macroHead x st := ((e.base.macroHead x (rest st)).1, liftSt st (e.base.macroHead x (rest st)).2)
  defMacro x ls st := liftSt st (e.base.defMacro x ls (rest st))
  report := e.base.report

/-- `parse_include`, macro/parser.c:1117-1147, in the world for the text it would include. -/
def Env.includes (e : Env σ X O) (w : World (Link × σ) X O) (level : Nat) (i : Inc) (x : X)
    (st : St (Link × σ) O) : St (Link × σ) O :=
  match i with
  | .malformed => e.error .expects x st
  | i => e.enter w level x (e.search st.env.1 i) st

/-- The world of a text in which `left` more levels of `#include` are possible:
`prs->include = MAX_INCLUDE_DEPTH - left` in `parse_include`, macro/parser.c:1117-1147. -/
def Env.world (e : Env σ X O) : Nat → World (Link × σ) X O
  | 0 => e.worldOf fun _ x st => e.error .depth x st
  | left + 1 => e.worldOf (e.includes (e.world left) (MAX_INCLUDE_DEPTH - left))

/-- One turn of the loop of `macro_form_io`, macro/macro.c:109-136; `sys` is the message about a source
that cannot be opened. -/
def Env.source (e : Env σ X O) (sys : O) (st : St (Link × σ) O) (i : Nat) : Bool × St (Link × σ) O :=
  match addSource e.read st.env.1 i with
  | (none, lk) => (true, { st with env := (lk, st.env.2), out := st.out ++ [sys] })
  | (some ls, lk) =>
    let st := (preprocess (e.world MAX_INCLUDE_DEPTH) (enough ls) ls { st with env := (lk, st.env.2) }).getD st
    (st.err, st)

/-- The loop of `macro_form_io`, macro/macro.c:109-136, with `n` sources left of `size`. -/
def Env.sources (e : Env σ X O) (sys : O) (size : Nat) : Nat → Bool → St (Link × σ) O → Bool × St (Link × σ) O
  | 0, ret, st => (ret, st)
  | n + 1, ret, st =>
    if ret && e.base.quiet then (ret, st)
    else
      let r := e.source sys st (size - (n + 1))
      e.sources sys size n (ret || r.1) r.2

/-- `macro_form_io`, macro/macro.c:109-136, without the `-D` flags. -/
def Env.formIo (e : Env σ X O) (sys : O) (ws : Ws) (s : σ) : Bool × St (Link × σ) O :=
  e.sources sys (wsGetFilesNum ws) (wsGetFilesNum ws) false
    { env := (linkerCreate ws, s), err := false, out := [] }

end RuC.Linker
