import Verif.Base

/-!
# Model of `libs/utils/workspace.c`

Texts are lists of octets without the terminating zero.  A character array is a list of optional
octets (`none`: never written); reading a cell that was never written, or reading or writing outside
the array, is undefined (`none`).

The three `strings` vectors are modelled by the lists of texts they mean (C09), with every allocation
granted.  `access` is an argument: which paths exist.
-/

namespace RuC.Workspace
open RuC

/-- `MAX_ARG_SIZE`, workspace.h:28. -/
@[irreducible] def MAX_ARG_SIZE : Nat := 1024

/-- Read a character. -/
def peek (b : List (Option Nat)) (i : Nat) : Option Nat :=
  match b[i]? with
  | some (some c) => some c
  | _ => none

/-- Write a character. -/
def poke (b : List (Option Nat)) (i : Nat) (c : Nat) : Option (List (Option Nat)) :=
  if i < b.length then some (b.set i (some c)) else none

/-- The inner loop of `ws_unix_path`, workspace.c:61-95: back to the previous separator. -/
def backLoop (b : List (Option Nat)) : Nat → Option Nat
  | 0 => some 0
  | j + 1 =>
    match peek b j with
    | none => none
    | some c => if c ≠ 47 then backLoop b j else some (j + 1)

/-- `&&` of two conditions that read memory. -/
def andThen (a : Option Bool) (b : Option Bool) : Option Bool :=
  match a with
  | none => none
  | some false => some false
  | some true => b

/-- `||` of two conditions that read memory. -/
def orElse (a : Option Bool) (b : Option Bool) : Option Bool :=
  match a with
  | none => none
  | some true => some true
  | some false => b

/-- The character at `i` is `c`. -/
def isChar (b : List (Option Nat)) (i c : Nat) : Option Bool := (peek b i).map (· == c)

/-- What `ws_unix_path`, workspace.c:61-95, does at a separator: the new `j` (and `last`). -/
def separator (b : List (Option Nat)) (j last : Nat) : Option Nat :=
  match andThen (some (j - last == 2)) (isChar b last 46) with
  | none => none
  | some true => some last
  | some false =>
    match
      andThen (some (last != 0)) (andThen (some (j - last == 3)) (andThen (isChar b last 46) (andThen (isChar b (last + 1) 46)
        ((orElse
          (andThen (some (decide (last > 3))) (andThen (isChar b (last - 2) 46) (andThen (isChar b (last - 3) 46)
            (isChar b (last - 4) 47))))
          (andThen (some (last == 3)) (andThen (isChar b (last - 2) 46) (isChar b (last - 3) 46)))).map (!·)))))
    with
    | none => none
    | some true => backLoop b (last - 1)
    | some false => some j

/-- The loop of `ws_unix_path`, workspace.c:61-95, over the characters before the terminating zero. -/
def pathLoop : List Nat → List (Option Nat) → Nat → Nat → Option (List (Option Nat) × Nat)
  | [], b, j, _ => some (b, j)
  | c :: cs, b, j, last =>
    let c := if c = 92 then 47 else c
    match poke b j c with
    | none => none
    | some b =>
      if c = 47 then
        match separator b (j + 1) last with
        | none => none
        | some j => pathLoop cs b j j
      else pathLoop cs b (j + 1) last

/-- The text at the start of a character array, up to the terminating zero. -/
def textOf : List (Option Nat) → Option (List Nat)
  | some 0 :: _ => some []
  | some c :: b => (textOf b).map (c :: ·)
  | _ => none

/-- `ws_unix_path`, workspace.c:61-95, into an array of `MAX_ARG_SIZE` characters; `buffer[j - 1]` with
`j = 0` is outside the array. -/
def unixPath (path : List Nat) : Option (List Nat) :=
  match pathLoop path (List.replicate MAX_ARG_SIZE none) 0 0 with
  | none => none
  | some (b, j) =>
    if j = 0 then none
    else
      match peek b (j - 1) with
      | none => none
      | some c =>
        match poke b (if c = 47 then j - 1 else j) 0 with
        | none => none
        | some b => textOf b

/-! ## The workspace -/

/-- `workspace`, workspace.h:36-45. -/
structure Ws where
  files : List (List Nat)
  dirs : List (List Nat)
  flags : List (List Nat)
  output : List Nat
  wasError : Bool
deriving DecidableEq, Repr

/-- `ws_create`, workspace.c:208-220. -/
def wsCreate : Ws := { files := [], dirs := [], flags := [], output := [], wasError := false }

/-- The loop of `ws_exists`, workspace.c:97-108. -/
def wsExistsFrom (element : List Nat) : Nat → List (List Nat) → Nat
  | _, [] => SIZE_MAX
  | i, s :: rest => if element = s then i else wsExistsFrom element (i + 1) rest

/-- `ws_exists`, workspace.c:97-108. -/
def wsExists (element : List Nat) (vec : List (List Nat)) : Nat := wsExistsFrom element 0 vec

/-- `ws_add_string`, workspace.c:110-119, with `strings_add`, strings.c:97-116, refusing an empty text. -/
def wsAddString (vec : List (List Nat)) (str : List Nat) : Nat × List (List Nat) :=
  let index := wsExists str vec
  if index ≠ SIZE_MAX then (index, vec)
  else if str = [] then (SIZE_MAX, vec)
  else (vec.length, vec ++ [str])

/-- The part of `ws_add_path`, workspace.c:121-138, up to the call of `ws_add_string`: the text to be
added, or an error. -/
def wsPath (access : List Nat → Bool) (path : List Nat) : Option (Option (List Nat)) :=
  match unixPath path with
  | none => none
  | some p => some (if access p then some p else none)

/-- `ws_add_file`, workspace.c:223-226, with `ws_add_path`, workspace.c:121-138. -/
def wsAddFile (access : List Nat → Bool) (ws : Ws) (path : List Nat) : Option (Nat × Ws) :=
  if ws.wasError then some (SIZE_MAX, { ws with wasError := true })
  else
    match wsPath access path with
    | none => none
    | some none => some (SIZE_MAX, { ws with wasError := true })
    | some (some p) => let (i, v) := wsAddString ws.files p; some (i, { ws with files := v })

/-- `ws_add_dir`, workspace.c:234-237, with `ws_add_path`, workspace.c:121-138. -/
def wsAddDir (access : List Nat → Bool) (ws : Ws) (path : List Nat) : Option (Nat × Ws) :=
  if ws.wasError then some (SIZE_MAX, { ws with wasError := true })
  else
    match wsPath access path with
    | none => none
    | some none => some (SIZE_MAX, { ws with wasError := true })
    | some (some p) => let (i, v) := wsAddString ws.dirs p; some (i, { ws with dirs := v })

/-- `ws_is_dir_flag`, workspace.c:140-143. -/
def isDirFlag (flag : List Nat) : Bool := flag.take 2 == [45, 73]

/-- `ws_add_flag`, workspace.c:245-254. -/
def wsAddFlag (access : List Nat → Bool) (ws : Ws) (flag : List Nat) : Option (Nat × Ws) :=
  if ws.wasError then some (SIZE_MAX, { ws with wasError := true })
  else if isDirFlag flag then wsAddDir access ws (flag.drop 2)
  else let (i, v) := wsAddString ws.flags flag; some (i, { ws with flags := v })

/-- `ws_set_output`, workspace.c:262-272; a text that does not fit is undefined. -/
def wsSetOutput (ws : Ws) (path : List Nat) : Option (Int × Ws) :=
  if ws.wasError then some (-1, { ws with wasError := true })
  else if path.length < MAX_ARG_SIZE then some (0, { ws with output := path }) else none

/-- `ws_has_flag`, workspace.c:280-299. -/
def wsHasFlag (ws : Ws) (flag : List Nat) : Bool := !ws.wasError && ws.flags.any (fun f => decide (f = flag))

/-- `ws_get_file`, workspace.c:302-305 (`none`: NULL). -/
def wsGetFile (ws : Ws) (index : Nat) : Option (List Nat) := if ws.wasError then none else ws.files[index]?

/-- `ws_get_files_num`, workspace.c:307-310. -/
def wsGetFilesNum (ws : Ws) : Nat := if ws.wasError then 0 else ws.files.length

/-- `ws_get_dir`, workspace.c:312-315 (`none`: NULL). -/
def wsGetDir (ws : Ws) (index : Nat) : Option (List Nat) := if ws.wasError then none else ws.dirs[index]?

/-- `ws_get_flag`, workspace.c:322-325 (`none`: NULL). -/
def wsGetFlag (ws : Ws) (index : Nat) : Option (List Nat) := if ws.wasError then none else ws.flags[index]?

/-- `ws_get_output`, workspace.c:333-336 (`none`: NULL). -/
def wsGetOutput (ws : Ws) : Option (List Nat) := if !ws.wasError && ws.output ≠ [] then some ws.output else none

/-- The loop of `ws_parse_args`, workspace.c:161-205, over the arguments after the program name. -/
def parseArgs (access : List Nat → Bool) : List (List Nat) → Ws → Option Ws
  | [], ws => some ws
  | arg :: args, ws =>
    if arg.head? ≠ some 45 then
      match wsAddFile access ws arg with
      | none => none
      | some (r, ws) => if r = SIZE_MAX then some ws else parseArgs access args ws
    else if arg = [45, 111] then
      match args with
      | [] => some { ws with wasError := true }
      | path :: args =>
        match wsSetOutput ws path with
        | none => none
        | some (r, ws) => if r = -1 then some { ws with wasError := true } else parseArgs access args ws
    else
      match wsAddFlag access ws arg with
      | none => none
      | some (r, ws) => if r = SIZE_MAX then some ws else parseArgs access args ws

/-- `ws_parse_args`, workspace.c:161-205, with correct arguments. -/
def wsParseArgs (access : List Nat → Bool) (args : List (List Nat)) : Option Ws := parseArgs access args wsCreate

end RuC.Workspace
