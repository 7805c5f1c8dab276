import Verif.Storage.Model

/-!
# Model of the flags of the macro preprocessor

`ws_parse_name` and `ws_parse` of `libs/macro/macro.c` on a system without `_WIN32`.  A flag is the
list of its octets with the terminating zero.  The messages are not modelled beyond the answer they
come with.
-/

namespace RuC.Flags
open RuC RuC.Utf8 RuC.Storage

/-- `MAX_ARG_SIZE`, workspace.h:28. -/
def MAX_ARG_SIZE : Nat := 1024

/-- The loop of `ws_parse_name`, macro.c:28-66: `buf` is `buffer[0 .. i]`; answers the name, the
character behind it and `j`.  Undefined (`none`) when the array or the text ends. -/
def nameLoop (name : List Nat) : Nat → List Nat → Nat → Option (List Nat × Nat × Nat)
  | 0, _, _ => none
  | fuel + 1, buf, j =>
    if buf.length ≥ MAX_ARG_SIZE then none
    else
      match convert (name.drop j) with
      | none => none
      | some c =>
        if isLetter c || isDigit c then nameLoop name fuel (buf ++ [c]) (j + utf8Size c)
        else some (buf, c, j + utf8Size c)

/-- What `ws_parse_name` answers: an error, or the index of the value and the name in the buffer. -/
inductive Parsed
  | error
  | name (index : Nat) (buffer : List Nat)
deriving Repr, DecidableEq

/-- `ws_parse_name`, macro.c:28-66. -/
def wsParseName (name : List Nat) : Option Parsed :=
  match convert name with
  | none => none
  | some c =>
    if c = 0 ∨ c = 61 then some .error
    else if isLetter c = false then some .error
    else
      match nameLoop name (name.length + 1) [c] (utf8Size c) with
      | none => none
      | some (buf, d, j) =>
        if d = 0 then some (.name (j - 1) buf)
        else if d = 61 then some (.name j buf)
        else some (.name (j - utf8Size d) buf)

/-- The body of the loop of `ws_parse`, macro.c:68-106: the Boolean tells whether to go on. -/
def wsFlag (g : Stg) (flag : List Nat) : Option (Bool × Stg) :=
  if flag[0]? = some 45 ∧ flag[1]? = some 68 then
    match wsParseName (flag.drop 2) with
    | none => none
    | some .error => some (false, g)
    | some (.name index buf) =>
      parseFlag g (.utf8 (buf ++ [0])) ((flag.drop (2 + index)).takeWhile (· ≠ 0))
  else some (true, g)

/-- `ws_parse`, macro.c:68-106: the answer and the storage. -/
def wsParse (g : Stg) : List (List Nat) → Option (Int × Stg)
  | [] => some (0, g)
  | flag :: flags =>
    match wsFlag g flag with
    | none => none
    | some (true, g) => wsParse g flags
    | some (false, g) => some (-1, g)

end RuC.Flags
