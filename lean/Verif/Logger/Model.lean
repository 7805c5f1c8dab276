import Verif.Locator.Model

/-!
# libs/utils/logger.c

A string of C is the list of its octets without the terminating zero, `none` where it is `NULL`.  A handler (`logger`) is a
number; what a call does is the list of the calls of handlers it makes.  The console is the one of Linux.
-/

namespace RuC.Logger
open RuC RuC.Utf8 RuC.Io

/-! ## The marked word -/

/-- The condition of the loops of `literal`, logger.c:200-219, and of `length`, logger.c:222-242. -/
def isWord (c : Nat) : Bool := isLetter c || isDigit c

/-- The loop of `literal`, logger.c:200-219, `ch` is converted at its head; `str` has its terminating zero.  `none`: an octet outside
of the string is read. -/
def literalLoop (str : List Nat) : Nat → Nat → Nat → Option Nat
  | 0, _, _ => none
  | fuel + 1, i, j =>
    match convert (str.drop j) with
    | none => none
    | some ch =>
      if isWord ch then
        if j = 0 then some j
        else
          match toFirstByte str (j - 1) with
          | none => none
          | some k => literalLoop str fuel j k
      else some i

/-- `literal`, logger.c:200-219. -/
def literal (str : List Nat) (symbol : Nat) : Option Nat :=
  match toFirstByte str symbol with
  | none => none
  | some i => literalLoop str (i + 1) i i

/-- The loop of `length`, logger.c:222-242: answers `j`. -/
def lengthLoop (str : List Nat) (size : Nat) : Nat → Nat → Nat → Option Nat
  | 0, _, _ => none
  | fuel + 1, i, j =>
    if i < size then
      match convert (str.drop i) with
      | none => none
      | some ch => if isWord ch then lengthLoop str size fuel (i + symbolSize (str.getD i 0)) (j + 1) else some j
    else some j

/-- `length`, logger.c:222-242. -/
def length (str : List Nat) (size symbol : Nat) : Option Nat :=
  (lengthLoop str size (size + 1) symbol symbol).map fun j => if symbol ≥ size then 0 else if j = symbol then 1 else j - symbol

/-- The loop of `splice`, logger.c:244-275, that writes blanks. -/
def blankLoop (str : List Nat) (ch : Nat) : Nat → Nat → List Nat
  | 0, _ => []
  | fuel + 1, i => if i < ch then (if str.getD i 0 = 9 then 9 else 32) :: blankLoop str ch fuel (i + symbolSize (str.getD i 0)) else []

/-- `MAX_MSG_SIZE`, logger.c:39. -/
def MAX_MSG_SIZE : Nat := 4096

/-- A text in a buffer of `MAX_MSG_SIZE` octets, logger.c:291 and 312; `none`: it does not fit with its terminating zero. -/
def fit (text : List Nat) : Option (List Nat) := if text.length < MAX_MSG_SIZE then some text else none

/-- `splice`, logger.c:244-275.  What is written is put together and looked at as a whole. -/
def splice (msg line : List Nat) (symbol : Nat) : Option (List Nat) :=
  match literal (line ++ [0]) symbol with
  | none => none
  | some ch =>
    match length (line ++ [0]) (line.takeWhile (· ≠ 10)).length ch with
    | none => none
    | some 0 => fit (msg ++ [10] ++ line.takeWhile (· ≠ 10))
    | some (len + 1) =>
      fit (msg ++ [10] ++ line.takeWhile (· ≠ 10) ++ [10] ++ blankLoop (line ++ [0]) ch ch 0 ++ [94] ++ List.replicate len 126)

/-! ## The handlers -/

/-- `current_error_log`, `current_warning_log` and `current_note_log`, logger.c:57-59. -/
structure Handlers where
  error : Nat
  warning : Nat
  note : Nat
  deriving DecidableEq, Repr

/-- A call of a handler. -/
structure Call where
  handler : Nat
  tag : List Nat
  text : List Nat
  deriving DecidableEq, Repr

/-- `TAG_LOGGER`, logger.c:41. -/
def TAG_LOGGER : List Nat := [108, 111, 103, 103, 101, 114]

/-- `ERROR_LOGGER_ARG_NULL`, logger.c:47. -/
def ARG_NULL : List Nat :=
  [78, 85, 76, 76, 32, 209, 131, 208, 186, 208, 176, 208, 183, 208, 176, 209, 130, 208, 181, 208, 187, 209, 140, 32, 208, 189, 208, 176, 32,
    209, 129, 209, 130, 209, 128, 208, 190, 208, 186, 209, 131]

/-- `ERROR_LOGGER_ARG_MULTILINE`, logger.c:48. -/
def ARG_MULTILINE : List Nat :=
  [208, 188, 208, 189, 208, 190, 208, 179, 208, 190, 209, 129, 209, 130, 209, 128, 208, 190, 209, 135, 208, 189, 209, 139, 208, 185, 32, 208, 178, 209,
    133, 208, 190, 208, 180, 208, 189, 208, 190, 208, 185, 32, 208, 191, 208, 176, 209, 128, 208, 176, 208, 188, 208, 181, 209, 130, 209, 128]

/-- `ERROR_LOGGER_NO_LOCATION`, logger.c:49. -/
def NO_LOCATION : List Nat :=
  [208, 191, 208, 190, 208, 183, 208, 184, 209, 134, 208, 184, 208, 190, 208, 189, 208, 184, 209, 128, 208, 190, 208, 178, 208, 176, 208, 189, 208, 184,
    208, 181, 32, 208, 189, 208, 181, 208, 178, 208, 190, 208, 183, 208, 188, 208, 190, 208, 182, 208, 189, 208, 190]

/-- `check_arg`, logger.c:182-197: the calls it makes, none if the argument is right. -/
def checkArg (h : Handlers) : Option (List Nat) → List Call
  | none => [⟨h.error, TAG_LOGGER, ARG_NULL⟩]
  | some s => if 10 ∈ s then [⟨h.error, TAG_LOGGER, ARG_MULTILINE⟩] else []

/-- `check_arg(tag) || check_arg(msg)`, logger.c:280, 396, 406 and 416: the calls of the first check that fails. -/
def checkArgs (h : Handlers) (tag msg : Option (List Nat)) : List Call :=
  if checkArg h tag = [] then checkArg h msg else checkArg h tag

/-- `log_main`, logger.c:278-295. -/
def logMain (h : Handlers) (func : Nat) (tag msg line : Option (List Nat)) (symbol : Nat) : Option (List Call) :=
  if checkArgs h tag msg = [] then
    match line with
    | none => some [⟨h.error, TAG_LOGGER, ARG_NULL⟩]
    | some line => (splice (msg.getD []) line symbol).map fun text => [⟨func, tag.getD [], text⟩]
  else some (checkArgs h tag msg)

/-- `loc_get_tag`, locator.c:384-393: the octets, nothing where it answers 0. -/
def getTag (own text : List Nat) (loc : Locator.Loc) : Option (List Nat) :=
  (Locator.getPath own text loc).map fun p =>
    if p = [] then [] else p.flatMap toStr ++ [58] ++ Locator.showNat loc.line ++ [58] ++ Locator.showNat loc.symbol

/-- The loop of `loc_get_index`, locator.c:454-472: the position behind `n` more characters. -/
def skipChars : Nat → In → Option Nat
  | 0, io => some io.position
  | n + 1, io =>
    match scanChar io with
    | none => none
    | some (_, io) => skipChars n io

/-- `loc_get_index`, locator.c:454-472, for a correct location. -/
def getIndex (text : List Nat) (loc : Locator.Loc) : Option Nat :=
  (skipChars (loc.symbol - 1) ⟨text, loc.code⟩).map (· - loc.code)

/-- `log_auto`, logger.c:297-316.  `own` is the path of the input, `text` its octets; a location that is not correct is `none`. -/
def logAuto (h : Handlers) (func : Nat) (own text : List Nat) (loc : Option Locator.Loc) (msg : Option (List Nat)) : Option (List Call) :=
  if checkArg h msg = [] then
    match loc with
    | none => some [⟨h.error, TAG_LOGGER, NO_LOCATION⟩]
    | some loc =>
      match getTag own text loc with
      | none => none
      | some [] => some [⟨h.error, TAG_LOGGER, NO_LOCATION⟩]
      | some (t :: tag) =>
        match Locator.codeLine text loc with
        | none => none
        | some [] => some [⟨h.error, TAG_LOGGER, NO_LOCATION⟩]
        | some (c :: code) =>
          match fit (t :: tag), fit ((c :: code).flatMap toStr), getIndex text loc with
          | some tag, some line, some index => (splice (msg.getD []) line index).map fun text => [⟨func, tag, text⟩]
          | _, _, _ => none
  else some (checkArg h msg)

/-- `log_system_error`, logger.c:394-402, and the same for warnings, logger.c:406-414, and notes, logger.c:416-424. -/
def logSystem (h : Handlers) (func : Nat) (tag msg : Option (List Nat)) : List Call :=
  if checkArgs h tag msg = [] then [⟨func, tag.getD [], msg.getD []⟩] else checkArgs h tag msg

/-- The three kinds of messages. -/
inductive Kind
  | error
  | warning
  | note
  deriving DecidableEq, Repr

/-- The handler of a kind. -/
def Handlers.of (h : Handlers) : Kind → Nat
  | .error => h.error
  | .warning => h.warning
  | .note => h.note

/-- The calls of logger.h. -/
inductive Op
  | set (k : Kind) (func : Option Nat)
  | log (k : Kind) (tag msg line : Option (List Nat)) (symbol : Nat)
  | auto (k : Kind) (own text : List Nat) (loc : Option Locator.Loc) (msg : Option (List Nat))
  | system (k : Kind) (tag msg : Option (List Nat))
  deriving DecidableEq, Repr

/-- `set_error_log`, logger.c:328-337, `set_warning_log`, logger.c:339-348, and `set_note_log`, logger.c:350-359. -/
def setLog (h : Handlers) : Kind → Option Nat → Int × Handlers
  | _, none => (-1, h)
  | .error, some f => (0, { h with error := f })
  | .warning, some f => (0, { h with warning := f })
  | .note, some f => (0, { h with note := f })

/-- One call: `log_error`, logger.c:362-365, `log_warning`, logger.c:367-370, `log_note`, logger.c:372-375, `log_auto_error`,
logger.c:378-381, `log_auto_warning`, logger.c:383-386, `log_auto_note`, logger.c:388-391, and those above. -/
def perform (h : Handlers) : Op → Option (List Call × Handlers)
  | .set k func => some ([], (setLog h k func).2)
  | .log k tag msg line symbol => (logMain h (h.of k) tag msg line symbol).map (·, h)
  | .auto k own text loc msg => (logAuto h (h.of k) own text loc msg).map (·, h)
  | .system k tag msg => some (logSystem h (h.of k) tag msg, h)

/-- A sequence of calls: the calls of handlers each of them makes. -/
def performAll : Handlers → List Op → Option (List (List Call) × Handlers)
  | h, [] => some ([], h)
  | h, op :: ops =>
    match perform h op with
    | none => none
    | some (calls, h) => (performAll h ops).map fun r => (calls :: r.1, r.2)

/-! ## The handlers that are there from the beginning -/

/-- What goes to the console: an octet, or a change of the colour (`set_color`, logger.c:62-73). -/
inductive Out
  | octet (b : Nat)
  | color (c : Nat)
  deriving DecidableEq, Repr

/-- `COLOR_TAG`, `COLOR_ERROR`, `COLOR_WARNING`, `COLOR_NOTE`, `COLOR_DEFAULT`, logger.c:32-36. -/
def COLOR_TAG : Nat := 39
def COLOR_ERROR : Nat := 31
def COLOR_WARNING : Nat := 35
def COLOR_NOTE : Nat := 33
def COLOR_DEFAULT : Nat := 0

/-- Octets printed. -/
def put (s : List Nat) : List Out := s.map .octet

/-- The loop `for (size_t k = utf8_symbol_size(msg[i]); k > 0; k--)` of `print_msg`, logger.c:75-141: the octets of one character and those
behind.  `none`: the terminating zero would be printed. -/
def oneChar : List Nat → Option (List Nat × List Nat)
  | [] => none
  | b :: s => if symbolSize b ≤ s.length + 1 then some ((b :: s).take (symbolSize b), (b :: s).drop (symbolSize b)) else none

/-- The loop `while (msg[j] != '^')` of `print_msg`, logger.c:75-141: what is printed, the octets from `i` on, those from `j` on.
`none`: the end of the string is passed. -/
def caretLoop : List Nat → List Nat → Option (List Nat × List Nat × List Nat)
  | _, [] => none
  | s, c :: t =>
    if c = 94 then some ([], s, c :: t)
    else
      match oneChar s with
      | none => none
      | some (x, s) => (caretLoop s t).map fun r => (x ++ r.1, r.2)

/-- The loop `while (msg[j] != '\0')` of `print_msg`, logger.c:75-141. -/
def wordLoop : List Nat → List Nat → Option (List Nat × List Nat)
  | s, [] => some ([], s)
  | s, _ :: t =>
    match oneChar s with
    | none => none
    | some (x, s) => (wordLoop s t).map fun r => (x ++ r.1, r.2)

/-- The rest of `print_msg`, logger.c:75-141, behind the second `return`: `s` are the octets from the first end of line on, `t` those
from the second one on. -/
def printMarked (color : Nat) (s t : List Nat) : Option (List Out) :=
  match caretLoop s t with
  | none => none
  | some (x, s, t) =>
    match wordLoop s t with
    | none => none
    | some (y, s) =>
      if 10 ∈ s then
        some (put x ++ [.color color] ++ put y ++ [.color COLOR_DEFAULT] ++ put (s.takeWhile (· ≠ 10)) ++ [.color color] ++
          put (s.dropWhile (· ≠ 10)) ++ put [10] ++ [.color COLOR_DEFAULT])
      else none

/-- `print_msg`, logger.c:75-141. -/
def printMsg (color : Nat) (msg : List Nat) : Option (List Out) :=
  match msg.dropWhile (· ≠ 10) with
  | [] => some ([.color COLOR_DEFAULT] ++ put msg ++ put [10])
  | b :: s =>
    match s.dropWhile (· ≠ 10) with
    | [] => some ([.color COLOR_DEFAULT] ++ put (msg.takeWhile (· ≠ 10)) ++ put (b :: s) ++ put [10])
    | d :: t => (printMarked color (b :: s) (d :: t)).map fun r => [.color COLOR_DEFAULT] ++ put (msg.takeWhile (· ≠ 10)) ++ r

/-- `default_log`, logger.c:144-164. -/
def defaultLog (tag msg : List Nat) (color : Nat) (tagLog : List Nat) : Option (List Out) :=
  (printMsg color msg).map fun r =>
    [.color COLOR_TAG] ++ put (tag ++ [58, 32]) ++ [.color color] ++ put (tagLog ++ [58, 32]) ++ r

/-- `TAG_ERROR`, `TAG_WARNING` and `TAG_NOTE`, logger.c:43-45. -/
def TAG_ERROR : List Nat := [208, 190, 209, 136, 208, 184, 208, 177, 208, 186, 208, 176]
def TAG_WARNING : List Nat :=
  [208, 191, 209, 128, 208, 181, 208, 180, 209, 131, 208, 191, 209, 128, 208, 181, 208, 182, 208, 180, 208, 181, 208, 189, 208, 184, 208, 181]
def TAG_NOTE : List Nat := [208, 191, 209, 128, 208, 184, 208, 188, 208, 181, 209, 135, 208, 176, 208, 189, 208, 184, 208, 181]

/-- `default_error_log`, logger.c:166-169, `default_warning_log`, logger.c:171-174, and `default_note_log`, logger.c:176-179. -/
def defaultOf (tag msg : List Nat) : Kind → Option (List Out)
  | .error => defaultLog tag msg COLOR_ERROR TAG_ERROR
  | .warning => defaultLog tag msg COLOR_WARNING TAG_WARNING
  | .note => defaultLog tag msg COLOR_NOTE TAG_NOTE

end RuC.Logger
