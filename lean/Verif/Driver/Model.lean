import Verif.Io.Model
import Verif.Workspace.Model

/-!
# The reporter and the driver of the compiler

What the phases answer comes from outside (`World`); modelled is how the driver calls them, what it answers, and how
reports are counted.  Every call of a phase is noted in the list of acts.
-/

namespace RuC.Driver

open RuC RuC.Workspace
open RuC.Io (In inSetPosition)

/-! ### Reports -/

/-- A call of `report_error` or `report_warning`: the number of the message and the location. -/
inductive Report
  | error (num : Nat) (loc : Nat)
  | warning (num : Nat) (loc : Nat)
  deriving DecidableEq

def Report.isError : Report → Bool
  | .error _ _ => true
  | .warning _ _ => false

def Report.loc : Report → Nat
  | .error _ l | .warning _ l => l

/-- `reporter`, reporter.h:29-35, the input it reads source lines from, and what was printed. -/
structure Reporter where
  errors : Nat
  warnings : Nat
  disabled : Bool
  io : In
  shown : List Report

/-- `"-Wno"`. -/
def flagWno : List Nat := [45, 87, 110, 111]

/-- `reporter_create`, reporter.c:21-29. -/
def reporterCreate (ws : Ws) (io : In) : Reporter := ⟨0, 0, wsHasFlag ws flagWno, io, []⟩

/-- `report_error`, reporter.c:36-50, and `report_warning`, reporter.c:52-66.  `look` is where printing the line of source
(`verror`, `vwarning`) leaves the position of the input. -/
def report (look : In → Nat) (r : Reporter) (m : Report) : Reporter :=
  if r.disabled ∧ r.errors ≠ 0 then r
  else
    let prev := r.io.position
    let io1 := (inSetPosition r.io m.loc).2
    let io2 := { io1 with position := look io1 }
    let io3 := (inSetPosition io2 prev).2
    match m with
    | .error _ _ => { r with errors := usz (r.errors + 1), io := io3, shown := r.shown ++ [m] }
    | .warning _ _ => { r with warnings := usz (r.warnings + 1), io := io3, shown := r.shown ++ [m] }

def reports (look : In → Nat) (r : Reporter) (ms : List Report) : Reporter := ms.foldl (report look) r

/-- `parse`, parser.c:2269-2289: the parser makes the reports `ms`. -/
def parse (look : In → Nat) (r : Reporter) (ms : List Report) : Int × Reporter :=
  let r1 := reports look r ms
  (if r1.errors = 0 then 0 else -1, r1)

/-! ### The driver -/

/-- `status_t`, compiler.h:31-44. -/
inductive Status
  | success | system_error | test_error | macro_error | parse_error | link_error | optimize_error | codegen_error | virtul_error | llvm_error
  | mips_error
  deriving DecidableEq

inductive Target
  | vm | llvm | mips
  deriving DecidableEq

/-- What is called: the preprocessor on a file, the parser, the check of tables, an encoder for an output file, the change
of the mode of the output file. -/
inductive Act
  | preprocess (file : Nat)
  | parse
  | link
  | encode (t : Target) (output : Option (List Nat))
  | chmod (output : Option (List Nat))
  deriving DecidableEq

/-- What the phases answer. -/
structure World where
  /-- `ws_parse` finds a wrong `-D` -/
  badDefine : Bool
  /-- `parser_preprocess` fails on the file -/
  badSource : Nat → Bool
  /-- the buffer for the text is granted -/
  buffer : Bool
  /-- the output file can be opened -/
  output : Bool
  /-- the text to be parsed -/
  text : List Nat
  /-- the reports of the parser -/
  parsed : List Report
  /-- `ref_main` and the table of functions declared and not defined -/
  refMain : Nat
  predef : List Int
  /-- the reports of the encoder -/
  encoded : Target → List Report
  /-- `enc_export` fails -/
  badExport : Bool
  look : In → Nat

/-- `"-c"`, `"-E"`, `"-LLVM"`, `"-MIPS"`. -/
def flagC : List Nat := [45, 99]
def flagE : List Nat := [45, 69]
def flagLLVM : List Nat := [45, 76, 76, 86, 77]
def flagMIPS : List Nat := [45, 77, 73, 80, 83]

/-- The loop over the files in `macro_form_io`, macro.c:109-136; `n` files from `i` on are left. -/
def macroLoop (w : World) (disabled : Bool) : Nat → Nat → Bool → Bool × List Act
  | 0, _, ret => (ret, [])
  | n + 1, i, ret =>
    if ret && disabled then (ret, [])
    else
      let r := macroLoop w disabled n (i + 1) (ret || w.badSource i)
      (r.1, .preprocess i :: r.2)

/-- `macro_form_io`, macro.c:109-136: whether it fails.  Not modelled: what including files does to the workspace. -/
def macroFormIo (w : World) (ws : Ws) : Bool × List Act := macroLoop w (wsHasFlag ws flagWno) (wsGetFilesNum ws) 0 w.badDefine

/-- `macro`, macro.c:148-172: whether it answers `NULL`. -/
def macro_ (w : World) (ws : Ws) : Bool × List Act :=
  if wsGetFilesNum ws = 0 then (true, []) else if !w.buffer then (true, []) else macroFormIo w ws

/-- `macro_to_file`, macro.c:174-193: whether it fails. -/
def macroToFile (w : World) (ws : Ws) : Bool × List Act :=
  if wsGetFilesNum ws = 0 then (true, []) else if !w.output then (true, []) else macroFormIo w ws

/-- `sx_is_correct`, syntax.c:287-311. -/
def sxIsCorrect (r : Reporter) (w : World) : Bool :=
  if r.errors ≠ 0 then true else !(decide (w.refMain = 0) || w.predef.any fun x => decide (x ≠ 0))

/-- `encode_to_vm`, codegen.c:2044-2068, `encode_to_llvm`, llvmgen.c:3222-3266, `encode_to_mips`, mipsgen.c:3937-3970:
whether they fail, for a correct workspace. -/
def encode (w : World) (t : Target) (r : Reporter) : Bool :=
  let r1 := reports w.look r (w.encoded t)
  match t with
  | .vm => if r1.errors ≠ 0 then true else w.badExport
  | _ => decide (r1.errors ≠ 0)

/-- `compile_from_io`, compiler.c:63-91; the input is a buffer. -/
def compileFromIo (w : World) (ws : Ws) (t : Target) : Status × List Act :=
  if !w.output then (.system_error, [])
  else
    let (ret, r) := parse w.look (reporterCreate ws (RuC.Io.inSetBuffer w.text)) w.parsed
    let bad := decide (ret ≠ 0)
    let linking := !bad && !wsHasFlag ws flagC
    let bad1 := if linking then !sxIsCorrect r w else bad
    let sts1 : Status := if linking then .link_error else .parse_error
    let acts1 := [Act.parse] ++ (if linking then [.link] else [])
    if bad1 then (sts1, acts1)
    else (if encode w t r then .codegen_error else .success, acts1 ++ [.encode t (wsGetOutput ws)])

/-- `compile_from_ws`, compiler.c:93-134, without `GENERATE_MACRO`. -/
def compileFromWs (w : World) (ws : Ws) (t : Target) : Status × List Act :=
  if ws.wasError ∨ wsGetFilesNum ws = 0 then (.system_error, [])
  else if wsHasFlag ws flagE then
    let (bad, acts) := macroToFile w ws
    (if bad then .macro_error else .success, acts)
  else
    let (bad, acts) := macro_ w ws
    if bad then (.macro_error, acts)
    else
      let (sts, acts1) := compileFromIo w ws t
      (sts, acts ++ acts1)

/-- `"out.ruc"`, `"out.ll"`, `"out.s"`. -/
def defaultOutput : Target → List Nat
  | .vm => [111, 117, 116, 46, 114, 117, 99]
  | .llvm => [111, 117, 116, 46, 108, 108]
  | .mips => [111, 117, 116, 46, 115]

/-- The workspace with an output: the beginning of `compile_to_vm`, compiler.c:162-176, and the others. -/
def withOutput (ws : Ws) (t : Target) : Option Ws :=
  if wsGetOutput ws = none then (wsSetOutput ws (defaultOutput t)).map (·.2) else some ws

/-- `compile_to_vm`, compiler.c:162-176. -/
def compileToVm (w : World) (ws : Ws) : Option (Status × List Act) :=
  (withOutput ws .vm).map fun ws =>
    let (sts, acts) := compileFromWs w ws .vm
    let acts1 := if sts = .success then acts ++ [.chmod (wsGetOutput ws)] else acts
    (if sts = .codegen_error then .virtul_error else sts, acts1)

/-- `compile_to_llvm`, compiler.c:178-187. -/
def compileToLlvm (w : World) (ws : Ws) : Option (Status × List Act) :=
  (withOutput ws .llvm).map fun ws =>
    let (sts, acts) := compileFromWs w ws .llvm
    (if sts = .codegen_error then .llvm_error else sts, acts)

/-- `compile_to_mips`, compiler.c:189-197. -/
def compileToMips (w : World) (ws : Ws) : Option (Status × List Act) :=
  (withOutput ws .mips).map fun ws => compileFromWs w ws .mips

/-- `compile`, compiler.c:146-160. -/
def compile (w : World) (ws : Ws) : Option (Status × List Act) :=
  if wsHasFlag ws flagLLVM then compileToLlvm w ws
  else if wsHasFlag ws flagMIPS then compileToMips w ws
  else compileToVm w ws

end RuC.Driver
