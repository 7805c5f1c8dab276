import Verif.Driver.Model

/-!
# What the driver should answer
-/

namespace RuC.Driver

open RuC RuC.Workspace

/-- What is shown of some reports: all; or, without recovery, those up to the first error. -/
def visible (disabled : Bool) (ms : List Report) : List Report :=
  if disabled then ms.takeWhile (fun m => !m.isError) ++ (ms.filter (·.isError)).take 1 else ms

/-- A phase: the status when it fails, the calls it makes, whether it fails. -/
structure Phase where
  status : Status
  acts : List Act
  fails : Bool

/-- The status of the first phase that fails. -/
def verdict : List Phase → Status
  | [] => .success
  | p :: rest => if p.fails then p.status else verdict rest

/-- The calls of the phases up to the first that fails. -/
def performed : List Phase → List Act
  | [] => []
  | p :: rest => if p.fails then p.acts else p.acts ++ performed rest

/-- The files the preprocessor is called on: all; or, without recovery, those up to the first that fails, none when a `-D`
is wrong. -/
def filesSeen (w : World) (disabled : Bool) (n : Nat) : List Nat :=
  if disabled then (if w.badDefine then [] else (List.range n).takeWhile (fun i => !w.badSource i) ++ ((List.range n).filter w.badSource).take 1)
  else List.range n

/-- Some file or a `-D` is wrong. -/
def macroFails (w : World) (n : Nat) : Bool := w.badDefine || (List.range n).any w.badSource

def codegenStatus : Target → Status
  | .vm => .virtul_error
  | .llvm => .llvm_error
  | .mips => .codegen_error

/-- The phases of a compilation. -/
def phases (w : World) (ws : Ws) (t : Target) : List Phase :=
  let n := ws.files.length
  let seen := (filesSeen w (wsHasFlag ws flagWno) n).map Act.preprocess
  let input : Phase := ⟨.system_error, [], ws.wasError || ws.files.isEmpty⟩
  let out := some (if ws.output = [] then defaultOutput t else ws.output)
  if wsHasFlag ws flagE then
    [input, ⟨.macro_error, [], !w.output⟩, ⟨.macro_error, seen, macroFails w n⟩] ++
      (if t = .vm then [⟨.success, [.chmod out], false⟩] else [])
  else
    [input, ⟨.macro_error, [], !w.buffer⟩, ⟨.macro_error, seen, macroFails w n⟩, ⟨.system_error, [], !w.output⟩,
      ⟨.parse_error, [.parse], w.parsed.any (·.isError)⟩] ++
    (if wsHasFlag ws flagC then [] else [⟨.link_error, [.link], decide (w.refMain = 0) || w.predef.any fun x => decide (x ≠ 0)⟩]) ++
    [⟨codegenStatus t, [.encode t out], (w.encoded t).any (·.isError) || (decide (t = .vm) && w.badExport)⟩] ++
    (if t = .vm then [⟨.success, [.chmod out], false⟩] else [])

/-- The encoder the flags ask for. -/
def target (ws : Ws) : Target := if wsHasFlag ws flagLLVM then .llvm else if wsHasFlag ws flagMIPS then .mips else .vm

end RuC.Driver
