import Verif.Llvm.Model
import Verif.Listing.Model

/-!
# The text that libs/compiler/llvmgen.c prints for the instructions of `Verif/Llvm/Model.lean`

A text is a list of pieces: what stands in a format, and what is printed for its arguments.  `%zu` and
`%" PRIitem "` print decimal numbers.  The names of functions (see `Verif/Names`), their types and the lengths of
strings are parameters.  Instructions for floating values are not printed here.
-/

namespace RuC.LlvmText
open RuC RuC.Llvm

/-- The codes of a text. -/
def codes (s : String) : List Nat := s.toList.map Char.toNat

/-- A piece of text. -/
inductive Seg
  /-- from a format -/
  | lit (s : String)
  /-- a word with a number or a name -/
  | wd (w : List Nat)

/-- Its characters. -/
def Seg.text : Seg → List Nat
  | .lit s => codes s
  | .wd w => w

/-- The characters of pieces, one after the other. -/
def text (l : List Seg) : List Nat := l.flatMap Seg.text

/-- What the generator asks the tables of the compiler. -/
structure Env where
  /-- `func_name_to_io`, llvmgen.c:132-144 -/
  name : Nat → List Nat
  /-- the type of a function: the result and the parameters; nothing for `...` -/
  sig : Nat → Option Ty × List (Option Ty)
  /-- `strings_length`, syntax.c:988-991 -/
  len : Nat → Nat

/-- `type_to_io`, llvmgen.c:146-242; a string is an array of characters. -/
def tyText : Ty → String
  | .int => "i32"
  | .bool => "i1"
  | .str => "i8*"

/-- `operation_to_io`, llvmgen.c:244-319, arithmetic on integers. -/
def opText : Arith → String
  | .mul => "mul nsw"
  | .div => "sdiv"
  | .rem => "srem"
  | .add => "add nsw"
  | .sub => "sub nsw"
  | .shl => "shl"
  | .shr => "ashr"
  | .and => "and"
  | .xor => "xor"
  | .or => "or"

/-- `operation_to_io`, llvmgen.c:244-319, comparisons of integers. -/
def cmpText : Cmp → String
  | .lt => "icmp slt"
  | .gt => "icmp sgt"
  | .le => "icmp sle"
  | .ge => "icmp sge"
  | .eq => "icmp eq"
  | .ne => "icmp ne"

/-- `%%.%zu`. -/
def reg (r : Nat) : Seg := .wd (codes "%." ++ Locator.showNat r)

/-- `%s%s.%zu` of `to_code_load`, llvmgen.c:397-412, and others: the place of a variable. -/
def place (loc : Bool) (id : Nat) : Seg := .wd (codes (if loc then "%var." else "@var.") ++ Locator.showNat id)

/-- `%%label%zu`. -/
def lab (l : Nat) : Seg := .wd (codes "%label" ++ Locator.showNat l)

/-- `%%%s%zu`, llvmgen.c:1777: a label in `phi`. -/
def from_ (l : Nat) : Seg := if l = 0 then .wd (codes "%" ++ Locator.showNat 0) else lab l

/-- `%%dyn.%" PRIitem "`. -/
def dyn (k : Nat) : Seg := .wd (codes "%dyn." ++ Locator.showNat k)

/-- An operand: `%%.%zu`, `%" PRIitem "`, `%s`.  Strings are printed by `argSegs`. -/
def opd : Opd → Seg
  | .reg r => reg r
  | .int v => .wd (Listing.showInt v)
  | .bool b => .wd (codes (if b then "true" else "false"))
  | .str _ => .wd []

/-- The parameters in the type of a function, `type_to_io`, llvmgen.c:146-242. -/
def paramSegs : List (Option Ty) → List Seg
  | [] => [.lit ")"]
  | [p] => [.lit (match p with | some t => tyText t ++ ")" | none => "...)")]
  | p :: q :: l => .lit (match p with | some t => tyText t ++ ", " | none => "..., ") :: paramSegs (q :: l)

/-- The result in the type of a function. -/
def retText : Option Ty → String
  | some t => tyText t
  | none => "void"

/-- An argument of a call, `emit_call_expression`, llvmgen.c:990-1170. -/
def argSegs (env : Env) : Ty × Opd → List Seg
  | (_, .str i) => [.lit "i8* getelementptr inbounds ([", .wd (Locator.showNat (env.len i + 1)), .lit " x i8], [",
      .wd (Locator.showNat (env.len i + 1)), .lit " x i8]* ", .wd (codes "@.str" ++ Locator.showNat i), .lit ", i32 0, i32 0)"]
  | (t, o) => [.lit (tyText t ++ " "), opd o]

/-- The arguments of a call, `emit_call_expression`, llvmgen.c:990-1170. -/
def argsSegs (env : Env) : List (Ty × Opd) → List Seg
  | [] => [.lit ")\n"]
  | [a] => argSegs env a ++ [.lit ")\n"]
  | a :: b :: l => argSegs env a ++ .lit ", " :: argsSegs env (b :: l)

/-- The rows of `emit_switch_statement`, llvmgen.c:2860-2909. -/
def caseSegs : List (Int × Nat) → List Seg
  | [] => [.lit " ]\n"]
  | (v, l) :: t => .lit "  i32 " :: .wd (Listing.showInt v) :: .lit ", label " :: lab l :: .lit "\n" :: caseSegs t

/-- What is printed for an instruction: `to_code_operation_reg_reg`, llvmgen.c:321-329, `to_code_operation_reg_const_integer`,
llvmgen.c:331-339, `to_code_operation_reg_const_bool`, llvmgen.c:341-349, `to_code_operation_const_reg_integer`, llvmgen.c:359-367,
`to_code_load`, llvmgen.c:397-412, `to_code_store_reg`, llvmgen.c:414-422, `to_code_store_const_integer`, llvmgen.c:424-432,
`to_code_store_const_bool`, llvmgen.c:434-439, `to_code_label`, llvmgen.c:457-460, `to_code_unconditional_branch`, llvmgen.c:462-465,
`to_code_conditional_branch`, llvmgen.c:467-471, `to_code_stack_save`, llvmgen.c:473-483, `to_code_stack_load`, llvmgen.c:485-494;
`emit_unary_expression`, llvmgen.c:1307-1476 (`abs`), `emit_binary_expression`, llvmgen.c:1679-1807, `emit_ternary_expression`,
llvmgen.c:1815-1881 (`phi`; its labels are never 0), `emit_call_expression`, llvmgen.c:990-1170, `emit_variable_declaration`,
llvmgen.c:2203-2412, `emit_function_definition`, llvmgen.c:2420-2504, `emit_return_statement`, llvmgen.c:2781-2820,
`emit_switch_statement`, llvmgen.c:2860-2909. -/
def segs (env : Env) : Instr → List Seg
  | .arith r op a b => [.lit " ", reg r, .lit " = ", .lit (opText op ++ " "), .lit "i32 ", opd a, .lit ", ", opd b, .lit "\n"]
  | .cmp r op t a b => [.lit " ", reg r, .lit " = ", .lit (cmpText op ++ " "), .lit (tyText t ++ " "), opd a, .lit ", ", opd b, .lit "\n"]
  | .flip r a => [.lit " ", reg r, .lit " = ", .lit (opText .xor ++ " "), .lit "i1 ", reg a, .lit ", ", .wd (codes "true"), .lit "\n"]
  | .float _ => []
  | .abs r a => [.lit " ", reg r, .lit " = call ", .lit "i32 ", .lit "@abs(", .lit "i32 ", reg a, .lit ")\n"]
  | .load r t loc id => [.lit " ", reg r, .lit " = load ", .lit (tyText t ++ ", "), .lit (tyText t ++ "* "), place loc id, .lit ", align 4\n"]
  | .store t a loc id => [.lit " store ", .lit (tyText t ++ " "), opd a, .lit ", ", .lit (tyText t ++ "* "), place loc id, .lit ", align 4\n"]
  | .alloca id t => [.lit " ", place true id, .lit " = alloca ", .lit (tyText t ++ ", "), .lit "align 4\n"]
  | .param t i id => [.lit " store ", .lit (tyText t ++ " "), .wd (codes "%" ++ Locator.showNat i), .lit ", ", .lit (tyText t ++ "* "),
      place true id, .lit ", align 4\n"]
  | .label l => [.lit " ", .wd (codes "label" ++ Locator.showNat l ++ codes ":"), .lit "\n"]
  | .br l => [.lit " br label ", lab l, .lit "\n"]
  | .cbr r a b => [.lit " br i1 ", reg r, .lit ", label ", lab a, .lit ", label ", lab b, .lit "\n"]
  | .phi r t a x b y => [.lit " ", reg r, .lit " = phi ", .lit (tyText t ++ " "), .lit "[ ", opd a, .lit ", ", from_ x, .lit " ], [ ", opd b,
      .lit ", ", from_ y, .lit " ]\n"]
  | .call r f args => (match r with | some r => [.lit " ", reg r, .lit " = call "] | none => [.lit " call "]) ++
      .lit (retText (env.sig f).1 ++ " (") :: paramSegs (env.sig f).2 ++ .lit " " :: .wd (codes "@" ++ env.name f) :: .lit "(" :: argsSegs env args
  | .ret none => [.lit " ret void\n"]
  | .ret (some (t, a)) => [.lit " ret ", .lit (tyText t ++ " "), opd a, .lit "\n"]
  | .unreachable => [.lit " unreachable\n"]
  | .save k r => [.lit " ", dyn k, .lit " = alloca i8*, align 4\n", .lit " ", reg r, .lit " = call i8* @llvm.stacksave()\n", .lit " store i8* ",
      reg r, .lit ", i8** ", dyn k, .lit ", align 4\n"]
  | .restore k r => [.lit " ", reg r, .lit " = load i8*, i8** ", dyn k, .lit ", align 4\n", .lit " call void @llvm.stackrestore(i8* ", reg r,
      .lit ")\n"]
  | .switch r d t => .lit " switch " :: .lit "i32 " :: reg r :: .lit ", label " :: lab d :: .lit " [\n" :: caseSegs t

/-- A printed function: its name, its type and its instructions. -/
structure Fn where
  id : Nat
  ret : Option Ty
  params : List Ty
  code : List Instr
  deriving DecidableEq, Repr

/-- `emit_function_definition`, llvmgen.c:2420-2504. -/
def fnSegs (env : Env) (f : Fn) : List Seg :=
  .lit "define " :: .lit (retText f.ret ++ " ") :: .wd (codes "@" ++ env.name f.id) :: .lit "(" :: paramSegs (f.params.map some) ++
    .lit " {\n" :: f.code.flatMap (segs env) ++ [.lit "}\n\n"]

/-- `emit_translation_unit`, llvmgen.c:3004-3045: the text of the functions. -/
def unitText (env : Env) (fs : List Fn) : List Nat := text (fs.flatMap (fnSegs env))

/-- What the generator made of a function, as it is printed; `main` gives a number, whatever its type is: `emit_function_definition`,
llvmgen.c:2420-2504. -/
def printed (main : Nat) (d : Func × List Instr) : Fn :=
  ⟨d.1.id, if d.1.id = main then some .int else d.1.ret, d.1.params.map (·.2), d.2⟩

/-! ## Strings -/

/-- A character of a string in `strings_declaration`, llvmgen.c:3094-3119. -/
def charText (c : Nat) : List Nat := if c = 10 then codes "\\0A" else [c]

/-- The text of a string in `strings_declaration`, llvmgen.c:3094-3119. -/
def stringText (i : Nat) (s : List Nat) : List Nat :=
  codes "@.str" ++ Locator.showNat i ++ codes " = private unnamed_addr constant [" ++ Locator.showNat (s.length + 1) ++ codes " x i8] c\"" ++
    s.flatMap charText ++ codes "\\00\", align 1\n"

/-- The loop of `strings_declaration`, llvmgen.c:3094-3119, from the string number `i`. -/
def stringsFrom (i : Nat) : List (List Nat) → List Nat
  | [] => codes " \n"
  | s :: l => stringText i s ++ stringsFrom (i + 1) l

/-- `strings_declaration`, llvmgen.c:3094-3119. -/
def stringsText (l : List (List Nat)) : List Nat := stringsFrom 0 l

end RuC.LlvmText
