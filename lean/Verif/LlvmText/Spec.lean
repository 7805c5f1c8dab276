import Verif.Llvm.Model
import Verif.Names.Spec

/-!
# Reading LLVM text

A reader of the part of the language of the LLVM Language Reference Manual that the generator uses.  First the text is cut
into words at blanks and punctuation; a word is a keyword, a register `%.5`, a variable `%var.5` or `@var.5`, a saved stack `%dyn.5`, a
label `%label5` or `label5:`, an unnamed value `%5`, a number, a string `@.str5` or a function `@name`.  Then the instructions are
read from the words.
-/

namespace RuC.LlvmText
open RuC RuC.Llvm

/-- Keywords, and the functions that the text declares itself. -/
inductive Kw
  | add | nsw | sub | mul | sdiv | srem | shl | ashr | and | xor | or
  | icmp | eq | ne | slt | sgt | sle | sge
  | i1 | i8 | i32 | void | dots
  | load | store | alloca | align | br | label | phi | call | ret | unreachable | switch
  | getelementptr | inbounds | x | true | false | define | stacksave | stackrestore
  deriving DecidableEq, Repr

/-- How they are written. -/
def keywords : List (String × Kw) := [("add", .add), ("nsw", .nsw), ("sub", .sub), ("mul", .mul), ("sdiv", .sdiv), ("srem", .srem), ("shl", .shl),
  ("ashr", .ashr), ("and", .and), ("xor", .xor), ("or", .or), ("icmp", .icmp), ("eq", .eq), ("ne", .ne), ("slt", .slt), ("sgt", .sgt),
  ("sle", .sle), ("sge", .sge), ("i1", .i1), ("i8", .i8), ("i32", .i32), ("void", .void), ("...", .dots), ("load", .load), ("store", .store),
  ("alloca", .alloca), ("align", .align), ("br", .br), ("label", .label), ("phi", .phi), ("call", .call), ("ret", .ret),
  ("unreachable", .unreachable), ("switch", .switch), ("getelementptr", .getelementptr), ("inbounds", .inbounds), ("x", .x),
  ("true", .true), ("false", .false), ("define", .define), ("@llvm.stacksave", .stacksave), ("@llvm.stackrestore", .stackrestore)]

/-- Words and punctuation. -/
inductive Tok
  | kw (k : Kw)
  | reg (n : Nat)
  | var (n : Nat)
  | glob (n : Nat)
  | dyn (n : Nat)
  | lab (n : Nat)
  | labDef (n : Nat)
  | arg (n : Nat)
  | str (n : Nat)
  | int (v : Int)
  | fn (name : List Nat)
  | comma | lpar | rpar | lbr | rbr | lcurl | rcurl | star | eq
  | bad
  deriving DecidableEq, Repr

/-- The characters of a string literal. -/
def chars (s : String) : List Nat := s.toList.map Char.toNat

/-- Decimal digits. -/
def numeral (w : List Nat) : Option Nat :=
  if w ≠ [] ∧ ∀ c ∈ w, 48 ≤ c ∧ c ≤ 57 then some (w.foldl (fun n d => 10 * n + (d - 48)) 0) else none

/-- A prefix and a number. -/
def numbered (p : String) (w : List Nat) : Option Nat :=
  if (chars p).isPrefixOf w then numeral (w.drop (chars p).length) else none

/-- A number with an optional minus. -/
def integer : List Nat → Option Int
  | 45 :: w => (numeral w).map fun (n : Nat) => -(n : Int)
  | w => (numeral w).map fun (n : Nat) => (n : Int)

/-- `label5:`. -/
def labelled (w : List Nat) : Option Nat := if w.getLast? = some 58 then numbered "label" w.dropLast else none

/-- The first answer. -/
def firstOf : List (Option Tok) → Tok
  | [] => .bad
  | some t :: _ => t
  | none :: l => firstOf l

/-- What a word is. -/
def classify (w : List Nat) : Tok :=
  firstOf [((keywords.map fun p => (chars p.1, p.2)).lookup w).map .kw, (numbered "%." w).map .reg, (numbered "%var." w).map .var,
    (numbered "@var." w).map .glob, (numbered "%dyn." w).map .dyn, (numbered "%label" w).map .lab, (numbered "%" w).map .arg,
    (numbered "@.str" w).map .str, (labelled w).map .labDef, (integer w).map .int, if w.head? = some 64 then some (.fn w.tail) else none]

/-- Punctuation and blanks; a blank is nothing. -/
def separator (c : Nat) : Option (List Tok) :=
  if c = 32 ∨ c = 10 then some []
  else if c = 44 then some [.comma]
  else if c = 40 then some [.lpar]
  else if c = 41 then some [.rpar]
  else if c = 91 then some [.lbr]
  else if c = 93 then some [.rbr]
  else if c = 123 then some [.lcurl]
  else if c = 125 then some [.rcurl]
  else if c = 42 then some [.star]
  else if c = 61 then some [.eq]
  else none

/-- The word read so far. -/
def flush (w : List Nat) : List Tok := if w = [] then [] else [classify w]

/-- The words of a text; `w` is the word read so far. -/
def cut (w : List Nat) : List Nat → List Tok
  | [] => flush w
  | c :: s =>
    match separator c with
    | some t => flush w ++ t ++ cut [] s
    | none => cut (w ++ [c]) s

/-- The words of a text. -/
def words (s : List Nat) : List Tok := cut [] s

/-! ## Instructions -/

/-- These words must follow. -/
def expect : List Tok → List Tok → Option (List Tok)
  | [], r => some r
  | t :: ts, u :: r => if t = u then expect ts r else none
  | _ :: _, [] => none

/-- A type. -/
def readTy : List Tok → Option (Ty × List Tok)
  | .kw .i32 :: r => some (.int, r)
  | .kw .i1 :: r => some (.bool, r)
  | .kw .i8 :: .star :: r => some (.str, r)
  | _ => none

/-- A type or `void`. -/
def readRet : List Tok → Option (Option Ty × List Tok)
  | .kw .void :: r => some (none, r)
  | r => (readTy r).map fun x => (some x.1, x.2)

/-- An operand. -/
def readOpd : List Tok → Option (Opd × List Tok)
  | .reg n :: r => some (.reg n, r)
  | .int v :: r => some (.int v, r)
  | .kw .true :: r => some (.bool true, r)
  | .kw .false :: r => some (.bool false, r)
  | _ => none

/-- The place of a variable: whether it is local, and its number. -/
def readPlace : List Tok → Option ((Bool × Nat) × List Tok)
  | .var n :: r => some ((true, n), r)
  | .glob n :: r => some ((false, n), r)
  | _ => none

/-- A label: the first block of a function without parameters is `%0`. -/
def readFrom : List Tok → Option (Nat × List Tok)
  | .lab n :: r => some (n, r)
  | .arg 0 :: r => some (0, r)
  | _ => none

/-- `, align 4`. -/
def aligned : List Tok := [.comma, .kw .align, .int 4]

/-- An arithmetical instruction. -/
def readOp : List Tok → Option (Arith × List Tok)
  | .kw .add :: .kw .nsw :: r => some (.add, r)
  | .kw .sub :: .kw .nsw :: r => some (.sub, r)
  | .kw .mul :: .kw .nsw :: r => some (.mul, r)
  | .kw .sdiv :: r => some (.div, r)
  | .kw .srem :: r => some (.rem, r)
  | .kw .shl :: r => some (.shl, r)
  | .kw .ashr :: r => some (.shr, r)
  | .kw .and :: r => some (.and, r)
  | .kw .xor :: r => some (.xor, r)
  | .kw .or :: r => some (.or, r)
  | _ => none

/-- A comparison. -/
def readCmp : List Tok → Option (Cmp × List Tok)
  | .kw .slt :: r => some (.lt, r)
  | .kw .sgt :: r => some (.gt, r)
  | .kw .sle :: r => some (.le, r)
  | .kw .sge :: r => some (.ge, r)
  | .kw .eq :: r => some (.eq, r)
  | .kw .ne :: r => some (.ne, r)
  | _ => none

/-- What the reader knows from the declarations: who has a name, the types of functions, the sizes of strings. -/
structure Tab where
  fn : List Nat → Option Nat
  sig : Nat → Option Ty × List (Option Ty)
  size : Nat → Nat

/-- An argument of a call: a string, or a value with its type. -/
def readArg (tab : Tab) (r : List Tok) : Option ((Ty × Opd) × List Tok) := do
  let (t, r) ← readTy r
  match r with
  | .kw .getelementptr :: .kw .inbounds :: .lpar :: .lbr :: .int m :: .kw .x :: .kw .i8 :: .rbr :: .comma ::
      .lbr :: .int n :: .kw .x :: .kw .i8 :: .rbr :: .star :: .str i :: r =>
    let r ← expect [.comma, .kw .i32, .int 0, .comma, .kw .i32, .int 0, .rpar] r
    if m = tab.size i ∧ n = tab.size i then some ((t, .str i), r) else none
  | r =>
    let (o, r) ← readOpd r
    some ((t, o), r)

/-- The arguments, up to the bracket. -/
def readArgs (tab : Tab) : Nat → List Tok → Option (List (Ty × Opd) × List Tok)
  | 0, _ => none
  | _ + 1, .rpar :: r => some ([], r)
  | n + 1, r => do
    let (a, r) ← readArg tab r
    match r with
    | .comma :: r =>
      let (l, r) ← readArgs tab n r
      some (a :: l, r)
    | .rpar :: r => some ([a], r)
    | _ => none

/-- The types of parameters, up to the bracket; nothing for `...`. -/
def readParams : Nat → List Tok → Option (List (Option Ty) × List Tok)
  | 0, _ => none
  | _ + 1, .rpar :: r => some ([], r)
  | n + 1, r => do
    let (p, r) ← (match r with | .kw .dots :: r => some (none, r) | r => (readTy r).map fun x => (some x.1, x.2))
    match r with
    | .comma :: r =>
      let (l, r) ← readParams n r
      some (p :: l, r)
    | .rpar :: r => some ([p], r)
    | _ => none

/-- Behind `call`: the type, the name (with the type of that function) and the arguments; `abs` is called by its name. -/
def readCall (tab : Tab) (d : Option Nat) (r : List Tok) : Option (Instr × List Tok) := do
  let (t, r) ← readRet r
  match r with
  | .lpar :: r =>
    let (ps, r) ← readParams (r.length + 1) r
    match r with
    | .fn name :: .lpar :: r =>
      let f ← tab.fn name
      if (t, ps) ≠ tab.sig f then none
      else
        let (l, r) ← readArgs tab (r.length + 1) r
        some (.call d f l, r)
    | _ => none
  | .fn name :: .lpar :: .kw .i32 :: .reg a :: .rpar :: r =>
    match d with
    | some d => if name = chars "abs" then some (.abs d a, r) else none
    | none => none
  | _ => none

/-- Behind `%.d =`. -/
def readRhs (tab : Tab) (d : Nat) : List Tok → Option (Instr × List Tok)
  | .kw .load :: r => do
    let (t, r) ← readTy r
    let r ← expect [.comma] r
    match r with
    | .kw .i8 :: .star :: .star :: .dyn k :: r =>
      let r ← expect (aligned ++ [.kw .call, .kw .void, .kw .stackrestore, .lpar, .kw .i8, .star, .reg d, .rpar]) r
      some (.restore k d, r)
    | r =>
      let (u, r) ← readTy r
      if t ≠ u then none
      else
        let r ← expect [.star] r
        let (p, r) ← readPlace r
        let r ← expect aligned r
        some (.load d t p.1 p.2, r)
  | .kw .phi :: r => do
    let (t, r) ← readTy r
    let r ← expect [.lbr] r
    let (a, r) ← readOpd r
    let r ← expect [.comma] r
    let (x, r) ← readFrom r
    let r ← expect [.rbr, .comma, .lbr] r
    let (b, r) ← readOpd r
    let r ← expect [.comma] r
    let (y, r) ← readFrom r
    let r ← expect [.rbr] r
    some (.phi d t a x b y, r)
  | .kw .icmp :: r => do
    let (op, r) ← readCmp r
    let (t, r) ← readTy r
    let (a, r) ← readOpd r
    let r ← expect [.comma] r
    let (b, r) ← readOpd r
    some (.cmp d op t a b, r)
  | .kw .call :: r => readCall tab (some d) r
  | r => do
    let (op, r) ← readOp r
    let (t, r) ← readTy r
    let (a, r) ← readOpd r
    let r ← expect [.comma] r
    let (b, r) ← readOpd r
    match t, op, a, b with
    | .int, op, a, b => some (.arith d op a b, r)
    | .bool, .xor, .reg a, .bool true => some (.flip d a, r)
    | _, _, _, _ => none

/-- The rows of a `switch`. -/
def readCases : Nat → List Tok → Option (List (Int × Nat) × List Tok)
  | 0, _ => none
  | _ + 1, .rbr :: r => some ([], r)
  | n + 1, .kw .i32 :: .int v :: .comma :: .kw .label :: .lab l :: r => do
    let (t, r) ← readCases n r
    some ((v, l) :: t, r)
  | _ + 1, _ => none

/-- An instruction that begins with a keyword. -/
def readKw (tab : Tab) : Kw → List Tok → Option (Instr × List Tok)
  | .br, .kw .label :: .lab l :: r => some (.br l, r)
  | .br, .kw .i1 :: .reg c :: .comma :: .kw .label :: .lab a :: .comma :: .kw .label :: .lab b :: r => some (.cbr c a b, r)
  | .unreachable, r => some (.unreachable, r)
  | .ret, .kw .void :: r => some (.ret none, r)
  | .ret, r => do
    let (t, r) ← readTy r
    let (a, r) ← readOpd r
    some (.ret (some (t, a)), r)
  | .store, r => do
    let (t, r) ← readTy r
    match r with
    | .arg i :: r =>
      let r ← expect [.comma] r
      let (u, r) ← readTy r
      if t ≠ u then none
      else
        let r ← expect [.star] r
        let (p, r) ← readPlace r
        let r ← expect aligned r
        if p.1 then some (.param t i p.2, r) else none
    | r =>
      let (a, r) ← readOpd r
      let r ← expect [.comma] r
      let (u, r) ← readTy r
      if t ≠ u then none
      else
        let r ← expect [.star] r
        let (p, r) ← readPlace r
        let r ← expect aligned r
        some (.store t a p.1 p.2, r)
  | .call, r => readCall tab none r
  | .switch, .kw .i32 :: .reg c :: .comma :: .kw .label :: .lab d :: .lbr :: r => do
    let (t, r) ← readCases (r.length + 1) r
    some (.switch c d t, r)
  | _, _ => none

/-- An instruction. -/
def readI (tab : Tab) : List Tok → Option (Instr × List Tok)
  | .labDef l :: r => some (.label l, r)
  | .kw k :: r => readKw tab k r
  | .var id :: .eq :: .kw .alloca :: r => do
    let (t, r) ← readTy r
    let r ← expect aligned r
    some (.alloca id t, r)
  | .dyn k :: .eq :: .kw .alloca :: r => do
    let r ← expect ([.kw .i8, .star] ++ aligned) r
    match r with
    | .reg d :: r =>
      let r ← expect ([.eq, .kw .call, .kw .i8, .star, .kw .stacksave, .lpar, .rpar, .kw .store, .kw .i8, .star, .reg d, .comma, .kw .i8, .star, .star,
        .dyn k] ++ aligned) r
      some (.save k d, r)
    | _ => none
  | .reg d :: .eq :: r => readRhs tab d r
  | _ => none

/-- The instructions of a function, up to the bracket. -/
def readBody (tab : Tab) : Nat → List Tok → Option (List Instr × List Tok)
  | 0, _ => none
  | _ + 1, .rcurl :: r => some ([], r)
  | n + 1, r => do
    let (i, r) ← readI tab r
    let (l, r) ← readBody tab n r
    some (i :: l, r)

/-! ## What is printed -/

/-- Strings are operands of calls only. -/
def Value : Opd → Prop
  | .str _ => False
  | _ => True

/-- A string is passed as a string. -/
def Arg : Ty × Opd → Prop
  | (t, .str _) => t = .str
  | _ => True

/-- A name of a function: Latin letters, digits and `_`. -/
def NameOk (name : List Nat) : Prop := name ≠ [] ∧ ∀ c ∈ name, Names.Plain c

/-- Instructions without floating values that call functions known by their names. -/
def Printable (name : Nat → List Nat) (ref : List Nat → Option Nat) : Instr → Prop
  | .float _ => False
  | .arith _ _ a b => Value a ∧ Value b
  | .cmp _ _ _ a b => Value a ∧ Value b
  | .store _ a _ _ => Value a
  | .phi _ _ a _ b _ => Value a ∧ Value b
  | .call _ f args => NameOk (name f) ∧ ref (name f) = some f ∧ ∀ a ∈ args, Arg a
  | .ret (some (_, a)) => Value a
  | _ => True

/-! ## Trees without floating values -/

/-- The value is not a string. -/
def valued : Exp → Bool
  | .str _ => false
  | .not e => valued e
  | .comma _ r => valued r
  | .assign none _ _ e => valued e
  | .call _ ret _ => ret.isSome
  | _ => true

/-- A string that stands for itself. -/
def literal : Exp → Bool
  | .str _ => true
  | _ => false

mutual
/-- Arithmetic and comparisons are on integers, arguments are values or strings, and the functions called are known (`K`). -/
def TextE (K : Nat → Prop) : Exp → Prop
  | .un _ e => TextE K e
  | .not e => TextE K e
  | .arith _ l r => l.ty = some .int ∧ TextE K l ∧ TextE K r
  | .cmp _ l r => l.ty = some .int ∧ TextE K l ∧ TextE K r
  | .logic _ l r => TextE K l ∧ TextE K r
  | .comma l r => TextE K l ∧ TextE K r
  | .ternary c a b => TextE K c ∧ TextE K a ∧ TextE K b
  | .assign _ _ _ e => TextE K e
  | .call f _ args => K f ∧ TextA K args
  | _ => True

/-- The same for arguments. -/
def TextA (K : Nat → Prop) : Args → Prop
  | .nil => True
  | .cons e rest => (literal e = true ∨ valued e = true) ∧ TextE K e ∧ TextA K rest
end

/-- The same for an expression that may be missing. -/
def TextO (K : Nat → Prop) : Option Exp → Prop
  | some e => TextE K e
  | none => True

mutual
/-- The same for statements. -/
def TextS (K : Nat → Prop) : Stmt → Prop
  | .expr e => TextE K e
  | .decls l => ∀ d ∈ l, TextO K d.2.2
  | .if_ c a => TextE K c ∧ TextS K a
  | .ifElse c a b => TextE K c ∧ TextS K a ∧ TextS K b
  | .while_ c b => TextE K c ∧ TextS K b
  | .do_ b c => TextS K b ∧ TextE K c
  | .for_ i c inc b => TextS K i ∧ TextO K c ∧ TextO K inc ∧ TextS K b
  | .block b => TextB K b
  | .switch_ e b => TextE K e ∧ TextB K b
  | .case_ v b => TextE K v ∧ TextS K b
  | .default_ b => TextS K b
  | .return_ e => TextO K e
  | _ => True

/-- The same for the statements of a block. -/
def TextB (K : Nat → Prop) : Stmts → Prop
  | .nil => True
  | .cons s rest => TextS K s ∧ TextB K rest
end

/-- A function: its number, its result, its parameters and its instructions. -/
def readFn (tab : Tab) : List Tok → Option ((Nat × Option Ty × List (Option Ty) × List Instr) × List Tok)
  | .kw .define :: r => do
    let (t, r) ← readRet r
    match r with
    | .fn name :: .lpar :: r =>
      let f ← tab.fn name
      let (ps, r) ← readParams (r.length + 1) r
      let r ← expect [.lcurl] r
      let (l, r) ← readBody tab (r.length + 1) r
      some ((f, t, ps, l), r)
    | _ => none
  | _ => none

/-- Functions, up to the end of the text. -/
def readFns (tab : Tab) : Nat → List Tok → Option (List (Nat × Option Ty × List (Option Ty) × List Instr))
  | _, [] => some []
  | 0, _ :: _ => none
  | n + 1, t :: r => do
    let (f, r) ← readFn tab (t :: r)
    let l ← readFns tab n r
    some (f :: l)

/-- What a text defines. -/
def read (tab : Tab) (s : List Nat) : Option (List (Nat × Option Ty × List (Option Ty) × List Instr)) :=
  readFns tab (words s).length (words s)

/-! ## Strings -/

/-- The value of a hexadecimal digit. -/
def hex (c : Nat) : Option Nat :=
  if 48 ≤ c ∧ c ≤ 57 then some (c - 48)
  else if 65 ≤ c ∧ c ≤ 70 then some (c - 55)
  else if 97 ≤ c ∧ c ≤ 102 then some (c - 87)
  else none

/-- The value of two hexadecimal digits. -/
def byte (a b : Nat) : Option Nat :=
  match hex a, hex b with
  | some x, some y => some (16 * x + y)
  | _, _ => none

/-- What stands between the quotes of `c"..."`: two backslashes are one, a backslash with two hexadecimal digits is a byte. -/
def unescape : List Nat → List Nat
  | [] => []
  | 92 :: 92 :: r => 92 :: unescape r
  | 92 :: a :: b :: r =>
    match byte a b with
    | some c => c :: unescape r
    | none => 92 :: unescape (a :: b :: r)
  | c :: r => c :: unescape r

/-- This text must follow. -/
def skip (p : String) (s : List Nat) : Option (List Nat) := if (chars p).isPrefixOf s then some (s.drop (chars p).length) else none

/-- A number, and the rest. -/
def number (s : List Nat) : Option (Nat × List Nat) :=
  (numeral (s.takeWhile fun c => decide (48 ≤ c ∧ c ≤ 57))).map fun n => (n, s.dropWhile fun c => decide (48 ≤ c ∧ c ≤ 57))

/-- A string: its number, its declared size, its bytes. -/
def readString (s : List Nat) : Option ((Nat × Nat × List Nat) × List Nat) := do
  let s ← skip "@.str" s
  let (i, s) ← number s
  let s ← skip " = private unnamed_addr constant [" s
  let (n, s) ← number s
  let s ← skip " x i8] c\"" s
  let body := unescape (s.takeWhile fun c => decide (c ≠ 34))
  let s ← skip "\", align 1\n" (s.dropWhile fun c => decide (c ≠ 34))
  some ((i, n, body), s)

/-- Strings, up to the empty line. -/
def readStrings : Nat → List Nat → Option (List (Nat × Nat × List Nat))
  | 0, _ => none
  | n + 1, s =>
    if s = chars " \n" then some []
    else do
      let (x, s) ← readString s
      let l ← readStrings n s
      some (x :: l)

end RuC.LlvmText
