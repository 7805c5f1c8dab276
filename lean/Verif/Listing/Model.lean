import Verif.Instr.Model
import Verif.Locator.Model

/-!
# The listing of the code, libs/compiler/writer.c

`write_codes` writes the memory of the encoder into a file, an instruction to a line.

Simplifications.
* The memory is given by its cells, `vector_get` behind the end answers `ITEM_MAX`.
* `sprintf` into the buffer of 32 octets is taken to fit (the longest name has 13).
* `%f` of a `double` is a parameter: the text of the 64 bits.
-/

namespace RuC.Listing
open RuC RuC.Instr

/-- `elem_get_name`, writer.c:1102-2022: the instruction, the number of its operands, its name and the names of the operands. -/
def table : List (Int × Nat × String × List String) :=
  [
   (IC_COPY01, 2, "COPY01", ["displleft", "length"]),
   (IC_COPY10, 2, "COPY10", ["displright", "length"]),
   (IC_COPY11, 1, "COPY11", ["length"]),
   (IC_COPY0ST, 2, "COPY0ST", ["displleft", "length"]),
   (IC_COPY1ST, 1, "COPY1ST", ["length"]),
   (IC_COPY0ST_ASSIGN, 2, "COPY0STASS", ["displleft", "length"]),
   (IC_COPY1ST_ASSIGN, 1, "COPY1STASS", ["length"]),
   (IC_COPYST, 3, "COPYST", ["displ", "length", "length1"]),
   (IC_CALL1, 0, "CALL1", []),
   (IC_CALL2, 1, "CALL2", []),
   (IC_CREATE, 0, "TCREATE", []),
   (IC_EXIT, 0, "TEXIT", []),
   (IC_MSG_SEND, 0, "TMSGSEND", []),
   (IC_MSG_RECEIVE, 0, "TMSGRECEIVE", []),
   (IC_JOIN, 0, "TJOIN", []),
   (IC_SLEEP, 0, "TSLEEP", []),
   (IC_SEM_CREATE, 0, "TSEMCREATE", []),
   (IC_SEM_WAIT, 0, "TSEMWAIT", []),
   (IC_SEM_POST, 0, "TSEMPOST", []),
   (IC_INIT, 0, "INITC", []),
   (IC_DESTROY, 0, "DESTROYC", []),
   (IC_GETNUM, 0, "GETNUMC", []),
   (IC_PRINT, 1, "PRINT", []),
   (IC_PRINTID, 1, "PRINTID", []),
   (IC_PRINTF, 1, "PRINTF", []),
   (IC_GETID, 1, "GETID", []),
   (IC_ABS, 0, "ABS", []),
   (IC_ABSI, 0, "ABSI", []),
   (IC_SQRT, 0, "SQRT", []),
   (IC_EXP, 0, "EXP", []),
   (IC_SIN, 0, "SIN", []),
   (IC_COS, 0, "COS", []),
   (IC_LOG, 0, "LOG", []),
   (IC_LOG10, 0, "LOG10", []),
   (IC_ASIN, 0, "ASIN", []),
   (IC_RAND, 0, "RAND", []),
   (IC_ROUND, 0, "ROUND", []),
   (IC_STRCPY, 0, "STRCPY", []),
   (IC_STRNCPY, 0, "STRNCPY", []),
   (IC_STRCAT, 0, "STRCAT", []),
   (IC_STRNCAT, 0, "STRNCAT", []),
   (IC_STRCMP, 0, "STRCMP", []),
   (IC_STRNCMP, 0, "STRNCMP", []),
   (IC_STRSTR, 0, "STRSTR", []),
   (IC_STRLEN, 0, "STRLENC", []),
   (IC_BEG_INIT, 1, "BEGINIT", ["n"]),
   (IC_STRUCT_WITH_ARR, 2, "STRUCTWITHARR", ["displ", "iniproc"]),
   (IC_DEFARR, 7, "DEFARR", ["N", "elem_len", "displ", "iniproc", "usual", "all", "instruct"]),
   (IC_ARR_INIT, 4, "ARRINIT", ["N", "elem_len", "displ", "usual"]),
   (IC_LI, 1, "LI", []),
   (IC_LID, 2, "LID", []),
   (IC_LOAD, 1, "LOAD", []),
   (IC_LOADD, 1, "LOADD", []),
   (IC_LAT, 0, "L@", []),
   (IC_LATD, 0, "L@f", []),
   (IC_LA, 1, "LA", []),
   (IC_STOP, 0, "STOP", []),
   (IC_RETURN_VAL, 1, "RETURNVAL", []),
   (IC_RETURN_VOID, 0, "RETURNVOID", []),
   (IC_B, 1, "B", []),
   (IC_BE0, 1, "BE0", []),
   (IC_BNE0, 1, "BNE0", []),
   (IC_SLICE, 1, "SLICE", ["d"]),
   (IC_SELECT, 1, "SELECT", ["field_displ"]),
   (IC_FUNC_BEG, 2, "FUNCBEG", ["maxdispl", "pc"]),
   (IC_LOG_OR, 0, "||", []),
   (IC_LOG_AND, 0, "&&", []),
   (IC_OR_ASSIGN, 1, "|=", []),
   (IC_OR_ASSIGN_AT, 0, "|=@", []),
   (IC_OR_ASSIGN_V, 1, "|=V", []),
   (IC_OR_ASSIGN_AT_V, 0, "|=@V", []),
   (IC_OR, 0, "|", []),
   (IC_XOR_ASSIGN, 1, "^=", []),
   (IC_XOR_ASSIGN_AT, 0, "^=@", []),
   (IC_XOR_ASSIGN_V, 1, "^=V", []),
   (IC_XOR_ASSIGN_AT_V, 0, "^=@V", []),
   (IC_XOR, 0, "^", []),
   (IC_AND_ASSIGN, 1, "&=", []),
   (IC_AND_ASSIGN_AT, 0, "&=@", []),
   (IC_AND_ASSIGN_V, 1, "&=V", []),
   (IC_AND_ASSIGN_AT_V, 0, "&=@V", []),
   (IC_AND, 0, "&", []),
   (IC_EQ, 0, "==", []),
   (IC_NE, 0, "!=", []),
   (IC_LT, 0, "<", []),
   (IC_GT, 0, ">", []),
   (IC_LE, 0, "<=", []),
   (IC_GE, 0, ">=", []),
   (IC_EQ_R, 0, "==f", []),
   (IC_NE_R, 0, "!=f", []),
   (IC_LT_R, 0, "<f", []),
   (IC_GT_R, 0, ">f", []),
   (IC_LE_R, 0, "<=f", []),
   (IC_GE_R, 0, ">=f", []),
   (IC_SHR_ASSIGN, 1, ">>=", []),
   (IC_SHR_ASSIGN_AT, 0, ">>=@", []),
   (IC_SHR_ASSIGN_V, 1, ">>=V", []),
   (IC_SHR_ASSIGN_AT_V, 0, ">>=@V", []),
   (IC_SHR, 0, ">>", []),
   (IC_SHL_ASSIGN, 1, "<<=", []),
   (IC_SHL_ASSIGN_AT, 0, "<<=@", []),
   (IC_SHL_ASSIGN_V, 1, "<<=V", []),
   (IC_SHL_ASSIGN_AT_V, 0, "<<=@V", []),
   (IC_SHL, 0, "<<", []),
   (IC_ASSIGN, 1, "=", []),
   (IC_ASSIGN_AT, 0, "=@", []),
   (IC_ASSIGN_V, 1, "=V", []),
   (IC_ASSIGN_AT_V, 0, "=@V", []),
   (IC_ADD_ASSIGN, 1, "+=", []),
   (IC_ADD_ASSIGN_AT, 0, "+=@", []),
   (IC_ADD_ASSIGN_V, 1, "+=V", []),
   (IC_ADD_ASSIGN_AT_V, 0, "+=@V", []),
   (IC_ADD, 0, "+", []),
   (IC_SUB_ASSIGN, 1, "-=", []),
   (IC_SUB_ASSIGN_AT, 0, "-=@", []),
   (IC_SUB_ASSIGN_V, 1, "-=V", []),
   (IC_SUB_ASSIGN_AT_V, 0, "-=@V", []),
   (IC_SUB, 0, "-", []),
   (IC_MUL_ASSIGN, 1, "*=", []),
   (IC_MUL_ASSIGN_AT, 0, "*=@", []),
   (IC_MUL_ASSIGN_V, 1, "*=V", []),
   (IC_MUL_ASSIGN_AT_V, 0, "*=@V", []),
   (IC_MUL, 0, "*", []),
   (IC_DIV_ASSIGN, 1, "/=", []),
   (IC_DIV_ASSIGN_AT, 0, "/=@", []),
   (IC_DIV_ASSIGN_V, 1, "/=V", []),
   (IC_DIV_ASSIGN_AT_V, 0, "/=@V", []),
   (IC_DIV, 0, "/", []),
   (IC_ASSIGN_R, 1, "=f", []),
   (IC_ASSIGN_R_V, 1, "=fV", []),
   (IC_ASSIGN_AT_R, 0, "=@f", []),
   (IC_ASSIGN_AT_R_V, 0, "=@fV", []),
   (IC_ADD_ASSIGN_R, 1, "+=f", []),
   (IC_ADD_ASSIGN_AT_R, 0, "+=@f", []),
   (IC_ADD_ASSIGN_R_V, 1, "+=fV", []),
   (IC_ADD_ASSIGN_AT_R_V, 0, "+=@fV", []),
   (IC_ADD_R, 0, "+f", []),
   (IC_SUB_ASSIGN_R, 1, "-=f", []),
   (IC_SUB_ASSIGN_AT_R, 0, "-=@f", []),
   (IC_SUB_ASSIGN_R_V, 1, "-=fV", []),
   (IC_SUB_ASSIGN_AT_R_V, 0, "-=@fV", []),
   (IC_SUB_R, 0, "-f", []),
   (IC_MUL_ASSIGN_R, 1, "*=f", []),
   (IC_MUL_ASSIGN_AT_R, 0, "*=@f", []),
   (IC_MUL_ASSIGN_R_V, 1, "*=fV", []),
   (IC_MUL_ASSIGN_AT_R_V, 0, "*=@fV", []),
   (IC_MUL_R, 0, "*f", []),
   (IC_DIV_ASSIGN_R, 1, "/=f", []),
   (IC_DIV_ASSIGN_AT_R, 0, "/=@f", []),
   (IC_DIV_ASSIGN_R_V, 1, "/=fV", []),
   (IC_DIV_ASSIGN_AT_R_V, 0, "/=@fV", []),
   (IC_DIV_R, 0, "/f", []),
   (IC_REM_ASSIGN, 1, "%=", []),
   (IC_REM_ASSIGN_AT, 0, "%=@", []),
   (IC_REM_ASSIGN_V, 1, "%=V", []),
   (IC_REM_ASSIGN_AT_V, 0, "%=@V", []),
   (IC_REM, 0, "%", []),
   (IC_POST_INC, 1, "POSTINC", []),
   (IC_POST_DEC, 1, "POSTDEC", []),
   (IC_PRE_INC_AT, 0, "INC@", []),
   (IC_PRE_DEC_AT, 0, "DEC@", []),
   (IC_POST_INC_AT, 0, "POSTINC@", []),
   (IC_POST_DEC_AT, 0, "POSTDEC@", []),
   (IC_PRE_INC_R, 1, "INCf", []),
   (IC_PRE_DEC_R, 1, "DECf", []),
   (IC_POST_INC_R, 1, "POSTINCf", []),
   (IC_POST_DEC_R, 1, "POSTDECf", []),
   (IC_PRE_INC_AT_R, 0, "INC@f", []),
   (IC_PRE_DEC_AT_R, 0, "DEC@f", []),
   (IC_POST_INC_AT_R, 0, "POSTINC@f", []),
   (IC_POST_DEC_AT_R, 0, "POSTDEC@f", []),
   (IC_PRE_INC_V, 1, "INCV", []),
   (IC_PRE_DEC_V, 1, "DECV", []),
   (IC_POST_INC_V, 1, "POSTINCV", []),
   (IC_POST_DEC_V, 1, "POSTDECV", []),
   (IC_PRE_INC_AT_V, 0, "INC@V", []),
   (IC_PRE_DEC_AT_V, 0, "DEC@V", []),
   (IC_POST_INC_AT_V, 0, "POSTINC@V", []),
   (IC_POST_DEC_AT_V, 0, "POSTDEC@V", []),
   (IC_PRE_INC_R_V, 1, "INCfV", []),
   (IC_PRE_DEC_R_V, 1, "DECfV", []),
   (IC_POST_INC_R_V, 1, "POSTINCfV", []),
   (IC_POST_DEC_R_V, 1, "POSTDECfV", []),
   (IC_PRE_INC_AT_R_V, 0, "INC@fV", []),
   (IC_PRE_DEC_AT_R_V, 0, "DEC@fV", []),
   (IC_POST_INC_AT_R_V, 0, "POSTINC@fV", []),
   (IC_POST_DEC_AT_R_V, 0, "POSTDEC@fV", []),
   (IC_NOP, 0, "NOP", []),
   (IC_WIDEN, 0, "WIDEN", []),
   (IC_WIDEN1, 0, "WIDEN1", []),
   (IC_DUPLICATE, 0, "DUPLICATE", []),
   (IC_COPY00, 3, "COPY00", ["displleft", "displright", "length"]),
   (IC_PRE_INC, 1, "INC", []),
   (IC_PRE_DEC, 1, "DEC", []),
   (IC_NOT, 0, "BITNOT", []),
   (IC_LOG_NOT, 0, "NOT", []),
   (IC_UNMINUS, 0, "UNMINUS", []),
   (IC_UNMINUS_R, 0, "UNMINUSf", [])
  ]

/-- `(instruction_t)` of a cell: an enumeration is an `int`. -/
def toInt (v : Int) : Int := (v + 2147483648) % 4294967296 - 2147483648

/-- `elem_get_name`, writer.c:1102-2022: the row of an instruction. -/
def row (elem : Int) : Option (Nat × String × List String) := (table.find? fun r => r.1 = elem).map (·.2)

/-- What `elem_get_name`, writer.c:1102-2022, answers: `argc`. -/
def argcOf (elem : Int) : Nat :=
  match row elem with
  | some r => r.1
  | none => 0

/-- Octets of a string of ASCII characters. -/
def codes (s : String) : List Nat := s.toList.map Char.toNat

/-- `%i` and `%lli`. -/
def showInt (v : Int) : List Nat := if v < 0 then 45 :: Locator.showNat v.natAbs else Locator.showNat v.natAbs

/-- What `elem_get_name`, writer.c:1102-2022, leaves in the buffer for the number 0: the name of the instruction. -/
def nameOf (elem : Int) : List Nat :=
  match row elem with
  | some r => codes r.2.1
  | none => showInt elem

/-- What `elem_get_name`, writer.c:1102-2022, leaves in the buffer for the operand `num` (from 1 on): its name, or nothing. -/
def labelOf (elem : Int) (num : Nat) : List Nat :=
  match row elem with
  | some r => codes (r.2.2.getD (num - 1) "")
  | none => []

/-- `vector_get`, vector.c:134-142. -/
def get (mem : List Int) (i : Nat) : Int := mem.getD i 9223372036854775807

/-- A line of the listing: where the instruction is, the instruction, its operands, and the cell the next line is about. -/
structure Line where
  pc : Nat
  op : Int
  args : List Int
  next : Nat
  deriving DecidableEq, Repr

/-- `write_instruction`, writer.c:2024-2060: the cells it looks at.  `IC_LID` has two operands in the table and moves by two
cells. -/
def lineAt (mem : List Int) (i : Nat) : Line :=
  let op := toInt (get mem i)
  let argc := argcOf op
  ⟨i, op, (List.range argc).map (fun j => get mem (i + 1 + j)), i + 1 + argc⟩

/-- The 64 bits `write_instruction`, writer.c:2024-2060, makes a `double` of: the low half of one cell and the low half of the
cell behind it. -/
def doubleBits (fst snd : Int) : Nat := (snd % 4294967296).toNat * 4294967296 + (fst % 4294967296).toNat

/-- The operands in a line, `write_instruction`, writer.c:2024-2060, from the operand `j` on. -/
def argsText (op : Int) : Nat → List Int → List Nat
  | _, [] => []
  | j, v :: rest => (if labelOf op j = [] then [] else [32] ++ labelOf op j ++ [61]) ++ [32] ++ showInt v ++ argsText op (j + 1) rest

/-- What `write_instruction`, writer.c:2024-2060, prints behind the name. -/
def restText (showDouble : Nat → List Nat) (l : Line) : List Nat :=
  if l.op = IC_LID then [32] ++ showDouble (doubleBits (l.args.getD 0 0) (l.args.getD 1 0)) ++ [10] else argsText l.op 1 l.args ++ [10]

/-- A line as `write_codes`, writer.c:2199-2216, prints it. -/
def lineText (showDouble : Nat → List Nat) (l : Line) : List Nat :=
  codes "pc " ++ Locator.showNat l.pc ++ codes ") " ++ nameOf l.op ++ restText showDouble l

/-- The loop of `write_codes`, writer.c:2199-2216: every line takes at least one cell. -/
def linesFrom (mem : List Int) : Nat → Nat → List Line
  | 0, _ => []
  | fuel + 1, i => if i < mem.length then lineAt mem i :: linesFrom mem fuel (lineAt mem i).next else []

/-- The lines of the listing. -/
def lines (mem : List Int) : List Line := linesFrom mem mem.length 0

/-- `write_codes`, writer.c:2199-2216. -/
def writeCodes (showDouble : Nat → List Nat) (mem : List Int) : List Nat :=
  codes "mem\n" ++ (lines mem).flatMap (lineText showDouble)

end RuC.Listing
