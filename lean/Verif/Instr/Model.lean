import Verif.Expr.Model

/-!
The tables of machine instructions of libs/compiler/instructions.c.  An instruction is the number the
compiler writes into the code.  The names of the numbers are written as in instructions.h:26-261.
-/

namespace RuC.Instr

open RuC.Expr (Unary Binary)

/-- `MIN_INSTRUCTION_CODE`, instructions.h:34. -/
def MIN_INSTRUCTION_CODE : Int := 9000

/-! `instruction_t`, instructions.h:26-261. -/

def IC_GETID : Int := -27
def IC_SCANF : Int := -26
def IC_PRINTF : Int := -25
def IC_PRINT : Int := -24
def IC_PRINTID : Int := -23
def IC_REM_ASSIGN : Int := 9001
def IC_SHL_ASSIGN : Int := 9002
def IC_SHR_ASSIGN : Int := 9003
def IC_AND_ASSIGN : Int := 9004
def IC_XOR_ASSIGN : Int := 9005
def IC_OR_ASSIGN : Int := 9006
def IC_ASSIGN : Int := 9007
def IC_ADD_ASSIGN : Int := 9008
def IC_SUB_ASSIGN : Int := 9009
def IC_MUL_ASSIGN : Int := 9010
def IC_DIV_ASSIGN : Int := 9011
def IC_REM_ASSIGN_AT : Int := 9012
def IC_SHL_ASSIGN_AT : Int := 9013
def IC_SHR_ASSIGN_AT : Int := 9014
def IC_AND_ASSIGN_AT : Int := 9015
def IC_XOR_ASSIGN_AT : Int := 9016
def IC_OR_ASSIGN_AT : Int := 9017
def IC_ASSIGN_AT : Int := 9018
def IC_ADD_ASSIGN_AT : Int := 9019
def IC_SUB_ASSIGN_AT : Int := 9020
def IC_MUL_ASSIGN_AT : Int := 9021
def IC_DIV_ASSIGN_AT : Int := 9022
def IC_REM : Int := 9023
def IC_SHL : Int := 9024
def IC_SHR : Int := 9025
def IC_AND : Int := 9026
def IC_XOR : Int := 9027
def IC_OR : Int := 9028
def IC_LOG_AND : Int := 9029
def IC_LOG_OR : Int := 9030
def IC_EQ : Int := 9031
def IC_NE : Int := 9032
def IC_LT : Int := 9033
def IC_GT : Int := 9034
def IC_LE : Int := 9035
def IC_GE : Int := 9036
def IC_ADD : Int := 9037
def IC_SUB : Int := 9038
def IC_MUL : Int := 9039
def IC_DIV : Int := 9040
def IC_POST_INC : Int := 9041
def IC_POST_DEC : Int := 9042
def IC_PRE_INC : Int := 9043
def IC_PRE_DEC : Int := 9044
def IC_POST_INC_AT : Int := 9045
def IC_POST_DEC_AT : Int := 9046
def IC_PRE_INC_AT : Int := 9047
def IC_PRE_DEC_AT : Int := 9048
def IC_UNMINUS : Int := 9049
def IC_NOT : Int := 9052
def IC_LOG_NOT : Int := 9053
def IC_ASSIGN_R : Int := 9057
def IC_ADD_ASSIGN_R : Int := 9058
def IC_SUB_ASSIGN_R : Int := 9059
def IC_MUL_ASSIGN_R : Int := 9060
def IC_DIV_ASSIGN_R : Int := 9061
def IC_ASSIGN_AT_R : Int := 9068
def IC_ADD_ASSIGN_AT_R : Int := 9069
def IC_SUB_ASSIGN_AT_R : Int := 9070
def IC_MUL_ASSIGN_AT_R : Int := 9071
def IC_DIV_ASSIGN_AT_R : Int := 9072
def IC_EQ_R : Int := 9081
def IC_NE_R : Int := 9082
def IC_LT_R : Int := 9083
def IC_GT_R : Int := 9084
def IC_LE_R : Int := 9085
def IC_GE_R : Int := 9086
def IC_ADD_R : Int := 9087
def IC_SUB_R : Int := 9088
def IC_MUL_R : Int := 9089
def IC_DIV_R : Int := 9090
def IC_POST_INC_R : Int := 9091
def IC_POST_DEC_R : Int := 9092
def IC_PRE_INC_R : Int := 9093
def IC_PRE_DEC_R : Int := 9094
def IC_POST_INC_AT_R : Int := 9095
def IC_POST_DEC_AT_R : Int := 9096
def IC_PRE_INC_AT_R : Int := 9097
def IC_PRE_DEC_AT_R : Int := 9098
def IC_UNMINUS_R : Int := 9099
def IC_REM_ASSIGN_V : Int := 9201
def IC_SHL_ASSIGN_V : Int := 9202
def IC_SHR_ASSIGN_V : Int := 9203
def IC_AND_ASSIGN_V : Int := 9204
def IC_XOR_ASSIGN_V : Int := 9205
def IC_OR_ASSIGN_V : Int := 9206
def IC_ASSIGN_V : Int := 9207
def IC_ADD_ASSIGN_V : Int := 9208
def IC_SUB_ASSIGN_V : Int := 9209
def IC_MUL_ASSIGN_V : Int := 9210
def IC_DIV_ASSIGN_V : Int := 9211
def IC_REM_ASSIGN_AT_V : Int := 9212
def IC_SHL_ASSIGN_AT_V : Int := 9213
def IC_SHR_ASSIGN_AT_V : Int := 9214
def IC_AND_ASSIGN_AT_V : Int := 9215
def IC_XOR_ASSIGN_AT_V : Int := 9216
def IC_OR_ASSIGN_AT_V : Int := 9217
def IC_ASSIGN_AT_V : Int := 9218
def IC_ADD_ASSIGN_AT_V : Int := 9219
def IC_SUB_ASSIGN_AT_V : Int := 9220
def IC_MUL_ASSIGN_AT_V : Int := 9221
def IC_DIV_ASSIGN_AT_V : Int := 9222
def IC_ASSIGN_R_V : Int := 9257
def IC_ADD_ASSIGN_R_V : Int := 9258
def IC_SUB_ASSIGN_R_V : Int := 9259
def IC_MUL_ASSIGN_R_V : Int := 9260
def IC_DIV_ASSIGN_R_V : Int := 9261
def IC_ASSIGN_AT_R_V : Int := 9268
def IC_ADD_ASSIGN_AT_R_V : Int := 9269
def IC_SUB_ASSIGN_AT_R_V : Int := 9270
def IC_MUL_ASSIGN_AT_R_V : Int := 9271
def IC_DIV_ASSIGN_AT_R_V : Int := 9272
def IC_POST_INC_V : Int := 9241
def IC_POST_DEC_V : Int := 9242
def IC_PRE_INC_V : Int := 9243
def IC_PRE_DEC_V : Int := 9244
def IC_POST_INC_AT_V : Int := 9245
def IC_POST_DEC_AT_V : Int := 9246
def IC_PRE_INC_AT_V : Int := 9247
def IC_PRE_DEC_AT_V : Int := 9248
def IC_POST_INC_R_V : Int := 9291
def IC_POST_DEC_R_V : Int := 9292
def IC_PRE_INC_R_V : Int := 9293
def IC_PRE_DEC_R_V : Int := 9294
def IC_POST_INC_AT_R_V : Int := 9295
def IC_POST_DEC_AT_R_V : Int := 9296
def IC_PRE_INC_AT_R_V : Int := 9297
def IC_PRE_DEC_AT_R_V : Int := 9298
def IC_NOP : Int := 9453
def IC_DEFARR : Int := 9454
def IC_LI : Int := 9455
def IC_LID : Int := 9456
def IC_LOAD : Int := 9457
def IC_LOADD : Int := 9458
def IC_LAT : Int := 9459
def IC_LATD : Int := 9460
def IC_STOP : Int := 9461
def IC_SELECT : Int := 9462
def IC_FUNC_BEG : Int := 9463
def IC_LA : Int := 9464
def IC_CALL1 : Int := 9465
def IC_CALL2 : Int := 9466
def IC_RETURN_VAL : Int := 9467
def IC_RETURN_VOID : Int := 9468
def IC_B : Int := 9469
def IC_BE0 : Int := 9470
def IC_BNE0 : Int := 9471
def IC_SLICE : Int := 9472
def IC_WIDEN : Int := 9473
def IC_WIDEN1 : Int := 9474
def IC_DUPLICATE : Int := 9475
def IC_STRING_INIT : Int := 9476
def IC_ARR_INIT : Int := 9477
def IC_STRUCT_WITH_ARR : Int := 9478
def IC_BEG_INIT : Int := 9481
def IC_ROWING : Int := 9482
def IC_ROWING_D : Int := 9483
def IC_COPY00 : Int := 9300
def IC_COPY01 : Int := 9301
def IC_COPY10 : Int := 9302
def IC_COPY11 : Int := 9303
def IC_COPY0ST : Int := 9304
def IC_COPY1ST : Int := 9305
def IC_COPY0ST_ASSIGN : Int := 9306
def IC_COPY1ST_ASSIGN : Int := 9307
def IC_COPYST : Int := 9308
def IC_ABS : Int := 9534
def IC_SQRT : Int := 9535
def IC_EXP : Int := 9536
def IC_SIN : Int := 9537
def IC_COS : Int := 9538
def IC_LOG : Int := 9539
def IC_LOG10 : Int := 9540
def IC_ASIN : Int := 9541
def IC_RAND : Int := 9542
def IC_ROUND : Int := 9543
def IC_STRCPY : Int := 9544
def IC_STRNCPY : Int := 9545
def IC_STRCAT : Int := 9546
def IC_STRNCAT : Int := 9547
def IC_STRCMP : Int := 9548
def IC_STRNCMP : Int := 9549
def IC_STRSTR : Int := 9550
def IC_STRLEN : Int := 9551
def IC_MSG_SEND : Int := 9552
def IC_MSG_RECEIVE : Int := 9553
def IC_JOIN : Int := 9554
def IC_SLEEP : Int := 9555
def IC_SEM_CREATE : Int := 9556
def IC_SEM_WAIT : Int := 9557
def IC_SEM_POST : Int := 9558
def IC_CREATE : Int := 9559
def IC_INIT : Int := 9560
def IC_DESTROY : Int := 9561
def IC_EXIT : Int := 9562
def IC_GETNUM : Int := 9563
def IC_UPB : Int := 9588
def IC_ROBOT_SEND_INT : Int := 9589
def IC_ROBOT_SEND_FLOAT : Int := 9590
def IC_ROBOT_SEND_STRING : Int := 9591
def IC_ROBOT_RECEIVE_INT : Int := 9592
def IC_ROBOT_RECEIVE_FLOAT : Int := 9593
def IC_ROBOT_RECEIVE_STRING : Int := 9594
def IC_ASSERT : Int := 9595
def IC_ABSI : Int := 9651
def IC_FOPEN : Int := 9652
def IC_FCLOSE : Int := 9653
def IC_FGETC : Int := 9654
def IC_FPUTC : Int := 9655

/-! `builtin_t`, operations.h:159-219: a built-in function is the number of its identifier. -/

def BI_ASSERT : Nat := 2
def BI_ASIN : Nat := 6
def BI_COS : Nat := 10
def BI_SIN : Nat := 14
def BI_EXP : Nat := 18
def BI_LOG : Nat := 22
def BI_LOG10 : Nat := 26
def BI_SQRT : Nat := 30
def BI_RAND : Nat := 34
def BI_ROUND : Nat := 38
def BI_STRNCPY : Nat := 42
def BI_STRCAT : Nat := 46
def BI_STRCMP : Nat := 50
def BI_STRNCMP : Nat := 54
def BI_STRSTR : Nat := 58
def BI_ROBOT_SEND_INT : Nat := 62
def BI_ROBOT_SEND_FLOAT : Nat := 66
def BI_ROBOT_SEND_STRING : Nat := 70
def BI_ROBOT_RECEIVE_INT : Nat := 74
def BI_ROBOT_RECEIVE_FLOAT : Nat := 78
def BI_ROBOT_RECEIVE_STRING : Nat := 82
def BI_T_CREATE : Nat := 86
def BI_T_GETNUM : Nat := 90
def BI_T_SLEEP : Nat := 94
def BI_T_JOIN : Nat := 98
def BI_T_EXIT : Nat := 102
def BI_T_INIT : Nat := 106
def BI_T_DESTROY : Nat := 110
def BI_SEM_CREATE : Nat := 114
def BI_SEM_WAIT : Nat := 118
def BI_SEM_POST : Nat := 122
def BI_MSG_SEND : Nat := 126
def BI_MSG_RECEIVE : Nat := 130
def BI_FOPEN : Nat := 134
def BI_FGETC : Nat := 138
def BI_FPUTC : Nat := 142
def BI_FCLOSE : Nat := 146
def BI_EXIT : Nat := 150
def BI_PRINTF : Nat := 154
def BI_PRINT : Nat := 158
def BI_PRINTID : Nat := 162
def BI_GETID : Nat := 166

/-- `BEGIN_USER_FUNC`, operations.h:218. -/
def BEGIN_USER_FUNC : Nat := 170

/-- `builtin_to_instruction`, instructions.c:25-71.  The default answers `IC_NOP` (and reports an internal error). -/
def builtinToInstruction (f : Nat) : Int :=
  if f = BI_SQRT then IC_SQRT
  else if f = BI_EXP then IC_EXP
  else if f = BI_SIN then IC_SIN
  else if f = BI_COS then IC_COS
  else if f = BI_LOG then IC_LOG
  else if f = BI_LOG10 then IC_LOG10
  else if f = BI_ASIN then IC_ASIN
  else if f = BI_RAND then IC_RAND
  else if f = BI_ROUND then IC_ROUND
  else if f = BI_STRNCPY then IC_STRNCPY
  else if f = BI_STRCAT then IC_STRCAT
  else if f = BI_STRCMP then IC_STRCMP
  else if f = BI_STRNCMP then IC_STRNCMP
  else if f = BI_STRSTR then IC_STRSTR
  else if f = BI_ASSERT then IC_ASSERT
  else if f = BI_MSG_SEND then IC_MSG_SEND
  else if f = BI_MSG_RECEIVE then IC_MSG_RECEIVE
  else if f = BI_T_JOIN then IC_JOIN
  else if f = BI_T_SLEEP then IC_SLEEP
  else if f = BI_SEM_CREATE then IC_SEM_CREATE
  else if f = BI_SEM_WAIT then IC_SEM_WAIT
  else if f = BI_SEM_POST then IC_SEM_POST
  else if f = BI_T_CREATE then IC_CREATE
  else if f = BI_T_INIT then IC_INIT
  else if f = BI_T_DESTROY then IC_DESTROY
  else if f = BI_T_EXIT then IC_EXIT
  else if f = BI_T_GETNUM then IC_GETNUM
  else if f = BI_ROBOT_SEND_INT then IC_ROBOT_SEND_INT
  else if f = BI_ROBOT_SEND_FLOAT then IC_ROBOT_SEND_FLOAT
  else if f = BI_ROBOT_SEND_STRING then IC_ROBOT_SEND_STRING
  else if f = BI_ROBOT_RECEIVE_INT then IC_ROBOT_RECEIVE_INT
  else if f = BI_ROBOT_RECEIVE_FLOAT then IC_ROBOT_RECEIVE_FLOAT
  else if f = BI_ROBOT_RECEIVE_STRING then IC_ROBOT_RECEIVE_STRING
  else if f = BI_FOPEN then IC_FOPEN
  else if f = BI_FGETC then IC_FGETC
  else if f = BI_FPUTC then IC_FPUTC
  else if f = BI_FCLOSE then IC_FCLOSE
  else IC_NOP

/-- `unary_to_instruction`, instructions.c:73-91. -/
def unaryToInstruction : Unary → Int
  | .postInc => IC_POST_INC
  | .postDec => IC_POST_DEC
  | .preInc => IC_PRE_INC
  | .preDec => IC_PRE_DEC
  | .address => IC_LA
  | .indirection => IC_LOAD
  | .minus => IC_UNMINUS
  | .not => IC_NOT
  | .logNot => IC_LOG_NOT
  | .abs => IC_ABSI
  | _ => IC_NOP

/-- `binary_to_instruction`, instructions.c:93-130. -/
def binaryToInstruction : Binary → Int
  | .mul => IC_MUL
  | .div => IC_DIV
  | .rem => IC_REM
  | .add => IC_ADD
  | .sub => IC_SUB
  | .shl => IC_SHL
  | .shr => IC_SHR
  | .lt => IC_LT
  | .gt => IC_GT
  | .le => IC_LE
  | .ge => IC_GE
  | .eq => IC_EQ
  | .ne => IC_NE
  | .and => IC_AND
  | .xor => IC_XOR
  | .or => IC_OR
  | .logAnd => IC_LOG_AND
  | .logOr => IC_LOG_OR
  | .assign => IC_ASSIGN
  | .mulAssign => IC_MUL_ASSIGN
  | .divAssign => IC_DIV_ASSIGN
  | .remAssign => IC_REM_ASSIGN
  | .addAssign => IC_ADD_ASSIGN
  | .subAssign => IC_SUB_ASSIGN
  | .shlAssign => IC_SHL_ASSIGN
  | .shrAssign => IC_SHR_ASSIGN
  | .andAssign => IC_AND_ASSIGN
  | .xorAssign => IC_XOR_ASSIGN
  | .orAssign => IC_OR_ASSIGN
  | _ => IC_NOP

/-- `instruction_to_address_ver`, instructions.c:133-156. -/
def toAddress (i : Int) : Int :=
  if i = IC_PRE_INC then IC_PRE_INC_AT
  else if i = IC_PRE_DEC then IC_PRE_DEC_AT
  else if i = IC_POST_INC then IC_POST_INC_AT
  else if i = IC_POST_DEC then IC_POST_DEC_AT
  else if i = IC_REM_ASSIGN then IC_REM_ASSIGN_AT
  else if i = IC_SHL_ASSIGN then IC_SHL_ASSIGN_AT
  else if i = IC_SHR_ASSIGN then IC_SHR_ASSIGN_AT
  else if i = IC_AND_ASSIGN then IC_AND_ASSIGN_AT
  else if i = IC_XOR_ASSIGN then IC_XOR_ASSIGN_AT
  else if i = IC_OR_ASSIGN then IC_OR_ASSIGN_AT
  else if i = IC_ASSIGN then IC_ASSIGN_AT
  else if i = IC_ADD_ASSIGN then IC_ADD_ASSIGN_AT
  else if i = IC_SUB_ASSIGN then IC_SUB_ASSIGN_AT
  else if i = IC_MUL_ASSIGN then IC_MUL_ASSIGN_AT
  else if i = IC_DIV_ASSIGN then IC_DIV_ASSIGN_AT
  else i

/-- `instruction_to_floating_ver`, instructions.c:158-165. -/
def toFloating (i : Int) : Int :=
  if (IC_ASSIGN ≤ i ∧ i ≤ IC_DIV_ASSIGN) ∨ (IC_ASSIGN_AT ≤ i ∧ i ≤ IC_DIV_ASSIGN_AT) ∨ (IC_EQ ≤ i ∧ i ≤ IC_UNMINUS) then i + 50
  else i

/-- `instruction_to_void_ver`, instructions.c:167-175. -/
def toVoid (i : Int) : Int :=
  if (IC_ASSIGN ≤ i ∧ i ≤ IC_DIV_ASSIGN_AT) ∨ (IC_POST_INC ≤ i ∧ i ≤ IC_PRE_DEC_AT) ∨
      (IC_ASSIGN_R ≤ i ∧ i ≤ IC_DIV_ASSIGN_AT_R) ∨ (IC_POST_INC_R ≤ i ∧ i ≤ IC_PRE_DEC_AT_R) then i + 200
  else i

/-- The library functions, by their English names. -/
inductive Lib
  | «assert» | «asin» | «cos» | «sin» | «exp» | «log» | «log10» | «sqrt» | «rand» | «round»
  | «strncpy» | «strcat» | «strcmp» | «strncmp» | «strstr» | «send_int_to_robot» | «send_float_to_robot» | «send_string_to_robot» | «receive_int_from_robot» | «receive_float_from_robot»
  | «receive_string_from_robot» | «t_create» | «t_getnum» | «t_sleep» | «t_join» | «t_exit» | «t_init» | «t_destroy» | «t_sem_create» | «t_sem_wait»
  | «t_sem_post» | «t_msg_send» | «t_msg_receive» | «fopen» | «fgetc» | «fputc» | «fclose» | «exit» | «printf» | «print»
  | «printid» | «getid»
  deriving DecidableEq, Repr

/-- The English names given to `builtin_add` by `ident_init`, syntax.c:181-233, in the order of the calls. -/
def builtinNames : List Lib :=
  [.«assert», .«asin», .«cos», .«sin», .«exp», .«log», .«log10», .«sqrt», .«rand», .«round», .«strncpy», .«strcat», .«strcmp», .«strncmp», .«strstr», .«send_int_to_robot», .«send_float_to_robot», .«send_string_to_robot», .«receive_int_from_robot», .«receive_float_from_robot», .«receive_string_from_robot», .«t_create», .«t_getnum», .«t_sleep», .«t_join», .«t_exit», .«t_init», .«t_destroy», .«t_sem_create», .«t_sem_wait», .«t_sem_post», .«t_msg_send», .«t_msg_receive», .«fopen», .«fgetc», .«fputc», .«fclose», .«exit», .«printf», .«print», .«printid», .«getid»]

/-- The number `ident_add`, syntax.c:378-461, gives to the identifier of the `k`-th `builtin_add`,
syntax.c:153-178: the table starts with two cells (`sx_create`, syntax.c:250-285) and every identifier takes four. -/
def builtinNumber (k : Nat) : Nat := 2 + 4 * k

end RuC.Instr
