import Verif.Instr.Model

/-!
What the names in instructions.h say: which operation, in which version, has which number.  The list is
copied from the header, number by number.
-/

namespace RuC.Instr

/-- The operations that have versions. -/
inductive Op
  | remA | shlA | shrA | andA | xorA | orA | asg | addA | subA | mulA | divA
  | rem | shl | shr | and | xor | or | logAnd | logOr | eq | ne | lt
  | gt | le | ge | add | sub | mul | div | postInc | postDec | preInc | preDec
  | unminus | not | logNot
  deriving DecidableEq, Repr

/-- A version of an operation: does it take an address from the stack (`_AT`), is it for floating numbers
(`_R`), does it leave no value (`_V`). -/
structure Version where
  op : Op
  addr : Bool
  flt : Bool
  void : Bool
  deriving DecidableEq, Repr

/-- The numbers of the versions, instructions.h:36-172. -/
def documented : List (Version × Int) :=
  [
   (⟨.remA, false, false, false⟩, 9001),
   (⟨.shlA, false, false, false⟩, 9002),
   (⟨.shrA, false, false, false⟩, 9003),
   (⟨.andA, false, false, false⟩, 9004),
   (⟨.xorA, false, false, false⟩, 9005),
   (⟨.orA, false, false, false⟩, 9006),
   (⟨.asg, false, false, false⟩, 9007),
   (⟨.addA, false, false, false⟩, 9008),
   (⟨.subA, false, false, false⟩, 9009),
   (⟨.mulA, false, false, false⟩, 9010),
   (⟨.divA, false, false, false⟩, 9011),
   (⟨.remA, true, false, false⟩, 9012),
   (⟨.shlA, true, false, false⟩, 9013),
   (⟨.shrA, true, false, false⟩, 9014),
   (⟨.andA, true, false, false⟩, 9015),
   (⟨.xorA, true, false, false⟩, 9016),
   (⟨.orA, true, false, false⟩, 9017),
   (⟨.asg, true, false, false⟩, 9018),
   (⟨.addA, true, false, false⟩, 9019),
   (⟨.subA, true, false, false⟩, 9020),
   (⟨.mulA, true, false, false⟩, 9021),
   (⟨.divA, true, false, false⟩, 9022),
   (⟨.rem, false, false, false⟩, 9023),
   (⟨.shl, false, false, false⟩, 9024),
   (⟨.shr, false, false, false⟩, 9025),
   (⟨.and, false, false, false⟩, 9026),
   (⟨.xor, false, false, false⟩, 9027),
   (⟨.or, false, false, false⟩, 9028),
   (⟨.logAnd, false, false, false⟩, 9029),
   (⟨.logOr, false, false, false⟩, 9030),
   (⟨.eq, false, false, false⟩, 9031),
   (⟨.ne, false, false, false⟩, 9032),
   (⟨.lt, false, false, false⟩, 9033),
   (⟨.gt, false, false, false⟩, 9034),
   (⟨.le, false, false, false⟩, 9035),
   (⟨.ge, false, false, false⟩, 9036),
   (⟨.add, false, false, false⟩, 9037),
   (⟨.sub, false, false, false⟩, 9038),
   (⟨.mul, false, false, false⟩, 9039),
   (⟨.div, false, false, false⟩, 9040),
   (⟨.postInc, false, false, false⟩, 9041),
   (⟨.postDec, false, false, false⟩, 9042),
   (⟨.preInc, false, false, false⟩, 9043),
   (⟨.preDec, false, false, false⟩, 9044),
   (⟨.postInc, true, false, false⟩, 9045),
   (⟨.postDec, true, false, false⟩, 9046),
   (⟨.preInc, true, false, false⟩, 9047),
   (⟨.preDec, true, false, false⟩, 9048),
   (⟨.unminus, false, false, false⟩, 9049),
   (⟨.not, false, false, false⟩, 9052),
   (⟨.logNot, false, false, false⟩, 9053),
   (⟨.asg, false, true, false⟩, 9057),
   (⟨.addA, false, true, false⟩, 9058),
   (⟨.subA, false, true, false⟩, 9059),
   (⟨.mulA, false, true, false⟩, 9060),
   (⟨.divA, false, true, false⟩, 9061),
   (⟨.asg, true, true, false⟩, 9068),
   (⟨.addA, true, true, false⟩, 9069),
   (⟨.subA, true, true, false⟩, 9070),
   (⟨.mulA, true, true, false⟩, 9071),
   (⟨.divA, true, true, false⟩, 9072),
   (⟨.eq, false, true, false⟩, 9081),
   (⟨.ne, false, true, false⟩, 9082),
   (⟨.lt, false, true, false⟩, 9083),
   (⟨.gt, false, true, false⟩, 9084),
   (⟨.le, false, true, false⟩, 9085),
   (⟨.ge, false, true, false⟩, 9086),
   (⟨.add, false, true, false⟩, 9087),
   (⟨.sub, false, true, false⟩, 9088),
   (⟨.mul, false, true, false⟩, 9089),
   (⟨.div, false, true, false⟩, 9090),
   (⟨.postInc, false, true, false⟩, 9091),
   (⟨.postDec, false, true, false⟩, 9092),
   (⟨.preInc, false, true, false⟩, 9093),
   (⟨.preDec, false, true, false⟩, 9094),
   (⟨.postInc, true, true, false⟩, 9095),
   (⟨.postDec, true, true, false⟩, 9096),
   (⟨.preInc, true, true, false⟩, 9097),
   (⟨.preDec, true, true, false⟩, 9098),
   (⟨.unminus, false, true, false⟩, 9099),
   (⟨.remA, false, false, true⟩, 9201),
   (⟨.shlA, false, false, true⟩, 9202),
   (⟨.shrA, false, false, true⟩, 9203),
   (⟨.andA, false, false, true⟩, 9204),
   (⟨.xorA, false, false, true⟩, 9205),
   (⟨.orA, false, false, true⟩, 9206),
   (⟨.asg, false, false, true⟩, 9207),
   (⟨.addA, false, false, true⟩, 9208),
   (⟨.subA, false, false, true⟩, 9209),
   (⟨.mulA, false, false, true⟩, 9210),
   (⟨.divA, false, false, true⟩, 9211),
   (⟨.remA, true, false, true⟩, 9212),
   (⟨.shlA, true, false, true⟩, 9213),
   (⟨.shrA, true, false, true⟩, 9214),
   (⟨.andA, true, false, true⟩, 9215),
   (⟨.xorA, true, false, true⟩, 9216),
   (⟨.orA, true, false, true⟩, 9217),
   (⟨.asg, true, false, true⟩, 9218),
   (⟨.addA, true, false, true⟩, 9219),
   (⟨.subA, true, false, true⟩, 9220),
   (⟨.mulA, true, false, true⟩, 9221),
   (⟨.divA, true, false, true⟩, 9222),
   (⟨.asg, false, true, true⟩, 9257),
   (⟨.addA, false, true, true⟩, 9258),
   (⟨.subA, false, true, true⟩, 9259),
   (⟨.mulA, false, true, true⟩, 9260),
   (⟨.divA, false, true, true⟩, 9261),
   (⟨.asg, true, true, true⟩, 9268),
   (⟨.addA, true, true, true⟩, 9269),
   (⟨.subA, true, true, true⟩, 9270),
   (⟨.mulA, true, true, true⟩, 9271),
   (⟨.divA, true, true, true⟩, 9272),
   (⟨.postInc, false, false, true⟩, 9241),
   (⟨.postDec, false, false, true⟩, 9242),
   (⟨.preInc, false, false, true⟩, 9243),
   (⟨.preDec, false, false, true⟩, 9244),
   (⟨.postInc, true, false, true⟩, 9245),
   (⟨.postDec, true, false, true⟩, 9246),
   (⟨.preInc, true, false, true⟩, 9247),
   (⟨.preDec, true, false, true⟩, 9248),
   (⟨.postInc, false, true, true⟩, 9291),
   (⟨.postDec, false, true, true⟩, 9292),
   (⟨.preInc, false, true, true⟩, 9293),
   (⟨.preDec, false, true, true⟩, 9294),
   (⟨.postInc, true, true, true⟩, 9295),
   (⟨.postDec, true, true, true⟩, 9296),
   (⟨.preInc, true, true, true⟩, 9297),
   (⟨.preDec, true, true, true⟩, 9298)]

/-- All the numbers of instructions.h:26-261, in the order of the header. -/
def allCodes : List Int :=
  [
   -27, -26, -25, -24, -23, 9001, 9002, 9003, 9004, 9005, 9006, 9007, 9008, 9009, 9010,
   9011, 9012, 9013, 9014, 9015, 9016, 9017, 9018, 9019, 9020, 9021, 9022, 9023, 9024, 9025,
   9026, 9027, 9028, 9029, 9030, 9031, 9032, 9033, 9034, 9035, 9036, 9037, 9038, 9039, 9040,
   9041, 9042, 9043, 9044, 9045, 9046, 9047, 9048, 9049, 9052, 9053, 9057, 9058, 9059, 9060,
   9061, 9068, 9069, 9070, 9071, 9072, 9081, 9082, 9083, 9084, 9085, 9086, 9087, 9088, 9089,
   9090, 9091, 9092, 9093, 9094, 9095, 9096, 9097, 9098, 9099, 9201, 9202, 9203, 9204, 9205,
   9206, 9207, 9208, 9209, 9210, 9211, 9212, 9213, 9214, 9215, 9216, 9217, 9218, 9219, 9220,
   9221, 9222, 9257, 9258, 9259, 9260, 9261, 9268, 9269, 9270, 9271, 9272, 9241, 9242, 9243,
   9244, 9245, 9246, 9247, 9248, 9291, 9292, 9293, 9294, 9295, 9296, 9297, 9298, 9453, 9454,
   9455, 9456, 9457, 9458, 9459, 9460, 9461, 9462, 9463, 9464, 9465, 9466, 9467, 9468, 9469,
   9470, 9471, 9472, 9473, 9474, 9475, 9476, 9477, 9478, 9481, 9482, 9483, 9300, 9301, 9302,
   9303, 9304, 9305, 9306, 9307, 9308, 9534, 9535, 9536, 9537, 9538, 9539, 9540, 9541, 9542,
   9543, 9544, 9545, 9546, 9547, 9548, 9549, 9550, 9551, 9552, 9553, 9554, 9555, 9556, 9557,
   9558, 9559, 9560, 9561, 9562, 9563, 9588, 9589, 9590, 9591, 9592, 9593, 9594, 9595, 9651,
   9652, 9653, 9654, 9655]

/-- The number the header gives to a version, if it has it. -/
def doc (v : Version) : Option Int := (documented.find? fun p => p.1 = v).map Prod.snd

/-- The operation a binary operator stands for; the comma has none. -/
def ofBinary : RuC.Expr.Binary → Option Op
  | .mul => some .mul
  | .div => some .div
  | .rem => some .rem
  | .add => some .add
  | .sub => some .sub
  | .shl => some .shl
  | .shr => some .shr
  | .lt => some .lt
  | .gt => some .gt
  | .le => some .le
  | .ge => some .ge
  | .eq => some .eq
  | .ne => some .ne
  | .and => some .and
  | .xor => some .xor
  | .or => some .or
  | .logAnd => some .logAnd
  | .logOr => some .logOr
  | .assign => some .asg
  | .mulAssign => some .mulA
  | .divAssign => some .divA
  | .remAssign => some .remA
  | .addAssign => some .addA
  | .subAssign => some .subA
  | .shlAssign => some .shlA
  | .shrAssign => some .shrA
  | .andAssign => some .andA
  | .xorAssign => some .xorA
  | .orAssign => some .orA
  | .comma => none

/-- The operation a unary operator stands for, for those that have versions. -/
def ofUnary : RuC.Expr.Unary → Option Op
  | .postInc => some .postInc
  | .postDec => some .postDec
  | .preInc => some .preInc
  | .preDec => some .preDec
  | .minus => some .unminus
  | .not => some .not
  | .logNot => some .logNot
  | _ => none

/-- The machine instruction of the library function of the given name, as the names in instructions.h say.
`printf`, `print`, `printid` and `getid` are emitted by functions of their own. -/
def builtinDoc : List (Lib × Int) :=
  [
   (.«assert», 9595),
   (.«asin», 9541),
   (.«cos», 9538),
   (.«sin», 9537),
   (.«exp», 9536),
   (.«log», 9539),
   (.«log10», 9540),
   (.«sqrt», 9535),
   (.«rand», 9542),
   (.«round», 9543),
   (.«strncpy», 9545),
   (.«strcat», 9546),
   (.«strcmp», 9548),
   (.«strncmp», 9549),
   (.«strstr», 9550),
   (.«send_int_to_robot», 9589),
   (.«send_float_to_robot», 9590),
   (.«send_string_to_robot», 9591),
   (.«receive_int_from_robot», 9592),
   (.«receive_float_from_robot», 9593),
   (.«receive_string_from_robot», 9594),
   (.«t_create», 9559),
   (.«t_getnum», 9563),
   (.«t_sleep», 9555),
   (.«t_join», 9554),
   (.«t_exit», 9562),
   (.«t_init», 9560),
   (.«t_destroy», 9561),
   (.«t_sem_create», 9556),
   (.«t_sem_wait», 9557),
   (.«t_sem_post», 9558),
   (.«t_msg_send», 9552),
   (.«t_msg_receive», 9553),
   (.«fopen», 9652),
   (.«fgetc», 9654),
   (.«fputc», 9655),
   (.«fclose», 9653)]

end RuC.Instr
