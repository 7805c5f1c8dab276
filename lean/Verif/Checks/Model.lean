import Verif.Builder.Model
import Verif.Utf8.Model

/-!
The rest of libs/compiler/builder.c: subscripts, calls, members, conditions, `return` and declarators.
Subscripts, calls and members are built as `Ex.place`; the arguments of a call are answered beside it.  The
nodes given to a function are correct (a broken node is passed on without a report, and a report was made when
it was broken).
-/

namespace RuC.Checks

open RuC RuC.Types RuC.Expr RuC.Builder RuC.Utf8

variable {F : Type}

/-- `type_is_string`, syntax.c:694-697. -/
def isString (cells : List Int) (t : Int) : Option Bool :=
  (isArray cells t).bind fun b => if b then (arrayElement cells t).map fun u => decide (u = TYPE_CHARACTER) else some false

/-- `type_is_struct_pointer`, syntax.c:699-702. -/
def isStructPointer (cells : List Int) (t : Int) : Option Bool :=
  (isPointer cells t).bind fun b => if b then (pointerElement cells t).bind fun u => isStructure cells u else some false

/-- Is there a number in the list for which the answer is "yes"? -/
def anyOf (f : Nat → Option Bool) : List Nat → Option Bool
  | [] => some false
  | i :: is =>
    match f i with
    | none => none
    | some true => some true
    | some false => anyOf f is

/-- `type_requires_initialization`, syntax.c:587-611. -/
def requiresInit (cells : List Int) : Nat → Int → Option Bool
  | 0, _ => none
  | fuel + 1, t =>
    let c := typeClass cells t
    if c = TYPE_STRUCTURE then
      (memberAmount cells t).bind fun n => anyOf (fun i => (memberType cells t i).bind fun m => requiresInit cells fuel m) (List.range n)
    else if c = TYPE_ARRAY then (arrayElement cells t).bind fun u => requiresInit cells fuel u
    else some (decide (c = TYPE_CONST))

/-- `build_subscript_expression`, builder.c:610-636. -/
def buildSubscript (cells : List Int) (base index : Ex F) : Out (Ex F) := do
  if (← ask (isArray cells base.type)) = false then .bad
  else if (← ask (isInteger cells index.type)) = false then .bad
  else return .place (← ask (arrayElement cells base.type)) true

/-- The parameters of a call and its arguments, checked one by one, builder.c:691-702 and 330-340. -/
def checkArgs (D : Doubles F) (cells : List Int) : List Int → List (Ex F) → Out (List (Ex F))
  | _, [] => .ok []
  | [], _ :: _ => .ub
  | t :: ts, e :: es => do
    let e' ← checkAssign D cells true t e
    return e' :: (← checkArgs D cells ts es)

/-- The answer of the `switch` over a specifier in `evaluate_args`, builder.c:241-299. -/
inductive Spec
  | value (type : Int)
  | percent
  | wrong

/-- The `switch` over a specifier in `evaluate_args`, builder.c:241-299; `str` is the type of strings. -/
def specifier (str : Int) (c : Nat) : Spec :=
  if c = 105 ∨ c = 0x446 ∨ c = 99 ∨ c = 0x43B then .value TYPE_INTEGER
  else if c = 102 ∨ c = 0x432 then .value TYPE_FLOATING
  else if c = 115 ∨ c = 0x441 then .value str
  else if c = 37 then .percent
  else .wrong

/-- `MAX_PRINTF_ARGS`, builder.c:20. -/
def MAX_PRINTF_ARGS : Nat := 20

/-- `evaluate_args`, builder.c:241-299, on the octets of the format from the place reached, with their
terminating zero.  `none`: reading outside the string.  `some none`: an error was reported and 0 answered.
Simplified: `type_string` is its answer `str`; it finds the record of the format's own type, so that the table
is not changed. -/
def evaluateArgs (str : Int) : Nat → List Nat → List Int → Option (Option (List Int))
  | 0, _, _ => none
  | _ + 1, [], _ => none
  | fuel + 1, b :: s, args =>
    if b = 0 then some (some args)
    else
      match convert (b :: s) with
      | none => none
      | some c =>
        let next := (b :: s).drop (symbolSize b)
        if c = 37 then
          match convert next with
          | none => none
          | some c' =>
            if c' ≠ 37 ∧ args.length = MAX_PRINTF_ARGS then some none
            else
              match specifier str c' with
              | .value t => evaluateArgs str fuel (next.drop (symbolSize (next.headD 0))) (args ++ [t])
              | .percent => evaluateArgs str fuel (next.drop (symbolSize (next.headD 0))) args
              | .wrong => some none
        else evaluateArgs str fuel next args

/-- A call that was built: the node, its arguments, and whether an error had been reported on the way. -/
structure Call (F : Type) where
  node : Ex F
  args : List (Ex F)
  reported : Bool

/-- The end of `build_printf_expression`, builder.c:301-347, when the format was understood or not. -/
def printfEnd (D : Doubles F) (cells : List Int) (fmt : Ex F) (rest : List (Ex F)) : Option (List Int) → Out (Call F)
  | none => if rest.length ≠ 0 then .bad else .ok ⟨.place TYPE_INTEGER false, [fmt], true⟩
  | some ts =>
    if ts.length ≠ rest.length then .bad
    else (checkArgs D cells ts rest).bind fun rest' => .ok ⟨.place TYPE_INTEGER false, fmt :: rest', false⟩

/-- `build_printf_expression`, builder.c:301-347; `strings` are the octets of the string literals.  Too many
arguments are reported without the number that the message reads: undefined behaviour. -/
def buildPrintf (D : Doubles F) (cells : List Int) (strings : Nat → List Nat) : List (Ex F) → Out (Call F)
  | [] => .bad
  | fmt :: rest =>
    if rest.length + 1 ≥ MAX_PRINTF_ARGS then .ub
    else
      match fmt with
      | .lit t v =>
        (ask (isString cells t)).bind fun b =>
          if b = false then .bad
          else
            v.integer.bind fun i =>
              (ask (evaluateArgs t ((strings (toSize i)).length + 1) (strings (toSize i)) [])).bind
                (printfEnd D cells fmt rest)
      | _ => .bad

/-- Is any of the expressions a pointer?  The loop of `build_print_expression`, builder.c:349-370. -/
def anyPointer (cells : List Int) : List (Ex F) → Option Bool
  | [] => some false
  | e :: es => (isPointer cells e.type).bind fun b => if b then some true else anyPointer cells es

/-- `build_print_expression`, builder.c:349-370. -/
def buildPrint (cells : List Int) (args : List (Ex F)) : Out (Call F) :=
  if args = [] then .bad
  else (ask (anyPointer cells args)).bind fun b => if b then .bad else .ok ⟨.place TYPE_VOID false, args, false⟩

/-- Is the expression an identifier? -/
def isIdent : Ex F → Bool
  | .ident _ _ => true
  | _ => false

/-- `build_printid_expression` and `build_getid_expression`, builder.c:395-416. -/
def buildIds (args : List (Ex F)) : Out (Call F) :=
  if args = [] then .bad
  else if args.all isIdent then .ok ⟨.place TYPE_VOID false, args, false⟩
  else .bad

/-- The identifiers with rules of their own, operations.h:213-216. -/
def BI_PRINTF : Nat := 154
def BI_PRINT : Nat := 158
def BI_PRINTID : Nat := 162
def BI_GETID : Nat := 166

/-- The types of the parameters, as they are asked for one by one in `build_call_expression`, builder.c:638-694. -/
def parameters (cells : List Int) (t : Int) (n : Nat) : List Int := (List.range n).map fun i => parameterType cells t i

/-- The end of `build_call_expression`, builder.c:638-694, for an ordinary function. -/
def buildPlainCall (D : Doubles F) (cells : List Int) (t : Int) (args : List (Ex F)) : Out (Call F) :=
  if parameterAmount cells t ≠ args.length then .bad
  else
    (checkArgs D cells (parameters cells t args.length) args).bind fun args' =>
      .ok ⟨.place (returnType cells t) false, args', false⟩

/-- The identifier, if the expression is one. -/
def identOf : Ex F → Option Nat
  | .ident _ id => some id
  | _ => none

/-- `build_call_expression`, builder.c:638-694. -/
def buildCall (D : Doubles F) (cells : List Int) (strings : Nat → List Nat) (callee : Ex F) (args : List (Ex F)) : Out (Call F) :=
  if isFunction cells callee.type = false then .bad
  else if identOf callee = some BI_PRINTF then buildPrintf D cells strings args
  else if identOf callee = some BI_PRINT then buildPrint cells args
  else if identOf callee = some BI_PRINTID ∨ identOf callee = some BI_GETID then buildIds args
  else buildPlainCall D cells callee.type args

/-- The loop of `build_member_expression`, builder.c:696-748: the number of the member of that name, looked for
among `n` members from `i` on. -/
def findMember (cells : List Int) (struct : Int) (name : Nat) : Nat → Nat → Option (Option Nat)
  | 0, _ => some none
  | n + 1, i => (memberName cells struct i).bind fun x => if name = x then some (some i) else findMember cells struct name n (i + 1)

/-- The end of `build_member_expression`, builder.c:696-748: the node, the number of the member, the table. -/
def memberOf (tb : Table) (struct : Int) (lv : Bool) (name : Nat) : Out (Ex F × Nat × Table) := do
  let n ← ask (memberAmount tb.cells struct)
  match ← ask (findMember tb.cells struct name n 0) with
  | none => .bad
  | some i =>
    let m ← ask (memberType tb.cells struct i)
    if isConst tb.cells struct ∧ ¬isConst tb.cells m then
      let p ← ask (typeConst tb m)
      return (.place p.1 lv, i, p.2)
    else return (.place m lv, i, tb)

/-- `build_member_expression`, builder.c:696-748. -/
def buildMember (tb : Table) (base : Ex F) (name : Nat) (arrow : Bool) : Out (Ex F × Nat × Table) := do
  if arrow = false then
    if (← ask (isStructure tb.cells base.type)) = false then .bad
    else memberOf tb base.type base.lvalue name
  else if (← ask (isStructPointer tb.cells base.type)) = false then .bad
  else memberOf tb (← ask (pointerElement tb.cells base.type)) true name

/-- The check of a condition in `build_if_statement`, `build_while_statement`, `build_do_statement` and
`build_for_statement`, builder.c:1430-1447. -/
def checkCondition (cells : List Int) (e : Ex F) : Out Unit := do
  if (← ask (isScalar cells e.type)) = false then .bad else return ()

/-- The check in `build_switch_statement` and `build_case_statement`, builder.c:1308-1323, 1396-1411. -/
def checkSelector (cells : List Int) (e : Ex F) : Out Unit := do
  if (← ask (isInteger cells e.type)) = false then .bad else return ()

/-- `build_constant_expression`, builder.c:1112-1121. -/
def checkConstant : Ex F → Out (Ex F)
  | .lit t v => .ok (.lit t v)
  | _ => .bad

/-- `build_initializer`, builder.c:1099-1110. -/
def buildInit (es : List (Ex F)) : Out (Ex F) := if es = [] then .bad else .ok (.init TYPE_UNDEFINED es)

/-- A statement or a declarator that was built, with the number of errors reported on the way. -/
structure Built (α : Type) where
  value : α
  errors : Nat
  table : Table

/-- A check whose answer is thrown away: the expression as it is left, and the number of reports. -/
def attempt (e : Ex F) : Out (Ex F) → Out (Ex F × Nat)
  | .ok e' => .ok (e', 0)
  | .bad => .ok (e, 1)
  | .ub => .ub

/-- `build_return_statement`, builder.c:1459-1494, in a function of the type `func`. -/
def buildReturn (D : Doubles F) (tb : Table) (func : Int) : Option (Ex F) → Out (Built (Option (Ex F)))
  | none => if returnType tb.cells func ≠ TYPE_VOID then .bad else .ok ⟨none, 0, tb⟩
  | some e =>
    if returnType tb.cells func = TYPE_VOID then .bad
    else
      (ask (typePointer tb TYPE_VOID)).bind fun p =>
        if returnType tb.cells func ≠ p.1 then
          (attempt e (checkAssign D p.2.cells true (returnType tb.cells func) e)).bind fun r => .ok ⟨some r.1, r.2, p.2⟩
        else .ok ⟨some e, 0, p.2⟩

/-- A bound of an array: `[]` or `[e]`. -/
inductive Bound (F : Type)
  | empty
  | expr (e : Ex F)

/-- The type of a bound: that of an empty one is `int`, AST.c:510-521. -/
def Bound.type : Bound F → Int
  | .empty => TYPE_INTEGER
  | .expr e => e.type

/-- Is the bound empty? -/
def Bound.isEmpty : Bound F → Bool
  | .empty => true
  | .expr _ => false

/-- The loop over the bounds in `build_declarator` and `build_member_declaration`, builder.c:1139-1164,
1206-1281: the type, the number of reports, the table. -/
def addBounds : Table → Int → Nat → List (Bound F) → Out (Int × Nat × Table)
  | tb, t, errors, [] => .ok (t, errors, tb)
  | tb, t, errors, b :: bs =>
    (ask (typeArray tb t)).bind fun p =>
      (ask (isInteger p.2.cells b.type)).bind fun ok => addBounds p.2 p.1 (if ok then errors else errors + 1) bs

/-- The type before the bounds, builder.c:1206-1221. -/
def pointed (tb : Table) (t : Int) (star const : Bool) : Option (Int × Table) :=
  (if star then typePointer tb t else some (t, tb)).bind fun p => if const then typeConst p.2 p.1 else some p

/-- The checks of an initialiser in `build_declarator`, builder.c:1208-1278. -/
def checkInit (D : Doubles F) (cells : List Int) (t : Int) (emptyBound : Bool) : Option (Ex F) → Out (Option (Ex F) × Nat)
  | some e => (attempt e (checkAssign D cells true t e)).bind fun r => .ok (some r.1, r.2)
  | none =>
    if emptyBound then .ok (none, 1)
    else (ask (requiresInit cells (cells.length + 1) t)).bind fun b => .ok (none, if b then 1 else 0)

/-- `build_declarator`, builder.c:1208-1278: the type of the variable and its initialiser.  The name is entered
by `ident_add`, which is modelled in `Verif.Scope`. -/
def buildDeclarator (D : Doubles F) (tb : Table) (type : Int) (star const : Bool) (bounds : List (Bound F)) (init : Option (Ex F)) :
    Out (Built (Int × Option (Ex F))) :=
  (ask (pointed tb type star const)).bind fun p =>
    (addBounds p.2 p.1 (if type = TYPE_VOID then 1 else 0) bounds).bind fun q =>
      (checkInit D q.2.2.cells q.1 (bounds.any Bound.isEmpty) init).bind fun r => .ok ⟨(q.1, r.1), q.2.1 + r.2, q.2.2⟩

/-- `build_member_declaration`, builder.c:1139-1164: the type of the member. -/
def buildMemberDecl (tb : Table) (type : Int) (star const : Bool) (bounds : List (Bound F)) : Out (Built Int) :=
  (ask (pointed tb type star const)).bind fun p =>
    (addBounds p.2 p.1 (if type = TYPE_VOID then 1 else 0) bounds).bind fun q => .ok ⟨q.1, q.2.1, q.2.2⟩

end RuC.Checks
