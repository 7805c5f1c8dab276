import Verif.Map.Model
import Verif.Hash.Model
import Verif.Strings.Model

/-!
# Model of `libs/macro/storage.c`, `libs/macro/keywords.c` and the directives that change macros

The storage is a map from names to hash indices (and from directive spellings to keyword numbers), a
hash table from map indices to two cells (string index, number of parameters), and a strings vector
with the values.  It is modelled over the models of these containers.  Memory is granted throughout.

A key argument is a `char32_t` string, a C string or an input (`Map.KeyArg`).  Of the directives only
the calls of the storage are modelled; the reading of parameters and value (`parse_args`,
`parse_content`) is a given: the number of parameters and the octets of the value, or its failure.
-/

namespace RuC.Storage
open RuC

/-- `storage`, storage.h:30-36. -/
structure Stg where
  as : Map.Map
  hs : List Int
  vec : Strings.Strs
deriving Repr, DecidableEq

/-- The spellings of directives with the numbers `kw_add`, keywords.c:42-70, gives them
(`keyword_t`, keywords.h:30-65). -/
def keywordTable : List (List Nat × Int) := [
  ([35, 105, 110, 99, 108, 117, 100, 101], 2),  -- #include
  ([35, 73, 78, 67, 76, 85, 68, 69], 2),  -- #INCLUDE
  ([35, 1087, 1086, 1076, 1082, 1083, 1102, 1095, 1080, 1090, 1100], 2),  -- #подключить
  ([35, 1055, 1054, 1044, 1050, 1051, 1070, 1063, 1048, 1058, 1068], 2),  -- #ПОДКЛЮЧИТЬ
  ([35, 108, 105, 110, 101], 3),  -- #line
  ([35, 76, 73, 78, 69], 3),  -- #LINE
  ([35, 1089, 1090, 1088, 1086, 1082, 1072], 3),  -- #строка
  ([35, 1057, 1058, 1056, 1054, 1050, 1040], 3),  -- #СТРОКА
  ([35, 100, 101, 102, 105, 110, 101], 4),  -- #define
  ([35, 68, 69, 70, 73, 78, 69], 4),  -- #DEFINE
  ([35, 1086, 1087, 1088, 1077, 1076, 1077, 1083, 1080, 1090, 1100], 4),  -- #определить
  ([35, 1054, 1055, 1056, 1045, 1044, 1045, 1051, 1048, 1058, 1068], 4),  -- #ОПРЕДЕЛИТЬ
  ([35, 115, 101, 116], 5),  -- #set
  ([35, 83, 69, 84], 5),  -- #SET
  ([35, 1087, 1077, 1088, 1077, 1086, 1087, 1088, 1077, 1076, 1077, 1083, 1080, 1090, 1100], 5),  -- #переопределить
  ([35, 1055, 1045, 1056, 1045, 1054, 1055, 1056, 1045, 1044, 1045, 1051, 1048, 1058, 1068], 5),  -- #ПЕРЕОПРЕДЕЛИТЬ
  ([35, 117, 110, 100, 101, 102], 6),  -- #undef
  ([35, 85, 78, 68, 69, 70], 6),  -- #UNDEF
  ([35, 1088, 1072, 1079, 1086, 1087, 1088, 1077, 1076, 1077, 1083, 1080, 1090, 1100], 6),  -- #разопределить
  ([35, 1056, 1040, 1047, 1054, 1055, 1056, 1045, 1044, 1045, 1051, 1048, 1058, 1068], 6),  -- #РАЗОПРЕДЕЛИТЬ
  ([35, 109, 97, 99, 114, 111], 7),  -- #macro
  ([35, 77, 65, 67, 82, 79], 7),  -- #MACRO
  ([35, 1084, 1072, 1082, 1088, 1086], 7),  -- #макро
  ([35, 1052, 1040, 1050, 1056, 1054], 7),  -- #МАКРО
  ([35, 101, 110, 100, 109], 8),  -- #endm
  ([35, 69, 78, 68, 77], 8),  -- #ENDM
  ([35, 1082, 1086, 1085, 1077, 1094, 1084], 8),  -- #конецм
  ([35, 1050, 1054, 1053, 1045, 1062, 1052], 8),  -- #КОНЕЦМ
  ([35, 105, 102, 100, 101, 102], 9),  -- #ifdef
  ([35, 73, 70, 68, 69, 70], 9),  -- #IFDEF
  ([35, 1077, 1089, 1083, 1080, 1073, 1099, 1083], 9),  -- #еслибыл
  ([35, 1045, 1057, 1051, 1048, 1041, 1067, 1051], 9),  -- #ЕСЛИБЫЛ
  ([35, 105, 102, 110, 100, 101, 102], 10),  -- #ifndef
  ([35, 73, 70, 78, 68, 69, 70], 10),  -- #IFNDEF
  ([35, 1077, 1089, 1083, 1080, 1085, 1077, 1073, 1099, 1083], 10),  -- #еслинебыл
  ([35, 1045, 1057, 1051, 1048, 1053, 1045, 1041, 1067, 1051], 10),  -- #ЕСЛИНЕБЫЛ
  ([35, 105, 102], 11),  -- #if
  ([35, 73, 70], 11),  -- #IF
  ([35, 1077, 1089, 1083, 1080], 11),  -- #если
  ([35, 1045, 1057, 1051, 1048], 11),  -- #ЕСЛИ
  ([35, 101, 108, 105, 102], 12),  -- #elif
  ([35, 69, 76, 73, 70], 12),  -- #ELIF
  ([35, 1080, 1085, 1077, 1089, 1083, 1080], 12),  -- #инесли
  ([35, 1048, 1053, 1045, 1057, 1051, 1048], 12),  -- #ИНЕСЛИ
  ([35, 101, 108, 115, 101], 13),  -- #else
  ([35, 69, 76, 83, 69], 13),  -- #ELSE
  ([35, 1080, 1085, 1072, 1095, 1077], 13),  -- #иначе
  ([35, 1048, 1053, 1040, 1063, 1045], 13),  -- #ИНАЧЕ
  ([35, 101, 110, 100, 105, 102], 14),  -- #endif
  ([35, 69, 78, 68, 73, 70], 14),  -- #ENDIF
  ([35, 1082, 1086, 1085, 1077, 1094, 1077, 1089, 1083, 1080], 14),  -- #конецесли
  ([35, 1050, 1054, 1053, 1045, 1062, 1045, 1057, 1051, 1048], 14),  -- #КОНЕЦЕСЛИ
  ([35, 101, 118, 97, 108], 15),  -- #eval
  ([35, 69, 86, 65, 76], 15),  -- #EVAL
  ([35, 1074, 1099, 1095, 1080, 1089, 1083, 1080, 1090, 1100], 15),  -- #вычислить
  ([35, 1042, 1067, 1063, 1048, 1057, 1051, 1048, 1058, 1068], 15),  -- #ВЫЧИСЛИТЬ
  ([35, 119, 104, 105, 108, 101], 16),  -- #while
  ([35, 87, 72, 73, 76, 69], 16),  -- #WHILE
  ([35, 1087, 1086, 1082, 1072], 16),  -- #пока
  ([35, 1055, 1054, 1050, 1040], 16),  -- #ПОКА
  ([35, 101, 110, 100, 119], 17),  -- #endw
  ([35, 69, 78, 68, 87], 17),  -- #ENDW
  ([35, 1082, 1086, 1085, 1077, 1094, 1087], 17),  -- #конецп
  ([35, 1050, 1054, 1053, 1045, 1062, 1055], 17)  -- #КОНЕЦП
]

/-- `kw_is_correct`, keywords.h:98-101: the argument is converted to an unsigned enumeration of 32
bits. -/
def kwIsCorrect (value : Int) : Bool :=
  decide (1 < value % 4294967296) && decide (value % 4294967296 < 18)

/-- `map_add_by_utf8`, map.c:318-321, memory granted. -/
def mapAdd (m : Map.Map) (key : Map.KeyArg) (v : Int) : Option (Nat × Map.Map) :=
  match Map.getHash m key true with
  | none => none
  | some (h, m) => Map.addByHash m h v true

/-- `map_reserve`, `map_reserve_by_utf8`, `map_reserve_by_io`, map.c:307-310, memory granted. -/
def mapReserve (m : Map.Map) (key : Map.KeyArg) : Option (Nat × Map.Map) := mapAdd m key ITEM_MAX

/-- `map_get_index_by_io`, map.c:366-369, memory granted. -/
def mapIndex (m : Map.Map) (key : Map.KeyArg) : Option (Nat × Map.Map) :=
  match Map.getHash m key true with
  | none => none
  | some (h, m) => (Map.getIndexByHash m h).map fun i => (i, m)

/-- `map_get`, map.c:372-375, memory granted. -/
def mapGet (m : Map.Map) (key : Map.KeyArg) : Option (Int × Map.Map) :=
  match Map.getHash m key true with
  | none => none
  | some (h, m) => (Map.getByHash m h).map fun i => (i, m)

/-- `kw_add`, keywords.c:42-70: the additions stop at the first refused one. -/
def kwAdd (m : Map.Map) : List (List Nat × Int) → Option Map.Map
  | [] => some m
  | (s, v) :: t =>
    match mapAdd m (.utf8 (s ++ [0])) v with
    | none => none
    | some (r, m) => if r = SIZE_MAX then some m else kwAdd m t

/-- `storage_create`, storage.c:78-90; `MAX_MACRO` is 256. -/
def storageCreate : Option Stg :=
  (kwAdd (Map.mapCreate 256) keywordTable).map fun m =>
    { as := m, hs := Hash.hashCreate, vec := Strings.stringsCreate 256 }

/-- `add`, storage.c:40-54, and `storage_add_by_io`, storage.c:103-120. -/
def storageAdd (g : Stg) (key : Map.KeyArg) : Option (Nat × Stg) :=
  match mapReserve g.as key with
  | none => none
  | some (k, m) =>
    match Hash.hashAdd g.hs (toItem k) 2 with
    | none => none
    | some (index, hs) =>
      some (index,
        { g with
          as := (Map.setByIndex m k (toItem index)).2
          hs := (Hash.setAt (Hash.setAt hs index 0 ITEM_MAX).2 index 1 0).2 })

/-- `storage_search`, storage.c:201-214. -/
def storageSearch (g : Stg) (key : Map.KeyArg) : Option (Nat × Stg) :=
  match mapIndex g.as key with
  | none => none
  | some (index, m) =>
    match Map.getByIndex m index with
    | none => none
    | some value =>
      if kwIsCorrect value then some (toSize value, { g with as := m })
      else (Hash.getIndex g.hs (toItem index)).map fun r => (r, { g with as := m })

/-- `storage_get_index`, storage.c:123-126, with `get_index`, storage.c:57-66. -/
def storageGetIndex (g : Stg) (key : Map.KeyArg) : Option (Nat × Stg) :=
  (mapGet g.as key).map fun r => (if r.1 ≠ ITEM_MAX then toSize r.1 else SIZE_MAX, { g with as := r.2 })

/-- `storage_get_by_index`, storage.c:133-138 (inner `none`: NULL). -/
def storageGetByIndex (g : Stg) (id : Nat) : Option (Option (List Nat)) :=
  Strings.stringsGet g.vec (toSize (Hash.getAt g.hs id 0))

/-- `storage_get_args_by_index`, storage.c:140-149. -/
def storageGetArgs (g : Stg) (id : Nat) : Nat :=
  if Hash.getAt g.hs id 1 ≠ ITEM_MAX then toSize (Hash.getAt g.hs id 1) else 0

/-- The first lines of `storage_set_by_index`, storage.c:152-170: the last string is dropped if it is
the value of the macro. -/
def dropLast (g : Stg) (id : Nat) : Option Strings.Strs :=
  if Hash.getAt g.hs id 0 = toItem (Strings.stringsSize g.vec) - 1 then
    (Strings.stringsRemove g.vec).map Prod.snd
  else some g.vec

/-- `storage_set_by_index`, storage.c:152-170. -/
def storageSet (g : Stg) (id : Nat) (value : List Nat) : Option (Nat × Stg) :=
  match dropLast g id with
  | none => none
  | some vec =>
    match Strings.stringsAdd vec value (fun _ => true) (fun _ => true) with
    | none => none
    | some (index, vec) =>
      some (id, { g with
        hs := if index ≠ SIZE_MAX then (Hash.setAt g.hs id 0 (toItem index)).2 else g.hs
        vec := vec })

/-- `storage_set_args_by_index`, storage.c:172-181. -/
def storageSetArgs (g : Stg) (id : Nat) (args : Nat) : Stg :=
  { g with hs := (Hash.setAt g.hs id 1 (toItem args)).2 }

/-- `storage_remove_by_index`, storage.c:184-198. -/
def storageRemove (g : Stg) (id : Nat) : Option Stg :=
  let as := (Map.setByIndex g.as (toSize (Hash.getKey g.hs id)) ITEM_MAX).2
  match dropLast g id with
  | none => none
  | some vec => some { as := as, hs := (Hash.removeAt g.hs id).2, vec := vec }

/-! ## Directives -/

/-- What a directive reads behind the name: the number of parameters and the value, or a failure. -/
abbrev Context := Option (Nat × List Nat)

/-- The end of `parse_context`, macro/parser.c:1881-1920. -/
def parseContext (g : Stg) (index : Nat) : Context → Option Stg
  | none => storageRemove g index
  | some (args, value) => (storageSet (storageSetArgs g index args) index value).map Prod.snd

/-- `parse_define`, macro/parser.c:1929-1948, from the name on; also `parse_macro`,
macro/parser.c:2007-2067. -/
def parseDefine (g : Stg) (key : Map.KeyArg) (c : Context) : Option Stg :=
  match storageAdd g key with
  | none => none
  | some (index, g) =>
    if index = SIZE_MAX then
      match storageSearch g key with
      | none => none
      | some (index, g) => parseContext g index c
    else parseContext g index c

/-- `parse_set`, macro/parser.c:1957-1976, from the name on. -/
def parseSet (g : Stg) (key : Map.KeyArg) (c : Context) : Option Stg :=
  match storageSearch g key with
  | none => none
  | some (index, g) =>
    if index = SIZE_MAX then
      match storageAdd g key with
      | none => none
      | some (index, g) => parseContext g index c
    else parseContext g index c

/-- `parse_undef`, macro/parser.c:1985-1997, from the name on. -/
def parseUndef (g : Stg) (key : Map.KeyArg) : Option Stg :=
  match storageSearch g key with
  | none => none
  | some (index, g) => storageRemove g index

/-- A flag `-Dname` or `-Dname=value`, the calls of `ws_parse`, macro.c:68-106; the Boolean tells
whether it was accepted. -/
def parseFlag (g : Stg) (key : Map.KeyArg) (value : List Nat) : Option (Bool × Stg) :=
  match storageAdd g key with
  | none => none
  | some (index, g) =>
    if value = [] then some (index != SIZE_MAX, g)
    else (storageSet g index value).map fun r => (r.1 != SIZE_MAX, r.2)

/-- What a lookup answers. -/
inductive Answer
  | absent
  | keyword (n : Nat)
  | found (args : Nat) (value : Option (List Nat))
  | done
  | refused
deriving Repr, DecidableEq

/-- A lookup as `parse_identifier`, macro/parser.c:800-849, and `parse_directive`,
macro/parser.c:957-1011, make it: `storage_search`, then the number of parameters and the value. -/
def lookup (g : Stg) (key : Map.KeyArg) : Option (Answer × Stg) :=
  match storageSearch g key with
  | none => none
  | some (index, g) =>
    if index = SIZE_MAX then some (.absent, g)
    else if kwIsCorrect index then some (.keyword index, g)
    else (storageGetByIndex g index).map fun v => (.found (storageGetArgs g index) v, g)

/-- A lookup of a directive written with a space behind the `#`, macro/parser.c:962-1001:
`storage_get_index`. -/
def lookupSpaced (g : Stg) (key : Map.KeyArg) : Option (Answer × Stg) :=
  (storageGetIndex g key).map fun r =>
    (if kwIsCorrect r.1 then .keyword r.1 else .absent, r.2)

/-- One step of a history. -/
inductive Op
  | define (key : Map.KeyArg) (c : Context)
  | set (key : Map.KeyArg) (c : Context)
  | undef (key : Map.KeyArg)
  | flag (key : Map.KeyArg) (value : List Nat)
  | lookup (key : Map.KeyArg)
  | lookupSpaced (key : Map.KeyArg)
deriving Repr, DecidableEq

/-- Execute one step. -/
def step (g : Stg) : Op → Option (Answer × Stg)
  | .define key c => (parseDefine g key c).map fun g => (.done, g)
  | .set key c => (parseSet g key c).map fun g => (.done, g)
  | .undef key => (parseUndef g key).map fun g => (.done, g)
  | .flag key v => (parseFlag g key v).map fun r => (if r.1 then .done else .refused, r.2)
  | .lookup key => Storage.lookup g key
  | .lookupSpaced key => Storage.lookupSpaced g key

/-- Execute a history. -/
def run (g : Stg) : List Op → Option (List Answer × Stg)
  | [] => some ([], g)
  | op :: ops =>
    match step g op with
    | none => none
    | some (r, g) => (run g ops).map fun q => (r :: q.1, q.2)

/-- A history on a fresh storage. -/
def exec (ops : List Op) : Option (List Answer) := storageCreate.bind fun g => (run g ops).map Prod.fst

end RuC.Storage
