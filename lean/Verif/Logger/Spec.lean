import Verif.Logger.Model
import Verif.Locator.Spec

/-!
# What a message says

Texts are lists of characters, and the place of a message is a character of a line.
-/

namespace RuC.Logger
open RuC RuC.Utf8 RuC.Io RuC.Locator

/-- The characters words are made of: letters of both alphabets, the underscore and digits. -/
def InWord (c : Nat) : Prop :=
  (65 ≤ c ∧ c ≤ 90) ∨ (97 ≤ c ∧ c ≤ 122) ∨ c = 95 ∨ (48 ≤ c ∧ c ≤ 57) ∨ (0x410 ≤ c ∧ c ≤ 0x44F) ∨ c = 0x401 ∨ c = 0x451

instance (c : Nat) : Decidable (InWord c) := by unfold InWord; infer_instance

/-- The marked part `word` of a line `before ++ word ++ after`, for the character `c` between `a` and `b`: the whole word the character is
in, or the character alone if it is not in a word. -/
structure Marked (a : List Nat) (c : Nat) (b before word after : List Nat) : Prop where
  line : before ++ word ++ after = a ++ c :: b
  inside : before.length ≤ a.length ∧ a.length < before.length + word.length
  alone : ¬ InWord c → word = [c]
  letters : InWord c → ∀ x ∈ word, InWord x
  starts : InWord c → ∀ s x, before = s ++ [x] → ¬ InWord x
  ends : InWord c → ∀ x s, after = x :: s → ¬ InWord x

/-- The line with the marks: blanks, a caret below the first character, tildes below the others. -/
def marks (before word : List Nat) : List Nat :=
  before.map (fun c => if c = 9 then 9 else 32) ++ [94] ++ List.replicate (word.length - 1) 126

/-- The handler of a kind after some calls: the last one set that is not `NULL`. -/
def handlerAfter (h : Handlers) (k : Kind) (ops : List Op) : Nat :=
  (ops.reverse.findSome? fun op => match op with
    | .set k' (some f) => if k' = k then some f else none
    | _ => none).getD (h.of k)

/-- Whether a call logs something. -/
def Op.logs : Op → Option Kind
  | .set _ _ => none
  | .log k _ _ _ _ => some k
  | .auto k _ _ _ _ => some k
  | .system k _ _ => some k

/-- The octets that are seen on the console, each with its colour. -/
def shown : Nat → List Out → List (Nat × Nat)
  | _, [] => []
  | _, .color c :: s => shown c s
  | k, .octet b :: s => (b, k) :: shown k s

/-- The colour the console is left with. -/
def leftWith : Nat → List Out → Nat
  | k, [] => k
  | _, .color c :: s => leftWith c s
  | k, .octet _ :: s => leftWith k s

/-- A text in one colour. -/
def colored (k : Nat) (s : List Nat) : List (Nat × Nat) := s.map fun b => (b, k)

/-- The colour of a kind: red, magenta, yellow. -/
def Kind.color : Kind → Nat
  | .error => 31
  | .warning => 35
  | .note => 33

/-- The name of a kind. -/
def Kind.name : Kind → String
  | .error => "ошибка"
  | .warning => "предупреждение"
  | .note => "примечание"

/-- The octets of a string. -/
def octets (s : String) : List Nat := encodeAll (s.toList.map Char.toNat)

/-- The rest of a text behind a line. -/
def Behind (ts : List Nat) : Prop := (∀ x ∈ ts, x < 0x200000 ∧ x ≠ 0) ∧ (ts = [] ∨ ∃ more, ts = 10 :: more)

/-- The arguments of a call are right: there is a tag of one line, a message of one line and a line (for a location: a message of one
line and a place in a file whose line of code is not empty). -/
def RightArgs : Op → Prop
  | .set _ _ => True
  | .log _ tag msg line _ => (∃ t, tag = some t ∧ 10 ∉ t) ∧ (∃ m, msg = some m ∧ 10 ∉ m) ∧ ∃ l, line = some l
  | .auto _ own text loc msg => (∃ m, msg = some m ∧ 10 ∉ m) ∧
      ∃ l p c, loc = some l ∧ getPath own text l = some p ∧ p ≠ [] ∧ codeLine text l = some c ∧ c ≠ []
  | .system _ tag msg => (∃ t, tag = some t ∧ 10 ∉ t) ∧ ∃ m, msg = some m ∧ 10 ∉ m

/-- The message of a call. -/
def Op.message : Op → List Nat
  | .set _ _ => []
  | .log _ _ msg _ _ => msg.getD []
  | .auto _ _ _ _ msg => msg.getD []
  | .system _ _ msg => msg.getD []

/-- The tag of a call, where it has one. -/
def Op.tagIs : Op → List Nat → Prop
  | .set _ _, _ => False
  | .log _ tag _ _ _, t => tag = some t
  | .auto _ own text loc _, t => ∃ l p, loc = some l ∧ getPath own text l = some p ∧ p.flatMap toStr <+: t
  | .system _ tag _, t => tag = some t

/-- The complaints about arguments. -/
def Complaint (text : List Nat) : Prop :=
  text = octets "NULL указатель на строку" ∨ text = octets "многострочный входной параметр" ∨ text = octets "позиционирование невозможно"

/-- What a call that logs does, with the handlers there are. -/
def Delivered (h : Handlers) (k : Kind) (op : Op) (calls : List Call) : Prop :=
  ∃ call, calls = [call] ∧
    (RightArgs op → call.handler = h.of k ∧ op.tagIs call.tag ∧ op.message <+: call.text) ∧
    (¬ RightArgs op → call.handler = h.error ∧ call.tag = octets "logger" ∧ Complaint call.text)

/-- What the handlers that are there from the beginning show in front of a message. -/
def shownHead (k : Kind) (tag : List Nat) : List (Nat × Nat) := colored 39 (tag ++ [58, 32]) ++ colored k.color (octets k.name ++ [58, 32])

end RuC.Logger
