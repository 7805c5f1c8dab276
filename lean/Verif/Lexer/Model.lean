import Verif.Utf8.Model

/-!
# Lexical analysis, libs/compiler/lexer.c

The lexer keeps the current character in `lxr->character` and the rest in the input.  By C21 scanning a
valid text gives its characters one after another and then `EOF` for ever, so the state is the list of
the characters from the current one on; the empty list is a current character `EOF`.  `scan` drops the
first character.  Restoring the position (`lookahead`, `peek`) is reusing the list.

Simplifications.  Token locations are left out.  The value of a floating literal is left out, only that
it is one.  The representation table is the function `refs` giving the reference of a name
(`repr_get_reference` after `repr_reserve`; C07 says that a name always has the same record).  Warnings
are left out.  An identifier token carries its name in place of the number of its representation and a
string literal its characters in place of its number (C09 says what the numbers mean).
-/

namespace RuC.Lexer
open RuC RuC.Utf8

/-- The error codes of lexer.c. -/
inductive Err
  | unterminatedBlockComment | badCharacter | digitOfAnotherBase | exponentHasNoDigits
  | unknownEscape | emptyCharLiteral | missingApostrophe | missingQuote
  deriving DecidableEq, Repr

/-- The punctuators, token.h:75-122. -/
inductive Punct
  | lSquare | lParen | lBrace | rSquare | rParen | rBrace | comma | colon | semicolon | question | tilde
  | period | plus | minus | star | slash | percent | exclaim | caret | pipe | amp | equal | less | greater
  | arrow | plusEqual | plusPlus | minusEqual | minusMinus | starEqual | slashEqual | percentEqual
  | exclaimEqual | caretEqual | pipeEqual | pipePipe | ampEqual | ampAmp | equalEqual | lessEqual | lessLess
  | greaterEqual | greaterGreater | lessLessEqual | greaterGreaterEqual
  deriving DecidableEq, Repr

/-- A token, token.h:132-144. -/
inductive Tok
  | eof
  | ident (name : List Nat)
  | keyword (kind : Int)
  | int (value : Nat)
  | float
  | char (value : Nat)
  | string (value : List Nat)
  | punct (kind : Punct)
  deriving DecidableEq, Repr

/-- What a call of the lexer does: it returns a token, having reported errors and standing before the
rest; or it never returns; or it runs into undefined behaviour. -/
inductive Outcome
  | tok (t : Tok) (errs : List Err) (rest : List Nat)
  | never
  | undef
  deriving DecidableEq, Repr

/-- `TK_LINE`, token.h:32-33. -/
def TK_LINE : Int := -32767

/-- `skip_whitespace`, lexer.c:75-82. -/
def skipWhitespace : List Nat → List Nat
  | [] => []
  | c :: s => if c = 10 ∨ c = 13 ∨ c = 9 ∨ c = 32 then skipWhitespace s else c :: s

/-- `skip_line_comment`, lexer.c:89-95. -/
def skipLineComment : List Nat → List Nat
  | [] => []
  | c :: s => if c ≠ 10 then skipLineComment s else c :: s

/-- `skip_block_comment`, lexer.c:102-116. -/
def skipBlockComment : List Nat → List Nat × List Err
  | [] => ([], [.unterminatedBlockComment])
  | c :: s =>
    if c = 42 then
      match s with
      | [] => ([], [.unterminatedBlockComment])
      | d :: s => if d = 47 then (s, []) else skipBlockComment s
    else skipBlockComment s

/-- The name read by `repr_reserve` through `map_get_hash_by_io`, map.c:104-138, after its first
character, and what follows it. -/
def wordTail : List Nat → List Nat × List Nat
  | [] => ([], [])
  | c :: s => if isLetter c ∨ isDigit c then (c :: (wordTail s).1, (wordTail s).2) else ([], c :: s)

/-- `lex_identifier_or_keyword`, lexer.c:125-142, at the first character `c`. -/
def lexWord (refs : List Nat → Int) (c : Nat) (s : List Nat) : Tok × List Nat :=
  let name := c :: (wordTail s).1
  (if refs name ≥ 0 then .ident name else .keyword (refs name), (wordTail s).2)

/-- What the digits of a number give: a digit of another base with the value so far, or the value,
whether it is still an integer, and the rest. -/
inductive Digits
  | bad (value : Nat) (rest : List Nat)
  | done (value : Nat) (isInt : Bool) (rest : List Nat)

/-- Skipping hexadecimal digits, lexer.c:210-213. -/
def skipHexa : List Nat → List Nat
  | [] => []
  | c :: s => if isHexaDigit c then skipHexa s else c :: s

/-- Skipping digits, lexer.c:253-257 and lexer.c:292-296. -/
def skipDigits : List Nat → List Nat
  | [] => []
  | c :: s => if isDigit c then skipDigits s else c :: s

/-- The loop over the digits, lexer.c:195-239. -/
def digits (base : Nat) (wasModifier : Bool) : List Nat → Nat → Bool → Digits
  | [], v, isInt => .done v isInt []
  | c :: s, v, isInt =>
    if isHexaDigit c = false then .done v isInt (c :: s)
    else if wasModifier = false ∧ isPower c then .done v isInt (c :: s)
    else if toNumber c ≥ base then .bad v (skipHexa (c :: s))
    else if (base = 2 ∧ v ≥ 0x8000000000000000) ∨ (base = 8 ∧ v ≥ 0x2000000000000000) ∨ v ≥ 0x1000000000000000 then
      digits base wasModifier s v false
    else if isInt then digits base wasModifier s ((v * base + toNumber c) % 18446744073709551616) true
    else digits base wasModifier s v false

/-- `power = power * 10 + ..`, lexer.c:292-296. -/
def power : List Nat → Nat → Nat
  | [], p => p
  | c :: s, p => if isDigit c then power s (p * 10 + toNumber c) else p

/-- `int_value *= 10`, `power` times, lexer.c:298-304. -/
def timesTen : Nat → Nat → Nat
  | 0, v => v
  | p + 1, v => timesTen p (v * 10 % 18446744073709551616)

/-- Skipping what follows an exponent without digits, lexer.c:282-286. -/
def skipExponent : List Nat → List Nat
  | [] => []
  | c :: s => if isLetter c ∨ isDigit c ∨ c = 43 ∨ c = 45 then skipExponent s else c :: s

/-- The exponent and the end of `lex_numeric_literal`, lexer.c:151-336.  A power of 2^63 or more is
a signed overflow. -/
def exponent (wasModifier isInt : Bool) (v : Nat) (s : List Nat) : Outcome :=
  match s with
  | c :: s =>
    if isPower c ∧ wasModifier = false then
      let minus := s.head? = some 45
      let isInt := isInt && !decide minus
      let s := if minus ∨ s.head? = some 43 then s.tail else s
      if (s.head?.map isDigit).getD false then
        if power s 0 ≥ 9223372036854775808 then .undef
        else .tok (if isInt then .int (timesTen (power s 0) v) else .float) [] (skipDigits s)
      else .tok .float [.exponentHasNoDigits] (skipExponent s)
    else .tok (if isInt then .int v else .float) [] (c :: s)
  | [] => .tok (if isInt then .int v else .float) [] []

/-- The fractional part, lexer.c:241-258. -/
def fraction (wasModifier isInt : Bool) (v : Nat) (s : List Nat) : Outcome :=
  match s with
  | c :: s =>
    if c = 46 ∧ wasModifier = false then exponent wasModifier false v (skipDigits s)
    else exponent wasModifier isInt v (c :: s)
  | [] => exponent wasModifier isInt v []

/-- The modifier after a leading zero, lexer.c:158-187: the base, whether there was one, the rest. -/
def modifier : List Nat → Nat × Bool × List Nat
  | 48 :: c :: s =>
    if c = 120 ∨ c = 88 then (16, true, s)
    else if c = 100 ∨ c = 68 then (10, true, s)
    else if c = 111 ∨ c = 79 then (8, true, s)
    else if c = 98 ∨ c = 66 then (2, true, s)
    else (10, false, c :: s)
  | 48 :: [] => (10, false, [])
  | s => (10, false, s)

/-- `lex_numeric_literal`, lexer.c:151-336. -/
def lexNumeric (s : List Nat) : Outcome :=
  let (base, wasModifier, s) := modifier s
  match digits base wasModifier s 0 true with
  | .bad v s => .tok (.int v) [.digitOfAnotherBase] s
  | .done v isInt s => fraction wasModifier isInt v s

/-- The `switch` of `get_next_string_elem`, lexer.c:339-368, at the character after the backslash. -/
def escape (c : Nat) : Nat × List Err :=
  if c = 110 ∨ c = 0x43D then (10, [])
  else if c = 116 ∨ c = 0x442 then (9, [])
  else if c = 48 then (0, [])
  else if c = 92 ∨ c = 39 ∨ c = 34 then (c, [])
  else (c, [.unknownEscape])

/-- `(char32_t)EOF`. -/
def EOFc : Nat := 4294967295

/-- `get_next_string_elem`, lexer.c:339-368: the value, the errors and the state. -/
def nextElem : List Nat → Nat × List Err × List Nat
  | [] => (EOFc, [], [])
  | c :: s =>
    if c = 92 then
      match s with
      | [] => (EOFc, [.unknownEscape], [])
      | d :: s => ((escape d).1, (escape d).2, d :: s)
    else (c, [], c :: s)

/-- `lex_char_literal`, lexer.c:377-404, after the opening apostrophe. -/
def lexChar (s : List Nat) : Outcome :=
  if s.head? = some 39 then .tok (.char 0) [.emptyCharLiteral] s.tail
  else
    let (v, es, s) := nextElem s
    match s.tail with
    | 39 :: s => .tok (.char v) es s
    | s => .tok (.char v) (es ++ [.missingApostrophe]) s

/-- The inner loop of `lex_string_literal`, lexer.c:413-443, with `get_next_string_elem` in place: the
characters, the errors and the state at the closing character.  At the end of the input the loop does
not stop (`none`). -/
def stringBody : List Nat → Option (List Nat × List Err × List Nat)
  | [] => none
  | c :: s =>
    if c = 34 ∨ c = 10 then some ([], [], c :: s)
    else if c = 92 then
      match s with
      | [] => none
      | d :: s => (stringBody s).map fun r => ((escape d).1 :: r.1, (escape d).2 ++ r.2.1, r.2.2)
    else (stringBody s).map fun r => (c :: r.1, r.2.1, r.2.2)

/-- The outer loop of `lex_string_literal`, lexer.c:413-443.  The fuel bounds the number of adjacent
literals; the length of the text is enough. -/
def stringLoop : Nat → List Nat → List Nat → List Err → Outcome
  | 0, _, _, _ => .never
  | fuel + 1, s, acc, es =>
    match s with
    | 34 :: s =>
      match stringBody s with
      | none => .never
      | some (cs, es', 34 :: s) => stringLoop fuel (skipWhitespace s) (acc ++ cs) (es ++ es')
      | some (cs, es', s) => stringLoop fuel (skipWhitespace s) (acc ++ cs) (es ++ es' ++ [.missingQuote])
    | s => .tok (.string acc) es s

/-- `lex_string_literal`, lexer.c:413-443, at the opening quote. -/
def lexString (s : List Nat) : Outcome := stringLoop (s.length + 1) s [] []

/-- The punctuator cases of the `switch` of `lex`, lexer.c:473-810, at the character `c`.  The comments
and the numbers starting with a period are dealt with before. -/
def lexPunct (c : Nat) (s : List Nat) : Option (Punct × List Nat) :=
  match c with
  | 63 => some (.question, s)
  | 91 => some (.lSquare, s)
  | 93 => some (.rSquare, s)
  | 40 => some (.lParen, s)
  | 41 => some (.rParen, s)
  | 123 => some (.lBrace, s)
  | 125 => some (.rBrace, s)
  | 126 => some (.tilde, s)
  | 58 => some (.colon, s)
  | 59 => some (.semicolon, s)
  | 44 => some (.comma, s)
  | 46 => some (.period, s)
  | 42 => if s.head? = some 61 then some (.starEqual, s.tail) else some (.star, s)
  | 33 => if s.head? = some 61 then some (.exclaimEqual, s.tail) else some (.exclaim, s)
  | 37 => if s.head? = some 61 then some (.percentEqual, s.tail) else some (.percent, s)
  | 94 => if s.head? = some 61 then some (.caretEqual, s.tail) else some (.caret, s)
  | 61 => if s.head? = some 61 then some (.equalEqual, s.tail) else some (.equal, s)
  | 43 =>
    if s.head? = some 61 then some (.plusEqual, s.tail)
    else if s.head? = some 43 then some (.plusPlus, s.tail)
    else some (.plus, s)
  | 124 =>
    if s.head? = some 61 then some (.pipeEqual, s.tail)
    else if s.head? = some 124 then some (.pipePipe, s.tail)
    else some (.pipe, s)
  | 38 =>
    if s.head? = some 61 then some (.ampEqual, s.tail)
    else if s.head? = some 38 then some (.ampAmp, s.tail)
    else some (.amp, s)
  | 45 =>
    if s.head? = some 61 then some (.minusEqual, s.tail)
    else if s.head? = some 45 then some (.minusMinus, s.tail)
    else if s.head? = some 62 then some (.arrow, s.tail)
    else some (.minus, s)
  | 60 =>
    if s.head? = some 60 then
      if s.tail.head? = some 61 then some (.lessLessEqual, s.tail.tail) else some (.lessLess, s.tail)
    else if s.head? = some 61 then some (.lessEqual, s.tail)
    else some (.less, s)
  | 62 =>
    if s.head? = some 62 then
      if s.tail.head? = some 61 then some (.greaterGreaterEqual, s.tail.tail) else some (.greaterGreater, s.tail)
    else if s.head? = some 61 then some (.greaterEqual, s.tail)
    else some (.greater, s)
  | 47 => if s.head? = some 61 then some (.slashEqual, s.tail) else some (.slash, s)
  | _ => none

/-- Add the errors reported before. -/
def Outcome.after (es : List Err) : Outcome → Outcome
  | .tok t es' s => .tok t (es ++ es') s
  | .never => .never
  | .undef => .undef

/-- The loop of `lex`, lexer.c:473-810.  The fuel bounds the number of turns; one more than the
length of the text is enough. -/
def lexLoop (refs : List Nat → Int) : Nat → List Nat → Outcome
  | 0, _ => .never
  | fuel + 1, s =>
    match skipWhitespace s with
    | [] => .tok .eof [] []
    | c :: s =>
      if isDigit c then lexNumeric (c :: s)
      else if c = 39 then lexChar s
      else if c = 34 then lexString (c :: s)
      else if c = 46 ∧ (s.head?.map isDigit).getD false then lexNumeric (c :: s)
      else if c = 47 ∧ s.head? = some 47 then lexLoop refs fuel (skipLineComment s)
      else if c = 47 ∧ s.head? = some 42 then
        (lexLoop refs fuel (skipBlockComment s).1).after (skipBlockComment s).2
      else
        match lexPunct c s with
        | some (k, s) => .tok (.punct k) [] s
        | none =>
          if isLetter c ∨ c = 35 then
            match lexWord refs c s with
            | (.keyword k, s) => if k = TK_LINE then lexLoop refs fuel (skipLineComment s) else .tok (.keyword k) [] s
            | (t, s) => .tok t [] s
          else (lexLoop refs fuel s).after [.badCharacter]

/-- `lex`, lexer.c:473-810. -/
def lex (refs : List Nat → Int) (s : List Nat) : Outcome := lexLoop refs (s.length + 1) s

/-- The keywords of `repr_init`, syntax.c:53-86: the English name, the Russian name, the token. -/
def keywordList : List (List Nat × List Nat × Int) := [
  -- TK_LINE: #line, #строка
  ([35, 108, 105, 110, 101],
    [35, 1089, 1090, 1088, 1086, 1082, 1072], -32767),
  -- TK_MAIN: main, главная
  ([109, 97, 105, 110],
    [1075, 1083, 1072, 1074, 1085, 1072, 1103], 0),
  -- TK_CHAR: char, литера
  ([99, 104, 97, 114],
    [1083, 1080, 1090, 1077, 1088, 1072], -32762),
  -- TK_DOUBLE: double, двойной
  ([100, 111, 117, 98, 108, 101],
    [1076, 1074, 1086, 1081, 1085, 1086, 1081], -32757),
  -- TK_FLOAT: float, вещ
  ([102, 108, 111, 97, 116],
    [1074, 1077, 1097], -32752),
  -- TK_INT: int, цел
  ([105, 110, 116],
    [1094, 1077, 1083], -32749),
  -- TK_LONG: long, длин
  ([108, 111, 110, 103],
    [1076, 1083, 1080, 1085], -32748),
  -- TK_STRUCT: struct, структура
  ([115, 116, 114, 117, 99, 116],
    [1089, 1090, 1088, 1091, 1082, 1090, 1091, 1088, 1072], -32745),
  -- TK_ENUM: enum, перечисление
  ([101, 110, 117, 109],
    [1087, 1077, 1088, 1077, 1095, 1080, 1089, 1083, 1077, 1085, 1080, 1077], -32755),
  -- TK_VOID: void, пусто
  ([118, 111, 105, 100],
    [1087, 1091, 1089, 1090, 1086], -32740),
  -- TK_FILE: file, файл
  ([102, 105, 108, 101],
    [1092, 1072, 1081, 1083], -32753),
  -- TK_TYPEDEF: typedef, типопр
  ([116, 121, 112, 101, 100, 101, 102],
    [1090, 1080, 1087, 1086, 1087, 1088], -32742),
  -- TK_IF: if, если
  ([105, 102],
    [1077, 1089, 1083, 1080], -32750),
  -- TK_ELSE: else, иначе
  ([101, 108, 115, 101],
    [1080, 1085, 1072, 1095, 1077], -32756),
  -- TK_DO: do, цикл
  ([100, 111],
    [1094, 1080, 1082, 1083], -32758),
  -- TK_WHILE: while, пока
  ([119, 104, 105, 108, 101],
    [1087, 1086, 1082, 1072], -32739),
  -- TK_FOR: for, для
  ([102, 111, 114],
    [1076, 1083, 1103], -32751),
  -- TK_SWITCH: switch, выбор
  ([115, 119, 105, 116, 99, 104],
    [1074, 1099, 1073, 1086, 1088], -32744),
  -- TK_CASE: case, случай
  ([99, 97, 115, 101],
    [1089, 1083, 1091, 1095, 1072, 1081], -32763),
  -- TK_DEFAULT: default, умолчание
  ([100, 101, 102, 97, 117, 108, 116],
    [1091, 1084, 1086, 1083, 1095, 1072, 1085, 1080, 1077], -32759),
  -- TK_BREAK: break, выход
  ([98, 114, 101, 97, 107],
    [1074, 1099, 1093, 1086, 1076], -32764),
  -- TK_CONTINUE: continue, продолжить
  ([99, 111, 110, 116, 105, 110, 117, 101],
    [1087, 1088, 1086, 1076, 1086, 1083, 1078, 1080, 1090, 1100], -32760),
  -- TK_RETURN: return, возврат
  ([114, 101, 116, 117, 114, 110],
    [1074, 1086, 1079, 1074, 1088, 1072, 1090], -32746),
  -- TK_NULL: null, ничто
  ([110, 117, 108, 108],
    [1085, 1080, 1095, 1090, 1086], -32747),
  -- TK_ABS: abs, абс
  ([97, 98, 115],
    [1072, 1073, 1089], -32766),
  -- TK_UPB: upb, кол_во
  ([117, 112, 98],
    [1082, 1086, 1083, 95, 1074, 1086], -32741),
  -- TK_BOOL: bool, булево
  ([98, 111, 111, 108],
    [1073, 1091, 1083, 1077, 1074, 1086], -32765),
  -- TK_TRUE: true, истина
  ([116, 114, 117, 101],
    [1080, 1089, 1090, 1080, 1085, 1072], -32743),
  -- TK_FALSE: false, ложь
  ([102, 97, 108, 115, 101],
    [1083, 1086, 1078, 1100], -32754),
  -- TK_CONST: const, конст
  ([99, 111, 110, 115, 116],
    [1082, 1086, 1085, 1089, 1090], -32761)]

/-- What `repr_add_keyword`, syntax.c:32-51, adds for one keyword: both names as they are and in upper
case, in the order of the calls. -/
def addKeyword (k : List Nat × List Nat × Int) : List (List Nat × Int) :=
  [(k.1, k.2.2), (k.1.map toUpper, k.2.2), (k.2.1, k.2.2), (k.2.1.map toUpper, k.2.2)]

/-- The references of the names after `repr_init`, syntax.c:53-86.  `map_add_by_utf8` does not change
a name that is already there, so the first entry counts.  A name that is not there is added with the
reference `ITEM_MAX` when it is first read. -/
def initialRefs (name : List Nat) : Int :=
  match (keywordList.flatMap addKeyword).find? (fun e => e.1 == name) with
  | some e => e.2
  | none => 9223372036854775807

end RuC.Lexer
