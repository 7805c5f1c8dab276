import Verif.Utf8.Model

/-!
# Model of the buffer side of `libs/utils/uniio.c`, `uniprinter.c` and `uniscanner.c`

The formatting itself (`vsnprintf` turning a format and arguments into a text) belongs to the C library
and is not modelled: a print is the text it formats to, a list of non-zero octets.  Of `sscanf` only the
format "%c" is modelled.  Files and user functions are not modelled.  Reading or writing outside an
allocation is undefined (`none`); a cell that was never written is `none` inside the list.
-/

namespace RuC.Io
open RuC RuC.Utf8

/-! ## Output -/

/-- The output part of `universal_io`, uniio.h:55-76, while printing into a buffer; `calls` counts the
calls of `realloc`, so that an oracle can answer each of them. -/
structure Out where
  cells : List (Option Nat)
  size : Nat
  position : Nat
  calls : Nat
deriving DecidableEq, Repr

/-- Storing octets into an allocation. -/
def store : List (Option Nat) → Nat → List Nat → Option (List (Option Nat))
  | cells, _, [] => some cells
  | cells, i, b :: bs => if i < cells.length then store (cells.set i (some b)) (i + 1) bs else none

/-- `vsnprintf` into `n` octets at a place: nothing for `n = 0`, else as much as fits and a zero; the
answer is the length of the whole text, or -1 when an `int` cannot hold it. -/
def vsnprintf (cells : List (Option Nat)) (at_ n : Nat) (text : List Nat) : Option (Int × List (Option Nat)) :=
  let ret : Int := if text.length < 2147483648 then (text.length : Int) else -1
  if n = 0 then some (ret, cells) else (store cells at_ (text.take (n - 1) ++ [0])).map fun c => (ret, c)

/-- `realloc` to a new size: the old content is kept, the rest is not initialised. -/
def resize (cells : List (Option Nat)) (n : Nat) : List (Option Nat) := cells.take n ++ List.replicate (n - cells.length) none

/-- `out_func_buffer`, uniio.c:161-185.  The recursion is bounded by `fuel`; running out of it is `none`. -/
def outFunc (grant : Nat → Bool) : Nat → Out → List Nat → Option (Int × Out)
  | 0, _, _ => none
  | fuel + 1, io, text =>
    match vsnprintf io.cells io.position (usub io.size io.position) text with
    | none => none
    | some (ret, cells) =>
      if ret ≠ -1 ∧ usz (ret.toNat + io.position) < io.size then
        some (ret, { io with cells := cells, position := io.position + ret.toNat })
      else
        match store cells io.position [0] with
        | none => none
        | some cells =>
          if grant io.calls then
            outFunc grant fuel { io with cells := resize cells (usz (2 * io.size)), size := usz (io.size * 2), calls := io.calls + 1 } text
          else some (-1, { io with cells := cells, calls := io.calls + 1 })

/-- How often the size can be doubled before everything fits. -/
def outFuel (io : Out) (text : List Nat) : Nat := io.position + text.length + 2

/-- `uni_printf`, uniprinter.c:22-37, into a buffer. -/
def uniPrint (grant : Nat → Bool) (io : Out) (text : List Nat) : Option (Int × Out) := outFunc grant (outFuel io text) io text

/-- `out_set_buffer`, uniio.c:478-500, when the allocation is granted. -/
def outSetBuffer (size : Nat) : Option Out :=
  (store (List.replicate (usz (size + 1)) none) 0 [0]).map fun c => { cells := c, size := usz (size + 1), position := 0, calls := 0 }

/-- Reading a C string from an allocation. -/
def cstr : List (Option Nat) → Option (List Nat)
  | [] => none
  | none :: _ => none
  | some 0 :: _ => some []
  | some (b + 1) :: cells => (cstr cells).map ((b + 1) :: ·)

/-- `out_extract_buffer`, uniio.c:587-602, as the text the caller gets. -/
def outExtract (io : Out) : Option (List Nat) := cstr io.cells

/-- `uni_print_char`, uniprinter.c:39-49: `utf8_to_string` puts a zero behind the octets, so "%s" prints
the octets before the first zero. -/
def uniPrintChar (grant : Nat → Bool) (io : Out) (wchar : Nat) : Option (Int × Out) :=
  if (toStr wchar).length = 0 then some (0, io)
  else uniPrint grant io ((toStr wchar).takeWhile (· ≠ 0))

/-! ## Input -/

/-- The input part of `universal_io`, uniio.h:55-76, while scanning a buffer; the text is the octets
before the terminating zero, `in_size` is its length. -/
structure In where
  text : List Nat
  position : Nat
deriving DecidableEq, Repr

/-- `in_set_buffer`, uniio.c:281-296. -/
def inSetBuffer (text : List Nat) : In := { text := text, position := 0 }

/-- `uni_scanf(io, "%c", ..)`, uniscanner.c:23-38, with `in_func_position`, uniio.c:86-137, and
`scan_buffer_arg`, uniio.c:73-84: one octet, or nothing at the end. -/
def scanOctet (io : In) : Option Nat × In :=
  match io.text[io.position]? with
  | some b => (some b, { io with position := io.position + 1 })
  | none => (none, io)

/-- `(char32_t)EOF`. -/
def EOFc : Nat := 4294967295

/-- The loop of `uni_scan_char`, uniscanner.c:40-58: `n` more octets. -/
def scanMore : Nat → In → Option (List Nat) × In
  | 0, io => (some [], io)
  | n + 1, io =>
    match scanOctet io with
    | (none, io) => (none, io)
    | (some b, io) =>
      match scanMore n io with
      | (none, io) => (none, io)
      | (some bs, io) => (some (b :: bs), io)

/-- `uni_scan_char`, uniscanner.c:40-58.  `none`: `utf8_convert` would read an octet not scanned. -/
def scanChar (io : In) : Option (Nat × In) :=
  match scanOctet io with
  | (none, io) => some (EOFc, io)
  | (some b, io) =>
    match scanMore (symbolSize b - 1) io with
    | (none, io) => some (EOFc, io)
    | (some bs, io) => (convert (b :: bs)).map fun c => (c, io)

/-- `in_set_position`, uniio.c:311-338, on a buffer. -/
def inSetPosition (io : In) (position : Nat) : Int × In :=
  if position ≤ io.text.length then (0, { io with position := position }) else (-1, io)

/-- `uni_unscan_char`, uniscanner.c:95-98. -/
def unscanChar (io : In) (wchar : Nat) : Int × In := inSetPosition io (usub io.position (utf8Size wchar))

/-- `uni_unscan`, uniscanner.c:100-103. -/
def unscan (io : In) (str : List Nat) : Int × In := inSetPosition io (usub io.position str.length)

/-- The loop of `uni_scan_identifier`, uniscanner.c:75-93: the octets written and the character that
stopped it.  The loop is bounded by `fuel`; running out of it is `none`. -/
def identLoop : Nat → In → Nat → Option (List Nat × Nat × In)
  | 0, _, _ => none
  | fuel + 1, io, character =>
    if isLetter character || isDigit character then
      match scanChar io with
      | none => none
      | some (c, io) => (identLoop fuel io c).map fun r => (toStr character ++ r.1, r.2)
    else some ([], character, io)

/-- `uni_scan_identifier`, uniscanner.c:75-93: the octets written (their number is the answer). -/
def scanIdentifier (io : In) : Option (List Nat × In) :=
  match scanChar io with
  | none => none
  | some (c, io) =>
    if !isLetter c then some ([], (unscanChar io c).2)
    else
      match identLoop (io.text.length + 1) io c with
      | none => none
      | some (bs, c, io) => some (bs, (unscanChar io c).2)

end RuC.Io
