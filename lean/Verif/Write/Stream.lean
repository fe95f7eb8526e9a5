import Verif.Py

/-
The output stream of the printers (lib/writers/src/xmlstream.c).

A Python 2 `unicode` string is a list of code units: code points in a wide build of Python, UTF-16 code
units in a narrow one.  A byte string is a list of numbers below 256.  A codec is a function that
returns the bytes, or `none` where the encoder raises.

Not modelled: the four ways of writing bytes to the underlying file (they append), entity maps with
callable values (the XML printers have none), failures of the file and of the memory allocator.
-/
namespace Verif.Write
open Verif

/-- A `unicode` string. -/
abbrev UStr := List Nat
/-- A byte string. -/
abbrev Bytes := List Nat

open Lean in
/-- `u!! "abc"` is the list of the code points of a string literal. -/
macro "u!!" s:str : term => do
  let cs := s.getString.toList.map (fun c => Syntax.mkNumLit (toString c.toNat))
  `(([$(cs.toArray),*] : List Nat))

/-- What can be raised while writing: a character that cannot be encoded (`ValueError`), or a name that
is not defined (`NameError`). -/
inductive WErr | invalidChar | nameError
  deriving DecidableEq, Repr

/-- An encoder (`PyCodec_Encoder`). -/
abbrev Codec := UStr → Option Bytes

/-- The stream object (xmlstream.c:29-41).  `bom` is the byte order mark that is still to be written:
`some true` for `XMLSTREAM_FLAGS_BOM_LE`, `some false` for `XMLSTREAM_FLAGS_BOM_BE`. -/
structure Stream where
  enc : Codec
  asciiSafe : Bool
  bom : Option Bool
  out : Bytes

/-- The string of all ASCII characters (xmlstream.c:898-905). -/
def asciiString : UStr := List.range 128

/-- Lower-case an ASCII letter, for `strcasecmp`. -/
def lower (c : Nat) : Nat := if 65 ≤ c ∧ c ≤ 90 then c + 32 else c

/-- `xmlstream_new` (xmlstream.c:261-342).  `littleEndian` is the byte order of the machine, `lookup` is
the codec registry. -/
def newStream (littleEndian : Bool) (lookup : UStr → Option Codec) (encoding : UStr) : Option Stream :=
  let r : Option (Codec × Option Bool) :=
    if encoding.map lower = u!! "utf-16" then
      if littleEndian then (lookup (u!! "utf-16le")).map (·, some false)
      else (lookup (u!! "utf-16be")).map (·, some false)
    else (lookup encoding).map (·, none)
  r.map fun (enc, bom) =>
    { enc, bom, out := [],
      asciiSafe := match enc asciiString with
        | some b => b.length = 128
        | none => false }

/-- Append bytes (`write_func`). -/
def Stream.put (st : Stream) (b : Bytes) : Stream := { st with out := st.out ++ b }

/-- The beginning of all three methods (xmlstream.c:356-363, 387-394, 438-445): write the byte order
mark once. -/
def Stream.flushBom (st : Stream) : Stream :=
  match st.bom with
  | none => st
  | some le => { st.put (if le then [0xFF, 0xFE] else [0xFE, 0xFF]) with bom := none }

/-- `write_encode` (xmlstream.c:141-178). -/
def writeEncode (st : Stream) (s : UStr) : Except WErr Stream :=
  match st.enc s with
  | none => .error .invalidChar
  | some b => .ok (st.put b)

/-- `write_ascii` (xmlstream.c:230-250). -/
def writeAscii (st : Stream) (s : UStr) : Except WErr Stream :=
  if st.asciiSafe then .ok (st.put s) else writeEncode st s

/-- `sprintf("%ld", n)`. -/
def decimal (n : Nat) : UStr :=
  if n < 10 then [48 + n] else decimal (n / 10) ++ [48 + n % 10]

/-- A character reference (xmlstream.c:204). -/
def charref (c : Nat) : UStr := u!! "&#" ++ decimal c ++ u!! ";"

/-- The loop of `write_escaped` (xmlstream.c:196-217); the reference is written as it is, also when
ASCII is not safe. -/
def writeChars (st : Stream) : UStr → Stream
  | [] => st
  | c :: s => match st.enc [c] with
    | none => writeChars (st.put (charref c)) s
    | some b => writeChars (st.put b) s

/-- `write_escaped` (xmlstream.c:180-228). -/
def writeEscaped (st : Stream) (s : UStr) : Stream :=
  match st.enc s with
  | none => writeChars st s
  | some b => st.put b

/-- `LEGAL_UCS2` (xmlstream.c:414-416). -/
def legalUcs2 (c : Nat) : Bool :=
  c = 0x09 || c = 0x0A || c = 0x0D || (0x20 ≤ c && c ≤ 0xD7FF) || (0xE000 ≤ c && c ≤ 0xFFFD)

/-- `LEGAL_XML_CHAR` (xmlstream.c:417-423), for a wide or a narrow build of Python. -/
def legalXmlChar (wide : Bool) (c : Nat) : Bool :=
  legalUcs2 c || (wide && (0x10000 ≤ c && c ≤ 0x10FFFF))

/-- Replace illegal characters by `?` (xmlstream.c:450-472). -/
def sanitize (wide : Bool) (s : UStr) : UStr := s.map fun c => if legalXmlChar wide c then c else 63

/-- An entity map: the characters to be replaced, with their replacements (xmlstream.c:651-761). -/
abbrev EntityMap := List (Nat × UStr)

/-- Write the pending chunk, if there is one (xmlstream.c:482-491, 528-538). -/
def writeChunk (st : Stream) (chunk : UStr) : Stream :=
  if chunk.length > 0 then writeEscaped st chunk else st

/-- The second loop of `xmlstream_write_escape` (xmlstream.c:474-538); `chunk` are the characters
between `chunk_start` and `p`. -/
def escapeLoop (st : Stream) (entities : EntityMap) : UStr → UStr → Except WErr Stream
  | chunk, [] => .ok (writeChunk st chunk)
  | chunk, c :: s => match entities.lookup c with
    | some repl => match writeAscii (writeChunk st chunk) repl with
      | .error e => .error e
      | .ok st => escapeLoop st entities [] s
    | none => escapeLoop st entities (chunk ++ [c]) s

/-- `xmlstream.write_ascii` (xmlstream.c:349-370). -/
def Stream.writeAscii (st : Stream) (s : UStr) : Except WErr Stream := Write.writeAscii st.flushBom s

/-- `xmlstream.write_encode` (xmlstream.c:380-401). -/
def Stream.writeEncode (st : Stream) (s : UStr) : Except WErr Stream := Write.writeEncode st.flushBom s

/-- `xmlstream.write_escape` (xmlstream.c:425-543). -/
def Stream.writeEscape (wide : Bool) (st : Stream) (s : UStr) (entities : EntityMap) :
    Except WErr Stream :=
  escapeLoop st.flushBom entities [] (sanitize wide s)

/-! Codecs of Python 2 that the properties mention -/

/-- `ascii`. -/
def asciiCodec : Codec := fun s => if s.all (· < 128) then some s else none

/-- `iso-8859-1`. -/
def latin1Codec : Codec := fun s => if s.all (· < 256) then some s else none

/-- The UTF-8 encoding of a code point (Python 2 also encodes surrogates). -/
def utf8Char (n : Nat) : Bytes :=
  if n < 0x80 then [n]
  else if n < 0x800 then [0xC0 + n / 64, 0x80 + n % 64]
  else if n < 0x10000 then [0xE0 + n / 4096, 0x80 + n / 64 % 64, 0x80 + n % 64]
  else [0xF0 + n / 262144, 0x80 + n / 4096 % 64, 0x80 + n / 64 % 64, 0x80 + n % 64]

/-- `utf-8`, for a wide build. -/
def utf8Codec : Codec := fun s => some (s.flatMap utf8Char)

/-- One code unit in two bytes. -/
def unitBytes (littleEndian : Bool) (u : Nat) : Bytes :=
  if littleEndian then [u % 256, u / 256] else [u / 256, u % 256]

/-- A code point in UTF-16; Python 2 lets single surrogates pass. -/
def utf16Char (littleEndian : Bool) (c : Nat) : Bytes :=
  if c < 0x10000 then unitBytes littleEndian c
  else unitBytes littleEndian (0xD800 + (c - 0x10000) / 0x400) ++
    unitBytes littleEndian (0xDC00 + (c - 0x10000) % 0x400)

/-- `utf-16le`, `utf-16be`. -/
def utf16Codec (littleEndian : Bool) : Codec := fun s => some (s.flatMap (utf16Char littleEndian))

/-- `utf-16` and its aliases: every call writes a byte order mark, then native byte order. -/
def utf16BomCodec (littleEndian : Bool) : Codec := fun s =>
  some (unitBytes littleEndian 0xFEFF ++ s.flatMap (utf16Char littleEndian))

end Verif.Write
