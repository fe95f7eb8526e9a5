import Verif.Write.Props

/-
Where C31 to C35 are false of the code.
-/
namespace Verif.Write
open Verif Verif.Write.Spec

/-- The bytes that the printer writes, if it does not fail. -/
def outputOf (wide littleEndian : Bool) (codec : Codec) (canonical : Bool) (encoding : UStr) (cs : List Call) : Option Bytes :=
  match newStream littleEndian (fun _ => some codec) encoding with
  | none => none
  | some st => match printCalls wide st canonical encoding cs with
    | .error _ => none
    | .ok st => some st.out

/-! C31 -/

/-- The text `U+1F600`, which a narrow build of Python has as two surrogates, is written as two question
marks (xmlstream.c:450-472), although UTF-8 has the character. -/
theorem C31_refuted_narrow : outputOf false true utf8Codec false (u!! "utf-8") [.text [0xD83D, 0xDE00]] = some (u!! "??") := by
  decide +kernel

/-- In a wide build it is written as it is. -/
example : (outputOf true true utf8Codec false (u!! "utf-8") [.text [0x1F600]]).bind decodeUtf8 = some [0x1F600] := by
  decide +kernel

/-- Code page 037 (EBCDIC): the bytes of the characters below 256. -/
def cp037Table : List Nat :=
  [0, 1, 2, 3, 55, 45, 46, 47, 22, 5, 37, 11, 12, 13, 14, 15,
   16, 17, 18, 19, 60, 61, 50, 38, 24, 25, 63, 39, 28, 29, 30, 31,
   64, 90, 127, 123, 91, 108, 80, 125, 77, 93, 92, 78, 107, 96, 75, 97,
   240, 241, 242, 243, 244, 245, 246, 247, 248, 249, 122, 94, 76, 126, 110, 111,
   124, 193, 194, 195, 196, 197, 198, 199, 200, 201, 209, 210, 211, 212, 213, 214,
   215, 216, 217, 226, 227, 228, 229, 230, 231, 232, 233, 186, 224, 187, 176, 109,
   121, 129, 130, 131, 132, 133, 134, 135, 136, 137, 145, 146, 147, 148, 149, 150,
   151, 152, 153, 162, 163, 164, 165, 166, 167, 168, 169, 192, 79, 208, 161, 7,
   32, 33, 34, 35, 36, 21, 6, 23, 40, 41, 42, 43, 44, 9, 10, 27,
   48, 49, 26, 51, 52, 53, 54, 8, 56, 57, 58, 59, 4, 20, 62, 255,
   65, 170, 74, 177, 159, 178, 106, 181, 189, 180, 154, 138, 95, 202, 175, 188,
   144, 143, 234, 250, 190, 160, 182, 179, 157, 218, 155, 139, 183, 184, 185, 171,
   100, 101, 98, 102, 99, 103, 158, 104, 116, 113, 114, 115, 120, 117, 118, 119,
   172, 105, 237, 238, 235, 239, 236, 191, 128, 253, 254, 251, 252, 173, 174, 89,
   68, 69, 66, 70, 67, 71, 156, 72, 84, 81, 82, 83, 88, 85, 86, 87,
   140, 73, 205, 206, 203, 207, 204, 225, 112, 221, 222, 219, 220, 141, 142, 223]

def cp037Codec : Codec := fun s => s.mapM (cp037Table[·]?)
def Spec.decodeCp037 (b : Bytes) : Option UStr := b.mapM (cp037Table.idxOf? ·)

/-- The codec has all characters below 256, and the decoder undoes it. -/
example : ∀ c < 256, (cp037Codec [c]).bind decodeCp037 = some [c] := by decide +kernel

/-- A stream in EBCDIC takes ASCII to be safe, because each ASCII character is one byte there
(xmlstream.c:322-335).  The reference for `<` is written in ASCII, and a reader finds other characters,
some of which are illegal. -/
theorem C31_refuted_ebcdic :
    (outputOf true true cp037Codec false (u!! "cp037") [.text (u!! "a<b")]).bind decodeCp037 =
      some [97, 0x17, 0x25, 0xC8, 0x9B, 98] ∧
    readContent [97, 0x17, 0x25, 0xC8, 0x9B, 98] = none := by decide +kernel

/-! C33 -/

/-- A carriage return in a CDATA section is read as a line feed; `cdata_section` writes it as it is. -/
theorem C33_refuted_cr :
    ((outputOf true true utf8Codec false (u!! "utf-8") [.cdata (u!! "a\r")]).bind decodeUtf8).bind readContent =
      some [.char 97, .char 10] := by decide +kernel

/-- The canonical printer fails on every CDATA section (`_xmlprinters.py:413`: the name `entities` is not
defined there). -/
theorem C33_refuted_canonical (wide : Bool) (st : Stream) (encoding s : UStr) :
    printCalls wide st true encoding [.cdata s] = .error .nameError := by
  simp [printCalls, Printer.calls, Printer.call, newPrinter, closeTag, truthy, cdataOps, runOps, Op.run]

/-! C34 -/

/-- A comment that contains `--` is written as it is; the output is not well-formed. -/
theorem C34_refuted_comment :
    ((outputOf true true utf8Codec false (u!! "utf-8") [.comment (u!! "a--b")]).bind decodeUtf8).map readContent =
      some none := by decide +kernel

/-- So is a processing instruction whose data contain `?>`. -/
theorem C34_refuted_pi :
    ((outputOf true true utf8Codec false (u!! "utf-8") [.pi (u!! "t") (u!! "a?>&")]).bind decodeUtf8).map readContent =
      some none := by decide +kernel

/-! C35 -/

/-- A smallest document. -/
def tinyDocument : List Call := [.startDocument none, .startElement (u!! "a") [] [], .endElement (u!! "a"), .endDocument]

/-- On a little-endian machine the byte order mark is that for big-endian (xmlstream.c:283-292), and the
text is little-endian: a reader that goes by the mark finds no document. -/
theorem C35_refuted_little_endian :
    ((outputOf true true (utf16Codec true) false (u!! "utf-16") tinyDocument).map (·.take 4) = some [0xFE, 0xFF, 60, 0]) ∧
    ((outputOf true true (utf16Codec true) false (u!! "utf-16") tinyDocument).bind readUtf16).map readDocument =
      some none := by decide +kernel

/-- The text itself is right: read as little-endian it is the document. -/
example : ((outputOf true true (utf16Codec true) false (u!! "utf-16") tinyDocument).bind
    (fun out => decodeUtf16 true (out.drop 2))).bind readDocument =
      some (some ⟨u!! "1.0", some (u!! "utf-16"), none⟩, [.start (u!! "a") [], .stop (u!! "a")]) := by decide +kernel

/-- On either kind of machine, a document in `utf16`, which is another name of the same encoding, has a
byte order mark before every piece that is written. -/
theorem C35_refuted_alias (le : Bool) :
    ((outputOf true le (utf16BomCodec le) false (u!! "utf16") tinyDocument).bind readUtf16).map readDocument =
      some none := by
  cases le <;> decide +kernel

end Verif.Write
