import Verif.Names.Charset

/-
Names (lib/src/xmlstring.c).  A string is the list of its code units.
-/
namespace Verif.Names

/-- `TEST_CHARSET(set, c)` (xmlstring.c:24-25). -/
def testCharset (set : List Nat) (c : Nat) : Bool :=
  (set.getD (256 + ((set.getD (c >>> 8) 0) <<< 5) + ((c &&& 255) >>> 3)) 0) &&& (1 <<< (c &&& 7)) != 0

/-- `MATCH_CHARSET(set, c)` (xmlstring.c:26-30).  In a build of Python with 16-bit characters all of them are
less than 65536, so the test makes no difference there. -/
def matchCharset (set : List Nat) (c : Nat) : Bool := decide (c < 65536) && testCharset set c

def isNCNameStart (c : Nat) : Bool := matchCharset charset_NCNameStart c
def isNCNameChar (c : Nat) : Bool := matchCharset charset_NCNameChar c
def isNameStart (c : Nat) : Bool := matchCharset charset_NameStart c
def isNameChar (c : Nat) : Bool := matchCharset charset_NameChar c

/-- What a loop `for (; *p; p++)` sees of a string: the characters before the first NUL. -/
def cstr (s : List Nat) : List Nat := s.takeWhile (· ≠ 0)

/-- `IsName` (xmlstring.c:129-158). -/
def isName (s : List Nat) : Bool :=
  match cstr s with
  | [] => false
  | c :: cs => if !isNameStart c then false else cs.all isNameChar

/-- The loop of `IsNames` (xmlstring.c:176-188): the position is at the start of a name (`start`) or within
one. -/
def namesLoop : Bool → List Nat → Bool
  | true, [] => false
  | true, c :: cs => if !isNameStart c then false else namesLoop false cs
  | false, [] => true
  | false, c :: cs =>
    if c = 0x20 then namesLoop true cs
    else if !isNameChar c then false else namesLoop false cs

/-- `IsNames` (xmlstring.c:160-191). -/
def isNames (s : List Nat) : Bool := namesLoop true (cstr s)

/-- `IsNmtoken` (xmlstring.c:193-217). -/
def isNmtoken (s : List Nat) : Bool :=
  match cstr s with
  | [] => false
  | _ :: cs => cs.all isNameChar

/-- The loop of `IsNmtokens` (xmlstring.c:235-242).  `none`: it reads what is behind the string's end. -/
def nmtokensLoop : Bool → List Nat → Option Bool
  | true, [] => none
  | true, _ :: cs => nmtokensLoop false cs
  | false, [] => some true
  | false, c :: cs =>
    if c = 0x20 then nmtokensLoop true cs
    else if !isNameChar c then some false else nmtokensLoop false cs

/-- `IsNmtokens` (xmlstring.c:219-245). -/
def isNmtokens (s : List Nat) : Option Bool :=
  match cstr s with
  | [] => some false
  | cs => nmtokensLoop true cs

/-- The loop of `IsQName` after the first character (xmlstring.c:269-291). -/
def qnameLoop : List Nat → Bool
  | [] => true
  | c :: cs =>
    if !isNCNameChar c then
      if c = ':'.toNat then
        match cs with
        | [] => false
        | d :: ds => if !isNCNameStart d then false else ds.all isNCNameChar
      else false
    else qnameLoop cs

/-- `IsQName` (xmlstring.c:247-294). -/
def isQName (s : List Nat) : Bool :=
  match cstr s with
  | [] => false
  | c :: cs => if !isNCNameStart c then false else qnameLoop cs

/-- `IsNCName` (xmlstring.c:296-325). -/
def isNCName (s : List Nat) : Bool :=
  match cstr s with
  | [] => false
  | c :: cs => if !isNCNameStart c then false else cs.all isNCNameChar

/-- The loop of `SplitQName`; `before` holds the characters passed, in reverse. -/
def splitLoop (before : List Nat) : List Nat → Option (List Nat × List Nat)
  | [] => none
  | c :: cs => if c = ':'.toNat then some (before.reverse, cs) else splitLoop (c :: before) cs

/-- `SplitQName` (xmlstring.c:327-361); `none` is `None`. -/
def splitQName (q : List Nat) : Option (List Nat) × List Nat :=
  match splitLoop [] q with
  | some (p, l) => (some p, l)
  | none => (none, q)

/-- `MakeQName` (xmlstring.c:363-390). -/
def makeQName (pre : Option (List Nat)) (loc : List Nat) : List Nat :=
  match pre with
  | some (c :: cs) => (c :: cs) ++ ':'.toNat :: loc
  | _ => loc

end Verif.Names
