import Verif.Py
/-
Model of the syntax checks on URIs: lib/lib/iri.py:139-279 (`_init_uri_validation_regex`,
`matches_uri_ref_syntax`, `matches_uri_syntax`).

The two patterns are built by string formatting out of named parts.  Here each part is a value of the type `Rx` of
regular expressions, under the same name and put together in the same way.  Both patterns are anchored at both ends
(`\A … \Z`) and only the presence of a match is looked at, so what counts is the language of the pattern, not the order
in which Python's `re` tries the alternatives; `Rx.accepts` decides it by taking derivatives.  Not modelled: the
recursion limit of `re`, byte strings as opposed to unicode strings (a pattern has ASCII characters only, so both are
lists of characters here).
-/
namespace Verif.Iri.Syntax
open Verif

/-- The regular expressions the patterns use. -/
inductive Rx where
  | never
  | eps
  | cls (l : Str)
  | cat (a b : Rx)
  | alt (a b : Rx)
  | star (a : Rx)

namespace Rx
def nullable : Rx → Bool
  | never => false
  | eps => true
  | cls _ => false
  | cat a b => a.nullable && b.nullable
  | alt a b => a.nullable || b.nullable
  | star _ => true

/-- Concatenation that drops impossible branches (keeps derivatives small). -/
def mkCat : Rx → Rx → Rx
  | never, _ => never
  | eps, b => b
  | a, b => cat a b

def mkAlt : Rx → Rx → Rx
  | never, b => b
  | a, never => a
  | a, b => alt a b

/-- What is left to match after the character `c`. -/
def der (c : Char) : Rx → Rx
  | never => never
  | eps => never
  | cls l => if l.contains c then eps else never
  | cat a b => if a.nullable then mkAlt (mkCat (a.der c) b) (b.der c) else mkCat (a.der c) b
  | alt a b => mkAlt (a.der c) (b.der c)
  | star a => mkCat (a.der c) (star a)

/-- `re.compile(r"\A%s\Z").match(s) is not None`. -/
def accepts (r : Rx) : Str → Bool
  | [] => r.nullable
  | c :: s => (r.der c).accepts s

/-- `(?:r)?` -/
def opt (r : Rx) : Rx := alt r eps
/-- `(?:r)+` -/
def plus (r : Rx) : Rx := cat r (star r)
/-- `(?:r){n}` -/
def times : Nat → Rx → Rx
  | 0, _ => eps
  | n + 1, r => cat r (times n r)
/-- `(?:r){0,n}` -/
def upto : Nat → Rx → Rx
  | 0, _ => eps
  | n + 1, r => alt eps (cat r (upto n r))
/-- A literal. -/
def lit : Str → Rx
  | [] => eps
  | c :: s => cat (cls [c]) (lit s)
end Rx
open Rx

/-- `0-9`, `0-9A-Za-z`, `0-9A-Fa-f`. -/
def D : Str := s!! "0123456789"
def AN : Str := s!! "0123456789ABCDEFGHIJKLMNOPQRSTUVWXYZabcdefghijklmnopqrstuvwxyz"
def AL : Str := s!! "ABCDEFGHIJKLMNOPQRSTUVWXYZabcdefghijklmnopqrstuvwxyz"
def HX : Str := s!! "0123456789ABCDEFabcdef"

/-- `(?:%[0-9A-Fa-f]{2})`. -/
def pct : Rx := cat (cls ['%']) (times 2 (cls HX))
/-- lib/lib/iri.py:193 `pchar`. -/
def pchar : Rx := alt (cls (AN ++ s!! "-_.!~*'();:@&=+$,")) pct
/-- lib/lib/iri.py:194-195 `fragment`, `query`. -/
def fragment : Rx := star (alt (cls (AN ++ s!! "-_.!~*'();:@&=+$,/?")) pct)
def query : Rx := fragment
/-- lib/lib/iri.py:196 `segment_nz_nc`. -/
def segment_nz_nc : Rx := plus (alt (cls (AN ++ s!! "-_.!~*'();@&=+$,")) pct)
/-- lib/lib/iri.py:197-198 `segment_nz`, `segment`. -/
def segment_nz : Rx := plus pchar
def segment : Rx := star pchar
/-- lib/lib/iri.py:200-203: the paths. -/
def path_rootless : Rx := cat segment_nz (star (cat (cls ['/']) segment))
def path_noscheme : Rx := cat segment_nz_nc (star (cat (cls ['/']) segment))
def path_absolute : Rx := cat (cls ['/']) (opt path_rootless)
def path_abempty : Rx := star (cat (cls ['/']) segment)
/-- lib/lib/iri.py:207 `reg_name`. -/
def reg_name : Rx := star (alt (cls (AN ++ s!! "-_.!~*'();&=+$,")) pct)
/-- lib/lib/iri.py:208 `dec_octet`. -/
def dec_octet : Rx :=
  alt (cls D) (alt (cat (cls (s!! "123456789")) (cls D)) (alt (cat (cls ['1']) (times 2 (cls D)))
    (alt (cat (cls ['2']) (cat (cls (s!! "01234")) (cls D))) (cat (lit (s!! "25")) (cls (s!! "012345"))))))
/-- lib/lib/iri.py:209 `IPv4address`. -/
def IPv4address : Rx := cat (times 3 (cat dec_octet (cls ['.']))) dec_octet
/-- lib/lib/iri.py:210 `h16`: `[0-9A-Fa-f]{1,4}`. -/
def h16 : Rx := cat (cls HX) (upto 3 (cls HX))
/-- `h16:` -/
def h16c : Rx := cat h16 (cls [':'])
/-- lib/lib/iri.py:211 `ls32`. -/
def ls32 : Rx := alt (cat h16c h16) IPv4address
/-- `(?:(?:%s:)?%s)` in lib/lib/iri.py:216-221. -/
def lead : Rx := cat (opt h16c) h16
/-- lib/lib/iri.py:212-222 `IPv6address`, alternative by alternative.  In the third the pattern reads
`[0-9A-Fa-f]{1,4}?::…`: the `?` after the braces makes the repetition reluctant and does not make it optional. -/
def IPv6address : Rx :=
  alt (cat (times 6 h16c) ls32) <|
  alt (cat (lit (s!! "::")) (cat (times 5 h16c) ls32)) <|
  alt (cat h16 (cat (lit (s!! "::")) (cat (times 4 h16c) ls32))) <|
  alt (cat (opt lead) (cat (lit (s!! "::")) (cat (times 3 h16c) ls32))) <|
  alt (cat (upto 2 lead) (cat (lit (s!! "::")) (cat (times 2 h16c) ls32))) <|
  alt (cat (upto 3 lead) (cat (lit (s!! "::")) (cat h16c ls32))) <|
  alt (cat (upto 4 lead) (cat (lit (s!! "::")) ls32)) <|
  alt (cat (upto 5 lead) (cat (lit (s!! "::")) h16)) <|
      (cat (upto 6 lead) (lit (s!! "::")))
/-- lib/lib/iri.py:223 `IPvFuture`. -/
def IPvFuture : Rx :=
  cat (cls ['v']) (cat (plus (cls HX)) (cat (cls ['.']) (plus (cls (AN ++ s!! "-._~!$&'()*+,;=:")))))
/-- What stands between the brackets in lib/lib/iri.py:224 `IP_literal`. -/
def ipInner : Rx := alt IPv6address IPvFuture
def IP_literal : Rx := cat (cls ['[']) (cat ipInner (cls [']']))
/-- lib/lib/iri.py:225-228 `port`, `host`, `userinfo`, `authority`. -/
def port : Rx := star (cls D)
def host : Rx := opt (alt IP_literal (alt IPv4address reg_name))
def userinfo : Rx := star (alt (cls (AN ++ s!! "-_.!~*'();:@&=+$,")) pct)
def authority : Rx := cat (opt (cat userinfo (cls ['@']))) (cat host (opt (cat (cls [':']) port)))
/-- lib/lib/iri.py:229 `scheme`. -/
def scheme : Rx := cat (cls AL) (star (cls (AN ++ s!! "+-.")))
/-- `(?:\?%s)?(?:#%s)?` in lib/lib/iri.py:233 and 236. -/
def queryFragment : Rx := cat (opt (cat (cls ['?']) query)) (opt (cat (cls ['#']) fragment))
/-- lib/lib/iri.py:231-232 `relative_part`. -/
def relative_part : Rx :=
  opt (alt (cat (lit (s!! "//")) (cat authority path_abempty)) (alt path_absolute path_noscheme))
/-- lib/lib/iri.py:233 `relative_ref`. -/
def relative_ref : Rx := cat relative_part queryFragment
/-- lib/lib/iri.py:234-235 `hier_part`. -/
def hier_part : Rx :=
  opt (alt (cat (lit (s!! "//")) (cat authority path_abempty)) (alt path_absolute path_rootless))
/-- lib/lib/iri.py:236 `URI`. -/
def URI : Rx := cat scheme (cat (cls [':']) (cat hier_part queryFragment))
/-- lib/lib/iri.py:237 `URI_reference`. -/
def URI_reference : Rx := alt URI relative_ref

/-- lib/lib/iri.py:268-279 `matches_uri_syntax`. -/
def matchesUriSyntax (s : Str) : Bool := URI.accepts s
/-- The look-ahead `(?!\n)` of lib/lib/iri.py:240. -/
def startsWithNewline : Str → Bool
  | '\n' :: _ => true
  | _ => false
/-- lib/lib/iri.py:254-265 `matches_uri_ref_syntax`. -/
def matchesUriRefSyntax (s : Str) : Bool := !startsWithNewline s && URI_reference.accepts s

end Verif.Iri.Syntax
