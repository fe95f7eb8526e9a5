{"id": "C01", "title": "split_uri_ref / unsplit_uri_ref is lossless", "statement": "Splitting a URI reference with split_uri_ref and recombining the five components with unsplit_uri_ref gives back the original string, character for character.", "quantifier": "every string with no newline character (newlines are outside the URI grammar and the regular expression treats them specially)", "why_tests_cant": "the input space is infinite; tests sample a handful of strings; the claim is about a regular expression with five optional groups whose delimiters can occur in any combination", "anchors": ["lib/lib/iri.py: split_uri_ref, unsplit_uri_ref"]}
{"id": "C02", "title": "unsplit_uri_ref / split_uri_ref recovers components", "statement": "For every 5-tuple of components that the generic URI syntax admits (scheme without ':/?#', authority without '/?#', path without '?#' and not confusable with an authority or scheme, query without '#'), split_uri_ref(unsplit_uri_ref(t)) == t, distinguishing a missing component from an empty one.", "quantifier": "every well-formed component tuple", "why_tests_cant": "five optional components with delimiters that may be missing, empty or confusable give infinitely many tuples; tests try a few tuples", "anchors": ["lib/lib/iri.py: split_uri_ref, unsplit_uri_ref"]}
{"id": "C03", "title": "absolutize implements RFC 3986 section 5.2 reference resolution", "statement": "absolutize(ref, base) equals the reference resolution algorithm of RFC 3986 section 5.2.2 (strict mode) recomposed per 5.3.", "quantifier": "every reference and every base URI with a scheme", "why_tests_cant": "the input space is infinite; tests sample a handful of strings (pairs of strings), with 5 x 5 optional components interacting", "anchors": ["lib/lib/iri.py: absolutize, remove_dot_segments, split_uri_ref, unsplit_uri_ref, is_absolute"]}
{"id": "C04", "title": "remove_dot_segments implements RFC 3986 section 5.2.4", "statement": "On every absolute path remove_dot_segments returns what the RFC 3986 section 5.2.4 rewriting loop returns, the result contains no '.' or '..' segment, and applying it twice is the same as applying it once.", "quantifier": "every path string, of any length and any number of segments", "why_tests_cant": "the input space is infinite; tests sample a handful of strings; a stack-based rewrite must agree with a different rewriting procedure at every length", "anchors": ["lib/lib/iri.py: remove_dot_segments"]}
{"id": "C05", "title": "percent_encode / percent_decode are inverse", "statement": "percent_decode(percent_encode(s)) == s for every byte string, and percent_encode emits only unreserved characters, reserved characters left as they are when encodeReserved is off, and well-formed '%XX' triplets.", "quantifier": "every byte string, every setting of encodeReserved and spaceToPlus (spaceToPlus with the matching plusToSpace)", "why_tests_cant": "a byte string can contain any mix of escapes, plus signs and reserved bytes; round-trip tests try a few strings of a few bytes", "anchors": ["lib/lib/iri.py: percent_encode, percent_decode"]}
{"id": "C06", "title": "relativize is inverted by absolutize", "statement": "Whenever relativize(target, base) returns a reference r (not None), absolutize(r, base) gives back target.", "quantifier": "every pair of absolute URIs whose paths contain no dot segments", "why_tests_cant": "the input space is infinite; tests sample a handful of strings; the claim relates two independent algorithms over pairs of strings", "anchors": ["lib/lib/iri.py: relativize, absolutize"]}
{"id": "C07", "title": "split_fragment / strip_fragment", "statement": "split_fragment(uri) returns (u, f) such that uri is u, or u + '#' + f with f free of '#'; strip_fragment returns the first component; neither loses other characters.", "quantifier": "every string", "why_tests_cant": "the position of the first '#' and what follows it are arbitrary; tests try single fragments", "anchors": ["lib/lib/iri.py: split_fragment, strip_fragment"]}
{"id": "C08", "title": "POSIX path to file URI and back", "statement": "uri_to_os_path(os_path_to_uri(path)) gives back path for every absolute POSIX byte path in normal form.", "quantifier": "every absolute POSIX path (byte string)", "why_tests_cant": "paths have any number of segments of any bytes; tests use a few ordinary paths", "anchors": ["lib/lib/iri.py: os_path_to_uri, uri_to_os_path"]}
{"id": "C09", "title": "public identifier to URN and back (RFC 3151)", "statement": "urn_to_public_id(public_id_to_urn(p)) == normalised p, for every whitespace-normalised public identifier, and public_id_to_urn never emits a character outside the URN alphabet for the characters RFC 3151 covers.", "quantifier": "every whitespace-normalised public identifier", "why_tests_cant": "transcription rules overlap (':' , '::', '//', '+'), so inversion depends on every pair of neighbouring characters at any length", "anchors": ["lib/lib/iri.py: public_id_to_urn, urn_to_public_id"]}
{"id": "C10", "title": "is_absolute / get_scheme agree with the splitter", "statement": "is_absolute(u) is true exactly when u starts with a grammatical scheme followed by ':'; in that case get_scheme(u) is the scheme component split_uri_ref reports.", "quantifier": "every string", "why_tests_cant": "two independent implementations have to agree on every string, also malformed ones", "anchors": ["lib/lib/iri.py: get_scheme, is_absolute, split_uri_ref"]}
{"id": "C11", "title": "iri_to_uri is the identity on ASCII and always yields ASCII", "statement": "iri_to_uri(i) contains only ASCII characters whenever it returns, leaves ASCII input unchanged, is idempotent, and percent-decodes (UTF-8) back to the input.", "quantifier": "every code-point sequence", "why_tests_cant": "there are over a million code points in any order; tests try a few accented letters", "anchors": ["lib/lib/iri.py: iri_to_uri"]}
{"id": "C12", "title": "URI normalisation is idempotent and only changes what it documents", "statement": "normalize_case, normalize_percent_encoding and normalize_path_segments are idempotent; normalize_percent_encoding only replaces triplets that encode unreserved characters.", "quantifier": "every string", "why_tests_cant": "idempotence quantifies over results of an earlier pass; tests try a few URIs already close to normal form", "anchors": ["lib/lib/iri.py: normalize_case, normalize_percent_encoding, normalize_path_segments"]}
{"id": "C13", "title": "tree edits keep the node tree well formed", "statement": "After any sequence of xml_append, xml_insert, xml_remove and xml_replace calls, every node appears in the child list of at most one container, exactly once, and that container is its xml_parent; a node with xml_parent None is in no child list; and no node is its own ancestor.", "quantifier": "every sequence of edit operations, of any length, on any forest of nodes", "why_tests_cant": "the property is an invariant over all operation histories", "anchors": ["lib/src/domlette/container.c: container_append, container_insert, container_remove, container_replace, Container_Append, Container_Insert, Container_Remove, Container_Replace"]}
{"id": "C14", "title": "tree edits have the documented effect", "statement": "xml_append(p, c) makes c the last child of p and removes it from its former place; xml_insert(p, i, c) puts c at position i; xml_remove(p, c) removes exactly c; xml_replace(p, new, old) puts new where old was; no other child list changes.", "quantifier": "every forest, every pair of nodes, every index", "why_tests_cant": "depends on the aliasing between the moved node, its former parent and the target", "anchors": ["lib/src/domlette/container.c"]}
{"id": "C15", "title": "document order comparison", "statement": "Comparing two nodes of one document with <, ==, > agrees with the order in which their start tags occur in the document (pre-order); it is a strict total order on element, text, comment and processing-instruction nodes.", "quantifier": "every tree, every pair of nodes", "why_tests_cant": "quantifies over all tree shapes and depths", "anchors": ["lib/src/domlette/node.c: node_richcompare"]}
{"id": "C16", "title": "attribute map behaves as a finite map", "statement": "After any sequence of attribute insertions and replacements, looking up an (namespace, local-name) pair returns the last value stored under that pair and None for pairs never stored; lookup always terminates, whatever the hash values and collisions.", "quantifier": "every insertion history, every hash function, every table size reached", "why_tests_cant": "hash collisions and resize points depend on the whole history and on the hash function", "anchors": ["lib/src/domlette/attributemap.c: attributemap_lookup, attributemap_insert, attributemap_resize, AttributeMap_DelNode"]}
{"id": "C17", "title": "namespace prefix resolution", "statement": "Looking up a prefix on an element gives the namespace bound by the nearest ancestor-or-self declaration of that prefix, per Namespaces in XML.", "quantifier": "every ancestor chain with any declarations", "why_tests_cant": "ancestor chains are unbounded and shadowing combines in every order", "anchors": ["lib/src/domlette/element.c: lookup_prefix, lookup_namespace, Element_InscopeNamespaces"]}
{"id": "C18", "title": "string-value of a node", "statement": "The string-value of an element or entity is the concatenation of the string-values of its text descendants in document order; it is unchanged by xml_normalize, which also leaves no two adjacent text siblings among the children of the node it is called on.", "quantifier": "every tree", "why_tests_cant": "all tree shapes", "anchors": ["lib/xpath/src/datatypes.c: node_to_string, join_descendants", "lib/src/domlette/container.c: xml_normalize"]}
{"id": "C19", "title": "XPath axes partition the document", "statement": "For every node of a document, the self, ancestor, descendant, preceding and following axes contain each element, text, comment and processing-instruction node and the root exactly once in total; reverse axes enumerate in reverse document order and forward axes in document order.", "quantifier": "every tree, every context node", "why_tests_cant": "all tree shapes and all context nodes", "anchors": ["lib/xpath/locationpaths/axisspecifiers.py", "lib/xpath/src/axes.c"]}
{"id": "C20", "title": "node-set comparison follows XPath 1.0 section 3.4", "statement": "A comparison between two node-sets is true iff there is a node in each such that the comparison of their string-values (=, !=) or of their numeric values (<, <=, >, >=) is true; comparisons of a node-set with a number, string or boolean follow the same section.", "quantifier": "every pair of node-sets of any size, every operator", "why_tests_cant": "sizes are unbounded and the result is an existential over pairs", "anchors": ["lib/xpath/src/datatypes.c: nodeset_richcompare"]}
{"id": "C21", "title": "scalar comparison follows XPath 1.0 section 3.4", "statement": "= and != on two scalars convert to boolean if either is a boolean, else to number if either is a number, else compare strings; <, <=, >, >= compare numbers.", "quantifier": "every pair of scalar values and every operator", "why_tests_cant": "infinite value domain including NaN", "anchors": ["lib/xpath/src/datatypes.c: object_richcompare"]}
{"id": "C22", "title": "translate()", "statement": "translate(s, from, to) replaces each character of s at its first occurrence in `from` by the character at the same index of `to`, deletes it if there is none, and keeps characters not in `from`.", "quantifier": "every triple of strings", "why_tests_cant": "the function depends on three strings and on repetitions inside the second; tests try a few triples", "anchors": ["lib/xpath/functions/strings.py: translate_function"]}
{"id": "C23", "title": "substring()", "statement": "substring(s, start, length) returns the characters whose position p satisfies p >= round(start) and p < round(start) + round(length), with XPath rounding and IEEE special values.", "quantifier": "every string and every pair of numbers", "why_tests_cant": "the arguments range over all numbers with NaN, infinities and fractions, at any string length", "anchors": ["lib/xpath/functions/strings.py: substring_function"]}
{"id": "C24", "title": "substring-before(), substring-after(), contains(), starts-with()", "statement": "If contains(s, t), then substring-before(s,t) + t + substring-after(s,t) == s and substring-before(s,t) has no earlier occurrence of t; starts-with(s,t) iff t is a prefix of s; otherwise both substring functions return the empty string.", "quantifier": "every pair of strings", "why_tests_cant": "all pairs of strings, with empty and repeated occurrences, cannot be enumerated", "anchors": ["lib/xpath/functions/strings.py"]}
{"id": "C25", "title": "normalize-space()", "statement": "normalize-space(s) has no leading or trailing white space and no two adjacent white-space characters, keeps all other characters in order, and is idempotent.", "quantifier": "every string", "why_tests_cant": "runs of white space can be anywhere and of any length", "anchors": ["lib/xpath/functions/strings.py: normalize_space_function", "lib/src/xmlstring.c: NormalizeSpace"]}
{"id": "C26", "title": "predicates select by position", "statement": "A numeric predicate [k] keeps exactly the k-th node of the axis order; [position() > k] and [position() >= k] keep exactly the nodes at positions > k and >= k; [last()] keeps exactly the last node; any other expression keeps exactly the nodes for which it is true.", "quantifier": "every node sequence, every number k", "why_tests_cant": "all sequence lengths and all numbers", "anchors": ["lib/xpath/locationpaths/predicates.py", "lib/xpath/src/nodetests.c: positionfilter_next"]}
{"id": "C27", "title": "location paths and unions return each node once, in document order", "statement": "The node-set returned by evaluating a location path or a union expression contains exactly the nodes that XPath 1.0 says (those reached by its steps, the union of the operands), no node twice, and is sorted in document order.", "quantifier": "every document, every path", "why_tests_cant": "all documents and paths", "anchors": ["lib/xpath/src/paths.c: stepiter_next, UnionIter", "lib/xpath/src/datatypes.c: nodeset_new", "lib/xpath/expressions/nodesets.py"]}
{"id": "C28", "title": "string(), number() and boolean() of a node-set use the first node in document order", "statement": "Converting a location path result to a string or number uses the node of the result that is first in document order; to boolean gives true iff the result is non-empty.", "quantifier": "every document, every path", "why_tests_cant": "all documents and paths", "anchors": ["lib/xpath/expressions/nodesets.py: compile_as_string, compile_as_number, compile_as_boolean"]}
{"id": "C29", "title": "number formatting and parsing", "statement": "number(string) accepts exactly the XPath Number grammar with optional white space and minus sign and yields NaN for anything else; string() of an integral number is its decimal representation and number(string(n)) == n for integers; string() of NaN and the infinities is NaN, Infinity and -Infinity, and of any other number a decimal without exponent that distinguishes it.", "quantifier": "every string, every integer", "why_tests_cant": "all integers and all strings that look almost like numbers; tests try a few literals", "anchors": ["lib/xpath/src/datatypes.c: Number_New, String_New"]}
{"id": "C30", "title": "round(), floor(), ceiling(), mod", "statement": "round(x) is the integer closest to x, ties towards positive infinity; floor and ceiling are the greatest integer <= x and the least integer >= x; mod has the sign of the dividend.", "quantifier": "every rational number", "why_tests_cant": "rounding goes wrong on boundaries that depend on the number; tests try a few fractions", "anchors": ["lib/xpath/functions/numbers.py", "lib/xpath/src/datatypes.c: number_rem"]}
{"id": "C31", "title": "escaped character data reads back as the original text", "statement": "Writing a string of legal XML characters with text() and expanding character and predefined entity references in the output (with XML end-of-line handling) gives back the string; the output contains no '<', no '&' except as the start of a reference, and no ']]>'; this holds for any output encoding, encodable or not.", "quantifier": "every string of legal XML characters, every set of encodable characters containing ASCII", "why_tests_cant": "a writer and a reader have to be inverse for every text, with every combination of characters to be escaped next to each other", "anchors": ["lib/writers/src/xmlstream.c: xmlstream_write_escape, write_escaped", "lib/writers/_xmlprinters.py: text"]}
{"id": "C32", "title": "attribute values read back as the original value", "statement": "The quoted attribute value written by start_element never contains its own quote character or '<', and reading it back (reference expansion plus attribute-value normalisation) gives the original value, whichever quote is chosen.", "quantifier": "every string of legal XML characters", "why_tests_cant": "a writer and a reader have to be inverse for every text, and attribute normalisation makes single characters depend on context", "anchors": ["lib/writers/_xmlprinters.py: start_element"]}
{"id": "C33", "title": "CDATA sections read back as the original data", "statement": "cdata_section(data) writes a sequence of CDATA sections whose concatenated contents are exactly data, for data containing any number of ']]>' in any overlap.", "quantifier": "every string", "why_tests_cant": "']]>' can arise across the pieces a text is split into, at any position and any number of times", "anchors": ["lib/writers/_xmlprinters.py: cdata_section"]}
{"id": "C34", "title": "serialise then parse gives the same tree", "statement": "Reading back the markup that the XML printer writes for a tree gives the same sequence of start-tag, end-tag, text, comment and processing-instruction events, up to merging of adjacent text.", "quantifier": "every tree with legal names and content", "why_tests_cant": "all trees", "anchors": ["lib/writers/_xmlprinters.py", "lib/writers/_treevisitor.py"]}
{"id": "C35", "title": "byte order mark matches the encoding", "statement": "When output is written in UTF-16 the byte order mark announces the byte order that is used for the characters that follow.", "quantifier": "every output and either platform byte order", "why_tests_cant": "depends on platform byte order", "anchors": ["lib/writers/src/xmlstream.c: xmlstream_new, xmlstream_write_ascii"]}
{"id": "C36", "title": "content models accept exactly their language", "statement": "ContentModel.compile() yields a machine that accepts a sequence of child events, followed by the final event, exactly when the sequence matches the model read as a regular expression (seq, alt, ?, *, +).", "quantifier": "every content model expression, every event sequence", "why_tests_cant": "both the expressions and the sequences are unbounded; the claim goes through an NFA and a subset construction", "anchors": ["lib/src/expat/content_model.c", "lib/xslt/tree/content_model.py"]}
{"id": "C37", "title": "alphabetic numbering", "statement": "xsl:number with format 'a' or 'A' maps 1,2,3,... to a,b,...,z,aa,ab,... (bijective base 26), distinct numbers giving distinct labels.", "quantifier": "every positive number", "why_tests_cant": "a positional system without zero has a carry at every power of 26; tests see the first two", "anchors": ["lib/xslt/numbers/en.py: _alpha_sequence"]}
{"id": "C38", "title": "roman and decimal numbering", "statement": "xsl:number with format 'i'/'I' gives the roman numeral of the number; with format '0..01' the decimal representation padded with zeros to the width of the token.", "quantifier": "every positive number", "why_tests_cant": "every positive number; tests try a dozen", "anchors": ["lib/xslt/numbers/en.py: _format"]}
{"id": "C39", "title": "EXSLT set functions", "statement": "set:difference, set:intersection, set:distinct, set:has-same-node, set:leading and set:trailing return the node-sets defined by EXSLT, in document order and without duplicates.", "quantifier": "every pair of node-sets", "why_tests_cant": "all sizes", "anchors": ["lib/xslt/exslt/sets.py"]}
{"id": "C40", "title": "EXSLT math:min / math:max", "statement": "math:max (math:min) returns the largest (smallest) numeric value of the node-set, NaN if the set is empty or any node is not a number; math:highest / math:lowest return the nodes having that value.", "quantifier": "every node-set", "why_tests_cant": "all sizes and orders", "anchors": ["lib/xslt/exslt/math.py: max_function, min_function, highest_function, lowest_function"]}
{"id": "C41", "title": "readbysep splits independently of the chunk size", "statement": "readbysep(f, sep, buf) yields the pieces of the whole file content split on sep, whatever the buffer size and wherever separators fall relative to chunk boundaries.", "quantifier": "every content, every separator that is not empty, every buffer size but 0", "why_tests_cant": "the interaction of separator and chunk boundaries has unboundedly many cases", "anchors": ["lib/lib/util.py: readbysep"]}
{"id": "C42", "title": "ISO 8601 time zone offsets round trip", "statement": "The time zone designator written by tostring is parsed back by parse_timezone to the same offset.", "quantifier": "every offset of whole minutes below 100 hours", "why_tests_cant": "every offset, of both signs; tests try a few zones", "anchors": ["lib/lib/iso8601.py: tostring, parse_timezone"]}
{"id": "C43", "title": "element_subtree_iter visits every element once, in document order", "statement": "element_subtree_iter(node) yields exactly the descendant elements (and the node itself with include_root), each once, in document order.", "quantifier": "every tree", "why_tests_cant": "all tree shapes", "anchors": ["lib/lib/util.py: element_subtree_iter"]}
{"id": "C44", "title": "QName splitting and joining", "statement": "splitqname(makeqname(p, l)) == (p, l) for every non-empty prefix without a colon, makeqname(*splitqname(q)) == q for every q that does not start with a colon, and isqname(q) implies that both parts are NCNames.", "quantifier": "every string", "why_tests_cant": "every string, with any number of colons in any place", "anchors": ["lib/src/xmlstring.c: SplitQName, MakeQName, IsQName, IsNCName, IsName, IsNmtoken"]}
{"id": "C45", "title": "pushtree matches exactly the nodes the XPath pattern selects", "statement": "pushtree(pattern) calls the handler for an element exactly when the pattern selects that element in the document.", "quantifier": "every document and every supported pattern", "why_tests_cant": "all documents", "anchors": ["lib/pushtree/pushtree_nfa.py"]}
{"id": "C46", "title": "a validating parse accepts exactly the valid documents", "statement": "A validating parse (white space preserved) reports no content error exactly when the document element is the one named in the document type declaration, every element is declared, and the content of every element matches its declaration (EMPTY, ANY, mixed, or element content with white space between the children).", "quantifier": "every set of element declarations and every document, of any depth and length", "why_tests_cant": "the declarations, the documents and their nesting are unbounded; contexts are recycled across the whole history of the parse", "anchors": ["lib/src/expat/validation.c", "lib/src/expat/expat.c: validate_element, charbuf_callback, expat_EndElement, expat_ElementDecl", "lib/src/expat/content_model.c"]}
{"id": "C47", "title": "XPath arithmetic is IEEE 754 arithmetic", "statement": "The operators + - * div and unary minus return the exact result when it is a double and the rounded result otherwise; infinities and NaN behave as IEEE 754 says, including division by positive and negative zero; sum() of numbers is their exact sum when the partial sums are doubles.", "quantifier": "every pair of doubles, every list of numbers, every rounding mode", "why_tests_cant": "pairs of 64-bit numbers: 2^128 cases, of which errors hit only special ones", "anchors": ["lib/xpath/src/datatypes.c: number_add, number_sub, number_mul, number_classic_div, number_neg, handle_fpe", "lib/xpath/functions/numbers.py: sum_function"]}
{"id": "C48", "title": "reading leaves the tree unchanged", "statement": "Reading the namespaces in scope of an element changes no node: every node has the same parent and the same children as before.", "quantifier": "every document, every element, every hash function and table size", "why_tests_cant": "side effects of a getter show up in other nodes, which a test of the returned value does not look at", "anchors": ["lib/src/domlette/element.c: Element_InscopeNamespaces", "lib/src/domlette/namespacemap.c: NamespaceMap_SetNode"]}
{"id": "C49", "title": "node ids identify nodes", "statement": "xml_nodeid (which XSLT generate-id() returns) is defined for every node, and two different nodes never have the same id, whatever has been done to the forest before.", "quantifier": "every forest, every two nodes, every history", "why_tests_cant": "uniqueness is a property of all pairs of nodes in all trees", "anchors": ["lib/src/domlette/node.c: generate_id, get_id"]}
{"id": "C50", "title": "base URIs follow XML Base", "statement": "xml_base of a node is the base URI that XML Base defines: the nearest xml:base, relative ones resolved against the base URI of the parent, down to the URI of the document.", "quantifier": "every forest with any xml:base attributes, every node", "why_tests_cant": "chains of relative xml:base values are unbounded", "anchors": ["lib/src/domlette/node.c: get_base_uri", "lib/lib/iri.py: absolutize, is_absolute"]}
{"id": "C51", "title": "the ways to evaluate an expression agree", "statement": "evaluate_as_boolean, evaluate_as_number, evaluate_as_string and evaluate_as_nodeset return what boolean(), number(), string() or nothing at all make of the result of evaluate.", "quantifier": "every expression, every document, every context", "why_tests_cant": "each kind of expression has five evaluation methods of its own, and expressions nest without bound", "anchors": ["lib/xpath/expressions/__init__.py", "lib/xpath/expressions/basics.py", "lib/xpath/expressions/booleans.py", "lib/xpath/expressions/nodesets.py", "lib/xpath/functions"]}
{"id": "C52", "title": "evaluation restores the context", "statement": "After an XPath expression has been evaluated, the context object has the node, position and size it had before, so that the caller can evaluate further expressions in the same context.", "quantifier": "every expression, every document, every context, every evaluation method", "why_tests_cant": "predicates change all three while they run, and expressions nest without bound", "anchors": ["lib/xpath/expressions/nodesets.py", "lib/xpath/locationpaths/predicates.py"]}
{"id": "C53", "title": "evaluation ends", "statement": "Evaluating an XPath expression on a well-formed tree always returns or raises, and the same evaluation has only one outcome.", "quantifier": "every expression, every tree, every context node, every evaluation method", "why_tests_cant": "non-termination cannot be observed by a test", "anchors": ["lib/xpath/src/paths.c", "lib/xpath/src/nodetests.c", "lib/xpath/src/axes.c", "lib/xpath/locationpaths", "lib/xpath/expressions"]}
{"id": "C54", "title": "expanded names survive serialisation", "statement": "When a tree is written with xml_write() or xml_encode() and read by a namespace-aware reader, every element and attribute has the namespace, the local name and the value it had in the tree, whatever prefixes, redeclarations and undeclarations it uses.", "quantifier": "every tree with legal names, declarations and content, at any nesting; every encoding that has the characters", "why_tests_cant": "declarations of prefixes shadow each other over any depth of nesting; tests nest two levels", "anchors": ["lib/writers/node.py: _Visitor", "lib/src/domlette/element.c: Element_InscopeNamespaces", "lib/writers/_xmlprinters.py: xmlprinter"]}
{"id": "C55", "title": "format strings of xsl:number", "statement": "A format string is split into an optional prefix, alternating number tokens and separators, and an optional suffix. The i-th number is written with the i-th token (the last one if there are fewer tokens), between the numbers stand the separators (the last one, or '.', if there are fewer), and the prefix and the suffix surround the whole, whatever the number of numbers.", "quantifier": "every format string and every list of numbers", "why_tests_cant": "format strings alternate tokens and separators in any number, against lists of any length", "anchors": ["lib/xslt/numbers/__init__.py: formatter.__init__, formatter.formatmany, formatter.format"]}
{"id": "C56", "title": "ISO 8601 dates and times", "statement": "tostring(t, tz) writes a text that denotes the instant t; parse reads every text of the six W3C date-time formats as the instant it denotes; so parse(tostring(t, tz)) == t.", "quantifier": "every instant, every offset of whole minutes, every text of the W3C profile", "why_tests_cant": "all instants and texts; calendars go wrong on single days", "anchors": ["lib/lib/iso8601.py: parse, tostring, parse_date, parse_time, parse_timezone"]}
{"id": "C57", "title": "name checks agree with the XML and namespaces recommendations", "statement": "isname, isnmtoken, isncname, isqname (and the checks of attribute values declared as IDREFS and NMTOKENS) accept a string exactly when it matches the production Name, Nmtoken, NCName, QName, Names, Nmtokens of the recommendations, with the character classes of XML 1.0, Appendix B.", "quantifier": "every string of Unicode characters", "why_tests_cant": "there are 65536 code units in the tables and infinitely many strings", "anchors": ["lib/src/xmlstring.c: IsName, IsNames, IsNmtoken, IsNmtokens, IsQName, IsNCName", "lib/src/charset.h"]}
{"id": "C58", "title": "match patterns", "statement": "A node matches an XSLT pattern (xsl:template match, xsl:key match, xsl:number count and from) exactly when the pattern, evaluated as an XPath expression from the node itself or one of its ancestors, selects the node; a list of alternatives matches when one of them does; and the check always ends.", "quantifier": "every pattern, every document, every node", "why_tests_cant": "patterns have any number of steps and predicates, and documents any depth", "anchors": ["lib/xslt/xpatterns/__init__.py: pattern.match, predicated_test.match, document_test.match, id_key_test.match, patterns.match", "lib/xslt/xpatterns/xpattern.bgen", "lib/xpath/locationpaths/nodetests.py: match"]}
{"id": "C59", "title": "choice of template rules", "statement": "xsl:apply-templates uses for each node the template rule that XSLT 1.0, section 5.5 selects: among the rules of the mode whose pattern matches, those with the highest import precedence, then those with the highest priority (explicit, or the default of each alternative); of several the last one in the stylesheet; the built-in rule if none matches. xsl:apply-imports does the same among the imported rules. The search always ends.", "quantifier": "every set of templates, every document, every node, mode and order of dictionary keys", "why_tests_cant": "the result depends on the interplay of all templates of a stylesheet with every node of a document", "anchors": ["lib/xslt/tree/transform_element.py: setup, apply_templates, apply_imports, _dispatch_table", "lib/xslt/xpatterns/__init__.py: node_type, name_key, priority", "lib/xpath/locationpaths/nodetests.py: priority"]}
{"id": "C60", "title": "xsl:sort", "statement": "The nodes selected by xsl:for-each or xsl:apply-templates are processed in the order that their xsl:sort elements demand: the first key counts most, then the second; numbers compare as numbers with NaN first; descending order reverses the order of the keys but nodes that no key tells apart stay in document order; every selected node is processed once. Afterwards the context is what it was.", "quantifier": "every document, every select expression, every list of sort keys", "why_tests_cant": "stability and the order of several keys quantify over all permutations of all node lists", "anchors": ["lib/xslt/expressions/__init__.py: sorted_expression", "lib/xslt/tree/sort_element.py"]}
{"id": "C61", "title": "Running a stylesheet", "statement": "The output of a transformation is the result tree that XSLT 1.0 defines for the stylesheet and the document: for every instruction (text, value-of, literal result elements with attribute value templates, attribute, comment, processing-instruction, copy, copy-of, if, choose, for-each, apply-templates, apply-imports, call-template, variable) in the context node, position, size, mode and variables that the specification gives it; a template that ends with a call of itself gives the same result as if it were called. Instructions restore the context. The tags of the output are nested. A transformation that only descends in the document comes to an end.", "quantifier": "every document, every stylesheet, every depth of recursion", "why_tests_cant": "stylesheets recurse to any depth through templates, modes and imports; tests run single stylesheets", "anchors": ["lib/xslt/tree/: instantiate methods of template_element, apply_templates_element, call_template_element, for_each_element, choose_elements, if_element, copy_element, copy_of_element, literal_element, value_of_element, comment_element, processing_instruction_element, attribute_element, variable_elements", "lib/xslt/tree/transform_element.py: apply_templates, apply_imports, named_templates", "lib/xslt/xsltcontext.py", "lib/xslt/reader/__init__.py: push_variables_node, pop_variables_node"]}
{"id": "C62", "title": "Import precedence", "statement": "A stylesheet with its imports and inclusions is read as XSLT 1.0 section 2.6 describes: every declaration gets an import precedence that orders the stylesheets as a post-order traversal of the import tree does, and that included stylesheets share with the including one. Reading ends for any finite collection of stylesheets; it fails exactly if a stylesheet is missing or directly or indirectly imports or includes itself. Of several global variables with a name, of several values for an attribute of xsl:output and of several namespace aliases the one with the highest import precedence is used, and two global variables with the same name and precedence are reported. xsl:apply-imports uses the imported rules, attribute sets with the same name are merged.", "quantifier": "every collection of stylesheets with any imports and inclusions, every set of declarations", "why_tests_cant": "precedence is an order over trees of imports of any shape, with the same module reached by several ways", "anchors": ["lib/xslt/reader/__init__.py: _combine_stylesheet, startDocument, endDocument, endElementNS, _import_index, _global_vars, _visited_stylesheet_uris", "lib/xslt/src/xslt_element.c: XsltElement_Merge", "lib/xslt/tree/transform_element.py: setup", "lib/xslt/tree/declaration_elements.py: attribute_set_element.instantiate"]}
{"id": "C63", "title": "Whitespace stripping", "statement": "A reader with whitespace rules leaves out exactly the text nodes that consist of whitespace, whose parent element is whitespace-stripping by the first matching rule, and that are not under xml:space='preserve' (without a closer 'default'), however the text arrives in pieces. Whitespace in stylesheets is removed in this way except in xsl:text. The rules of a stylesheet choose for every element the declaration that XSLT 1.0 section 3.4 chooses among xsl:strip-space and xsl:preserve-space, and the source documents of a transformation are read with these rules.", "quantifier": "every document, every list of rules, every set of xsl:strip-space and xsl:preserve-space declarations, every element name", "why_tests_cant": "the decision depends on all declarations, their priorities and all ancestors of a text node", "anchors": ["lib/src/expat/expat.c: create_whitespace_rules, is_whitespace_preserving, charbuf_flush, expat_StartElement, expat_EndElement", "lib/xslt/tree/transform_element.py: setup (space_rules)", "lib/xslt/tree/attribute_types.py: token, tokens", "lib/xslt/reader/__init__.py: _XSLT_WHITESPACE_STRIPPING", "lib/xslt/processor.py: getStripElements, run"]}
{"id": "C64", "title": "The grammar of XPath", "statement": "Compiling an XPath expression succeeds exactly if its tokens form an expression by the grammar of XPath 1.0 (productions [1] to [27]); the parser always comes to an end; an expression is read in one way only, with all its tokens in their order; a syntax error is reported at the first token that no expression could continue with; and the nesting of an expression is not limited.", "quantifier": "every sequence of tokens of any length", "why_tests_cant": "the tables of the parser are generated code that nobody reads; a wrong entry shows only in token sequences that reach its state, of any length", "anchors": ["lib/xpath/parser/xpathparser.c: parser_parse, rhs_tokens, derives, default_action, yytable, YYINITDEPTH, report_error"]}
{"id": "C65", "title": "The tokens of XPath", "statement": "The text of an XPath expression is split into the tokens that section 3.7 of XPath 1.0 gives it (longest token first, the rules that tell `*` and operator names from name tests, and function names, node types and axis names from element names), and a text that has no tokens by these rules is rejected; the splitting always comes to an end and drops nothing but white space; together with the grammar, an expression is compiled exactly if the recommendation allows it.", "quantifier": "every text of any length, over all Unicode characters", "why_tests_cant": "longest-match rules, lexer states and look-ahead interact over neighbouring tokens of texts of any length", "anchors": ["lib/xpath/parser/xpathparser.c: parser_yylex, lexer_match, lexer_charset, lexer_patterns, lexer_actions, YYTRANSLATE", "lib/xpath/parser/xpath_lexer_patterns.bgen.frag", "lib/xpath/parser/xpath_lexer_defines.bgen.frag"]}
{"id": "C66", "title": "A compiled XPath expression means what its text means", "statement": "The expression object that is built for the text of an XPath expression has, in every context of every document, the value that the recommendation gives to the text: operators have the precedence and the associativity of the grammar, `//`, `.`, `..`, `@` and a missing axis are what they abbreviate, names and literals are read as they are written, and a call is accepted exactly with a number of arguments that the function takes; a text that is no expression is reported as an error of XPath.", "quantifier": "every text, every document, context node, position and size, and all bindings of prefixes, variables and functions", "why_tests_cant": "the meaning of an expression quantifies over all documents and contexts, and abbreviations are compiled to something else than they stand for", "anchors": ["lib/xpath/parser/xpathparser.c: parser_parse (the action routines)", "lib/xpath/parser/xpath_grammar.bgen.frag", "lib/xpath/locationpaths/__init__.py: location_path, relative_location_path, absolute_location_path, abbreviated_absolute_location_path", "lib/xpath/locationpaths/nodetests.py: name_test, node_type", "lib/xpath/locationpaths/axisspecifiers.py: axis_specifier", "lib/xpath/expressions/nodesets.py: union_expr, path_expr, filter_expr", "lib/xpath/expressions/functioncalls.py: function_call", "lib/xpath/expressions/basics.py: string_literal"]}
{"id": "C67", "title": "Bindery attributes give the child elements and attributes they are named after", "statement": "In a bindery document, however it was made (parsed, built, edited, assigned to or deleted from), every child element and every attribute of an element can be read as the Python attribute that is named after it: the name is an identifier that Python and the user allow, `e.name` is the first child with that expanded name or the value of that attribute, `list(e.name)`, `len(e.name)` and `e.name[k]` are all children with the name in document order, assigning a text to `e.name` changes just that child or attribute, and deleting `e.name` or `e['name']` removes just that.", "quantifier": "every document and every sequence of parsing, creating, editing, assigning and deleting operations, every XML name and every set of excluded names", "why_tests_cant": "the names of attributes depend on the whole history of edits of the element; tests do a few edits", "anchors": ["lib/bindery/nodes.py: container_mixin.xml_new_pname_mapping, xml_child_inserted, xml_find_named_child, __getitem__, __delitem__, __setitem__, xml_fixup", "lib/bindery/nodes.py: bound_element, bound_attribute, element_iterator, element_base, entity_base.xml_element_factory", "lib/src/domlette/builder.c: builder_StartElement, builder_EndElement", "lib/src/domlette/container.c: _Container_FreezeChildren"]}
{"id": "C68", "title": "xsl:number counts the nodes that XSLT says", "statement": "For the current node, the patterns `count` and `from` (or their defaults) and a level, `xsl:number` inserts the numbers that XSLT 1.0 defines: for `single` one plus the number of matching preceding siblings of the nearest ancestor-or-self that matches `count` and is below the nearest ancestor that matches `from`; for `multiple` that number for every such node, outermost first; for `any` the number of matching nodes up to the current node in document order, after the last one that matches `from`. If there is no such node nothing is inserted.", "quantifier": "every document, current node, level, and every pair of patterns or absent patterns", "why_tests_cant": "counting depends on all nodes before the current one, in documents of any shape, and on two arbitrary patterns", "anchors": ["lib/xslt/tree/number_element.py: number_element.setup, instantiate, _single_value, _multiple_values, _any_value, type_pattern, name_pattern", "lib/src/domlette/node.c: get_root, get_preceding_sibling"]}
{"id": "C69", "title": "key() returns the nodes that have the key", "statement": "For xsl:key declarations of a stylesheet, a key name and an argument, key() returns exactly the nodes of the document of the context node that match the pattern of a declaration with that name and whose `use` value (or the string-value of one node of it) equals the argument as a string (or the string-value of one of its nodes); each node once and in document order. Unknown names give the empty node-set; the call ends and leaves the context as it was.", "quantifier": "every document, set of xsl:key declarations (patterns with several alternatives, any `use`), key name, context node, argument value, order of the dictionaries", "why_tests_cant": "every combination of declarations, patterns and values in every document; tests have one key", "anchors": ["lib/xslt/tree/transform_element.py: _key_dispatch_table.__init__, _match_nodes, __missing__; transform_element.setup", "lib/xslt/functions/__init__.py: key_function", "lib/src/xpath/datatypes.c: nodeset_new"]}
{"id": "C70", "title": "format-number() writes the number the pattern asks for", "statement": "For a pattern of the grammar (prefix, `#`, `0`, grouping separators, decimal point, suffix, an optional second subpattern for negative numbers) and any distinct symbols of an xsl:decimal-format, format-number() of a finite number writes the closest decimal number with at most the greatest number of fraction digits, at least the required integer and fraction digits and no needless zeros, separators between groups, scaled for percent and per-mille signs, between the affixes that belong to its sign; NaN and the infinities give their symbols; the pattern string is not changed.", "quantifier": "every number, pattern of the grammar, set of distinct symbols, rounding of the multiplication", "why_tests_cant": "every number with every pattern: digits, grouping and rounding boundaries interact", "anchors": ["lib/xslt/functions/src/decimal_format.c: parse_pattern, parse_number, format_number, decimal_format", "lib/xslt/functions/__init__.py: format_number_function"]}
{"id": "C71", "title": "XUpdate commands change exactly what they say", "statement": "append gives every selected node the content as its last children (or from the position of the child attribute on); insert-before and insert-after put the content directly in front of and behind every selected node; remove takes the selected nodes, attributes too, out of the document; update gives selected elements the content as their only children and selected attributes, text, comments and processing instructions the text as their value; rename puts a new name on selected elements, attributes and processing instructions and keeps their attributes, content and place. Nothing else in the document changes and it stays a tree, also with many, nested or neighbouring targets. The commands of a request are done in order, each on the result of those before it; a select of no nodes is an error for append, update and rename.", "quantifier": "every document, every list of selected nodes (nested, siblings, of all kinds), every content tree, every sequence of commands", "why_tests_cant": "targets can be inside of each other or share a parent, and content is moved node by node while positions shift; tests see a few shapes of targets", "anchors": ["lib/xupdate/commands.py: append_command, rename_command, insert_before_command, insert_after_command, update_command, remove_command, if_command, modifications_list.apply_updates", "lib/writers/src/treewriter.c: start_element, attribute", "lib/tree/attributemap.c: AttributeMap_SetNode"]}
{"id": "C72", "title": "Attribute value templates are read as XSLT says", "statement": "A text is accepted as an attribute value template exactly if it consists of characters other than braces, of doubled braces and of XPath expressions in braces (so a brace in a literal of an expression does not end it). Evaluated, it is the text with every doubled brace made single and every expression replaced by its string value, percent signs kept; the expressions are evaluated once each, from left to right, up to the first that raises an exception. Text that is not a template is refused with INVALID_AVT. This holds for all texts without NUL whose expressions have less than 499 tokens (the parser's stack has 1000 places), and what is accepted is right for all texts.", "quantifier": "every text, every evaluator of expressions with its own state, every state", "why_tests_cant": "the lexer switches between text and expressions by braces with tables of its own; whether it reads every expression as the XPath parser does cannot be seen from samples", "anchors": ["lib/xslt/expressions/avt.c: parser_parse, lexer_read, action1..action7", "lib/xslt/expressions/avt.py: avt_expression.__init__, evaluate_as_string", "lib/xslt/tree/attribute_types.py: avt.prepare, constant_value, avt_value"]}
{"id": "C73", "title": "Match patterns are read as XSLT says", "statement": "A text is accepted as a match pattern exactly if it is one by XSLT 1.0 (5.2): alternatives separated by |, each /, or steps separated by / and // (with / or // before them), each with an axis (child or attribute), a node test and predicates, or beginning with id(..) or key(..,..). It is made into the steps of each alternative from right to left, each with its axis, test and predicates and a mark where // is before the next, and the predicates have the values that XPath gives them. Parsing ends for every text, with a pattern or an exception.", "quantifier": "every text (acceptance: of less than 500 tokens), and for the predicates every document, environment and context", "why_tests_cant": "The lexer has a state of its own for what is outside of predicates and goes over to that of XPath at a bracket; which texts are lost there, or read differently, is a question about all texts.", "anchors": ["lib/xslt/xpatterns/parser.c: parser_parse, lexer_read, action routines", "lib/xslt/xpatterns/xpattern.bgen: the grammar and the lexer's states"]}
{"id": "C74", "title": "structwriter writes what the structure stands for", "statement": "What structwriter.feed() writes for a structure of ROOT, E, NS, RAW, strings, numbers, iterables and callables reads back, with a namespace-aware reader, as what the structure stands for: an element for every E, with the given namespace or else that of its prefix, its attributes with their namespaces (but for those with the value None), and its content in order; the text of all strings and other values; and the nodes of every RAW.", "quantifier": "every structure of finite depth, every encoding, both kinds of builds of Python and every order of iteration over dictionaries", "why_tests_cant": "Which declarations are written depends on all elements around one, so that a mistake shows up only in certain nestings of prefixes; and structures are of any depth and size.", "anchors": ["lib/writers/struct.py: structwriter.feed, E, NS, RAW, ROOT", "lib/writers/_treevisitor.py: visitor", "lib/writers/_xmlprinters.py: xmlprinter"]}
{"id": "C75", "title": "Global variables and parameters get their values", "statement": "Before a transformation begins, every global variable gets the value of its definition, in which the other global variables have their values, in whatever order they are declared; a parameter gets the value that is passed for it, and values passed for other names have no effect. If definitions need each other, or refer to variables that do not exist, this is reported for one that has no value; an exception in a definition is passed on. Nothing is written, and the templates begin with the node of the transformation and without local variables. It makes no difference how often and with what documents and parameters the stylesheet was used before.", "quantifier": "every set of global variables and parameters with definitions of any size, every order of declarations, every document, all parameters, every history of earlier uses of the stylesheet object", "why_tests_cant": "Values are found by trying the definitions again and again, with exceptions that leave parts of the context behind; which ones are tried when depends on the order of all declarations, and with a stylesheet that is used again on all earlier uses.", "anchors": ["lib/xslt/tree/transform_element.py: prime, setup, apply_templates", "lib/xslt/tree/variable_elements.py: variable_element.instantiate", "lib/xslt/processor.py: run", "lib/xslt/xsltcontext.py: xsltcontext", "lib/xslt/reader/__init__.py: push_variables_node, pop_variables_node", "lib/xpath/expressions/__init__.py: expression.evaluate", "lib/xpath/expressions/basics.py: variable_reference.compile", "lib/xpath/__init__.py: context.push_writer, context.pop_writer"]}
{"id": "C76", "title": "The EXSLT functions for strings compute what EXSLT says", "statement": "str:align returns a string as long as the padding in which the string stands at the left, at the right or in the middle and the rest is the padding's, or the string cut off if it is longer; str:concat concatenates the string values; str:padding returns a string of the given length that repeats the characters; str:split returns what lies between the occurrences of the pattern from left to right, and str:tokenize what lies between characters that are delimiters, each token once and in order, and single characters if the pattern or the delimiters are empty. str:replace replaces every occurrence of a search string by its node, longer search strings first and then in the order of the arguments, never looks at replaced text again, writes adjacent text as one node and leaves its arguments as they are. str:encode-uri and str:decode-uri escape and unescape.", "quantifier": "all strings, paddings, lengths (with NaN and the infinities), patterns, sets of delimiters with any characters that are special in regular expressions, and all node-sets of search strings and replacements", "why_tests_cant": "Overlapping and nested search strings, delimiters that mean something in a character class, and lengths around zero are settled by the order of all rules and the positions of all occurrences; a few examples do not show that no occurrence is missed or replaced twice for every combination.", "anchors": ["lib/xslt/exslt/strings.py: align_function, concat_function, decode_uri_function, encode_uri_function, padding_function, replace_function, split_function, tokenize_function, _replace", "lib/writers/src/treewriter.c: writer_text"]}
{"id": "C77", "title": "The output method is chosen as XSLT says, and nothing is lost before it is known", "statement": "If xsl:output has a method, it is used. If not, it is html if the first element of the result is named 'html' (in any case) in no namespace and there is only white space before it, and xml otherwise. What is written before this is known is kept and written by the chosen writer; every call is carried out exactly once and in order, whether the caller got the writer's method before or after the choice was made, and with any number of writers in use at the same time. A stylesheet can be used for any number of transformations, each with its own choice.", "quantifier": "every sequence of calls of writer methods, every interleaving of getting and calling methods of any number of writers with own or shared output parameters, every sequence of transformations with a stylesheet", "why_tests_cant": "The class of the writer is changed while methods of the old class are bound in contexts; which calls are buffered and replayed depends on the whole history of calls and on when each method was looked up.", "anchors": ["lib/xslt/proxywriter.py: proxymethod, proxywriter", "lib/writers/outputparameters.py: outputparameters.setdefault", "lib/xslt/result.py: result", "lib/xslt/processor.py: run", "lib/xpath/__init__.py: context.push_writer"]}
{"id": "C78", "title": "What is written with the xml writer reads back with the names that were given", "statement": "A caller gives the writer elements and attributes with namespaces and local names, with whatever prefixes: missing, in conflict with each other or reserved. What is written is namespace-well-formed and reads back with these namespaces and local names, with the last value for an attribute that is given twice, with the text, comments, processing instructions and the document type declaration; and what was asked to be declared is in scope where it was asked for. None of this depends on the order in which dictionaries are iterated over. An attribute is accepted exactly while a start tag is open.", "quantifier": "every tree of elements with any names, namespaces, declarations and attributes that XML can express, every order of iteration over dictionaries, every output encoding, every sequence of calls", "why_tests_cant": "Prefixes are chosen from the namespaces in scope, which depend on all elements around and on all attributes so far; a prefix that is in use, even a generated one, must never be given another meaning, for every order of the dictionary.", "anchors": ["lib/writers/xmlwriter.py: xmlwriter.start_element, xmlwriter.attribute, xmlwriter.namespace, xmlwriter._complete_element", "lib/writers/_xmlprinters.py: xmlprinter"]}
{"id": "C79", "title": "The parser delivers every name and string as itself, and shares equal ones", "statement": "The parser keeps the names, attribute values, white space and other strings of a document in hash tables. Whatever a document contains, in whatever order, however the strings hash and however often the tables grow: every lookup ends within the bounds of the table; the string that is delivered is the one in the document; a name is delivered with its namespace, its local name and the name as written; equal strings, and equal names, are delivered as one object; and at the end every entry is released exactly once.", "quantifier": "every sequence of at most 2^28 names and strings, of any length and content", "why_tests_cant": "Collisions and growth depend on the hash values of all strings seen so far; a probe sequence that misses a slot shows only for particular sets of strings, as an endless loop.", "anchors": ["lib/src/expat/hash_table.c: HashTable_New, HashTable_Lookup, lookup_entry, table_resize, HashTable_Del", "lib/src/expat/expat.c: split_triplet, create_name, intern_string"]}
{"id": "C80", "title": "HTML output is read by an HTML reader as what was written", "statement": "When a document without namespaces is written with the HTML printer, in any encoding and for any version of HTML, a reader for HTML (character and entity references, CDATA content of script and style, elements without end tags, minimized boolean attributes, `&{` in attribute values) finds the same elements, attributes, text, comments, processing instructions and document type: attribute values and text are unchanged, with whatever quotes, ampersands and characters that the encoding does not have; boolean attributes that are set appear as a name alone; in attributes that are URIs non-ASCII characters are percent-escaped as UTF-8; elements without end tags have none. A document whose literal strings (comments, processing instructions, identifiers) are in the encoding is always written.", "quantifier": "every document without namespaces, every encoding that is charwise and has ASCII (or all characters), every version of HTML, both builds of Python", "why_tests_cant": "The replacement of a character depends on the characters around it (`&{`), on the other characters of the value (the quotes), on the element and attribute in any mix of cases, on the encoding and on tables of some 250 entities; tests try a few.", "anchors": ["lib/writers/_htmlprinters.py: htmlprinter.start_document, doctype, start_element, end_element, processing_instruction, _translate_attributes, _attr_amp_escape", "lib/writers/_xmlprinters.py: xmlprinter.start_element, end_element, text, comment", "lib/writers/src/xmlstream.c: xmlstream_write_escape, EntityMap_Type"]}
{"id": "C81", "title": "Indented XML output differs from the document by white space between markup only", "statement": "When a document is written with the indenting XML printer, in any encoding, an XML reader finds the same document type, elements, attributes, text, comments and processing instructions in the same order; what is added are new lines and spaces, and only between two pieces of markup neither of which is next to text, and never in an element that is empty. So every run of text has exactly the characters it was given. If no text is empty, every tag, comment and processing instruction in the document element that does not follow text, nor ends an empty element, begins on a new line with two spaces for every open element. A document is written whenever the plain printer writes it.", "quantifier": "every well-formed document as a sequence of calls, every encoding that is charwise and has ASCII (or all characters), with or without a byte order mark, both builds of Python", "why_tests_cant": "Whether white space may be added depends on the whole history of calls (depth, whether the start tag is still open, whether text came last); one misplaced line break changes the text of documents that no test has.", "anchors": ["lib/writers/_xmlprinters.py: xmlprettyprinter.start_element, end_element, text, cdata_section, processing_instruction, comment"]}
{"id": "C82", "title": "Parsed trees, and trees edited during and after a parse, show the children they were given", "statement": "A parse returns a tree whose nodes are the content of the document, in document order, each listed once by its parent; trees that were there before stay as they were. The children and parents that a program sees are those which its edits and the parser's events have given the nodes, for any sequence of creating nodes, editing and parsing, also for edits done in callbacks while the tree is still being built, and however the C library moves memory: no array of children is used after it was freed, none is shared, no cell is seen that was not written.", "quantifier": "every sequence of actions (new nodes, edits, parses with any events and any edits in callbacks), every document, every behaviour of realloc", "why_tests_cant": "Arrays are lent to elements by the builder, recycled, grown by three different rules and freed at the end; whether a stale or freed cell becomes visible depends on the whole history of edits, on depth and on realloc, and a test rarely notices it.", "anchors": ["lib/src/domlette/builder.c: ParserState_AddContext, ParserState_FreeContext, ParserState_AddNode, builder_StartDocument, builder_EndDocument, builder_StartElement, builder_EndElement, builder_Characters, builder_Comment, builder_ProcessingInstruction, ParserState_Del", "lib/src/domlette/container.c: container_resize, _Container_SetWorkingChildren, _Container_GetWorkingChildren, _Container_FreezeChildren, _Container_FastAppend, Container_Remove, Container_Append, Container_Insert, Container_Replace, get_children"]}
{"id": "C83", "title": "A SAX reader reports the content of the document, in one order and in whole pieces, however the input is cut, suspended and reused", "statement": "For a well-formed document, parse() calls the handler with startDocument, then one event for each tag, comment, processing instruction, namespace declaration and skipped entity, in document order with external entities expanded in place, all contiguous character data in one characters event (or none where the white space rules strip it), then endDocument, whatever the sizes of buffers and pieces. With a handler that yields values, the generator gives exactly these values, in order, and then ends, and the handler has got the same events. A reader can be used again after any number of parses, also failed ones, and never crashes.", "quantifier": "every document with any nesting of external entities and any cutting into buffers and pieces, every rule for white space, every handler (as a function of the events it has got), every number of calls of next(), every history of earlier parses", "why_tests_cant": "Buffers end anywhere, text arrives in arbitrary pieces, and the state that is kept between callbacks (waiting text, stacks, contexts, suspension) depends on the whole history; tests read small documents from one buffer with a new reader.", "anchors": ["lib/src/expat/expat.c: charbuf_flush, charbuf_reset, begin_context, end_context, destroy_contexts, expat_StartElement, expat_EndElement, expat_CharacterData, expat_ProcessingInstruction, expat_Comment, expat_StartNamespaceDecl, expat_EndNamespaceDecl, expat_StartCdataSection, expat_EndCdataSection, expat_SkippedEntity, expat_ExternalEntityRef, continue_parsing, do_parsing, start_parsing, ExpatReader_Parse, ExpatReader_ParseEntity, ExpatReader_Suspend, ExpatReader_Resume", "lib/src/expat/sax_handler.c: saxreader_parse, saxreader_setproperty (yield-result), saxgen_iternext"]}
{"id": "C84", "title": "A compiled XPath expression computes the expression", "statement": "Once an expression has been compiled, calling its code with a context gives the value that the expression has (as a node set, boolean, number, string or whatever it is), or raises what one of its parts raises, with the parts asked in order, the right operand of or/and only if it is needed, and the node, position and size of the context put back; the interpreter never crashes in it: its stack is never exceeded or used below its bottom, no variable is read unset, every jump leads to the place meant. Expressions are rejected when compiled exactly if a name is unknown, a number of arguments is wrong, or something that cannot be a node set must be one; others of moderate size always get code.", "quantifier": "every expression of literals, variables, function calls, operators, unions, paths, filters and steps, nested without bound, compiled in each of the five ways; every behaviour of the objects it calls; every context and state", "why_tests_cant": "Code is put together from nested pieces with jumps, temporary variables and shared tables, and its stack size is computed from it; an error in one combination shows as a wrong value or a crash of the interpreter for some expressions only.", "anchors": ["lib/xpath/compiler/assembler.py: assembler.emit, new_block, next_block, assemble, _compute_stack_size, _get_blocks_in_order, _compute_lookups, _compute_jump_offsets", "lib/xpath/compiler/__init__.py: xpathcompiler.compile, tmpname", "lib/xpath/expressions/{__init__,basics,booleans,numbers,nodesets,functioncalls}.py: compile, compile_as_boolean, compile_as_number, compile_as_string, compile_as_nodeset, compile_iterable", "lib/xpath/locationpaths/__init__.py: location_path.compile_iterable", "lib/xpath/functions/booleans.py"]}
{"id": "C85", "title": "A stylesheet is accepted exactly if it is as XSLT says", "statement": "Reading a stylesheet succeeds exactly if every element is where it may be, has the attributes that it must have, each with a value of its type, and no others (unless in forwards-compatible mode), text is only where it may be, no local variable hides a visible one and no two global variables have the same name; the tree of the stylesheet then has the elements and text of the document, with the places marked where local variables go out of scope. A literal result element with a version is read as a stylesheet with one template. It does not matter what has been read before in the program.", "quantifier": "every stylesheet document of any size and depth, with any namespaces and attributes; every set of extension elements; every history of stylesheets read before, with or without error", "why_tests_cant": "The reader has a stack of states with shared dictionaries, compiled automata for the content of thirty-five elements and a cache for the life of the program; which stylesheets are accepted is a set that no sample settles.", "anchors": ["lib/xslt/reader/__init__.py: stylesheet_reader.startDocument, endDocument, startElementNS, endElementNS, characters, _handle_standard_attr, _handle_result_element_attr", "lib/xslt/reader/content_model.py", "lib/xslt/reader/attribute_types.py", "lib/xslt/elements/*.py, lib/xslt/tree/*.py: content_model, attribute_types"]}
{"id": "C86", "title": "Literal result elements have the namespaces, aliases and attributes of XSLT", "statement": "A literal result element starts with its name, its attributes and exactly the namespaces that are in scope in the stylesheet, without XSLT's and the excluded and extension namespaces of the element and those it is in, each replaced by its alias if it has one; the alias is the declaration of highest import precedence, and several of the highest are an error. A stylesheet that excludes an unbound prefix is rejected. Attribute sets add the attributes of the sets they use and then their own, before the attributes of the element or its content, which replace them.", "quantifier": "every tree of elements with any declarations and lists of excluded prefixes; every table of aliases and every number of set-ups; every order of dictionary items; every list of attribute sets and every depth of the stack", "why_tests_cant": "The dictionaries of namespaces are shared between elements and changed in place, in the order of a hash table, once per element and per set-up; which namespaces are left depends on all of them together.", "anchors": ["lib/xslt/reader/__init__.py: stylesheet_reader.startElementNS, _handle_result_element_attr", "lib/xslt/tree/literal_element.py: literal_element.fixup_aliases, instantiate", "lib/xslt/tree/transform_element.py: _fixup_aliases, transform_element.setup", "lib/xslt/tree/declaration_elements.py: attribute_set_element.instantiate", "lib/xslt/tree/element_element.py", "lib/xslt/tree/copy_element.py"]}
{"id": "C87", "title": "Resolvers open only what their authorizations grant", "statement": "A resolver opens a file or URI only if the first matching authorization allows it; whether and what it opens is determined by the reference resolved against the base (RFC 3986), the rules and the supported schemes. With a rule for the files of a directory, a relative reference opens only files below that directory. The first access of an input source is granted by its resolver, and text that is XML opens nothing. A registry of scheme handlers without a handler for the scheme opens what the resolver opens.", "quantifier": "every list of rules (arbitrary predicates), every reference and base, every list of schemes, every state of the file system and working directory", "why_tests_cant": "A jail is only as good as its worst reference: dot segments, base URIs without a path, schemes, percent-encoding and leniency interact, and one missed combination opens every file.", "anchors": ["lib/lib/irihelpers.py: resolver.resolve, authorize, absolutize, scheme_registry_resolver.resolve", "lib/lib/_inputsource.py: inputsource.__new__, inputsource.resolve", "lib/src/expat/input_source.c: InputSource_Resolve"]}
{"id": "C88", "title": "Dictionaries of URIs and document() treat equivalent URIs as one", "statement": "In a uridict, after every history of lookups, assignments, deletions and tests, a URI has the value last assigned to an equivalent URI (scheme and triplets without regard to case, unreserved characters with or without percent-encoding, file://localhost/ as file:///), and iteration gives one item for each class. During a transformation document() is a function of the URI: equivalent URIs give the identical document, others different ones, the source document belongs to its base URI, and no document is made twice for equivalent URIs.", "quantifier": "every history of operations; every sequence of calls with strings or node-sets, with and without a second argument; every base URI, every outcome of parsing and every order of sets", "why_tests_cant": "Equivalence is a closure of four rules that can be applied any number of times in any order; that one pass of normalisation decides it, and that a cache never separates or confuses two classes, is about all pairs of URIs and all histories.", "anchors": ["lib/lib/irihelpers.py: uridict", "lib/xslt/functions/__init__.py: document_function", "lib/xslt/xsltcontext.py: xsltcontext.add_document", "lib/lib/iri.py: normalize_case, normalize_percent_encoding"]}
{"id": "C89", "title": "An XUpdate request is refused at its first mistake and otherwise read as written", "statement": "Reading an XUpdate request succeeds exactly if every element is one of XUpdate, stands where it may, has its required attributes, its expressions and templates can be parsed and text stands only where text may; otherwise the XUpdateError for the first mistake in document order is raised. What is read has one command or instruction for each element in the order of the document, with its attributes, the namespaces in scope there and its content, without white space.", "quantifier": "every document with elements of any namespace at any depth, attributes, namespace declarations, text, comments and processing instructions; every set of parsable expressions", "why_tests_cant": "The reader is a handler with a stack of validation states driven by a stream of events; that it accepts exactly the documents of a recursive grammar, reports the first mistake, and builds the right tree with the right namespaces is about all documents of any depth.", "anchors": ["lib/xupdate/reader.py: xupdate_handler, parse, the element functions and content models", "lib/xupdate/expressions.py: xupdate_avt"]}
{"id": "C90", "title": "The content of an XUpdate command makes the nodes it stands for", "statement": "The content of a command makes exactly the nodes that it stands for: elements with the names, namespaces, attributes and children that are written, attributes before the first child node with the last of a name counting, copies of the nodes that value-of selects, comments and processing instructions with the text of their content, adjacent text as one node and no empty text; where a string is made, it is the text of all that. Every expression has the namespaces of the element it stands in. The first instruction that fails decides the error, and writers that were active before are left as they were.", "quantifier": "every content of any depth, every evaluation of expressions depending on the namespaces, every context", "why_tests_cant": "Instructions write to a stack of writers with a text buffer and mutate the namespaces of one context; that this gives the recursive meaning of the content is an invariant over all nestings of instructions.", "anchors": ["lib/xupdate/instructions.py: all classes", "lib/xpath/__init__.py: context.push_writer, pop_writer, copy_node", "lib/writers/src/treewriter.c", "lib/writers/stringwriter.py: stringwriter"]}
{"id": "C91", "title": "Validation against an example accepts exactly the documents that follow it", "statement": "For a document bound with an examplotron model, xml_validate raises nothing exactly if the document follows the example: the top element and every element of a name the example has have the children the example shows for it, each as often as its eg:occurs says (once, ? at most once, + at least once, * any number), and no others. The example itself is accepted. The iteration over the elements meets each of them once.", "quantifier": "every example document and every instance document, of any depth and breadth, with any names and eg:occurs values", "why_tests_cant": "Constraints are gathered on shared element classes while the example is walked and checked while the document is walked with a stack of iterators; that together they say the same as the example is about all pairs of trees.", "anchors": ["lib/bindery/model/examplotron.py: examplotron_model.setup_model", "lib/bindery/model/__init__.py: constraint.validate, child_element_constraint, content_model.validate, document_model.clone", "lib/bindery/nodes.py: container_mixin.xml_validate, element_base.__len__", "lib/xpath/util.py: named_node_test", "lib/lib/util.py: element_subtree_iter"]}
{"id": "C92", "title": "Metadata extraction gives the statements the cues in the example stand for", "statement": "The model of an element has the cues that its example carries, with their defaults. The metadata of a document are, in document order, the statements of the elements whose context and whose ancestors' contexts are met: an element's own relationship is about the nearest resource around it, or the document, and its value is what ak:value gives, or the element's identifier if it is a resource, or the element; its further relationships are about itself if it is a resource. metadata_dict gathers them: it has exactly the resources stated about, under each relationship the value or the list of values in order, and without nesting the same in increasing order of resources.", "quantifier": "every list of cues, every document of any depth, every evaluation of the expressions; every list of statements", "why_tests_cant": "Extraction is a recursive generator that carries the current resource, and the dictionary is built by sorting and grouping; which resource a statement belongs to and that no value is lost is about all trees and all lists.", "anchors": ["lib/bindery/model/examplotron.py: examplotron_model.setup_model", "lib/bindery/model/__init__.py: content_model.generate_metadata, generate_metadata, metadata_dict"]}
{"id": "C93", "title": "abspath gives an expression that selects the node, and only it", "statement": "For an element, attribute, text node, comment, processing instruction or root node in a document, abspath returns a text that is an XPath expression. Evaluated anywhere in the document, with the prefixes bound as in the document or by the hints, it yields the node-set that consists of this node alone.", "quantifier": "every document, every node in it, every dictionary of hints and every order of its items, every context node", "why_tests_cant": "The text is built from counts over siblings and read back by the lexer, the parser and the evaluator; that the round trip ends at the same node is about every tree and every node, not about a few paths.", "anchors": ["lib/xpath/util.py: abspath", "lib/xpath/parser", "lib/xpath/locationpaths", "lib/src/domlette/node.c: get_preceding_sibling"]}
{"id": "C94", "title": "xml_compare says that two documents are the same exactly when they are", "statement": "xml_compare of two XML documents returns True when they have the same items in the same order (elements with the same expanded names, declarations, attributes and content; texts, CDATA sections, comments, processing instructions and document types), whatever the order of the attributes and of the namespace declarations, and False otherwise; with whitespace=False, texts of white space do not count, and with lexical=False, comments and the like do not. check_xml accepts exactly the documents that are the same and raises an AssertionError otherwise.", "quantifier": "every two documents, every way in which the parser cuts the text into pieces, every order of attributes and declarations, every option", "why_tests_cant": "The comparison is between two reports of lines of text; that no two different documents have the same report, and that no two ways of reading one document have different reports, is about all documents and all pieces.", "anchors": ["lib/lib/treecompare.py: check_xml", "lib/lib/treecompare.py: xml_compare", "lib/lib/treecompare.py: xml_diff", "lib/lib/treecompare.py: _markup_sequence", "lib/lib/treecompare.py: _xml_sequence", "lib/lib/treecompare.py: _entity_sequence"]}
{"id": "C95", "title": "A document written as XHTML is read by XML readers as what was written, with tags that HTML browsers understand", "statement": "Whatever document is given to the XHTML printer, in whatever encoding, an XML reader finds in the output the declarations, names, attributes, texts, comments, processing instructions and the document type that the printer was given, where non-ASCII characters in the URIs of XHTML elements are escaped; it is written whenever its names, comments and the like can be encoded. XHTML elements without content have an end-tag, except those that never have content, which are written as <br />.", "quantifier": "every legal sequence of printer calls for a document, every encoding, every stream", "why_tests_cant": "That the output can be read back is about every document and every encoding; tests compare the output for some.", "anchors": ["lib/writers/_xhtmlprinters.py: xhtmlprinter", "lib/writers/_xhtmlprinters.py: start_element", "lib/writers/_xhtmlprinters.py: end_element", "lib/writers/_xhtmlprinters.py: _translate_attributes", "lib/writers/htmlentities.py: ENTITIES_XHTML_10"]}
{"id": "C96", "title": "Copies of nodes are separate nodes that say the same, and copying leaves the original alone", "statement": "copy.deepcopy of a document, element, text, comment, processing instruction or namespace node returns a node without parent with the same names, namespaces, attributes, values and, in order, copies of the same descendants, all of them new nodes; copy.copy returns the same without children. The original and all other nodes have the parent, children, namespaces, attributes and values that they had before.", "quantifier": "every well-formed document and every node in it, of any depth and width", "why_tests_cant": "Tests copy small trees and compare; that nothing is shared and nothing lost is about every tree.", "anchors": ["lib/src/domlette/node.c: node_copy", "lib/src/domlette/node.c: node_deepcopy", "lib/src/domlette/element.c: element_getstate", "lib/src/domlette/element.c: element_setstate", "lib/src/domlette/entity.c: entity_getstate", "lib/src/domlette/entity.c: entity_setstate", "lib/src/domlette/attr.c: attr_getstate", "lib/src/domlette/attr.c: attr_setstate"]}
{"id": "C97", "title": "Templates are filled in once, at the places that they mark, and mistakes are reported where they are", "statement": "Template(t).substitute(mapping, **kw) returns t with each $name and ${name} replaced by the text of the keyword, or else of the entry of the mapping, of that name, $$ by a dollar sign, and everything else, including dollar signs in the values, as it is. The first name without value raises KeyError, the first other dollar sign ValueError with its line and column. safe_substitute leaves both as they are instead. Every string can be read as a template in essentially one way.", "quantifier": "every string as template, all mappings and keywords", "why_tests_cant": "Tests fill in a few templates; what is kept and what is replaced, and where mistakes are, is about every string and every mapping.", "anchors": ["lib/lib/util.py: Template", "lib/lib/util.py: substitute", "lib/lib/util.py: safe_substitute", "lib/lib/util.py: _invalid", "lib/lib/util.py: _multimap"]}
{"id": "C98", "title": "unwrap puts the children of an element in its place, and moves nothing else", "statement": "unwrap(e) for an element with a parent returns the parent; its children are those before e, the children of e in order, and those after e. e has no parent and no children afterwards; all other nodes have the parents and children that they had; the tree is well formed. For an element without parent, and for nodes that cannot have children, an exception is raised and nothing happens.", "quantifier": "every well-formed forest of nodes and every element in it, with any number of children and siblings", "why_tests_cant": "Tests unwrap one element of one document; positions and order are about every number of children and siblings.", "anchors": ["lib/lib/util.py: unwrap", "lib/src/domlette/container.c: xml_index", "lib/src/domlette/container.c: xml_insert", "lib/src/domlette/container.c: xml_remove"]}
{"id": "C99", "title": "trim_word_count gives the beginning of a document with the first n words", "statement": "trim_word_count(node, n) returns the beginning of the tree at the node: the same elements with the same attributes, and a part of their children from the first, of which only the last may itself have been cut; its words, as they are in its string-value, are the first n words of the node, or all of them if there are not more.", "quantifier": "every document or element and every number n", "why_tests_cant": "Tests cut one document at ten places; that no word is lost, divided or added is about every document.", "anchors": ["lib/lib/util.py: trim_word_count"]}
{"id": "C100", "title": "legalize replaces exactly the characters that XML does not allow", "statement": "legalize(s, repl) returns s with each character that is not a Char of XML 1.0 replaced by repl, and every other character as it is, whether Python stores characters beyond the first plane as one or as two elements. Legal strings are returned unchanged, and the result is legal if repl is.", "quantifier": "every string of Unicode characters, every replacement without backslashes, narrow and wide builds of Python", "why_tests_cant": "Tests try a few characters; which of them are replaced, and that none beside them are, is about every string.", "anchors": ["lib/lib/xmlstring.py: legalize", "lib/lib/xmlstring.py: RE_XML_ILLEGAL_PAT"]}
{"id": "C101", "title": "The URI syntax checks accept exactly the strings of the RFC 3986 grammar", "statement": "matches_uri_syntax(s) is true exactly when s is a URI, and matches_uri_ref_syntax(s) exactly when s is a URI reference, by the grammar of RFC 3986; in particular nothing with a space, a newline, a stray '%' or another character outside the grammar is accepted.", "quantifier": "all strings", "why_tests_cant": "The check is one pattern of several thousand characters put together from twenty-odd parts; a wrong character class or a misplaced quantifier shows only on strings that a test has to think of.", "anchors": ["lib/lib/iri.py: matches_uri_syntax", "lib/lib/iri.py: matches_uri_ref_syntax", "lib/lib/iri.py: _init_uri_validation_regex"]}
{"id": "C102", "title": "Windows paths survive the way to a file URI and back", "statement": "For a Windows path with a drive (C:\\\\a\\\\b), from the root (\\\\a\\\\b) or on another computer (\\\\\\\\host\\\\share\\\\a), os_path_to_uri(path, osname='nt') gives the file URI with the same names percent-encoded, and uri_to_os_path(uri, osname='nt') gives the path back, the drive letter in upper case; URIs with another scheme are refused.", "quantifier": "all byte strings as names without separators, any number of names, with or without a backslash at the end; all drive letters, hosts and shares", "why_tests_cant": "The way back guesses hosts and drives from the decoded URI, so any name with a percent sign, a colon or an encoded separator could be taken for something else.", "anchors": ["lib/lib/iri.py: os_path_to_uri", "lib/lib/iri.py: uri_to_os_path", "lib/lib/iri.py: _splitNtPath", "lib/lib/iri.py: _get_drive_letter"]}
{"id": "C103", "title": "Joining URI references follows RFC 3986, with or without a scheme in the base", "statement": "basejoin(base, ref) is the RFC 3986 resolution of ref against base; when the base has no scheme the result has none either unless ref has one, and a ref with a scheme is the result itself. join(base, n1, ..., nk) is the base without its trailing slashes followed by the names with a slash before each.", "quantifier": "all hierarchical bases and all references without newlines; all lists of plain names, any number of trailing slashes", "why_tests_cant": "A base without scheme gets a dummy scheme which is cut off the result again by its length, and join feeds each result into the next call, so whether this is right depends on every base, reference and number of parts.", "anchors": ["lib/lib/iri.py: basejoin", "lib/lib/iri.py: join"]}
{"id": "C104", "title": "The EXSLT regular expression functions find all matches from the left", "statement": "regexp:match with the flag g returns the text of all non-overlapping matches from the left, without g the first match and its captured parts; regexp:test is true if and only if there is a match; regexp:replace replaces all matches with g, the first without, and nothing else. regexp:match returns for every pattern.", "quantifier": "all source strings, all patterns (given by what they match at each position), all flags, all plain replacements", "why_tests_cant": "The loop for g goes on from the end of each match, so whether it ends and finds everything depends on the lengths of all matches of an arbitrary pattern in an arbitrary source.", "anchors": ["lib/xslt/exslt/regular_expressions.py: match_function", "lib/xslt/exslt/regular_expressions.py: replace_function", "lib/xslt/exslt/regular_expressions.py: test_function"]}
{"id": "C105", "title": "make_urllib_safe only drops the fragment and rewrites host and drive", "statement": "make_urllib_safe(uri) is the URI without its fragment; a registered name as host is percent-decoded and converted to IDNA with user information and port kept, on Windows the first colon in the path of a file URI becomes a bar, and nothing else changes.", "quantifier": "all URI references without newlines, all authorities with at most one user part and one port, all IDNA conversions, Windows or not", "why_tests_cant": "The authority is taken apart at characters that may occur in any number and put together again, so what is kept depends on every combination of parts.", "anchors": ["lib/lib/iri.py: make_urllib_safe", "lib/lib/iri.py: REG_NAME_HOST_PATTERN"]}
{"id": "C106", "title": "Pseudo-attributes of a processing instruction are read back", "statement": "parse_pi_pseudo_attrs(pi) has for every pseudo-attribute in double quotes its value, the last one if a name is repeated, and no other keys; for any data, each value returned is written in the data in quotes after its name and an equals sign.", "quantifier": "all lists of pseudo-attributes with names of word characters, any white space, any values without double quotes; for the second part all strings", "why_tests_cant": "A pattern is searched in text that may contain anything, including equals signs, names and white space inside values, so what it finds depends on the whole text before each place.", "anchors": ["lib/lib/util.py: parse_pi_pseudo_attrs"]}
{"id": "C107", "title": "Parameters are converted by type and found under their expanded names", "statement": "paramvalue(obj) is the XPath value that obj stands for, where a list is used only if all its items are strings (as many text nodes in the same order) or all are nodes, and None otherwise; in parameterize(d, ns) each expanded name has the value of the last convertible entry with that name, and nothing else is in it.", "quantifier": "all Python objects by type, lists of any length and mixture, all dictionaries, all default namespaces, all decodings", "why_tests_cant": "Which branch a list takes depends on all of its items, and entries under different keys may fall on the same expanded name.", "anchors": ["lib/xpath/util.py: paramvalue", "lib/xpath/util.py: parameterize"]}
