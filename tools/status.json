{
 "C01": [
  "proved",
  "All strings; the regex treats newlines in fragments specially (C01_newline_refuted), so the lossless claim is for newline-free strings and C01_split_unsplit_all states exactly what happens otherwise."
 ],
 "C02": [
  "proved",
  "WellFormed is the RFC 3986 appendix B disambiguation; also uniqueness of the parse."
 ],
 "C03": [
  "partial",
  "Proved for hierarchical bases; refuted for '?' references, absolute references with dot segments and rootless base paths (C03_refuted_*)."
 ],
 "C04": [
  "proved",
  "All absolute paths; relative paths are shown to differ (C04_relative_refuted)."
 ],
 "C07": [
  "proved",
  ""
 ],
 "C10": [
  "proved",
  ""
 ],
 "C05": [
  "proved",
  "Decoding an encoded string returns it, for every byte string and option set used by the API defaults; the spaceToPlus-without-encodeReserved option and int()'s leniency are refuted separately."
 ],
 "C08": [
  "proved",
  "POSIX branch only (os.name == 'posix')."
 ],
 "C09": [
  "proved",
  "For public identifiers over the public-id alphabet; whitespace is normalised exactly as XML requires."
 ],
 "C11": [
  "partial",
  "The code lets U+0080 through, raises on U+E000..U+FFFF and re-pairs broken surrogates; those are refuted by concrete witnesses, the rest is proved."
 ],
 "C12": [
  "partial",
  "Path and case idempotence proved; percent normalisation is not idempotent on malformed percent signs (refuted), proved on well-formed input."
 ],
 "C06": [
  "partial",
  "Proved for normalised paths neither of which contains the other; the code returns wrong references in six other situations (C06_refuted)."
 ],
 "C36": [
  "partial",
  "Every content model without empty sequences, every event sequence, no bound; termination for every content model. An empty sequence accepts nothing, and the builders opt/rep1/rep overwrite an earlier quantity (C36_refuted)."
 ],
 "C46": [
  "proved",
  "Attribute validation is outside the statement. With white space stripping (stylesheets) the claim fails for ANY, and contexts recycled for undeclared elements produce extra errors (C46_refuted)."
 ],
 "C22": [
  "proved",
  "All strings and maps."
 ],
 "C23": [
  "partial",
  "Proved except for two families of arguments, each refuted by a witness (C23_refuted)."
 ],
 "C24": [
  "partial",
  "substring-after with an empty second argument is wrong (C24_refuted); everything else proved."
 ],
 "C25": [
  "partial",
  "Proved for strings whose only white space is XML white space; other Unicode spaces are removed (C25_refuted)."
 ],
 "C29": [
  "partial",
  "Grammar, NaN, integers and fixed notation proved; digitless strings raise, computed NaN/Infinity are misprinted, only 12 digits are kept and exponents appear (C29_refuted, C29_digits_refuted)."
 ],
 "C30": [
  "partial",
  "floor and ceiling in full; round proved for fractional parts up to 1/2, mod where the remainder has the sign of the divisor; both refuted elsewhere (C30_refuted)."
 ],
 "C47": [
  "partial",
  "All operators, all operands, any rounding; division by negative zero has the wrong sign (C47_refuted)."
 ],
 "C20": [
  "partial",
  "Comparisons of a node-set with a scalar, and = / != of two node-sets, are proved for all node-sets whose string-values convert; for < <= > >= of two node-sets the code only compares nodes with the same index (refuted), soundness and the at-most-one-node case are proved."
 ],
 "C21": [
  "partial",
  "Proved for all scalars whose strings have a digit or do not look like a number; the digitless strings that raise ValueError are the refutation."
 ],
 "C13": [
  "partial",
  "Every sequence of legal edits keeps the forest well formed; legality excludes the uses of append/insert/replace for which the code leaves an unwritten slot, makes a cycle or admits a wrong kind (C13_refuted)."
 ],
 "C14": [
  "partial",
  "Exact effect of append, insert, remove, replace on the edited container, the node and everything else, for the uses where the code is right; C14_refuted shows the others."
 ],
 "C15": [
  "proved",
  "Element, text, comment, PI and root nodes: all six operators are document order, a strict total order per tree; nodes of different trees keep a consistent order. Attributes: before the children of their element (C15_attributes_partial); two attributes of one element compare equal (C15_refuted)."
 ],
 "C19": [
  "partial",
  "All axes from tree nodes: exact members, order, partition, termination. From attribute nodes following/preceding/preceding-sibling raise (C19_refuted)."
 ],
 "C18": [
  "proved",
  "String-values of all node kinds; xml_normalize: exact effect, no adjacent text, string-values of all containers unchanged. The docstring of xml_normalize promises more (C18_documentation_refuted)."
 ],
 "C16": [
  "proved",
  "All histories of insertions and replacements, all hash functions, word sizes and table sizes. Deletion (not part of the statement) loses colliding keys: C16_delete_refuted."
 ],
 "C17": [
  "partial",
  "Prefix to namespace lookup is proved in full (C17_lookup). Namespace to prefix lookup and in-scope namespaces are wrong in the cases of C17_prefix_refuted and C17_inscope_refuted, and proved otherwise."
 ],
 "C48": [
  "partial",
  "False for namespace nodes (C48_refuted); proved for all other nodes."
 ],
 "C49": [
  "partial",
  "Proved for all forests in which attributes and namespace nodes are in the maps of their parents; false after xml_namespaces has been read (C49_refuted)."
 ],
 "C50": [
  "partial",
  "False for elements without a parent (C50_refuted); proved for every other tree."
 ],
 "C26": [
  "partial",
  "Predicates keep exactly the nodes XPath says, for all predicates in Good/PredOk; position() >= k, last() outside position() = e, string literals and position() = non-number are refuted. Values are unconditional on termination by C53."
 ],
 "C27": [
  "partial",
  "Exact members, once, in document order for all paths and unions in Good; members and weak order for all paths; refuted for paths that reach a node twice, last() in inner steps, unions of filter expressions."
 ],
 "C28": [
  "partial",
  "For all node-set expressions whose nodes come in order; refuted for preceding-sibling after descendant."
 ],
 "C51": [
  "partial",
  "For all expressions in Good; refuted for numeric literals."
 ],
 "C52": [
  "proved",
  "For every expression, document, context and method, whenever evaluation returns."
 ],
 "C53": [
  "proved",
  "For every expression, well-formed heap, context and method."
 ],
 "C31": [
  "partial",
  "Any character-by-character codec that agrees with ASCII or is wide and complete (ASCII, Latin-1, UTF-8, UTF-16 shown to qualify), both printers. Refuted for non-BMP characters in narrow builds and for EBCDIC."
 ],
 "C32": [
  "partial",
  "As C31: every attribute and the whole start-tag. Refuted only where C31 is (narrow builds, EBCDIC)."
 ],
 "C33": [
  "partial",
  "Plain printer: C33_sections holds for every string. The canonical printer raises NameError for every string (refuted); CR in the data is changed by readers (refuted)."
 ],
 "C34": [
  "partial",
  "Trees, content and documents, plain and canonical printer. False for comments with -- and for some processing instructions, which the printer does not refuse."
 ],
 "C35": [
  "partial",
  "Proved for big-endian machines; refuted for little-endian machines and for the alias utf16."
 ],
 "C54": [
  "partial",
  "Every tree whose prefixes are declared by namespace nodes; false for two kinds of trees made through the API without declarations (see the refutations)."
 ],
 "C37": [
  "partial",
  "Labels are distinct, but the letters are in reverse order (refuted); proved: the reversed label is the right one, and labels that are palindromes are right."
 ],
 "C38": [
  "partial",
  "Decimal numbering is proved for all tokens 0..01; roman numerals are right only for 2-9 (numbers from 1000000 on are written in decimal); 1 and 10-999999 are refuted, as are grouping and tokens of other scripts."
 ],
 "C55": [
  "partial",
  "Proved for every format string and every non-empty list of numbers; refuted for the empty list (only the suffix is written)."
 ],
 "C39": [
  "partial",
  "difference, intersection, has-same-node and distinct are proved; leading and trailing always raise NameError, and distinct reverses a variable in place (refuted)."
 ],
 "C40": [
  "partial",
  "max and min are proved for all node-sets; highest and lowest for non-empty node-sets without NaN; refuted otherwise."
 ],
 "C41": [
  "proved",
  "For every separator and every buffer size but 0; a buffer size of 0 is shown to read nothing."
 ],
 "C42": [
  "proved",
  "For offsets of whole minutes below 100 hours; seconds are shown to be dropped."
 ],
 "C43": [
  "partial",
  "Each element once is proved; the order and the meaning of include_root are refuted."
 ],
 "C44": [
  "proved",
  "For names that do not begin with a colon and non-empty prefixes, as stated; the case of a leading colon is refuted."
 ],
 "C56": [
  "partial",
  "Proved for offsets not east of Greenwich and years from 1900; the rest is refuted."
 ],
 "C57": [
  "partial",
  "Proved for the character tables, names, NCNames, QNames and lists of names without U+0000; refuted for name tokens and for strings with U+0000."
 ],
 "C45": [
  "partial",
  "Proved for unions of paths pushtree can compile, for every document in which no name satisfies two different tests of the pattern and no unprefixed name of the pattern occurs with a namespace, and for /a/b/... without the former condition; whatever the iteration order of sets. Refuted otherwise: namespaces ignored, */b, //a//b, AssertionError and ValueError for some paths."
 ],
 "C58": [
  "partial",
  "Sound for all patterns with the supported node tests; exact when no `/` stands left of a `//`; always ends. Refuted for backtracking, node(), processing-instruction(), predicates on attributes and id()//."
 ],
 "C59": [
  "partial",
  "Proved for stylesheets whose patterns are handled rightly for the node (C58) and have no // at the start without priority: the rule is one with the highest import precedence and priority, the first such; refuted: the last one in the stylesheet (conflict), default priority of //x, processing instructions, node() at the root. apply-imports: rules of lower import precedence."
 ],
 "C60": [
  "partial",
  "order, focus and termination proved for every document and every list of keys without case-order; case-order and current() are refuted"
 ],
 "C61": [
  "partial",
  "result proved for every document and every stylesheet within SourceOk, with tail calls turned into loops; focus, nesting and independence of fuel unconditionally; termination under a rank condition; refuted: sort with variables, dynamic scope, tail calls of overridden templates, current(), copies of comments, dashes in comments, PI data"
 ],
 "C62": [
  "partial",
  "Proved: the numbering for all stylesheets in which no declaration comes before the inclusion of a stylesheet with imports; order, errors, termination, variables and output parameters in general. Refuted: inclusion of stylesheets with imports after declarations, apply-imports, repeated aliases, attribute sets with the same name, circular attribute sets."
 ],
 "C63": [
  "partial",
  "Proved: the reader for all rules and documents, stylesheets, the choice of rules when no less specific test has a higher import precedence (in particular without imports). Refuted: rules with different import precedence; the processor does not use the rules."
 ],
 "C64": [
  "partial",
  "Proved for all sequences of tokens: termination, soundness, unambiguity, error positions, no false syntax errors; completeness below 500 tokens. Refuted against the recommendation: repeated minus signs, literals in node tests, deep nesting."
 ],
 "C65": [
  "partial",
  "Proved for all texts: the lexer ends, loses nothing, gives every text with tokens exactly these tokens; a text of less than 500 tokens that is an expression is compiled. Refuted: texts without tokens that are compiled nevertheless."
 ],
 "C66": [
  "partial",
  "Proved for all texts of less than 500 tokens (fewer than the unchecked stack allows): an expression is compiled and has the value of the recommendation in every context; nothing else is compiled, apart from literals in node types; calls are accepted exactly by the number of arguments; no action routine is stuck. Refuted: some texts that are no expressions raise exceptions that are not errors of XPath."
 ],
 "C67": [
  "partial",
  "Proved for every program whose classes have vocabularies without clashes of Python names: every child and attribute is read by its name; for all programs: what is read is the first child or the attribute of that name, sequences of namesakes, the effects of assignments, deletions and xml_fixup, and that names are allowed identifiers. Refuted: clashes make children and attributes unreadable, depending on what was parsed before; prefixed elements have length 0; del e[name] and e[name] = text."
 ],
 "C68": [
  "partial",
  "Proved for all documents and patterns: multiple; any where from does not match the current node; single with count that does not match the root node, and for elements without patterns; for tree nodes, and with default count not at processing instructions. Refuted: TypeError for no match, default count with from, current nodes that are texts or attributes, targets."
 ],
 "C69": [
  "partial",
  "Proved for all documents, for patterns and expressions that C58, C59 and C26 handle: the nodes returned are exactly those with the key; order; once for arguments that are no node-sets; the call ends. Refuted: repeated nodes for node-set arguments, match=node()."
 ],
 "C70": [
  "partial",
  "Proved for every quote-free pattern of the grammar with at most 28 fraction digits and 309 required integer digits, all finite numbers that do not get one more digit by rounding: the text is the formatted number off by less than 0.55 of the last place (closest unless the next digit is 5); integers exactly; NaN and infinities; the pattern is kept. Refuted: carries, ties, needless zeros, signs with affixes, quotes, patterns outside the grammar."
 ],
 "C71": [
  "partial",
  "Proved for every document and target list for elements, text and comments; the code breaks it for attributes in content, attribute and processing-instruction renames, processing-instruction updates, the child position, the root as a target, and xupdate:if (refutations)."
 ],
 "C72": [
  "partial",
  "Proved for all texts (acceptance for texts without NUL whose expressions have less than 499 tokens); the part on errors is broken by the code: exceptions of expression constructors are not turned into INVALID_AVT (refutation)."
 ],
 "C73": [
  "partial",
  "Proved: what is accepted is a pattern and is made into what it should be, and exactly which patterns are accepted. Broken by the code: axes by name, id(), key() and processing-instruction('x') before the first predicate are refused (refutations)."
 ],
 "C74": [
  "partial",
  "Proved for all structures in which no prefix is declared twice for an element, NS objects come first, the first object of a content is true (or nothing is lost), the namespaces of attributes are those of their prefixes, and RAW nodes are not in the scope of a default namespace; the code is wrong for the others (C74_refuted_*)."
 ],
 "C75": [
  "partial",
  "Proved for new stylesheet objects if no definition is given up inside of for-each, apply-templates or an element with local variables, and for used ones with select attributes if no parameter is missing that was passed before; the code is wrong otherwise (C75_refuted_*)."
 ],
 "C76": [
  "partial",
  "All of align (but for an empty string at the right), concat, padding, split, tokenize and replace; encode-uri and decode-uri do not work in the code."
 ],
 "C77": [
  "partial",
  "Everything for a stylesheet that is used once or that has a method; a stylesheet without a method that is used again keeps the method of its first use (C77_method_shared, C77_refuted_again)."
 ],
 "C78": [
  "partial",
  "All documents with an XML declaration whose calls do not fail; without `namespace` no call fails (C78_written). `namespace` fails or spoils the document in the cases of the refutations; the canonical form, indentation and an omitted XML declaration are not covered."
 ],
 "C79": [
  "proved",
  "Up to 2^28 requests, so that C ints do not overflow (C79_ints); an empty string is shared among requests with the same character behind it in memory, as all strings that end with NUL have."
 ],
 "C80": [
  "partial",
  "False of the code for script and style text with `<`, `>`, `&`, CR or non-ASCII characters, for U+02DC except in HTML 3.2, and for `compact` on `li`; proved for everything else. Elements in a namespace and unescaped text are not covered."
 ],
 "C81": [
  "proved",
  ""
 ],
 "C82": [
  "partial",
  "Proved for all sessions of edits and parses whose edits are those of C13, C14, with callbacks that leave a new element empty and do not move open ones; refuted for failed parses, children added in start-tag callbacks, moves of open elements, factories for comments and processing instructions, and insertion into the same parent."
 ],
 "C83": [
  "partial",
  "Proved for all documents, cuttings, white space rules and histories, apart from the place of CDATA borders, xml:space across entities, added xml:base/xml:lang attributes on elements of external entities; generators for handlers that yield at one kind of event, once between two looks of Expat at its status, outside external entities; reuse after parses that do not break off in character data. The other cases are refuted."
 ],
 "C84": [
  "partial",
  "Full correctness of code for all expressions without calls of more than 255 arguments or constants that are equal as dictionary keys but different; exact condition for being compiled; code exists for up to 546 parts. The rest is refuted: exponential time, 0 and -0, large calls, functions in unions, context after an exception."
 ],
 "C85": [
  "partial",
  "Exact acceptance and tree for every document without a nested xsl:stylesheet, after every history. Independence of the history is proved for stylesheets without unknown XSLT elements (or histories without), and refuted otherwise; differences from XSLT in the values and in forwards-compatible mode are refuted by examples."
 ],
 "C86": [
  "partial",
  "The namespaces are proved if no excluded namespace is declared again, no prefix of a namespace is bound to XSLT again, and aliases are not chained or of the same prefix; attribute sets if each name is defined once, and for literal elements if the names are disjoint. Each restriction is needed: refuted otherwise."
 ],
 "C87": [
  "partial",
  "What is opened is proved for every reference and base; the supported schemes and the jail only for the references of the hypotheses, and for input sources only the first access: each refuted otherwise."
 ],
 "C88": [
  "partial",
  "Proved for URIs with a scheme and without line ends whose triplets are well-formed and of one case each; refuted for the others and for the inherited methods."
 ],
 "C89": [
  "partial",
  "Proved for all documents without a namespace attribute on xupdate:element and xupdate:attribute and with QNames as variable names; refuted for these."
 ],
 "C90": [
  "partial",
  "Proved where every xupdate:text has one run of text; refuted for the others, for value-of of attributes in strings and for the namespaces of child."
 ],
 "C91": [
  "partial",
  "Proved for examples without optional elements and documents whose elements are in no or default namespaces; refuted for optional elements, prefixes, and for the example itself when elements of one name differ."
 ],
 "C92": [
  "partial",
  "The statements are proved in full; the cues for elements that occur once in the example, the dictionary where the first value of a relationship is not a list; refuted for the others."
 ],
 "C93": [
  "partial",
  "Proved for nodes at up to 99 levels (27 with the long form for default namespaces): the node is always selected, and alone if no element on the path is the first of several of its name. Refuted otherwise, and for namespace names with a quotation mark."
 ],
 "C94": [
  "partial",
  "Equal documents are always said to be equal, however the parser cuts the text; documents that are said to be equal are equal if no namespace name imitates the notation of the report and no prefix is None. Refuted for those names, for whitespace=False on documents, for lexical=False and for entities that the parser does not know."
 ],
 "C95": [
  "partial",
  "Reading back is proved for all documents without empty elements such as br, < in attributes, and characters with names outside of URIs; refuted for each of these. The form of the tags is proved for every element."
 ],
 "C96": [
  "partial",
  "Deep copies are proved for every node that is not an attribute on its own, in every well-formed document whose prefixed names have namespaces; shallow copies are proved to say the same and to leave children alone, and refuted for the sharing of attributes and namespaces."
 ],
 "C97": [
  "partial",
  "Proved for every template and all mappings to strings (safe_substitute: unicode strings); refuted for other values and, for safe_substitute, byte strings."
 ],
 "C98": [
  "proved",
  "Proved for every well-formed forest."
 ],
 "C99": [
  "partial",
  "Proved for every tree in which no word goes across the border of a node and comments have no words; refuted for others. That the result is the beginning of the tree is proved for all trees."
 ],
 "C100": [
  "partial",
  "Proved for every string of characters in both kinds of builds; refuted for strings with halves of surrogate pairs on their own."
 ],
 "C101": [
  "partial",
  "Exact without brackets and with at most one '@'; all RFC URIs with unproblematic addresses are accepted; the alphabet of what is accepted holds without restriction. The code violates the full statement (three refutations); the addresses with three or more groups before the '::' are not characterised."
 ],
 "C102": [
  "partial",
  "Proved for paths with a drive, from the root, on another computer and relative ones whose first name does not look like a drive; refuted for drive-relative paths, drive with host, and the host localhost."
 ],
 "C103": [
  "partial",
  "basejoin proved for hierarchical bases under the conditions of C03, join for bases without query and plain names; refuted for non-hierarchical bases, an empty authority and a base with a query."
 ],
 "C104": [
  "partial",
  "Everything proved except that regexp:match returns for every pattern, which is refuted for patterns with empty matches."
 ],
 "C105": [
  "partial",
  "Proved for authorities whose host has no colon; refuted for IPv6 addresses."
 ],
 "C106": [
  "partial",
  "Proved for values in double quotes and names of word characters; refuted for single quotes and names with hyphens."
 ],
 "C107": [
  "partial",
  "The conversion is fully proved; the documented None for dictionaries that cannot be converted completely is refuted."
 ]
}