# A Lean 4 model of zepheira/amara

## How the model is built

The Python and C sources in /repo are transcribed, function by function, into
total computable Lean functions (`lean/Verif/<Area>/Model.lean`).  Python
exceptions are values (`Option`, `Except`, or a result type with a `raised`
constructor).  Every definition cites the file and lines it models and every
simplification is stated in its comment.

For each area there are up to four modules:

* `Model.lean`  the transcription of the code;
* `Spec.lean`   a small independent specification (RFC, XPath/XML rule,
  mathematical definition), which does not use the model's helpers;
* `Lemmas.lean` auxiliary lemmas;
* `Props.lean`  the property theorems only, each followed by `example`s that
  instantiate its hypotheses on a concrete non-trivial case.

Theorem naming: `C07_...` belongs to property C07.  A theorem with suffix
`_partial` proves the property on a restricted domain; the comment says what is
missing.  `..._refuted` theorems exhibit a concrete input on which the code does
not do what the property says: those are disagreements between the code and the
property, found while proving, and are listed in the section *Disagreements*.

## Plan per property

| Id | What is modelled | How it is proved |
|----|------------------|------------------|
| C01, C02 | `split_uri_ref` as a greedy matcher over `List Char` (the regex is deterministic: each group ends at the first delimiter), `unsplit_uri_ref` | round trip by case analysis on `span`; uniqueness of a declarative "is a split of" relation |
| C03 | `absolutize`, against RFC 3986 5.2.2 written on component tuples | case analysis on the branches plus C01, C02, C04 |
| C04 | `remove_dot_segments`, against the RFC 5.2.4 rewriting loop | simulation between the segment stack and the RFC output buffer, induction on the segments |
| C05 | `percent_encode`, `percent_decode` on bytes | induction on the string |
| C06 | `relativize` | calculation with segment lists; refutation witnesses where it is false |
| C07, C10 | `split_fragment`, `get_scheme`, `is_absolute` | induction on the string |
| C08, C09 | `os_path_to_uri`/`uri_to_os_path` (posix), `public_id_to_urn`/`urn_to_public_id` | from C01, C04, C05 |
| C11, C12 | `iri_to_uri`, normalisation functions | induction on the string |
| C13, C14 | heap of nodes with parent pointers and child lists, the four edit operations | invariant preservation for each operation, induction over operation sequences; witnesses for aliasing bugs |
| C15 | `node_richcompare` | comparison of ancestor index paths, induction on depth |
| C16 | open-addressing table with arbitrary hash function | refinement to a finite map, pigeonhole for probing |
| C17 | prefix lookup over ancestor chains | induction on the chain |
| C18 | string-value, `xml_normalize` | tree induction |
| C19 | the axis iterators | tree induction using zippers/paths |
| C20, C21 | the comparison functions | case analysis, list induction |
| C22-C25 | XPath string functions | list induction |
| C26, C27, C28, C51 | the lazy evaluator: iterators, predicates as suspended generators, the mutable context, the five evaluation methods | a declarative semantics (`Eval/Spec.lean`); soundness by induction on the nesting of calls, each iterator having a list it denotes; witnesses where it fails |
| C52 | same | induction on the nesting of calls |
| C53 | same | fuel monotonicity; iterators are total (accessibility), then induction on the expression |
| C29, C30 | number parsing/formatting; rational model of round/floor/ceiling/mod | induction on digits; rational arithmetic |
| C31-C34 | the output stream, the plain and the canonical XML printer; a reader for XML 1.0 written from the Recommendation (Write/XmlSpec); decoders (Write/Decode) | the reader inverts the writer, by induction on the sequence of printer calls |
| C54 | the walk of `xml_write` over a tree (Write/Visit); namespaces in XML 1.0 (Write/NsSpec) and what a tree means (Write/TreeSpec) | invariant: the walk's dictionary agrees with the reader's scope; induction on the tree |
| C35 | as C34, UTF-16 | from C34; refuted on little-endian machines |
| C36 | regex to NFA to DFA compiler | fragment-compilation correctness by induction on the expression, subset construction by induction on the word |
| C37, C38 | numbering | arithmetic induction |
| C55 | format strings of xsl:number | the regular expression's matches by induction on the string; loop invariant of `formatmany` |
| C39, C40 | EXSLT functions | list induction |
| C41 | `readbysep` | induction on the chunks |
| C42 | time-zone rendering/parsing | digit arithmetic for all offsets |
| C43 | `element_subtree_iter` | tree induction / witness |
| C44 | QName functions | list induction |
| C56 | `parse` and `tostring` of iso8601.py with a matcher for its regular expressions; the W3C note on dates as grammar and calendar (Util/Iso8601Spec) | the matcher finds the note's reading; day numbers by arithmetic |
| C57 | the byte tables of charset.h (Names/Charset, generated from the file), the name checks; Appendix B of XML 1.0 (Names/Spec) | tables as bit vectors, compared with the ranges page by page in the kernel; list induction for the grammar |
| C45 | pushtree: pattern to NFA, NFA to DFA with decision trees, DFA to tables, the stack machine; selection by XPath 1.0 over the tree (Push/Spec) | words on the way from the document to a node; subset construction; stack invariant |
| C46 | DTD declarations, validator contexts, the calls made by the parser's start/text/end handlers | induction on the document tree, using C36 for each content model |
| C48 | in-scope namespaces as a function on the heap | loop invariant |
| C49, C50 | `xml_nodeid`, `xml_base` on the heap | induction on the depth; unique parsing of ids |
| C58 | patterns, their compilation to reversed steps, `pattern.match` and the tests it calls (Template/Pattern); section 5.2 of XSLT 1.0 on top of the meaning of XPath expressions (Template/PatternSpec) | a chain of ancestors for the compiled steps, by induction on the pattern; the evaluator theorems of C50 for predicates; termination from that of expressions |
| C59 | the match table of a stylesheet (`setup`), its expansion by kind and name, lookup and search (Template/Select); section 5.5 of XSLT 1.0 (Template/SelectSpec) | every rule has an entry in each list where it may match; sorted lists make the first match the chosen one; C58 for the matches |
| C60 | evaluation of the keys, one stable sort for each key from the last to the first (Xslt/Sort); the order of XSLT 1.0, section 10 (Xslt/SortSpec) | stable sorting by a consistent comparison refines the order before; induction on the keys; C26 for the values of the keys |
| C61 | an interpreter for the instructions with the mutable state of the code (context, variables, template, mode, pending tail call), and the marking of tail calls (Xslt/Inst); XSLT 1.0, sections 5 to 11, as inductive relations with lexical scope (Xslt/InstSpec) | induction on the fuel with the evaluator theorems for expressions, C59 for the rules and C60 for sorting; marked templates against the unmarked ones; monotonicity in the fuel; termination by induction on rank of the node, precedence of the current rule, level of the template |
| C62 | reading a stylesheet with the counter for the precedences and the set of URIs being read, the treatment of variables, output parameters, aliases and attribute sets (Xslt/Import); the import tree after inclusion and its post-order as lists of declarations, cycles of the relation `imports or includes` (Xslt/ImportSpec) | induction on the fuel to the unfolded tree, mutual induction on that tree; the set of visited URIs as measure for termination; the size of the unfolded tree against cycles |
| C63 | the dictionary of rules and its sorting, the matching in the reader, its stacks and its buffer over the events of Expat (Xslt/Space); section 3.4 of XSLT 1.0 on document trees (Xslt/SpaceSpec) | the order of the tuples is linear, so the first matching rule is the most specific one; induction on the tree with the tops of the stacks against the list of ancestors |
| C64 | the driver of the generated parsers with its stacks (Parse/Tables), the tables of the XPath parser as they are in the C file (Parse/XPathTables), the grammar of the recommendation as an inductive relation (Parse/XPathSpec) | a certificate (item sets, weights, lookbehind) checked by the kernel gives completeness, soundness and termination of any such parser (Parse/Complete, SoundLR, Exact); the grammar in the tables and the recommendation are compared rule by rule (XPathLang, XPathDialect) |
| C65 | the interpreter for lexer patterns, the loop over the patterns and the actions (Parse/Lex), the arrays and character tables of the C file (Parse/XPathLexTables), with the patterns decoded and shown to encode to these arrays (Parse/XPathLex); section 3.7 as an inductive relation (Parse/LexSpec) | closed forms of every pattern (LexPatterns), the pattern chosen for each kind of token (LexFirst, LexTokens, LexNames), a simulation of the recommendation by the lexer states (LexSim), progress of every pattern (LexTotal) |
| C66 | the action routines and the constructors they call, as a function from derivation trees to expression objects (Parse/Ast), what a name, variable or function stands for in a context (Parse/AstResolve); the expression a text stands for, production by production of the recommendation, with the abbreviations written out (Parse/AstSpec) | every text that stands for an expression has a derivation tree from which the code builds a like expression, with adjacent steps of `//` joined (AstBuild), like expressions have the same values (AstMeans), the action routines never find values of the wrong kind (AstTotal), what is built stands for its text (AstSays) |
| C67 | the forest of C13, with names, attributes, classes, class dictionaries and caches (Bind/Model); the programs that use documents, with the vocabulary of each class (Bind/Spec) | an invariant of all programs: every child and attribute has something of its Python name in the class dictionary, and what is there is named after something in the vocabulary (Bind/Inv, Reach, Assign); the reads, assignments and deletions from it (Bind/Props) |
| C68 | the loops as a step machine over the forest of C13 with arbitrary patterns (Xslt/Count); searched nodes, places and document order (Xslt/CountSpec) | what each loop reaches, by induction on depth, on siblings and on document order: the backwards walk of `any` goes to the immediate predecessor (Xslt/CountLemmas); the three levels and the refutations from it (Xslt/CountProps) |
| C69 | the dispatch table (the model of C59 without sorting), the traversal with `use` evaluated by the model of C26, the table of values and `key()` (Template/Key); keys by the words of XSLT 12.2 (Template/KeySpec) | the nodes visited are all that can match, by induction on the traversal; entries looked up are those that cover the node (C59), so the pairs are the keys (Template/KeyLemmas); ends by depth; refutations (Template/KeyRefute) |
| C70 | the pattern parser with its in-place removal of quotes, `sprintf`, digit list, rounding, trimming, layout and affixes (Xslt/Decimal); pictures and decimal numbers by the words of XSLT 12.3 / JDK 1.1 (Xslt/DecimalSpec) | the parser reads every written picture back, by induction on its parts (Xslt/DecimalParse); digits of a number as a list, rounding with carry, trimming (Xslt/DecimalDigits); layout with grouping (Xslt/DecimalLayout); error below 0.55 units by arithmetic on rationals (Xslt/DecimalProps); refutations (Xslt/DecimalRefute) |
| C71 | Documents as heaps of nodes with names, values and attribute lists; the commands on them, with select and content as functions of the document; the tree writer and the loops that move the nodes of the fragment. | For every document and every list of distinct targets the children afterwards are given by list functions of the children before (`take ++ new ++ drop`, `flatMap`, `filter`, `map ν`) and the new nodes hold the content; all else is kept (C71_append, C71_insert_before, C71_insert_after, C71_remove, C71_update, C71_update_empty, C71_rename, C71_empty, C71_order, C71_content). By induction over targets with the invariant that addresses of new nodes are above all old ones and old nodes have old parents. Refuted for attributes in content, child positions, rename of attributes, processing instructions, the root, and xupdate:if. |
| C72 | The LALR tables and lexer programs of avt.c as data, run by the drivers of C64 and C65; action routines; `avt_expression` with Python's `%`. | The tables are certified for avt.c's grammar by the checkers of C64; the lexer is shown, in both directions and for all texts, to read an expression followed by a brace as the XPath lexer reads the expression (simulation on fuel-free steps, and locality of longest matches); derivations are taken apart into parts; values by induction over the parts. Specification: an inductive relation between texts and lists of characters and expressions (`Spec.Template`). C72_sound, C72_complete, C72_short, C72_total, C72_raises, C72_unambiguous, C72_attribute_sound, C72_attribute_complete, C72_attribute_invalid; C72_refuted_errors. |
| C73 | The LALR tables and lexer programs of parser.c as data, run by the drivers of C64 and C65; action routines. | The tables are certified for xpattern.bgen's grammar by the checkers of C64; parse trees of predicates are carried over to trees of the XPath grammar; the lexer is shown in both directions to give the XPath tokens renumbered, if and only if there are only plain tokens before the first bracket; that words of patterns are outside of brackets and names of axes and functions inside follows from the rules, by induction over trees. Specification: the grammar of XSLT 5.2 over tokens (`Spec.PatternSays`, `Spec.PatternText`) with what each pattern stands for. C73_total, C73_exact_partial, C73_sound, C73_complete_partial; C73_refuted_axes, C73_refuted_id, C73_refuted_literal, C73_refuted_errors, C73_refuted_slashes. |
| C74 | `feed` as a function from objects (an inductive type) and the dictionary of prefixes to calls of the printer; the printer of C34, and for RAW the visitor of C54. | Specification: `Spec.described`, the events with expanded names that an object stands for in the scope of the declarations around it; `Spec.LegalObj`, the structures for which the code is right. Induction over objects with the invariant that the dictionary has what the objects around declare and that the reader's scope agrees with it; C34_document_read_back for the text. C74_document_partial, C74_document_written, C74_object_partial; C74_refuted_false, _twice, _attribute, _late, _raw, _none, _again. |
| C75 | `prime` with its passes, deferred variables and the reordering of `_variables`; `instantiate` of variables with content of value-of, if, for-each, apply-templates and local variables on a context with the dictionary of globals, copies of it, the focus, the stack of writers and the writer methods; the compilation of expressions at their first evaluation, kept from run to run. | Specification: `Spec.HasValue`, the values of global variables as the least relation closed under evaluation (`Spec.value`, a denotational semantics of content), `Spec.Right`, what the outcome of `prime` has to be. Evaluation is monotone in the dictionary; an invariant for passes says that the dictionary only has right values and that what is compiled only refers to what is there; without progress nothing else has a value. For used stylesheets: what compiled expressions refer to comes before them in `_variables`, and a simulation of the run by one with a new stylesheet. C75_values_partial, C75_order_partial, C75_again_partial, C75_parameters, C75_circular; C75_refuted_again, _focus, _scope, _shared. |
| C76 | The functions with Python's slices, `int`, `str.split`, `re.split` of a class made of escaped characters, the insertion of rules by length, the recursive replacement over segments and the tree writer's merging of text. | Specification: relations that know nothing of the algorithm: `Spec.Aligned`, `Spec.Splits` (leftmost cuts), `Spec.Tokens`, and `Spec.Replaced`: the string is divided into characters that are kept and occurrences that are replaced, such that an occurrence of a search string is only kept if something that comes before it in the order of rules overlaps it or it begins behind one of its own kind; the division is unique (`divided_unique`). C76_align_partial, C76_padding, C76_split, C76_tokenize, C76_replace, C76_replace_unique, C76_argument_partial; C76_refuted_align, _argument, _uri. |
| C77 | `proxywriter` with its stack of calls, `_finalize`, the change of `__class__`, `proxymethod` with its weak references to bound proxies and `update`; a world of writers, output parameters and methods that were got; a program is any sequence of making writers, getting methods and calling them. | Specification: the calls of a program for a writer (`Spec.calls`), `Spec.UseHtml` for the first element, `Spec.Wrote`. Invariant over all programs: a proxy's target is the class of its writer, a writer that has no class yet has all its calls on the stack and they are idle, the others have all their calls in the log; the method in the output parameters was set by a writer for which it is right. C77_calls, C77_method_given, C77_method_shared, C77_method_partial, C77_transform_partial, C77_transform_given; C77_refuted_again. |
| C78 | `xmlwriter`: the stack of dictionaries of namespaces, `attribute` with its three ways to find a prefix and the generated prefixes, `namespace`, `start_element`, `_complete_element` with the declarations that are not in scope; the printer is that of C34. | Specification: trees of nodes with the calls for them (`Spec.documentCalls`) and the events that a namespace-aware reader should find (`Spec.documentWanted`), the declarations that are asked for (`Spec.allAsked`). Invariants: a dictionary has only legal bindings and a reader finds the same (`Agree`); each attribute's prefix is bound to its namespace (`AttrsOk`) and later entries only add prefixes (`Grows`); a generated prefix is new, by counting. C78_document_partial, C78_written, C78_attribute; C78_refuted_namespace, C78_refuted_late. |
| C79 | The hash function, the probe with `perturb` in 32-bit arithmetic, growth with its counter, insertion, release; the splitting of expat's triplets; the two tables of a reader with identities of objects. An access out of bounds and an endless probe are the result `none`. | Specification: names with their namespaces and how expat reports them (`Spec.XName`), what an answer must be (`Spec.Right`), which requests are the same (`Spec.Same`). x ↦ 5x + 1 runs through all residues modulo 2^k (5^(2^k) = 1 + 2^(k+2) times an odd number), so the probe reaches an empty slot; invariant: every entry is where the probe for its key ends (`Found`), and the count and load of the table (`Good`); induction over the requests. C79_delivered, C79_shared, C79_released, C79_ints. |
| C80 | The printer's methods, its tables of entities and attributes, the loop of the stream that writes escaped attribute values with the function for `&`. | Specification: an HTML reader (`Spec.readHtml`) with the entities of HTML 4.01, and what it should find for a sequence of calls (`Spec.Wanted`). Per character: what is written reads as one character (`AmpTo`); attribute values by induction with the next character in view; documents by induction over the calls with the stack of open elements. C80_written, C80_document_partial; C80_refuted_script, C80_refuted_tilde, C80_refuted_li. |
| C81 | `xmlprettyprinter`: the level, the flag and the operations it puts between those of `xmlprinter`. | Specification: `Spec.Laid` (events with new lines between markup) and `Spec.lay` (exactly where). The operations are those of the plain printer with white space between; reading by induction over the calls, with one call of look-ahead for the start tag that is still open, to the events of an auxiliary function, which is then compared with the specification. C81_written, C81_document_read_back; C81_mixed_content shows what happens after text. |
| C82 | Node objects with count, array, allocated size and frozen flag; arrays as memory with malloc, free and a realloc that may move; the container functions and the builder with its active and free contexts; undefined behaviour is a result of its own. | Specification: lists of children only (`Spec.Next`, `Spec.Acts`), and a document as a tree of content (`Spec.Are`). Refinement: every node's array begins with its list, arrays are owned by one node or one spare context (`Rep`); each operation keeps it. C82_session_partial, C82_document_partial, C82_edit_partial; C82_refuted_failed, _start, _open, _factory, _insert. |
| C83 | The reader as a machine between Expat's callbacks (given as groups between looks at the parsing status, with ends of buffers, external entities and errors) and the handler, a function of the events it has got that returns, raises or yields; contexts, the stacks for xml:base, xml:lang, xml:space and white space, waiting text; parse, suspend, resume, next(). | Specification: the content with text merged, events with the elements that are open (`Spec.report`). Induction over the document with an invariant that relates the stacks to the open elements and the waiting text to a pending piece of content. Generator: a run with yields is a prefix of the run without. C83_report_partial, C83_generator_partial, C83_reuse_partial, C83_no_crash; C83_refuted_left_over, _end, _two_values, _start_document, _entity, _stale_context, _cdata, _space, _base, _entity_twice. |
| C84 | The assembler (blocks, walk for the stack size, order, tables, offsets, bytes), all compile methods, and the instructions of Python 2.6 that they use as a machine on bytes, over an arbitrary host that says what calls, attributes, operators and iterators do. | Specification: an evaluator that says which objects are asked for what in which order (`Spec.eval`), and what can be compiled (`Spec.Sound`). The blocks are a list with forward jumps; each compile method appends a piece that does what the evaluator says (by induction over expressions); the bytes decode to the list, the stack size bounds every path. C84_code_computes, C84_compiles_iff, C84_assembled, C84_context_restored_partial; C84_refuted_time, _zero, _arguments, _union_of_function, _context. |
| C85 | The reader as a handler of SAX events: stack of states with automata, namespaces, shared dictionaries of variables, the tables of all elements and attributes, the shared cache. | Specification: the tables of appendix B of XSLT 1.0 and a recursive reading of a document (`Spec.document`) without stack, automata, dictionaries or cache. The automata are proved to accept the contents of the tables; an invariant relates the stack with the context of the specification; induction over documents; the cache invariant over any history. C85_read, C85_history_partial, C85_history_known_partial; C85_refuted_history, _after_error, _simplified_second, _version_zero, _forwards, _own_prefix, _default_prefix, _empty_char, _data_type, _nested. |
| C86 | The reader's dictionaries on a heap, shared as in the code; `fixup_aliases` on the shared dictionaries with an arbitrary order of items; the loop over precedence groups; attribute sets with a bounded stack. | Specification: namespace nodes by recursion over the open elements (`Spec.node`), aliases as a relation (`Spec.Aliased`), the declaration of highest precedence, an inductive relation for attribute sets. Invariant: every dictionary is as read or fully changed, and the latter is a fixed point. C86_literals_partial, C86_aliases, C86_attribute_sets_partial, C86_attribute_sets_sound_partial, C86_literal_sets_partial; C86_refuted_excluded, _rebound, _shared, _again, _prefix, _default, _own, _merge, _circular, _same_alias. |
| C87 | `authorize`, `resolve` (with the RFC 3986 functions of C02 and C08), the registry, and input sources with an arbitrary file system and working directory. | Specification: the first matching rule allows (`Granted`), what opening means (`Opens`), RFC 3986 resolution from C02. C87_resolve_absolute, C87_resolve_based, C87_granted, C87_scheme_partial, C87_jail_partial, C87_source_partial, C87_registry_partial; C87_refuted_scheme, _case, _no_rules, _request, _registry, _jail, _entities. |
| C88 | `_normalizekey` with the functions of C12, the overridden methods, and `document()` with a cache, an arbitrary order of sets and an arbitrary world. | Specification: the least equivalence with the four rules of the documentation (`Spec.Equiv`), the value after a history (`Holds`), the URIs of a call (`Wanted`). The key is a canonical form (`norm_iff`), then invariants over histories. C88_keys_partial, C88_dictionary_partial, C88_items_partial, C88_document_partial; C88_refuted_mixed, _items, _inherited, _twice, _fragment, _empty. |
| C89 | The handler with its stack, content models compiled as in C36, all element functions. | Specification: a recursive function for the first mistake of a document (`Spec.mistake`) and one for what it asks for (`Spec.items`), over document trees. Induction over trees with the invariant that validation states before the end allow the same (`transit_uniform`). C89_read_partial, C89_accepted_partial, C89_error_partial; C89_refuted_namespace, _variable, _space, _toplevel. |
| C90 | `instantiate` of all instructions, the context with its stack of writers, the tree writer with its open elements and text buffer, the string writer, copy_node. | Specification: content as a list of pieces (`Spec.pieces`), children, attributes and string of pieces, without writers. Mutual induction over instructions with a lemma for the fold over pieces (`fold_open`). C90_tree_partial, C90_string_partial, C90_writers_partial, C90_attribute; C90_refuted_text, _attribute, _child, _name. |
| C91 | `setup_model` as the list of added constraints per element class, `named_node_test`, `constraint.validate`, `content_model.validate` with the truth value of elements, `element_subtree_iter`, `xml_validate`. | Specification: `Spec.Follows` over the two trees with counts of names. Membership of the added constraints by mutual induction over the example, of the visited nodes by induction over a size of the stack. C91_validate_partial, C91_self_partial, C91_subtree; C91_refuted_optional, _self, _prefix, _order. |
| C92 | The cues of `setup_model` with defaults, `generate_metadata`, `metadata_dict` with a stable sort, groupby and dictionaries. | Specification: `Spec.metadata` over the list of elements with their ancestors, `Spec.entry` over the filtered statements. Mutual induction over documents; sortedness, stability and grouping by induction over lists. C92_cues_partial, C92_statements, C92_dict_partial; C92_refuted_nodesets, _repeated. |
| C93 | `abspath` with its loops over siblings and prefixes, on the heap and document of C14 and C26. | End to end: the text is lexed and parsed by the specifications of C65 and C66 (`Lexes`, `Says`), and the meaning of the expression is that of C26 (`Means`). Induction over the level of the node; lemmas for each kind of step. C93_selects_partial, C93_unique_partial, C93_errors; C93_refuted_first, C93_refuted_quote. |
| C94 | The handlers of `_markup_sequence` on the events of expat, with Python's `repr`, its ordering and `sorted`; `xml_compare`, `check_xml`. | The specification has documents as trees, `Same` as equality up to the order of attributes and declarations, and `Delivers` for the events, with every text in any pieces. Each line of the report can be read back (`repr` is a prefix code; pairs and lists of pairs are cut at the first value), `sorted` is the same exactly for permutations, and the lines of a tree determine it by induction with a continuation. C94_complete, C94_sound_partial, C94_answers, C94_check_partial, C94_symmetric; C94_refuted_names, C94_refuted_prefix, C94_refuted_whitespace, C94_refuted_lexical, C94_refuted_entities. |
| C95 | The XHTML printer as a change of the XML printer of C34: what it does at starts and ends of elements, its tables of characters, the table of URI attributes. | For the documents without the cases that are refuted, each call writes the same as the XML printer would for the call with the translated attributes followed by an empty text (escaping with the two tables agrees on the characters without names), so that C34 applies; the specification (`Wanted`) says what should be found, with its own lists of elements and attributes. C95_read_back_partial, C95_written, C95_end_tags, C95_minimized; C95_refuted_break, C95_refuted_last, C95_refuted_less, C95_refuted_names. |
| C96 | Nodes as a heap (that of C01) with what each says and the tables of namespaces and attributes; `__new__` with `__getnewargs__`, `__getstate__`, `__setstate__`, the memo of deepcopy, and the checks of `append`. | The specification is a tree (`Tree`) and a relation (`Is`) between a tree and a node with the parents it should have; `Untouched` says that old nodes are as before. Induction on the tree with an invariant of the memo: what it has is copied, and new nodes are only below new nodes. C96_deep_partial, C96_original, C96_shallow_partial; C96_refuted_shallow, C96_refuted_attribute, C96_refuted_names. |
| C97 | The pattern as a function that takes a match off the text after a dollar sign, `re.sub` as a loop, the two conversions, `splitlines` and the computation of line and column. | The specification is the list of pieces of a template with their writing and their texts; conditions (`Fine`) say that names are as long as can be and that stray dollar signs begin nothing. Every string is such a writing (C97_reads) and its readings agree (C97_one_reading); then induction on the pieces. C97_substitute_partial, C97_missing, C97_invalid, C97_safe_partial; C97_refuted_number, C97_refuted_bytes. |
| C98 | The loop of insertions over the heap of C13 and C14, with `xml_index` and `xml_remove`. | Induction on the children that are still to be moved, with the invariant (`Mid`) of what has been moved; each step by C14. C98_unwrap, C98_refused. |
| C99 | Trees with string-values, `split`, `rsplit(None, k)[0]`, and the recursion with its count; copies are the trees that they are copies of (C96). | `Cut` says what the beginning of a tree is; `Whole` that no word goes across the border of a node. Induction on the children, with the facts that a border between words stays one when what follows is cut (`border_iff`), and that k words from the right leave the first words (`split_rest`). C99_trim_partial, C99_beginning; C99_refuted_border, C99_refuted_comment. |
| C100 | The pattern as a function of the position and the elements that follow, `re.subn` as a loop. | Strings are lists of characters that are stored (`store`) as one or two elements. Induction on the characters. C100_legalize_partial, C100_identity, C100_legal_partial; C100_refuted_halves. |
| C101 | The pattern part by part as a regular expression, with a matcher by derivatives that is proved to decide its language. | The RFC's grammar as predicates on strings (Iri/SyntaxSpec.lean); the language of each part equals the rule of the same name. C101_without_brackets_partial, C101_exact_partial, C101_accepts_partial, C101_alphabet, C101_uri_is_reference; C101_refuted_userinfo, C101_refuted_rejects, C101_refuted_group. |
| C102 | The pattern for Windows paths as a function on strings; both conversions branch by branch. | Paths are given as lists of names; the URI is the encoded names with slashes, decoding undoes encoding name by name. C102_drive, C102_root, C102_unc, C102_relative, C102_refuses; C102_refuted_back, C102_refuted_escaped_drive. |
| C103 | basejoin and join as in the code, on top of absolutize. | The dummy scheme commutes with the RFC transformation; join by induction over the names. C103_own_scheme, C103_absolute_partial, C103_relative_partial, C103_join; C103_refuted_scheme, C103_refuted_file, C103_refuted_query. |
| C104 | A compiled pattern is what it matches at each position; search, the loop with fuel, the three functions. | Whatever the loop returns is ordered, disjoint and covers every place with a match; it ends when no match is empty. C104_match_global, C104_match_ends_partial, C104_match_ends_iff, C104_match_first, C104_test, C104_replace; C104_refuted_endless. |
| C105 | The function for byte strings with the IDNA conversion as a parameter. | The parts of the authority are recovered from the splits; the pattern for names is a list of plain characters and escapes. C105_no_authority, C105_reg_name, C105_other_host; C105_refuted_ipv6. |
| C106 | The pattern at one place as a function on strings, findall, and the lookups of the dict. | Induction over the pseudo-attributes for reading back, over the search for soundness. C106_read, C106_no_other, C106_found; C106_refuted_forms. |
| C107 | Python objects by the type tests, the two loops over a list, the dictionary as entries in order. | An inductive relation says what stands for what; both directions by cases and induction over the list; induction over the entries for the dictionary. C107_paramvalue, C107_parameterize, C107_raises; C107_refuted_none. |

No property of the list was found impossible to express in the model.

## Trusted base

* Lean's kernel (4.33.0).
* Axioms: at most `propext`, `Classical.choice`, `Quot.sound`.  No project
  axioms, no `sorry`, no `native_decide`, no `bv_decide`.
* The transcription from Python/C to Lean was done by hand; it is the part a
  reader has to check.


## What is modelled

| Source | Modelled | Not modelled |
|--------|----------|--------------|
| lib/lib/iri.py | split/unsplit, absolutize, relativize, dot segments, percent coding, file URIs (POSIX), public ids, iri_to_uri, normalisation | Windows branches, `urlopen`, `make_urllib_safe`, regex-based `matches_uri_syntax` |
| lib/src/expat/{content_model.c,validation.c} | content model builder, NFA/DFA compilation, element validation | attribute validation, memory management |
| lib/xpath/src/datatypes.c | number arithmetic, conversion, parsing, formatting, comparison of all four types | reference counting |
| lib/xpath/src/{paths.c,nodetests.c}, lib/xpath/expressions, lib/xpath/locationpaths | evaluation of all kinds of expressions by all five methods, predicates and their special cases, steps, unions | the parser, variable and function lookup, bytecode generation, calling a compiled expression while it is suspended |
| lib/xpath/functions/{strings,numbers}.py | all functions | argument-count errors |
| lib/src/domlette/container.c | append, insert, remove, replace, hierarchy check | memory management, Python-level subclasses |
| lib/src/domlette/container.c: xml_normalize; lib/xpath/src/datatypes.c: node_to_string | yes | size overflow |
| lib/src/domlette/{attributemap.c,namespacemap.c} | the hash table: lookup, insertion, resize, deletion, iteration | events, reference counts, `NAME_EQ` on `None` |
| lib/src/domlette/element.c | prefix and namespace lookup, in-scope namespaces | pickling, attribute creation |
| lib/src/domlette/node.c | document order, following/preceding sibling, node ids, base URIs | cloning |
| lib/xpath/src/axes.c, lib/xpath/locationpaths/axisspecifiers.py | all axes | bindery elements (`__len__` makes some false in `while node:`), edits during iteration |
| lib/writers/src/xmlstream.c | `xmlstream`: choice of codec, byte order mark, ASCII shortcut, escaping, character references, replacement of illegal characters | entity maps with callable values, file errors |
| lib/writers/node.py | `_Visitor`: documents, elements, text, comments, processing instructions | `ns_hints`, `added_attributes`, node types it does not know |
| lib/writers/_xmlprinters.py | `xmlprinter`, `canonicalxmlprinter`: all calls | `prepare`, the pretty printer, XHTML |
| lib/xslt/numbers/{__init__,en}.py | number sequences, format strings | other languages (there are none); the characters that are alphanumeric are a parameter |
| lib/xslt/exslt/sets.py | all functions | |
| lib/xslt/exslt/math.py | min, max, highest, lowest | the other functions, which call the C library; errors in conversions to numbers |
| lib/lib/util.py | `readbysep`, `element_subtree_iter` | the other functions |
| lib/lib/iso8601.py | all functions | failures of the C library, rounding of the fraction times 100 |
| lib/pushtree/{__init__,pushtree_nfa}.py | patterns that are unions of location paths with name tests: compilation and matching | predicates, processing instructions, several patterns in one machine, lookup of prefixes, the XPath parser |
| lib/xslt/xpatterns, lib/xpath/locationpaths/nodetests.py (match) | patterns from the grammar, their compilation, matching with predicates | the pattern lexer, resolution of prefixes (done before, as in C50) |
| lib/xslt/tree/transform_element.py (match table, apply_templates, apply_imports) | building, expanding, sorting and searching the match table | instantiation of the chosen template, named templates, keys, attribute sets |
| lib/xslt/expressions/__init__.py (sorted_expression), lib/xslt/tree/sort_element.py | all with constant `order`, `data-type`, `case-order` | attribute value templates for these; `lang`, which is ignored; the choice that CPython's sort makes for inconsistent comparisons |
| lib/xslt/tree/*_element*.py (instantiate), lib/xslt/tree/transform_element.py (apply_templates, apply_imports, named templates), lib/xslt/xsltcontext.py | the instructions of C61 with all the state they change | names with prefixes (the writer, C54), variables with content, computed names of elements and attributes, attribute sets, xsl:number, xsl:message, xsl:fallback, extension elements, output methods; values of global variables are given |
| `lib/xpath/util.py:125-200` | `Verif/Path/Params.lean` | `paramvalue`, `parameterize`; UTF-8 decoding is a parameter, the document order of a node-set of given nodes is not modelled |
| `lib/lib/util.py:129-143` | `Verif/Util/PseudoAttrs.lean` | `parse_pi_pseudo_attrs`; the regular expression is written out as a function |
| `lib/lib/iri.py:1608-1681` | `Verif/Iri/Safe.lean` | `make_urllib_safe` for byte strings; the IDNA codec is a parameter |
| `lib/xslt/exslt/regular_expressions.py:14-123` | `Verif/Xslt/Regexp.lean` | the three functions; Python's `re` is a parameter, `regexp.sub` only for patterns without empty matches and replacements without backslashes |
| `lib/lib/iri.py:1709-1762` | `Verif/Iri/PercentModel.lean`, `Verif/Iri/JoinProps.lean` | `basejoin`, and `join` for at least one argument |
| `lib/lib/iri.py:1184-1282, 1368-1389, 1503-1575` | `Verif/Iri/NtPath.lean` | the `nt` branches for byte strings; not the working directory |
| `lib/lib/iri.py:139-279` | `Verif/Iri/Syntax.lean` | `matches_uri_syntax`, `matches_uri_ref_syntax`; trusted: for an anchored pattern without back references Python's `re` finds a match exactly when the string is in the pattern's language |
| `lib/lib/xmlstring.py:72-90` | `Verif/Util/Legalize.lean` | `legalize`; not replacements with backslashes |
| `lib/lib/util.py:190-225` | `Verif/Util/Trim.lean` | `trim_word_count`, with copies as trees |
| `lib/lib/util.py:83-105`, `lib/src/domlette/container.c:125-151,641-657` | `Verif/Dom/Unwrap.lean` | `unwrap`, `xml_index` |
| `lib/lib/util.py:340-469` | `Verif/Util/Template.lean` | `Template`, for unicode templates with the delimiter `$`; not subclasses with other patterns |
| `lib/src/domlette/node.c:132-205,263-274`, `element.c:428-640`, `entity.c:140-270`, `attr.c:85-130`, `attributemap.c:254-330`, `namespacemap.c:254-295` | `Verif/Dom/Copy.lean` | copy.copy and copy.deepcopy of nodes; not pickling (`__reduce__`), the `__dict__` of subclasses, mutation events, and failures of allocation |
| `lib/writers/_xhtmlprinters.py:15-133` | `Verif/Write/Xhtml.lean` | the XHTML pretty printer |
| `lib/lib/treecompare.py:44-50, 98-248` | `Verif/Compare/Model.lean` | expat and the choice of the sequencer from the text of the first argument (parameters); `difflib.unified_diff` (yields nothing exactly for equal sequences); the comparison of HTML |
| `lib/xpath/util.py:255-333` | `Verif/Path/Abspath.lean` | Python's recursion limit; nodes of the bindery, whose truth value differs (see C91) |
| `lib/bindery/model/examplotron.py:69-122`, `lib/bindery/model/__init__.py:177-299` | `Verif/Eg/Meta.lean` | Values of expressions are parameters; expressions that do not parse; a missing base URI |
| `lib/bindery/model/examplotron.py:42-135` (constraints), `lib/bindery/model/__init__.py:50-167`, `lib/bindery/nodes.py:192-196, 564-567`, `lib/lib/util.py:17-32`, `lib/xpath/util.py:336-353` | `Verif/Eg/Model.lean` | The four forms of assertion have their XPath meaning directly; fixups (no examplotron constraint has one); attributes (never constrained) |
| `lib/xupdate/instructions.py`, `lib/xpath/__init__.py:140-206`, `lib/writers/src/treewriter.c:88-526`, `lib/writers/stringwriter.py` | `Verif/XUpdate/Inst.lean` | Values of expressions are parameters; output escaping; the ValueError for a prefix without namespace |
| `lib/xupdate/reader.py`, `lib/xupdate/expressions.py:16-25` | `Verif/XUpdate/Read.lean` | Whether expressions and attribute value templates can be parsed is a parameter; chunks of text as expat delivers them, one for each run |
| `lib/lib/irihelpers.py:226-291`, `lib/xslt/functions/__init__.py:24-70`, `lib/xslt/xsltcontext.py:64-68` | `Verif/Iri/Uridict/Model.lean` | Contents of documents, non-ASCII keys (for which percent_decode raises a UnicodeError), document order in the result |
| `lib/lib/irihelpers.py:28-138, 170-188`, `lib/lib/_inputsource.py:35-125`, `lib/src/expat/input_source.c:99-141` | `Verif/Iri/Resolver/Model.lean` | What the streams contain, errors of opening, `facade_resolver` (its default argument is an undefined name), streams as arguments |
| `lib/xslt/reader/__init__.py:226-235, 317-337, 505-518, 631-667`, `lib/xslt/tree/literal_element.py`, `transform_element.py:33-40, 323-348`, `declaration_elements.py:113-158` | `Verif/Xslt/Lre/Model.lean` | Values of attributes (arbitrary type), the classification of elements (C85), the variables that attribute sets see, aliases that differ between set-ups |
| `lib/xslt/reader/__init__.py:152-309, 317-690`, the tables of `lib/xslt/elements/*.py`, `lib/xslt/reader/attribute_types.py`, `content_model.py` | `Verif/Xslt/Rd/Tables.lean`, `Verif/Xslt/Rd/Model.lean` (with `Verif/Content`) | Output attributes and namespaces of literal result elements, base URIs, the parsers of expressions, patterns and templates of attribute values (parameters), combining stylesheets (a test; modelled in `Verif/Xslt/Import.lean` and `Verif/Xslt/Globals.lean`), `setup` and `prime` |
| `lib/xpath/compiler/assembler.py`, `lib/xpath/compiler/__init__.py`, the compile methods of `lib/xpath/expressions/*.py`, `lib/xpath/locationpaths/__init__.py:19-52`, `lib/xpath/functions/booleans.py:39-68` | `Verif/Code/Asm.lean`, `Verif/Code/Compile.lean`; the interpreter in `Verif/Code/Machine.lean` | The parser, the select functions of steps and predicates (objects here), opcodes that are not used, recursion limits; `ceval.c` of Python 2.6 is modelled from its documentation, it is not in the repository |
| `lib/src/expat/expat.c:158-241, 513-603, 805-841, 1186-1300, 1531-1676, 1994-2449, 2582-2652, 3521-3625, 4128-4147, 4267-4397`, `sax_handler.c:1219-1239, 1627-1663, 1882-1892` | `Verif/Parse/Sax.lean` | Expat itself (its callbacks are the input), the document type declaration, validation, types of attributes, line numbers, lack of memory |
| `lib/src/domlette/builder.c:132-290, 307-398, 421-714, 810-887`, `container.c:36-77, 180-490, 702-718` | `Verif/Dom/Build.lean` | attributes and namespaces of elements, events of subclasses, reference counts, lack of memory |
| `lib/writers/_xmlprinters.py:433-511` (`xmlprettyprinter`) | `Verif/Write/Pretty.lean` | documents with an XML declaration; unescaped text is not covered |
| `lib/writers/_htmlprinters.py`, the callable entries of entity maps in `lib/writers/src/xmlstream.c` | `Verif/Write/Html.lean` | names that are ASCII; elements with namespaces are modelled but not covered by the theorems; `raw text` is not covered |
| `lib/src/expat/hash_table.c`, `lib/src/expat/expat.c` 894-1039 | `Verif/Parse/Intern.lean` | strings as lists of code units, Py_UNICODE the same type as XML_Char; objects as identities with contents; signed shifts wrap; no failed allocations, no reference counts |
| `lib/writers/xmlwriter.py` 16-272 without the canonical form and indentation | `Verif/Write/Writer.lean` | dictionaries as association lists with any order of iteration; version 1.0; `start_document` and `end_document` as calls of the printer of C34; not modelled: `cdatasectionwriter` |
| `lib/xslt/proxywriter.py` 17-175; `lib/writers/outputparameters.py` 71-76; `lib/xslt/result.py` 24-31, `lib/xslt/processor.py` 520-545 | `Verif/Xslt/Output.lean` | writers of the chosen classes as the list of the calls that they get; output parameters: the method and whether there are CDATA section elements; references to proxies never die |
| `lib/xslt/exslt/strings.py` 16-289; `lib/writers/src/treewriter.c` 93-121, 384-450; `lib/xpath/__init__.py` 182-206 | `Verif/Xslt/ExsltStr.lean` | arguments by their values; nodes other than text of an arbitrary type; encode-uri and decode-uri as the NameError that they raise at `codecs` |
| `lib/xslt/tree/transform_element.py` 361-362, 463-492 (`prime`), 661-668; `variable_elements.py` 28-42; `lib/xslt/processor.py` 528-543; `lib/xslt/reader/__init__.py` 28-56, 549-556; `lib/xpath/expressions/__init__.py` 59-65, `basics.py` 94-117; `lib/xpath/__init__.py` 147-175 | `Verif/Xslt/Globals.lean` | values and foci of any types; the function of a compiled expression as a tree of lookups; instructions in content: value-of, if, for-each, apply-templates, variable with select; template rules as their content (recursion unfolded); no template parameters, no call-template, no keys |
| `lib/writers/struct.py` 108-194 (`feed`), 423-493 (`E`, `NS`, `RAW`, `ROOT`) | `Verif/Write/Struct.lean` | callables and iterators are given by what they return; parse_fragment by the nodes it makes; the assignment to `obj.ns` as a separate function `fed`; no `cofeed`, no `E_CURSOR`; only the plain printer (`structwriter(canonical=True)` asks for a class that does not exist, struct.py:57) |
| `lib/xslt/xpatterns/parser.c` 299-640, 671-1290 (tables), 1330-5870 (parser, action routines, lexer), `xpattern.bgen` 60-447 | `Verif/Parse/PatternTables.lean`, `PatternLexTables.lean`, `Pattern.lean` | tables copied by a script; the parser runs before the action routines; error positions and the priorities of `xpatterns/__init__.py` are not modelled here |
| `lib/xslt/expressions/avt.c` 1227-3640 (parser, tables), 4083-4510 (lexer), `avt.py` 12-45, `lib/xslt/tree/attribute_types.py` 113-125 | `Verif/Parse/AvtTables.lean`, `AvtLexTables.lean`, `AvtLex.lean`, `Avt.lean` | tables copied by a script; the parser runs before the action routines; the evaluation of an expression is a function of a state; error positions and what an attribute type makes of the string are not modelled |
| `lib/xupdate/commands.py` 33-41, 63-98, 108-143, 158-170, 185-201, 215-246, 255-264, 300-316; tree writer (`lib/writers/src/treewriter.c`) as far as elements, attributes and leaves go | `Verif/XUpdate/Commands.lean` | XPath (`select`, `child`) and instructions (`xupdate:element`, ...) are functions of the document; content independent of the document in the theorems; variables, `xml_base`, namespace declarations and prefixes are not modelled; an exception loses the state |
| lib/xslt/functions/src/decimal_format.c 47-790 | format-number() for given symbols: parsing, rounding, layout, affixes | allocation failures; bytes in front of the digit array (only a flag that they are used); the comparison of the second subpattern, which compares each value with itself; lookup of the decimal-format by QName (functions/__init__.py 113-135) |
| lib/xslt/tree/transform_element.py 55-180, 287-294, lib/xslt/functions/__init__.py 73-108 | xsl:key: table, traversal, values; key() for the expanded name and the value of the argument | the QName check of the first argument, `key()` inside of `match` or `use` |
| lib/xslt/tree/number_element.py | the three levels, `count`, `from` and their defaults, exceptions | the `value` attribute; formatting is C37, C38 and C55 |
| lib/bindery/nodes.py | Python names and the cache, descriptors, classes of elements, `list`, `len`, indexing by number and name, assignment and deletion of texts, `xml_fixup()`, construction by the parser | content models, `structwriter` values, changes of the name of an existing node, `xml_append_fragment`, `__unicode__` |
| lib/xpath/parser/xpathparser.c (action routines), lib/xpath/locationpaths, lib/xpath/expressions (constructors) | all rules; slashes, unions, path expressions, node tests, axes, literals, the check of argument counts | the code that is generated for the expressions (C26 models evaluation); whether a constructor's error or a later syntax error is reported first; extension functions other than as an arbitrary binding |
| lib/xpath/parser/xpathparser.c (`parser_yylex`, `lexer_match`, `lexer_charset`) | all of it, with the tables | reading past the character tables for characters beyond U+FFFF (taken as no match); line and column counting |
| lib/xpath/parser/xpathparser.c (`parser_parse` and its tables) | all of the driver and the tables; reading and writing beyond the stack is an outcome of its own | what the action routines build from a rule; the trace and debug output; the text of the error message |
| lib/src/expat/expat.c (whitespace rules, character data buffering, xml:space), lib/xslt/tree/transform_element.py (space_rules) | all | validation, other xml: attributes, the resolution of prefixes in the tokens |
| lib/xslt/reader/__init__.py (_combine_stylesheet, import index, global variables), lib/xslt/tree/transform_element.py (setup: output, namespace-alias, attribute-set, variables), lib/xslt/tree/declaration_elements.py (attribute_set_element) | reading with imports and inclusions, numbering, choice of declarations | resolution of URI references, parsing, literal result elements as stylesheets, several `xml-stylesheet` processing instructions, keys, decimal formats, whitespace rules |
| lib/src/xmlstring.c | name checks, `SplitQName`, `MakeQName` | `NormalizeSpace`, type errors |

The reader of Write/XmlSpec covers the whole of what the printers write: XML
declaration, document type declaration without internal subset, tags,
references, CDATA sections, comments, processing instructions, end-of-line
handling and attribute-value normalisation; it rejects what is not well-formed.
The codec is a parameter, assumed to work character by character and either to
agree with ASCII or to have all characters and more than one byte for each ASCII
character; ASCII, ISO 8859-1, UTF-8 and UTF-16 are shown to qualify.

The tree is a heap: node ids with kind, parent and list of children.  An array
slot that the code leaves unwritten makes the operation's result `undefined`.

Doubles are rationals plus signed zero, infinities and NaN; rounding is an
arbitrary function that is exact on representable values (`Rounding`).

## Disagreements

Places where the code does not do what the property says.  Each has a theorem
that exhibits it on a concrete input.

* C01: the regular expression's `.` does not match a newline, so a fragment is
  cut at its first newline.
* C03: `?` alone as reference, absolute references with dot segments, and
  rootless base paths are not resolved as RFC 3986 5.2.2 says.
* C04: relative paths are not treated as 5.2.4 says (absolute ones are).
* C05: `percent_decode` uses Python's `int`, which accepts `%+1`; `spaceToPlus`
  without `encodeReserved` is not reversible.
* C06: `relativize` returns references that do not resolve back (six cases).
* C11: U+0080 is passed through, U+E000-U+FFFF raise, broken surrogates vanish.
* C12: percent normalisation is not idempotent on malformed percent signs.
* C13, C14: `xml_append` of a node to the parent it already has, and `xml_insert`
  there, look at an array slot that has not been written (C82_refuted_insert shows
  what this does);
  `xml_replace` by an earlier sibling does too; `xml_replace` does not check for
  cycles or node kinds.
* C15: two attributes of one element compare as equal (`==`).
* C16: deleting a key (`del element.xml_attributes[...]`) empties its slot without a
  marker, so keys stored behind it can no longer be found.
* C17: looking for a prefix ignores shadowing and, for "no namespace", a declared
  default; `xml_namespaces` lets an outer default namespace through `xmlns=""`.
* C18: (documentation of `xml_normalize`) it does not descend and keeps empty text nodes.
* C19: following, preceding and preceding-sibling raise for an attribute node.
* C20: `<`, `<=`, `>`, `>=` on two node-sets use the same index on both sides: they
  miss pairs, and read past the end of the shorter node-set.
* C21: comparing a digitless string such as `-` with a number raises.
* C23: `substring` with a negative tie as start and a finite length, and with
  start -Infinity and no length.
* C24: `substring-after(s, '')` is empty.
* C25: white space outside the four XML characters is removed too.
* C29: digitless strings raise `ValueError`; a computed NaN prints as `nan`; a
  computed infinity raises `OverflowError`; numbers are printed with twelve
  digits, and with an exponent when large or small.
* C30: `round(1.75)` is 1; `mod` takes the sign of the divisor.
* C36: an empty sequence accepts nothing; `opt`/`rep1`/`rep` overwrite an earlier
  quantity.
* C48: reading `xml_namespaces` moves the namespace nodes of ancestors to the element.
* C49: namespace nodes moved as in C48 can have the same `xml_nodeid`.
* C50: the `xml:base` of an element without a parent is ignored.
* C47: `1 div -0` is +Infinity.
* C46: white space inside ANY is reported when stripping is on; recycled contexts
  keep their old state.
* C26: `[position() >= k]` keeps the positions from k+2 on; `[last()]` and other
  uses of `last()` see the size of an earlier node list unless the predicate is
  `position() = e`; a string literal counts as a number; `position() = e`
  compares as numbers whatever `e` is; `[0]` raises ValueError; `[1 < position()]`
  raises NameError.
* C27: paths whose steps reach a node in two ways return it twice; `last()` in a
  step that is not the last one is disturbed by the later steps; unions of
  filter expressions evaluate a later operand with the context of an earlier one.
* C28: `string()` and `number()` take the first node that the iterator produces,
  which is not the first in document order for some axes.
* C51: `boolean(0)` is true and `string(1.50)` is "1.50" for literals.
* C31, C32: a narrow build of Python writes each character above U+FFFF as `??`; in
  EBCDIC encodings, references are written in ASCII.
* C33: carriage returns in CDATA sections are lost when read; the canonical printer
  raises `NameError`.
* C54: no `xmlns=""` is written for an element without a namespace if its parent's
  namespace has no namespace node; the prefixes of attributes are not declared if there is
  no namespace node for them.
* C35: on little-endian machines the byte order mark is the wrong one; the encoding
  name `utf16` gives a byte order mark before each piece of output.
* C37: the letters of a label are in reverse order ('aa' + 1 is 'ba').
* C38: the roman numeral of 1 is empty, those of 10 to 999999 raise `IndexError`; a
  grouping separator raises `NameError`; tokens of other scripts are padded decimals.
* C55: an empty list of numbers gives the suffix without the prefix.
* C39: `set:leading` and `set:trailing` always raise `NameError`; `set:distinct` reverses
  its argument in place, also if that is the value of a variable.
* C40: `math:highest` and `math:lowest` raise `ValueError` for an empty node-set and
  ignore nodes after the first that are not numbers.
* C41: a buffer size of 0 gives one empty piece; an empty piece at the end is yielded
  although the docstring says that it is not.
* C42: the seconds of an offset are dropped.
* C43: the order is not document order (a queue used as a stack); an element is visited
  itself even without `include_root`.
* C56: with an offset east of Greenwich, `tostring` writes a time that is off by twice the
  offset; `parse` refuses years before 1900; fractions are written as `.100` or `.-50`;
  an ordinal date is a day off if the machine is east of Greenwich.
* C44: a name that begins with a colon loses it when split and joined.
* C57: `isnmtoken` ignores the first character; all checks stop at U+0000; the check for
  NMTOKENS reads behind the end of a value that ends with a space.
* C45: a name without prefix matches in every namespace; `*/b` misses nested `b`; `//a//b`
  selects children only; `a//b`, `//@x` and `/a/@x` raise `AssertionError`, `@x` raises
  `ValueError` at the first element.
* C58: the search for the left side of `//` takes the nearest ancestor and never
  backtracks, so `r/y//text()` and `/a//b` miss nodes; `node()` matches the root and
  attributes; `processing-instruction()` matches elements and no processing instruction,
  with a target it raises `AttributeError`; `@p[1]` matches any first attribute;
  `id(..)//a` is read as `id(..)/a`.
* C59: of several rules left the first one in the stylesheet is used, not the last;
  `//x` has the default priority of `x`; no rule for `processing-instruction()` is ever
  used for one; a rule for `node()` is used for the root.
* C60: after sorting, `current()` is the last node sorted; with `case-order` strings that
  differ in more than case are sorted by code points (A B a b), and `lower-first` is not
  an order at all (a before A before B before a).
* C61: an `xsl:for-each` that contains an `xsl:variable` ignores its `xsl:sort` elements;
  a called template sees the local variables of its caller (dynamic scope); a template
  that ends with a call of itself sees the locals of the iteration before in the defaults
  of its parameters, and calls itself even if it is overridden; `current()` is wrong after
  xsl:apply-templates; xsl:copy of a comment writes a text; the comment `---` is written
  as `- -- `; a processing instruction with `?>` raises `NameError`.
* C62: the imports of a stylesheet that is included after a declaration get the precedence of that declaration (`C62_refuted_include`), so that variables are reported as duplicates that are not (`C62_refuted_include_variable`); `xsl:apply-imports` also uses rules of stylesheets that are not imported into the current one (`C62_refuted_apply_imports`); the same namespace alias given twice is an error (`C62_refuted_alias`); attribute sets with the same name are not merged (`C62_refuted_attribute_sets`), and the check for circular ones is never made, so they do not end (`C62_refuted_circular_sets`).
* C63: whitespace rules ignore the import precedence (`C63_refuted_imports`), and the source of a transformation is read without the rules of the stylesheet (`C63_refuted_processor`; `runNode` calls a method `_stripElements` that does not exist).
* C64: an expression that begins with two minus signs is rejected (`C64_refuted_minus`); `text('x')` is accepted (`C64_refuted_literal`); parentheses nested 998 times or more make the parser write past the end of its stack (`C64_refuted_nested`).
* C65: `1 mod2` and `a order` are compiled although `mod2` and `order` are no operators (`C65_refuted_operator`); digits of other scripts are compiled as numbers (`C65_refuted_digit`); what follows a U+0000 is ignored (`C65_refuted_nul`).
* C66: `foo::a` is reported as a KeyError, `true(1)` as a NameError (the code misspells `XPathError`) and `foo()` as an AssertionError, none of them errors of XPath (`C66_refuted_errors`); `text('x')` is compiled like `text()` (`C66_refuted_literal`).
* C67: the class of an element gets one descriptor per Python name, whichever is needed first, and keeps it: in `<r><a><b/></a><a b="1"/></r>` the `b` of the second `a` is None, though the same element alone has the value `1` (`C67_refuted_clash`); of `a-b` and `a.b`, or of two namespaces, only one can be read (`C67_refuted_namesakes`).
* C67: `len(e)` and `e[0]` compare local names with the qualified name, so an element with a prefix has length 0 (and is false) and `e[0]` raises IndexError (`C67_refuted_prefix`); `len` of an element without a parent raises AttributeError (`C67_refuted_root`).
* C67: `del e[name]` never deletes an attribute (`C67_refuted_delete_item`); `e[name] = text` sets an attribute where the documentation changes the child (`C67_refuted_set_item`); `<r><a><factory_entity/></a><a/></r>` cannot be parsed (`C67_refuted_parse`).
* C68: if nothing matches, `xsl:number` raises TypeError instead of inserting nothing (`C68_refuted_zero`); with `level="any"` also if the current node matches `from` (`C68_refuted_from`); `count="/"` finds the root node only with `from`, with `multiple` or with `any` (`C68_refuted_root`).
* C68: `<xsl:number from="..."/>` without `count` raises NameError or AttributeError at every node (`C68_refuted_default`); `<xsl:number/>` raises AttributeError at texts, comments, processing instructions and the root (`C68_refuted_text`), and all levels raise InvalidStateErr at attributes (`C68_refuted_attribute`).
* C68: the default `count` at a processing instruction matches all targets (`C68_refuted_target`).
* C69: with a node-set as second argument, key() returns a node several times if it has several of the values or a value occurs twice (`C69_refuted_twice`).
* C69: with `match="node()"` the root node gets a key (`C69_refuted_node`).
* C70: a number that gets one digit more by rounding is written as zeros: `format-number(9.5, '0')` is `0` (the carry goes in front of the array) (`C70_refuted_carry`).
* C70: numbers are rounded twice: `format-number(1.46875, '0')` is `2` (`C70_refuted_rounding`).
* C70: integers with optional fraction digits get a zero: `1.0` for `0.#` (`C70_refuted_zero`, `C70_needless_zero`).
* C70: the sign of a negative number is lost with a prefix, the suffix is lost without a second subpattern (`C70_refuted_sign`, `C70_refuted_suffix`).
* C70: quotes in a pattern change the pattern string in place, which is a value of the stylesheet: the second call with it fails; quotes in a suffix are wrong at once (`C70_refuted_quote`, `C70_refuted_quoted_suffix`).
* C70: patterns outside of the grammar: `0x0` is taken, `abc` dereferences a null pointer (`C70_refuted_grammar`).
* C70: zero makes the code read in front of its array (`C70_refuted_bounds`); with more than 28 fraction digits the fixed buffers can be too small (not refuted, outside of the theorems).
- C71: `xupdate:attribute` in append, insert-before or insert-after is lost: the fragment is a document and the tree writer ignores attributes on it (C71_refuted_attribute).
- C71: `child="1"` of append inserts behind the first child although the code's table says it is upd:insertIntoAsFirst; negative values are Python indices (C71_refuted_child).
- C71: rename of an attribute adds one with the new name and keeps the old (C71_refuted_rename_attribute); rename of a processing instruction is `parent.xml_replace-child(...)`, a NameError, update of one sets the missing `xml_value` (C71_refuted_pi).
- C71: insert-before/after of the root or of an attribute raise AttributeError, ValueError or InvalidStateErr (C71_refuted_beside); update of an element and its text with nothing raises AttributeError half way (C71_refuted_update); `xupdate:if` raises NotImplementedError (C71_refuted_if).
- C72: an error in an expression of a template that the constructors find (unknown axis, unknown function, wrong number of arguments) is not INVALID_AVT but KeyError, AssertionError or NameError (C72_refuted_errors).
- C73: outside of predicates the lexer has no `::`, so no pattern with an axis by name (`child::a`, `attribute::a`) is accepted (C73_refuted_axes).
- C73: it has no literals there either, so `id('x')`, `key('k','v')` and `processing-instruction('x')` are syntax errors; the last is accepted after a predicate (C73_refuted_id, C73_refuted_literal).
- C73: the action for `id(..)//r` is the one for `id(..)/r` (unreachable for lack of a literal; C73_refuted_slashes).
- C73: an unknown axis or function in a predicate is not XpathError.SYNTAX but KeyError or AssertionError (C73_refuted_errors).
- C74: `E(u'n', 0)` is written without its content, and so is every `E` whose first object is false (C74_refuted_false); `E((u'u', u'x:a'), NS(u'x', u'u'))` declares a prefix twice (C74_refuted_twice); namespaces of attributes are never declared (C74_refuted_attribute); an `NS` after other content is passed over (C74_refuted_late); the nodes of a RAW fall into the default namespace around them (C74_refuted_raw); `NS(None, v)` does not hide `NS(u'', u)` (C74_refuted_none); an `E` that is fed again keeps the namespace it was first written in (C74_refuted_again).
- C75: a stylesheet object that was used with a parameter and is then used without it fails with a KeyError, if a variable that is declared before the parameter refers to it (C75_refuted_again). If a definition is given up inside of for-each or apply-templates because of a variable that is declared later, the definitions after it are evaluated for the node of the for-each (C75_refuted_focus); inside of an element with local variables, the values of all variables after it are lost (C75_refuted_scope). Templates that are used in several definitions make a second use of the stylesheet fail with a KeyError for some documents (C75_refuted_shared).
- C76: str:align with an empty string, to the right, returns the empty string instead of the padding, for `padding[:-0]` is empty (C76_refuted_align). str:encode-uri and str:decode-uri always fail with a NameError, for `codecs` is not imported (C76_refuted_uri). str:replace replaces attributes and namespace nodes of its third argument by text nodes in the node-set itself, so that a variable has another value afterwards (C76_refuted_argument).
- C77: the output method that was found for the first transformation is kept in the parameters of the stylesheet (`setdefault`), and all later transformations with the stylesheet use it, whatever they write (C77_refuted_again).
- C78: `namespace` fails with an AttributeError (there is no `changePrefix`) if the prefix is in scope with another namespace, if the namespace has another prefix, and for every default namespace that is not in scope (C78_refuted_namespace). If no start tag is open it silently makes the writer leave out later declarations, so that the document cannot be read (C78_refuted_late). `cdatasectionwriter` fails for the first element: `SplitQName` is not defined (xmlwriter.py:303).
- C80: text in `script` and `style` is escaped although HTML has no references there: `a<b` becomes `a&lt;b` (C80_refuted_script). `_disable_ouput_escaping` is counted and never read.
- C80: U+02DC is written as `&tidle;`, which HTML does not have (C80_refuted_tilde).
- C80: `compact` is minimized on `li`, where it is not a boolean attribute (C80_refuted_li).
- C81: the comment "Do not allow indenting for elements with mixed content" in `xmlprettyprinter.text` claims more than the code does: only what follows the text directly is not indented, so `<p>a<b/><i/></p>` gets white space before `<i/>` and `</p>` (C81_mixed_content).
- C82: after a parse that fails (the document is not well-formed, or a callback raises), elements that were open point to arrays that have been freed; any node kept from the tree leads to them, and so does the garbage collector (C82_refuted_failed).
- C82: children that a start-tag callback adds to the new element are lost, and the element shows stale cells, e.g. children of a sibling (C82_refuted_start); an open element that a callback moves is listed by two parents (C82_refuted_open).
- C82: custom factories for comments and processing instructions always fail, since their results are checked with Text_Check (C82_refuted_factory); amara.dom.nodes.Document has such factories, so parsing into it fails for documents with comments or processing instructions.
- C82: xml_insert of a node into the parent it already has may find a stale copy of the node behind the end of the array; children get lost or listed twice (C82_refuted_insert).
- C83: character data that waits when a parse fails stays in the reader and is reported at the beginning of the next document (C83_refuted_left_over).
- C83: a generator never reports endDocument (C83_refuted_end); values for both tags of an empty element, or for startDocument, are an error (C83_refuted_two_values, _start_document); after a value in an external entity the rest of the document is not read (C83_refuted_entity); after a generator the root of the next document may get a foreign xml:base (C83_refuted_stale_context).
- C83: startCDATA and endCDATA are reported before the character data that precedes and fills the section (C83_refuted_cdata).
- C83: xml:space="preserve" does not reach into external entities (C83_refuted_space); only the first element of an external entity gets its base URI, and gets an empty xml:lang (C83_refuted_base).
- C83: parseEntity twice with one reader crashes the interpreter (C83_refuted_entity_twice).
- C84: the time to compute the stack size doubles with each `or`, `and` and each conversion of a node set to a boolean, number or string: `v or v or ... or v` with n times `or` takes at least 2^n steps (C84_refuted_time).
- C84: 0 and -0 are the same constant, so that `0 + 1 div '-0'` is Infinity (C84_refuted_zero).
- C84: calls with 255 arguments or more, and unions of 256 paths or more, are compiled to calls with keyword arguments (C84_refuted_arguments).
- C84: a function call cannot be a part of a union: `id('a') | b` is a TypeError (C84_refuted_union_of_function).
- C84: the node, position and size of the context are not put back when there is an exception (C84_refuted_context).
- C84: an argument above 65535 (very large expressions) is a NameError, since `Instruction` is not defined in assembler.py:328 (modelled as AsmError.nameError).
- C85: the cache of element classes keeps unknown XSLT elements: once one has been read in forwards-compatible mode, version 1.0 stylesheets with it are accepted (C85_refuted_history).
- C85: after an error the reader keeps the open elements; the next stylesheet is merged into the one with the error (C85_refuted_after_error).
- C85: a literal result element as stylesheet cannot be included, imported or appended (C85_refuted_simplified_second), and not with version 0 (C85_refuted_version_zero).
- C85: the content of unknown elements is checked in forwards-compatible mode (C85_refuted_forwards).
- C85: xsl:extension-element-prefixes does not apply to the element that has it (C85_refuted_own_prefix); #default without a default namespace is accepted (C85_refuted_default_prefix).
- C85: empty strings are accepted as characters of xsl:decimal-format (C85_refuted_empty_char), qualified names not as data-type of xsl:sort (C85_refuted_data_type).
- C85: xsl:stylesheet is accepted inside unknown extension elements, and global variables then become local (C85_refuted_nested).
- C86: an excluded namespace that is declared again inside is copied to the result (C86_refuted_excluded); a prefix bound again to XSLT keeps its old namespace (C86_refuted_rebound).
- C86: aliases of aliases are applied to shared dictionaries and again when a stylesheet is appended (C86_refuted_shared, C86_refuted_again, C86_refuted_default); aliases with the prefix of another namespace lose one of them, which depends on the order of the dictionary (C86_refuted_prefix).
- C86: attribute sets replace the attributes of a literal result element (C86_refuted_own); attribute sets of the same name are not merged (C86_refuted_merge); circular ones are not found (C86_refuted_circular).
- C86: the same alias declared twice is an error (C86_refuted_same_alias).
- C87: with a base URI a reference of an unsupported scheme is opened (C87_refuted_scheme); schemes are compared with case (C87_refuted_case).
- C87: `authorizations=[]` grants everything, although authorize denies by default (C87_refuted_no_rules); a `urllib2.Request` is never opened (C87_refuted_request); handlers of a registry are called without authorization (C87_refuted_registry).
- C87: references with a scheme keep dot segments and encoded dots are decoded after authorization: both leave a jail (C87_refuted_jail).
- C87: external entities and included documents are opened with the default resolver, without the rules of the source (C87_refuted_entities).
- C88: triplets with one lower and one upper case letter are not normalised (C88_refuted_mixed); `iteritems` raises KeyError for malformed URIs (C88_refuted_items); get, pop, setdefault, update and the constructor are not overridden (C88_refuted_inherited).
- C88: document() gives a document twice for equivalent URIs in one node-set (C88_refuted_twice) and another document for a URI with a fragment (C88_refuted_fragment); an empty second argument is a NameError (C88_refuted_empty).
- C89: a `namespace` attribute on xupdate:element or xupdate:attribute is a TypeError, `namespace_avt` is called with one argument of two (C89_refuted_namespace); a variable name that is not a QName is an AttributeError, `INVALID_QNAME_ATTR` does not exist (C89_refuted_variable).
- C89: text of a no-break space is dropped as white space (C89_refuted_space); elements of other namespaces are accepted among the commands (C89_refuted_toplevel).
- C90: an xupdate:text without text raises IndexError and with a comment in it loses the text behind the comment (C90_refuted_text); value-of of an attribute where a string is made gives nothing (C90_refuted_attribute).
- C90: the `child` attribute of append is evaluated with the namespaces of the last instruction in the content (C90_refuted_child); names that are not QNames raise AttributeError, the error code does not exist (C90_refuted_name).
- C91: an optional element (eg:occurs="?") that is absent is refused, because `count(x) = 1` is demanded also for it (C91_refuted_optional).
- C91: constraints are per name and not per place, so an example in which elements of one name differ does not accept itself (C91_refuted_self).
- C91: elements with a prefix make validation recurse without end, because their length (and truth) counts siblings by qualified name; and a model whose example uses a prefix refuses documents that use another (C91_refuted_prefix).
- C91: `element_subtree_iter` is documented to be in document order and is not (C91_refuted_order).
- C92: node-sets are lists, so the second of two values that are node-sets is appended to the first instead of being put beside it (C92_refuted_nodesets).
- C92: an element that occurs in the example more than once has the context of the last occurrence only, and states further relationships once for each occurrence (C92_refuted_repeated).
- C93: the first of several siblings of one name has a path without a position, which selects all of them (C93_refuted_first).
- C93: a namespace name with a quotation mark makes a path that is a syntax error (C93_refuted_quote).
- C94: the report joins attributes with commas, so that a namespace name that contains `=u'` can make two different documents the same (C94_refuted_names).
- C94: the default namespace is reported as the prefix `None` (C94_refuted_prefix).
- C94: `whitespace=False` raises an AttributeError for documents, because the class has slots (C94_refuted_whitespace).
- C94: `lexical` has no effect (C94_refuted_lexical).
- C94: a reference to an entity that the parser does not know raises a TypeError, because the handler takes one argument and is called with two (C94_refuted_entities).
- C95: the end of `br` and the like does not clear the name of the open element, so that a `>` is written before whatever follows: `<p>a<br />>b</p>` (C95_refuted_break), and `<p><br/></p>` becomes `<p><br />/>` (C95_refuted_last).
- C95: `<` in attributes of any element is not escaped, and the output is not well-formed (C95_refuted_less).
- C95: characters with names are written as `&eacute;` and the like even without a document type declaration, which XML readers must reject (C95_refuted_names).
- C96: copy.copy of an element does not copy its namespace and attribute nodes: both elements list the same nodes, whose parent becomes the copy, and a change to one changes the other (C96_refuted_shallow).
- C96: copies of an attribute without an element raise SystemError, and the shallow copy of an attribute claims a parent that does not list it (C96_refuted_attribute).
- C96: an element whose name has a prefix but whose namespace was removed cannot be copied (C96_refuted_names).
- C97: `substitute` raises TypeError for values that are not strings, which the class of the standard library that it replaces, and `safe_substitute`, fill in (C97_refuted_number).
- C97: `safe_substitute` raises UnicodeDecodeError for UTF-8 byte strings that `substitute` fills in (C97_refuted_bytes).
- C99: words are counted for each child on its own, so that a word with markup in it can be divided (C99_refuted_border).
- C99: the words of comments and processing instructions are counted, and if the limit is reached in one, AttributeError is raised (C99_refuted_comment). The shallow copies also take the attribute nodes away from the original (C96_refuted_shallow).
- C100: for halves of surrogate pairs on their own, a legal character beside one is replaced together with it, and the last of three halves can stay, so that the result is not legal (C100_refuted_halves).
- C101: userinfo may contain '@', so 'http://a@b@c/' is accepted. In IPv6 addresses '(?:(?:h16:)?h16){0,n}' stands for '[ *n( h16 ":" ) h16 ]': 'http://[fe80:0:0::1]/' is rejected and 'http://[1:22223333:4::]/' is accepted. The '?' after '{1,4}' makes the repetition reluctant instead of optional, so 'http://[::1:2:3:4:5:6]/' is rejected. The documentation of matches_uri_syntax says that a URI does not end with a fragment; the pattern allows one, as the RFC's URI rule does.
- C102: a path relative to the directory of a drive ('c:a'), a path with a drive and a host, and one on the host 'localhost' come back as other paths (C102_refuted_back). A name that looks like a drive ('c|') at the start of a path is taken for one on the way back. The relative URI 'c%7C/a/b' becomes 'C:7C\a\b' (C102_refuted_escaped_drive).
- C103: basejoin('x', './a:b') is 'a:b', which has a scheme although neither argument has one (C103_refuted_scheme). join('file:///', 'etc') is 'file:/etc', the empty authority is stripped (C103_refuted_file). join('http://h/a?q', 'b') is 'http://h/b', the last segment is replaced (C103_refuted_query).
- C104: regexp:match with the flag g never returns for a pattern that matches the empty string at the end of the source, such as x*, whatever the source (C104_refuted_endless).
- C105: an IPv6 address as host ends in a ValueError (C105_refuted_ipv6).
- C106: values in single quotes, which xml-stylesheet allows, are not found; text in double quotes inside such a value is; of a name with a hyphen only the end is taken (C106_refuted_forms).
- C107: the documentation says that parameterize returns None if something cannot be converted; it is left out instead (C107_refuted_none).
