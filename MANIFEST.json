{
 "claims": [
  {
   "property": "C01",
   "status": "proved",
   "theorems": [
    "Verif.Iri.C01_split_unsplit",
    "Verif.Iri.C01_split_unsplit_all",
    "Verif.Iri.C01_newline_refuted"
   ],
   "note": "All strings; the regex treats newlines in fragments specially (C01_newline_refuted), so the lossless claim is for newline-free strings and C01_split_unsplit_all states exactly what happens otherwise."
  },
  {
   "property": "C02",
   "status": "proved",
   "theorems": [
    "Verif.Iri.C02_unsplit_split",
    "Verif.Iri.C02_split_is_the_parse",
    "Verif.Iri.C02_unsplit_is_recompose",
    "Verif.Iri.C02_needs_wellformed"
   ],
   "note": "WellFormed is the RFC 3986 appendix B disambiguation; also uniqueness of the parse."
  },
  {
   "property": "C03",
   "status": "partial",
   "theorems": [
    "Verif.Iri.C03_absolutize_rfc3986_partial",
    "Verif.Iri.C03_refuted_empty_query",
    "Verif.Iri.C03_refuted_absolute_dots",
    "Verif.Iri.C03_refuted_rootless_base",
    "Verif.Iri.C03_relative_base_rejected"
   ],
   "note": "Proved for hierarchical bases; refuted for '?' references, absolute references with dot segments and rootless base paths (C03_refuted_*)."
  },
  {
   "property": "C04",
   "status": "proved",
   "theorems": [
    "Verif.Iri.C04_remove_dot_segments_rfc",
    "Verif.Iri.C04_no_dot_segments",
    "Verif.Iri.C04_idempotent",
    "Verif.Iri.C04_identity_on_normal",
    "Verif.Iri.C04_relative_refuted"
   ],
   "note": "All absolute paths; relative paths are shown to differ (C04_relative_refuted)."
  },
  {
   "property": "C05",
   "status": "proved",
   "theorems": [
    "Verif.Iri.C05_decode_encode",
    "Verif.Iri.C05_decode_encode_plus",
    "Verif.Iri.C05_plus_refuted",
    "Verif.Iri.C05_encode_output",
    "Verif.Iri.C05_decode_meaning",
    "Verif.Iri.C05_unicode",
    "Verif.Iri.C05_lenient_refuted"
   ],
   "note": "Decoding an encoded string returns it, for every byte string and option set used by the API defaults; the spaceToPlus-without-encodeReserved option and int()'s leniency are refuted separately."
  },
  {
   "property": "C06",
   "status": "partial",
   "theorems": [
    "Verif.Iri.C06_relativize_inverse_partial",
    "Verif.Iri.C06_relativize_finds_partial",
    "Verif.Iri.C06_other_authority",
    "Verif.Iri.C06_refuted"
   ],
   "note": "Proved for normalised paths neither of which contains the other; the code returns wrong references in six other situations (C06_refuted)."
  },
  {
   "property": "C07",
   "status": "proved",
   "theorems": [
    "Verif.Iri.C07_split_fragment",
    "Verif.Iri.C07_strip_fragment"
   ],
   "note": ""
  },
  {
   "property": "C08",
   "status": "proved",
   "theorems": [
    "Verif.Iri.C08_path_uri_path",
    "Verif.Iri.C08_roundtrip",
    "Verif.Iri.C08_refuses",
    "Verif.Iri.C08_local_hosts"
   ],
   "note": "POSIX branch only (os.name == 'posix')."
  },
  {
   "property": "C09",
   "status": "proved",
   "theorems": [
    "Verif.Iri.C09_roundtrip",
    "Verif.Iri.C09_normalises",
    "Verif.Iri.C09_alphabet",
    "Verif.Iri.C09_refuses"
   ],
   "note": "For public identifiers over the public-id alphabet; whitespace is normalised exactly as XML requires."
  },
  {
   "property": "C10",
   "status": "proved",
   "theorems": [
    "Verif.Iri.C10_get_scheme",
    "Verif.Iri.C10_is_absolute",
    "Verif.Iri.C10_scheme_agrees"
   ],
   "note": ""
  },
  {
   "property": "C11",
   "status": "partial",
   "theorems": [
    "Verif.Iri.C11_ascii_unchanged",
    "Verif.Iri.C11_ascii_result_partial",
    "Verif.Iri.C11_idempotent_partial",
    "Verif.Iri.C11_decodes_back_partial",
    "Verif.Iri.C11_refuted_x80",
    "Verif.Iri.C11_refuted_bmp",
    "Verif.Iri.C11_refuted_surrogate"
   ],
   "note": "The code lets U+0080 through, raises on U+E000..U+FFFF and re-pairs broken surrogates; those are refuted by concrete witnesses, the rest is proved."
  },
  {
   "property": "C12",
   "status": "partial",
   "theorems": [
    "Verif.Iri.C12_path_idempotent",
    "Verif.Iri.C12_path_meaning",
    "Verif.Iri.C12_percent_meaning_partial",
    "Verif.Iri.C12_percent_idempotent_partial",
    "Verif.Iri.C12_percent_refuted",
    "Verif.Iri.C12_case_idempotent",
    "Verif.Iri.C12_case_only",
    "Verif.Iri.C12_case_meaning",
    "Verif.Iri.C12_host_meaning",
    "Verif.Iri.C12_case_mixed_refuted"
   ],
   "note": "Path and case idempotence proved; percent normalisation is not idempotent on malformed percent signs (refuted), proved on well-formed input."
  },
  {
   "property": "C13",
   "status": "partial",
   "theorems": [
    "Verif.Dom.C13_partial",
    "Verif.Dom.C13_defined_partial",
    "Verif.Dom.C13_refuted"
   ],
   "note": "Every sequence of legal edits keeps the forest well formed; legality excludes the uses of append/insert/replace for which the code leaves an unwritten slot, makes a cycle or admits a wrong kind (C13_refuted)."
  },
  {
   "property": "C14",
   "status": "partial",
   "theorems": [
    "Verif.Dom.C14_append_partial",
    "Verif.Dom.C14_rejects",
    "Verif.Dom.C14_insert_partial",
    "Verif.Dom.C14_remove",
    "Verif.Dom.C14_replace_partial",
    "Verif.Dom.C14_replace_trivial",
    "Verif.Dom.C14_refuted"
   ],
   "note": "Exact effect of append, insert, remove, replace on the edited container, the node and everything else, for the uses where the code is right; C14_refuted shows the others."
  },
  {
   "property": "C15",
   "status": "proved",
   "theorems": [
    "Verif.Dom.C15_document_order",
    "Verif.Dom.C15_strict_total",
    "Verif.Dom.C15_attributes_partial",
    "Verif.Dom.C15_documents",
    "Verif.Dom.C15_refuted"
   ],
   "note": "Element, text, comment, PI and root nodes: all six operators are document order, a strict total order per tree; nodes of different trees keep a consistent order. Attributes: before the children of their element (C15_attributes_partial); two attributes of one element compare equal (C15_refuted)."
  },
  {
   "property": "C16",
   "status": "proved",
   "theorems": [
    "Verif.Dom.Table.C16_lookup",
    "Verif.Dom.Table.C16_insert_total",
    "Verif.Dom.Table.C16_iteration",
    "Verif.Dom.Table.C16_len",
    "Verif.Dom.Table.C16_delete_partial",
    "Verif.Dom.Table.C16_delete_refuted"
   ],
   "note": "All histories of insertions and replacements, all hash functions, word sizes and table sizes. Deletion (not part of the statement) loses colliding keys: C16_delete_refuted."
  },
  {
   "property": "C17",
   "status": "partial",
   "theorems": [
    "Verif.Dom.C17_lookup",
    "Verif.Dom.C17_prefix_complete",
    "Verif.Dom.C17_prefix_partial",
    "Verif.Dom.C17_prefix_refuted",
    "Verif.Dom.C17_inscope_partial",
    "Verif.Dom.C17_inscope_total",
    "Verif.Dom.C17_inscope_refuted"
   ],
   "note": "Prefix to namespace lookup is proved in full (C17_lookup). Namespace to prefix lookup and in-scope namespaces are wrong in the cases of C17_prefix_refuted and C17_inscope_refuted, and proved otherwise."
  },
  {
   "property": "C18",
   "status": "proved",
   "theorems": [
    "Verif.Dom.C18_string_value",
    "Verif.Dom.C18_string_value_exists",
    "Verif.Dom.C18_string_value_leaf",
    "Verif.Dom.C18_normalize",
    "Verif.Dom.C18_normalize_no_adjacent",
    "Verif.Dom.C18_normalize_string_value",
    "Verif.Dom.C18_documentation_refuted"
   ],
   "note": "String-values of all node kinds; xml_normalize: exact effect, no adjacent text, string-values of all containers unchanged. The docstring of xml_normalize promises more (C18_documentation_refuted)."
  },
  {
   "property": "C19",
   "status": "partial",
   "theorems": [
    "Verif.Dom.C19_axes_partial",
    "Verif.Dom.C19_deterministic",
    "Verif.Dom.C19_partition_partial",
    "Verif.Dom.C19_refuted",
    "Verif.Eval.C19_attribute_partial"
   ],
   "note": "All axes from tree nodes: exact members, order, partition, termination. From attribute nodes following/preceding/preceding-sibling raise (C19_refuted)."
  },
  {
   "property": "C20",
   "status": "partial",
   "theorems": [
    "Verif.XPath.C20_nodes_scalar_partial",
    "Verif.XPath.C20_scalar_nodes_partial",
    "Verif.XPath.C20_nodes_equality",
    "Verif.XPath.C20_nodes_relational_sound_partial",
    "Verif.XPath.C20_nodes_relational_partial",
    "Verif.XPath.C20_refuted"
   ],
   "note": "Comparisons of a node-set with a scalar, and = / != of two node-sets, are proved for all node-sets whose string-values convert; for < <= > >= of two node-sets the code only compares nodes with the same index (refuted), soundness and the at-most-one-node case are proved."
  },
  {
   "property": "C21",
   "status": "partial",
   "theorems": [
    "Verif.XPath.C21_scalar_compare_partial",
    "Verif.XPath.C21_string_boolean_compare",
    "Verif.XPath.C21_refuted"
   ],
   "note": "Proved for all scalars whose strings have a digit or do not look like a number; the digitless strings that raise ValueError are the refutation."
  },
  {
   "property": "C22",
   "status": "proved",
   "theorems": [
    "Verif.XPath.C22_translate"
   ],
   "note": "All strings and maps."
  },
  {
   "property": "C23",
   "status": "partial",
   "theorems": [
    "Verif.XPath.C23_substring_partial",
    "Verif.XPath.C23_refuted"
   ],
   "note": "Proved except for two families of arguments, each refuted by a witness (C23_refuted)."
  },
  {
   "property": "C24",
   "status": "partial",
   "theorems": [
    "Verif.XPath.C24_contains",
    "Verif.XPath.C24_starts_with",
    "Verif.XPath.C24_before_after_partial",
    "Verif.XPath.C24_before_after_absent",
    "Verif.XPath.C24_refuted"
   ],
   "note": "substring-after with an empty second argument is wrong (C24_refuted); everything else proved."
  },
  {
   "property": "C25",
   "status": "partial",
   "theorems": [
    "Verif.XPath.C25_words_partial",
    "Verif.XPath.C25_shape",
    "Verif.XPath.C25_idempotent",
    "Verif.XPath.C25_refuted"
   ],
   "note": "Proved for strings whose only white space is XML white space; other Unicode spaces are removed (C25_refuted)."
  },
  {
   "property": "C26",
   "status": "partial",
   "theorems": [
    "Verif.Eval.C26_value_partial",
    "Verif.Eval.C26_step_partial",
    "Verif.Eval.C26_predicate_partial",
    "Verif.Eval.C26_number_partial",
    "Verif.Eval.C26_last_partial",
    "Verif.Eval.C26_greater_partial",
    "Verif.Eval.C26_filter_partial",
    "Verif.Eval.C26_refuted_ge",
    "Verif.Eval.C26_refuted_last",
    "Verif.Eval.C26_refuted_string",
    "Verif.Eval.C26_refuted_eq",
    "Verif.Eval.C26_refuted_zero",
    "Verif.Eval.C26_refuted_lt"
   ],
   "note": "Predicates keep exactly the nodes XPath says, for all predicates in Good/PredOk; position() >= k, last() outside position() = e, string literals and position() = non-number are refuted. Values are unconditional on termination by C53."
  },
  {
   "property": "C27",
   "status": "partial",
   "theorems": [
    "Verif.Eval.C27_path_partial",
    "Verif.Eval.C27_absolute_partial",
    "Verif.Eval.C27_union_partial",
    "Verif.Eval.C27_members_partial",
    "Verif.Eval.C27_refuted",
    "Verif.Eval.C27_refuted_last",
    "Verif.Eval.C27_refuted_union"
   ],
   "note": "Exact members, once, in document order for all paths and unions in Good; members and weak order for all paths; refuted for paths that reach a node twice, last() in inner steps, unions of filter expressions."
  },
  {
   "property": "C28",
   "status": "partial",
   "theorems": [
    "Verif.Eval.C28_string_partial",
    "Verif.Eval.C28_number_partial",
    "Verif.Eval.C28_boolean_partial",
    "Verif.Eval.C28_refuted"
   ],
   "note": "For all node-set expressions whose nodes come in order; refuted for preceding-sibling after descendant."
  },
  {
   "property": "C29",
   "status": "partial",
   "theorems": [
    "Verif.XPath.C29_parse_number",
    "Verif.XPath.C29_parse_nan_partial",
    "Verif.XPath.C29_digitless",
    "Verif.XPath.C29_string_integer",
    "Verif.XPath.C29_round_trip",
    "Verif.XPath.C29_string_fraction_partial",
    "Verif.XPath.C29_digits_refuted",
    "Verif.XPath.C29_refuted"
   ],
   "note": "Grammar, NaN, integers and fixed notation proved; digitless strings raise, computed NaN/Infinity are misprinted, only 12 digits are kept and exponents appear (C29_refuted, C29_digits_refuted)."
  },
  {
   "property": "C30",
   "status": "partial",
   "theorems": [
    "Verif.XPath.C30_floor",
    "Verif.XPath.C30_ceiling",
    "Verif.XPath.C30_round_partial",
    "Verif.XPath.C30_mod_partial",
    "Verif.XPath.C30_refuted"
   ],
   "note": "floor and ceiling in full; round proved for fractional parts up to 1/2, mod where the remainder has the sign of the divisor; both refuted elsewhere (C30_refuted)."
  },
  {
   "property": "C31",
   "status": "partial",
   "theorems": [
    "Verif.Write.C31_text_read_back",
    "Verif.Write.C31_refuted_narrow",
    "Verif.Write.C31_refuted_ebcdic"
   ],
   "note": "Any character-by-character codec that agrees with ASCII or is wide and complete (ASCII, Latin-1, UTF-8, UTF-16 shown to qualify), both printers. Refuted for non-BMP characters in narrow builds and for EBCDIC."
  },
  {
   "property": "C32",
   "status": "partial",
   "theorems": [
    "Verif.Write.C32_attributes",
    "Verif.Write.C32_start_tag_read_back"
   ],
   "note": "As C31: every attribute and the whole start-tag. Refuted only where C31 is (narrow builds, EBCDIC)."
  },
  {
   "property": "C33",
   "status": "partial",
   "theorems": [
    "Verif.Write.C33_sections",
    "Verif.Write.C33_cdata_read_back",
    "Verif.Write.C33_refuted_cr",
    "Verif.Write.C33_refuted_canonical"
   ],
   "note": "Plain printer: C33_sections holds for every string. The canonical printer raises NameError for every string (refuted); CR in the data is changed by readers (refuted)."
  },
  {
   "property": "C34",
   "status": "partial",
   "theorems": [
    "Verif.Write.C34_content_written",
    "Verif.Write.C34_content_read_back",
    "Verif.Write.C34_document_written",
    "Verif.Write.C34_document_read_back",
    "Verif.Write.C34_canonical_document_read_back",
    "Verif.Write.C34_refuted_comment",
    "Verif.Write.C34_refuted_pi",
    "Verif.Write.C34_tree_read_back"
   ],
   "note": "Trees, content and documents, plain and canonical printer. False for comments with -- and for some processing instructions, which the printer does not refuse."
  },
  {
   "property": "C35",
   "status": "partial",
   "theorems": [
    "Verif.Write.C35_big_endian",
    "Verif.Write.C35_refuted_little_endian",
    "Verif.Write.C35_refuted_alias"
   ],
   "note": "Proved for big-endian machines; refuted for little-endian machines and for the alias utf16."
  },
  {
   "property": "C36",
   "status": "partial",
   "theorems": [
    "Verif.Content.C36_compile_terminates",
    "Verif.Content.C36_accepts_iff_partial",
    "Verif.Content.C36_refuses_iff_hopeless_partial",
    "Verif.Content.C36_builders",
    "Verif.Content.C36_refuted"
   ],
   "note": "Every content model without empty sequences, every event sequence, no bound; termination for every content model. An empty sequence accepts nothing, and the builders opt/rep1/rep overwrite an earlier quantity (C36_refuted)."
  },
  {
   "property": "C37",
   "status": "partial",
   "theorems": [
    "Verif.Xslt.C37_backwards_partial",
    "Verif.Xslt.C37_distinct",
    "Verif.Xslt.C37_palindrome_partial",
    "Verif.Xslt.C37_refuted"
   ],
   "note": "Labels are distinct, but the letters are in reverse order (refuted); proved: the reversed label is the right one, and labels that are palindromes are right."
  },
  {
   "property": "C38",
   "status": "partial",
   "theorems": [
    "Verif.Xslt.C38_roman_partial",
    "Verif.Xslt.C38_refuted_one",
    "Verif.Xslt.C38_refuted_ten",
    "Verif.Xslt.C38_decimal",
    "Verif.Xslt.C38_refuted_grouping",
    "Verif.Xslt.C38_refuted_unsupported"
   ],
   "note": "Decimal numbering is proved for all tokens 0..01; roman numerals are right only for 2-9 (numbers from 1000000 on are written in decimal); 1 and 10-999999 are refuted, as are grouping and tokens of other scripts."
  },
  {
   "property": "C39",
   "status": "partial",
   "theorems": [
    "Verif.Xslt.C39_difference",
    "Verif.Xslt.C39_intersection",
    "Verif.Xslt.C39_has_same_node",
    "Verif.Xslt.C39_distinct",
    "Verif.Xslt.C39_refuted_leading",
    "Verif.Xslt.C39_refuted_distinct_twice"
   ],
   "note": "difference, intersection, has-same-node and distinct are proved; leading and trailing always raise NameError, and distinct reverses a variable in place (refuted)."
  },
  {
   "property": "C40",
   "status": "partial",
   "theorems": [
    "Verif.Xslt.C40_max",
    "Verif.Xslt.C40_min",
    "Verif.Xslt.C40_highest_partial",
    "Verif.Xslt.C40_lowest_partial",
    "Verif.Xslt.C40_highest_exists",
    "Verif.Xslt.C40_refuted_empty",
    "Verif.Xslt.C40_refuted_nan"
   ],
   "note": "max and min are proved for all node-sets; highest and lowest for non-empty node-sets without NaN; refuted otherwise."
  },
  {
   "property": "C41",
   "status": "proved",
   "theorems": [
    "Verif.Util.C41_unique",
    "Verif.Util.C41_pieces",
    "Verif.Util.C41_chunks",
    "Verif.Util.C41_refuted_zero"
   ],
   "note": "For every separator and every buffer size but 0; a buffer size of 0 is shown to read nothing."
  },
  {
   "property": "C42",
   "status": "proved",
   "theorems": [
    "Verif.Util.C42_parse",
    "Verif.Util.C42_roundtrip",
    "Verif.Util.C42_refuted_seconds"
   ],
   "note": "For offsets of whole minutes below 100 hours; seconds are shown to be dropped."
  },
  {
   "property": "C43",
   "status": "partial",
   "theorems": [
    "Verif.Util.C43_once_partial",
    "Verif.Util.C43_refuted_order",
    "Verif.Util.C43_refuted_root"
   ],
   "note": "Each element once is proved; the order and the meaning of include_root are refuted."
  },
  {
   "property": "C44",
   "status": "proved",
   "theorems": [
    "Verif.Names.C44_split_make",
    "Verif.Names.C44_split_make_none",
    "Verif.Names.C44_make_split",
    "Verif.Names.C44_refuted_colon",
    "Verif.Names.C44_qname_parts"
   ],
   "note": "For names that do not begin with a colon and non-empty prefixes, as stated; the case of a leading colon is refuted."
  },
  {
   "property": "C45",
   "status": "partial",
   "theorems": [
    "Verif.Push.C45_pushtree_selects_partial",
    "Verif.Push.C45_child_path_partial",
    "Verif.Push.C45_refuted_namespace",
    "Verif.Push.C45_refuted_wildcard",
    "Verif.Push.C45_refuted_descendant",
    "Verif.Push.C45_refuted_assertions",
    "Verif.Push.C45_refuted_attribute"
   ],
   "note": "Proved for unions of paths pushtree can compile, for every document in which no name satisfies two different tests of the pattern and no unprefixed name of the pattern occurs with a namespace, and for /a/b/... without the former condition; whatever the iteration order of sets. Refuted otherwise: namespaces ignored, */b, //a//b, AssertionError and ValueError for some paths."
  },
  {
   "property": "C46",
   "status": "proved",
   "theorems": [
    "Verif.Content.C46_no_error_iff_valid",
    "Verif.Content.C46_refuted"
   ],
   "note": "Attribute validation is outside the statement. With white space stripping (stylesheets) the claim fails for ANY, and contexts recycled for undeclared elements produce extra errors (C46_refuted)."
  },
  {
   "property": "C47",
   "status": "partial",
   "theorems": [
    "Verif.XPath.C47_add",
    "Verif.XPath.C47_neg",
    "Verif.XPath.C47_sub",
    "Verif.XPath.C47_mul",
    "Verif.XPath.C47_div",
    "Verif.XPath.C47_sum",
    "Verif.XPath.C47_sum_nan",
    "Verif.XPath.C47_refuted"
   ],
   "note": "All operators, all operands, any rounding; division by negative zero has the wrong sign (C47_refuted)."
  },
  {
   "property": "C48",
   "status": "partial",
   "theorems": [
    "Verif.Dom.C48_partial",
    "Verif.Dom.node.C48_refuted"
   ],
   "note": "False for namespace nodes (C48_refuted); proved for all other nodes."
  },
  {
   "property": "C49",
   "status": "partial",
   "theorems": [
    "Verif.Dom.C49_nodeid_partial",
    "Verif.Dom.nodes.C49_refuted"
   ],
   "note": "Proved for all forests in which attributes and namespace nodes are in the maps of their parents; false after xml_namespaces has been read (C49_refuted)."
  },
  {
   "property": "C50",
   "status": "partial",
   "theorems": [
    "Verif.Dom.C50_base_partial",
    "Verif.Dom.C50_base_total",
    "Verif.Dom.C50_refuted"
   ],
   "note": "False for elements without a parent (C50_refuted); proved for every other tree."
  },
  {
   "property": "C51",
   "status": "partial",
   "theorems": [
    "Verif.Eval.C51_partial",
    "Verif.Eval.C51_refuted",
    "Verif.Eval.C51_refuted_string"
   ],
   "note": "For all expressions in Good; refuted for numeric literals."
  },
  {
   "property": "C52",
   "status": "proved",
   "theorems": [
    "Verif.Eval.C52"
   ],
   "note": "For every expression, document, context and method, whenever evaluation returns."
  },
  {
   "property": "C53",
   "status": "proved",
   "theorems": [
    "Verif.Eval.C53_ends",
    "Verif.Eval.C53_unique"
   ],
   "note": "For every expression, well-formed heap, context and method."
  },
  {
   "property": "C54",
   "status": "partial",
   "theorems": [
    "Verif.Write.C54_document_read_back",
    "Verif.Write.C54_document_written",
    "Verif.Write.C54_element_read_back",
    "Verif.Write.C54_element_written",
    "Verif.Write.C54_refuted_undeclared_default",
    "Verif.Write.C54_refuted_attribute_prefix"
   ],
   "note": "Every tree whose prefixes are declared by namespace nodes; false for two kinds of trees made through the API without declarations (see the refutations)."
  },
  {
   "property": "C55",
   "status": "partial",
   "theorems": [
    "Verif.Xslt.C55_formatmany",
    "Verif.Xslt.C55_format",
    "Verif.Xslt.C55_split",
    "Verif.Xslt.C55_refuted_empty"
   ],
   "note": "Proved for every format string and every non-empty list of numbers; refuted for the empty list (only the suffix is written)."
  },
  {
   "property": "C56",
   "status": "partial",
   "theorems": [
    "Verif.Util.C56_parse",
    "Verif.Util.C56_tostring",
    "Verif.Util.C56_roundtrip",
    "Verif.Util.C56_refuted_east",
    "Verif.Util.C56_refuted_before_1900",
    "Verif.Util.C56_refuted_fraction",
    "Verif.Util.C56_refuted_ordinal"
   ],
   "note": "Proved for offsets not east of Greenwich and years from 1900; the rest is refuted."
  },
  {
   "property": "C57",
   "status": "partial",
   "theorems": [
    "Verif.Names.C57_tables",
    "Verif.Names.C57_isname",
    "Verif.Names.C57_isncname",
    "Verif.Names.C57_isqname",
    "Verif.Names.C57_isnames",
    "Verif.Names.C57_isnmtoken_partial",
    "Verif.Names.C57_refuted_nmtoken",
    "Verif.Names.C57_refuted_nul",
    "Verif.Names.C57_refuted_overrun"
   ],
   "note": "Proved for the character tables, names, NCNames, QNames and lists of names without U+0000; refuted for name tokens and for strings with U+0000."
  },
  {
   "property": "C58",
   "status": "partial",
   "theorems": [
    "Verif.Template.C58_sound_partial",
    "Verif.Template.C58_exact_partial",
    "Verif.Template.C58_ends",
    "Verif.Template.C58_alternatives_partial",
    "Verif.Template.C58_refuted_nearest",
    "Verif.Template.C58_refuted_absolute",
    "Verif.Template.C58_refuted_node",
    "Verif.Template.C58_refuted_pi",
    "Verif.Template.C58_refuted_target",
    "Verif.Template.C58_refuted_attribute",
    "Verif.Template.C58_refuted_id"
   ],
   "note": "Sound for all patterns with the supported node tests; exact when no `/` stands left of a `//`; always ends. Refuted for backtracking, node(), processing-instruction(), predicates on attributes and id()//."
  },
  {
   "property": "C59",
   "status": "partial",
   "theorems": [
    "Verif.Template.C59_chosen_partial",
    "Verif.Template.C59_conflict_partial",
    "Verif.Template.C59_imports_partial",
    "Verif.Template.C59_ends",
    "Verif.Template.C59_refuted_conflict",
    "Verif.Template.C59_refuted_priority",
    "Verif.Template.C59_refuted_pi",
    "Verif.Template.C59_refuted_node"
   ],
   "note": "Proved for stylesheets whose patterns are handled rightly for the node (C58) and have no // at the start without priority: the rule is one with the highest import precedence and priority, the first such; refuted: the last one in the stylesheet (conflict), default priority of //x, processing instructions, node() at the root. apply-imports: rules of lower import precedence."
  },
  {
   "property": "C60",
   "status": "partial",
   "theorems": [
    "Verif.Xslt.C60_order_partial",
    "Verif.Xslt.C60_focus",
    "Verif.Xslt.C60_ends",
    "Verif.Xslt.C60_refuted_current",
    "Verif.Xslt.C60_refuted_case",
    "Verif.Xslt.C60_refuted_cycle"
   ],
   "note": "order, focus and termination proved for every document and every list of keys without case-order; case-order and current() are refuted"
  },
  {
   "property": "C61",
   "status": "partial",
   "theorems": [
    "Verif.Xslt.C61_result_partial",
    "Verif.Xslt.C61_unique",
    "Verif.Xslt.C61_ends_partial",
    "Verif.Xslt.C61_nested",
    "Verif.Xslt.C61_focus",
    "Verif.Xslt.C61_refuted_sort",
    "Verif.Xslt.C61_refuted_scope",
    "Verif.Xslt.C61_refuted_default",
    "Verif.Xslt.C61_refuted_override",
    "Verif.Xslt.C61_refuted_current",
    "Verif.Xslt.C61_refuted_copy",
    "Verif.Xslt.C61_refuted_comment",
    "Verif.Xslt.C61_refuted_pi"
   ],
   "note": "result proved for every document and every stylesheet within SourceOk, with tail calls turned into loops; focus, nesting and independence of fuel unconditionally; termination under a rank condition; refuted: sort with variables, dynamic scope, tail calls of overridden templates, current(), copies of comments, dashes in comments, PI data"
  },
  {
   "property": "C62",
   "status": "partial",
   "theorems": [
    "Verif.Xslt.C62_precedence_partial",
    "Verif.Xslt.C62_unique",
    "Verif.Xslt.C62_sorted",
    "Verif.Xslt.C62_errors",
    "Verif.Xslt.C62_ends",
    "Verif.Xslt.C62_variables",
    "Verif.Xslt.C62_variables_any",
    "Verif.Xslt.C62_variable_used",
    "Verif.Xslt.C62_output",
    "Verif.Xslt.C62_alias_partial",
    "Verif.Xslt.C62_alias_raises",
    "Verif.Xslt.C62_attribute_sets",
    "Verif.Xslt.C62_attribute_sets_end",
    "Verif.Xslt.C62_refuted_include",
    "Verif.Xslt.C62_refuted_include_variable",
    "Verif.Xslt.C62_refuted_apply_imports",
    "Verif.Xslt.C62_refuted_alias",
    "Verif.Xslt.C62_refuted_attribute_sets",
    "Verif.Xslt.C62_refuted_circular_sets"
   ],
   "note": "Proved: the numbering for all stylesheets in which no declaration comes before the inclusion of a stylesheet with imports; order, errors, termination, variables and output parameters in general. Refuted: inclusion of stylesheets with imports after declarations, apply-imports, repeated aliases, attribute sets with the same name, circular attribute sets."
  },
  {
   "property": "C63",
   "status": "partial",
   "theorems": [
    "Verif.Xslt.C63_reader",
    "Verif.Xslt.C63_unique",
    "Verif.Xslt.C63_stylesheet",
    "Verif.Xslt.C63_rules_partial",
    "Verif.Xslt.C63_wins_unique",
    "Verif.Xslt.C63_rules_single",
    "Verif.Xslt.C63_refuted_imports",
    "Verif.Xslt.C63_refuted_processor"
   ],
   "note": "Proved: the reader for all rules and documents, stylesheets, the choice of rules when no less specific test has a higher import precedence (in particular without imports). Refuted: rules with different import precedence; the processor does not use the rules."
  },
  {
   "property": "C64",
   "status": "partial",
   "theorems": [
    "Verif.Parse.C64_total",
    "Verif.Parse.C64_sound",
    "Verif.Parse.C64_complete",
    "Verif.Parse.C64_no_false_error",
    "Verif.Parse.C64_w3c_partial",
    "Verif.Parse.C64_w3c_sound",
    "Verif.Parse.C64_unambiguous",
    "Verif.Parse.C64_error",
    "Verif.Parse.C64_refuted_minus",
    "Verif.Parse.C64_refuted_literal",
    "Verif.Parse.C64_refuted_nested"
   ],
   "note": "Proved for all sequences of tokens: termination, soundness, unambiguity, error positions, no false syntax errors; completeness below 500 tokens. Refuted against the recommendation: repeated minus signs, literals in node tests, deep nesting."
  },
  {
   "property": "C65",
   "status": "partial",
   "theorems": [
    "Verif.Parse.C65_total",
    "Verif.Parse.C65_lossless",
    "Verif.Parse.C65_tokens_partial",
    "Verif.Parse.C65_unambiguous",
    "Verif.Parse.C65_compile_total",
    "Verif.Parse.C65_compile_partial",
    "Verif.Parse.C65_reject",
    "Verif.Parse.C65_refuted_operator",
    "Verif.Parse.C65_refuted_digit",
    "Verif.Parse.C65_refuted_nul"
   ],
   "note": "Proved for all texts: the lexer ends, loses nothing, gives every text with tokens exactly these tokens; a text of less than 500 tokens that is an expression is compiled. Refuted: texts without tokens that are compiled nevertheless."
  },
  {
   "property": "C66",
   "status": "partial",
   "theorems": [
    "Verif.Parse.C66_total",
    "Verif.Parse.C66_meaning_partial",
    "Verif.Parse.C66_evaluate_partial",
    "Verif.Parse.C66_exact_partial",
    "Verif.Parse.C66_one_meaning",
    "Verif.Parse.C66_arity",
    "Verif.Parse.C66_slashes",
    "Verif.Parse.C66_arithmetic",
    "Verif.Parse.C66_comparison",
    "Verif.Parse.C66_node_test",
    "Verif.Parse.C66_refuted_errors",
    "Verif.Parse.C66_refuted_literal"
   ],
   "note": "Proved for all texts of less than 500 tokens (fewer than the unchecked stack allows): an expression is compiled and has the value of the recommendation in every context; nothing else is compiled, apart from literals in node types; calls are accepted exactly by the number of arguments; no action routine is stuck. Refuted: some texts that are no expressions raise exceptions that are not errors of XPath."
  },
  {
   "property": "C67",
   "status": "partial",
   "theorems": [
    "Verif.Bind.C67_identifier",
    "Verif.Bind.C67_names_partial",
    "Verif.Bind.C67_attribute_partial",
    "Verif.Bind.C67_sound",
    "Verif.Bind.C67_sequence",
    "Verif.Bind.C67_assign_element",
    "Verif.Bind.C67_assign_attribute",
    "Verif.Bind.C67_assign_new",
    "Verif.Bind.C67_delete",
    "Verif.Bind.C67_fixup",
    "Verif.Bind.C67_refuted_clash",
    "Verif.Bind.C67_refuted_namesakes",
    "Verif.Bind.C67_refuted_prefix",
    "Verif.Bind.C67_refuted_root",
    "Verif.Bind.C67_item",
    "Verif.Bind.C67_refuted_delete_item",
    "Verif.Bind.C67_refuted_set_item",
    "Verif.Bind.C67_refuted_parse"
   ],
   "note": "Proved for every program whose classes have vocabularies without clashes of Python names: every child and attribute is read by its name; for all programs: what is read is the first child or the attribute of that name, sequences of namesakes, the effects of assignments, deletions and xml_fixup, and that names are allowed identifiers. Refuted: clashes make children and attributes unreadable, depending on what was parsed before; prefixed elements have length 0; del e[name] and e[name] = text."
  },
  {
   "property": "C68",
   "status": "partial",
   "theorems": [
    "Verif.Xslt.Count.C68_deterministic",
    "Verif.Xslt.Count.C68_multiple_partial",
    "Verif.Xslt.Count.C68_any_partial",
    "Verif.Xslt.Count.C68_single_partial",
    "Verif.Xslt.Count.C68_refuted_root",
    "Verif.Xslt.Count.C68_refuted_zero",
    "Verif.Xslt.Count.C68_refuted_from",
    "Verif.Xslt.Count.C68_refuted_target",
    "Verif.Xslt.Count.C68_refuted_default",
    "Verif.Xslt.Count.C68_refuted_text",
    "Verif.Xslt.Count.C68_refuted_attribute"
   ],
   "note": "Proved for all documents and patterns: multiple; any where from does not match the current node; single with count that does not match the root node, and for elements without patterns; for tree nodes, and with default count not at processing instructions. Refuted: TypeError for no match, default count with from, current nodes that are texts or attributes, targets."
  },
  {
   "property": "C69",
   "status": "partial",
   "theorems": [
    "Verif.Template.C69_partial",
    "Verif.Template.C69_order",
    "Verif.Template.C69_once_partial",
    "Verif.Template.C69_ends",
    "Verif.Template.C69_refuted_twice",
    "Verif.Template.C69_refuted_node"
   ],
   "note": "Proved for all documents, for patterns and expressions that C58, C59 and C26 handle: the nodes returned are exactly those with the key; order; once for arguments that are no node-sets; the call ends. Refuted: repeated nodes for node-set arguments, match=node()."
  },
  {
   "property": "C70",
   "status": "partial",
   "theorems": [
    "Verif.Decimal.C70_partial",
    "Verif.Decimal.C70_integer",
    "Verif.Decimal.C70_needless_zero",
    "Verif.Decimal.C70_pattern_kept",
    "Verif.Decimal.C70_nan",
    "Verif.Decimal.C70_infinity",
    "Verif.Decimal.C70_refuted_carry",
    "Verif.Decimal.C70_refuted_rounding",
    "Verif.Decimal.C70_refuted_zero",
    "Verif.Decimal.C70_refuted_sign",
    "Verif.Decimal.C70_refuted_suffix",
    "Verif.Decimal.C70_refuted_quote",
    "Verif.Decimal.C70_refuted_quoted_suffix",
    "Verif.Decimal.C70_refuted_grammar",
    "Verif.Decimal.C70_refuted_bounds"
   ],
   "note": "Proved for every quote-free pattern of the grammar with at most 28 fraction digits and 309 required integer digits, all finite numbers that do not get one more digit by rounding: the text is the formatted number off by less than 0.55 of the last place (closest unless the next digit is 5); integers exactly; NaN and infinities; the pattern is kept. Refuted: carries, ties, needless zeros, signs with affixes, quotes, patterns outside the grammar."
  },
  {
   "property": "C71",
   "status": "partial",
   "theorems": [
    "Verif.XUpdate.C71_content",
    "Verif.XUpdate.C71_append",
    "Verif.XUpdate.C71_insert_before",
    "Verif.XUpdate.C71_insert_after",
    "Verif.XUpdate.C71_remove",
    "Verif.XUpdate.C71_update",
    "Verif.XUpdate.C71_update_empty",
    "Verif.XUpdate.C71_rename",
    "Verif.XUpdate.C71_empty",
    "Verif.XUpdate.C71_order",
    "Verif.XUpdate.C71_refuted_attribute",
    "Verif.XUpdate.C71_refuted_child",
    "Verif.XUpdate.C71_refuted_rename_attribute",
    "Verif.XUpdate.C71_refuted_pi",
    "Verif.XUpdate.C71_refuted_beside",
    "Verif.XUpdate.C71_refuted_update",
    "Verif.XUpdate.C71_refuted_if"
   ],
   "note": "Proved for every document and target list for elements, text and comments; the code breaks it for attributes in content, attribute and processing-instruction renames, processing-instruction updates, the child position, the root as a target, and xupdate:if (refutations)."
  },
  {
   "property": "C72",
   "status": "partial",
   "theorems": [
    "Verif.Parse.C72_sound",
    "Verif.Parse.C72_complete",
    "Verif.Parse.C72_total",
    "Verif.Parse.C72_raises",
    "Verif.Parse.C72_unambiguous",
    "Verif.Parse.C72_attribute_sound",
    "Verif.Parse.C72_attribute_complete",
    "Verif.Parse.C72_attribute_invalid",
    "Verif.Parse.C72_short",
    "Verif.Parse.C72_refuted_errors"
   ],
   "note": "Proved for all texts (acceptance for texts without NUL whose expressions have less than 499 tokens); the part on errors is broken by the code: exceptions of expression constructors are not turned into INVALID_AVT (refutation)."
  },
  {
   "property": "C73",
   "status": "partial",
   "theorems": [
    "Verif.Parse.C73_total",
    "Verif.Parse.C73_exact_partial",
    "Verif.Parse.C73_sound",
    "Verif.Parse.C73_complete_partial",
    "Verif.Parse.C73_refuted_axes",
    "Verif.Parse.C73_refuted_id",
    "Verif.Parse.C73_refuted_literal",
    "Verif.Parse.C73_refuted_errors",
    "Verif.Parse.C73_refuted_slashes"
   ],
   "note": "Proved: what is accepted is a pattern and is made into what it should be, and exactly which patterns are accepted. Broken by the code: axes by name, id(), key() and processing-instruction('x') before the first predicate are refused (refutations)."
  },
  {
   "property": "C74",
   "status": "partial",
   "theorems": [
    "Verif.Write.C74_document_partial",
    "Verif.Write.C74_document_written",
    "Verif.Write.C74_object_partial",
    "Verif.Write.C74_refuted_false",
    "Verif.Write.C74_refuted_twice",
    "Verif.Write.C74_refuted_attribute",
    "Verif.Write.C74_refuted_late",
    "Verif.Write.C74_refuted_raw",
    "Verif.Write.C74_refuted_none",
    "Verif.Write.C74_refuted_again"
   ],
   "note": "Proved for all structures in which no prefix is declared twice for an element, NS objects come first, the first object of a content is true (or nothing is lost), the namespaces of attributes are those of their prefixes, and RAW nodes are not in the scope of a default namespace; the code is wrong for the others (C74_refuted_*)."
  },
  {
   "property": "C75",
   "status": "partial",
   "theorems": [
    "Verif.Globals.C75_values_partial",
    "Verif.Globals.C75_order_partial",
    "Verif.Globals.C75_again_partial",
    "Verif.Globals.C75_parameters",
    "Verif.Globals.C75_circular",
    "Verif.Globals.C75_refuted_again",
    "Verif.Globals.C75_refuted_focus",
    "Verif.Globals.C75_refuted_scope",
    "Verif.Globals.C75_refuted_shared"
   ],
   "note": "Proved for new stylesheet objects if no definition is given up inside of for-each, apply-templates or an element with local variables, and for used ones with select attributes if no parameter is missing that was passed before; the code is wrong otherwise (C75_refuted_*)."
  },
  {
   "property": "C76",
   "status": "partial",
   "theorems": [
    "Verif.Xslt.ExsltStr.C76_align_partial",
    "Verif.Xslt.ExsltStr.C76_align_length",
    "Verif.Xslt.ExsltStr.C76_refuted_align",
    "Verif.Xslt.ExsltStr.C76_concat",
    "Verif.Xslt.ExsltStr.C76_padding",
    "Verif.Xslt.ExsltStr.C76_padding_empty",
    "Verif.Xslt.ExsltStr.C76_padding_fails",
    "Verif.Xslt.ExsltStr.C76_split",
    "Verif.Xslt.ExsltStr.C76_split_join",
    "Verif.Xslt.ExsltStr.C76_tokenize",
    "Verif.Xslt.ExsltStr.C76_tokenize_tokens",
    "Verif.Xslt.ExsltStr.C76_characters",
    "Verif.Xslt.ExsltStr.C76_replace",
    "Verif.Xslt.ExsltStr.C76_replace_unique",
    "Verif.Xslt.ExsltStr.C76_replace_none",
    "Verif.Xslt.ExsltStr.C76_argument_partial",
    "Verif.Xslt.ExsltStr.C76_refuted_argument",
    "Verif.Xslt.ExsltStr.C76_refuted_uri"
   ],
   "note": "All of align (but for an empty string at the right), concat, padding, split, tokenize and replace; encode-uri and decode-uri do not work in the code."
  },
  {
   "property": "C77",
   "status": "partial",
   "theorems": [
    "Verif.Xslt.Output.C77_calls",
    "Verif.Xslt.Output.C77_method_given",
    "Verif.Xslt.Output.C77_method_shared",
    "Verif.Xslt.Output.C77_method_partial",
    "Verif.Xslt.Output.C77_transform_partial",
    "Verif.Xslt.Output.C77_transform_given",
    "Verif.Xslt.Output.C77_refuted_again"
   ],
   "note": "Everything for a stylesheet that is used once or that has a method; a stylesheet without a method that is used again keeps the method of its first use (C77_method_shared, C77_refuted_again)."
  },
  {
   "property": "C78",
   "status": "partial",
   "theorems": [
    "Verif.Write.XmlWriter.C78_document_partial",
    "Verif.Write.XmlWriter.C78_written",
    "Verif.Write.XmlWriter.C78_attribute",
    "Verif.Write.XmlWriter.C78_refuted_namespace",
    "Verif.Write.XmlWriter.C78_refuted_late"
   ],
   "note": "All documents with an XML declaration whose calls do not fail; without `namespace` no call fails (C78_written). `namespace` fails or spoils the document in the cases of the refutations; the canonical form, indentation and an omitted XML declaration are not covered."
  },
  {
   "property": "C79",
   "status": "proved",
   "theorems": [
    "Verif.Parse.Intern.C79_delivered",
    "Verif.Parse.Intern.C79_shared",
    "Verif.Parse.Intern.C79_released",
    "Verif.Parse.Intern.C79_ints"
   ],
   "note": "Up to 2^28 requests, so that C ints do not overflow (C79_ints); an empty string is shared among requests with the same character behind it in memory, as all strings that end with NUL have."
  },
  {
   "property": "C80",
   "status": "partial",
   "theorems": [
    "Verif.Write.Html.C80_written",
    "Verif.Write.Html.C80_document_partial",
    "Verif.Write.Html.C80_refuted_script",
    "Verif.Write.Html.C80_refuted_tilde",
    "Verif.Write.Html.C80_refuted_li"
   ],
   "note": "False of the code for script and style text with `<`, `>`, `&`, CR or non-ASCII characters, for U+02DC except in HTML 3.2, and for `compact` on `li`; proved for everything else. Elements in a namespace and unescaped text are not covered."
  },
  {
   "property": "C81",
   "status": "proved",
   "theorems": [
    "Verif.Write.C81_written",
    "Verif.Write.C81_document_read_back",
    "Verif.Write.C81_mixed_content"
   ],
   "note": ""
  },
  {
   "property": "C82",
   "status": "partial",
   "theorems": [
    "Verif.Dom.Build.C82_session_partial",
    "Verif.Dom.Build.C82_document_partial",
    "Verif.Dom.Build.C82_edit_partial",
    "Verif.Dom.Build.C82_refuted_failed",
    "Verif.Dom.Build.C82_refuted_start",
    "Verif.Dom.Build.C82_refuted_open",
    "Verif.Dom.Build.C82_refuted_factory",
    "Verif.Dom.Build.C82_refuted_insert"
   ],
   "note": "Proved for all sessions of edits and parses whose edits are those of C13, C14, with callbacks that leave a new element empty and do not move open ones; refuted for failed parses, children added in start-tag callbacks, moves of open elements, factories for comments and processing instructions, and insertion into the same parent."
  },
  {
   "property": "C83",
   "status": "partial",
   "theorems": [
    "Verif.Parse.Sax.C83_report_partial",
    "Verif.Parse.Sax.C83_generator_partial",
    "Verif.Parse.Sax.C83_reuse_partial",
    "Verif.Parse.Sax.C83_no_crash",
    "Verif.Parse.Sax.C83_refuted_left_over",
    "Verif.Parse.Sax.C83_refuted_end",
    "Verif.Parse.Sax.C83_refuted_two_values",
    "Verif.Parse.Sax.C83_refuted_start_document",
    "Verif.Parse.Sax.C83_refuted_entity",
    "Verif.Parse.Sax.C83_refuted_stale_context",
    "Verif.Parse.Sax.C83_refuted_cdata",
    "Verif.Parse.Sax.C83_refuted_space",
    "Verif.Parse.Sax.C83_refuted_base",
    "Verif.Parse.Sax.C83_refuted_entity_twice"
   ],
   "note": "Proved for all documents, cuttings, white space rules and histories, apart from the place of CDATA borders, xml:space across entities, added xml:base/xml:lang attributes on elements of external entities; generators for handlers that yield at one kind of event, once between two looks of Expat at its status, outside external entities; reuse after parses that do not break off in character data. The other cases are refuted."
  },
  {
   "property": "C84",
   "status": "partial",
   "theorems": [
    "Verif.Code.C84_code_computes",
    "Verif.Code.C84_compiles_iff",
    "Verif.Code.C84_assembled",
    "Verif.Code.C84_context_restored_partial",
    "Verif.Code.C84_refuted_time",
    "Verif.Code.C84_refuted_union_of_function",
    "Verif.Code.C84_refuted_zero",
    "Verif.Code.C84_refuted_arguments",
    "Verif.Code.C84_refuted_context"
   ],
   "note": "Full correctness of code for all expressions without calls of more than 255 arguments or constants that are equal as dictionary keys but different; exact condition for being compiled; code exists for up to 546 parts. The rest is refuted: exponential time, 0 and -0, large calls, functions in unions, context after an exception."
  },
  {
   "property": "C85",
   "status": "partial",
   "theorems": [
    "Verif.Xslt.Rd.C85_read",
    "Verif.Xslt.Rd.C85_history_partial",
    "Verif.Xslt.Rd.C85_history_known_partial",
    "Verif.Xslt.Rd.C85_refuted_history",
    "Verif.Xslt.Rd.C85_refuted_after_error",
    "Verif.Xslt.Rd.C85_refuted_simplified_second",
    "Verif.Xslt.Rd.C85_refuted_version_zero",
    "Verif.Xslt.Rd.C85_refuted_forwards",
    "Verif.Xslt.Rd.C85_refuted_own_prefix",
    "Verif.Xslt.Rd.C85_refuted_default_prefix",
    "Verif.Xslt.Rd.C85_refuted_empty_char",
    "Verif.Xslt.Rd.C85_refuted_data_type",
    "Verif.Xslt.Rd.C85_refuted_nested"
   ],
   "note": "Exact acceptance and tree for every document without a nested xsl:stylesheet, after every history. Independence of the history is proved for stylesheets without unknown XSLT elements (or histories without), and refuted otherwise; differences from XSLT in the values and in forwards-compatible mode are refuted by examples."
  },
  {
   "property": "C86",
   "status": "partial",
   "theorems": [
    "Verif.Xslt.Lre.C86_literals_partial",
    "Verif.Xslt.Lre.C86_aliases",
    "Verif.Xslt.Lre.C86_attribute_sets_partial",
    "Verif.Xslt.Lre.C86_attribute_sets_sound_partial",
    "Verif.Xslt.Lre.C86_literal_sets_partial",
    "Verif.Xslt.Lre.C86_refuted_excluded",
    "Verif.Xslt.Lre.C86_refuted_rebound",
    "Verif.Xslt.Lre.C86_refuted_shared",
    "Verif.Xslt.Lre.C86_refuted_again",
    "Verif.Xslt.Lre.C86_refuted_prefix",
    "Verif.Xslt.Lre.C86_refuted_default",
    "Verif.Xslt.Lre.C86_refuted_own",
    "Verif.Xslt.Lre.C86_refuted_merge",
    "Verif.Xslt.Lre.C86_refuted_circular",
    "Verif.Xslt.Lre.C86_refuted_same_alias"
   ],
   "note": "The namespaces are proved if no excluded namespace is declared again, no prefix of a namespace is bound to XSLT again, and aliases are not chained or of the same prefix; attribute sets if each name is defined once, and for literal elements if the names are disjoint. Each restriction is needed: refuted otherwise."
  },
  {
   "property": "C87",
   "status": "partial",
   "theorems": [
    "Verif.Iri.Resolver.C87_resolve_absolute",
    "Verif.Iri.Resolver.C87_resolve_based",
    "Verif.Iri.Resolver.C87_granted",
    "Verif.Iri.Resolver.C87_scheme_partial",
    "Verif.Iri.Resolver.C87_jail_partial",
    "Verif.Iri.Resolver.C87_source_partial",
    "Verif.Iri.Resolver.C87_registry_partial",
    "Verif.Iri.Resolver.C87_refuted_scheme",
    "Verif.Iri.Resolver.C87_refuted_case",
    "Verif.Iri.Resolver.C87_refuted_no_rules",
    "Verif.Iri.Resolver.C87_refuted_request",
    "Verif.Iri.Resolver.C87_refuted_registry",
    "Verif.Iri.Resolver.C87_refuted_jail",
    "Verif.Iri.Resolver.C87_refuted_entities"
   ],
   "note": "What is opened is proved for every reference and base; the supported schemes and the jail only for the references of the hypotheses, and for input sources only the first access: each refuted otherwise."
  },
  {
   "property": "C88",
   "status": "partial",
   "theorems": [
    "Verif.Iri.Uridict.C88_keys_partial",
    "Verif.Iri.Uridict.C88_dictionary_partial",
    "Verif.Iri.Uridict.C88_items_partial",
    "Verif.Iri.Uridict.C88_document_partial",
    "Verif.Iri.Uridict.C88_refuted_mixed",
    "Verif.Iri.Uridict.C88_refuted_items",
    "Verif.Iri.Uridict.C88_refuted_inherited",
    "Verif.Iri.Uridict.C88_relative",
    "Verif.Iri.Uridict.C88_refuted_twice",
    "Verif.Iri.Uridict.C88_refuted_fragment",
    "Verif.Iri.Uridict.C88_refuted_empty"
   ],
   "note": "Proved for URIs with a scheme and without line ends whose triplets are well-formed and of one case each; refuted for the others and for the inherited methods."
  },
  {
   "property": "C89",
   "status": "partial",
   "theorems": [
    "Verif.XUpdate.Read.C89_read_partial",
    "Verif.XUpdate.Read.C89_accepted_partial",
    "Verif.XUpdate.Read.C89_error_partial",
    "Verif.XUpdate.Read.C89_refuted_namespace",
    "Verif.XUpdate.Read.C89_refuted_variable",
    "Verif.XUpdate.Read.C89_refuted_space",
    "Verif.XUpdate.Read.C89_refuted_toplevel"
   ],
   "note": "Proved for all documents without a namespace attribute on xupdate:element and xupdate:attribute and with QNames as variable names; refuted for these."
  },
  {
   "property": "C90",
   "status": "partial",
   "theorems": [
    "Verif.XUpdate.Read.C90_tree_partial",
    "Verif.XUpdate.Read.C90_string_partial",
    "Verif.XUpdate.Read.C90_writers_partial",
    "Verif.XUpdate.Read.C90_attribute",
    "Verif.XUpdate.Read.C90_later",
    "Verif.XUpdate.Read.C90_refuted_text",
    "Verif.XUpdate.Read.C90_refuted_attribute",
    "Verif.XUpdate.Read.C90_refuted_child",
    "Verif.XUpdate.Read.C90_refuted_name"
   ],
   "note": "Proved where every xupdate:text has one run of text; refuted for the others, for value-of of attributes in strings and for the namespaces of child."
  },
  {
   "property": "C91",
   "status": "partial",
   "theorems": [
    "Verif.Eg.C91_validate_partial",
    "Verif.Eg.C91_self_partial",
    "Verif.Eg.C91_subtree",
    "Verif.Eg.C91_refuted_optional",
    "Verif.Eg.C91_refuted_self",
    "Verif.Eg.C91_refuted_prefix",
    "Verif.Eg.C91_refuted_order"
   ],
   "note": "Proved for examples without optional elements and documents whose elements are in no or default namespaces; refuted for optional elements, prefixes, and for the example itself when elements of one name differ."
  },
  {
   "property": "C92",
   "status": "partial",
   "theorems": [
    "Verif.Eg.Meta.C92_cues_partial",
    "Verif.Eg.Meta.C92_statements",
    "Verif.Eg.Meta.C92_dict_partial",
    "Verif.Eg.Meta.C92_refuted_nodesets",
    "Verif.Eg.Meta.C92_refuted_repeated"
   ],
   "note": "The statements are proved in full; the cues for elements that occur once in the example, the dictionary where the first value of a relationship is not a list; refuted for the others."
  },
  {
   "property": "C93",
   "status": "partial",
   "theorems": [
    "Verif.Path.C93_selects_partial",
    "Verif.Path.C93_unique_partial",
    "Verif.Path.C93_errors",
    "Verif.Path.C93_refuted_first",
    "Verif.Path.C93_refuted_quote"
   ],
   "note": "Proved for nodes at up to 99 levels (27 with the long form for default namespaces): the node is always selected, and alone if no element on the path is the first of several of its name. Refuted otherwise, and for namespace names with a quotation mark."
  },
  {
   "property": "C94",
   "status": "partial",
   "theorems": [
    "Verif.Compare.C94_complete",
    "Verif.Compare.C94_sound_partial",
    "Verif.Compare.C94_answers",
    "Verif.Compare.C94_check_partial",
    "Verif.Compare.C94_symmetric",
    "Verif.Compare.C94_refuted_names",
    "Verif.Compare.C94_refuted_prefix",
    "Verif.Compare.C94_refuted_whitespace",
    "Verif.Compare.C94_refuted_lexical",
    "Verif.Compare.C94_refuted_entities"
   ],
   "note": "Equal documents are always said to be equal, however the parser cuts the text; documents that are said to be equal are equal if no namespace name imitates the notation of the report and no prefix is None. Refuted for those names, for whitespace=False on documents, for lexical=False and for entities that the parser does not know."
  },
  {
   "property": "C95",
   "status": "partial",
   "theorems": [
    "Verif.Write.Xhtml.C95_read_back_partial",
    "Verif.Write.Xhtml.C95_written",
    "Verif.Write.Xhtml.C95_end_tags",
    "Verif.Write.Xhtml.C95_minimized",
    "Verif.Write.Xhtml.C95_refuted_break",
    "Verif.Write.Xhtml.C95_refuted_last",
    "Verif.Write.Xhtml.C95_refuted_less",
    "Verif.Write.Xhtml.C95_refuted_names"
   ],
   "note": "Reading back is proved for all documents without empty elements such as br, < in attributes, and characters with names outside of URIs; refuted for each of these. The form of the tags is proved for every element."
  },
  {
   "property": "C96",
   "status": "partial",
   "theorems": [
    "Verif.Dom.Copy.C96_deep_partial",
    "Verif.Dom.Copy.C96_original",
    "Verif.Dom.Copy.C96_shallow_partial",
    "Verif.Dom.Copy.C96_keys",
    "Verif.Dom.Copy.C96_refuted_shallow",
    "Verif.Dom.Copy.C96_refuted_attribute",
    "Verif.Dom.Copy.C96_refuted_names"
   ],
   "note": "Deep copies are proved for every node that is not an attribute on its own, in every well-formed document whose prefixed names have namespaces; shallow copies are proved to say the same and to leave children alone, and refuted for the sharing of attributes and namespaces."
  },
  {
   "property": "C97",
   "status": "partial",
   "theorems": [
    "Verif.Util.Template.C97_reads",
    "Verif.Util.Template.C97_substitute_partial",
    "Verif.Util.Template.C97_missing",
    "Verif.Util.Template.C97_invalid",
    "Verif.Util.Template.C97_safe_partial",
    "Verif.Util.Template.C97_one_reading",
    "Verif.Util.Template.C97_refuted_number",
    "Verif.Util.Template.C97_refuted_bytes"
   ],
   "note": "Proved for every template and all mappings to strings (safe_substitute: unicode strings); refuted for other values and, for safe_substitute, byte strings."
  },
  {
   "property": "C98",
   "status": "proved",
   "theorems": [
    "Verif.Dom.Unwrap.C98_unwrap",
    "Verif.Dom.Unwrap.C98_refused"
   ],
   "note": "Proved for every well-formed forest."
  },
  {
   "property": "C99",
   "status": "partial",
   "theorems": [
    "Verif.Util.Trim.C99_trim_partial",
    "Verif.Util.Trim.C99_beginning",
    "Verif.Util.Trim.C99_refuted_border",
    "Verif.Util.Trim.C99_refuted_comment"
   ],
   "note": "Proved for every tree in which no word goes across the border of a node and comments have no words; refuted for others. That the result is the beginning of the tree is proved for all trees."
  },
  {
   "property": "C100",
   "status": "partial",
   "theorems": [
    "Verif.Util.Legalize.C100_legalize_partial",
    "Verif.Util.Legalize.C100_identity",
    "Verif.Util.Legalize.C100_legal_partial",
    "Verif.Util.Legalize.C100_refuted_halves"
   ],
   "note": "Proved for every string of characters in both kinds of builds; refuted for strings with halves of surrogate pairs on their own."
  },
  {
   "property": "C101",
   "status": "partial",
   "theorems": [
    "Verif.Iri.Syntax.C101_without_brackets_partial",
    "Verif.Iri.Syntax.C101_exact_partial",
    "Verif.Iri.Syntax.C101_easy_is_rfc",
    "Verif.Iri.Syntax.C101_accepts_partial",
    "Verif.Iri.Syntax.C101_alphabet",
    "Verif.Iri.Syntax.C101_uri_is_reference",
    "Verif.Iri.Syntax.C101_refuted_userinfo",
    "Verif.Iri.Syntax.C101_refuted_rejects",
    "Verif.Iri.Syntax.C101_refuted_group"
   ],
   "note": "Exact without brackets and with at most one '@'; all RFC URIs with unproblematic addresses are accepted; the alphabet of what is accepted holds without restriction. The code violates the full statement (three refutations); the addresses with three or more groups before the '::' are not characterised."
  },
  {
   "property": "C102",
   "status": "partial",
   "theorems": [
    "Verif.Iri.Nt.C102_drive",
    "Verif.Iri.Nt.C102_root",
    "Verif.Iri.Nt.C102_unc",
    "Verif.Iri.Nt.C102_relative",
    "Verif.Iri.Nt.C102_refuses",
    "Verif.Iri.Nt.C102_refuted_back",
    "Verif.Iri.Nt.C102_refuted_escaped_drive"
   ],
   "note": "Proved for paths with a drive, from the root, on another computer and relative ones whose first name does not look like a drive; refuted for drive-relative paths, drive with host, and the host localhost."
  },
  {
   "property": "C103",
   "status": "partial",
   "theorems": [
    "Verif.Iri.C103_own_scheme",
    "Verif.Iri.C103_absolute_partial",
    "Verif.Iri.C103_relative_partial",
    "Verif.Iri.C103_join",
    "Verif.Iri.C103_refuted_scheme",
    "Verif.Iri.C103_refuted_file",
    "Verif.Iri.C103_refuted_query"
   ],
   "note": "basejoin proved for hierarchical bases under the conditions of C03, join for bases without query and plain names; refuted for non-hierarchical bases, an empty authority and a base with a query."
  },
  {
   "property": "C104",
   "status": "partial",
   "theorems": [
    "Verif.Xslt.Regexp.C104_match_global",
    "Verif.Xslt.Regexp.C104_match_ends_partial",
    "Verif.Xslt.Regexp.C104_match_ends_iff",
    "Verif.Xslt.Regexp.C104_refuted_endless",
    "Verif.Xslt.Regexp.C104_match_first",
    "Verif.Xslt.Regexp.C104_test",
    "Verif.Xslt.Regexp.C104_replace"
   ],
   "note": "Everything proved except that regexp:match returns for every pattern, which is refuted for patterns with empty matches."
  },
  {
   "property": "C105",
   "status": "partial",
   "theorems": [
    "Verif.Iri.C105_no_authority",
    "Verif.Iri.C105_reg_name",
    "Verif.Iri.C105_other_host",
    "Verif.Iri.C105_refuted_ipv6"
   ],
   "note": "Proved for authorities whose host has no colon; refuted for IPv6 addresses."
  },
  {
   "property": "C106",
   "status": "partial",
   "theorems": [
    "Verif.Util.Pseudo.C106_read",
    "Verif.Util.Pseudo.C106_no_other",
    "Verif.Util.Pseudo.C106_found",
    "Verif.Util.Pseudo.C106_refuted_forms"
   ],
   "note": "Proved for values in double quotes and names of word characters; refuted for single quotes and names with hyphens."
  },
  {
   "property": "C107",
   "status": "partial",
   "theorems": [
    "Verif.Path.Params.C107_paramvalue",
    "Verif.Path.Params.C107_parameterize",
    "Verif.Path.Params.C107_raises",
    "Verif.Path.Params.C107_refuted_none"
   ],
   "note": "The conversion is fully proved; the documented None for dictionaries that cannot be converted completely is refuted."
  }
 ]
}