{
 "claims": [
  {
   "property": "C01",
   "status": "partial",
   "theorems": [
    "KissXml.Props.C01_partial",
    "KissXml.Props.C01_empty_partial",
    "KissXml.Props.C01_ascii_end_partial",
    "KissXml.Props.C01_false",
    "KissXml.Props.C01_panic",
    "KissXml.Props.C01_corrupt"
   ],
   "note": "False as stated (witnesses). Exact characterisation of when it holds."
  },
  {
   "property": "C02",
   "status": "partial",
   "theorems": [
    "KissXml.Props.C02_partial",
    "KissXml.Props.C02_empty_partial",
    "KissXml.Props.C02_ascii_end_partial",
    "KissXml.Props.C02_false",
    "KissXml.Props.C02_panic",
    "KissXml.Props.C02_corrupt"
   ],
   "note": "False as stated (witnesses). Exact characterisation of when it holds."
  },
  {
   "property": "C03",
   "status": "proved",
   "theorems": [
    "KissXml.Props.C03_text_escape"
   ],
   "note": ""
  },
  {
   "property": "C04",
   "status": "proved",
   "theorems": [
    "KissXml.Props.C04_attribute_escape"
   ],
   "note": ""
  },
  {
   "property": "C05",
   "status": "proved",
   "theorems": [
    "KissXml.Props.C05_injective_compositional"
   ],
   "note": ""
  },
  {
   "property": "C06",
   "status": "proved",
   "theorems": [
    "KissXml.Props.C06_terminates"
   ],
   "note": ""
  },
  {
   "property": "C07",
   "status": "partial",
   "theorems": [
    "KissXml.Props.C07_partial",
    "KissXml.Props.C07_no_amp_partial",
    "KissXml.Props.C07_spaced_partial",
    "KissXml.Props.C07_false"
   ],
   "note": "False as stated (witnesses: panic, undecoded reference). Proved for strings ending in ASCII whose non-ASCII references are last, for strings without '&', and for strings with enough room after every &; C67 says exactly what happens on all strings."
  },
  {
   "property": "C08",
   "status": "proved",
   "theorems": [
    "KissXml.Props.C08_attribute_order",
    "KissXml.Props.C08_strict_total",
    "KissXml.Props.C08_xmlns_first"
   ],
   "note": "every start tag lists all attributes once in strictly increasing order; the order is strict, total and puts xmlns* first"
  },
  {
   "property": "C09",
   "status": "proved",
   "theorems": [
    "KissXml.Props.C09_element",
    "KissXml.Props.C09_document"
   ],
   "note": "same content up to map order gives the same string for every indent"
  },
  {
   "property": "C10",
   "status": "proved",
   "theorems": [
    "KissXml.Props.C10_element",
    "KissXml.Props.C10_element_invalid",
    "KissXml.Props.C10_document",
    "KissXml.Props.C10_node",
    "KissXml.Props.layout_functional"
   ],
   "note": "serialiser output is characterised by an independent layout relation with the effective indent"
  },
  {
   "property": "C100",
   "status": "partial",
   "theorems": [
    "KissXml.Props.C100_false",
    "KissXml.Props.C100_partial",
    "KissXml.Props.C100_runs"
   ],
   "note": "False as stated: `<a b=\"\" 1=\"x\" 2=\"y\"/>` is rejected with the name 1 or the name 2 (C100_false). C100_partial has everything else: two runs give equal documents with the same fields and text, the same error, both an error about an invalid attribute name, or both panic (C34). Model/AnyOrder leaves the order of each loop over a HashMap open; C100_runs shows that the model used elsewhere is one of its runs."
  },
  {
   "property": "C101",
   "status": "proved",
   "theorems": [
    "KissXml.Props.C101_build",
    "KissXml.Props.C101_calls",
    "KissXml.Props.C101_print",
    "KissXml.Props.C101_prefixes",
    "KissXml.Props.C101_bad_name",
    "KissXml.Props.C101_runs"
   ],
   "note": "Closures given to the calls are functions that give twin results for twin arguments (equal up to the order of maps). For maps with keys of other types see C103."
  },
  {
   "property": "C102",
   "status": "proved",
   "theorems": [
    "KissXml.Props.C102_counterpart",
    "KissXml.Props.C102_calls",
    "KissXml.Props.C102_removed",
    "KissXml.Props.C102_new",
    "KissXml.Props.C102_find",
    "KissXml.Props.C102_child_elements",
    "KissXml.Props.C102_comments",
    "KissXml.Props.C102_print",
    "KissXml.Props.C102_copy",
    "KissXml.Props.C102_compare",
    "KissXml.Props.C102_never_equal",
    "KissXml.Props.C102_remove_element",
    "KissXml.Props.C102_liars",
    "KissXml.Props.C102_comment_liars"
   ],
   "note": "The user's types contain no Element, Text, Comment or CData that their casts could give out, and give the same answer each time. Closures are functions that answer for a user's node as for the comment in its place."
  },
  {
   "property": "C103",
   "status": "proved",
   "theorems": [
    "KissXml.Props.C103_exact",
    "KissXml.Props.C103_attributes",
    "KissXml.Props.C103_distinct",
    "KissXml.Props.C103_any_wins",
    "KissXml.Props.C103_order_shows"
   ],
   "note": "Conversions are functions: the same key or value gives the same string each time."
  },
  {
   "property": "C104",
   "status": "proved",
   "theorems": [
    "KissXml.Props.C104_output",
    "KissXml.Props.C104_document",
    "KissXml.Props.C104_attributes",
    "KissXml.Props.C104_remove",
    "KissXml.Props.C104_append"
   ],
   "note": "For lines of the output to stay, the surrounding element must keep its layout; the examples show what happens otherwise (a first text puts the whole element on one line)."
  },
  {
   "property": "C105",
   "status": "proved",
   "theorems": [
    "KissXml.Props.C105_remove_by",
    "KissXml.Props.C105_remove_elements",
    "KissXml.Props.C105_remove_all",
    "KissXml.Props.C105_remove_all_elements",
    "KissXml.Props.C105_once",
    "KissXml.Props.C105_plain"
   ],
   "note": "Predicates cannot change the element while they are called: they get a shared reference, and the types of the crate have no cells."
  },
  {
   "property": "C106",
   "status": "proved",
   "theorems": [
    "KissXml.Props.C106_element",
    "KissXml.Props.C106_comment",
    "KissXml.Props.C106_cdata",
    "KissXml.Props.C106_text",
    "KissXml.Props.C106_out",
    "KissXml.Props.C106_replace"
   ],
   "note": "The place is given by the number of open elements and of elements, comments and CDATA sections before it (Hole.After), and by what follows. If there are other characters than white space on both sides of a node that is taken out, they become one text (C106_replace)."
  },
  {
   "property": "C107",
   "status": "proved",
   "theorems": [
    "KissXml.Props.C107_retag",
    "KissXml.Props.C107_add"
   ],
   "note": "The prefix and the namespace declarations of the tag stay as they are (in the same order); tags that begin with <?, which the parser accepts in some cases, are left out in C107_add: an example shows that it is false for them."
  },
  {
   "property": "C108",
   "status": "proved",
   "theorems": [
    "KissXml.Props.C108_comment",
    "KissXml.Props.C108_cdata",
    "KissXml.Props.C108_text",
    "KissXml.Props.C108_element",
    "KissXml.Props.C108_out",
    "KissXml.Props.C108_attr",
    "KissXml.Props.C108_attr_out"
   ],
   "note": "The place is given as in C106 and C107. For an inserted element the namespaces in it are left out: an example shows that they differ. Attributes are compared as maps."
  },
  {
   "property": "C109",
   "status": "proved",
   "theorems": [
    "KissXml.Props.C109_name",
    "KissXml.Props.C109_blank",
    "KissXml.Props.C109_all_blank",
    "KissXml.Props.C109_tag"
   ],
   "note": "The patterns are copied from the source character by character (Model/Pattern) and read by a reader for the notation of the regex crate (Spec/Pattern); notation that the reader does not know is refused, so that nothing is read wrongly. Limits on the size of compiled patterns are not modelled."
  },
  {
   "property": "C11",
   "status": "partial",
   "theorems": [
    "KissXml.Props.C11_partial",
    "KissXml.Props.C11_exact_partial",
    "KissXml.Props.C11_false"
   ],
   "note": "False for texts that unescape does not decode (witnesses, for every indent). Proved for DocFits documents; that the indent makes no difference also for DocShape documents whenever anything is read back."
  },
  {
   "property": "C110",
   "status": "proved",
   "theorems": [
    "KissXml.Props.C110_exact",
    "KissXml.Props.C110_swap",
    "KissXml.Props.C110_declaration",
    "KissXml.Props.C110_declaration_out",
    "KissXml.Props.C110_doctype",
    "KissXml.Props.C110_doctype_out",
    "KissXml.Props.C110_ignored",
    "KissXml.Props.C110_ignored_out",
    "KissXml.Props.C110_space"
   ],
   "note": "Inputs are given by their tokens (Parts); C110_exact is an equivalence, the others follow from it."
  },
  {
   "property": "C111",
   "status": "proved",
   "theorems": [
    "KissXml.Props.C111_frame",
    "KissXml.Props.C111_content",
    "KissXml.Props.C111_set_text",
    "KissXml.Props.C111_clear"
   ],
   "note": "The element is given by its tokens, as in C83 and C84. C111_content is an equivalence, and C111_set_text and C111_clear say which calls give the same tree."
  },
  {
   "property": "C112",
   "status": "proved",
   "theorems": [
    "KissXml.Props.C112_remove_by",
    "KissXml.Props.C112_remove_elements",
    "KissXml.Props.C112_remove_all",
    "KissXml.Props.C112_remove_all_elements",
    "KissXml.Props.C112_order",
    "KissXml.Props.C112_again",
    "KissXml.Props.C112_settles",
    "KissXml.Props.C112_all_or_none",
    "KissXml.Props.C112_text"
   ],
   "note": "An example shows that the condition on the predicate is needed: 'has no children' removes more when called again."
  },
  {
   "property": "C113",
   "status": "proved",
   "theorems": [
    "KissXml.Props.C113_same",
    "KissXml.Props.C113_by",
    "KissXml.Props.C113_first",
    "KissXml.Props.C113_none",
    "KissXml.Props.C113_all",
    "KissXml.Props.C113_front",
    "KissXml.Props.C113_one"
   ],
   "note": "That Vec::remove moves every later item is part of the standard library and so assumed; calls of the predicate and dropping of removed nodes are not counted."
  },
  {
   "property": "C114",
   "status": "proved",
   "theorems": [
    "KissXml.Props.C114_shape",
    "KissXml.Props.C114_other",
    "KissXml.Props.C114_panic",
    "KissXml.Props.C114_source"
   ],
   "note": "Namespaces are not compared, since values of xmlns attributes are among the values that may differ. Comments, CDATA and names from outside are not covered: see the claims on what the constructors check."
  },
  {
   "property": "C115",
   "status": "proved",
   "theorems": [
    "KissXml.Props.C115_text",
    "KissXml.Props.C115_tag",
    "KissXml.Props.C115_cut"
   ],
   "note": "C115_text and C115_tag are also about several top-level elements (which parse_str accepts, see C37): cut off between two of them, such an input is accepted. That text after the root element is accepted at all is against the documentation, see C38."
  },
  {
   "property": "C116",
   "status": "partial",
   "theorems": [
    "KissXml.Props.C116_false",
    "KissXml.Props.C116_false_swallow",
    "KissXml.Props.C116_false_root",
    "KissXml.Props.C116_partial",
    "KissXml.Props.C116_document_partial",
    "KissXml.Props.C116_exact",
    "KissXml.Props.C116_kept"
   ],
   "note": "False: comments and processing instructions in the internal subset are not recognised when looking for the end, so an apostrophe or an angle bracket in one of them makes the library reject the document (C116_false), take what follows as part of the declaration (C116_false_swallow) or read the content of a CDATA section as markup (C116_false_root). Partial: the claim whenever comments and processing instructions in the subset close their own quotes and brackets; C116_exact and C116_kept give exactly the strings that can be kept as document type."
  },
  {
   "property": "C117",
   "status": "partial",
   "theorems": [
    "KissXml.Props.C117_false",
    "KissXml.Props.C117_false_decoded",
    "KissXml.Props.C117_false_wide",
    "KissXml.Props.C117_false_comment",
    "KissXml.Props.C117_partial",
    "KissXml.Props.C117_ascii_partial",
    "KissXml.Props.C117_line_ends"
   ],
   "note": "False: numeric references to line ends (C117_false), texts with references whose last character is not ASCII (C117_false_decoded: other references are decoded; C117_false_wide: a panic) and a first comment before the root that is not ASCII (C117_false_comment: a panic). Partial: the claim, with exactly the replaced document as result, for all other inputs, among them all ASCII inputs without number signs (C117_ascii_partial). C117_line_ends: line ends are not normalised as the W3C recommendation demands."
  },
  {
   "property": "C118",
   "status": "partial",
   "theorems": [
    "KissXml.Props.C118_false_empty",
    "KissXml.Props.C118_false_default",
    "KissXml.Props.C118_false_twice",
    "KissXml.Props.C118_false_xml",
    "KissXml.Props.C118_false_undeclared",
    "KissXml.Props.C118_false_accepted",
    "KissXml.Props.C118_partial",
    "KissXml.Props.C118_prefixed",
    "KissXml.Props.C118_default"
   ],
   "note": "False for an empty default namespace, for an unprefixed element inside of a prefixed one, for xmlns:xmlns:p attributes and for the prefix xml (five witnesses); C118_false_accepted: documents that break the constraints of the recommendation are accepted. Partial: the claim where none of these is around the element (C118_partial); C118_prefixed and C118_default say exactly when it holds, with a prefix other than xml and without a prefix."
  },
  {
   "property": "C119",
   "status": "partial",
   "theorems": [
    "KissXml.Props.C119_false_bom",
    "KissXml.Props.C119_bom_never",
    "KissXml.Props.C119_false_utf16",
    "KissXml.Props.C119_partial",
    "KissXml.Props.C119_text",
    "KissXml.Props.C119_declared"
   ],
   "note": "False for every document with a byte order mark (C119_false_bom: text outside of the root element; C119_bom_never) and for every document in UTF-16 (C119_false_utf16: an I/O error). Partial: UTF-8 without a byte order mark. C119_text: any text in front of a document is the same error; C119_declared: the declared encoding is not looked at."
  },
  {
   "property": "C12",
   "status": "proved",
   "theorems": [
    "KissXml.Props.C12_all_children"
   ],
   "note": ""
  },
  {
   "property": "C120",
   "status": "proved",
   "theorems": [
    "KissXml.Props.C120_events",
    "KissXml.Props.C120_unique",
    "KissXml.Props.C120_tree",
    "KissXml.Props.C120_same",
    "KissXml.Props.C120_text"
   ],
   "note": "For several top-level elements see C76, for the namespaces C73. Texts and values are what unescape makes of them (C67)."
  },
  {
   "property": "C121",
   "status": "partial",
   "theorems": [
    "KissXml.Props.C121_partial",
    "KissXml.Props.C121_source_partial",
    "KissXml.Props.C121_false"
   ],
   "note": "False if an element has an attribute xmlns:xmlns:p, which hides the declaration of p below it (C121_false). Proved if there is no such attribute, for the trees and for the sources."
  },
  {
   "property": "C122",
   "status": "proved",
   "theorems": [
    "KissXml.Props.C122_bound",
    "KissXml.Props.C122_growth",
    "KissXml.Props.C122_more"
   ],
   "note": "Each entry of a map is counted as one declaration, as in C91."
  },
  {
   "property": "C123",
   "status": "proved",
   "theorems": [
    "KissXml.Props.C123_same",
    "KissXml.Props.C123_exact",
    "KissXml.Props.C123_bound",
    "KissXml.Props.C123_append",
    "KissXml.Props.C123_many"
   ],
   "note": "Counted are the bytes given to push_str in Text::concat; growing of the String and moving of nodes are not counted."
  },
  {
   "property": "C124",
   "status": "proved",
   "theorems": [
    "KissXml.Props.C124_cells",
    "KissXml.Props.C124_same",
    "KissXml.Props.C124_append",
    "KissXml.Props.C124_parse",
    "KissXml.Props.C124_upper",
    "KissXml.Props.C124_growth",
    "KissXml.Props.C124_sources"
   ],
   "note": "Counted are the calls of Regex::new; what one of them costs is not."
  },
  {
   "property": "C125",
   "status": "proved",
   "theorems": [
    "KissXml.Props.C125_same",
    "KissXml.Props.C125_exact",
    "KissXml.Props.C125_bounds",
    "KissXml.Props.C125_references"
   ],
   "note": "Counted are the bytes of to_string and push_str in unescape and string_insert, not the conversion of the argument. C125_exact has the hypotheses of the statement; both are needed (example)."
  },
  {
   "property": "C126",
   "status": "proved",
   "theorems": [
    "KissXml.Props.C126_same",
    "KissXml.Props.C126_bound",
    "KissXml.Props.C126_one"
   ],
   "note": "Counted are the digits (and the character at which reading stops), not signs; that from_str_radix reads from the left and stops at the first fault is taken from std."
  },
  {
   "property": "C13",
   "status": "proved",
   "theorems": [
    "KissXml.Props.C13_search",
    "KissXml.Props.C13_search_elements",
    "KissXml.Props.C13_search_elements_by_name",
    "KissXml.Props.C13_search_text",
    "KissXml.Props.C13_search_comments"
   ],
   "note": ""
  },
  {
   "property": "C14",
   "status": "proved",
   "theorems": [
    "KissXml.Props.C14_text",
    "KissXml.Props.C14_leaf",
    "KissXml.Props.C14_element_node"
   ],
   "note": ""
  },
  {
   "property": "C15",
   "status": "proved",
   "theorems": [
    "KissXml.Props.C15_child_queries",
    "KissXml.Props.C15_first_element_by_name"
   ],
   "note": ""
  },
  {
   "property": "C16",
   "status": "proved",
   "theorems": [
    "KissXml.Props.C16_append",
    "KissXml.Props.C16_append_all",
    "KissXml.Props.C16_append_nontext"
   ],
   "note": "includes exactly which namespace data is handed down"
  },
  {
   "property": "C17",
   "status": "proved",
   "theorems": [
    "KissXml.Props.C17_insert"
   ],
   "note": "the model value is unchanged on error because no new element is returned"
  },
  {
   "property": "C18",
   "status": "partial",
   "theorems": [
    "KissXml.Props.C18_partial",
    "KissXml.Props.C18_false",
    "KissXml.Props.C18_not_last"
   ],
   "note": "false in general: insert applies the namespace context to the last child; holds at the last index, fails at every other index"
  },
  {
   "property": "C19",
   "status": "proved",
   "theorems": [
    "KissXml.Props.C19_remove",
    "KissXml.Props.C19_total"
   ],
   "note": ""
  },
  {
   "property": "C20",
   "status": "proved",
   "theorems": [
    "KissXml.Props.C20_remove_by",
    "KissXml.Props.C20_remove_elements",
    "KissXml.Props.C20_remove_elements_by_name",
    "KissXml.Props.C20_count"
   ],
   "note": ""
  },
  {
   "property": "C21",
   "status": "proved",
   "theorems": [
    "KissXml.Props.C21_remove_all",
    "KissXml.Props.C21_remove_all_elements",
    "KissXml.Props.C21_no_match_left",
    "KissXml.Props.C21_leaf_predicate"
   ],
   "note": ""
  },
  {
   "property": "C22",
   "status": "proved",
   "theorems": [
    "KissXml.Props.C22_remove_element"
   ],
   "note": ""
  },
  {
   "property": "C23",
   "status": "proved",
   "theorems": [
    "KissXml.Props.C23_text_normal"
   ],
   "note": ""
  },
  {
   "property": "C24",
   "status": "proved",
   "theorems": [
    "KissXml.Props.C24_set_get",
    "KissXml.Props.C24_set_invalid",
    "KissXml.Props.C24_remove",
    "KissXml.Props.C24_clear"
   ],
   "note": ""
  },
  {
   "property": "C25",
   "status": "partial",
   "theorems": [
    "KissXml.Props.C25_partial",
    "KissXml.Props.C25_new_with_text_partial",
    "KissXml.Props.C25_set_text",
    "KissXml.Props.C25_false"
   ],
   "note": "false for non-empty white space, which set_text drops; proved for all other text"
  },
  {
   "property": "C26",
   "status": "proved",
   "theorems": [
    "KissXml.Props.C26_reachable_valid"
   ],
   "note": "reachability is an inductive closure of the API calls, including parsing and mutable access to children"
  },
  {
   "property": "C27",
   "status": "proved",
   "theorems": [
    "KissXml.Props.C27_equivalence",
    "KissXml.Props.C27_same_content",
    "KissXml.Props.C27_same_content_node"
   ],
   "note": ""
  },
  {
   "property": "C28",
   "status": "proved",
   "theorems": [
    "KissXml.Props.C28_element",
    "KissXml.Props.C28_node",
    "KissXml.Props.C28_document",
    "KissXml.Props.C28_clone"
   ],
   "note": ""
  },
  {
   "property": "C29",
   "status": "partial",
   "theorems": [
    "KissXml.Props.C29_partial",
    "KissXml.Props.C29_false",
    "KissXml.Props.C29_byte_order"
   ],
   "note": "false for Element (only names are compared); proved for Text, Comment, CData, and == implies Equal for Element"
  },
  {
   "property": "C30",
   "status": "partial",
   "theorems": [
    "KissXml.Props.C30_partial",
    "KissXml.Props.C30_false"
   ],
   "note": "false when the input declares xmlns:xmlns:p (witness); proved otherwise"
  },
  {
   "property": "C31",
   "status": "partial",
   "theorems": [
    "KissXml.Props.C31_partial",
    "KissXml.Props.C31_false"
   ],
   "note": "false below prefixed elements (witness); proved otherwise"
  },
  {
   "property": "C32",
   "status": "proved",
   "theorems": [
    "KissXml.Props.C32_namespace_prefixes"
   ],
   "note": ""
  },
  {
   "property": "C33",
   "status": "proved",
   "theorems": [
    "KissXml.Props.C33_terminates",
    "KissXml.Props.C33_progress"
   ],
   "note": ""
  },
  {
   "property": "C34",
   "status": "partial",
   "theorems": [
    "KissXml.Props.C34_partial",
    "KissXml.Props.C34_ascii_partial",
    "KissXml.Props.C34_false"
   ],
   "note": "false: five panicking witnesses; a panic needs a non-ASCII character with '&' or '<!', or a numeric reference to a non-ASCII character"
  },
  {
   "property": "C35",
   "status": "proved",
   "theorems": [
    "KissXml.Props.C35_next_tag",
    "KissXml.Props.C35_tag"
   ],
   "note": ""
  },
  {
   "property": "C36",
   "status": "proved",
   "theorems": [
    "KissXml.Props.C36_well_nested",
    "KissXml.Props.C36_parts_unique",
    "KissXml.Props.C36_reject"
   ],
   "note": ""
  },
  {
   "property": "C37",
   "status": "partial",
   "theorems": [
    "KissXml.Props.C37_partial",
    "KissXml.Props.C37_false"
   ],
   "note": "false for several top-level elements (witnesses); proved for every input with one top-level element; C76 says what happens otherwise"
  },
  {
   "property": "C38",
   "status": "partial",
   "theorems": [
    "KissXml.Props.C38_partial",
    "KissXml.Props.C38_false"
   ],
   "note": "false for text after the last tag (any such text is ignored); proved for all other text outside the root"
  },
  {
   "property": "C39",
   "status": "partial",
   "theorems": [
    "KissXml.Props.C39_false",
    "KissXml.Props.C39_partial",
    "KissXml.Props.C39_layout_partial",
    "KissXml.Props.C39_exact_partial",
    "KissXml.Props.C39_layout_exact_partial"
   ],
   "note": "False for all of XML (C39_false lists rejected well-formed documents). Proved for the concrete documents CDoc: prolog, any nesting, both quotes, all white space, text, comments, CDATA; missing are comments after the root, processing instructions, names beginning outside ASCII, spaces around = outside Layout, and undecodable references. C39_exact_partial: for all well-formed CDoc documents, whatever names, texts, layout and comments they have, exactly when they are accepted and what the result is."
  },
  {
   "property": "C40",
   "status": "partial",
   "theorems": [
    "KissXml.Props.C40_false",
    "KissXml.Props.C40_partial",
    "KissXml.Props.C40_exact_partial"
   ],
   "note": "False because the quotes decide whether spaces around = are accepted; proved for all pairs of accepted CDoc documents."
  },
  {
   "property": "C41",
   "status": "partial",
   "theorems": [
    "KissXml.Props.C41_false",
    "KissXml.Props.C41_any_partial",
    "KissXml.Props.C41_partial",
    "KissXml.Props.C41_exact_partial"
   ],
   "note": "False for inputs with several top-level elements (witness). C41_any_partial: every input with one top-level element, any set of its elements, both directions."
  },
  {
   "property": "C42",
   "status": "partial",
   "theorems": [
    "KissXml.Props.C42_false",
    "KissXml.Props.C42_partial",
    "KissXml.Props.C42_exact_partial"
   ],
   "note": "False: <a b = \"2\"/> is rejected; proved wherever Layout allows the spaces."
  },
  {
   "property": "C43",
   "status": "proved",
   "theorems": [
    "KissXml.Props.C43_verbatim"
   ],
   "note": ""
  },
  {
   "property": "C44",
   "status": "proved",
   "theorems": [
    "KissXml.Props.C44_normal_form"
   ],
   "note": ""
  },
  {
   "property": "C45",
   "status": "partial",
   "theorems": [
    "KissXml.Props.C45_false",
    "KissXml.Props.C45_iff_partial",
    "KissXml.Props.C45_partial",
    "KissXml.Props.C45_exact_partial"
   ],
   "note": "False for all representable documents: unprefixed elements in prefixed ones, and texts such as &x☼ (panic). Proved, with an exact condition on namespaces, for DocFits documents; C45_exact_partial: which DocShape documents are read back as they were, exactly."
  },
  {
   "property": "C46",
   "status": "partial",
   "theorems": [
    "KissXml.Props.C46_partial",
    "KissXml.Props.C46_exact_partial",
    "KissXml.Props.C46_false"
   ],
   "note": "False for texts that unescape does not decode (witnesses, for every indent). Proved for DocFits documents; C46_exact_partial shows that the claim fails for exactly these among the DocShape documents."
  },
  {
   "property": "C47",
   "status": "partial",
   "theorems": [
    "KissXml.Props.C47_partial",
    "KissXml.Props.C47_false"
   ],
   "note": "false for practically every doctype declaration: the written document is never accepted again; only the text is kept"
  },
  {
   "property": "C48",
   "status": "partial",
   "theorems": [
    "KissXml.Props.C48_partial",
    "KissXml.Props.C48_false"
   ],
   "note": "exact set of accepted strings and of panicking strings (<?>)"
  },
  {
   "property": "C49",
   "status": "partial",
   "theorems": [
    "KissXml.Props.C49_false",
    "KissXml.Props.C49_cdata",
    "KissXml.Props.C49_comment_partial"
   ],
   "note": "Proved for CDATA; for comments exactly those that do not begin with > or ->."
  },
  {
   "property": "C50",
   "status": "partial",
   "theorems": [
    "KissXml.Props.C50_false",
    "KissXml.Props.C50_partial",
    "KissXml.Props.C50_name_partial",
    "KissXml.Props.C50_exact_partial",
    "KissXml.Props.C50_name_exact_partial"
   ],
   "note": "False for accepted names that are not XML names (a>b) or have a colon; proved for XML names and decodable values, and that no others without < are read back."
  },
  {
   "property": "C51",
   "status": "partial",
   "theorems": [
    "KissXml.Props.C51_partial",
    "KissXml.Props.C51_false"
   ],
   "note": "false below the root (witness); proved for the root element"
  },
  {
   "property": "C52",
   "status": "partial",
   "theorems": [
    "KissXml.Props.C52_partial",
    "KissXml.Props.C52_false"
   ],
   "note": "false (witnesses); proved for what is recorded from the prolog"
  },
  {
   "property": "C53",
   "status": "partial",
   "theorems": [
    "KissXml.Props.C53_partial",
    "KissXml.Props.C53_no_panic",
    "KissXml.Props.C53_success",
    "KissXml.Props.C53_dom",
    "KissXml.Props.C53_false"
   ],
   "note": "no panic for every sequence (C53_no_panic); order wrong for adjacent texts and for a second root (witnesses, C53_false); proved for every forest without them (C53_partial); C53_success and C53_dom say for every sequence whether it succeeds and what to_dom returns"
  },
  {
   "property": "C54",
   "status": "proved",
   "theorems": [
    "KissXml.Props.C54_node_types",
    "KissXml.Props.C54_casts",
    "KissXml.Props.C54_messages",
    "KissXml.Props.C54_display"
   ],
   "note": ""
  },
  {
   "property": "C55",
   "status": "partial",
   "theorems": [
    "KissXml.Props.C55_partial",
    "KissXml.Props.C55_unsupported_partial",
    "KissXml.Props.C55_false"
   ],
   "note": "line right, column always one too large; text outside the root is reported where the previous tag ends"
  },
  {
   "property": "C56",
   "status": "partial",
   "theorems": [
    "KissXml.Props.C56_false",
    "KissXml.Props.C56_partial",
    "KissXml.Props.C56_plain"
   ],
   "note": "False: namespaces reach only the appended child. Proved: the tree is the same up to namespaces, and with namespaces exactly if they agree with the attributes (NsFits)."
  },
  {
   "property": "C57",
   "status": "proved",
   "theorems": [
    "KissXml.Props.C57_message"
   ],
   "note": ""
  },
  {
   "property": "C58",
   "status": "proved",
   "theorems": [
    "KissXml.Props.C58_io",
    "KissXml.Props.C58_bytes",
    "KissXml.Props.C58_offsets"
   ],
   "note": "operating system failures and directory creation: C79"
  },
  {
   "property": "C59",
   "status": "partial",
   "theorems": [
    "KissXml.Props.C59_false",
    "KissXml.Props.C59_partial",
    "KissXml.Props.C59_exact_partial"
   ],
   "note": "False for doctypes, texts such as a>b☼ and several roots; proved for one root, no doctypes, XML names: exactly when all escaped texts and values are decoded correctly."
  },
  {
   "property": "C60",
   "status": "partial",
   "theorems": [
    "KissXml.Props.C60_false",
    "KissXml.Props.C60_partial",
    "KissXml.Props.C60_elements_partial"
   ],
   "note": "False for tags with < in a value, for attributes after the first and for tags with U+1680 before the first quote (a witness for each); proved for all other tags, up to the first attribute name."
  },
  {
   "property": "C61",
   "status": "partial",
   "theorems": [
    "KissXml.Props.C61_false",
    "KissXml.Props.C61_partial"
   ],
   "note": "False for several top-level elements and wrongly decoded values (witnesses); proved for every input with one top-level element (for several see C76_elements), values as unescape reads them (C67), hence decoded when Legible."
  },
  {
   "property": "C62",
   "status": "proved",
   "theorems": [
    "KissXml.Props.C62",
    "KissXml.Props.C62_never"
   ],
   "note": "Which position goes with the error is C55: columns are one too large."
  },
  {
   "property": "C63",
   "status": "proved",
   "theorems": [
    "KissXml.Props.C63_new",
    "KissXml.Props.C63_shortcuts",
    "KissXml.Props.C63_shortcuts_fail"
   ],
   "note": "Keys and values of other types than strings: C103."
  },
  {
   "property": "C64",
   "status": "proved",
   "theorems": [
    "KissXml.Props.C64_new",
    "KissXml.Props.C64_set",
    "KissXml.Props.C64_set_text"
   ],
   "note": ""
  },
  {
   "property": "C65",
   "status": "proved",
   "theorems": [
    "KissXml.Props.C65",
    "KissXml.Props.C65_any",
    "KissXml.Props.C65_panic",
    "KissXml.Props.C65_root",
    "KissXml.Props.C65_close"
   ],
   "note": "C65_close needs open elements with XML names (names such as 1:a are accepted by the unanchored tag pattern and cannot be closed) and a last text on which unescape does not panic."
  },
  {
   "property": "C66",
   "status": "proved",
   "theorems": [
    "KissXml.Props.C66"
   ],
   "note": "Panics of unescape itself are the subject of C67."
  },
  {
   "property": "C67",
   "status": "proved",
   "theorems": [
    "KissXml.Props.C67",
    "KissXml.Props.C67_unique",
    "KissXml.Props.C67_legible"
   ],
   "note": ""
  },
  {
   "property": "C68",
   "status": "proved",
   "theorems": [
    "KissXml.Props.C68_ok",
    "KissXml.Props.C68_err",
    "KissXml.Props.C68_fault",
    "KissXml.Props.C68_panic",
    "KissXml.Props.C68_first"
   ],
   "note": "Of several bad attribute names on one tag it is not determined which one is reported (order of a HashMap)."
  },
  {
   "property": "C69",
   "status": "partial",
   "theorems": [
    "KissXml.Props.C69_decimal",
    "KissXml.Props.C69_hexadecimal",
    "KissXml.Props.C69_entity_partial",
    "KissXml.Props.C69_text_partial",
    "KissXml.Props.C69_false"
   ],
   "note": "false: decimal digits are read as hexadecimal and &#x..; is left alone (witnesses); exact for single references; proved for texts ending in ASCII without numeric references"
  },
  {
   "property": "C70",
   "status": "partial",
   "theorems": [
    "KissXml.Props.C70_partial",
    "KissXml.Props.C70_element_partial",
    "KissXml.Props.C70_declaration",
    "KissXml.Props.C70_chars",
    "KissXml.Props.C70_exact_partial",
    "KissXml.Props.C70_false"
   ],
   "note": "false for characters that XML does not allow (witness), and exactly for those among documents of the right shape; proved for all documents whose nodes can be written in XML, without document types, for every indent; the grammar is that of the W3C recommendation"
  },
  {
   "property": "C71",
   "status": "partial",
   "theorems": [
    "KissXml.Props.C71_partial",
    "KissXml.Props.C71_false",
    "KissXml.Props.C71_false_text"
   ],
   "note": "false for numeric references, white space around =, processing instructions, comments after the root, names beginning with other letters than ASCII, a first comment cut inside a character for a warning, and a few more (witnesses); proved for all other well-formed documents, which are listed by conditions on the text and on the items of the document"
  },
  {
   "property": "C72",
   "status": "proved",
   "theorems": [
    "KissXml.Props.C72_elements",
    "KissXml.Props.C72_same_as_queries",
    "KissXml.Props.C72_children",
    "KissXml.Props.C72_first_element_by_name",
    "KissXml.Props.C72_document"
   ],
   "note": "Overwritten and SameHead (Spec/Mut) say what may change. An iterator of &mut references is modelled by the items and by the effect of overwriting a prefix of them; Rust's borrow rules (no item can be reached twice, nothing else can be touched meanwhile) justify that."
  },
  {
   "property": "C73",
   "status": "proved",
   "theorems": [
    "KissXml.Props.C73_namespaces",
    "KissXml.Props.C73_append"
   ],
   "note": "the exact companion of C30 and C31; resolved (Spec/Scope) is a function of prefixes and attributes only"
  },
  {
   "property": "C74",
   "status": "partial",
   "theorems": [
    "KissXml.Props.C74_insert_partial",
    "KissXml.Props.C74_remove_partial",
    "KissXml.Props.C74_remove_element_partial",
    "KissXml.Props.C74_text",
    "KissXml.Props.C74_false"
   ],
   "note": "false: remove and remove_element report a range that is one too long, and indices from 2^63 on are reported as negative numbers (witnesses); proved for insert below 2^63; for the other two the exact range"
  },
  {
   "property": "C75",
   "status": "proved",
   "theorems": [
    "KissXml.Props.C75_kind",
    "KissXml.Props.C75_where",
    "KissXml.Props.C75_about"
   ],
   "note": "Model/Message gives the texts; rewrap_text shows that the codes used by the model of the parser stand for the texts that the program builds"
  },
  {
   "property": "C76",
   "status": "proved",
   "theorems": [
    "KissXml.Props.C76_roots",
    "KissXml.Props.C76_elements",
    "KissXml.Props.C76_append"
   ],
   "note": "what the program does instead of C37"
  },
  {
   "property": "C77",
   "status": "proved",
   "theorems": [
    "KissXml.Props.C77_written",
    "KissXml.Props.C77_equal"
   ],
   "note": "Also for texts and values that the library does not read back. The examples show that the conditions on texts are needed."
  },
  {
   "property": "C78",
   "status": "proved",
   "theorems": [
    "KissXml.Props.C78_result",
    "KissXml.Props.C78_accepted",
    "KissXml.Props.C78_silent",
    "KissXml.Props.C78_rejected",
    "KissXml.Props.C78_rejected_any",
    "KissXml.Props.C78_indent",
    "KissXml.Props.C78_text"
   ],
   "note": "Model/Warn repeats the printing functions with what they print; C78_result shows that they return the same. How the indent is quoted in its warning is not modelled."
  },
  {
   "property": "C79",
   "status": "proved",
   "theorems": [
    "KissXml.Props.C79_fails",
    "KissXml.Props.C79_writes",
    "KissXml.Props.C79_default",
    "KissXml.Props.C79_reads",
    "KissXml.Props.C79_kinds",
    "KissXml.Props.C79_writer",
    "KissXml.Props.C79_writer_ok",
    "KissXml.Props.C79_reader",
    "KissXml.Props.C79_reader_end",
    "KissXml.Props.C79_reader_fails"
   ],
   "note": "On the model of the operating system and of std::fs and std::io in Model/Fs: no links, permissions or other processes."
  },
  {
   "property": "C80",
   "status": "proved",
   "theorems": [
    "KissXml.Props.C80_hash",
    "KissXml.Props.C80_element",
    "KissXml.Props.C80_order",
    "KissXml.Props.C80_total"
   ],
   "note": ""
  },
  {
   "property": "C81",
   "status": "proved",
   "theorems": [
    "KissXml.Props.C81_edits",
    "KissXml.Props.C81_insertions"
   ],
   "note": "Edits (Spec/Edit) is a closure of API calls; the empty text is a special case: set_text(\"\") leaves an empty text child, which is lost when the document is read back."
  },
  {
   "property": "C82",
   "status": "partial",
   "theorems": [
    "KissXml.Props.C82_queries",
    "KissXml.Props.C82_changes",
    "KissXml.Props.C82_append_partial",
    "KissXml.Props.C82_append_all_partial",
    "KissXml.Props.C82_insert_partial",
    "KissXml.Props.C82_new_partial",
    "KissXml.Props.C82_false"
   ],
   "note": "False: elements remember removed prefix declarations, which == does not see (witness built with the API). Exact for append, append_all, insert and new; queries and all other changes without exception."
  },
  {
   "property": "C83",
   "status": "proved",
   "theorems": [
    "KissXml.Props.C83_alone",
    "KissXml.Props.C83_rejected"
   ],
   "note": "Elements are identified by their number in document order; bare (Spec/Conform) forgets the resolved namespaces, which for a document are settled by C33, C34 and C73."
  },
  {
   "property": "C84",
   "status": "proved",
   "theorems": [
    "KissXml.Props.C84_replace",
    "KissXml.Props.C84_hole"
   ],
   "note": ""
  },
  {
   "property": "C85",
   "status": "proved",
   "theorems": [
    "KissXml.Props.C85_char",
    "KissXml.Props.C85_text",
    "KissXml.Props.C85_names",
    "KissXml.Props.C85_patterns"
   ],
   "note": ""
  },
  {
   "property": "C86",
   "status": "proved",
   "theorems": [
    "KissXml.Props.C86_variant",
    "KissXml.Props.C86_order"
   ],
   "note": "The condition on the tag pattern is BadTag (C53); without it the statement is C40 and C42, which are false."
  },
  {
   "property": "C87",
   "status": "proved",
   "theorems": [
    "KissXml.Props.C87_new",
    "KissXml.Props.C87_derived",
    "KissXml.Props.C87_queries",
    "KissXml.Props.C87_parsed"
   ],
   "note": ""
  },
  {
   "property": "C88",
   "status": "proved",
   "theorems": [
    "KissXml.Props.C88_comment",
    "KissXml.Props.C88_cdata",
    "KissXml.Props.C88_written",
    "KissXml.Props.C88_other"
   ],
   "note": ""
  },
  {
   "property": "C89",
   "status": "proved",
   "theorems": [
    "KissXml.Props.C89_append",
    "KissXml.Props.C89_insert",
    "KissXml.Props.C89_remove",
    "KissXml.Props.C89_set_attr",
    "KissXml.Props.C89_remove_by",
    "KissXml.Props.C89_remove_by_panic",
    "KissXml.Props.C89_remove_elements",
    "KissXml.Props.C89_remove_elements_panic"
   ],
   "note": "Model/InPlace runs these methods statement by statement on a place that survives errors and panics; the theorems also show that it agrees with Model/Dom."
  },
  {
   "property": "C90",
   "status": "proved",
   "theorems": [
    "KissXml.Props.C90_needs",
    "KissXml.Props.C90_exact",
    "KissXml.Props.C90_conditions"
   ],
   "note": "The XML grammar and ItemsRead are in Spec/Xml, the concrete documents in Spec/Syntax."
  },
  {
   "property": "C91",
   "status": "proved",
   "theorems": [
    "KissXml.Props.C91_bytes",
    "KissXml.Props.C91_nodes",
    "KissXml.Props.C91_nesting",
    "KissXml.Props.C91_namespaces"
   ],
   "note": "Sizes are those of Spec/Size: sums over the tree of the model, in bytes of UTF-8; the capacity of Rust buffers and the arena used while parsing are not counted."
  },
  {
   "property": "C92",
   "status": "proved",
   "theorems": [
    "KissXml.Props.C92_node",
    "KissXml.Props.C92_document",
    "KissXml.Props.C92_parsed",
    "KissXml.Props.C92_quadratic"
   ],
   "note": "Sizes as for C91. C92_node also covers elements that cannot be read back."
  },
  {
   "property": "C93",
   "status": "proved",
   "theorems": [
    "KissXml.Props.C93_same",
    "KissXml.Props.C93_wrapping",
    "KissXml.Props.C93_checked",
    "KissXml.Props.C93_false_checked",
    "KissXml.Props.C93_false_comments",
    "KissXml.Props.C93_false_wrapping",
    "KissXml.Props.C93_offsets",
    "KissXml.Props.C93_lines"
   ],
   "note": "Model/Machine has the functions of parse_str with i32 arithmetic; the limit of C93_same is exact, the one of C93_wrapping up to four bytes."
  },
  {
   "property": "C94",
   "status": "proved",
   "theorems": [
    "KissXml.Props.C94_same",
    "KissXml.Props.C94_upper",
    "KissXml.Props.C94_children",
    "KissXml.Props.C94_tags",
    "KissXml.Props.C94_unescape",
    "KissXml.Props.C94_ampersands",
    "KissXml.Props.C94_text",
    "KissXml.Props.C94_written"
   ],
   "note": "Model/Cost is the parser with a counter; C94_same shows that its results are those of the parser. Not counted: copies of strings, comparisons, regular expressions, operations of HashMap and Vec, the loop of line_and_column, and what is done once for every attribute."
  },
  {
   "property": "C95",
   "status": "proved",
   "theorems": [
    "KissXml.Props.C95_read",
    "KissXml.Props.C95_write",
    "KissXml.Props.C95_clone",
    "KissXml.Props.C95_compare",
    "KissXml.Props.C95_equal",
    "KissXml.Props.C95_remove",
    "KissXml.Props.C95_enough",
    "KissXml.Props.C95_deep"
   ],
   "note": "Model/Depth has the recursive functions with a limit for active calls; the theorems also show that their results are those of Model/Dom and Model/Serialize. Counted are calls, not bytes of stack; dropping is what the compiler generates for Element, not code of the repository; that parse_str does not recurse is by inspection."
  },
  {
   "property": "C96",
   "status": "proved",
   "theorems": [
    "KissXml.Props.C96_same",
    "KissXml.Props.C96_write",
    "KissXml.Props.C96_text",
    "KissXml.Props.C96_text_reached",
    "KissXml.Props.C96_cubic"
   ],
   "note": "Model/WriteCost counts the bytes pushed to the output buffers of all calls; C96_same shows that the results are those of Model/Serialize and Model/Dom. Not counted: next_prefix, temporary strings of escaping and formatting, sorting, copies made by growing buffers."
  },
  {
   "property": "C97",
   "status": "proved",
   "theorems": [
    "KissXml.Props.C97_same",
    "KissXml.Props.C97_all",
    "KissXml.Props.C97_each",
    "KissXml.Props.C97_exact"
   ],
   "note": "Rounds as for C94, with the two loops of append_all. Not counted: moving the items of a Vec when one is inserted or removed, and clones of the prefix map."
  },
  {
   "property": "C98",
   "status": "proved",
   "theorems": [
    "KissXml.Props.C98_items",
    "KissXml.Props.C98_search",
    "KissXml.Props.C98_search_elements",
    "KissXml.Props.C98_search_text",
    "KissXml.Props.C98_search_comments",
    "KissXml.Props.C98_calls",
    "KissXml.Props.C98_calls_le",
    "KissXml.Props.C98_calls_deep"
   ],
   "note": "Model/Iter has the iterators as states with next, built like the Chain, Flatten, Filter and Map of the standard library; the lists of items are those of Model/Dom (C12: each node below once). The fuel of the loops is any number above the number of nodes."
  },
  {
   "property": "C99",
   "status": "proved",
   "theorems": [
    "KissXml.Props.C99_put_back",
    "KissXml.Props.C99_put_back_same",
    "KissXml.Props.C99_given",
    "KissXml.Props.C99_take_back",
    "KissXml.Props.C99_take_back_append",
    "KissXml.Props.C99_no_way_back"
   ],
   "note": "Both directions: C99_take_back for nodes that fit, C99_no_way_back for all others."
  }
 ]
}