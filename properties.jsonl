{"id": "C01", "title": "text escaping is inverted by unescape", "statement": "For every string s, unescape(text_escape(s)) returns s.", "quantifier": "every Unicode string s", "why_tests_cant": "a test fixes a handful of strings; the behaviour depends on the byte width of the last character and on the position of every reserved character", "anchors": ["src/lib.rs: text_escape", "src/lib.rs: unescape"]}
{"id": "C02", "title": "attribute escaping is inverted by unescape", "statement": "For every string s, unescape(escape(s)) and unescape(attribute_escape(s)) return s.", "quantifier": "every Unicode string s", "why_tests_cant": "same as C01, with five reserved characters", "anchors": ["src/lib.rs: escape", "src/lib.rs: attribute_escape", "src/lib.rs: unescape"]}
{"id": "C03", "title": "escaped text contains no markup", "statement": "For every string s, text_escape(s) contains neither '<' nor '>', every '&' in it begins one of the entities &amp; &lt; &gt;, and every character of s other than & < > is kept in order.", "quantifier": "every Unicode string s", "why_tests_cant": "injection safety is a claim about all attacker-chosen strings, including strings that already look like entities", "anchors": ["src/lib.rs: text_escape"]}
{"id": "C04", "title": "escaped attribute values cannot leave their quotes", "statement": "For every string s, attribute_escape(s) contains none of < > ' \" and every '&' begins one of the five predefined entities.", "quantifier": "every Unicode string s", "why_tests_cant": "injection safety is a claim about all attacker-chosen strings", "anchors": ["src/lib.rs: escape", "src/lib.rs: attribute_escape"]}
{"id": "C05", "title": "escaping is injective and compositional", "statement": "Two different strings never have the same text_escape or the same escape, and escaping a concatenation is the concatenation of the escapes.", "quantifier": "every pair of Unicode strings", "why_tests_cant": "quantifies over pairs of arbitrary strings", "anchors": ["src/lib.rs: text_escape", "src/lib.rs: escape"]}
{"id": "C06", "title": "unescape always stops and never grows its input", "statement": "For every string, unescape terminates, and when it returns its result has at most as many bytes as its argument.", "quantifier": "every Unicode string", "why_tests_cant": "non-termination on some input cannot be excluded by finitely many inputs; the loop rewrites the buffer it scans", "anchors": ["src/lib.rs: unescape", "src/lib.rs: string_insert"]}
{"id": "C07", "title": "unescape decodes each reference exactly once, left to right", "statement": "For every string, unescape replaces each of &amp; &lt; &gt; &apos; &quot; and each &#H; (H hexadecimal digits of a valid code point) by its character, leaves everything else unchanged, never re-decodes a produced character and never panics.", "quantifier": "every Unicode string", "why_tests_cant": "the scan position after each replacement depends on the rest of the string", "anchors": ["src/lib.rs: unescape", "src/lib.rs: string_insert"]}
{"id": "C08", "title": "serialised attribute order is a total order with xmlns first", "statement": "In every serialised start tag the attributes appear in strictly increasing order of (is not xmlns..., name), so xmlns declarations come first and no attribute is lost or repeated.", "quantifier": "every element and every attribute map", "why_tests_cant": "the comparator must be transitive and total on all triples of strings", "anchors": ["src/lib.rs: attribute_order", "src/dom.rs: Element::to_string_with_prefix_and_indent"]}
{"id": "C09", "title": "serialisation does not depend on HashMap iteration order", "statement": "Two elements (documents) that differ only in the internal iteration order of their attribute and namespace maps serialise to the same string with every indent.", "quantifier": "every DOM tree, every pair of iteration orders at every node, every indent", "why_tests_cant": "HashMap order is random per process; a test sees one order per run", "anchors": ["src/dom.rs: Element::to_string_with_prefix_and_indent", "src/lib.rs: attribute_order"]}
{"id": "C10", "title": "indent argument: valid indents are used, all others fall back to two spaces", "statement": "to_string_with_indent(i) indents with i exactly when i is one tab or a possibly empty run of spaces; for every other i the result equals to_string(), for documents, for elements and for elements held as nodes; to_string() indents with two spaces.", "quantifier": "every string i, every document and element", "why_tests_cant": "quantifies over all indent strings and documents", "anchors": ["src/lib.rs: validate_indent", "src/dom.rs: Document::to_string_with_indent", "src/dom.rs: Element::to_string_with_indent"]}
{"id": "C11", "title": "indentation never changes the content", "statement": "For every document that satisfies the round-trip conditions, re-parsing its serialisation gives an equal document for every valid indent, hence the same document for any two valid indents.", "quantifier": "every conforming document, every pair of valid indents", "why_tests_cant": "whitespace insertion interacts with mixed content at every depth", "anchors": ["src/dom.rs: Document::to_string_with_indent", "src/lib.rs: parse_str"]}
{"id": "C12", "title": "recursive iteration visits every descendant exactly once", "statement": "all_children() / children_recursive() yield every node below an element exactly once (as a multiset: the document-order listing of descendants), for every tree.", "quantifier": "every DOM tree", "why_tests_cant": "arbitrary depth and branching", "anchors": ["src/dom.rs: Element::children_recursive", "src/dom.rs: Element::all_children"]}
{"id": "C13", "title": "searches return exactly the matching descendants", "statement": "search(p), search_elements(p), search_elements_by_name(n), search_text(p), search_comments(p) return exactly the descendants of the requested kind that satisfy the predicate, with multiplicity.", "quantifier": "every DOM tree, every predicate", "why_tests_cant": "arbitrary trees and predicates", "anchors": ["src/dom.rs: Element::search", "src/dom.rs: Element::search_elements", "src/dom.rs: Element::search_elements_by_name", "src/dom.rs: Element::search_text", "src/dom.rs: Element::search_comments"]}
{"id": "C14", "title": "text() is the document-order concatenation of all text nodes", "statement": "For every element, text() is the concatenation, in document order, of the contents of all Text descendants; comments and CDATA contribute nothing; for Text, Comment and CData nodes it is the content.", "quantifier": "every DOM tree", "why_tests_cant": "arbitrary depth and branching", "anchors": ["src/dom.rs: impl Node for Element::text"]}
{"id": "C15", "title": "non-recursive queries", "statement": "child_elements, elements_by_name, elements_by_namespace, elements_by_namespace_prefix return exactly the matching element children in order; first_element_by_name returns the first match and an error exactly when there is none.", "quantifier": "every element, every name / namespace / prefix", "why_tests_cant": "arbitrary child lists", "anchors": ["src/dom.rs: Element::child_elements", "src/dom.rs: Element::elements_by_name", "src/dom.rs: Element::elements_by_namespace", "src/dom.rs: Element::first_element_by_name"]}
{"id": "C16", "title": "append keeps existing children and adds the new node last", "statement": "append / append_boxed / append_all leave all other fields unchanged; the child list becomes old children followed by the new ones, after joining each maximal run of adjacent text nodes and then dropping whitespace-only runs; element children only change in their namespace fields.", "quantifier": "every element, every list of nodes", "why_tests_cant": "arbitrary child lists and text contents", "anchors": ["src/dom.rs: Element::append", "src/dom.rs: Element::append_boxed", "src/dom.rs: Element::append_all", "src/dom.rs: Element::cleanup_text_nodes"]}
{"id": "C17", "title": "insert places the node at the index or fails without effect", "statement": "insert(i, n) fails exactly when i exceeds the number of children, leaving the element unchanged; otherwise n is placed at position i (before text normalisation) and no other child is reordered or lost.", "quantifier": "every element, index and node", "why_tests_cant": "arbitrary child lists and indices", "anchors": ["src/dom.rs: Element::insert"]}
{"id": "C18", "title": "an inserted element inherits namespaces like an appended one", "statement": "After insert(i, child) of an element without a namespace of its own into a parent with a default namespace, the child has the parent's default namespace, for every valid index i.", "quantifier": "every element, index and child element", "why_tests_cant": "the tests only insert into namespace-less parents", "anchors": ["src/dom.rs: Element::insert", "src/dom.rs: Element::apply_xmlns_context_to_child_node"]}
{"id": "C19", "title": "remove deletes exactly the indexed child", "statement": "remove(i) fails exactly when i is not a valid child index and then changes nothing; otherwise it returns child i and leaves all the others in order.", "quantifier": "every element and index", "why_tests_cant": "arbitrary child lists and indices", "anchors": ["src/dom.rs: Element::remove"]}
{"id": "C20", "title": "remove_by / remove_elements / remove_elements_by_name remove exactly the matches", "statement": "They remove exactly the matching children, keep the others in order, and return the number removed.", "quantifier": "every element, every predicate", "why_tests_cant": "index-based deletion while iterating must be right for every pattern of matches", "anchors": ["src/dom.rs: Element::remove_by", "src/dom.rs: Element::remove_elements", "src/dom.rs: Element::remove_elements_by_name"]}
{"id": "C21", "title": "recursive removal", "statement": "remove_all(p) / remove_all_elements(p) remove every descendant satisfying p that is not already below a removed node, keep everything else in order, and return the number of removed subtrees; afterwards no remaining node satisfied p before the call.", "quantifier": "every DOM tree, every predicate", "why_tests_cant": "arbitrary depth, branching and predicates", "anchors": ["src/dom.rs: Element::remove_all", "src/dom.rs: Element::remove_all_elements"]}
{"id": "C22", "title": "remove_element(n) removes the n-th element child", "statement": "remove_element(n) fails exactly when there are at most n element children and then changes nothing; otherwise it returns the n-th element child and removes only that node.", "quantifier": "every element and index", "why_tests_cant": "arbitrary mixtures of elements and other nodes", "anchors": ["src/dom.rs: Element::remove_element"]}
{"id": "C23", "title": "text normalisation after every insertion operation", "statement": "After any append, append_all or insert no two adjacent children are text nodes and no text child is non-empty whitespace.", "quantifier": "every element, every operation argument", "why_tests_cant": "arbitrary child lists", "anchors": ["src/dom.rs: Element::cleanup_text_nodes"]}
{"id": "C24", "title": "attributes behave as a finite map", "statement": "get_attr after set_attr returns the value for a valid name and other names are unaffected; remove_attr returns the old value and deletes only that name; clear_attributes empties; set_attr with an invalid name fails and changes nothing.", "quantifier": "every element, every history of attribute operations", "why_tests_cant": "map laws over arbitrary operation histories", "anchors": ["src/dom.rs: Element::set_attr", "src/dom.rs: Element::get_attr", "src/dom.rs: Element::remove_attr", "src/dom.rs: Element::clear_attributes"]}
{"id": "C25", "title": "set_text then text", "statement": "After set_text(t) (and for new_with_text(_, t)) the element's only content is t: text() == t.", "quantifier": "every element and string", "why_tests_cant": "text consisting of whitespace behaves differently", "anchors": ["src/dom.rs: Element::set_text", "src/dom.rs: Element::new_with_text"]}
{"id": "C26", "title": "validity invariants of every reachable DOM", "statement": "In every DOM obtained by parsing and any sequence of API calls, each element name and attribute name matches [_a-zA-Z]\\S*, no comment contains '-->' and no CDATA contains ']]>'.", "quantifier": "every history of API calls at every node", "why_tests_cant": "an invariant over all reachable states", "anchors": ["src/dom.rs: Element::check_elem_name", "src/dom.rs: Element::check_attr_name", "src/dom.rs: Comment::new", "src/dom.rs: Comment::set_content", "src/dom.rs: CData::new", "src/dom.rs: CData::set_text"]}
{"id": "C27", "title": "equality is an equivalence relation", "statement": "== on elements, nodes and documents is reflexive, symmetric and transitive, and independent of map iteration order.", "quantifier": "every pair / triple of DOM trees", "why_tests_cant": "quantifies over triples of trees", "anchors": ["src/dom.rs: impl PartialEq for Element", "src/dom.rs: node_eq", "src/dom.rs: impl PartialEq for Document"]}
{"id": "C28", "title": "equal values are observably equal", "statement": "Equal elements / documents serialise identically for every indent, have the same text(), and hash equally; a clone equals its original.", "quantifier": "every pair of DOM trees, every indent", "why_tests_cant": "quantifies over pairs of trees", "anchors": ["src/dom.rs: impl PartialEq for Element", "src/dom.rs: impl Hash for Element", "src/dom.rs: impl Clone for Element", "src/dom.rs: clone_node"]}
{"id": "C29", "title": "ordering is consistent with equality", "statement": "For Element, Text, Comment and CData, a.partial_cmp(b) == Some(Equal) exactly when a == b.", "quantifier": "every pair of nodes", "why_tests_cant": "law over all pairs", "anchors": ["src/dom.rs: impl PartialOrd for Element", "src/dom.rs: impl PartialOrd for Text"]}
{"id": "C30", "title": "prefixed names resolve to the nearest declaration", "statement": "In every parsed document with one root, the namespace of an element with prefix p is the value of xmlns:p on the nearest ancestor-or-self that declares it (none if there is none).", "quantifier": "every accepted document, every element", "why_tests_cant": "arbitrary nesting and re-declaration of prefixes", "anchors": ["src/lib.rs: parse_new_element", "src/dom.rs: Element::set_namespace_context"]}
{"id": "C31", "title": "unprefixed names resolve to the nearest default namespace", "statement": "In every parsed document with one root, the namespace of an unprefixed element is the value of xmlns on the nearest ancestor-or-self that declares one (none if there is none).", "quantifier": "every accepted document, every element", "why_tests_cant": "arbitrary nesting of prefixed and unprefixed ancestors", "anchors": ["src/lib.rs: parse_new_element", "src/dom.rs: Element::set_namespace_context", "src/dom.rs: Element::default_namespace"]}
{"id": "C32", "title": "namespace_prefixes reports exactly the local xmlns:* declarations", "statement": "namespace_prefixes() returns exactly the pairs (p, v) such that the element has attribute xmlns:p = v, and None exactly when there are none.", "quantifier": "every element", "why_tests_cant": "arbitrary attribute maps", "anchors": ["src/dom.rs: Element::namespace_prefixes", "src/dom.rs: Element::xmlns_context_from_attributes"]}
{"id": "C33", "title": "parsing always terminates", "statement": "parse_str returns (or panics) after finitely many steps for every input; it consumes at least one byte per tag.", "quantifier": "every input string", "why_tests_cant": "non-termination cannot be excluded by finitely many inputs", "anchors": ["src/lib.rs: parse_str", "src/lib.rs: next_tag"]}
{"id": "C34", "title": "parsing never panics", "statement": "parse_str never panics: malformed input gives an error result.", "quantifier": "every input string", "why_tests_cant": "the no-panic tests try a few thousand ASCII strings", "anchors": ["src/lib.rs: parse_str", "src/lib.rs: abbreviate", "src/lib.rs: unescape", "src/parsing.rs: ParseTree"]}
{"id": "C35", "title": "tag delimiting is in bounds and quote aware", "statement": "next tag search returns a span that starts at the first '<' at or after the start position, is in bounds, on character boundaries, non-empty, and ends right after the first matching terminator of its kind.", "quantifier": "every input string and start position", "why_tests_cant": "arbitrary strings", "anchors": ["src/lib.rs: next_tag", "src/lib.rs: quote_aware_find", "src/lib.rs: nested_quote_aware_find_close"]}
{"id": "C36", "title": "accepted documents have properly nested tags", "statement": "If parse_str accepts, the sequence of start, end and empty-element tags it read is well nested with equal names: every close tag matches the innermost open tag.", "quantifier": "every input string", "why_tests_cant": "arbitrary nesting", "anchors": ["src/lib.rs: parse_str", "src/parsing.rs: ParseTree"]}
{"id": "C37", "title": "exactly one root element", "statement": "If parse_str accepts, the input has exactly one top-level element and the result's root is that element with exactly its own children.", "quantifier": "every input string", "why_tests_cant": "the tests have no input with two top-level elements", "anchors": ["src/lib.rs: parse_str", "src/parsing.rs: ParseTree::push", "src/parsing.rs: ParseTree::to_dom"]}
{"id": "C38", "title": "no text outside the root", "statement": "parse_str rejects every input with non-whitespace text before or after the root element.", "quantifier": "every input string", "why_tests_cant": "arbitrary inputs", "anchors": ["src/lib.rs: parse_str"]}
{"id": "C39", "title": "parser completeness on a layout-rich XML subset", "statement": "Every concrete document (prolog, elements with any inter-attribute whitespace and either quote, empty-element tags or start/end pairs, text, comments, CDATA, any nesting) is accepted and yields exactly the DOM it denotes.", "quantifier": "every concrete syntax tree", "why_tests_cant": "unbounded nesting and layout choices", "anchors": ["src/lib.rs: parse_str", "src/lib.rs: parse_new_element", "src/parsing.rs: ParseTree::to_dom"]}
{"id": "C40", "title": "quote style does not matter", "statement": "Replacing double by single quotes (or back) around an attribute value that contains neither does not change the parsed DOM.", "quantifier": "every concrete document", "why_tests_cant": "arbitrary documents", "anchors": ["src/lib.rs: parse_new_element", "src/lib.rs: quote_aware_split"]}
{"id": "C41", "title": "<a/> and <a></a> are the same", "statement": "An empty-element tag and the corresponding start/end pair parse to equal DOMs at every position of every document.", "quantifier": "every concrete document, every position", "why_tests_cant": "arbitrary documents", "anchors": ["src/lib.rs: parse_str"]}
{"id": "C42", "title": "spaces around = are accepted", "statement": "Whitespace before and after the = of any attribute does not change the parsed DOM.", "quantifier": "every concrete document, every attribute", "why_tests_cant": "the test has tight first and last attributes", "anchors": ["src/lib.rs: join_spaced_attributes", "src/lib.rs: check_element_tag"]}
{"id": "C43", "title": "comments and CDATA are kept verbatim", "statement": "The content of every comment and CDATA section inside the root is the exact source text between its delimiters, without unescaping or trimming.", "quantifier": "every concrete document", "why_tests_cant": "arbitrary contents", "anchors": ["src/lib.rs: parse_str"]}
{"id": "C44", "title": "parsed DOMs are in normal form", "statement": "In every DOM returned by parse_str no element has two adjacent text children, or a text child that is empty or whitespace-only.", "quantifier": "every input string", "why_tests_cant": "arbitrary inputs", "anchors": ["src/lib.rs: real_text", "src/parsing.rs: ParseTree::to_dom"]}
{"id": "C45", "title": "serialise then parse is the identity on conforming documents", "statement": "For every document without DTDs whose names are XML names, whose texts/values/comments are representable and whose namespaces are consistent with its attributes, parse_str(to_string_with_indent(i)) succeeds and equals the document, for every indent i.", "quantifier": "every conforming document, every indent", "why_tests_cant": "unbounded trees and strings", "anchors": ["src/dom.rs: Document::to_string_with_indent", "src/lib.rs: parse_str"]}
{"id": "C46", "title": "serialise is a fixed point after one round trip", "statement": "For every conforming document d, to_string(parse_str(to_string(d))) = to_string(d).", "quantifier": "every conforming document, every indent", "why_tests_cant": "unbounded trees and strings", "anchors": ["src/dom.rs: Document::to_string_with_indent", "src/lib.rs: parse_str"]}
{"id": "C47", "title": "doctype declarations survive a round trip", "statement": "For every document with DTDs, serialising and re-parsing keeps the DTDs (\"DTDs will be preserved\").", "quantifier": "every document with at least one DTD", "why_tests_cant": "DTD text is arbitrary", "anchors": ["src/dom.rs: impl Display for DTD", "src/dom.rs: DTD::from_string"]}
{"id": "C48", "title": "declaration construction and display are inverse", "statement": "Declaration::from_str accepts s exactly when the trimmed s is <?...?>, never panics, and from_str(d.to_string()) == d for every declaration d.", "quantifier": "every string", "why_tests_cant": "arbitrary strings, including overlapping delimiters", "anchors": ["src/dom.rs: Declaration::from_str", "src/dom.rs: impl Display for Declaration"]}
{"id": "C49", "title": "every constructible comment and CDATA serialises to something that parses back", "statement": "For every accepted comment / CDATA content, an element holding it serialises to XML that parses to an equal element.", "quantifier": "every string accepted by Comment::new / CData::new", "why_tests_cant": "arbitrary strings", "anchors": ["src/dom.rs: Comment::new", "src/dom.rs: CData::new", "src/lib.rs: parse_str"]}
{"id": "C50", "title": "every constructible element serialises to something that parses back", "statement": "For every name accepted by Element::new_from_name, the serialised element parses to an equal element; likewise for accepted attribute names.", "quantifier": "every accepted name", "why_tests_cant": "the name check is a regex over arbitrary strings", "anchors": ["src/dom.rs: Element::check_elem_name", "src/dom.rs: Element::check_attr_name", "src/lib.rs: check_element_tag"]}
{"id": "C51", "title": "undeclared prefixes are rejected", "statement": "parse_str rejects every document that uses an element prefix with no xmlns declaration in scope.", "quantifier": "every input string", "why_tests_cant": "arbitrary nesting", "anchors": ["src/lib.rs: parse_new_element"]}
{"id": "C52", "title": "the XML declaration, if any, comes first", "statement": "parse_str rejects <?xml ...?> anywhere but at the start and accepts at most one.", "quantifier": "every input string", "why_tests_cant": "arbitrary prologs", "anchors": ["src/lib.rs: parse_str"]}
{"id": "C53", "title": "the parse arena builds the tree of its operations", "statement": "Any sequence of push/append/pop on a fresh parse tree never hits an internal panic, and to_dom returns the tree whose nodes are the pushed/appended nodes in call order.", "quantifier": "every sequence of stack operations", "why_tests_cant": "unbounded histories of operations on a HashMap-backed arena", "anchors": ["src/parsing.rs: ParseTree::push", "src/parsing.rs: ParseTree::pop", "src/parsing.rs: ParseTree::append", "src/parsing.rs: ParseTree::to_dom"]}
{"id": "C54", "title": "node type predicates, casts and node_type agree", "statement": "For every node exactly one of is_element/is_text/is_comment/is_cdata is true, node_type names it, and as_X succeeds exactly when is_X.", "quantifier": "every node", "why_tests_cant": "law over all nodes (small)", "anchors": ["src/dom.rs: trait Node", "src/dom.rs: node_eq"]}
{"id": "C55", "title": "error positions", "statement": "The line reported for a syntax error is the 1-based line of the offending tag and the column is its 1-based column.", "quantifier": "every input string and position", "why_tests_cant": "arbitrary positions of newlines", "anchors": ["src/lib.rs: line_and_column"]}
{"id": "C56", "title": "namespaces of a tree built bottom-up equal those after re-parsing", "statement": "For every tree built with the API, namespace() of every element equals the namespace it gets when the serialised document is parsed.", "quantifier": "every DOM tree built by API calls", "why_tests_cant": "order of construction varies", "anchors": ["src/dom.rs: Element::set_namespace_context", "src/dom.rs: Element::append_boxed", "src/dom.rs: Element::new"]}
{"id": "C57", "title": "parse error messages do not accumulate prefixes", "statement": "ParsingError::new applied to the displayed form of a parsing error yields the same message, for every message.", "quantifier": "every string", "why_tests_cant": "arbitrary nesting of error wrapping", "anchors": ["src/errors.rs: ParsingError::new", "src/errors.rs: impl Display for ParsingError"]}
{"id": "C58", "title": "file and stream I/O agree with string I/O", "statement": "write_to_file writes exactly to_string() and parse_stream / parse_filepath of those bytes equals parse_str of that string.", "quantifier": "every document and stream", "why_tests_cant": "I/O is outside the model; the composition is logic", "anchors": ["src/lib.rs: parse_stream", "src/lib.rs: parse_filepath", "src/dom.rs: Document::write_to_file"]}
{"id": "C59", "title": "what was parsed can be written and parsed again", "statement": "If parse_str accepts x with result d, then for every indent parse_str of d.to_string_with_indent(i) succeeds and equals d.", "quantifier": "every input string, every indent", "why_tests_cant": "unbounded inputs", "anchors": ["src/lib.rs: parse_str", "src/dom.rs: Document::to_string_with_indent", "src/lib.rs: unescape"]}
{"id": "C60", "title": "names in accepted tags are XML names", "statement": "If parse_str accepts, every start tag and empty-element tag read has an XML name directly after '<', followed by the end of the tag or by white space and attributes that have XML names; hence every element of the result has an XML name.", "quantifier": "every input string, every tag", "why_tests_cant": "the tag pattern is a regular expression applied to arbitrary tags", "anchors": ["src/lib.rs: check_element_tag", "src/lib.rs: parse_new_element"]}
{"id": "C61", "title": "elements and attributes are exactly the ones written", "statement": "If parse_str accepts, the elements of the result in document order correspond one to one to the start tags and empty-element tags of the input in source order; each has the name written in its tag and exactly the attributes written there (the last one when a name is repeated), with decoded values.", "quantifier": "every input string, every element, every attribute", "why_tests_cant": "arbitrary numbers of tags, words and attributes; quotes and spaces around = interact", "anchors": ["src/lib.rs: parse_new_element", "src/lib.rs: quote_aware_split", "src/lib.rs: join_spaced_attributes", "src/parsing.rs: ParseTree::to_dom"]}
{"id": "C62", "title": "errors name a fault that the input has", "statement": "If parse_str returns an error, the input splits into tokens that alone give no error (except that the document is not finished) and a place at which the text or tag has the fault that the error names (text outside the root, unmatched '<', a closing tag with another name than the open element, an undeclared prefix on the root, ...); errors about closing without opening, CDATA, declarations, doctypes, casts, indices or I/O are never returned.", "quantifier": "every rejected input string", "why_tests_cant": "every combination of a fault and what comes before it", "anchors": ["src/lib.rs: parse_str", "src/lib.rs: check_element_tag", "src/lib.rs: parse_new_element", "src/parsing.rs: ParseTree::append"]}
{"id": "C63", "title": "element constructors", "statement": "Element::new and the new_* shortcuts succeed exactly when the element name and all attribute names are allowed, else report the element name or a bad attribute name; the new element has exactly the name, prefix, attributes, text and children given (text first, in text-normal form), the namespace given or else the one its own attributes declare for its prefix, and hands its namespaces down to the children.", "quantifier": "every combination of arguments", "why_tests_cant": "unbounded attribute maps and child lists", "anchors": ["src/dom.rs: Element::new", "src/dom.rs: Element::new_from_name", "src/dom.rs: Element::new_with_attributes", "src/dom.rs: Element::new_with_text", "src/dom.rs: Element::new_with_attributes_and_text", "src/dom.rs: Element::new_with_attributes_and_children", "src/dom.rs: Element::new_with_children"]}
{"id": "C64", "title": "document constructors and setters", "statement": "A new document is written as its declaration (the standard one by default), its document types, one per line, and the root element; set_declaration and set_doctype_defs replace exactly their part, None removes it.", "quantifier": "every document and argument", "why_tests_cant": "unbounded documents", "anchors": ["src/dom.rs: Document::new", "src/dom.rs: Document::new_with_decl_dtd", "src/dom.rs: Document::set_declaration", "src/dom.rs: Document::set_doctype_defs", "src/dom.rs: Document::to_string"]}
{"id": "C65", "title": "the parser reads from the beginning to the end", "statement": "An error of parse_str on an input whose tags are all complete is final (every longer input gives the same error) unless it says that the root element is missing or not closed, and then the input can be completed to an accepted one by adding a root element or the closing tags; a panic is final.", "quantifier": "every input string and every continuation", "why_tests_cant": "pairs of an input and an arbitrary continuation", "anchors": ["src/lib.rs: parse_str", "src/lib.rs: next_tag"]}
{"id": "C66", "title": "when exactly the parser panics", "statement": "parse_str panics exactly when, after tokens it has no objection to, the input has a text or an attribute value on which unescape panics, or a first comment before the root or a <! declaration in the root that is longer than 32 bytes with a character across the place where it is cut for a warning or message.", "quantifier": "every input string", "why_tests_cant": "every combination of what comes before and the panic", "anchors": ["src/lib.rs: parse_str", "src/lib.rs: abbreviate", "src/lib.rs: unescape", "src/lib.rs: parse_new_element"]}
{"id": "C67", "title": "what unescape does, exactly", "statement": "unescape reads from left to right: at each & it replaces the reference there, if any, and goes on as many bytes after the & as the last character of the whole text has; it panics exactly when that is inside a character; a reference at the very end ends it.", "quantifier": "every string", "why_tests_cant": "arbitrary combinations of references and wide characters", "anchors": ["src/lib.rs: unescape"]}
{"id": "C68", "title": "the verdict of the parser, without the parser", "statement": "parse_str accepts exactly the inputs in which no place has a listed fault or makes the parser panic; otherwise it reports the first such place: the error of the fault there (the checks of one place being ordered: text, tag, pieces from left to right, prefix, element name, attribute names, place for it), or a panic.", "quantifier": "every input string", "why_tests_cant": "several faults in one input, in every order", "anchors": ["src/lib.rs: parse_str", "src/lib.rs: check_element_tag", "src/lib.rs: parse_new_element", "src/lib.rs: unescape", "src/parsing.rs: ParseTree::append"]}
{"id": "C69", "title": "character references mean what XML says", "statement": "unescape replaces every character reference of XML, &#N; with decimal digits, &#xN; with hexadecimal digits, and the five predefined entities, by the character it stands for.", "quantifier": "every reference, every text", "why_tests_cant": "all codes, with leading zeros and in any surroundings", "anchors": ["src/lib.rs: unescape"]}
{"id": "C70", "title": "what is written is well-formed XML and means the document", "statement": "to_string_with_indent writes a well-formed XML document (W3C grammar and constraints) that shows every XML reader the same elements, names, attributes, texts, comments and CDATA sections in the same order, with nothing added but white space in elements without text.", "quantifier": "every document, every indent", "why_tests_cant": "all trees, names, values and characters", "anchors": ["src/dom.rs: Document::to_string_with_indent", "src/dom.rs: Element::to_string_with_prefix_and_indent", "src/lib.rs: text_escape", "src/lib.rs: attribute_escape"]}
{"id": "C71", "title": "well-formed XML documents are read as what they mean", "statement": "Every well-formed XML document (W3C grammar and constraints) without document type declaration is parsed, and the resulting document has its declaration, elements, names, attributes, texts, comments and CDATA sections in the same order, leaving out only texts that are white space.", "quantifier": "every well-formed XML document", "why_tests_cant": "all documents of an infinite grammar", "anchors": ["src/lib.rs: parse_str", "src/lib.rs: unescape", "src/lib.rs: parse_new_element"]}
{"id": "C72", "title": "mutable access reaches exactly what it names", "statement": "child_elements_mut, elements_by_name_mut, elements_by_namespace_mut, elements_by_namespace_prefix_mut, first_element_by_name_mut and children_mut never panic and yield the same children as the read-only versions in the same order; writing to what they yield changes exactly these children in their places and nothing else; root_element_mut and doctype_defs_mut change only the root and the document types.", "quantifier": "every element, every argument, every way of writing to some of the items", "why_tests_cant": "unbounded child lists of mixed kinds", "anchors": ["src/dom.rs: Element::child_elements_mut", "src/dom.rs: Element::elements_by_name_mut", "src/dom.rs: Element::first_element_by_name_mut", "src/dom.rs: Document::doctype_defs_mut"]}
{"id": "C73", "title": "namespaces of a parsed document, exactly", "statement": "In every parsed document with one root, the namespace of an element with prefix p is its own xmlns:p, else the nearest xmlns:xmlns:p around it, else the nearest xmlns:p around it; that of an unprefixed element is the nearest xmlns on itself or around it, not looking beyond the first prefixed element around it. An element appended later gets its namespace from the same places.", "quantifier": "every accepted document, every element, every appended element", "why_tests_cant": "arbitrary nesting and re-declaration", "anchors": ["src/lib.rs: parse_new_element", "src/dom.rs: Element::set_namespace_context", "src/dom.rs: Element::append"]}
{"id": "C74", "title": "index errors", "statement": "insert, remove and remove_element called with an invalid index return an error that has the index that was passed and the range of the valid indices.", "quantifier": "every element, every index", "why_tests_cant": "all indices up to the largest usize", "anchors": ["src/dom.rs: Element::insert", "src/dom.rs: Element::remove", "src/dom.rs: Element::remove_element", "src/errors.rs: IndexOutOfBounds"]}
{"id": "C75", "title": "texts of parse errors", "statement": "The text of every error of parse_str names the kind of the error once, and says line and column unless it is about a missing or unclosed root element, a bad name, or an empty comment after the root.", "quantifier": "every rejected input", "why_tests_cant": "every kind of mistake at every place", "anchors": ["src/errors.rs: Display for KissXmlError", "src/errors.rs: ParsingError::new", "src/lib.rs: parse_str"]}
{"id": "C76", "title": "several top-level elements", "statement": "If parse_str accepts an input with several top-level elements, each of them is accepted alone and none is an empty-element tag; the root of the result is the last one, and its children are the nodes of all of them in source order, with unresolved namespaces taken from the last one and with texts that come together joined in the opposite order. Conversely, accepted documents without empty-element root tags can be written one after the other.", "quantifier": "every accepted input", "why_tests_cant": "arbitrary numbers of top-level elements with arbitrary content", "anchors": ["src/lib.rs: parse_str", "src/parsing.rs: ParseTree::push", "src/parsing.rs: ParseTree::to_dom"]}
{"id": "C77", "title": "writing loses nothing", "statement": "Two documents with XML names, without document types, blank texts or texts side by side, whose comments and CDATA sections do not end early, are written with the same characters, with whatever indents, only if they have the same declaration, elements, names, prefixes, attributes, texts, comments and CDATA sections in the same order; if their namespaces agree with their xmlns attributes, then they are equal.", "quantifier": "every pair of documents, every pair of indents", "why_tests_cant": "all pairs of trees and texts, also those that the parser does not read back", "anchors": ["src/dom.rs: Document::to_string_with_indent", "src/dom.rs: Element::to_string_with_prefix_and_indent", "src/lib.rs: text_escape", "src/lib.rs: attribute_escape"]}
{"id": "C78", "title": "warnings", "statement": "parse_str prints to standard error exactly the following, in source order: a warning with the first comment before the root element (shortened to 32 bytes), and one with each <! construct there that is neither a comment nor a document type; only what comes before the first mistake is announced. Serializing with an indent prints one warning if the indent is neither one tab nor spaces, and nothing otherwise. Nothing else is printed, and results do not depend on it.", "quantifier": "every input, accepted or not; every element and document, every indent", "why_tests_cant": "the prolog is unbounded, and the comment counter must be right after any sequence of tags", "anchors": ["src/lib.rs: parse_str", "src/lib.rs: abbreviate", "src/dom.rs: Document::to_string_with_indent", "src/dom.rs: Element::to_string_with_indent"]}
{"id": "C79", "title": "files, directories, writers and readers that fail", "statement": "write_to_filepath to a directory, or below a file, fails and changes nothing; to any other path it succeeds, makes the missing directories, stores the UTF-8 form of to_string, and changes nothing else. write_to_file gives a writer exactly the UTF-8 form, or a beginning of it if the writer fails. parse_filepath and parse_stream depend only on the bytes, not on how they are divided into reads; a failing read is an I/O error.", "quantifier": "every file system tree, path, document and indent; every writer; every sequence of reads", "why_tests_cant": "file systems, partial writes and interrupted reads in all combinations", "anchors": ["src/dom.rs: Document::write_to_filepath_with_indent", "src/dom.rs: Document::write_to_file_with_indent", "src/lib.rs: parse_filepath", "src/lib.rs: parse_stream"]}
{"id": "C80", "title": "hashing and order of all types", "statement": "Equal values hash equally: texts, comments, CDATA sections, declarations and document types give the hasher the same data exactly if they are equal, elements exactly if they have the same name and namespace. All orders are total, transitive, and the byte order of the contents (of the names for elements).", "quantifier": "every pair and triple of values", "why_tests_cant": "laws over all pairs and triples of strings", "anchors": ["src/dom.rs: impl Hash for Element", "src/dom.rs: impl Hash for Text", "src/dom.rs: impl Hash for Comment", "src/dom.rs: impl Hash for CData", "src/dom.rs: struct Declaration", "src/dom.rs: struct DTD"]}
{"id": "C81", "title": "documents built without namespaces are read back", "statement": "A document without document types, prefixes and namespace declarations, made by any sequence of API calls with XML names, writes to a string that parse_str reads back as an equal document if and only if no element has adjacent, empty or blank text children, and every text and attribute value is decoded to itself after escaping. If nothing was removed, no empty text was given and no text was overwritten in place, the first condition always holds.", "quantifier": "every sequence of constructors, setters, insertions, removals and mutable access; every indent", "why_tests_cant": "sequences of calls are unbounded and each step must keep texts apart at every depth", "anchors": ["src/dom.rs: Element::append", "src/dom.rs: Element::insert", "src/dom.rs: Element::set_text", "src/dom.rs: Element::remove", "src/dom.rs: Document::to_string_with_indent", "src/lib.rs: parse_str"]}
{"id": "C82", "title": "equal values behave equally", "statement": "If two elements are ==, all queries give equal answers on them, and after the same change with equal arguments they are still ==, with equal return values, or both report the same error.", "quantifier": "every pair of equal elements (built in different ways, with attribute maps in different orders), every operation and argument", "why_tests_cant": "the same content can be reached by unboundedly many histories with different hidden state", "anchors": ["src/dom.rs: impl PartialEq for Element", "src/dom.rs: Element::append", "src/dom.rs: Element::set_namespace_context", "src/dom.rs: Element::remove_attr"]}
{"id": "C83", "title": "elements taken out of a document", "statement": "In an accepted document with one top-level element, the source of any element, from its first tag to its last, is accepted by parse_str alone if the element has no prefix or declares its prefix itself, and the result has the same names, prefixes, attributes and content; otherwise (tags that begin with <?xml aside) it is not accepted.", "quantifier": "every accepted document with one top-level element, every element in it", "why_tests_cant": "arbitrary surroundings and arbitrary depth; namespaces are inherited from outside", "anchors": ["src/lib.rs: parse_str", "src/lib.rs: parse_new_element", "src/parsing.rs: ParseTree"]}
{"id": "C84", "title": "elements replaced in a document", "statement": "If the source of one element of an accepted document with one top-level element is replaced by any document without prolog that is accepted alone and has one top-level element, the result is accepted: its tree is the old tree with that element replaced, and nothing else changes.", "quantifier": "every accepted document, every element in it, every accepted replacement", "why_tests_cant": "all pairs of documents and all places", "anchors": ["src/lib.rs: parse_str", "src/lib.rs: parse_new_element", "src/parsing.rs: ParseTree"]}
{"id": "C85", "title": "white space is Unicode White_Space", "statement": "The characters taken for white space are exactly the 25 with the Unicode property White_Space: for every text s without '<' and '&', and white space anywhere between the parts of <a k=\"v\">s</a>, parse_str accepts, gives the element the name, the attribute and, unless s is only white space, exactly the text s; Element::new_from_name accepts exactly an ASCII letter or '_' followed by characters that are not white space.", "quantifier": "every text, every name, every white space", "why_tests_cant": "there are 25 such characters among a million, spread over several ranges", "anchors": ["src/lib.rs: parse_str", "src/dom.rs: Element::check_elem_name", "src/lib.rs: quote_aware_split"]}
{"id": "C86", "title": "the way tags and texts are written does not matter", "statement": "If parse_str accepts x with one top-level element, and the texts and tags of that element are written in another way (attributes in another order, other quotes, other white space inside of tags and between them, entity references instead of characters, <a></a> for <a/> or the other way round) such that every tag still fits the tag pattern, then parse_str accepts the new input and the two documents are equal.", "quantifier": "every accepted input, every other way to write its tags and texts", "why_tests_cant": "unbounded number of variants of unbounded inputs", "anchors": ["src/lib.rs: parse_str", "src/lib.rs: parse_new_element", "src/dom.rs: impl PartialEq for Document"]}
{"id": "C87", "title": "element names and namespaces as reported", "statement": "name(), namespace(), namespace_prefix(), default_namespace() and tag_name() agree with each other: tag_name() is prefix:name if there is a prefix, else the name; default_namespace() is namespace() if there is no prefix, else None; elements_by_namespace and elements_by_namespace_prefix find exactly the children that report the namespace or prefix. After Element::new they report the arguments. After parsing, of the name in the tag, namespace_prefix() is what is before the first colon and name() the rest.", "quantifier": "every element, every accepted document with one root", "why_tests_cant": "all names, arguments and documents", "anchors": ["src/dom.rs: Element::name", "src/dom.rs: Element::namespace", "src/dom.rs: Element::namespace_prefix", "src/dom.rs: Element::default_namespace", "src/dom.rs: Element::tag_name", "src/lib.rs: parse_new_element"]}
{"id": "C88", "title": "text, comment and CDATA nodes", "statement": "Comment::new and Comment::set_content succeed exactly if the content does not contain '-->', CData::new and CData::set_text exactly if it does not contain ']]>'; then the content is what was given, otherwise they return an InvalidContent error and a set_ call leaves the old content. The From conversions panic exactly in that case. Written alone, with any indent, a text is its escaped form, a comment <!--content-->, a CDATA section <![CDATA[content]]>. Text::concat concatenates, clear_children removes all children and nothing else, and the default element is <x/>.", "quantifier": "every string and indent", "why_tests_cant": "any content of any length", "anchors": ["src/dom.rs: Comment::new", "src/dom.rs: Comment::set_content", "src/dom.rs: CData::new", "src/dom.rs: CData::set_text", "src/dom.rs: Text::concat", "src/dom.rs: Element::clear_children", "src/dom.rs: impl Default for Element"]}
{"id": "C89", "title": "a call that fails changes nothing", "statement": "When insert, remove, remove_element or set_attr return an error, the element is exactly as before the call. When the predicate given to remove_by or remove_elements panics, no child has been removed. append, append_all and set_text neither fail nor panic.", "quantifier": "every element, index, node, attribute and predicate", "why_tests_cant": "all elements, and predicates that panic at any point", "anchors": ["src/dom.rs: Element::insert", "src/dom.rs: Element::remove", "src/dom.rs: Element::remove_element", "src/dom.rs: Element::set_attr", "src/dom.rs: Element::remove_by", "src/dom.rs: Element::remove_elements", "src/dom.rs: Element::append_all", "src/dom.rs: Element::cleanup_text_nodes"]}
{"id": "C90", "title": "exactly which XML documents are accepted", "statement": "Consider the well-formed XML documents (W3C grammar, no document type declaration) without the character U+1680 and whose prolog has no comment beginning with > or -> and no processing instruction whose name begins with xml. Such a document is accepted if and only if it can be written as a concrete document of C39 whose texts and values unescape accepts, whose tags fit the pattern of tags, whose names the API allows and whose root prefix is declared on the root; in particular it then has nothing after the root, only comments before it, and inside it neither processing instructions nor comments beginning with > or ->. The result has its declaration, no DTDs, and the elements, names, attributes, comments and CDATA sections of the document in the same order, with the texts and values that unescape gives, leaving out texts that are white space. Each of the three conditions is needed: without it, documents are accepted and read as something else.", "quantifier": "every such XML document", "why_tests_cant": "all documents of an infinite grammar", "anchors": ["src/lib.rs: parse_str", "src/lib.rs: parse_new_element", "src/lib.rs: unescape", "src/parsing.rs: ParseTree::to_dom"]}
{"id": "C91", "title": "parsing does not amplify", "statement": "Let parse_str return a document for a source text of n bytes with k characters <. Then the declaration, the document types, and all names, prefixes, attribute names, attribute values, texts, comments and CDATA sections of the tree have at most n bytes together, even with 3 more bytes per attribute; the tree has at most max(1, 2k-2) nodes; elements are nested at most (k+1)/2 deep; and for every element the namespace has at most n bytes, and so has its map from prefixes to namespaces, even with 9 more bytes per entry. The bounds on nodes and nesting are reached.", "quantifier": "every source text", "why_tests_cant": "memory and recursion depth bounds for all inputs", "anchors": ["src/lib.rs: parse_str", "src/lib.rs: unescape", "src/lib.rs: parse_new_element", "src/parsing.rs: ParseTree::to_dom"]}
{"id": "C92", "title": "size of the output", "statement": "Let b be the number of bytes of all names, prefixes, attributes (each as k=\"v\"), texts, comments and CDATA sections of a node, c the number of nodes in it, t the depth to which elements are nested and s the bytes of one step of indentation (two for an invalid indent). Then to_string_with_indent returns at least b and less than 6b + (13+2ts)c bytes. For a document the declaration and the document types are added, with 5 bytes more for the former and one for each of the latter. Hence for a document that parse_str returned for n bytes with k characters <, at most 6n+6+(13+(k+1)s)max(1,2k-2) bytes are written. For every m there is a source of 9m+5 bytes for which mms+9m+5 bytes are written, so the square is necessary.", "quantifier": "every node, document, source text and indent", "why_tests_cant": "memory bounds for serialisation; nothing that is stored is left out of the size", "anchors": ["src/dom.rs: Element::to_string_with_prefix_and_indent", "src/dom.rs: Document::to_string_with_indent", "src/lib.rs: attribute_escape", "src/lib.rs: text_escape"]}
{"id": "C93", "title": "the i32 counters of the parser", "statement": "parse_str has two counters of type i32 (the nesting of < in markup declarations, the number of comments before the root). For every input of at most 2^31+1 bytes they do not overflow, so the result is the same in builds with and without overflow checks; without checks this holds up to 2^32+2 bytes. For longer inputs a build with checks gives the same result or panics, and both limits matter: there is an input of 2^31+2 bytes that makes parse_str panic with checks instead of returning an error (2^31 comments before the root also make it panic), and one of 2^32+7 bytes that is accepted without checks instead of being rejected. The usize values do not overflow: offsets found by next_tag are in order and inside of the input, lines and columns of errors are at most one more than the number of characters.", "quantifier": "every input, with and without overflow checks", "why_tests_cant": "inputs of gigabytes", "anchors": ["src/lib.rs: nested_quote_aware_find_close", "src/lib.rs: parse_str", "src/lib.rs: next_tag"]}
{"id": "C94", "title": "how long parsing takes", "statement": "Count the rounds of the loops of parse_str over characters, children, prefixes and nodes. For every input of n bytes, accepted or not, there are at most 6(n+1)^2 rounds. The part that finds the tags needs at most n+1. The others are not linear: for a document that is returned there are at least as many rounds as the sum, over all its elements, of the square of the number of children, because every appended child makes all children be looked at again; unescape needs at most (length of the text) times (number of ampersands) rounds, exactly m(m+1)/2 for m ampersands; and reading back the 5m+7 bytes that are written for an element whose text is m ampersands needs at least 5m(m+1)/2 rounds.", "quantifier": "every input", "why_tests_cant": "denial of service by inputs that take quadratic time", "anchors": ["src/lib.rs: parse_str", "src/lib.rs: unescape", "src/lib.rs: next_tag", "src/parsing.rs: ParseTree::to_dom", "src/dom.rs: Element::cleanup_text_nodes"]}
{"id": "C95", "title": "how deep calls go", "statement": "text, children_recursive (run to its end), writing to a string, clone and dropping have as many calls of the recursive function active at the same time as elements are nested, for every tree: with that many they return their result, with fewer they overflow the stack. == on equal nodes needs the same, on any two nodes never more than the less nested of them; remove_all needs the nesting of what is left. For a document that parse_str returned, half of one more than the number of < in the source is enough. There is no limit on the input: for every k a source of 9k+5 bytes is accepted whose document cannot be written, copied, compared with itself, iterated over or dropped with k active calls.", "quantifier": "every node, every number of calls, every input", "why_tests_cant": "stack overflow aborts the program and cannot be caught: denial of service by nested input", "anchors": ["src/dom.rs: Element::text", "src/dom.rs: Element::children_recursive", "src/dom.rs: Element::to_string_with_prefix_and_indent", "src/dom.rs: clone_node", "src/dom.rs: node_eq", "src/dom.rs: Element::remove_all", "src/lib.rs: parse_str"]}
{"id": "C96", "title": "how much is copied while writing", "statement": "Count the bytes pushed to the output buffers in all recursive calls of writing an element, and of text. There are at least as many as the result has bytes, and at most that number times the nesting of elements. For text the bound is reached at every depth and by every text. For writing with the default indent of two spaces, for every n there is a source of 9n+5 bytes that is accepted and for whose document (4n(n+1)(2n+1) + 27n(n+1) + 24(n+1))/6 bytes are pushed, which is cubic in the size of the source.", "quantifier": "every element, prefix and indent", "why_tests_cant": "denial of service by inputs that take cubic time to print", "anchors": ["src/dom.rs: Element::to_string_with_prefix_and_indent", "src/dom.rs: Element::text"]}
{"id": "C97", "title": "appending nodes one by one or all at once", "statement": "Count rounds of loops as in C94. append_all of m nodes, k of them elements, to an element with c children and p prefixes in scope needs at most m + k(1+p) + 2(c+m) rounds. Calling append for each needs at most m^2 + 2mc + kp rounds, and exactly that many if neither the old nor the new children contain texts; the result is then the same as that of append_all.", "quantifier": "every element and list of nodes", "why_tests_cant": "the cost of building large documents", "anchors": ["src/dom.rs: Element::append", "src/dom.rs: Element::append_all", "src/dom.rs: Element::cleanup_text_nodes"]}
{"id": "C98", "title": "recursive iterators call by call", "statement": "The iterators of children_recursive and of the searches are lazy: the k-th call of next returns the k-th item, and None for ever after the last one; the predicate, which may have a state, is called once for each item in the same order and only as far as the calls of next need it, by search_elements, search_text and search_comments only for nodes of the kind. An iteration to the end calls next, for each element, once more than there are nodes below it: at most nodes times nesting, and quadratically often for nested elements.", "quantifier": "every element, every predicate with a state, every number of calls", "why_tests_cant": "arbitrary trees, predicates and points at which the caller stops", "anchors": ["src/dom.rs: Element::children_recursive", "src/dom.rs: Element::search", "src/dom.rs: Element::search_elements", "src/dom.rs: Element::search_text", "src/dom.rs: Element::search_comments", "src/dom.rs: Element::child_elements"]}
{"id": "C99", "title": "taking out what was put in, putting back what was taken out", "statement": "In an element without adjacent or blank texts, a node removed from an index and inserted again at the same index restores the element; so does inserting or appending a node and removing it, exactly if the node is no text or a text that is not blank and not next to another one. Restored means: all fields and children as before, except that the last child has been handed down the namespaces of the element, which changes nothing if that had happened before.", "quantifier": "every element in text normal form, every index, every node", "why_tests_cant": "arbitrary child lists, texts, namespaces and positions", "anchors": ["src/dom.rs: Element::insert", "src/dom.rs: Element::remove", "src/dom.rs: Element::append", "src/dom.rs: Element::cleanup_text_nodes"]}
{"id": "C100", "title": "parsing the same text twice", "statement": "Parsing a text twice, in whatever order the hash maps involved are iterated, gives equal documents, which print the same, or the same error.", "quantifier": "every text and every iteration order of each hash map", "why_tests_cant": "random seeds of HashMap: two runs of one program need not agree", "anchors": ["src/lib.rs: parse_str", "src/parsing.rs: parse_new_element", "src/dom.rs: Element::new"]}
{"id": "C101", "title": "the order of hash maps does not matter", "statement": "Element::new, append, append_all, insert, series of these and the other changing calls (also of child elements), namespace_prefixes and to_string give results that do not depend on the order in which hash maps are iterated, nor on the order of entries in the maps given to them: results are equal in every field, with maps compared as maps, and errors are the same. The one exception is Element::new given several invalid attribute names: it reports any one of them.", "quantifier": "every element, every series of calls, every iteration order of each hash map", "why_tests_cant": "random seeds of HashMap: two runs of one program need not agree", "anchors": ["src/dom.rs: Element::new", "src/dom.rs: Element::append", "src/dom.rs: Element::append_all", "src/dom.rs: Element::insert", "src/dom.rs: Element::namespace_prefixes", "src/dom.rs: Element::to_string_with_prefix_and_indent"]}
{"id": "C102", "title": "nodes of the user's own types", "statement": "Boxed nodes of types that users write themselves (none of element, text, comment and CDATA, and saying so) may be children at any depth. Element::new and any series of changing calls treat them as they treat comments; iteration, text and searches give what they give with comments in their place (search_comments does not find them); printing differs only in that each shows itself at its place, in document order, with the indent of the document, or with none if it is an only child. clone panics exactly if there is such a node in the element; == panics exactly if the comparison meets one, otherwise it answers as with comments, and it never calls elements with such nodes equal; remove_element gives the same error or the element removed, unless that contains such a node: then it panics. A user's node that claims to be an element or text makes append panic; one that claims to be a comment makes search_comments panic.", "quantifier": "all elements with any user-defined nodes at any depth, all series of changing calls, all closures that treat such nodes as comments, all indents", "why_tests_cant": "which panics are reachable depends on where such nodes are in the tree and on what they answer", "anchors": ["src/dom.rs: trait Node", "src/dom.rs: clone_node", "src/dom.rs: node_eq", "src/dom.rs: Element::append", "src/dom.rs: Element::remove_element", "src/dom.rs: Element::to_string_with_prefix_and_indent"]}
{"id": "C103", "title": "attribute maps with keys of other types", "statement": "Element::new (and the constructors that call it) takes a HashMap whose keys and values are of any types that convert to strings. The element gets one attribute for each string that some key converts to, with the value of one of the entries with such a key, and no others; otherwise all is as with a HashMap of strings. If entries whose keys convert to the same string have values that convert to the same string, the result is the same in every run (up to which of several bad names is reported); if not, each of the values may be the one taken, so that the result may differ from run to run.", "quantifier": "all types with conversions into strings, all maps, all iteration orders", "why_tests_cant": "the iteration order of a HashMap is random, so a test sees one of the possible results", "anchors": ["src/dom.rs: Element::new"]}
{"id": "C104", "title": "A change in one place changes the output only there", "statement": "Let some neighbouring nodes anywhere in an element be replaced by others, such that the surrounding element keeps having several children (or one that is an element) and text among its children if and only if it had before (or let a lone text, comment or CDATA section be replaced by another). Then the output before and after, with any indentation, is the same up to these nodes and after them, and in between it is the layout of the old and of the new nodes; without text beside or around them, these are whole lines. If only the attributes of an element change, the output changes only in the attribute list of its start tag. `remove` and `append` of nodes other than text are such changes.", "quantifier": "all elements, places, nodes, indents", "why_tests_cant": "Files under version control change only where the document was edited.", "anchors": ["src/dom.rs: Element::to_string_with_prefix_and_indent", "src/dom.rs: Element::to_string_with_indent", "src/dom.rs: Document::to_string_with_indent", "src/dom.rs: Element::remove", "src/dom.rs: Element::append"]}
{"id": "C105", "title": "What the removing calls ask their predicate", "statement": "`remove_by` and `remove_elements` call their predicate once for each child (each child element), from the last to the first, and only then remove those with the answer true; if the predicate panics, nothing has been removed. `remove_all` and `remove_all_elements` do this for the element first, and then, recursively, for each child element that is left, from the first to the last. The predicate may remember what it was asked and answer accordingly. No node is asked about twice, and each is asked about as it was before the call; the answer is true as often as the returned number says, and false once for each node that is left. Also after a panic the element is as before but for some nodes with the answer true.", "quantifier": "all elements, predicates with memory, panics of the predicate at any call", "why_tests_cant": "Predicates that count or collect, and code that catches panics.", "anchors": ["src/dom.rs: Element::remove_by", "src/dom.rs: Element::remove_elements", "src/dom.rs: Element::remove_all", "src/dom.rs: Element::remove_all_elements", "src/dom.rs: Element::child_elements_mut"]}
{"id": "C106", "title": "Nodes put into a source or taken out of it", "statement": "In an accepted document with one top-level element, the source of an element that is accepted alone, a comment or a CDATA section can be put before any tag but the first one, and a text can be put where there is only white space between two tags (if it does not stand for white space only): the new document is accepted, and its tree is the old one with exactly this node more, at this place, nothing else changed. Likewise the source of an element other than the root, a comment or a CDATA section can be taken out, with the white space on one of its sides: the new tree is the old one without this node. It can also be taken out with the texts on both sides, and any text put in their place.", "quantifier": "every accepted document with one top-level element, every place in it, every node", "why_tests_cant": "A program that edits XML as text relies on this; the comment that is added by hand must not change what is read around it.", "anchors": ["src/lib.rs: parse_str", "src/lib.rs: parse_new_element", "src/parsing.rs: ParseTree::append"]}
{"id": "C107", "title": "An element with another name and other attributes in its tags", "statement": "In an accepted document with one top-level element, rewrite the tags of one element: the same prefix and the same namespace declarations, but another local name and any other attributes that can be read. The new document is accepted, and its tree is the old one where this element has the new name and exactly the new attributes; its content, its namespace and all other nodes are as before. In particular one more attribute can be put at the end of the first tag of any element: the element then has this attribute, with its value decoded, and otherwise those it had.", "quantifier": "every accepted document with one top-level element, every element in it, every new name and attributes", "why_tests_cant": "A program that edits XML as text relies on this.", "anchors": ["src/parsing.rs: parse_new_element", "src/lib.rs: parse_str", "src/dom.rs: Element::new"]}
{"id": "C108", "title": "Editing the source and editing the tree agree", "statement": "In an accepted document with one top-level element, put a comment, a CDATA section, or (where there is only white space between two tags) a text into the source, or take a node other than the root out of it (with the white space on one side): the document that is read then is exactly the old one after `insert` of this node, or `remove`, on the surrounding element, at the index that belongs to the place. The same holds for the source of an element that is accepted alone, but for the namespaces in this element, which `insert` does not work out again. Likewise an attribute put at the end of a first tag, or taken out of a tag: the document is equal to the old one after `set_attr` with the decoded value, or `remove_attr`, which returns this value.", "quantifier": "every accepted document with one top-level element, every place in it, every node and attribute", "why_tests_cant": "Edits by hand and edits by a program should mean the same.", "anchors": ["src/lib.rs: parse_str", "src/dom.rs: Element::insert", "src/dom.rs: Element::remove", "src/dom.rs: Element::set_attr", "src/dom.rs: Element::remove_attr"]}
{"id": "C109", "title": "The regular expressions in the code", "statement": "The patterns in the code, read in the notation of the regex crate, are well formed, so that compiling them does not fail. The checks of element and attribute names accept exactly the names in which their pattern has a match; a text is white space, and characters between two tags are ignored, exactly if the pattern for it has a match; a tag is accepted by the syntax check exactly if the pattern for tags, with the two character classes put in by format!, has a match in it.", "quantifier": "every string", "why_tests_cant": "What the patterns mean is otherwise transcribed by hand.", "anchors": ["src/lib.rs: check_element_tag", "src/lib.rs: real_text", "src/dom.rs: Element::check_attr_name", "src/dom.rs: Element::check_elem_name", "src/dom.rs: Text::is_whitespace"]}
{"id": "C110", "title": "What stands before the root element", "statement": "parse_str accepts an input exactly if what stands before the root element is fine (white space between the tags; a declaration only as the first tag, or as the second if the first begins at offset 0; the first comment can be shortened for the warning) and the rest is accepted alone: the declaration is the last one written, the document types are all that are written, in order, and the root element is that of the rest. So these parts can be exchanged between documents. A declaration put first, or taken out, gives the document after set_declaration; a document type put in or taken out gives the document after set_doctype_defs with one more or one less at this place; comments, other <! tags and white space change nothing.", "quantifier": "all inputs, split by the tags; all accepted documents and all places before their root element", "why_tests_cant": "the two phases of the parser are independent", "anchors": ["src/lib.rs: parse_str", "src/dom.rs: Document::set_declaration", "src/dom.rs: Document::set_doctype_defs"]}
{"id": "C111", "title": "The content of an element in the source", "statement": "If two accepted documents with one top-level element have the same source but for one element, their trees are the same but for this element; if its first tag is the same in both, only its children differ. If all that is between the first and the last tag of an element is replaced by characters without '<', the new document is accepted exactly if these stand for a text or for white space, and then it is exactly the old document after set_text with the decoded text, or after clear_children, on this element.", "quantifier": "every accepted document with one top-level element, every element in it, every replacement", "why_tests_cant": "what is written inside of one element must not change what is read elsewhere; templates are filled this way", "anchors": ["src/lib.rs: parse_str", "src/dom.rs: Element::set_text", "src/dom.rs: Element::clear_children", "src/lib.rs: parse_new_element"]}
{"id": "C112", "title": "Removing calls one after the other", "statement": "Two calls of remove_by, or of remove_elements, leave the same children as one call with 'either predicate', and their counts add up to its count. Two calls of remove_all, or of remove_all_elements, leave the same tree as one call with 'either predicate', if the second predicate does not look at the children of elements; the counts add up to at least its count. So the order of the calls does not matter for the result, and the same call again removes nothing, with search finding nothing. For any predicate, at least as many nodes disappear as are counted, and after as many calls as the element has descendants nothing more is removed. Removing everything is clear_children; removing comments or CDATA sections leaves text() unchanged.", "quantifier": "all elements and predicates", "why_tests_cant": "cleanup code calls these functions in some order, often more than once", "anchors": ["src/dom.rs: Element::remove_by", "src/dom.rs: Element::remove_elements", "src/dom.rs: Element::remove_all", "src/dom.rs: Element::remove_all_elements", "src/dom.rs: Element::clear_children"]}
{"id": "C113", "title": "How many nodes the removing calls move", "statement": "Vec::remove moves every item after the removed one. remove_by moves as many nodes as there are pairs of a removed child and a later child that stays: at most the number of removed children times the number of those that stay. If all removed children come first it is exactly this product, so the work is quadratic for a long list of children; nothing is moved exactly if no child that stays comes after a removed one. remove_all moves as many as there are such pairs in all lists of children that it visits, at most the returned count times the number of nodes left. remove(i) moves those after index i, so emptying an element with n children by remove(0) moves n(n-1)/2.", "quantifier": "all elements, predicates and indices", "why_tests_cant": "cleaning up an element with very many children may be slow", "anchors": ["src/dom.rs: Element::remove_by", "src/dom.rs: Element::remove_all", "src/dom.rs: Element::remove"]}
{"id": "C114", "title": "Texts and values cannot change the structure of what is written", "statement": "Write a document (names are XML names, no blank texts or two texts side by side, comments and CDATA without their ends, no document types) with texts and attribute values from anywhere. What is written is never refused with an error: it is read back with the same declaration, the same elements, names, prefixes, attribute names, comments and CDATA in the same order, or the parser panics. It panics exactly if there is a text or a value for which unescape panics on its escaped form. Documents that differ in texts and values only are read back with the same structure. From the side of the source: an input with the layout of a document is read or makes the parser panic, whatever stands in its texts and between its quotes.", "quantifier": "all documents of the shape, all texts, values and indents", "why_tests_cant": "injection of markup through user data", "anchors": ["src/lib.rs: text_escape", "src/lib.rs: attribute_escape", "src/dom.rs: Document::to_string_with_indent", "src/lib.rs: parse_str"]}
{"id": "C115", "title": "Inputs that are cut off", "statement": "If an accepted input with one top-level element is cut off anywhere before the end of the root element, parse_str returns an error, never a document and never a panic. The error is one of four: no XML content (cut off before the root tag, between tags), root not closed (inside of the root element, between tags), unmatched < (inside of a tag, up to the root tag) or invalid syntax (inside of a later tag); the last two have the position of the tag that is cut. Cut off after the root element, the input gives the same document: text after the last tag is not looked at.", "quantifier": "all accepted inputs, all places to cut", "why_tests_cant": "incomplete downloads and files must not pass for documents", "anchors": ["src/lib.rs: parse_str", "src/lib.rs: next_tag"]}
{"id": "C116", "title": "Document type declarations", "statement": "A document with a document type declaration according to the grammar of the W3C recommendation (external identifier, internal subset with element, attribute list, entity and notation declarations, parameter entity references, comments and processing instructions) is accepted if it is without it; the declaration is kept as it is written and everything else is read as without it.", "quantifier": "all document type declarations of the grammar, all documents and places before the root element", "why_tests_cant": "the grammar is infinite and the end of the declaration depends on the nesting of quotes and brackets in everything it contains", "anchors": ["src/lib.rs: parse_str, next_tag, nested_quote_aware_find_close"]}
{"id": "C117", "title": "Other white space", "statement": "When the white space characters (space, tab, carriage return, line feed) of an accepted input are replaced by other white space, as when line ends are converted, the input is accepted, and the document is the same up to the same replacement in texts, attribute values, comments, CDATA sections, declaration and document types.", "quantifier": "all accepted inputs and all replacements of white space characters by non-empty white space", "why_tests_cant": "every scanner, splitter and byte offset of the parser sees other strings and other positions; a test compares single files", "anchors": ["src/lib.rs: parse_str, next_tag, quote_aware_split, join_spaced_attributes, strip_tag, unescape, parse_new_element"]}
{"id": "C118", "title": "Namespaces in XML", "statement": "The namespace of every element of a parsed document is the one the W3C recommendation Namespaces in XML gives it: that of the nearest declaration of its prefix (xml is always bound), without a prefix that of the nearest default namespace, none if that is empty.", "quantifier": "all accepted inputs with one top-level element, all their elements", "why_tests_cant": "the namespace of an element depends on all elements around it, at any depth", "anchors": ["src/lib.rs: parse_str, parse_new_element", "src/dom.rs: set_namespace_context, Element::append"]}
{"id": "C119", "title": "Character encodings", "statement": "parse_stream and parse_filepath read a document in the encodings that the W3C recommendation demands of every processor: UTF-8, with or without a byte order mark, and UTF-16 with a byte order mark of either order. The mark is not part of the document.", "quantifier": "all documents, as strings and as bytes", "why_tests_cant": "test files are written by hand, in one encoding; editors on other systems write others", "anchors": ["src/lib.rs: parse_stream, parse_filepath, parse_str"]}
{"id": "C120", "title": "The tree is what is written", "statement": "Reading the tree of a parsed document from the beginning to the end (elements that start and end, with their names and attributes, texts, comments, CDATA sections) gives exactly what the tags and texts of the input stand for, one by one and in the same order; texts that are white space, before or after they are decoded, are left out. The tags and texts determine this list, and the list determines the tree except for the namespaces. text() of the root element is the character data of the input without such texts.", "quantifier": "all accepted inputs with one top-level element", "why_tests_cant": "the tree is built backwards in an arena; a test compares single trees", "anchors": ["src/lib.rs: parse_str", "src/parsing.rs: ParseTree::to_dom", "src/dom.rs: Element::text"]}
{"id": "C121", "title": "Other prefixes", "statement": "If the tree of one parsed document is that of another with the namespace prefixes renamed, in the names of the elements and in the declarations, then elements in the same places are in the same namespaces. If the prefixes are renamed in the tags of an accepted input, the new input is accepted, and its tree is the old one with the other prefixes.", "quantifier": "all pairs of accepted inputs with one top-level element, all renamings", "why_tests_cant": "documents that differ in this way are infinitely many", "anchors": ["src/lib.rs: parse_str", "src/dom.rs: Element::append", "src/dom.rs: Element::set_namespace_context"]}
{"id": "C122", "title": "Memory for namespaces", "statement": "The namespaces and the maps of prefixes of all elements of a parsed document need no more bytes than twice the source times the greatest possible number of nodes. A source of m + 5k + 30 bytes may need (k + 3)(m + 10) bytes for them, so that no fixed number of bytes per byte of source is enough.", "quantifier": "all accepted inputs; all m, k", "why_tests_cant": "a bound for all documents, and growth, which a test shows for single sizes only", "anchors": ["src/lib.rs: parse_str", "src/dom.rs: Element::append", "src/dom.rs: Element::set_namespace_context"]}
{"id": "C123", "title": "What the merging of texts costs", "statement": "append and append_all put adjacent texts together with Text::concat, which copies both. Counted in bytes, every text that a text follows is copied together with all texts up to the next other node; these are no more bytes than the number of texts times their bytes. If no two texts are next to each other before, append copies the last child and the new node if both are texts, and nothing otherwise. For m + 1 equal texts in a new element both append_all and append, one by one, copy m(m + 3)/2 times the bytes of one text.", "quantifier": "every element and list of nodes; all m", "why_tests_cant": "the cost of building large documents", "anchors": ["src/dom.rs: Element::append", "src/dom.rs: Element::append_all", "src/dom.rs: Element::cleanup_text_nodes", "src/dom.rs: Text::concat"]}
{"id": "C124", "title": "Patterns are compiled at every use", "statement": "The regular expressions of the crate are kept in OnceCells that are const items, so that every use compiles its pattern again. append compiles one pattern for every text of the element, the new node included. Parsing compiles three patterns for every element and one for every attribute; for every text one, and one more for every node before it in the same element; for no input are there more than 12(n + 1)² in the number n of bytes. With m times a text and a comment in an element these are at least m squared; append, called for each of them, compiles m(m + 1). For every m > 0 there is such a source with 8m + 8 bytes.", "quantifier": "every element and node; every accepted document; all m", "why_tests_cant": "the cost of a cache that is never used does not show in results", "anchors": ["src/lib.rs: parse_str", "src/lib.rs: check_element_tag", "src/lib.rs: real_text", "src/dom.rs: Element::append", "src/dom.rs: Element::check_attr_name", "src/dom.rs: Element::check_elem_name", "src/dom.rs: Text::is_whitespace"]}
{"id": "C125", "title": "What unescape copies", "statement": "Count the bytes that unescape copies from one string to another. In a text without references by number, which does not end with a character of several bytes, for every ampersand the text from there on is copied; if it begins a reference by name, what follows the reference is copied twice, and the character. For any text these are no more bytes than three times the text for every ampersand, and no less than the rounds of the loops of C94. To decode m times &amp; (5m bytes) exactly (15m(m + 1) - 18m)/2 bytes are copied.", "quantifier": "every text; all m", "why_tests_cant": "denial of service by inputs that take quadratic time", "anchors": ["src/lib.rs: unescape", "src/lib.rs: string_insert"]}
{"id": "C126", "title": "Numbers in references are read again at every semicolon", "statement": "unescape goes on to the end of the text after a reference is decoded, and reads the number of a reference again at every semicolon. Count the characters that u32::from_str_radix looks at. For any text there are no more than its characters times its semicolons. One reference with m digits that k more semicolons follow needs exactly (k + 1)m + k, so that a single ampersand is enough for quadratic time.", "quantifier": "every text; all m > 0 and k", "why_tests_cant": "denial of service by inputs that take quadratic time", "anchors": ["src/lib.rs: unescape"]}
