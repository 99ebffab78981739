# Formal model of kiss-xml in Lean 4

Source: `/repo` (kiss_xml 1.1.0; `src/lib.rs`, `src/dom.rs`, `src/parsing.rs`, `src/errors.rs`).
Lean project: `/verif/lean`, modules under `Verif/`.

| directory | content |
|-----------|---------|
| `Verif/Model` | the code: one definition per function, each with the file and lines it comes from |
| `Verif/Spec`  | what the theorems say, stated without the model's helper functions |
| `Verif/Proofs` | lemmas, and small checkers used by examples |
| `Verif/Props` | the property theorems `Cnn_…`, with examples beside them |

## What is modelled and how

| module | code |
|--------|------|
| `Model/Str` | byte-offset slices, `find`, `starts_with`, `ends_with`, `contains`, `replace`, `trim`, `split_once`, `char::is_whitespace`, hexadecimal digits; `Res` |
| `Model/Map` | `HashMap<String,String>` (`SMap`), arena maps (`LMap`) |
| `Model/Escape` | `text_escape`, `attribute_escape`, `escape`, `unescape`, `string_insert` |
| `Model/Pattern` | the regular expressions of the code as strings, copied |
| `Model/Regex` | regular expressions, their language, a matcher by derivatives (proved equal to the language) |
| `Model/Dom` | `Document`, `Element`, `Text`, `Comment`, `CData`, `Declaration`, `DTD`: constructors, queries, edits, equality, order, hash, clone |
| `Model/ParseTree` | `parsing.rs` |
| `Model/Parse` | `parse_str` and everything below it, `line_and_column`, `ParsingError::new` and its `Display` |
| `Model/Serialize` | `to_string`, `to_string_with_indent`, `attribute_order`, `validate_indent` |
| `Model/Mut` | the `_mut` accessors |
| `Model/InPlace` | methods with `&mut self`, statement by statement, with the element after errors and panics |
| `Model/Message` | `errors.rs`: the texts of all errors but I/O errors |
| `Model/Fs` | reading and writing with a file tree, and with writers and readers that can fail |
| `Model/Hash` | what is fed to a hasher; the order of declarations and document types |
| `Model/Machine` | `parse_str` with its `i32` counters as machine integers |
| `Model/Cost` | `parse_str` with a counter of the rounds of its loops |
| `Model/WriteCost` | writing and `text` with a counter of the bytes pushed to the output buffers |
| `Model/AppendCost` | `append_all`, and repeated `append`, with a counter of rounds |
| `Model/Iter` | the iterators of `children_recursive` and the searches as states with `next`; calls of `next` are counted |
| `Model/AnyOrder` | the functions that loop over a `HashMap`, and those that call them, with the order of each loop left open (a set of outcomes) |
| `Model/Foreign` | nodes of types outside of the crate among the children: constructors, edits, searches, clone, `==`, printing again, with the casts |
| `Model/Keys` | `Element::new` for maps with keys and values of other types, in any order |
| `Model/Depth` | the recursive functions of `dom.rs` with a limit for the calls active at the same time |
| `Model/Warn` | the functions that print warnings, with what they print |
| `Model/Io` | `parse_stream`, `parse_filepath`, `write_to_file…` as functions on byte sequences |

* A Rust `String`/`&str` is `Str := List Char` (Unicode scalar values). Byte indices are kept: every slice `&s[a..b]` of the
  source is a function on *byte* offsets that yields `none` (a panic) when an offset is out of range or not on a character
  boundary.
* `Result`, panics and non-termination are data: `Res ε α = ok a | err e | panic | diverge`. Loops take fuel; running out of
  fuel gives `diverge`, and C33 shows that this does not happen for the parser.
* The `regex` crate is modelled by regular-language semantics: `is_match` means "some substring is in the language".
  The transcription of the patterns is checked: C109 reads the patterns as they are written in the source, in the notation of the crate
  (`Spec/Pattern`), and shows that the functions of the model decide whether they have a match.
* `HashMap<String,String>` is an association list with distinct keys (`SMap`). The list order plays the role of the unspecified
  iteration order; `Model/AnyOrder` has the loops in any order, and C100 and C101 show that results do not depend on it (see also C09, C27 and C28).
* `Element`/`Text`/`Comment`/`CData`/`Box<dyn Node>` are a nested inductive type; `&mut self` methods return the new element (`Model/InPlace` has them
  statement by statement, with what is left after an error; C89 shows that both agree).
* `ParseTree` (a `HashMap` arena) is a `Nat`-keyed association list; `expect` and indexing are panics when they fail.
* Iterators are the lists they produce.
* `usize` is `Nat`; where `usize` is cast to `isize` (index errors) a 64-bit target is assumed.
* A parsing error is a code with its arguments and, for located errors, line and column; `Model/Message` maps it to the text.

## Not modelled

User implementations of `trait Node` that wrap one of the structs and give it out (others are in `Model/Foreign`), or answer differently from call to call; `Any` downcasts; derived `Debug` (the written ones are the same as `Display`); the text of I/O errors; a closed stderr; the size of stack frames (`Model/Depth` counts calls of the recursive functions, one for each element; for `children_recursive` the nested calls of `next`, for drop the drop glue), memory; running time other than the rounds counted in `Model/Cost` and `Model/AppendCost`, the calls counted in `Model/Iter` and the bytes counted in `Model/WriteCost`; the repeated warning after 2^32 comments (the counters
themselves are in `Model/Machine`); the operating system except for the simple file tree, writers and readers of `Model/Fs`; `_mut` accessors are modelled in Model/Mut as the items they yield and the effect of overwriting a prefix of them; in the
reachability relation (C26) they are all represented by `Api.childrenMut` (any child may be replaced by any value that can be built).

## Checks of the model

* `Verif/Tests/Repo.lean` runs every test of `/repo/tests` that asserts something about values (api_tests, escaping_tests,
  failure_handling, issues, misc, simple, example1-3) on the model, with the inputs and expected outputs copied from the source
  by a script; all agree. Left out: tests that only use the file system or only print.
* `Verif/Tests/NoPanic.lean` repeats no_panic_tests; the permutation test is proved for any number of tokens.
* `Verif/Tests/Docs.lean` runs the examples in the documentation of `/repo/src` that say what they print. Two of them say something
  else than the code prints: the example of `first_element_by_name` prints `<p>Hello there!</p>`, not `Hello there!`, and the comment
  in the html example has two spaces after `</a>`.
* `seeded/LOG.jsonl` lists wrong variants of the model and the theorems that failed on them.

## Trusted base

* The Lean 4.33.0 kernel.
* The axioms `propext`, `Classical.choice` and `Quot.sound`, listed per theorem below; no others, no `sorry`, no
  `native_decide`, no `bv_decide`.
* The reading of the Rust code recorded in the comments of `Verif/Model`, and of the std and `regex` functions in `Model/Str`
  and `Model/Regex`. The tables of white space and name characters are those of the Unicode versions named there.
* The specifications in `Verif/Spec`: they say what the claims mean. Where they speak of white space they use `isWs` of the model; C85
  proves that this is the Unicode property.

## Method

* Escaping (C01–C07, C67): the chain of `replace` is one `flatMap`; `unescape` is compared with the relation `Decodes` (what it should do),
  and shown equal to the relation `Unesc` (what it does); `Legible` texts are those on which the two agree.
* Queries, edits, constructors (C12–C29, C32, C54, C63, C64): structural induction against list and tree specifications.
* Reachability (C26): `Spec.Api` closes over all API calls; invariants by induction.
* Parser (C30, C31, C33–C44, C51, C52, C55, C60–C62, C65, C66, C68, C73, C75): `Proofs/Lex` relates the tag search to `TagAt`, `Proofs/Accept` proves that
  `parseStr` accepts exactly the inputs whose tokens are described by the inductive relations `Lex`, `Pro`, `RootPart`
  (`parse_iff`), and the properties follow by induction on these relations. `Proofs/Syntax` does the same for concrete
  documents `CDoc` (completeness); `Proofs/SyntaxExact` shows which well-formed `CDoc` documents are accepted (`parse_exact`), and
  `Proofs/Unambiguous` that a text is the source of at most one well-formed `CDoc` (`src_inj`).
* Errors (C62): `Spec/Errors` lists what can be wrong with an input and the error for it; `Proofs/Faults` shows that every error the
  parser returns is in the list, by induction on the tokens with the names of the open elements.
* Reading order, panics (C65, C66, and "first fault" in C62): `Proofs/Reader` writes `parse_str` as a machine that reads one token at
  a time; `Proofs/Steps` says what each step does; `Proofs/Complete` how an unfinished input can be completed.
* Verdict (C68): `Proofs/Reject` shows the converse of C62, that a fault is reported. Together: the parser accepts exactly the inputs
  without `Trouble`, and otherwise reports the first one; nothing in `Split`, `Trouble`, `First` refers to the parser.
* Round trips (C11, C45, C46, C49, C50, C56, C59, C77): the output of the serialiser is the source of a `CDoc` (`cdoc_src`,
  `cdoc_ok_iff`); `reparse_iff` then says what is read back and when, and `reread_iff` when it is what was written. With
  `src_inj`, what is written determines the document (C77, `write_inj`).
* Variants (C83, C84, C86, C106, C107, C111): `Proofs/Local`, `Proofs/Content`, `Proofs/PutIn`, `Proofs/Retag`, `Proofs/AddAttr` and `Proofs/Variant` transport the derivations of `Body` to other places and to other
  tokens; namespaces follow because the rules of C33, C34 and C73 determine them (`same_of_rules`). `Proofs/SourceEdit` (C108)
  shows that such changes are what `insert`, `remove`, `set_attr` and `remove_attr` do: in a tree that was read, every child already has
  the namespaces of its parent (`parse_handed`) and texts are in normal form, so the calls change nothing else.
* Document type declarations (C116): `Spec/Doctype` is the grammar of the W3C recommendation for `doctypedecl`, over languages with `inOrder`, `anyOf`, `maybe`, `Many`. Constraints that are not in the grammar (parameter entities inside declarations, validity) are left out.
* Other white space (C117): `Spec/Respace` replaces single characters (a string homomorphism `respace`), so LF to CR LF is covered, CR LF to LF only as the inverse of the result. White space here is that of XML; `isWs` (Unicode) stays in the model.
* Namespaces in XML (C118): `Spec/W3Ns` takes the rules for element names from the recommendation (3, 6.1, 6.2); names of attributes have no namespace in the library, so there is nothing to compare.
* Character encodings (C119): `Spec/Encoding` has UTF-16 from its definition; UTF-8 is `List.utf8Encode` of Lean's library (trusted to be UTF-8, as in C58).
* Events (C120): `Spec/Events` reads a tree and a list of tokens as what a streaming parser would report; the meaning of a single tag is that of C61 (`TagWrites`), of a single text that of C106 (`StandsFor`).
* Other prefixes (C121): trees of the same shape are compared element by element; renaming prefixes keeps the namespaces unless an element has an attribute `xmlns:xmlns:p`. The same is proved for the sources: tags with other prefixes are accepted again.
* Memory for namespaces (C122): the sum over all elements of the bytes of namespaces and maps of prefixes, bounded by twice the source times the nodes; a family of sources for which it is a product of two free sizes.
* What the merging of texts costs (C123): `Model/MergeCost.lean` has `append` and `append_all` with a counter for the bytes that `Text::concat` copies; proved to be the same programs, with the exact number of bytes.
* Patterns are compiled at every use (C124): `Model/Compile.lean` has the parser and `append` with a counter for the calls of `Regex::new`, and a model of cells in `const` and `static` items; proved to be the same programs, with the exact number for `append` and a lower and an upper bound for the parser.
* What `unescape` copies (C125): `Model/CopyCost.lean` has `unescape` and `string_insert` with a counter for the bytes copied; proved to be the same programs, with the exact number for references by name and bounds for all texts.
* Numbers in references are read again at every semicolon (C126): `Model/DigitCost.lean` has `unescape` with a counter for the characters that `u32::from_str_radix` looks at (its early stop is part of the trusted model of std); proved to be the same program, with a bound for all texts and the exact number for a family of texts with one ampersand.
* XML (C69, C70, C71): `Spec/Xml` is the grammar of the W3C recommendation (documents without document type declaration) with what its
  constructs mean; `Proofs/Xml` derives the output of the serialiser in it;
  `Proofs/XmlRead` turns derivations of that grammar into concrete documents (`CDoc`), which the parser reads (`parse_doc`). `Proofs/XmlExact` (C90) goes the other way: it walks along the tokens of any XML document that is accepted and shows that it is a concrete document.
  `Proofs/Size` and `Proofs/SizeNs` (C91) bound the size of what is parsed, by induction over the derivations of `Accepts`; the measures are in `Spec/Size`.
  `Proofs/SizeOut` (C92) bounds what is written, by induction over the tree, and computes it for nested elements.

## Where the code disagrees with a property

Each of these is a theorem `Cnn_false` with a concrete witness; the `_partial` theorems say what does hold.

* `unescape` (lib.rs:279-335) steps by the width of the last character looked at: text such as `&lt;é` panics or is decoded
  wrongly (C01, C02, C07, hence C34, C39, C45, C59). `&#N;` is read as hexadecimal, and a leading `+` is accepted.
* Numeric references: `&#65;` is read as `e` (U+0065) and `&#x41;` not at all (C69).
* Characters that XML does not allow, comments with `--` or ending in `-`, and carriage returns (which XML readers turn into line
  feeds) are written as they are. Tabs and line ends in attribute values are not written as references, so XML readers read them
  as spaces (C70).
* Comments and processing instructions inside a document type declaration are not recognised when its end is looked for (C116): `<!DOCTYPE a [<!-- don't -->]><a/>` is rejected, `<!DOCTYPE a [<!--<-->]><!-- > --><a/>` is read with the comment as part of the document type, and in `<!DOCTYPE a [<?p '?>]><a><![CDATA['>><a><b/>]]></a>` a part of the CDATA section is read as markup.
* Line ends are not normalised (C117, W3C 2.11 and 3.3.3), and converting the line ends of a file can change more than line ends: `<a>&lt;⏎&amp;…</a>` is read with LF and panics with CR LF; a comment before the root that is not ASCII can be read with LF and panic with CR LF.
* Namespaces differ from the recommendation (C118): `xmlns=""` gives a namespace with an empty name, a default namespace is not seen through a prefixed element, `<xml:a/>` is rejected, undeclared prefixes of attributes are accepted.
* Files with a byte order mark and files in UTF-16 cannot be read at all, and a declared encoding is ignored (C119, W3C 4.3.3).
* Every element has its own copy of all prefixes in scope, so that the memory for a document may be quadratic in the size of its source (C122): a source of some 600 kB with one long declaration and 60,000 empty elements needs some 18 GB.
* Putting together many small texts copies a number of bytes that is quadratic in the number of texts (C123), with `append_all` as well as with `append`.
* The `OnceCell`s that are meant to keep compiled regular expressions are `const` items; each use gets a new empty cell and compiles the pattern again (C124). While parsing, the number of compilations is quadratic in the number of texts of an element. `static` items (with `OnceLock`) would compile each pattern once.
* `unescape` copies the rest of the text for every ampersand, and what follows a reference twice more (C125): quadratic in the size of the text. Appending to a second string, and looking for `;` only up to the next one, would be linear.
* After a reference is decoded, or cannot be, `unescape` goes on to the end of the text and tries every further semicolon as its end, each time reading the number from the beginning (C126): quadratic time with one ampersand. A `break` after the first semicolon would do.
* Well-formed XML that is rejected (C71): `<a b = "2"/>`, `<a/><!--c-->`, `<a><?p?></a>`, `<é/>`, `<a><!-->--></a>`. A text that is
  a no-break space is dropped.
* `abbreviate` (lib.rs:605) slices at a fixed byte offset and panics inside a character (C34).
* `Declaration::from_str("<?>")` panics (C48). `Comment::from("-->")` and `CData::from("]]>")` panic.
* Document types are written without `<!DOCTYPE` and `>`, so a document with document types is not read back (C47).
* The check that `<?xml` comes first looks at the previous tag (C52).
* Text after the last tag is ignored (C38). A second top-level element replaces the root and takes its children, and texts that come
  together are joined in the wrong order (C37, C41, exactly in C76; for the arena alone C53);
  `<a/><b></b>` is rejected but `<a></a><b></b>` accepted. A comment after the root is rejected.
* The pattern that tags are checked against is not anchored: `<a&b y="<x>"/>` and `</a/>` are accepted; `<a b = "2"/>` is
  rejected (C40, C42); names need not be XML names (C60). Only the first attribute is checked: `<a x="1" y&="2"/>` is accepted,
  `<a x="1"y="2"/>` is read as one attribute `x` with value `1"y="2`, and `<a:b:c xmlns:a="u"/>` as prefix `a`, name `b:c`.
* U+1680 is a name character in XML and white space in Rust, so such names are cut (excluded in C60 and by `XmlName`). A byte
  order mark at the start of the input is text outside the root and rejected.
* `<é/>` and processing instructions inside the root are rejected (C39).
* The index errors of `remove` and `remove_element` give `0 - len` as the valid range, though `len` is not valid; indices from 2^63
  on are printed as negative numbers (C74).
* Which of several invalid attribute names is reported depends on the seed of the hash map (C100).
* If two keys of a map given to `Element::new` convert to the same string, which value is kept depends on the seed of the hash map (C103).
* Prefixes are looked up under `xmlns:p` as well as `p` (C30). Undeclared prefixes are only noticed on the root (C51). The
  default namespace is not handed down through prefixed elements (C31). `insert` hands the namespaces to the last child
  instead of the new one (C18). Namespaces are handed to the appended child but not to what is below it (C56).
* Names are checked against `^[_a-zA-Z]\S*$` only: `a>b` and `a:b` are accepted and written, but not read back (C50). Comments
  that begin with `>` or `->` are accepted and not read back (C49).
* Columns in error positions are one too large, and text outside the root is reported where the tag before it ends (C55).
* `<?xml` is reported as not at the start only when the tag before it does not start at offset 0: `<!-- c --><?xml?><a/>` is accepted
  (C52; `Late` in `Spec/Errors`).
* The counters of `parse_str` are `i32`: `<!` and 2^31 more `<`, or 2^31 comments before the root, panic in builds with overflow checks;
  in other builds `<!` and 2^32 more `<` are closed by one `>` (C93).
* `unescape` goes on to the end of the text after each reference (the inner loop has no `break`), and `append` looks at all children again (`cleanup_text_nodes`):
  parsing takes quadratic time for texts with many references and for elements with many children (C94).
* After the root, an empty comment `<!---->` gives an error without a position; other comments give one with it (C62).
* `<r><1:a b='<c>'>` is read as an open element `1:a` that no closing tag can close (hence the names in C65).
* `Element`'s `PartialOrd` compares names only and so is not consistent with `==` (C29).
* `append_all` differs from repeated `append` for white space (see C16 and the examples there).
* `set_text("")` and `append(Text::new(""))` leave an empty text child (only non-empty white space is dropped), which is lost when
  the document is written and read back (C81). `Element::new(.., xmlns = Some(u), ..)` sets the namespace but writes no `xmlns`
  attribute, so the namespace is lost in the same way (`NsFits`).
* Elements remember the prefixes they declared: after `remove_attr("xmlns:p")` a child `p:c` that is appended still gets the
  namespace, so two elements that are `==` behave differently (C82).

Not disagreements but defects:

* C95: `parse_str` itself does not recurse (its tree is a flat map), so it accepts elements nested to
  any depth; writing, copying, comparing, searching and even dropping the document then recurse once for each level (C95_deep) and
  overflow the stack, which aborts the program.
* C102: `trait Node` is public, but with a node of a user's own type in the tree `clone`, `==` and `remove_element` panic.
* C96: every level copies what its children have written, and with the default indent a document of nested elements makes writing copy a
  number of bytes that is cubic in the size of its source.

## Axioms per theorem

All theorems are in the namespace `KissXml.Props`.

* no axioms:
  `C01_corrupt`, `C01_empty_partial`, `C01_false`, `C01_panic`, `C02_corrupt`, `C02_empty_partial`, `C02_false`,
  `C02_panic`, `C07_false`, `C48_false`, `C64_set`, `C69_false`, `C78_text`, `C87_derived`
* propext, Classical.choice, Quot.sound:
  `C01_ascii_end_partial`, `C01_partial`, `C02_ascii_end_partial`, `C02_partial`, `C06_terminates`, `C07_partial`,
  `C07_spaced_partial`, `C08_attribute_order`, `C08_strict_total`, `C09_document`, `C09_element`, `C100_false`,
  `C100_partial`, `C101_bad_name`, `C101_build`, `C101_calls`, `C101_prefixes`, `C101_print`, `C102_compare`,
  `C102_liars`, `C102_never_equal`, `C102_print`, `C103_any_wins`, `C103_attributes`, `C103_distinct`, `C103_exact`,
  `C103_order_shows`, `C104_append`, `C104_attributes`, `C104_document`, `C104_output`, `C105_once`, `C105_plain`,
  `C105_remove_all`, `C105_remove_all_elements`, `C106_cdata`, `C106_comment`, `C106_element`, `C106_out`, `C106_replace`,
  `C106_text`, `C107_add`, `C107_retag`, `C108_attr`, `C108_attr_out`, `C108_cdata`, `C108_comment`, `C108_element`,
  `C108_out`, `C108_text`, `C109_tag`, `C10_document`, `C10_element`, `C10_node`, `C110_declaration`,
  `C110_declaration_out`, `C110_doctype`, `C110_doctype_out`, `C110_exact`, `C110_ignored`, `C110_ignored_out`,
  `C110_space`, `C110_swap`, `C111_clear`, `C111_content`, `C111_frame`, `C111_set_text`, `C112_again`,
  `C112_all_or_none`, `C112_order`, `C112_remove_all`, `C112_remove_all_elements`, `C112_remove_by`,
  `C112_remove_elements`, `C112_settles`, `C112_text`, `C113_all`, `C113_by`, `C113_first`, `C113_none`, `C113_same`,
  `C114_other`, `C114_panic`, `C114_shape`, `C114_source`, `C115_cut`, `C115_tag`, `C115_text`, `C116_document_partial`,
  `C116_exact`, `C116_kept`, `C116_partial`, `C117_ascii_partial`, `C117_partial`, `C118_default`, `C118_partial`,
  `C118_prefixed`, `C119_bom_never`, `C119_declared`, `C119_false_bom`, `C119_false_utf16`, `C119_partial`, `C119_text`,
  `C11_exact_partial`, `C11_false`, `C11_partial`, `C120_events`, `C120_same`, `C120_text`, `C120_unique`, `C121_partial`,
  `C121_source_partial`, `C122_bound`, `C122_growth`, `C122_more`, `C123_append`, `C123_exact`, `C123_many`,
  `C124_append`, `C124_growth`, `C124_parse`, `C124_sources`, `C124_upper`, `C125_bounds`, `C125_exact`,
  `C125_references`, `C126_bound`, `C126_one`, `C16_append`, `C16_append_all`, `C16_append_nontext`, `C17_insert`,
  `C18_not_last`, `C18_partial`, `C20_count`, `C20_remove_by`, `C20_remove_elements`, `C20_remove_elements_by_name`,
  `C21_leaf_predicate`, `C21_no_match_left`, `C21_remove_all`, `C21_remove_all_elements`, `C23_text_normal`,
  `C25_new_with_text_partial`, `C25_partial`, `C25_set_text`, `C26_reachable_valid`, `C27_equivalence`,
  `C27_same_content`, `C27_same_content_node`, `C28_clone`, `C28_document`, `C28_element`, `C28_node`, `C29_byte_order`,
  `C29_partial`, `C30_partial`, `C31_partial`, `C33_progress`, `C33_terminates`, `C34_ascii_partial`, `C34_partial`,
  `C36_reject`, `C36_well_nested`, `C37_partial`, `C38_false`, `C38_partial`, `C39_exact_partial`,
  `C39_layout_exact_partial`, `C39_layout_partial`, `C39_partial`, `C40_exact_partial`, `C40_partial`, `C41_any_partial`,
  `C41_exact_partial`, `C41_partial`, `C42_exact_partial`, `C42_partial`, `C43_verbatim`, `C44_normal_form`,
  `C45_exact_partial`, `C45_false`, `C45_iff_partial`, `C45_partial`, `C46_exact_partial`, `C46_false`, `C46_partial`,
  `C47_false`, `C49_cdata`, `C49_comment_partial`, `C50_exact_partial`, `C50_name_exact_partial`, `C50_name_partial`,
  `C50_partial`, `C51_partial`, `C52_partial`, `C53_dom`, `C53_no_panic`, `C53_partial`, `C53_success`, `C55_partial`,
  `C55_unsupported_partial`, `C56_false`, `C56_partial`, `C56_plain`, `C58_bytes`, `C58_io`, `C58_offsets`,
  `C59_exact_partial`, `C59_partial`, `C60_elements_partial`, `C60_partial`, `C61_partial`, `C62`, `C62_never`, `C63_new`,
  `C63_shortcuts`, `C63_shortcuts_fail`, `C64_new`, `C64_set_text`, `C65`, `C65_any`, `C65_close`, `C65_panic`,
  `C65_root`, `C66`, `C67`, `C67_legible`, `C67_unique`, `C68_err`, `C68_fault`, `C68_first`, `C68_ok`, `C68_panic`,
  `C69_decimal`, `C69_entity_partial`, `C69_hexadecimal`, `C69_text_partial`, `C70_chars`, `C70_element_partial`,
  `C70_exact_partial`, `C70_false`, `C70_partial`, `C71_partial`, `C72_children`, `C72_elements`, `C72_same_as_queries`,
  `C73_append`, `C73_namespaces`, `C74_insert_partial`, `C74_remove_element_partial`, `C74_remove_partial`, `C74_text`,
  `C75_kind`, `C75_where`, `C76_append`, `C76_elements`, `C76_roots`, `C77_equal`, `C77_written`, `C78_accepted`,
  `C78_rejected`, `C78_rejected_any`, `C78_silent`, `C79_default`, `C79_fails`, `C79_reader`, `C79_reader_end`,
  `C79_reader_fails`, `C79_reads`, `C79_writer`, `C79_writer_ok`, `C79_writes`, `C80_element`, `C80_hash`, `C80_order`,
  `C81_edits`, `C81_insertions`, `C82_append_all_partial`, `C82_append_partial`, `C82_changes`, `C82_false`,
  `C82_insert_partial`, `C82_new_partial`, `C82_queries`, `C83_alone`, `C83_rejected`, `C84_replace`, `C85_char`,
  `C85_names`, `C85_patterns`, `C85_text`, `C86_variant`, `C87_new`, `C87_parsed`, `C89_append`, `C89_insert`,
  `C89_remove_by`, `C89_remove_elements`, `C90_exact`, `C90_needs`, `C91_bytes`, `C91_namespaces`, `C91_nesting`,
  `C91_nodes`, `C92_document`, `C92_node`, `C92_parsed`, `C92_quadratic`, `C93_checked`, `C93_false_comments`,
  `C93_lines`, `C93_offsets`, `C93_same`, `C93_wrapping`, `C94_children`, `C94_tags`, `C94_unescape`, `C94_upper`,
  `C95_clone`, `C95_compare`, `C95_deep`, `C95_enough`, `C95_equal`, `C95_read`, `C95_remove`, `C95_write`, `C96_cubic`,
  `C96_same`, `C96_text`, `C97_all`, `C97_each`, `C97_exact`, `C98_calls`, `C98_items`, `C98_search`,
  `C98_search_comments`, `C98_search_elements`, `C98_search_text`, `C99_no_way_back`, `C99_put_back`, `C99_put_back_same`,
  `C99_take_back`, `C99_take_back_append`
* propext:
  `C102_comments`, `C102_counterpart`, `C102_find`, `C12_all_children`, `C14_leaf`, `C24_clear`, `C29_false`,
  `C54_display`, `C54_messages`, `C70_declaration`, `C79_kinds`, `C88_other`, `C98_calls_deep`, `C99_given`
* propext, Quot.sound:
  `C03_text_escape`, `C04_attribute_escape`, `C05_injective_compositional`, `C07_no_amp_partial`, `C08_xmlns_first`,
  `C100_runs`, `C101_runs`, `C102_calls`, `C102_child_elements`, `C102_comment_liars`, `C102_copy`, `C102_new`,
  `C102_remove_element`, `C102_removed`, `C104_remove`, `C105_remove_by`, `C105_remove_elements`, `C109_all_blank`,
  `C109_blank`, `C109_name`, `C10_element_invalid`, `C113_front`, `C113_one`, `C116_false`, `C116_false_root`,
  `C116_false_swallow`, `C117_false`, `C117_false_comment`, `C117_false_decoded`, `C117_false_wide`, `C117_line_ends`,
  `C118_false_accepted`, `C118_false_default`, `C118_false_empty`, `C118_false_twice`, `C118_false_undeclared`,
  `C118_false_xml`, `C120_tree`, `C121_false`, `C123_bound`, `C123_same`, `C124_cells`, `C124_same`, `C13_search`,
  `C13_search_comments`, `C13_search_elements`, `C13_search_elements_by_name`, `C13_search_text`, `C14_element_node`,
  `C14_text`, `C15_child_queries`, `C15_first_element_by_name`, `C18_false`, `C19_remove`, `C19_total`,
  `C22_remove_element`, `C24_remove`, `C24_set_get`, `C24_set_invalid`, `C25_false`, `C30_false`, `C31_false`,
  `C32_namespace_prefixes`, `C34_false`, `C35_next_tag`, `C35_tag`, `C36_parts_unique`, `C37_false`, `C39_false`,
  `C40_false`, `C41_false`, `C42_false`, `C47_partial`, `C48_partial`, `C49_false`, `C50_false`, `C51_false`, `C52_false`,
  `C53_false`, `C54_casts`, `C54_node_types`, `C55_false`, `C57_message`, `C59_false`, `C60_false`, `C61_false`,
  `C71_false`, `C71_false_text`, `C72_document`, `C72_first_element_by_name`, `C74_false`, `C75_about`, `C78_indent`,
  `C78_result`, `C80_total`, `C84_hole`, `C86_order`, `C87_queries`, `C88_cdata`, `C88_comment`, `C88_written`,
  `C89_remove`, `C89_remove_by_panic`, `C89_remove_elements_panic`, `C89_set_attr`, `C90_conditions`, `C93_false_checked`,
  `C93_false_wrapping`, `C94_ampersands`, `C94_same`, `C94_text`, `C94_written`, `C96_text_reached`, `C96_write`,
  `C97_same`, `C98_calls_le`, `layout_functional`
* Quot.sound:
  `C125_same`, `C126_same`

## Claims

| property | status | theorems | note |
|---|---|---|---|
| C01 | partial | `C01_partial`, `C01_empty_partial`, `C01_ascii_end_partial`, `C01_false`, `C01_panic`, `C01_corrupt` | False as stated (witnesses). Exact characterisation of when it holds. |
| C02 | partial | `C02_partial`, `C02_empty_partial`, `C02_ascii_end_partial`, `C02_false`, `C02_panic`, `C02_corrupt` | False as stated (witnesses). Exact characterisation of when it holds. |
| C03 | proved | `C03_text_escape` |  |
| C04 | proved | `C04_attribute_escape` |  |
| C05 | proved | `C05_injective_compositional` |  |
| C06 | proved | `C06_terminates` |  |
| C07 | partial | `C07_partial`, `C07_no_amp_partial`, `C07_spaced_partial`, `C07_false` | False as stated (witnesses: panic, undecoded reference). Proved for strings ending in ASCII whose non-ASCII references are last, for strings without '&', and for strings with enough room after every &; C67 says exactly what happens on all strings. |
| C08 | proved | `C08_attribute_order`, `C08_strict_total`, `C08_xmlns_first` | every start tag lists all attributes once in strictly increasing order; the order is strict, total and puts xmlns* first |
| C09 | proved | `C09_element`, `C09_document` | same content up to map order gives the same string for every indent |
| C10 | proved | `C10_element`, `C10_element_invalid`, `C10_document`, `C10_node`, `layout_functional` | serialiser output is characterised by an independent layout relation with the effective indent |
| C100 | partial | `C100_false`, `C100_partial`, `C100_runs` | False as stated: `<a b="" 1="x" 2="y"/>` is rejected with the name 1 or the name 2 (C100_false). C100_partial has everything else: two runs give equal documents with the same fields and text, the same error, both an error about an invalid attribute name, or both panic (C34). Model/AnyOrder leaves the order of each loop over a HashMap open; C100_runs shows that the model used elsewhere is one of its runs. |
| C101 | proved | `C101_build`, `C101_calls`, `C101_print`, `C101_prefixes`, `C101_bad_name`, `C101_runs` | Closures given to the calls are functions that give twin results for twin arguments (equal up to the order of maps). For maps with keys of other types see C103. |
| C102 | proved | `C102_counterpart`, `C102_calls`, `C102_removed`, `C102_new`, `C102_find`, `C102_child_elements`, `C102_comments`, `C102_print`, `C102_copy`, `C102_compare`, `C102_never_equal`, `C102_remove_element`, `C102_liars`, `C102_comment_liars` | The user's types contain no Element, Text, Comment or CData that their casts could give out, and give the same answer each time. Closures are functions that answer for a user's node as for the comment in its place. |
| C103 | proved | `C103_exact`, `C103_attributes`, `C103_distinct`, `C103_any_wins`, `C103_order_shows` | Conversions are functions: the same key or value gives the same string each time. |
| C104 | proved | `C104_output`, `C104_document`, `C104_attributes`, `C104_remove`, `C104_append` | For lines of the output to stay, the surrounding element must keep its layout; the examples show what happens otherwise (a first text puts the whole element on one line). |
| C105 | proved | `C105_remove_by`, `C105_remove_elements`, `C105_remove_all`, `C105_remove_all_elements`, `C105_once`, `C105_plain` | Predicates cannot change the element while they are called: they get a shared reference, and the types of the crate have no cells. |
| C106 | proved | `C106_element`, `C106_comment`, `C106_cdata`, `C106_text`, `C106_out`, `C106_replace` | The place is given by the number of open elements and of elements, comments and CDATA sections before it (Hole.After), and by what follows. If there are other characters than white space on both sides of a node that is taken out, they become one text (C106_replace). |
| C107 | proved | `C107_retag`, `C107_add` | The prefix and the namespace declarations of the tag stay as they are (in the same order); tags that begin with <?, which the parser accepts in some cases, are left out in C107_add: an example shows that it is false for them. |
| C108 | proved | `C108_comment`, `C108_cdata`, `C108_text`, `C108_element`, `C108_out`, `C108_attr`, `C108_attr_out` | The place is given as in C106 and C107. For an inserted element the namespaces in it are left out: an example shows that they differ. Attributes are compared as maps. |
| C109 | proved | `C109_name`, `C109_blank`, `C109_all_blank`, `C109_tag` | The patterns are copied from the source character by character (Model/Pattern) and read by a reader for the notation of the regex crate (Spec/Pattern); notation that the reader does not know is refused, so that nothing is read wrongly. Limits on the size of compiled patterns are not modelled. |
| C11 | partial | `C11_partial`, `C11_exact_partial`, `C11_false` | False for texts that unescape does not decode (witnesses, for every indent). Proved for DocFits documents; that the indent makes no difference also for DocShape documents whenever anything is read back. |
| C110 | proved | `C110_exact`, `C110_swap`, `C110_declaration`, `C110_declaration_out`, `C110_doctype`, `C110_doctype_out`, `C110_ignored`, `C110_ignored_out`, `C110_space` | Inputs are given by their tokens (Parts); C110_exact is an equivalence, the others follow from it. |
| C111 | proved | `C111_frame`, `C111_content`, `C111_set_text`, `C111_clear` | The element is given by its tokens, as in C83 and C84. C111_content is an equivalence, and C111_set_text and C111_clear say which calls give the same tree. |
| C112 | proved | `C112_remove_by`, `C112_remove_elements`, `C112_remove_all`, `C112_remove_all_elements`, `C112_order`, `C112_again`, `C112_settles`, `C112_all_or_none`, `C112_text` | An example shows that the condition on the predicate is needed: 'has no children' removes more when called again. |
| C113 | proved | `C113_same`, `C113_by`, `C113_first`, `C113_none`, `C113_all`, `C113_front`, `C113_one` | That Vec::remove moves every later item is part of the standard library and so assumed; calls of the predicate and dropping of removed nodes are not counted. |
| C114 | proved | `C114_shape`, `C114_other`, `C114_panic`, `C114_source` | Namespaces are not compared, since values of xmlns attributes are among the values that may differ. Comments, CDATA and names from outside are not covered: see the claims on what the constructors check. |
| C115 | proved | `C115_text`, `C115_tag`, `C115_cut` | C115_text and C115_tag are also about several top-level elements (which parse_str accepts, see C37): cut off between two of them, such an input is accepted. That text after the root element is accepted at all is against the documentation, see C38. |
| C116 | partial | `C116_false`, `C116_false_swallow`, `C116_false_root`, `C116_partial`, `C116_document_partial`, `C116_exact`, `C116_kept` | False: comments and processing instructions in the internal subset are not recognised when looking for the end, so an apostrophe or an angle bracket in one of them makes the library reject the document (C116_false), take what follows as part of the declaration (C116_false_swallow) or read the content of a CDATA section as markup (C116_false_root). Partial: the claim whenever comments and processing instructions in the subset close their own quotes and brackets; C116_exact and C116_kept give exactly the strings that can be kept as document type. |
| C117 | partial | `C117_false`, `C117_false_decoded`, `C117_false_wide`, `C117_false_comment`, `C117_partial`, `C117_ascii_partial`, `C117_line_ends` | False: numeric references to line ends (C117_false), texts with references whose last character is not ASCII (C117_false_decoded: other references are decoded; C117_false_wide: a panic) and a first comment before the root that is not ASCII (C117_false_comment: a panic). Partial: the claim, with exactly the replaced document as result, for all other inputs, among them all ASCII inputs without number signs (C117_ascii_partial). C117_line_ends: line ends are not normalised as the W3C recommendation demands. |
| C118 | partial | `C118_false_empty`, `C118_false_default`, `C118_false_twice`, `C118_false_xml`, `C118_false_undeclared`, `C118_false_accepted`, `C118_partial`, `C118_prefixed`, `C118_default` | False for an empty default namespace, for an unprefixed element inside of a prefixed one, for xmlns:xmlns:p attributes and for the prefix xml (five witnesses); C118_false_accepted: documents that break the constraints of the recommendation are accepted. Partial: the claim where none of these is around the element (C118_partial); C118_prefixed and C118_default say exactly when it holds, with a prefix other than xml and without a prefix. |
| C119 | partial | `C119_false_bom`, `C119_bom_never`, `C119_false_utf16`, `C119_partial`, `C119_text`, `C119_declared` | False for every document with a byte order mark (C119_false_bom: text outside of the root element; C119_bom_never) and for every document in UTF-16 (C119_false_utf16: an I/O error). Partial: UTF-8 without a byte order mark. C119_text: any text in front of a document is the same error; C119_declared: the declared encoding is not looked at. |
| C12 | proved | `C12_all_children` |  |
| C120 | proved | `C120_events`, `C120_unique`, `C120_tree`, `C120_same`, `C120_text` | For several top-level elements see C76, for the namespaces C73. Texts and values are what unescape makes of them (C67). |
| C121 | partial | `C121_partial`, `C121_source_partial`, `C121_false` | False if an element has an attribute xmlns:xmlns:p, which hides the declaration of p below it (C121_false). Proved if there is no such attribute, for the trees and for the sources. |
| C122 | proved | `C122_bound`, `C122_growth`, `C122_more` | Each entry of a map is counted as one declaration, as in C91. |
| C123 | proved | `C123_same`, `C123_exact`, `C123_bound`, `C123_append`, `C123_many` | Counted are the bytes given to push_str in Text::concat; growing of the String and moving of nodes are not counted. |
| C124 | proved | `C124_cells`, `C124_same`, `C124_append`, `C124_parse`, `C124_upper`, `C124_growth`, `C124_sources` | Counted are the calls of Regex::new; what one of them costs is not. |
| C125 | proved | `C125_same`, `C125_exact`, `C125_bounds`, `C125_references` | Counted are the bytes of to_string and push_str in unescape and string_insert, not the conversion of the argument. C125_exact has the hypotheses of the statement; both are needed (example). |
| C126 | proved | `C126_same`, `C126_bound`, `C126_one` | Counted are the digits (and the character at which reading stops), not signs; that from_str_radix reads from the left and stops at the first fault is taken from std. |
| C13 | proved | `C13_search`, `C13_search_elements`, `C13_search_elements_by_name`, `C13_search_text`, `C13_search_comments` |  |
| C14 | proved | `C14_text`, `C14_leaf`, `C14_element_node` |  |
| C15 | proved | `C15_child_queries`, `C15_first_element_by_name` |  |
| C16 | proved | `C16_append`, `C16_append_all`, `C16_append_nontext` | includes exactly which namespace data is handed down |
| C17 | proved | `C17_insert` | the model value is unchanged on error because no new element is returned |
| C18 | partial | `C18_partial`, `C18_false`, `C18_not_last` | false in general: insert applies the namespace context to the last child; holds at the last index, fails at every other index |
| C19 | proved | `C19_remove`, `C19_total` |  |
| C20 | proved | `C20_remove_by`, `C20_remove_elements`, `C20_remove_elements_by_name`, `C20_count` |  |
| C21 | proved | `C21_remove_all`, `C21_remove_all_elements`, `C21_no_match_left`, `C21_leaf_predicate` |  |
| C22 | proved | `C22_remove_element` |  |
| C23 | proved | `C23_text_normal` |  |
| C24 | proved | `C24_set_get`, `C24_set_invalid`, `C24_remove`, `C24_clear` |  |
| C25 | partial | `C25_partial`, `C25_new_with_text_partial`, `C25_set_text`, `C25_false` | false for non-empty white space, which set_text drops; proved for all other text |
| C26 | proved | `C26_reachable_valid` | reachability is an inductive closure of the API calls, including parsing and mutable access to children |
| C27 | proved | `C27_equivalence`, `C27_same_content`, `C27_same_content_node` |  |
| C28 | proved | `C28_element`, `C28_node`, `C28_document`, `C28_clone` |  |
| C29 | partial | `C29_partial`, `C29_false`, `C29_byte_order` | false for Element (only names are compared); proved for Text, Comment, CData, and == implies Equal for Element |
| C30 | partial | `C30_partial`, `C30_false` | false when the input declares xmlns:xmlns:p (witness); proved otherwise |
| C31 | partial | `C31_partial`, `C31_false` | false below prefixed elements (witness); proved otherwise |
| C32 | proved | `C32_namespace_prefixes` |  |
| C33 | proved | `C33_terminates`, `C33_progress` |  |
| C34 | partial | `C34_partial`, `C34_ascii_partial`, `C34_false` | false: five panicking witnesses; a panic needs a non-ASCII character with '&' or '<!', or a numeric reference to a non-ASCII character |
| C35 | proved | `C35_next_tag`, `C35_tag` |  |
| C36 | proved | `C36_well_nested`, `C36_parts_unique`, `C36_reject` |  |
| C37 | partial | `C37_partial`, `C37_false` | false for several top-level elements (witnesses); proved for every input with one top-level element; C76 says what happens otherwise |
| C38 | partial | `C38_partial`, `C38_false` | false for text after the last tag (any such text is ignored); proved for all other text outside the root |
| C39 | partial | `C39_false`, `C39_partial`, `C39_layout_partial`, `C39_exact_partial`, `C39_layout_exact_partial` | False for all of XML (C39_false lists rejected well-formed documents). Proved for the concrete documents CDoc: prolog, any nesting, both quotes, all white space, text, comments, CDATA; missing are comments after the root, processing instructions, names beginning outside ASCII, spaces around = outside Layout, and undecodable references. C39_exact_partial: for all well-formed CDoc documents, whatever names, texts, layout and comments they have, exactly when they are accepted and what the result is. |
| C40 | partial | `C40_false`, `C40_partial`, `C40_exact_partial` | False because the quotes decide whether spaces around = are accepted; proved for all pairs of accepted CDoc documents. |
| C41 | partial | `C41_false`, `C41_any_partial`, `C41_partial`, `C41_exact_partial` | False for inputs with several top-level elements (witness). C41_any_partial: every input with one top-level element, any set of its elements, both directions. |
| C42 | partial | `C42_false`, `C42_partial`, `C42_exact_partial` | False: <a b = "2"/> is rejected; proved wherever Layout allows the spaces. |
| C43 | proved | `C43_verbatim` |  |
| C44 | proved | `C44_normal_form` |  |
| C45 | partial | `C45_false`, `C45_iff_partial`, `C45_partial`, `C45_exact_partial` | False for all representable documents: unprefixed elements in prefixed ones, and texts such as &x☼ (panic). Proved, with an exact condition on namespaces, for DocFits documents; C45_exact_partial: which DocShape documents are read back as they were, exactly. |
| C46 | partial | `C46_partial`, `C46_exact_partial`, `C46_false` | False for texts that unescape does not decode (witnesses, for every indent). Proved for DocFits documents; C46_exact_partial shows that the claim fails for exactly these among the DocShape documents. |
| C47 | partial | `C47_partial`, `C47_false` | false for practically every doctype declaration: the written document is never accepted again; only the text is kept |
| C48 | partial | `C48_partial`, `C48_false` | exact set of accepted strings and of panicking strings (<?>) |
| C49 | partial | `C49_false`, `C49_cdata`, `C49_comment_partial` | Proved for CDATA; for comments exactly those that do not begin with > or ->. |
| C50 | partial | `C50_false`, `C50_partial`, `C50_name_partial`, `C50_exact_partial`, `C50_name_exact_partial` | False for accepted names that are not XML names (a>b) or have a colon; proved for XML names and decodable values, and that no others without < are read back. |
| C51 | partial | `C51_partial`, `C51_false` | false below the root (witness); proved for the root element |
| C52 | partial | `C52_partial`, `C52_false` | false (witnesses); proved for what is recorded from the prolog |
| C53 | partial | `C53_partial`, `C53_no_panic`, `C53_success`, `C53_dom`, `C53_false` | no panic for every sequence (C53_no_panic); order wrong for adjacent texts and for a second root (witnesses, C53_false); proved for every forest without them (C53_partial); C53_success and C53_dom say for every sequence whether it succeeds and what to_dom returns |
| C54 | proved | `C54_node_types`, `C54_casts`, `C54_messages`, `C54_display` |  |
| C55 | partial | `C55_partial`, `C55_unsupported_partial`, `C55_false` | line right, column always one too large; text outside the root is reported where the previous tag ends |
| C56 | partial | `C56_false`, `C56_partial`, `C56_plain` | False: namespaces reach only the appended child. Proved: the tree is the same up to namespaces, and with namespaces exactly if they agree with the attributes (NsFits). |
| C57 | proved | `C57_message` |  |
| C58 | proved | `C58_io`, `C58_bytes`, `C58_offsets` | operating system failures and directory creation: C79 |
| C59 | partial | `C59_false`, `C59_partial`, `C59_exact_partial` | False for doctypes, texts such as a>b☼ and several roots; proved for one root, no doctypes, XML names: exactly when all escaped texts and values are decoded correctly. |
| C60 | partial | `C60_false`, `C60_partial`, `C60_elements_partial` | False for tags with < in a value, for attributes after the first and for tags with U+1680 before the first quote (a witness for each); proved for all other tags, up to the first attribute name. |
| C61 | partial | `C61_false`, `C61_partial` | False for several top-level elements and wrongly decoded values (witnesses); proved for every input with one top-level element (for several see C76_elements), values as unescape reads them (C67), hence decoded when Legible. |
| C62 | proved | `C62`, `C62_never` | Which position goes with the error is C55: columns are one too large. |
| C63 | proved | `C63_new`, `C63_shortcuts`, `C63_shortcuts_fail` | Keys and values of other types than strings: C103. |
| C64 | proved | `C64_new`, `C64_set`, `C64_set_text` |  |
| C65 | proved | `C65`, `C65_any`, `C65_panic`, `C65_root`, `C65_close` | C65_close needs open elements with XML names (names such as 1:a are accepted by the unanchored tag pattern and cannot be closed) and a last text on which unescape does not panic. |
| C66 | proved | `C66` | Panics of unescape itself are the subject of C67. |
| C67 | proved | `C67`, `C67_unique`, `C67_legible` |  |
| C68 | proved | `C68_ok`, `C68_err`, `C68_fault`, `C68_panic`, `C68_first` | Of several bad attribute names on one tag it is not determined which one is reported (order of a HashMap). |
| C69 | partial | `C69_decimal`, `C69_hexadecimal`, `C69_entity_partial`, `C69_text_partial`, `C69_false` | false: decimal digits are read as hexadecimal and &#x..; is left alone (witnesses); exact for single references; proved for texts ending in ASCII without numeric references |
| C70 | partial | `C70_partial`, `C70_element_partial`, `C70_declaration`, `C70_chars`, `C70_exact_partial`, `C70_false` | false for characters that XML does not allow (witness), and exactly for those among documents of the right shape; proved for all documents whose nodes can be written in XML, without document types, for every indent; the grammar is that of the W3C recommendation |
| C71 | partial | `C71_partial`, `C71_false`, `C71_false_text` | false for numeric references, white space around =, processing instructions, comments after the root, names beginning with other letters than ASCII, a first comment cut inside a character for a warning, and a few more (witnesses); proved for all other well-formed documents, which are listed by conditions on the text and on the items of the document |
| C72 | proved | `C72_elements`, `C72_same_as_queries`, `C72_children`, `C72_first_element_by_name`, `C72_document` | Overwritten and SameHead (Spec/Mut) say what may change. An iterator of &mut references is modelled by the items and by the effect of overwriting a prefix of them; Rust's borrow rules (no item can be reached twice, nothing else can be touched meanwhile) justify that. |
| C73 | proved | `C73_namespaces`, `C73_append` | the exact companion of C30 and C31; resolved (Spec/Scope) is a function of prefixes and attributes only |
| C74 | partial | `C74_insert_partial`, `C74_remove_partial`, `C74_remove_element_partial`, `C74_text`, `C74_false` | false: remove and remove_element report a range that is one too long, and indices from 2^63 on are reported as negative numbers (witnesses); proved for insert below 2^63; for the other two the exact range |
| C75 | proved | `C75_kind`, `C75_where`, `C75_about` | Model/Message gives the texts; rewrap_text shows that the codes used by the model of the parser stand for the texts that the program builds |
| C76 | proved | `C76_roots`, `C76_elements`, `C76_append` | what the program does instead of C37 |
| C77 | proved | `C77_written`, `C77_equal` | Also for texts and values that the library does not read back. The examples show that the conditions on texts are needed. |
| C78 | proved | `C78_result`, `C78_accepted`, `C78_silent`, `C78_rejected`, `C78_rejected_any`, `C78_indent`, `C78_text` | Model/Warn repeats the printing functions with what they print; C78_result shows that they return the same. How the indent is quoted in its warning is not modelled. |
| C79 | proved | `C79_fails`, `C79_writes`, `C79_default`, `C79_reads`, `C79_kinds`, `C79_writer`, `C79_writer_ok`, `C79_reader`, `C79_reader_end`, `C79_reader_fails` | On the model of the operating system and of std::fs and std::io in Model/Fs: no links, permissions or other processes. |
| C80 | proved | `C80_hash`, `C80_element`, `C80_order`, `C80_total` |  |
| C81 | proved | `C81_edits`, `C81_insertions` | Edits (Spec/Edit) is a closure of API calls; the empty text is a special case: set_text("") leaves an empty text child, which is lost when the document is read back. |
| C82 | partial | `C82_queries`, `C82_changes`, `C82_append_partial`, `C82_append_all_partial`, `C82_insert_partial`, `C82_new_partial`, `C82_false` | False: elements remember removed prefix declarations, which == does not see (witness built with the API). Exact for append, append_all, insert and new; queries and all other changes without exception. |
| C83 | proved | `C83_alone`, `C83_rejected` | Elements are identified by their number in document order; bare (Spec/Conform) forgets the resolved namespaces, which for a document are settled by C33, C34 and C73. |
| C84 | proved | `C84_replace`, `C84_hole` |  |
| C85 | proved | `C85_char`, `C85_text`, `C85_names`, `C85_patterns` |  |
| C86 | proved | `C86_variant`, `C86_order` | The condition on the tag pattern is BadTag (C53); without it the statement is C40 and C42, which are false. |
| C87 | proved | `C87_new`, `C87_derived`, `C87_queries`, `C87_parsed` |  |
| C88 | proved | `C88_comment`, `C88_cdata`, `C88_written`, `C88_other` |  |
| C89 | proved | `C89_append`, `C89_insert`, `C89_remove`, `C89_set_attr`, `C89_remove_by`, `C89_remove_by_panic`, `C89_remove_elements`, `C89_remove_elements_panic` | Model/InPlace runs these methods statement by statement on a place that survives errors and panics; the theorems also show that it agrees with Model/Dom. |
| C90 | proved | `C90_needs`, `C90_exact`, `C90_conditions` | The XML grammar and ItemsRead are in Spec/Xml, the concrete documents in Spec/Syntax. |
| C91 | proved | `C91_bytes`, `C91_nodes`, `C91_nesting`, `C91_namespaces` | Sizes are those of Spec/Size: sums over the tree of the model, in bytes of UTF-8; the capacity of Rust buffers and the arena used while parsing are not counted. |
| C92 | proved | `C92_node`, `C92_document`, `C92_parsed`, `C92_quadratic` | Sizes as for C91. C92_node also covers elements that cannot be read back. |
| C93 | proved | `C93_same`, `C93_wrapping`, `C93_checked`, `C93_false_checked`, `C93_false_comments`, `C93_false_wrapping`, `C93_offsets`, `C93_lines` | Model/Machine has the functions of parse_str with i32 arithmetic; the limit of C93_same is exact, the one of C93_wrapping up to four bytes. |
| C94 | proved | `C94_same`, `C94_upper`, `C94_children`, `C94_tags`, `C94_unescape`, `C94_ampersands`, `C94_text`, `C94_written` | Model/Cost is the parser with a counter; C94_same shows that its results are those of the parser. Not counted: copies of strings, comparisons, regular expressions, operations of HashMap and Vec, the loop of line_and_column, and what is done once for every attribute. |
| C95 | proved | `C95_read`, `C95_write`, `C95_clone`, `C95_compare`, `C95_equal`, `C95_remove`, `C95_enough`, `C95_deep` | Model/Depth has the recursive functions with a limit for active calls; the theorems also show that their results are those of Model/Dom and Model/Serialize. Counted are calls, not bytes of stack; dropping is what the compiler generates for Element, not code of the repository; that parse_str does not recurse is by inspection. |
| C96 | proved | `C96_same`, `C96_write`, `C96_text`, `C96_text_reached`, `C96_cubic` | Model/WriteCost counts the bytes pushed to the output buffers of all calls; C96_same shows that the results are those of Model/Serialize and Model/Dom. Not counted: next_prefix, temporary strings of escaping and formatting, sorting, copies made by growing buffers. |
| C97 | proved | `C97_same`, `C97_all`, `C97_each`, `C97_exact` | Rounds as for C94, with the two loops of append_all. Not counted: moving the items of a Vec when one is inserted or removed, and clones of the prefix map. |
| C98 | proved | `C98_items`, `C98_search`, `C98_search_elements`, `C98_search_text`, `C98_search_comments`, `C98_calls`, `C98_calls_le`, `C98_calls_deep` | Model/Iter has the iterators as states with next, built like the Chain, Flatten, Filter and Map of the standard library; the lists of items are those of Model/Dom (C12: each node below once). The fuel of the loops is any number above the number of nodes. |
| C99 | proved | `C99_put_back`, `C99_put_back_same`, `C99_given`, `C99_take_back`, `C99_take_back_append`, `C99_no_way_back` | Both directions: C99_take_back for nodes that fit, C99_no_way_back for all others. |
