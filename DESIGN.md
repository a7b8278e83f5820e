# Formal model of folia-rust in Lean 4

Source: `/repo` (proycon/folia-rust, pinned). Model: `/verif/lean/Verif`. Nothing from `/repo` is built or run.

## 1. Shape of the model

| Lean module | Rust source | Contents |
|---|---|---|
| `Verif/Types.lean` (generated from the source text by `tools/gen_tables.py`) | `src/types.rs` | `ElementType`, `ElementGroup`, `AnnotationType` and all their tables |
| `Verif/Spec.lean` (generated likewise) | `src/specification.rs` | `Properties` table |
| `Verif/Base.lean` | `src/error.rs`, `src/common.rs` | outcomes (`ok`, error, panic, out of fuel), constants |
| `Verif/AttribType.lean`, `Verif/Attrib.lean`, `Verif/DateTime.lean` | `src/attrib.rs` | attribute types, attributes, printing and parsing, date-times |
| `Verif/Store.lean` | `src/store.rs` | generic keyed store, string store |
| `Verif/Metadata.lean` | `src/metadata.rs` | declarations, processors, metadata |
| `Verif/Element.lean`, `Verif/Doc.lean` | `src/element.rs`, `src/document.rs` | element data, builders, attribute access, the document and its accessors |
| `Verif/Query.lean`, `Verif/Select.lean` | `src/query.rs`, `src/select.rs` | queries, selectors, the select and ancestor iterators |
| `Verif/Document.lean` | `src/document.rs` | all mutating operations |
| `Verif/Text.lean` | `src/text.rs` | text retrieval |
| `Verif/Xml.lean`, `Verif/Serialiser.lean` | `src/serialiser.rs` | XML events, writer |
| `Verif/Parser.lean` | `src/parser.rs` | parser over XML events |
| `Verif/Indent.lean` | `src/serialiser.rs`, quick-xml's writer | indented output |
| `Verif/Chars.lean` | quick-xml's writer and reader | events and characters, namespaces |
| `Verif/Lookup.lean` | `src/element.rs` | lookups by type, group, set and identifier |
| `Verif/Calls.lean` | `src/query.rs`, `src/text.rs`, `src/document.rs`, `src/metadata.rs`, `src/element.rs` | builder methods, generated processors, equality and `Display` of elements |
| `Verif/Tools.lean` | `src/bin/folialintr.rs`, `src/bin/foliabenchmarkr.rs` | the command line tools, without files and measurements; also the words for C87 and C88 |
| `Verif/Show.lean` | `src/attrib.rs`, `src/types.rs`, `src/metadata.rs` | `Display` of types and attributes |
| `Verif/Ops.lean` | all of the public API | the language of operations; reachable documents |

Specifications, independent of how the code computes:

| Lean module | Contents |
|---|---|
| `Verif/Tree.lean`, `Verif/View.lean` | parent and child relations, forests, the tree of items below an element |
| `Verif/TextView.lean` | which parts make up a text, and what is between them |
| `Verif/XmlView.lean` | the recursive serialisation of a tree, well nested event lists |
| `Verif/Source.lean` | source trees, their event streams, and what it means that a document matches one |
| `Verif/Provenance.lean` | processor trees and forests, who is credited |
| `Verif/Head.lean` | what a source says in front of its body |
| `Verif/Accept.lean` | what a source, or a written document, must satisfy to be read |
| `Verif/RoundTrip.lean` | what must be the same after writing and reading, and under which conditions |

`Verif/Lemmas/*.lean` are helper lemmas. `Verif/Props/*.lean` hold the property theorems `Cnn_...` with their examples.
`Verif/Samples.lean` has concrete documents for the examples, and `Verif/Decide.lean` and `Verif/Lemmas/*Checks.lean` decision procedures for
the hypotheses on them. `Verif/Conformance.lean` runs the model on the test cases of `/repo/tests` (tests of the model, not proofs).

### Conventions

* A Rust method on `&mut Document` is a function `Document -> Outcome a x Document`. The document is returned on errors too, because a
  Rust caller keeps the (possibly half-changed) document after an `Err`. Methods on `&self` are plain functions.
* `Result::Err` is the value `Fault.err kind`. The message text of errors is not modelled, only the variant.
  A panic (`unwrap`, `expect`, `unreachable!`, slice out of bounds) is the distinct value `Fault.panic`.
* Loops and recursion that Rust does not bound (tree traversals, which diverge on cyclic data) take a `fuel : Nat`; running out
  gives `Fault.fuel`, which is neither success nor error. Positive theorems show that a finite amount of fuel suffices (or hold for
  every fuel); divergence is "`Fault.fuel` for every fuel".
* Keys (`u32`, `u16`) are `Nat` together with an explicit capacity check at the one place where Rust converts `usize` to the key
  type (`Key::try_from(len)`).
* `HashMap<String, Key>` used as index is an association list with shadowing (only lookups are observable). Maps whose iteration
  order is observable (metadata) are association lists in an arbitrary order.
* `String` is Lean's `String` (sequence of Unicode scalar values).
* Every model definition cites the Rust lines that it models.

### Not modelled

* The XML byte level: quick-xml's reader and writer are represented by event lists. What the reader returns for what the writer
  wrote (`indent = 0`) is the function `readBack` (adjacent text is merged, attribute values and text are unescaped, comments are not).
  `Verif/Chars.lean` models writer and reader at the level of characters, with namespaces; C76 proves that they give `readBack`. UTF-8 is not modelled.
  The escape and unescape functions themselves are modelled. Indentation is modelled at the level of events (`Verif/Indent.lean`): which line
  feeds and spaces quick-xml's writer puts before which events is part of the trusted base.
* `f64` printing and parsing (confidence) and chrono's calendar: a confidence is an opaque value with a printer and a parser given as
  parameters; theorems that need "parse after print is the identity" take it as a hypothesis. Date-times are modelled as field records
  with the fixed-width strftime formats used in the code.
* File I/O, `eprintln!` warnings, performance. The random bytes, the clock and the environment used by `Processor::new` and `autofill` are parameters.
* `items_mut`, `index_mut`, `get_mut*` and public fields let a caller write arbitrary values into the stores; reachable documents are those built by the
  operations of the API listed in `Verif/Ops.lean`. The one use of `get_mut_elementdata` that is covered is assigning attributes that need no
  encoding (`Op.assign`).
* The texts of error messages, and `Display` of errors.

## 2. Properties, what is modelled and how each is proved

Status of each property and the theorem names are in `MANIFEST.json`. "False" means that the property as users would rely on it
does not hold for the code: then there is a theorem `Cnn_..._counterexample` (a proof of the negation by a concrete witness, or
universally) and, where something useful remains, a `_partial` theorem.

| id | model | proof method |
|---|---|---|
| C01 | operation language over `Document` | monotonicity relation preserved by each primitive mutation, composed over programs |
| C02 | element store | store invariant, by induction over operations |
| C03 | generic store `add` | case analysis, frame lemma; generic in item type |
| C04 | generic store with capacity | case analysis + invariant |
| C05 | string store | refinement to list without duplicates, induction over adds |
| C06 | `index_id`, declaration store | injectivity on character lists; invariant over operations |
| C07 | `declare` | case analysis under the store invariant |
| C08 | `default_mask`, `get_default_key` | induction over the item list against a counting specification |
| C09 | `encode` + accessors | case analysis under the store invariant |
| C10 | operations | growth order on declarations and processors, preserved by all operations |
| C11 | operations | invariant "no encodable attribute stored" |
| C12 | operations | invariant "all references live" |
| C13 | `encode` of features, `get_features` | partial positive theorem, counterexample with two declarations |
| C14 | link invariant | preserved by primitives; counterexamples for `add_element` and duplicate identifiers |
| C15, C16 | `attach_element`, `detach_element` | exact description of the resulting store |
| C17 | acyclicity | rank function; counterexample for attaching below itself |
| C18 | builder trees | induction over the builder tree, representation relation |
| C19 | `check_element_addable`, `annotate` | case analysis against the table |
| C20 | `annotate`, `get_layer_key` | positive for the structure route, counterexample for the word route |
| C21 | `post_add` | exact effect of post-processing a word reference |
| C22 | `add_element_to` | false, counterexample; partial for validation errors |
| C23, C24 | select iterator | stack machine refines recursive pre-order listing over trees |
| C25 | `already_returned` | refinement to a set of keys, for all keys and orders |
| C26 | select iterator | fuel bound = size of the tree; counterexample on cycles and for the non-fused iterator |
| C27 | `from_query`, `matches` | equivalence under the store invariants |
| C28 | `and`, `matches`, iterator | equivalence for `matches`; counterexamples for chaining and for unmatchable first operand |
| C29 | `from_query` | false: selector independent of these criteria |
| C30 | ancestor iterator | induction over the parent chain |
| C31 | `common_ancestors` | intersection under a non-emptiness condition; counterexample |
| C32 | `text_by_key` | false: result independent of set and class |
| C33, C34, C35, C54 | `text_by_key` | induction over children with the delimiter buffer |
| C36 | `xml_elements` | depth-driven machine refines recursive serialisation over trees |
| C37 | start tag construction | case analysis with the invariants |
| C38 | escape/unescape | induction over characters; counterexample for comments |
| C39 | attribute print/parse | case analysis, decimal and date lemmas |
| C40, C41, C53 | tables | exhaustive over the finite tables (`decide`), plus string reasoning for all strings |
| C42 | `parse_elements` | simulation between parser stack and event tree |
| C43 | `parse_elements` | false: counterexample |
| C44 | `parse_elements` | case analysis |
| C45 | serialiser and parser | round trip on canonical documents; counterexamples |
| C46, C47, C48 | metadata part of serialiser and parser | partial round trips, counterexamples |
| C49, C50 | processor operations | induction over pending processors; counterexamples |
| C51 | `declare`, `encode` | partial + counterexample |
| C52 | `post_add` | false, counterexample; partial |
| C55 | attribute list operations | induction over updates |
| C56 | inclusive selection | false for detached elements, positive for attached |
| C57 | `declare`, `encode` | false: behaviour independent of the flag |
| C58 | `parse_elements` | false, counterexample; partial |
| C59 | `text_by_key` | measure along children and word references; counterexample with a loop |
| C60 | `text_by_key` | false: theorem for all corrections |
| C61 | `text_by_key` on text containers | induction over the inline parts |
| C62 | element store | invariant over operations, with the index of C02 |
| C63 | `encode`, `post_add` | invariant over operations: every reference written by `encode` is listed in its declaration |
| C64 | `xml`, `parse`, `xml` | the attributes written for an element are a function of what C45 preserves; matching trees have the same events up to line feeds |
| C65 | indenting writer, `parse` | the parser ignores blank text everywhere it can be inserted: simulation between the padded and the plain event list |
| C66, C67 | `get_elements`, `get_annotation(s)`, `get_ancestor(s)`, by group | `from_query` compiled as in C27, iterators as in C24, C25 and C30; counterexample for group and set |
| C68 | `get_index` | link invariant |
| C69 | `resolve` | index invariants of C02 and C62 |
| C70 | `xml`, `parse` | induction over the source: in a document with room for what is declared, every element that fits is added, attached and post-processed without error (`Verif/Accept.lean` says what fits); what is written for a readable tree fits |
| C71 | `parse`, `parse_elements` | the same induction for a source that is accepted up to the body; rejection because what is accepted has a meaning (C42) |
| C72 | `Document::new`, `apply_properties` | run the function: the empty body, C49 for the processors, invariant over the declarations: each has just the active processor |
| C73 | `add_processor`, `add_subprocessor`, `attach_processor`, `parse` and all other mutators | every mutator either leaves processors and chain alone or adds fresh ones (C49, C50); for the parser an invariant of the metadata loop with its stack of processors |
| C74 | `parse` up to the body, `Processor::parse`, `Declaration::parse` | a run of the metadata loop is cut at the parts of the head; processors by mutual induction over the nesting, ending in the same calls as C49, attributes by induction, the body by C45's frame (it only extends declarations) |
| C75 | `get_declaration_by_id`, `get_processor_by_id` and all mutators | an invariant of both stores over elementary transitions: the index has exactly the identifiers of the items |
| C76 | `Document::xml` with every indentation, quick-xml's writer and reader | the names in the tables have no special characters and all values are escaped (C38), so the scanner inverts the writer, by induction over the events; namespaces by induction over the nesting (C36) |
| C77 | `Document::xml`, `parse_elements`, `text_by_key`, `get_textdelimiter`, `resolve` | a simulation: elements that correspond as in C45 have the same type, spacing and texts and corresponding parts and targets (C62), hence the same text, by induction over the depth of the extraction |
| C78 | `annotate`, `add_element_to`, `text_by_key`, `get_textdelimiter` | the simulation of C77 between the elements with the same key before and after; layers and inline annotations are not heard by the extraction |
| C79 | `add_element_to`, `attach_element`, `detach_element`, `text_by_key` | the same simulation restricted to the elements that a text may be made from, a closure under children and references of words |
| C80 | `add_element_to`, `attach_element`, `detach_element`, `Element::xml` | C36 gives the output as a function of the tree below an element; both trees agree, by induction over the tree; attributes by C37 and the monotonicity of declarations |
| C81 | `Query::*`, `TextParameters::*`, `DocumentProperties::with_*` | induction on the list of calls from its end; the spec is the last value in the list of calls for the setting |
| C82 | `Processor::new`, `this_library`, `autofill` | hex encoding is injective and has a fixed length; a dated processor in the chain is an invariant of all elementary transitions, then C47_dated |
| C83 | `PartialEq for Element` | keys are those under which elements are stored (C01) |
| C84 | `Display for Element` | by cases on the result of C32's extraction |
| C85 | all mutating calls, `Document::new`, text, selection, writing | a triple `Safe P m` (no panic from documents with the invariant of C12 that satisfy `P`) composed along the code with the steps of C12; reads by induction on the fuel |
| C86 | `Document::parse` with metadata, declarations, processors, elements | a triple `Fine P m Q` (no panic, and `Q` after success) along the parser; the state keeps that the open elements have the types that their tags say and that identifiers in the index were seen before |
| C87 | `folialintr` (reading and writing with an indentation of 4) | C42 for the tree that is read, C36 for what is written, induction on the tree for their agreement; C65 for the indentation |
| C88 | `foliabenchmarkr`, test `select` (reading and selecting by type) | C42 and C23/C25; induction on the tree; for spans, counting: the tree below the body has as many elements as the store, so every reference leads into it |
| C89 | `get_element(s)`, `get_annotation(s)`, `get_feature(s)`, `get_ancestor(s)(_by_group)` on a stored element | when `Selector::from_query` fails, from the exactness of the declaration index; then the traversals of C85; features: equivalence with the absence of a declaration |
| C90 | `folialintr` on its own output | C70 and C64 for the document that was read, C65 for the indentation; counterexample evaluated |
| C91 | Text of what was read or added, from the source alone | Induction on the builder that the source means (C42, C18), with C33 and C34 for the parts, C61 for markup and C33 for delimiters |
| C92 | Text parameters without set or class | Case analysis of `Element::text`; the other direction from C69; counterexample evaluated |
| C93 | `Display` of types and attributes | Case analysis; C40 and C41 for the names; induction on the fuel for the one that does not end |
| C94 | reading, `Selector::from_query` and `select` together | C42 and C27: what the stored elements report is what the source says; the selection is the one by type (C88), filtered; spans by counting, as for C88 |
| C95 | `add_element_to`, `Selector::from_query` and `select` together | C18 for the new element, C10 for the old ones, C23 for the traversal; old elements keep their items in front, so what occurred still occurs; conversely by the parent links |
| C96 | `attach_element`, `detach_element` and `select` together | C15 and C16 for the parents, C25 for the selection; being above is followed along the parents, by induction; counterexample evaluated |
| C97 | `attach_element`, `detach_element` and `ancestors` together | C15 and C16 for the parents, C30 for the ancestors; the chain of parents is the same outside of the moved element, and the same up to it below, by induction |

## 3. Trusted base

* Lean 4.33.0 kernel. Axioms allowed: `propext`, `Classical.choice`, `Quot.sound`. No own axioms, no `sorry`, no `native_decide`, no `bv_decide`.
  Each theorem in `MANIFEST.json` depends on no axioms but these three (most on all of them, the table lookups on none or only `propext`).
* That the Lean definitions say what the Rust code does (each definition cites its lines).
* The external contracts listed under "Not modelled". For quick-xml these are: `readXml` and `render` (characters to events and back, from which C76 derives `readBack`),
  `indented` (the white space of the indenting writer), `checkEnds` (the reader's check of end tags), `readAttrs` (a repeated attribute name is an error), `escape` and `unescape`.

## 4. Where the code does not do what its documentation or a user would expect

Every item is a theorem about the model, in the file of the property.

* A known identifier is not an error: `add` drops the new item and returns the old key, so `add_element_to` moves the old element (C03, C14, C17).
* `autodeclare` is never consulted; annotations without set, class and processor are not declared at all (C57).
* A reference to a word that comes later in the document is accepted by the API and written, but rejected by the parser (C70).
* A source that repeats an `xml:id` is accepted: the second element is lost, and the first one moves and gets its contents (C71).
* In a source, a `meta` element without a key overwrites the value of the one before it, and values in `submetadata` are dropped because no submetadata is ever created (C74).
* A source in which a `processor` contains a `processor` with the same identifier (or both lack one) is accepted; the processor becomes its own parent and writing the document never ends (C73).
* `add_processor` with a known identifier appends the known processor to the chain again, and it is written twice; `add_subprocessor` below a key that does not exist yet makes the new processor its own parent (C73).
* `Processor::with_existing_subprocessor` does not set the parent of the subprocessor, which stays in the chain and is written twice (C73).
* Changing the identifier of a processor through `get_mut_processor` leaves the index stale: it is found by the old identifier only (C75).
* White space in attribute values and two hyphens in comments are written literally: readers that follow the XML recommendation turn the first into blanks
  and reject the second. `Element::xml` writes tags without a namespace (C76).
* A feature without a subset decodes its class from the wrong store (C10, C12).
* Features are found only under the declaration that they share with the annotation (C13).
* `attach_element` has no check for cycles; selection, text and serialisation do not end on one (C17, C26, C59). `attach_processor` neither (C50).
* Post-processing replaces all attributes of a layer without a set, including its identifier (C10, C45, C52).
* Annotating from a word never finds an existing layer (C20).
* Failing calls leave parts of what they did (C14, C22).
* `Selector::and` drops an operand when chained, and an unmatchable first operand suppresses the others (C28).
* Criteria on annotator, annotator type and confidence are ignored (C29). A class without a set, "some set" and "no set" do not mean what they say (C27).
* `get_ancestors_by_group` and `get_ancestor_by_group` find nothing if a set is given (C67).
* Indented output has more character data in text content with markup; this library ignores it, other readers may not (C65).
* `common_ancestors` starts over when the intersection becomes empty (C31).
* The set, the class and the strictness asked for have no influence on the text (C32). Corrected words are no part of the text (C60). Words
  inside span roles neither (C54). A hidden word inside a text container makes the whole text fail (C35).
* A detached element is written with the tag of the body (C56).
* Two attributes of one type are written twice, and the result is not XML (C37).
* Comments are escaped on output and not unescaped on input (C38, C45). Text in structural elements gains line feeds (C45). Blank text is dropped (C58).
* Date-times are written in a format that is not read (C39 for fractions of seconds, C47 for processors). Every document with a date in its
  provenance is written and then rejected by the parser (C47_dated): src/parser.rs:490,496 has `$S` for `%S`.
* Truncated documents are accepted (C43). A document with an empty body is written and then rejected (C45).
* Declarations without processors are lost (C46), submetadata is written as metadata and empty values are lost (C48).
* The documentation of `Selector` says that an empty list of data types matches anything; it does not match text or comments (see `Verif/Query.lean`).
* `impl Display for AttribType` calls itself without end (not modelled).
* White space between two elements inside of a text content is dropped by the parser (src/parser.rs:413), so `<t><t-style>Hello</t-style> <t-style>world</t-style></t>` has the text `Hello world` before and `Helloworld` after a round trip (`C77_blank_counterexample`).
* An element without a delimiter of its own takes the delimiter of its last child (src/text.rs:153-173). Adding a description to a correction therefore changes the text around it: `Hello world` becomes `Helloworld` (`C78_delimiter_counterexample`).
* Whether the set of an element is written depends on how many sets of its type the document has, and whether its processor is written on how many processors its declaration has. Annotating one word in a new set therefore changes what is written for annotations of other words (`C80_set_counterexample`).
* `Processor::autofill` sets a date, so that a document made with an autofilled processor is written and can never be read again (`C82_autofill`).
* Elements of different documents are equal if they have the same key (`C83_documents_counterexample`).
* `to_string()` panics on every element without text, and on all elements of a document that does not declare the default text set (`C84_counterexample`).
* Adding or reading a feature directly below an element without annotation type (the body, a row, a list item, a caption, ...) panics, although these elements accept features (`C85_feature_counterexample`).
* The parser panics on a malformed attribute, on a malformed reference in `xml:id` or `version` of the root or in an attribute of a processor, on a feature directly below an element without annotation type, and on a feature in an element whose identifier was used before by such an element (`C86_malformed_counterexample`, `C86_escape_counterexample`, `C86_feature_counterexample`, `C86_twice_counterexample`).
* An empty tag that repeats the identifier of an element it is in makes that element its own child. The source is accepted, and writing the document never ends (`C87_twice_counterexample`).
* `get_feature` and `get_features` with a named subset panic on every element for whose type and set there is no declaration, instead of finding nothing (`C89_counterexample`).
* The documentation of `Element::text` says that set and text class can be `None` to get the defaults (src/text.rs:193-195). A class of `None` panics whenever the set is declared, a set of `None` panics whenever text without a set is not declared (`C92_counterexample`).
* `Display` of `AttribType` formats itself (src/attrib.rs:67), so that `to_string()` on any attribute type overflows the stack (`C93_attribtype_diverges`).
* `folialintr` accepts a file with an empty body and rejects what it prints for it (`C90_empty_counterexample`).
* A word reference may name an identifier that does not exist yet. Adding an element with this identifier then changes texts elsewhere (`C78_awaited_counterexample`, `C79_awaited_counterexample`).
* `detach_element` on a span annotation leaves the references of its words, so that it is still selected from them and from everything above them (`C96_span_counterexample`).
