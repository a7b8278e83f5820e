{"id": "C01", "title": "Element keys are permanent", "statement": "Once a mutating call has returned an element key, that key resolves (get_element) to an element of the same element type, that reports this very key, after every later sequence of successful or failing mutating calls; no element ever disappears from the document and the element count never decreases.", "quantifier": "every document reachable from Document::new by any finite sequence of public mutating calls with any arguments, every key returned on the way", "why_tests_cant": "a test fixes one history; the guarantee is about all interleavings of adds, attaches, detaches, declarations and failures", "anchors": ["src/store.rs:Store::add", "src/document.rs:add_element_to", "src/document.rs:attach_element", "src/document.rs:detach_element", "src/document.rs:post_add"]}
{"id": "C02", "title": "Identifier index is sound", "statement": "In every reachable document every identifier known to the index resolves to a stored element: get_element_by_id never panics, and it returns Some exactly for the identifiers for which get_element_key_by_id returns Some.", "quantifier": "every reachable document, every identifier string", "why_tests_cant": "the panic path (unwrap of a missing item) can only be excluded by an invariant over all histories", "anchors": ["src/store.rs:get_by_id", "src/store.rs:id_to_key", "src/document.rs:get_element_by_id"]}
{"id": "C03", "title": "Adding: fresh identifiers get fresh keys, known identifiers are not duplicated", "statement": "Adding an item whose identifier is unknown (or that has none) returns the previous item count as key, stores exactly that item there and leaves all other items untouched; adding an item with a known identifier returns the key already registered and leaves the stored items and the index unchanged.", "quantifier": "every store contents, every item, for elements, declarations and processors alike", "why_tests_cant": "all store sizes and identifier collisions cannot be enumerated", "anchors": ["src/store.rs:Store::add", "src/store.rs:get_key"]}
{"id": "C04", "title": "Key exhaustion is reported, never wrapped", "statement": "If the store already holds as many items as its key type can address, adding a new item returns an error and changes nothing; keys handed out never exceed the key type and two different items never share a key.", "quantifier": "every store size, every key width, every sequence of adds", "why_tests_cant": "needs 2^16 or 2^32 items at run time; wrap-around is a universal statement", "anchors": ["src/store.rs:Store::add", "src/store.rs:StringStore::add", "src/metadata.rs:DeclarationStore::get_default_key"]}
{"id": "C05", "title": "Class and subset interning is a bijection", "statement": "After any sequence of adding strings to a class or subset store, looking up a returned key yields exactly the string, equal strings always get equal keys and different strings different keys, and earlier keys keep their meaning.", "quantifier": "every sequence of strings added in any order with any repetitions", "why_tests_cant": "unbounded sequences and arbitrary strings", "anchors": ["src/store.rs:StringStore", "src/metadata.rs:Declaration::add_class", "src/metadata.rs:Declaration::add_subset", "src/metadata.rs:Declaration::add_subclass"]}
{"id": "C06", "title": "Declarations are unique per annotation type and set", "statement": "The identifier under which a declaration is indexed determines its annotation type and its set (also for sets containing slashes), and no reachable document contains two declarations with the same annotation type and set.", "quantifier": "all pairs of annotation types and set strings; all reachable documents", "why_tests_cant": "collisions of the composed identifier must be excluded for all strings", "anchors": ["src/metadata.rs:Declaration::index_id", "src/store.rs:Store::add", "src/document.rs:declare"]}
{"id": "C07", "title": "declare returns the requested declaration and is idempotent", "statement": "declare(type, Some(set)) returns the key of a declaration with exactly that type and set; declare(type, None) returns the set-less declaration if there is one, otherwise the only declaration of that type, otherwise a new set-less one. Repeating the same call immediately returns the same key and changes nothing.", "quantifier": "every reachable document, every annotation type, every optional set, alias and format", "why_tests_cant": "depends on the full declaration history", "anchors": ["src/document.rs:declare", "src/metadata.rs:get_default_key"]}
{"id": "C08", "title": "Default declarations are exactly the unambiguous ones", "statement": "get_default_key(type) is Some(k) iff k is the one and only declaration of that annotation type, and default_mask marks exactly those declarations, at every document size.", "quantifier": "every declaration store, every annotation type, every key", "why_tests_cant": "two independent implementations must agree on all inputs", "anchors": ["src/metadata.rs:default_mask", "src/metadata.rs:get_default_key", "src/document.rs:get_default_set"]}
{"id": "C09", "title": "Encoding preserves set, class and processor", "statement": "An element whose type has an annotation type and that is added with a set and/or class (and a known processor) reads back the same set, class and processor through the element accessors; without an explicit set it reads back the set of the declaration it was resolved to. Other attributes are kept in order.", "quantifier": "every reachable document and every element built from non-encoded attributes", "why_tests_cant": "interning, declarations and defaults interact over the whole history", "anchors": ["src/document.rs:encode", "src/element.rs:ReadElement::set", "src/element.rs:ReadElement::class", "src/element.rs:ReadElement::processor"]}
{"id": "C10", "title": "Decoded values of stored elements are stable", "statement": "No later call that declares, adds, annotates, attaches, detaches or adds processors changes the set, class, subset or processor identifier that an already stored element reports.", "quantifier": "every reachable document, every stored element, every later operation sequence (layers receiving their set by post-processing are the documented exception)", "why_tests_cant": "aliasing between interned keys and later insertions shows only for particular histories", "anchors": ["src/metadata.rs:Declaration", "src/store.rs:Store", "src/element.rs:ReadElement"]}
{"id": "C11", "title": "Accessors never panic on stored elements", "statement": "Every element stored in a reachable document has no string-valued (not yet encoded) set, class, subset or processor attribute left, so class_key, subset_key, declaration_key and processor_key and everything built on them never hit their expect.", "quantifier": "every reachable document, every stored element", "why_tests_cant": "absence of panics for all histories", "anchors": ["src/element.rs:class_key", "src/element.rs:declaration_key", "src/document.rs:encode", "src/store.rs:Store::add"]}
{"id": "C12", "title": "Encoded references never dangle", "statement": "In every reachable document each declaration, class, subset and processor reference stored on an element resolves: an element with a class key has a class, one with a declaration key has a declaration, and serialisation never fails on a missing declaration.", "quantifier": "every reachable document (with activate_processor only called with keys obtained from the document), every stored element", "why_tests_cant": "referential integrity is an invariant over all histories", "anchors": ["src/document.rs:encode", "src/element.rs:get_declaration", "src/serialiser.rs:xml_elements"]}
{"id": "C13", "title": "Features keep their subset and class and are found again", "statement": "A feature added under an annotation reads back its subset and class, and get_features on that annotation with that subset finds it.", "quantifier": "every reachable document, every annotation element, every feature added to it", "why_tests_cant": "depends on the number of declarations of the annotation type at the time of adding", "anchors": ["src/document.rs:encode", "src/element.rs:get_features", "src/select.rs:from_query"]}
{"id": "C14", "title": "Parent and child links agree", "statement": "In every reachable document an element lists a child exactly when that child names it as its parent, and it lists it exactly once.", "quantifier": "every document built by Document::new and any sequence of annotate, add_element_to, attach_element and detach_element with fresh identifiers and builder-style children", "why_tests_cant": "a relational invariant between two representations over all histories", "anchors": ["src/document.rs:attach_element", "src/document.rs:detach_element", "src/document.rs:add_element_to", "src/document.rs:add_children"]}
{"id": "C15", "title": "attach_element moves an element", "statement": "After a successful attach_element(parent, child) the child's parent is parent, the child is the last item of parent's data, the old parent no longer lists it, and every other element and every other data item is unchanged and in the same order; attaching to the present parent moves the child to the end.", "quantifier": "every consistent document, every pair of keys", "why_tests_cant": "frame conditions for all other elements", "anchors": ["src/document.rs:attach_element", "src/element.rs:index", "src/element.rs:remove"]}
{"id": "C16", "title": "detach_element orphans an element and nothing else", "statement": "After detach_element(child) the child has no parent, no element lists it, the child's own subtree is untouched and all remaining siblings keep their order; attach after detach restores the link.", "quantifier": "every consistent document, every key", "why_tests_cant": "frame conditions for all other elements", "anchors": ["src/document.rs:detach_element"]}
{"id": "C17", "title": "The element graph stays a forest", "statement": "Following parents from any element terminates: no operation sequence creates a cycle.", "quantifier": "every reachable document", "why_tests_cant": "termination of all traversals depends on it for all histories", "anchors": ["src/document.rs:attach_element", "src/document.rs:add_element_to", "src/select.rs:AncestorIterator::next"]}
{"id": "C18", "title": "add_element_to materialises the builder tree", "statement": "After a successful add_element_to(parent, element) the document contains, as last child of parent, a tree with exactly the builder's element types, text and comment items and nesting, in the builder's order, made of new elements only; the rest of the document is unchanged except for back references of word references.", "quantifier": "every consistent document, every builder tree of any depth and width", "why_tests_cant": "unbounded recursive structures", "anchors": ["src/document.rs:add_element_to", "src/document.rs:add_children", "src/document.rs:post_add"]}
{"id": "C19", "title": "annotate validates before it changes anything", "statement": "annotate of a non-span element succeeds only if the specification of the parent type accepts the element's type or one of its groups; otherwise it returns an error and leaves the document unchanged. An unknown parent key is an error that leaves the document unchanged.", "quantifier": "every document, every parent key, every element", "why_tests_cant": "all combinations of parent and child types and document states", "anchors": ["src/document.rs:annotate", "src/document.rs:check_element_addable", "src/specification.rs:Properties::new"]}
{"id": "C20", "title": "Span annotations share one layer per set", "statement": "Adding a span annotation finds the existing layer for its annotation type and set under the holding structure element and creates one only if there is none; two span annotations with the same set end up in the same layer.", "quantifier": "every reachable document, every span element, both ways of invoking annotate (from the structure element and from a spanned word)", "why_tests_cant": "depends on all earlier annotations", "anchors": ["src/document.rs:annotate", "src/document.rs:annotate_span", "src/document.rs:get_layer_key"]}
{"id": "C21", "title": "Word references create back references to the span", "statement": "When a span with word references is added, every referenced element gets a reference to exactly that span, and a word reference to an unknown identifier is reported as an error.", "quantifier": "every document, every list of referenced identifiers", "why_tests_cant": "all spans and targets", "anchors": ["src/document.rs:post_add", "src/element.rs:with_span", "src/document.rs:get_span_keys"]}
{"id": "C22", "title": "A failing mutation leaves the document unchanged", "statement": "If add_element_to or annotate returns an error the document is the same as before the call.", "quantifier": "every document, every failing call", "why_tests_cant": "all failure points of a multi-step operation", "anchors": ["src/document.rs:add_element_to", "src/document.rs:add_children", "src/store.rs:Store::add"]}
{"id": "C23", "title": "Selection is a complete pre-order traversal", "statement": "Selecting with Recursion::Always yields exactly the data items of the subtree that match the selector, each once, in document (pre-)order, with the right parent, position and depth. A selector that asks for a set, class or processor unknown to the document selects nothing.", "quantifier": "every document tree, every starting element, every selector", "why_tests_cant": "unbounded trees; the iterator is a stack machine whose equivalence to the recursive definition needs induction", "anchors": ["src/select.rs:SelectIterator::next", "src/select.rs:Selector::matches"]}
{"id": "C24", "title": "Recursion limits are respected", "statement": "Recursion::No yields only direct data items; LimitedTo descends only through containers of the given types or groups and ExceptFor through all others; a match is reported whether or not it is descended into.", "quantifier": "every document tree, selector and recursion policy", "why_tests_cant": "unbounded trees and policies", "anchors": ["src/select.rs:Recursion::eval", "src/select.rs:SelectIterator::next"]}
{"id": "C25", "title": "Span elements are selected at most once", "statement": "Element selection returns every span annotation at most once, even when it is reachable both through its layer and through references from several words; the duplicate bookkeeping behaves exactly as a set of keys, for keys in any order.", "quantifier": "every document, every selector, every order in which keys are met", "why_tests_cant": "the bookkeeping uses an offset bit vector that must be right for all key orders", "anchors": ["src/select.rs:already_returned", "src/select.rs:SelectElementsIterator::next"]}
{"id": "C26", "title": "Selection terminates and does not panic", "statement": "On every consistent document a selection ends after finitely many steps without panicking, and ends for good (no items after the end).", "quantifier": "every consistent document, every selector", "why_tests_cant": "termination cannot be tested", "anchors": ["src/select.rs:SelectIterator::next"]}
{"id": "C27", "title": "A compiled query means what it says", "statement": "An element is matched by Selector::from_query(query) iff its type, group, set, class, subset and processor as reported by its accessors satisfy the query's comparisons.", "quantifier": "every reachable document, every query, every stored element", "why_tests_cant": "the compiled selector compares keys where the query compares strings", "anchors": ["src/select.rs:from_query", "src/select.rs:Selector::matches", "src/query.rs:Cmp::matches"]}
{"id": "C28", "title": "Selector union", "statement": "a.and(b) selects exactly the items selected by a or by b; chaining and() keeps every operand.", "quantifier": "all selectors, documents and items", "why_tests_cant": "universal over selectors", "anchors": ["src/select.rs:and", "src/select.rs:matchable", "src/select.rs:SelectIterator::next"]}
{"id": "C29", "title": "Annotator and confidence criteria are honoured", "statement": "A query with an annotator, annotator type or confidence criterion selects only elements meeting it.", "quantifier": "every query and document", "why_tests_cant": "universal over queries", "anchors": ["src/select.rs:from_query", "src/query.rs:Query"]}
{"id": "C30", "title": "Ancestors are the parent chain", "statement": "ancestors(selector) yields exactly the matching elements on the chain of parents, nearest first, and terminates.", "quantifier": "every consistent document, every element and selector", "why_tests_cant": "unbounded depth", "anchors": ["src/select.rs:AncestorIterator::next", "src/element.rs:get_ancestors"]}
{"id": "C31", "title": "common_ancestors computes the intersection", "statement": "common_ancestors(selector, keys) returns exactly the matching elements that are ancestors of all given elements, nearest first.", "quantifier": "every consistent document, every list of keys", "why_tests_cant": "unbounded lists and depth", "anchors": ["src/select.rs:common_ancestors"]}
{"id": "C32", "title": "text() returns the text of the requested set and class", "statement": "text() only uses text content of the requested text set and text class.", "quantifier": "every document, element, set and class", "why_tests_cant": "universal over documents and parameters", "anchors": ["src/text.rs:text_by_key", "src/text.rs:text"]}
{"id": "C33", "title": "Text of a structure is the delimited concatenation of its parts", "statement": "The text of a structure element without markup of its own is the concatenation of the non-empty texts of its structural children in order, separated by the delimiter of the preceding contributing child (empty after a token with space=no unless tokenisation is retained), with no leading or trailing delimiter.", "quantifier": "every structure element with any number of children and any nesting", "why_tests_cant": "unbounded children, delimiter buffering across arbitrary gaps", "anchors": ["src/text.rs:text_by_key", "src/text.rs:get_textdelimiter"]}
{"id": "C34", "title": "Explicit text content is only a fallback", "statement": "An element's own text content is used iff its structural children provide no text, and a successful text() on a non-container element never returns the empty string.", "quantifier": "every element of every document", "why_tests_cant": "universal over documents", "anchors": ["src/text.rs:text_by_key"]}
{"id": "C35", "title": "Hidden and non-printable elements contribute no text", "statement": "Asking the text of a hidden or non-printable element is an error, and such an element contributes neither text nor a delimiter to its parent's text.", "quantifier": "every document and element", "why_tests_cant": "universal over documents", "anchors": ["src/text.rs:text_by_key", "src/specification.rs:Properties::new"]}
{"id": "C36", "title": "Serialisation is well nested and complete", "statement": "The event stream written for an element is exactly the recursive serialisation of its subtree: every start tag is closed by the matching end tag in the right order, every element, text and comment appears once, in document order, and the end-tag stack never underflows.", "quantifier": "every consistent document, every root element", "why_tests_cant": "the serialiser reconstructs nesting from depth changes of a flat iteration; equivalence needs induction over all trees", "anchors": ["src/serialiser.rs:xml_elements", "src/select.rs:SelectIterator::next"]}
{"id": "C37", "title": "Serialised attributes determine the element", "statement": "In a serialised start tag no attribute name occurs twice; the set is written iff it is not the default for its annotation type; re-encoding the written attributes in a document with the same declarations yields the same declaration and class.", "quantifier": "every consistent document, every element", "why_tests_cant": "combinations of defaults and attributes", "anchors": ["src/serialiser.rs:xml_elements", "src/metadata.rs:default_mask", "src/document.rs:encode"]}
{"id": "C38", "title": "Escaping is lossless and safe", "statement": "Text, attribute values and comments written by the serialiser are read back unchanged, and no text content can introduce markup.", "quantifier": "all strings", "why_tests_cant": "all strings", "anchors": ["src/serialiser.rs:xml_elements", "src/parser.rs:parse_elements"]}
{"id": "C39", "title": "Attributes survive printing and parsing", "statement": "For every attribute that can be serialised, parsing its name and printed value yields the attribute itself.", "quantifier": "every attribute with every value", "why_tests_cant": "unbounded values", "anchors": ["src/attrib.rs:Attribute::parse", "src/attrib.rs:to_string", "src/attrib.rs:attribtype"]}
{"id": "C40", "title": "Element tags are a bijection", "statement": "Every element type's tag parses back to that element type and different types have different tags.", "quantifier": "all element types, all tag strings", "why_tests_cant": "exhaustive over the table and over all strings for the inverse direction", "anchors": ["src/types.rs:ElementType::as_str", "src/types.rs:ElementType::from_str"]}
{"id": "C41", "title": "Declaration tags identify the annotation type", "statement": "The declaration tag written for an annotation type is parsed back to that annotation type, and a string accepted as declaration tag is the tag of exactly one annotation type.", "quantifier": "all annotation types, all strings", "why_tests_cant": "all strings", "anchors": ["src/parser.rs:get_declaration_type", "src/types.rs:AnnotationType", "src/serialiser.rs:xml_declarations"]}
{"id": "C42", "title": "The parser rebuilds the tree of the event stream", "statement": "Parsing the events of any element tree yields a document in which the tree below the body has exactly the parsed element types, the non-blank text and comments, and the nesting, in order, with consistent parent links.", "quantifier": "every well-nested event stream with distinct identifiers", "why_tests_cant": "unbounded trees; stack machine", "anchors": ["src/parser.rs:parse_elements", "src/document.rs:attach_element"]}
{"id": "C43", "title": "Truncated input is rejected", "statement": "If the input ends before the body is closed, parsing returns an error.", "quantifier": "every truncated event stream", "why_tests_cant": "all truncation points", "anchors": ["src/parser.rs:parse_elements"]}
{"id": "C44", "title": "Mismatched end tags are rejected", "statement": "If an end tag does not belong to the innermost open element, parsing returns an error.", "quantifier": "every event stream with a mismatching end tag", "why_tests_cant": "all streams", "anchors": ["src/parser.rs:parse_elements"]}
{"id": "C45", "title": "Parse after serialise preserves the body", "statement": "Serialising a document and parsing the result yields a document with the same element tree: types, identifiers, sets, classes, other attributes, text and comments.", "quantifier": "every consistent document", "why_tests_cant": "round trip over all documents", "anchors": ["src/serialiser.rs:xml", "src/parser.rs:parse"]}
{"id": "C46", "title": "Declarations survive a round trip", "statement": "Serialising and parsing a document preserves its declarations (type, set, alias, format, processors).", "quantifier": "every document", "why_tests_cant": "round trip over all documents", "anchors": ["src/serialiser.rs:xml_declarations", "src/parser.rs:parse", "src/parser.rs:Declaration::parse"]}
{"id": "C47", "title": "Provenance survives a round trip", "statement": "Serialising and parsing a document preserves the provenance chain: processors, fields, nesting and order.", "quantifier": "every document", "why_tests_cant": "round trip over all processor trees", "anchors": ["src/serialiser.rs:xml_provenance", "src/serialiser.rs:xml_processor", "src/parser.rs:Processor::parse"]}
{"id": "C48", "title": "Metadata and submetadata survive a round trip", "statement": "Serialising and parsing a document preserves its metadata and its submetadata blocks.", "quantifier": "every document", "why_tests_cant": "round trip over all metadata", "anchors": ["src/serialiser.rs:xml_metadata", "src/parser.rs:parse"]}
{"id": "C49", "title": "Adding processors builds the provenance tree", "statement": "add_processor appends exactly one new top-level processor to the chain and adds its pending subprocessors, recursively, as children in order; parent links agree.", "quantifier": "every document, every processor tree with fresh identifiers", "why_tests_cant": "unbounded recursion", "anchors": ["src/document.rs:add_processor", "src/document.rs:add_subprocessor", "src/document.rs:attach_processor"]}
{"id": "C50", "title": "attach_processor moves a processor", "statement": "attach_processor removes the processor from its old parent (as its documentation says) and the processor graph stays a forest, so serialisation terminates.", "quantifier": "every document, every pair of processor keys", "why_tests_cant": "all histories", "anchors": ["src/document.rs:attach_processor", "src/serialiser.rs:xml_processor"]}
{"id": "C51", "title": "The active processor is credited", "statement": "While a processor is active, every annotation added without an explicit processor is attributed to it and the declaration used lists it.", "quantifier": "every document, every active processor, every element added", "why_tests_cant": "depends on the declaration history", "anchors": ["src/document.rs:declare", "src/document.rs:encode", "src/document.rs:activate_processor"]}
{"id": "C52", "title": "Post-processing a layer only adds its set", "statement": "Adding or parsing a layer keeps all its attributes; post-processing may only add the declaration inferred from its spans.", "quantifier": "every document, every layer element", "why_tests_cant": "all layers", "anchors": ["src/document.rs:post_add"]}
{"id": "C53", "title": "The specification tables agree with the type tables", "statement": "The property table and the type tables agree on annotation types and tags; every annotation type's main element has that annotation type; every span annotation has a layer type in the layer group.", "quantifier": "all element types and annotation types", "why_tests_cant": "large tables maintained separately", "anchors": ["src/specification.rs:Properties::new", "src/types.rs:AnnotationType::elementtype", "src/types.rs:AnnotationType::layertype", "src/types.rs:ElementType::annotationtype"]}
{"id": "C54", "title": "Text of a span is the text of its words", "statement": "The text of a span annotation is the delimited concatenation of the texts of the elements its word references point to, in reference order.", "quantifier": "every span with any number of word references", "why_tests_cant": "unbounded", "anchors": ["src/text.rs:text_by_key", "src/element.rs:resolve"]}
{"id": "C55", "title": "set_attrib is last-write-wins", "statement": "After set_attrib(a) the attribute of a's type is a, no other attribute type changes, and elements built only with set_attrib/with_attrib never hold two attributes of one type.", "quantifier": "every sequence of attribute updates", "why_tests_cant": "unbounded sequences", "anchors": ["src/element.rs:set_attrib", "src/element.rs:del_attrib", "src/element.rs:attrib"]}
{"id": "C56", "title": "Any element can be serialised on its own", "statement": "xml() of an element writes that element and its subtree, also when it is detached.", "quantifier": "every element of every document", "why_tests_cant": "universal over documents", "anchors": ["src/element.rs:ReadElement::xml", "src/select.rs:SelectIterator::next"]}
{"id": "C57", "title": "Automatic declaration follows the autodeclare flag", "statement": "With autodeclare off, adding an annotation whose type and set are not declared is an error; with it on, it is declared.", "quantifier": "every document and element", "why_tests_cant": "universal over documents", "anchors": ["src/document.rs:DocumentProperties", "src/document.rs:encode", "src/document.rs:declare"]}
{"id": "C58", "title": "Whitespace in text content is preserved by the parser", "statement": "Text data inside text content is taken over literally, including whitespace between inline markup.", "quantifier": "all strings, all text content", "why_tests_cant": "all strings", "anchors": ["src/parser.rs:parse_elements"]}
{"id": "C59", "title": "Asking for the text of an element terminates", "statement": "text() on any element of any document returns a text or an error after finitely many steps.", "quantifier": "all documents reachable through the API, all elements", "why_tests_cant": "non-termination depends on the shape of the whole document", "anchors": ["src/text.rs:Element::text_by_key", "src/text.rs:Element::get_textdelimiter"]}
{"id": "C60", "title": "Corrected text is text", "statement": "The text of an element with a correction in it includes the corrected version given by the correction.", "quantifier": "all documents with corrections", "why_tests_cant": "all combinations of corrections and structure", "anchors": ["src/text.rs:Element::text_by_key"]}
{"id": "C61", "title": "Text of a text content is its inline text", "statement": "The text of a text content or of text markup is its text items and the texts of its printable markup, in order and complete.", "quantifier": "all text containers, all markup below them", "why_tests_cant": "all nestings of markup", "anchors": ["src/text.rs:Element::text_by_key"]}
{"id": "C62", "title": "Elements are found by their identifier", "statement": "In every reachable document, if an element reports an identifier, then looking up that identifier returns the key of that element and the element itself; hence no two elements report the same identifier, also if builders or sources repeat an identifier. What is found by an identifier reports it, with the exception of layers that lost their attributes.", "quantifier": "every reachable document, every element with an identifier", "why_tests_cant": "depends on every history of additions, including duplicate identifiers and failed calls", "anchors": ["src/store.rs:add", "src/document.rs:get_element_by_id", "src/element.rs:id"]}
{"id": "C63", "title": "Annotations fit their declaration", "statement": "In every reachable document the declaration of an annotation is of the annotation type of the annotation and lists the processor of the annotation among its annotators; an annotation with a processor has a declaration.", "quantifier": "every document reachable through the API or by parsing, every element", "why_tests_cant": "depends on every history of declarations, additions and parsed layers", "anchors": ["src/document.rs:encode", "src/document.rs:post_add", "src/declaration.rs:Declaration", "src/element.rs:ElementData::declaration_key"]}
{"id": "C64", "title": "Writing, reading and writing again gives the same file", "statement": "If the output of a document is read and the result is written again, then the second file has the same tags with the same attributes, the same texts and the same comments in the same order as the first one, apart from line feeds between tags and from the two ways to write an element without content.", "quantifier": "every document obtained through the API or by parsing", "why_tests_cant": "composition of serialiser, parser and serialiser over all documents", "anchors": ["src/serialiser.rs:Document::xml", "src/parser.rs:Document::parse"]}
{"id": "C65", "title": "Indentation does not change what is read back", "statement": "For every document and every indentation width, reading the indented output gives the same document, or the same error, as reading the output without indentation; the indented output has the same tags, attributes and comments in the same order, and fails to be written exactly if the other one does.", "quantifier": "every document, every indentation width", "why_tests_cant": "all documents and widths; the writer and the reader are composed", "anchors": ["src/serialiser.rs:Document::xml", "src/element.rs:ReadElement::xml", "src/parser.rs:Document::parse"]}
{"id": "C66", "title": "Looking up elements by type and set is complete and exact", "statement": "get_elements and get_annotations return exactly the elements of the given type (and set, if given) below an element that the recursion mode reaches, and get_element and get_annotation return the first of these in document order; none of them panics.", "quantifier": "every reachable document without cycles, every element, type, set and recursion mode", "why_tests_cant": "all shapes of documents; completeness cannot be sampled", "anchors": ["src/element.rs:Element::get_elements", "src/element.rs:Element::get_element", "src/element.rs:Element::get_annotations", "src/element.rs:Element::get_annotation"]}
{"id": "C67", "title": "Looking up ancestors by type, group and set is complete and exact", "statement": "get_ancestors and get_ancestors_by_group return exactly the ancestors of an element with the given type or group (and set, if given), nearest first, and get_ancestor and get_ancestor_by_group return the nearest of these; none of them panics.", "quantifier": "every reachable document without cycles, every element, type, group and set", "why_tests_cant": "all shapes of documents", "anchors": ["src/element.rs:Element::get_ancestors", "src/element.rs:Element::get_ancestor", "src/element.rs:Element::get_ancestors_by_group", "src/element.rs:Element::get_ancestor_by_group"]}
{"id": "C68", "title": "The index of an element is its position in its parent", "statement": "get_index of an element that has a parent is the one position at which the parent lists it; without a parent there is no index.", "quantifier": "every reachable document without cycles, every element", "why_tests_cant": "depends on every history of attaching and detaching", "anchors": ["src/element.rs:ReadElement::get_index"]}
{"id": "C69", "title": "References resolve to the element they name", "statement": "resolve returns the element with the identifier that the first reference attribute of an element names, whenever there is one; it never panics, and what it returns has that identifier.", "quantifier": "every reachable document, every element", "why_tests_cant": "depends on every history of additions", "anchors": ["src/element.rs:ReadElement::resolve", "src/document.rs:get_element_by_id"]}
{"id": "C70", "title": "What was written can be read", "statement": "A document can always be written, and what was written is accepted by the parser; together with the properties about round trips, writing and reading always gives a document with the same body.", "quantifier": "every document obtained through the API or by parsing", "why_tests_cant": "existence of a successful run of the parser over the output of every document", "anchors": ["src/serialiser.rs:Document::xml", "src/parser.rs:Document::parse", "src/parser.rs:parse_elements", "src/document.rs:post_add"]}
{"id": "C71", "title": "Valid sources are accepted and invalid ones rejected", "statement": "A source in which every tag and attribute of the body is known and well-formed, identifiers are distinct and references to words follow the words is accepted by the parser, however long and deep it is; a source with an unknown tag, an unknown attribute, a malformed value or a repeated identifier in the body is rejected.", "quantifier": "every source: any header, any body of any size and depth", "why_tests_cant": "all sources; tests only cover a few files", "anchors": ["src/parser.rs:Document::parse", "src/parser.rs:parse_elements", "src/attrib.rs:Attribute::parse", "src/types.rs:ElementType::from_str"]}
{"id": "C72", "title": "A new document has an empty body and exactly what was asked for", "statement": "Creating a document with given properties succeeds and gives a document with the given identifier, one element, which is an empty body of the given type, no metadata, the given processors and their subprocessors as provenance with the outermost as the active processor, and exactly the declarations asked for, each listing just the active processor.", "quantifier": "all identifiers, all properties with any tree of processors with distinct identifiers and any list of declarations", "why_tests_cant": "all trees of processors and all lists of declarations, with repetitions and with and without sets", "anchors": ["src/document.rs:Document::new", "src/document.rs:Document::apply_properties"]}
{"id": "C73", "title": "The processors of a document form a forest", "statement": "Whatever is read, added and attached, the chain of a document consists of different processors without parents, a processor lists a subprocessor exactly when that names it as its parent, and no processor is below itself; hence writing the metadata ends.", "quantifier": "every document obtained by creating or parsing and any history of calls", "why_tests_cant": "depends on every history and every source; a cycle shows only when writing does not end", "anchors": ["src/document.rs:Document::add_processor", "src/document.rs:Document::add_subprocessor", "src/document.rs:Document::attach_processor", "src/parser.rs:Document::parse", "src/serialiser.rs:Document::xml_provenance"]}
{"id": "C74", "title": "What a source says in front of its body is what the document has", "statement": "After reading a source, the document has the identifier and version given at its root, the kind, source and values of its metadata, exactly its processors with all their attributes and nested in the same way, and its declarations in order with their sets, aliases, formats and annotators; white space, comments and whatever follows in the body make no difference.", "quantifier": "all sources: any number of declarations, any tree of processors, any attributes in any order, any padding and any body", "why_tests_cant": "all sources; tests only cover a few files", "anchors": ["src/parser.rs:Document::parse", "src/parser.rs:Processor::parse", "src/parser.rs:Declaration::parse", "src/document.rs:Document::add_processor", "src/document.rs:Document::add_subprocessor"]}
{"id": "C75", "title": "Declarations and processors are found by what identifies them", "statement": "Looking up a declaration by its annotation type and set, or a processor by its identifier, never panics and returns exactly the one that has these, or nothing if there is none; no two share them, and each knows its own key.", "quantifier": "every document obtained by creating or parsing and any history of calls, all types, sets and identifiers", "why_tests_cant": "depends on every history of additions and on every string; an index is only wrong after some histories", "anchors": ["src/document.rs:get_declaration_by_id", "src/document.rs:get_declaration_key_by_id", "src/document.rs:get_processor_by_id", "src/document.rs:get_processor_key_by_id", "src/store.rs:Store::get_by_id"]}
{"id": "C76", "title": "The characters that are written read back as what was written", "statement": "Cutting the characters of a written document, with any indentation, into tags, attributes, texts and comments and resolving namespaces gives exactly what was written, whatever characters identifiers, classes, texts, comments and other values contain; hence documents that are written alike have the same contents.", "quantifier": "all documents obtained through the API or by parsing, all characters in values, all indentations", "why_tests_cant": "all strings in all places of all documents", "anchors": ["src/serialiser.rs:Document::xml", "src/serialiser.rs:xml_metadata", "src/serialiser.rs:xml_elements", "src/common.rs:NSFOLIA", "src/types.rs:ElementType", "src/attrib.rs:AttribType"]}
{"id": "C77", "title": "Texts survive writing and reading", "statement": "After writing a document and reading it back, the text of the whole document and of every element that has an identifier is the same as before, for all parameters, also where it is put together from words, nested structure, text markup, corrections or references; an element without text still has none.", "quantifier": "every document obtained through the API or by parsing, every element with an identifier, all text parameters", "why_tests_cant": "composition of writing, reading and text extraction over all documents", "anchors": ["src/serialiser.rs:Document::xml", "src/parser.rs:Document::parse_elements", "src/text.rs:Element::text_by_key", "src/text.rs:Element::get_textdelimiter"]}
{"id": "C78", "title": "Annotating does not change texts", "statement": "Adding an inline or span annotation, with all its layers, features and descriptions, to a structural element does not change the text of any element of the document, for all parameters.", "quantifier": "every document obtained through the API, every structural element and annotation, the texts of all elements", "why_tests_cant": "all documents and annotations; where a layer is placed depends on what is already there", "anchors": ["src/element.rs:Document::annotate", "src/document.rs:Document::add_element_to", "src/text.rs:Element::text_by_key", "src/text.rs:Element::get_textdelimiter"]}
{"id": "C79", "title": "Edits change only the texts that are made from the edited elements", "statement": "Adding an element below a parent changes only texts that are made from that parent, moving an element only those made from its old or its new parent, and taking an element out only those made from its parent; all other texts stay the same.", "quantifier": "every reachable document, every element that is added, moved or taken out, the texts of all elements elsewhere", "why_tests_cant": "all documents and edits, with references between parts of the document", "anchors": ["src/document.rs:Document::add_element_to", "src/document.rs:Document::attach_element", "src/document.rs:Document::detach_element", "src/text.rs:Element::text_by_key"]}
{"id": "C80", "title": "Edits change only what is written for the edited elements", "statement": "Moving an element changes only the XML of its old and new parent and of the elements above these, taking an element out only that of its parent and of the elements above it, and adding an element only that of its parent and of the elements above it; the XML of every other element, with everything below it, stays the same.", "quantifier": "every document obtained through the API or by parsing, every element that is added, moved or taken out, every element elsewhere", "why_tests_cant": "all documents and edits; what is written for an element depends on tables that are shared by the whole document", "anchors": ["src/document.rs:Document::add_element_to", "src/document.rs:Document::attach_element", "src/document.rs:Document::detach_element", "src/element.rs:Element::xml", "src/serialiser.rs:xml_elements"]}
{"id": "C81", "title": "Builder calls are independent and the last one wins", "statement": "A query, text parameters or document properties made by any sequence of builder calls have for every setting the value given last, the documented default if none was given, and all declarations that were asked for in order; text parameters made this way always name a set and a class.", "quantifier": "every sequence of builder calls of any length", "why_tests_cant": "all sequences of calls with all values, in any order and with repetitions", "anchors": ["src/query.rs:Query", "src/text.rs:TextParameters", "src/document.rs:DocumentProperties"]}
{"id": "C82", "title": "Generated processors are distinct and their documents can be used", "statement": "Two processors made with `new` have the same identifier only if their names and all random bytes agree. A document made with an autofilled processor can be written, and what is written can be read.", "quantifier": "all names, random bytes, environments and dates; all calls made on the document afterwards", "why_tests_cant": "all environments and all moments in time; a test sees one host at one moment", "anchors": ["src/metadata.rs:Processor::new", "src/metadata.rs:Processor::this_library", "src/metadata.rs:Processor::autofill", "src/parser.rs:parse_processor"]}
{"id": "C83", "title": "Equality of elements is identity", "statement": "Two elements are equal exactly if they are the same element, so that equality is an equivalence, and an element stays equal to itself when its document changes.", "quantifier": "every reachable document, all pairs and triples of its elements, all later calls", "why_tests_cant": "all documents and pairs of elements", "anchors": ["src/element.rs:PartialEq for Element"]}
{"id": "C84", "title": "Elements can be shown", "statement": "An element converted to a string is its text with the default parameters, for every element.", "quantifier": "every element of every document", "why_tests_cant": "all elements of all documents; it depends on declarations elsewhere in the document", "anchors": ["src/element.rs:Display for Element", "src/text.rs:Element::text"]}
{"id": "C85", "title": "Calls do not panic", "statement": "No mutating call panics, whatever its arguments: it succeeds or returns an error. Neither does making a document, asking for text with parameters made by the builder, selecting, going through ancestors, or writing.", "quantifier": "every reachable document, every call with any keys, elements and processors", "why_tests_cant": "all documents and all arguments, including keys that do not exist", "anchors": ["src/document.rs:Document::add_element_to", "src/document.rs:Document::annotate", "src/document.rs:Document::annotate_span", "src/text.rs:Element::text", "src/select.rs:SelectIterator::next", "src/serialiser.rs:Document::xml"]}
{"id": "C86", "title": "Parsing does not panic", "statement": "Parsing returns a document or an error for every input that the XML reader can produce, however broken: unknown tags, tags in the wrong order, tags that are not closed or closed twice, metadata and declarations of any form, a missing body, an input that ends early. It does not panic.", "quantifier": "every sequence of reader events, every document properties", "why_tests_cant": "all inputs, including malformed ones; a library that reads files of others must survive any of them", "anchors": ["src/parser.rs:Document::parse", "src/parser.rs:Document::parse_elements", "src/parser.rs:ElementData::parse", "src/parser.rs:Attribute::parse", "src/parser.rs:Processor::parse"]}
{"id": "C87", "title": "The linter prints what it read", "statement": "folialintr, given a document that the library accepts, prints a document with the same body: the same tags, texts and comments in the same order and nesting, inside the root with the metadata; the indentation does not change what a reader makes of it. For a document that is rejected it reports the error of the parser.", "quantifier": "every source", "why_tests_cant": "all documents; the output depends on every part of the library", "anchors": ["src/bin/folialintr.rs:main", "src/parser.rs:Document::parse", "src/serialiser.rs:Document::xml"]}
{"id": "C88", "title": "Selecting by type finds what is in the file", "statement": "After reading a file, selecting the elements of a type gives exactly the elements of that type in the file, each once and with its attributes; in the order of the file, except for span annotations. In particular foliabenchmarkr prints the number of words in the file.", "quantifier": "every accepted source with distinct identifiers, every element type", "why_tests_cant": "all documents and types; spans can be met several times, through references that are in different parts of the file", "anchors": ["src/bin/foliabenchmarkr.rs:test", "src/select.rs:SelectElementsIterator::next", "src/parser.rs:Document::parse_elements"]}
{"id": "C89", "title": "Lookups on an element do not panic", "statement": "Looking up elements, annotations, features or ancestors on a stored element gives a result or nothing, but never panics, whatever type, group, set, subset and recursion are asked for.", "quantifier": "every reachable document, every stored element, every type, annotation type, group, comparison with a set or subset, recursion", "why_tests_cant": "all combinations of documents, elements and arguments; every lookup unwraps the result of compiling a query, which depends on the declarations", "anchors": ["src/element.rs:Element::get_annotation", "src/element.rs:Element::get_elements", "src/element.rs:Element::get_features", "src/element.rs:Element::get_feature", "src/element.rs:Element::get_ancestors", "src/query.rs:Selector::from_query"]}
{"id": "C90", "title": "Linting a linted file changes nothing", "statement": "What folialintr prints for an accepted file is accepted by folialintr again, and then it prints the same tags with the same attributes, the same texts and the same comments in the same order, apart from white space between tags and from the two ways to write an element without content.", "quantifier": "every accepted source with distinct identifiers", "why_tests_cant": "all sources; reading adds declarations and encodes sets, classes and processors, writing leaves out those that are implied, and both must agree for every combination", "anchors": ["src/bin/folialintr.rs:main", "src/serialiser.rs:Document::xml", "src/parser.rs:Document::parse"]}
{"id": "C91", "title": "The text of a file follows from the file", "statement": "The text of a document that was read, and of an element that was added, is a function of the source: the texts of the structure elements in order, each separated from the next by its delimiter unless the source says that no space follows, where an element without such parts has the text of its last text content, markup included. If this is empty, asking for the text is an error.", "quantifier": "every accepted source with distinct identifiers without word references in text positions, every added builder of this kind, both settings of retaining tokenisation", "why_tests_cant": "all trees of structure, markup and annotation; connects parsing, encoding and text extraction", "anchors": ["src/text.rs:Document::text", "src/text.rs:Element::text_by_key", "src/text.rs:Element::get_textdelimiter", "src/parser.rs:Document::parse", "src/document.rs:Document::add_element_to"]}
{"id": "C92", "title": "Text parameters that are left out have defaults", "statement": "If the set or the text class is None, text() uses the default text set and the class current.", "quantifier": "every document and element, all text parameters", "why_tests_cant": "all documents and parameters; whether the call panics depends on which sets are declared", "anchors": ["src/text.rs:Element::text", "src/text.rs:Document::text", "src/text.rs:TextParameters"]}
{"id": "C93", "title": "Types and attributes can be shown", "statement": "Every element type, annotation type, processor type, attribute type and every attribute that holds a value rather than a key can be converted to a string. Different types are shown differently, and the string of an element type reads back as that type.", "quantifier": "all types, all attributes with all values", "why_tests_cant": "all values; a conversion that does not end crashes the test", "anchors": ["src/attrib.rs:AttribType", "src/attrib.rs:Attribute", "src/types.rs:ElementType", "src/types.rs:AnnotationType", "src/metadata.rs:ProcessorType"]}
{"id": "C94", "title": "Annotations in the file are found by set and class", "statement": "After reading a file, the query for a type, a set and optionally a class finds exactly the annotations that have this type, set and class in the file: in the order of the file, or, for span annotations, each exactly once.", "quantifier": "every accepted source with distinct identifiers in which the annotations of the type name their set, every type with an annotation type, every set and class, known to the document or not", "why_tests_cant": "all documents and queries; connects the encoding of sets and classes as keys while reading with the encoding of the query and the traversal", "anchors": ["src/select.rs:Selector::from_query", "src/select.rs:SelectElementsIterator::next", "src/parser.rs:Document::parse_elements", "src/document.rs:Document::add_element_to"]}
{"id": "C95", "title": "What is added is found by its set and class", "statement": "After add_element_to(p, b) or annotate(p, b), the query for the type, set and class of b finds the new element when selecting from p or from any element above it. Every such query still finds what it found before, and nothing that was there before and was not found.", "quantifier": "every document with consistent links, every parent and builder with new identifiers, every query for a type, a set and optionally a class, every element above the parent", "why_tests_cant": "all documents and builders; adding an element can declare sets and intern classes, which changes how the same query is compiled", "anchors": ["src/document.rs:Document::add_element_to", "src/document.rs:Document::annotate", "src/select.rs:Selector::from_query", "src/select.rs:SelectElementsIterator::next"]}
{"id": "C96", "title": "Selections follow elements that are moved or taken out", "statement": "After detach_element(c), a selection that starts outside of c finds what it found before, without c and what is below c. After attach_element(p, c), it finds the same as before outside of c, and finds c and the elements below c that it accepts exactly if it starts at p or above p. A selector made before the call can still be used.", "quantifier": "every document with consistent links, all elements c, p and starting points outside of c, every selector", "why_tests_cant": "all trees and selectors; span annotations are also met through references in other parts of the document", "anchors": ["src/document.rs:Document::attach_element", "src/document.rs:Document::detach_element", "src/select.rs:SelectElementsIterator::next", "src/select.rs:Selector::matches"]}
{"id": "C97", "title": "Ancestors follow elements that are moved or taken out", "statement": "After detach_element(c), an element outside of c has the same ancestors as before, in the same order, and an element that is c or below it has its former ancestors up to and including c only. After attach_element(p, c), elements outside of c keep their ancestors, and for c and the elements below it the former ancestors of c are replaced by p and the ancestors of p. This holds for the ancestors that any selector accepts, and a selector made before the call can still be used.", "quantifier": "every document with consistent links, all elements, every selector, every p that is not c or below c", "why_tests_cant": "all trees, moves and selectors", "anchors": ["src/document.rs:Document::attach_element", "src/document.rs:Document::detach_element", "src/select.rs:AncestorIterator::next", "src/select.rs:Document::ancestors_by_key"]}
