{
 "claims": [
  {
   "property": "C01",
   "status": "proved",
   "theorems": [
    "Folia.C01_keys_permanent",
    "Folia.C01_count",
    "Folia.C01_returned_keys"
   ],
   "note": "For every document obtained by Document::new or parsing and any calls with any arguments."
  },
  {
   "property": "C02",
   "status": "proved",
   "theorems": [
    "Folia.C02_index_sound"
   ],
   "note": "For every reachable document and every string."
  },
  {
   "property": "C03",
   "status": "proved",
   "theorems": [
    "Folia.C03_add_fresh",
    "Folia.C03_add_known"
   ],
   "note": "For any item type and capacity; the document's three stores are instances."
  },
  {
   "property": "C04",
   "status": "proved",
   "theorems": [
    "Folia.C04_exhausted",
    "Folia.C04_keys_valid",
    "Folia.C04_no_sharing"
   ],
   "note": "Over arbitrary sequences of additions, generic in the item type."
  },
  {
   "property": "C05",
   "status": "proved",
   "theorems": [
    "Folia.C05_interning",
    "Folia.C05_keys_faithful"
   ],
   "note": "Over arbitrary sequences of additions; the store is refined to the list of distinct strings in order of first occurrence."
  },
  {
   "property": "C06",
   "status": "proved",
   "theorems": [
    "Folia.C06_index_id_injective",
    "Folia.C06_unique"
   ],
   "note": "Injectivity of the index identifier; uniqueness over all reachable documents with any arguments."
  },
  {
   "property": "C07",
   "status": "proved",
   "theorems": [
    "Folia.C07_declare_returns",
    "Folia.C07_declare_idempotent"
   ],
   "note": "For every reachable document."
  },
  {
   "property": "C08",
   "status": "proved",
   "theorems": [
    "Folia.C08_default_key",
    "Folia.C08_default_mask"
   ],
   "note": "At every document size."
  },
  {
   "property": "C09",
   "status": "proved",
   "theorems": [
    "Folia.C09_reads_back",
    "Folia.C09_annotate_reads_back",
    "Folia.C09_default_set"
   ],
   "note": "For builders with new identifiers, at any depth, through add_element_to and annotate. A class is dropped only if the class store of the declaration is full (2^32 classes), which the statement says."
  },
  {
   "property": "C10",
   "status": "partial",
   "theorems": [
    "Folia.C10_known_values_stable",
    "Folia.C10_values_unchanged_partial",
    "Folia.C10_layer_counterexample",
    "Folia.C10_feature_counterexample"
   ],
   "note": "Reported values never change. Absent values can appear in two situations, each shown by a counterexample: a layer without set, and a feature without subset. The partial theorem covers all other elements."
  },
  {
   "property": "C11",
   "status": "proved",
   "theorems": [
    "Folia.C11_accessors_return"
   ],
   "note": "For every reachable document and all accessors."
  },
  {
   "property": "C12",
   "status": "partial",
   "theorems": [
    "Folia.C12_references_resolve_partial",
    "Folia.C12_feature_counterexample",
    "Folia.C12_data_resolve",
    "Folia.C12_serialisable"
   ],
   "note": "All references resolve except the class of a feature without subset (counterexample). References to spans refer to span annotation elements."
  },
  {
   "property": "C13",
   "status": "partial",
   "theorems": [
    "Folia.C13_feature_reads_back",
    "Folia.C13_get_features",
    "Folia.C13_found_partial",
    "Folia.C13_two_sets_counterexample"
   ],
   "note": "A feature reads back its subset and class. get_features returns exactly the features of the subset that share the declaration of the annotation. A feature that names the set, or whose annotation type has one declaration, is found; with several declarations a feature without a set is not (counterexample)."
  },
  {
   "property": "C14",
   "status": "partial",
   "theorems": [
    "Folia.C14_links_agree_partial",
    "Folia.C14_failed_call_counterexample",
    "Folia.C14_add_element_counterexample",
    "Folia.C14_known_id_counterexample"
   ],
   "note": "Proved for histories in which no call goes wrong half way. Three counterexamples for the others: a call that fails half way, a known identifier, add_element on a builder with children."
  },
  {
   "property": "C15",
   "status": "proved",
   "theorems": [
    "Folia.C15_attach_moves",
    "Folia.C15_attach_unknown"
   ],
   "note": "For every document with consistent links (see C14)."
  },
  {
   "property": "C16",
   "status": "proved",
   "theorems": [
    "Folia.C16_detach_orphans",
    "Folia.C16_detach_unknown"
   ],
   "note": "For every document with consistent links (see C14)."
  },
  {
   "property": "C17",
   "status": "partial",
   "theorems": [
    "Folia.C17_forest_partial",
    "Folia.C17_attach_counterexample",
    "Folia.C17_known_id_counterexample"
   ],
   "note": "Holds if nothing is attached below itself. attach_element does not check this: counterexamples."
  },
  {
   "property": "C18",
   "status": "proved",
   "theorems": [
    "Folia.C18_builder_tree",
    "Folia.C18_annotate_tree"
   ],
   "note": "For existing parents and new identifiers, any depth, through add_element_to and annotate."
  },
  {
   "property": "C19",
   "status": "proved",
   "theorems": [
    "Folia.C19_unknown_parent",
    "Folia.C19_rejected",
    "Folia.C19_accepted"
   ],
   "note": "For every document and element."
  },
  {
   "property": "C20",
   "status": "partial",
   "theorems": [
    "Folia.C20_layer_partial",
    "Folia.C20_same_layer_partial",
    "Folia.C20_word_counterexample"
   ],
   "note": "Holds when annotating from the element that holds the layers. Annotating from a word, or with annotate_span, always makes a new layer (counterexample)."
  },
  {
   "property": "C21",
   "status": "proved",
   "theorems": [
    "Folia.C21_back_references",
    "Folia.C21_annotate_back_references",
    "Folia.C21_annotate_span_back_references",
    "Folia.C21_unknown_reference"
   ],
   "note": "Exact number of references per element, for the direct word references of a span, through add_element_to, annotate and annotate_span."
  },
  {
   "property": "C22",
   "status": "partial",
   "theorems": [
    "Folia.C22_failure_unchanged_partial",
    "Folia.C22_unknown_parent_counterexample",
    "Folia.C22_annotate_counterexample"
   ],
   "note": "False in general: two counterexamples. Holds for attach_element, detach_element and failed validation."
  },
  {
   "property": "C23",
   "status": "proved",
   "theorems": [
    "Folia.C23_preorder",
    "Folia.C23_complete",
    "Folia.C23_inclusive",
    "Folia.C23_unmatchable",
    "Folia.C23_matchable_iff"
   ],
   "note": "For every document without cycles reached by any history of successful calls, every start element and selector. The selectors that name something unknown select nothing."
  },
  {
   "property": "C24",
   "status": "proved",
   "theorems": [
    "Folia.C24_recursion_limits",
    "Folia.C24_no_recursion"
   ],
   "note": "As C23, for every recursion mode."
  },
  {
   "property": "C25",
   "status": "proved",
   "theorems": [
    "Folia.C25_spans_once",
    "Folia.C25_bookkeeping"
   ],
   "note": "As C23 for element selection; the bookkeeping for every sequence of keys in any order."
  },
  {
   "property": "C26",
   "status": "partial",
   "theorems": [
    "Folia.C26_terminates",
    "Folia.C26_fused_partial",
    "Folia.C26_not_fused_counterexample",
    "Folia.C26_cycle_counterexample"
   ],
   "note": "Termination without panic on every document without cycles. An iterator over an unmatchable selector returns items after its first None (counterexample), all others stay at their end. With a cycle, which attach_element can make, selection never ends (counterexample)."
  },
  {
   "property": "C27",
   "status": "partial",
   "theorems": [
    "Folia.C27_reports",
    "Folia.C27_meaning",
    "Folia.C27_query_partial",
    "Folia.C27_subset_query",
    "Folia.C27_class_counterexample",
    "Folia.C27_some_set_counterexample",
    "Folia.C27_no_set_counterexample"
   ],
   "note": "The exact meaning of every query over set, class, processor and type, and of every query over subset. The expected reading fails for a class without a set, for 'some set' and for 'no set' (counterexamples)."
  },
  {
   "property": "C28",
   "status": "partial",
   "theorems": [
    "Folia.C28_union_partial",
    "Folia.C28_selection_partial",
    "Folia.C28_chain_counterexample",
    "Folia.C28_unmatchable_counterexample"
   ],
   "note": "Union works for every operand b and an operand a that was not combined before and names nothing unknown. Two counterexamples: chaining and() drops an operand, and an unmatchable first operand suppresses the whole union."
  },
  {
   "property": "C29",
   "status": "partial",
   "theorems": [
    "Folia.C29_ignored",
    "Folia.C29_annotator_counterexample",
    "Folia.C29_selector_partial",
    "Folia.C29_confidence_ignored"
   ],
   "note": "False: annotator, annotator type and confidence are ignored (counterexample, and a theorem that they never matter). All other parts count, see C27."
  },
  {
   "property": "C30",
   "status": "proved",
   "theorems": [
    "Folia.C30_ancestors"
   ],
   "note": "For every document without cycles reached by any history of successful calls, every element and selector."
  },
  {
   "property": "C31",
   "status": "partial",
   "theorems": [
    "Folia.C31_common_partial",
    "Folia.C31_reset_counterexample"
   ],
   "note": "Exact if a common accepted ancestor exists. Otherwise the empty intermediate result restarts the search (counterexample)."
  },
  {
   "property": "C32",
   "status": "partial",
   "theorems": [
    "Folia.C32_parameters_ignored",
    "Folia.C32_declared_partial",
    "Folia.C32_same_text",
    "Folia.C32_class_counterexample"
   ],
   "note": "False: set, class and strictness have no influence on the text (theorem for all documents, and a counterexample with two classes). What holds is that the set must be declared and the class known."
  },
  {
   "property": "C33",
   "status": "proved",
   "theorems": [
    "Folia.C33_concatenation",
    "Folia.C33_parts",
    "Folia.C33_delimiter",
    "Folia.C33_text"
   ],
   "note": "An exact equivalence, for every document and every element that is not a text container. The delimiter of every element is characterised as well."
  },
  {
   "property": "C34",
   "status": "proved",
   "theorems": [
    "Folia.C34_fallback",
    "Folia.C34_content_unused",
    "Folia.C34_never_empty",
    "Folia.C34_no_text"
   ],
   "note": "For every document and element. If there are several text contents, the last one is the fallback."
  },
  {
   "property": "C35",
   "status": "partial",
   "theorems": [
    "Folia.C35_error",
    "Folia.C35_no_contribution",
    "Folia.C35_container_partial",
    "Folia.C35_container_counterexample"
   ],
   "note": "Asking is an error for every such element, and a parent that is not a text container has the text it would have without the child. A text container with a hidden word in it has no text at all (counterexample)."
  },
  {
   "property": "C36",
   "status": "proved",
   "theorems": [
    "Folia.C36_returns",
    "Folia.C36_exact",
    "Folia.C36_element_nested",
    "Folia.C36_document",
    "Folia.C36_document_nested"
   ],
   "note": "An exact equality with the recursive serialisation, for every document without cycles reached by any history of successful calls and every attached element. Whole documents are well nested including their metadata. Detached elements are C56."
  },
  {
   "property": "C37",
   "status": "partial",
   "theorems": [
    "Folia.C37_written",
    "Folia.C37_unique_names_partial",
    "Folia.C37_duplicates_counterexample"
   ],
   "note": "Which attributes are written is characterised exactly. No name is written twice unless the element was built with two attributes of one type, which the builder permits (counterexample, the output does not parse)."
  },
  {
   "property": "C38",
   "status": "partial",
   "theorems": [
    "Folia.C38_unescape_escape",
    "Folia.C38_escape_injective",
    "Folia.C38_no_markup",
    "Folia.C38_comment_text_counterexample",
    "Folia.C38_comment_partial"
   ],
   "note": "Holds for text and attribute values (lossless, injective, no markup). False for comments, which are escaped on write but not unescaped on read: counterexample; C38_comment_partial covers comments without special characters."
  },
  {
   "property": "C39",
   "status": "proved",
   "theorems": [
    "Folia.C39_print_parse",
    "Folia.C39_printable_iff",
    "Folia.C39_print_injective",
    "Folia.C39_subsecond_counterexample"
   ],
   "note": "For whole-second (or leap second) date-times and, for confidence, under the hypothesis that f64 parsing inverts f64 printing. Sub-second date-times are a counterexample."
  },
  {
   "property": "C40",
   "status": "proved",
   "theorems": [
    "Folia.C40_tag_bijection",
    "Folia.C40_tag_injective"
   ],
   "note": "All element types, exhaustively."
  },
  {
   "property": "C41",
   "status": "proved",
   "theorems": [
    "Folia.C41_declaration_tag",
    "Folia.C41_written_tag_is_parsed",
    "Folia.C41_tags_distinct"
   ],
   "note": "All annotation types and all strings."
  },
  {
   "property": "C42",
   "status": "proved",
   "theorems": [
    "Folia.C42_tree"
   ],
   "note": "For every source tree with distinct identifiers that the parser accepts: types, attributes, texts, comments, nesting and order, number of elements, parent links and absence of cycles. Elements of other namespaces are transparent."
  },
  {
   "property": "C43",
   "status": "partial",
   "theorems": [
    "Folia.C43_truncated_accepted",
    "Folia.C43_counterexample",
    "Folia.C43_before_body_partial"
   ],
   "note": "False: every truncation of an accepted document after the start tag of the body is accepted (theorem), and the open elements are dropped (counterexample). Truncation before the body is rejected."
  },
  {
   "property": "C44",
   "status": "proved",
   "theorems": [
    "Folia.C44_own_check",
    "Folia.C44_reader_error",
    "Folia.C44_mismatch",
    "Folia.C44_body_end_counterexample"
   ],
   "note": "With the reader's check of end tags, for every stream of events. The parser's own check covers every element below the body; the end tag of the body is left to the reader (counterexample without it)."
  },
  {
   "property": "C45",
   "status": "partial",
   "theorems": [
    "Folia.C45_tree_partial",
    "Folia.C45_credit_partial",
    "Folia.C45_set_counterexample",
    "Folia.C45_empty_counterexample",
    "Folia.C45_text_counterexample",
    "Folia.C45_comment_counterexample",
    "Folia.C45_layer_counterexample"
   ],
   "note": "Proved for every consistent, legible document whose output is accepted: the same tree with the same types, identifiers, classes, subsets, other attributes, texts and comments; and with the same sets and processors if every declaration has processors in the provenance chain and every declared element is credited. Counterexamples: the set of annotations under a declaration without processors; an empty body; text at the start of a structural element; a comment that needs escaping; the identifier of a layer."
  },
  {
   "property": "C46",
   "status": "partial",
   "theorems": [
    "Folia.C46_credited_partial",
    "Folia.C46_counterexample"
   ],
   "note": "Declarations with processors come back first, in order, with type, set, alias, format and processors, for every consistent document whose output is accepted. A declaration without processors is lost, and with it the set of its annotations (counterexample)."
  },
  {
   "property": "C47",
   "status": "partial",
   "theorems": [
    "Folia.C47_provenance_partial",
    "Folia.C47_dated",
    "Folia.C47_counterexample"
   ],
   "note": "For every consistent document whose output is accepted: the same trees with the same fields. A date anywhere in the provenance makes the output unreadable, for every such document (C47_dated, and a counterexample)."
  },
  {
   "property": "C48",
   "status": "partial",
   "theorems": [
    "Folia.C48_simple_partial",
    "Folia.C48_empty_counterexample",
    "Folia.C48_submetadata_counterexample"
   ],
   "note": "Holds for non-empty values and without submetadata. Counterexamples: a key with an empty value is lost; submetadata ends up in the metadata and replaces values there."
  },
  {
   "property": "C49",
   "status": "proved",
   "theorems": [
    "Folia.C49_none",
    "Folia.C49_add_processor",
    "Folia.C49_add_subprocessor"
   ],
   "note": "For every processor tree with new identifiers and room in the store. Identifiers that exist already are covered by the counterexamples of C03."
  },
  {
   "property": "C50",
   "status": "partial",
   "theorems": [
    "Folia.C50_attach_partial",
    "Folia.C50_attach_unknown",
    "Folia.C50_old_parent_counterexample",
    "Folia.C50_cycle_counterexample",
    "Folia.C50_written"
   ],
   "note": "Attaching an orphan that is not above the new parent keeps the forest, and a forest is written in finite time. Counterexamples: the old parent keeps listing the processor; a processor attached to itself is written forever."
  },
  {
   "property": "C51",
   "status": "partial",
   "theorems": [
    "Folia.C51_credited_partial",
    "Folia.C51_other_counterexample",
    "Folia.C51_bare_counterexample"
   ],
   "note": "Exact description of who is credited for a builder without pending children. Counterexamples: a declaration with exactly one other processor; an annotation without set, class and processor."
  },
  {
   "property": "C52",
   "status": "partial",
   "theorems": [
    "Folia.C52_attributes_kept_partial",
    "Folia.C52_counterexample"
   ],
   "note": "Everything but layers without a set keeps its attributes; such a layer loses them (counterexample)."
  },
  {
   "property": "C53",
   "status": "partial",
   "theorems": [
    "Folia.C53_annotationtype_tables_agree",
    "Folia.C53_tag_tables_agree_partial",
    "Folia.C53_tagless_types",
    "Folia.C53_tag_tables_counterexample",
    "Folia.C53_main_element",
    "Folia.C53_span_layer",
    "Folia.C53_layer_type"
   ],
   "note": "Tag agreement fails for types that the property table leaves without tag (exactly the fixed-subset features); counterexample and partial statement. The other parts are proved."
  },
  {
   "property": "C54",
   "status": "partial",
   "theorems": [
    "Folia.C54_span_partial",
    "Folia.C54_roles_counterexample"
   ],
   "note": "For every span annotation whose word references are its direct children. References inside span roles, as in dependencies, are not followed (counterexample)."
  },
  {
   "property": "C55",
   "status": "proved",
   "theorems": [
    "Folia.C55_set_attrib",
    "Folia.C55_last_write_wins",
    "Folia.C55_duplicates_counterexample"
   ],
   "note": "For every attribute list with distinct types and every sequence of updates; a counterexample shows that distinctness is needed after bulk assignment."
  },
  {
   "property": "C56",
   "status": "partial",
   "theorems": [
    "Folia.C56_attached_partial",
    "Folia.C56_detached_counterexample"
   ],
   "note": "Holds for attached elements. A detached element is written with the tag of the body (counterexample)."
  },
  {
   "property": "C57",
   "status": "partial",
   "theorems": [
    "Folia.C57_declared_partial",
    "Folia.C57_off_counterexample",
    "Folia.C57_on_counterexample"
   ],
   "note": "What is added with a set, class or processor is declared. Counterexamples: the flag is never consulted; bare annotations are not declared."
  },
  {
   "property": "C58",
   "status": "partial",
   "theorems": [
    "Folia.C58_literal_partial",
    "Folia.C58_counterexample"
   ],
   "note": "False: blank text is dropped, also between two pieces of inline markup (counterexample). Text that is not blank is taken over literally, for every element at any depth."
  },
  {
   "property": "C59",
   "status": "partial",
   "theorems": [
    "Folia.C59_returns_partial",
    "Folia.C59_loop_counterexample"
   ],
   "note": "Holds if no element is reachable from itself along children and word references. A span with a word reference to itself makes text() recurse without end (counterexample)."
  },
  {
   "property": "C60",
   "status": "partial",
   "theorems": [
    "Folia.C60_new_counterexample",
    "Folia.C60_versions_ignored"
   ],
   "note": "False: the versions inside a correction (original, current, new, suggestion) are no part of its text, so corrected words are missing from the text of the sentence (theorem for all corrections, and a counterexample)."
  },
  {
   "property": "C61",
   "status": "proved",
   "theorems": [
    "Folia.C61_inline",
    "Folia.C61_plain"
   ],
   "note": "An exact equivalence for every document and every text container."
  },
  {
   "property": "C62",
   "status": "proved",
   "theorems": [
    "Folia.C62_found",
    "Folia.C62_distinct",
    "Folia.C62_named"
   ],
   "note": "For every reachable document. The converse holds for all elements but layers whose attributes were replaced: these stay in the index under their former identifier (C45_layer_counterexample)."
  },
  {
   "property": "C63",
   "status": "proved",
   "theorems": [
    "Folia.C63_declared"
   ],
   "note": "For every document reachable with clean arguments (no raw keys in builders)."
  },
  {
   "property": "C64",
   "status": "partial",
   "theorems": [
    "Folia.C64_stable_partial",
    "Folia.C64_counterexample"
   ],
   "note": "Proved for consistent, legible documents without dates, submetadata and empty metadata values, in which every declaration has processors in the provenance chain and every declared element has a processor or a declaration with just one. Counterexample: a declaration without processors."
  },
  {
   "property": "C65",
   "status": "proved",
   "theorems": [
    "Folia.C65_same_document",
    "Folia.C65_markup",
    "Folia.C65_text_counterexample"
   ],
   "note": "For every document and indentation. Other readers see a difference: indentation adds white space inside text content with markup (C65_text_counterexample)."
  },
  {
   "property": "C66",
   "status": "partial",
   "theorems": [
    "Folia.C66_elements_partial",
    "Folia.C66_annotations_partial"
   ],
   "note": "For every type, with or without a set. Missing: a set of a type without annotation type is never found, and the comparisons Some and None with the set are covered by the counterexamples of C27."
  },
  {
   "property": "C67",
   "status": "partial",
   "theorems": [
    "Folia.C67_ancestors_partial",
    "Folia.C67_group_partial",
    "Folia.C67_group_counterexample"
   ],
   "note": "By type, with or without a set, and by group without a set. By group with a set nothing is ever found (counterexample)."
  },
  {
   "property": "C68",
   "status": "proved",
   "theorems": [
    "Folia.C68_position"
   ],
   "note": "For every element of a reachable document with agreeing links."
  },
  {
   "property": "C69",
   "status": "partial",
   "theorems": [
    "Folia.C69_resolve_partial"
   ],
   "note": "Exact but for layers that lost their attributes (C52): they are still found under an identifier they no longer report."
  },
  {
   "property": "C70",
   "status": "partial",
   "theorems": [
    "Folia.C70_written",
    "Folia.C70_accepted_partial",
    "Folia.C70_round_partial",
    "Folia.C70_ahead_counterexample"
   ],
   "note": "Writing succeeds for every consistent document. Reading succeeds if the body is a text or speech with contents, legible and printable, processors have no dates, references to words come after the words, features are below typed elements, and there is room for declarations. Counterexample: a span over a later word is written and rejected."
  },
  {
   "property": "C71",
   "status": "partial",
   "theorems": [
    "Folia.C71_accepted",
    "Folia.C71_malformed",
    "Folia.C71_unknown_tag",
    "Folia.C71_unknown_attribute",
    "Folia.C71_repeated_counterexample"
   ],
   "note": "Sources with a readable head, known tags and attributes, distinct identifiers, references to words after the words and features below typed elements are accepted; sources with an unknown tag or attribute or a malformed value in the body are rejected. Counterexample to rejecting every invalid source: a repeated xml:id is accepted, and the second element is lost."
  },
  {
   "property": "C72",
   "status": "proved",
   "theorems": [
    "Folia.C72_new"
   ],
   "note": "For processors with distinct identifiers and up to 65536 processors and declarations, the capacity of the stores."
  },
  {
   "property": "C73",
   "status": "partial",
   "theorems": [
    "Folia.C73_forest_partial",
    "Folia.C73_written_partial",
    "Folia.C73_self_counterexample",
    "Folia.C73_repeated_counterexample",
    "Folia.C73_future_counterexample",
    "Folia.C73_existing_counterexample"
   ],
   "note": "For every history in which processors are added with new identifiers below existing processors, sources have distinct identifiers for processors, and only processors without a place are attached. Counterexamples: a source in which a processor contains one with the same identifier gives a cycle, and writing never ends; adding a known identifier repeats it in the chain; adding below a key that does not exist yet gives a cycle; with_existing_subprocessor does not set the parent, and the subprocessor is written twice."
  },
  {
   "property": "C74",
   "status": "partial",
   "theorems": [
    "Folia.C74_head_partial",
    "Folia.C74_stale_counterexample",
    "Folia.C74_empty_counterexample",
    "Folia.C74_submetadata_counterexample"
   ],
   "note": "For heads with the declarations, the processors and the values in this order, as the writer puts them, with distinct processor identifiers and distinct types and sets. Counterexamples: a value without a key overwrites the one before, a declaration that is an empty tag is ignored, and values in submetadata are dropped."
  },
  {
   "property": "C75",
   "status": "proved",
   "theorems": [
    "Folia.C75_declaration",
    "Folia.C75_processor",
    "Folia.C75_keys",
    "Folia.C75_renamed_counterexample"
   ],
   "note": "For all histories of calls. Writing through get_mut_processor or get_mut_declaration is not one of these calls: it leaves the index stale (counterexample)."
  },
  {
   "property": "C76",
   "status": "proved",
   "theorems": [
    "Folia.of.C76_characters",
    "Folia.of.C76_parsed",
    "Folia.of.C76_unambiguous",
    "Folia.of.C76_newline_counterexample",
    "Folia.of.C76_fragment_counterexample",
    "Folia.of.C76_hyphens_counterexample"
   ],
   "note": "For the reader of folia-rust (quick-xml), modelled at the level of characters. Findings for other readers: white space in attributes and two hyphens in comments are written literally, and an element written on its own has no namespace."
  },
  {
   "property": "C77",
   "status": "partial",
   "theorems": [
    "Folia.C77_text_partial",
    "Folia.C77_body_partial",
    "Folia.C77_params_partial",
    "Folia.C77_blank_counterexample"
   ],
   "note": "False in general: white space between two elements inside of a text content is lost, and with it the separation of words (counterexample). Proved for bodies that C45 covers and whose word references refer to elements of the body."
  },
  {
   "property": "C78",
   "status": "partial",
   "theorems": [
    "Folia.C78_added_partial",
    "Folia.C78_annotate_partial",
    "Folia.C78_delimiter_counterexample",
    "Folia.C78_awaited_counterexample"
   ],
   "note": "False in general: an element added to a correction changes what separates the words (counterexample). Proved for annotations of structural elements, provided that no delimiter is taken from a layer and no word reference already waits for a new identifier. The last condition is needed (counterexample)."
  },
  {
   "property": "C79",
   "status": "partial",
   "theorems": [
    "Folia.C79_add_partial",
    "Folia.C79_attach",
    "Folia.C79_detach",
    "Folia.C79_awaited_counterexample"
   ],
   "note": "Moving and taking out are proved in full. Adding is proved if no word reference already refers to an identifier of the new elements. Without this it is false (counterexample)."
  },
  {
   "property": "C80",
   "status": "partial",
   "theorems": [
    "Folia.C80_attach",
    "Folia.C80_detach",
    "Folia.C80_add_partial",
    "Folia.C80_set_counterexample"
   ],
   "note": "Moving and taking out are proved in full. For adding the claim is false: a new set or processor changes which sets and processors are written elsewhere (counterexample). Proved if the declarations and their processors stay as they are, up to line feeds and the two ways to write an element without content."
  },
  {
   "property": "C81",
   "status": "proved",
   "theorems": [
    "Folia.C81_query",
    "Folia.C81_text",
    "Folia.C81_text_safe",
    "Folia.C81_properties"
   ],
   "note": ""
  },
  {
   "property": "C82",
   "status": "partial",
   "theorems": [
    "Folia.C82_ids",
    "Folia.C82_dated",
    "Folia.C82_autofill",
    "Folia.C82_never_read"
   ],
   "note": "The last part is false, always: autofill sets a date, and dated processors are written but cannot be read. Proved: identifiers are distinct, the document can be written, and it can never be read, whatever is done with it afterwards."
  },
  {
   "property": "C83",
   "status": "partial",
   "theorems": [
    "Folia.C83_equal",
    "Folia.C83_equivalence",
    "Folia.C83_stable",
    "Folia.C83_unstored",
    "Folia.C83_documents_counterexample"
   ],
   "note": "Proved for the elements of one document. False across documents: only keys are compared (counterexample)."
  },
  {
   "property": "C84",
   "status": "partial",
   "theorems": [
    "Folia.C84_string_partial",
    "Folia.C84_panics",
    "Folia.C84_counterexample"
   ],
   "note": "False for elements without text, and for all elements of a document that does not declare the default text set: the conversion panics (counterexample). Proved where there is such a text, and that nothing else is returned."
  },
  {
   "property": "C85",
   "status": "partial",
   "theorems": [
    "Folia.C85_calls_partial",
    "Folia.C85_new",
    "Folia.C85_text",
    "Folia.C85_select",
    "Folia.C85_xml",
    "Folia.C85_feature_counterexample",
    "Folia.C85_raw_counterexample"
   ],
   "note": "False for a feature added to an element without annotation type, such as the body, although such elements accept features: the call panics (counterexample). Also false for attributes that hold raw keys next to attributes that do not (counterexample). Proved for all other calls, for making documents, and for text, selection, ancestors and writing. Writing is proved for a body that its parent, if it has one, lists."
  },
  {
   "property": "C86",
   "status": "partial",
   "theorems": [
    "Folia.C86_parse_partial",
    "Folia.C86_malformed_counterexample",
    "Folia.C86_escape_counterexample",
    "Folia.C86_feature_counterexample",
    "Folia.C86_twice_counterexample"
   ],
   "note": "False for malformed attributes, for attributes of the root or of processors with malformed references, for a feature directly below an element without annotation type, and for identifiers used twice: the parser panics (counterexamples). Proved for all inputs without these four defects, with any other defects."
  },
  {
   "property": "C87",
   "status": "partial",
   "theorems": [
    "Folia.C87_lint_partial",
    "Folia.C87_rejected",
    "Folia.C87_twice_counterexample"
   ],
   "note": "False for sources that use an identifier twice: such a source can be accepted although the document cannot be written, so that the linter does not end (counterexample). Proved for all accepted sources with distinct identifiers of elements and of processors. The attributes are those of C36 for the elements of C42."
  },
  {
   "property": "C88",
   "status": "proved",
   "theorems": [
    "Folia.C88_read_select",
    "Folia.C88_read_select_spans",
    "Folia.C88_words"
   ],
   "note": "For every accepted source tree with distinct identifiers."
  },
  {
   "property": "C89",
   "status": "partial",
   "theorems": [
    "Folia.C89_lookups",
    "Folia.C89_features_partial",
    "Folia.C89_declared",
    "Folia.C89_counterexample"
   ],
   "note": "False for features: asking for a named subset panics exactly if there is no declaration for the type and set of the element (proved as an equivalence; counterexample on the body and on an undeclared sentence). All other lookups are proved never to panic."
  },
  {
   "property": "C90",
   "status": "partial",
   "theorems": [
    "Folia.C90_twice_partial",
    "Folia.C90_empty_counterexample"
   ],
   "note": "False for a source with an empty body, whose output is rejected (counterexample). Proved for sources whose document meets the conditions of C70_accepted_partial and C64_stable_partial: no dates in the provenance, declarations with processors, references after the words, legible texts and comments, simple metadata."
  },
  {
   "property": "C91",
   "status": "partial",
   "theorems": [
    "Folia.C91_text_partial",
    "Folia.C91_added_partial"
   ],
   "note": "Proved for sources and builders without word references in text positions and with only markup inside of text contents. The function utter reads the source only. Missing: word references, whose text depends on what their identifiers refer to."
  },
  {
   "property": "C92",
   "status": "partial",
   "theorems": [
    "Folia.C92_class_panics",
    "Folia.C92_set_panics",
    "Folia.C92_only",
    "Folia.C92_counterexample"
   ],
   "note": "False: the documentation of Element::text says that None falls back to the default, but the call panics. Proved for every document that declares the set (class left out) and for every document that does not declare text without a set (set left out), and that text() panics in no other case."
  },
  {
   "property": "C93",
   "status": "partial",
   "theorems": [
    "Folia.C93_attributes",
    "Folia.C93_values",
    "Folia.C93_types",
    "Folia.C93_attribtype_diverges",
    "Folia.C93_counterexample"
   ],
   "note": "False for attribute types, all of them: their Display implementation calls itself and never ends (theorem for every attribute type). Proved for everything else, and that showing an attribute that holds a key panics."
  },
  {
   "property": "C94",
   "status": "partial",
   "theorems": [
    "Folia.C94_found_partial",
    "Folia.C94_found_spans_partial"
   ],
   "note": "Missing: annotations that leave out their set and take the default set of their type, and documents with a full vocabulary of 2^32 classes."
  },
  {
   "property": "C95",
   "status": "partial",
   "theorems": [
    "Folia.C95_added_partial",
    "Folia.C95_annotated_partial"
   ],
   "note": "Missing: documents with a full vocabulary of 2^32 classes; for span annotations and layers, that no old element is found additionally; annotate with span annotations."
  },
  {
   "property": "C96",
   "status": "partial",
   "theorems": [
    "Folia.C96_detach_partial",
    "Folia.C96_attach_partial",
    "Folia.C96_span_counterexample"
   ],
   "note": "False for span annotations: one that was taken out is still found through the references of its words (counterexample). Proved for everything else."
  },
  {
   "property": "C97",
   "status": "proved",
   "theorems": [
    "Folia.C97_detach",
    "Folia.C97_attach"
   ],
   "note": "For documents with consistent links (C14, C17)."
  }
 ]
}
