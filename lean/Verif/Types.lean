/-! Generated by tools/gen_tables.py from `/repo/src/types.rs`; do not edit by hand.
Enumerations of `types.rs` and every table that the file defines on them.
Constructor names are the Rust names with a lower-case first letter
(`Example` is `exampleElt` and the group `Structure` is `structural`, because `example` and `structure` are Lean keywords). -/
namespace Folia

/-- The type of a FoLiA element (src/types.rs:30). -/
inductive ElementType where
  | actorFeature
  | alternative
  | alternativeLayers
  | begindatetimeFeature
  | caption
  | cell
  | chunk
  | chunkingLayer
  | comment
  | content
  | coreferenceChain
  | coreferenceLayer
  | coreferenceLink
  | correction
  | cue
  | current
  | definition
  | dependenciesLayer
  | dependency
  | dependencyDependent
  | description
  | division
  | domainAnnotation
  | enddatetimeFeature
  | entitiesLayer
  | entity
  | entry
  | errorDetection
  | event
  | exampleElt
  | external
  | feature
  | figure
  | fontFeature
  | foreignData
  | functionFeature
  | gap
  | head
  | headFeature
  | headspan
  | hiddenword
  | hyphbreak
  | label
  | langAnnotation
  | lemmaAnnotation
  | levelFeature
  | linebreak
  | linkReference
  | list
  | listItem
  | metric
  | modalitiesLayer
  | modality
  | modalityFeature
  | morpheme
  | morphologyLayer
  | new
  | note
  | observation
  | observationLayer
  | original
  | paragraph
  | part
  | phonContent
  | phoneme
  | phonologyLayer
  | polarityFeature
  | posAnnotation
  | predicate
  | quote
  | reference
  | relation
  | row
  | scope
  | semanticRole
  | semanticRolesLayer
  | senseAnnotation
  | sentence
  | sentiment
  | sentimentLayer
  | sizeFeature
  | source
  | spanRelation
  | spanRelationLayer
  | speech
  | statement
  | statementLayer
  | statementRelation
  | strengthFeature
  | string
  | styleFeature
  | subjectivityAnnotation
  | suggestion
  | synsetFeature
  | syntacticUnit
  | syntaxLayer
  | table
  | tableHead
  | target
  | term
  | text
  | textContent
  | textMarkupCorrection
  | textMarkupError
  | textMarkupGap
  | textMarkupHSpace
  | textMarkupLanguage
  | textMarkupReference
  | textMarkupString
  | textMarkupStyle
  | textMarkupWhitespace
  | timeFeature
  | timeSegment
  | timingLayer
  | utterance
  | valueFeature
  | whitespace
  | word
  | wordReference
  deriving DecidableEq, Repr, Inhabited

/-- All values of `ElementType`, in declaration order (src/types.rs:30, derived `EnumIter`). -/
def ElementType.all : List ElementType :=
  [.actorFeature, .alternative, .alternativeLayers, .begindatetimeFeature, .caption,
   .cell, .chunk, .chunkingLayer, .comment, .content,
   .coreferenceChain, .coreferenceLayer, .coreferenceLink, .correction, .cue,
   .current, .definition, .dependenciesLayer, .dependency, .dependencyDependent,
   .description, .division, .domainAnnotation, .enddatetimeFeature, .entitiesLayer,
   .entity, .entry, .errorDetection, .event, .exampleElt,
   .external, .feature, .figure, .fontFeature, .foreignData,
   .functionFeature, .gap, .head, .headFeature, .headspan,
   .hiddenword, .hyphbreak, .label, .langAnnotation, .lemmaAnnotation,
   .levelFeature, .linebreak, .linkReference, .list, .listItem,
   .metric, .modalitiesLayer, .modality, .modalityFeature, .morpheme,
   .morphologyLayer, .new, .note, .observation, .observationLayer,
   .original, .paragraph, .part, .phonContent, .phoneme,
   .phonologyLayer, .polarityFeature, .posAnnotation, .predicate, .quote,
   .reference, .relation, .row, .scope, .semanticRole,
   .semanticRolesLayer, .senseAnnotation, .sentence, .sentiment, .sentimentLayer,
   .sizeFeature, .source, .spanRelation, .spanRelationLayer, .speech,
   .statement, .statementLayer, .statementRelation, .strengthFeature, .string,
   .styleFeature, .subjectivityAnnotation, .suggestion, .synsetFeature, .syntacticUnit,
   .syntaxLayer, .table, .tableHead, .target, .term,
   .text, .textContent, .textMarkupCorrection, .textMarkupError, .textMarkupGap,
   .textMarkupHSpace, .textMarkupLanguage, .textMarkupReference, .textMarkupString, .textMarkupStyle,
   .textMarkupWhitespace, .timeFeature, .timeSegment, .timingLayer, .utterance,
   .valueFeature, .whitespace, .word, .wordReference]

/-- Groups of element types (src/types.rs:35). -/
inductive ElementGroup where
  | layer
  | content
  | correctionChild
  | higherOrder
  | inline
  | span
  | spanRole
  | structural
  | subtoken
  | textMarkup
  | feature
  deriving DecidableEq, Repr, Inhabited

/-- All values of `ElementGroup`, in declaration order (src/types.rs:35, derived `EnumIter`). -/
def ElementGroup.all : List ElementGroup :=
  [.layer, .content, .correctionChild, .higherOrder, .inline,
   .span, .spanRole, .structural, .subtoken, .textMarkup,
   .feature]

/-- Annotation types (src/types.rs:68). -/
inductive AnnotationType where
  | TEXT
  | TOKEN
  | DIVISION
  | PARAGRAPH
  | HEAD
  | LIST
  | FIGURE
  | WHITESPACE
  | LINEBREAK
  | SENTENCE
  | POS
  | LEMMA
  | DOMAIN
  | SENSE
  | SYNTAX
  | CHUNKING
  | ENTITY
  | CORRECTION
  | ERRORDETECTION
  | PHON
  | SUBJECTIVITY
  | MORPHOLOGICAL
  | EVENT
  | DEPENDENCY
  | TIMESEGMENT
  | GAP
  | QUOTE
  | NOTE
  | REFERENCE
  | RELATION
  | SPANRELATION
  | COREFERENCE
  | SEMROLE
  | METRIC
  | LANG
  | STRING
  | TABLE
  | STYLE
  | PART
  | UTTERANCE
  | ENTRY
  | TERM
  | DEFINITION
  | EXAMPLE
  | PHONOLOGICAL
  | PREDICATE
  | OBSERVATION
  | SENTIMENT
  | STATEMENT
  | ALTERNATIVE
  | RAWCONTENT
  | COMMENT
  | DESCRIPTION
  | HYPHENATION
  | HIDDENTOKEN
  | MODALITY
  | EXTERNAL
  | HSPACE
  deriving DecidableEq, Repr, Inhabited

/-- All values of `AnnotationType`, in declaration order (src/types.rs:68, derived `EnumIter`). -/
def AnnotationType.all : List AnnotationType :=
  [.TEXT, .TOKEN, .DIVISION, .PARAGRAPH, .HEAD,
   .LIST, .FIGURE, .WHITESPACE, .LINEBREAK, .SENTENCE,
   .POS, .LEMMA, .DOMAIN, .SENSE, .SYNTAX,
   .CHUNKING, .ENTITY, .CORRECTION, .ERRORDETECTION, .PHON,
   .SUBJECTIVITY, .MORPHOLOGICAL, .EVENT, .DEPENDENCY, .TIMESEGMENT,
   .GAP, .QUOTE, .NOTE, .REFERENCE, .RELATION,
   .SPANRELATION, .COREFERENCE, .SEMROLE, .METRIC, .LANG,
   .STRING, .TABLE, .STYLE, .PART, .UTTERANCE,
   .ENTRY, .TERM, .DEFINITION, .EXAMPLE, .PHONOLOGICAL,
   .PREDICATE, .OBSERVATION, .SENTIMENT, .STATEMENT, .ALTERNATIVE,
   .RAWCONTENT, .COMMENT, .DESCRIPTION, .HYPHENATION, .HIDDENTOKEN,
   .MODALITY, .EXTERNAL, .HSPACE]

/-- `ElementGroup::elementtypes` (src/types.rs:41-53). -/
def ElementGroup.elementtypes : ElementGroup → List ElementType
  | .layer => [.chunkingLayer, .spanRelationLayer, .coreferenceLayer, .dependenciesLayer, .entitiesLayer, .morphologyLayer, .observationLayer, .phonologyLayer, .semanticRolesLayer, .sentimentLayer, .statementLayer, .syntaxLayer, .timingLayer, .modalitiesLayer]
  | .content => [.textContent, .phonContent, .content]
  | .correctionChild => [.current, .new, .original, .suggestion]
  | .higherOrder => [.relation, .alternative, .alternativeLayers, .spanRelation, .correction, .comment, .description, .external, .feature, .metric, .string, .foreignData, .gap]
  | .inline => [.domainAnnotation, .errorDetection, .langAnnotation, .lemmaAnnotation, .posAnnotation, .senseAnnotation, .subjectivityAnnotation]
  | .span => [.chunk, .coreferenceChain, .modality, .dependency, .entity, .observation, .predicate, .semanticRole, .sentiment, .statement, .syntacticUnit, .timeSegment]
  | .spanRole => [.coreferenceLink, .dependencyDependent, .headspan, .statementRelation, .source, .target, .cue, .scope]
  | .structural => [.caption, .cell, .definition, .division, .entry, .event, .exampleElt, .figure, .head, .hiddenword, .label, .linebreak, .list, .listItem, .note, .paragraph, .part, .quote, .reference, .row, .sentence, .speech, .table, .tableHead, .term, .text, .utterance, .whitespace, .word]
  | .subtoken => [.morpheme, .phoneme]
  | .textMarkup => [.textMarkupCorrection, .textMarkupError, .textMarkupGap, .textMarkupString, .textMarkupStyle, .hyphbreak, .textMarkupReference, .textMarkupWhitespace, .textMarkupHSpace, .textMarkupLanguage]
  | .feature => [.actorFeature, .begindatetimeFeature, .enddatetimeFeature, .functionFeature, .headFeature, .levelFeature, .modalityFeature, .polarityFeature, .strengthFeature, .styleFeature, .synsetFeature, .timeFeature, .valueFeature, .fontFeature, .sizeFeature]

/-- `ElementGroup::contains` (src/types.rs:59-61). -/
def ElementGroup.contains (g : ElementGroup) (t : ElementType) : Bool := g.elementtypes.contains t

/-- `AnnotationType::as_str`, also its `Display` (src/types.rs:75-134). -/
def AnnotationType.asStr : AnnotationType → String
  | .ALTERNATIVE => "alternative"
  | .CHUNKING => "chunking"
  | .COMMENT => "comment"
  | .RAWCONTENT => "rawcontent"
  | .COREFERENCE => "coreference"
  | .CORRECTION => "correction"
  | .DEFINITION => "definition"
  | .DEPENDENCY => "dependency"
  | .DESCRIPTION => "description"
  | .DIVISION => "division"
  | .DOMAIN => "domain"
  | .ENTITY => "entity"
  | .ENTRY => "entry"
  | .ERRORDETECTION => "errordetection"
  | .EVENT => "event"
  | .EXAMPLE => "example"
  | .EXTERNAL => "external"
  | .FIGURE => "figure"
  | .GAP => "gap"
  | .HEAD => "head"
  | .HIDDENTOKEN => "hiddentoken"
  | .HYPHENATION => "hyphenation"
  | .LANG => "lang"
  | .LEMMA => "lemma"
  | .LINEBREAK => "linebreak"
  | .LIST => "list"
  | .METRIC => "metric"
  | .MODALITY => "modality"
  | .MORPHOLOGICAL => "morphological"
  | .NOTE => "note"
  | .OBSERVATION => "observation"
  | .PARAGRAPH => "paragraph"
  | .PART => "part"
  | .PHON => "phon"
  | .PHONOLOGICAL => "phonological"
  | .POS => "pos"
  | .PREDICATE => "predicate"
  | .QUOTE => "quote"
  | .REFERENCE => "reference"
  | .RELATION => "relation"
  | .SEMROLE => "semrole"
  | .SENSE => "sense"
  | .SENTENCE => "sentence"
  | .SENTIMENT => "sentiment"
  | .SPANRELATION => "spanrelation"
  | .STATEMENT => "statement"
  | .STRING => "string"
  | .SUBJECTIVITY => "subjectivity"
  | .SYNTAX => "syntax"
  | .TABLE => "table"
  | .TERM => "term"
  | .TEXT => "text"
  | .HSPACE => "hspace"
  | .STYLE => "style"
  | .WHITESPACE => "whitespace"
  | .TIMESEGMENT => "timesegment"
  | .UTTERANCE => "utterance"
  | .TOKEN => "token"

/-- `AnnotationType::from_str` (src/types.rs:141-201): the arms of the `match`, tried in this order; the catch-all arm is the empty lookup. -/
def AnnotationType.fromStrTable : List (String × AnnotationType) :=
  [("alternative", .ALTERNATIVE),
   ("chunking", .CHUNKING),
   ("comment", .COMMENT),
   ("rawcontent", .RAWCONTENT),
   ("coreference", .COREFERENCE),
   ("correction", .CORRECTION),
   ("definition", .DEFINITION),
   ("dependency", .DEPENDENCY),
   ("description", .DESCRIPTION),
   ("division", .DIVISION),
   ("domain", .DOMAIN),
   ("entity", .ENTITY),
   ("entry", .ENTRY),
   ("errordetection", .ERRORDETECTION),
   ("event", .EVENT),
   ("example", .EXAMPLE),
   ("external", .EXTERNAL),
   ("figure", .FIGURE),
   ("gap", .GAP),
   ("head", .HEAD),
   ("hiddentoken", .HIDDENTOKEN),
   ("hyphenation", .HYPHENATION),
   ("lang", .LANG),
   ("lemma", .LEMMA),
   ("linebreak", .LINEBREAK),
   ("list", .LIST),
   ("metric", .METRIC),
   ("modality", .MODALITY),
   ("morphological", .MORPHOLOGICAL),
   ("note", .NOTE),
   ("observation", .OBSERVATION),
   ("paragraph", .PARAGRAPH),
   ("part", .PART),
   ("phon", .PHON),
   ("phonological", .PHONOLOGICAL),
   ("pos", .POS),
   ("predicate", .PREDICATE),
   ("quote", .QUOTE),
   ("reference", .REFERENCE),
   ("relation", .RELATION),
   ("semrole", .SEMROLE),
   ("sense", .SENSE),
   ("sentence", .SENTENCE),
   ("sentiment", .SENTIMENT),
   ("spanrelation", .SPANRELATION),
   ("statement", .STATEMENT),
   ("string", .STRING),
   ("subjectivity", .SUBJECTIVITY),
   ("syntax", .SYNTAX),
   ("table", .TABLE),
   ("term", .TERM),
   ("text", .TEXT),
   ("hspace", .HSPACE),
   ("style", .STYLE),
   ("whitespace", .WHITESPACE),
   ("timesegment", .TIMESEGMENT),
   ("utterance", .UTTERANCE),
   ("token", .TOKEN)]

/-- Lookup of a string key in a table of `match` arms: the first arm whose literal is equal. -/
def lookupStr {α : Type} : List (String × α) → String → Option α
  | [], _ => none
  | (k, v) :: rest, s => if k = s then some v else lookupStr rest s

/-- `AnnotationType::from_str` (src/types.rs:138-203). -/
def AnnotationType.fromStr (s : String) : Option AnnotationType := lookupStr AnnotationType.fromStrTable s

/-- `AnnotationType::as_element_str` (src/types.rs:208-267). -/
def AnnotationType.asElementStr : AnnotationType → String
  | .ALTERNATIVE => "alt"
  | .CHUNKING => "chunk"
  | .COMMENT => "comment"
  | .RAWCONTENT => "content"
  | .COREFERENCE => "coreferencechain"
  | .CORRECTION => "correction"
  | .DEFINITION => "def"
  | .DEPENDENCY => "dependency"
  | .DESCRIPTION => "desc"
  | .DIVISION => "div"
  | .DOMAIN => "domain"
  | .ENTITY => "entity"
  | .ENTRY => "entry"
  | .ERRORDETECTION => "errordetection"
  | .EVENT => "event"
  | .EXAMPLE => "ex"
  | .EXTERNAL => "external"
  | .FIGURE => "figure"
  | .GAP => "gap"
  | .HEAD => "head"
  | .HIDDENTOKEN => "hiddenw"
  | .HYPHENATION => "t-hbr"
  | .LANG => "lang"
  | .LEMMA => "lemma"
  | .LINEBREAK => "br"
  | .LIST => "list"
  | .METRIC => "metric"
  | .MODALITY => "modality"
  | .MORPHOLOGICAL => "morpheme"
  | .NOTE => "note"
  | .OBSERVATION => "observation"
  | .PARAGRAPH => "p"
  | .PART => "part"
  | .PHON => "ph"
  | .PHONOLOGICAL => "phoneme"
  | .POS => "pos"
  | .PREDICATE => "predicate"
  | .QUOTE => "quote"
  | .REFERENCE => "ref"
  | .RELATION => "relation"
  | .SEMROLE => "semrole"
  | .SENSE => "sense"
  | .SENTENCE => "s"
  | .SENTIMENT => "sentiment"
  | .SPANRELATION => "spanrelation"
  | .STATEMENT => "statement"
  | .STRING => "str"
  | .SUBJECTIVITY => "subjectivity"
  | .SYNTAX => "su"
  | .TABLE => "table"
  | .TERM => "term"
  | .TEXT => "t"
  | .HSPACE => "t-hspace"
  | .STYLE => "t-style"
  | .TIMESEGMENT => "timesegment"
  | .UTTERANCE => "utt"
  | .WHITESPACE => "whitespace"
  | .TOKEN => "w"

/-- `AnnotationType::layertype` (src/types.rs:274-291). -/
def AnnotationType.layertype : AnnotationType → Option ElementType
  | .CHUNKING => some .chunkingLayer
  | .COREFERENCE => some .coreferenceLayer
  | .DEPENDENCY => some .dependenciesLayer
  | .ENTITY => some .entitiesLayer
  | .MODALITY => some .modalitiesLayer
  | .MORPHOLOGICAL => some .morphologyLayer
  | .OBSERVATION => some .observationLayer
  | .PHONOLOGICAL => some .phonologyLayer
  | .SEMROLE => some .semanticRolesLayer
  | .SENTIMENT => some .sentimentLayer
  | .SPANRELATION => some .spanRelationLayer
  | .STATEMENT => some .statementLayer
  | .SYNTAX => some .syntaxLayer
  | .TIMESEGMENT => some .timingLayer
  | .PREDICATE => some .semanticRolesLayer
  | _ => none

/-- `AnnotationType::elementtype` (src/types.rs:315-374). -/
def AnnotationType.elementtype : AnnotationType → ElementType
  | .ALTERNATIVE => .alternative
  | .CHUNKING => .chunk
  | .COMMENT => .comment
  | .RAWCONTENT => .content
  | .COREFERENCE => .coreferenceChain
  | .CORRECTION => .correction
  | .DEFINITION => .definition
  | .DEPENDENCY => .dependency
  | .DESCRIPTION => .description
  | .DIVISION => .division
  | .DOMAIN => .domainAnnotation
  | .ENTITY => .entity
  | .ENTRY => .entry
  | .ERRORDETECTION => .errorDetection
  | .EVENT => .event
  | .EXAMPLE => .exampleElt
  | .EXTERNAL => .external
  | .FIGURE => .figure
  | .GAP => .gap
  | .HEAD => .head
  | .HIDDENTOKEN => .hiddenword
  | .HYPHENATION => .hyphbreak
  | .LANG => .langAnnotation
  | .LEMMA => .lemmaAnnotation
  | .LINEBREAK => .linebreak
  | .LIST => .list
  | .METRIC => .metric
  | .MODALITY => .modality
  | .MORPHOLOGICAL => .morpheme
  | .NOTE => .note
  | .OBSERVATION => .observation
  | .PARAGRAPH => .paragraph
  | .PART => .part
  | .PHON => .phonContent
  | .PHONOLOGICAL => .phoneme
  | .POS => .posAnnotation
  | .PREDICATE => .predicate
  | .QUOTE => .quote
  | .REFERENCE => .reference
  | .RELATION => .relation
  | .SEMROLE => .semanticRole
  | .SENSE => .senseAnnotation
  | .SENTENCE => .sentence
  | .SENTIMENT => .sentiment
  | .SPANRELATION => .spanRelation
  | .STATEMENT => .statement
  | .STRING => .string
  | .SUBJECTIVITY => .subjectivityAnnotation
  | .SYNTAX => .syntacticUnit
  | .TABLE => .table
  | .TERM => .term
  | .TEXT => .textContent
  | .HSPACE => .textMarkupHSpace
  | .STYLE => .textMarkupStyle
  | .TIMESEGMENT => .timeSegment
  | .UTTERANCE => .utterance
  | .WHITESPACE => .whitespace
  | .TOKEN => .word

/-- `ElementType::annotationtype` (src/types.rs:384-471). -/
def ElementType.annotationtype : ElementType → Option AnnotationType
  | .alternative => some .ALTERNATIVE
  | .alternativeLayers => some .ALTERNATIVE
  | .chunk => some .CHUNKING
  | .chunkingLayer => some .CHUNKING
  | .comment => some .COMMENT
  | .content => some .RAWCONTENT
  | .coreferenceChain => some .COREFERENCE
  | .coreferenceLayer => some .COREFERENCE
  | .coreferenceLink => some .COREFERENCE
  | .correction => some .CORRECTION
  | .current => some .CORRECTION
  | .definition => some .DEFINITION
  | .dependenciesLayer => some .DEPENDENCY
  | .dependency => some .DEPENDENCY
  | .description => some .DESCRIPTION
  | .division => some .DIVISION
  | .domainAnnotation => some .DOMAIN
  | .entitiesLayer => some .ENTITY
  | .entity => some .ENTITY
  | .entry => some .ENTRY
  | .errorDetection => some .ERRORDETECTION
  | .event => some .EVENT
  | .exampleElt => some .EXAMPLE
  | .external => some .EXTERNAL
  | .figure => some .FIGURE
  | .gap => some .GAP
  | .head => some .HEAD
  | .hiddenword => some .HIDDENTOKEN
  | .hyphbreak => some .HYPHENATION
  | .langAnnotation => some .LANG
  | .lemmaAnnotation => some .LEMMA
  | .linebreak => some .LINEBREAK
  | .list => some .LIST
  | .metric => some .METRIC
  | .modalitiesLayer => some .MODALITY
  | .modality => some .MODALITY
  | .morpheme => some .MORPHOLOGICAL
  | .morphologyLayer => some .MORPHOLOGICAL
  | .new => some .CORRECTION
  | .note => some .NOTE
  | .observation => some .OBSERVATION
  | .observationLayer => some .OBSERVATION
  | .original => some .CORRECTION
  | .paragraph => some .PARAGRAPH
  | .part => some .PART
  | .phonContent => some .PHON
  | .phoneme => some .PHONOLOGICAL
  | .phonologyLayer => some .PHONOLOGICAL
  | .posAnnotation => some .POS
  | .predicate => some .PREDICATE
  | .quote => some .QUOTE
  | .reference => some .REFERENCE
  | .relation => some .RELATION
  | .semanticRole => some .SEMROLE
  | .semanticRolesLayer => some .SEMROLE
  | .senseAnnotation => some .SENSE
  | .sentence => some .SENTENCE
  | .sentiment => some .SENTIMENT
  | .sentimentLayer => some .SENTIMENT
  | .spanRelation => some .SPANRELATION
  | .spanRelationLayer => some .SPANRELATION
  | .statement => some .STATEMENT
  | .statementLayer => some .STATEMENT
  | .string => some .STRING
  | .subjectivityAnnotation => some .SUBJECTIVITY
  | .suggestion => some .CORRECTION
  | .syntacticUnit => some .SYNTAX
  | .syntaxLayer => some .SYNTAX
  | .table => some .TABLE
  | .term => some .TERM
  | .textContent => some .TEXT
  | .textMarkupCorrection => some .CORRECTION
  | .textMarkupError => some .ERRORDETECTION
  | .textMarkupGap => some .GAP
  | .textMarkupHSpace => some .HSPACE
  | .textMarkupLanguage => some .LANG
  | .textMarkupReference => some .REFERENCE
  | .textMarkupString => some .STRING
  | .textMarkupStyle => some .STYLE
  | .textMarkupWhitespace => some .WHITESPACE
  | .timeSegment => some .TIMESEGMENT
  | .timingLayer => some .TIMESEGMENT
  | .utterance => some .UTTERANCE
  | .whitespace => some .WHITESPACE
  | .word => some .TOKEN
  | _ => none

/-- `ElementType::as_str`, also its `Display` (src/types.rs:484-604). -/
def ElementType.asStr : ElementType → String
  | .actorFeature => "actor"
  | .alternative => "alt"
  | .alternativeLayers => "altlayers"
  | .begindatetimeFeature => "begindatetime"
  | .caption => "caption"
  | .cell => "cell"
  | .chunk => "chunk"
  | .chunkingLayer => "chunking"
  | .comment => "comment"
  | .content => "content"
  | .coreferenceChain => "coreferencechain"
  | .coreferenceLayer => "coreferences"
  | .coreferenceLink => "coreferencelink"
  | .correction => "correction"
  | .cue => "cue"
  | .current => "current"
  | .definition => "def"
  | .dependenciesLayer => "dependencies"
  | .dependency => "dependency"
  | .dependencyDependent => "dep"
  | .description => "desc"
  | .division => "div"
  | .domainAnnotation => "domain"
  | .enddatetimeFeature => "enddatetime"
  | .entitiesLayer => "entities"
  | .entity => "entity"
  | .entry => "entry"
  | .errorDetection => "errordetection"
  | .event => "event"
  | .exampleElt => "ex"
  | .external => "external"
  | .feature => "feat"
  | .figure => "figure"
  | .fontFeature => "font"
  | .foreignData => "foreign-data"
  | .functionFeature => "function"
  | .gap => "gap"
  | .head => "head"
  | .headFeature => "headfeature"
  | .headspan => "hd"
  | .hiddenword => "hiddenw"
  | .hyphbreak => "t-hbr"
  | .label => "label"
  | .langAnnotation => "lang"
  | .lemmaAnnotation => "lemma"
  | .levelFeature => "level"
  | .linebreak => "br"
  | .linkReference => "xref"
  | .list => "list"
  | .listItem => "item"
  | .metric => "metric"
  | .modalitiesLayer => "modalities"
  | .modality => "modality"
  | .modalityFeature => "mod"
  | .morpheme => "morpheme"
  | .morphologyLayer => "morphology"
  | .new => "new"
  | .note => "note"
  | .observation => "observation"
  | .observationLayer => "observations"
  | .original => "original"
  | .paragraph => "p"
  | .part => "part"
  | .phonContent => "ph"
  | .phoneme => "phoneme"
  | .phonologyLayer => "phonology"
  | .polarityFeature => "polarity"
  | .posAnnotation => "pos"
  | .predicate => "predicate"
  | .quote => "quote"
  | .reference => "ref"
  | .relation => "relation"
  | .row => "row"
  | .scope => "scope"
  | .semanticRole => "semrole"
  | .semanticRolesLayer => "semroles"
  | .senseAnnotation => "sense"
  | .sentence => "s"
  | .sentiment => "sentiment"
  | .sentimentLayer => "sentiments"
  | .sizeFeature => "size"
  | .source => "source"
  | .spanRelation => "spanrelation"
  | .spanRelationLayer => "spanrelations"
  | .speech => "speech"
  | .statement => "statement"
  | .statementLayer => "statements"
  | .statementRelation => "rel"
  | .strengthFeature => "strength"
  | .string => "str"
  | .styleFeature => "style"
  | .subjectivityAnnotation => "subjectivity"
  | .suggestion => "suggestion"
  | .synsetFeature => "synset"
  | .syntacticUnit => "su"
  | .syntaxLayer => "syntax"
  | .table => "table"
  | .tableHead => "tablehead"
  | .target => "target"
  | .term => "term"
  | .text => "text"
  | .textContent => "t"
  | .textMarkupCorrection => "t-correction"
  | .textMarkupError => "t-error"
  | .textMarkupGap => "t-gap"
  | .textMarkupHSpace => "t-hspace"
  | .textMarkupLanguage => "t-lang"
  | .textMarkupReference => "t-ref"
  | .textMarkupString => "t-str"
  | .textMarkupStyle => "t-style"
  | .textMarkupWhitespace => "t-whitespace"
  | .timeFeature => "time"
  | .timeSegment => "timesegment"
  | .timingLayer => "timing"
  | .utterance => "utt"
  | .valueFeature => "value"
  | .whitespace => "whitespace"
  | .word => "w"
  | .wordReference => "wref"

/-- `ElementType::from_str` (src/types.rs:642-763): the arms of the `match`, tried in this order; the catch-all arm is the empty lookup. -/
def ElementType.fromStrTable : List (String × ElementType) :=
  [("actor", .actorFeature),
   ("alt", .alternative),
   ("altlayers", .alternativeLayers),
   ("begindatetime", .begindatetimeFeature),
   ("caption", .caption),
   ("cell", .cell),
   ("chunk", .chunk),
   ("chunking", .chunkingLayer),
   ("comment", .comment),
   ("content", .content),
   ("coreferencechain", .coreferenceChain),
   ("coreferences", .coreferenceLayer),
   ("coreferencelink", .coreferenceLink),
   ("correction", .correction),
   ("cue", .cue),
   ("current", .current),
   ("def", .definition),
   ("dependencies", .dependenciesLayer),
   ("dependency", .dependency),
   ("dep", .dependencyDependent),
   ("desc", .description),
   ("div", .division),
   ("domain", .domainAnnotation),
   ("enddatetime", .enddatetimeFeature),
   ("entities", .entitiesLayer),
   ("entity", .entity),
   ("entry", .entry),
   ("errordetection", .errorDetection),
   ("event", .event),
   ("ex", .exampleElt),
   ("external", .external),
   ("feat", .feature),
   ("figure", .figure),
   ("font", .fontFeature),
   ("foreign-data", .foreignData),
   ("function", .functionFeature),
   ("gap", .gap),
   ("head", .head),
   ("headfeature", .headFeature),
   ("hd", .headspan),
   ("hiddenw", .hiddenword),
   ("t-hbr", .hyphbreak),
   ("label", .label),
   ("lang", .langAnnotation),
   ("lemma", .lemmaAnnotation),
   ("level", .levelFeature),
   ("br", .linebreak),
   ("xref", .linkReference),
   ("list", .list),
   ("item", .listItem),
   ("metric", .metric),
   ("modalities", .modalitiesLayer),
   ("modality", .modality),
   ("mod", .modalityFeature),
   ("morpheme", .morpheme),
   ("morphology", .morphologyLayer),
   ("new", .new),
   ("note", .note),
   ("observation", .observation),
   ("observations", .observationLayer),
   ("original", .original),
   ("p", .paragraph),
   ("part", .part),
   ("ph", .phonContent),
   ("phoneme", .phoneme),
   ("phonology", .phonologyLayer),
   ("polarity", .polarityFeature),
   ("pos", .posAnnotation),
   ("predicate", .predicate),
   ("quote", .quote),
   ("ref", .reference),
   ("relation", .relation),
   ("row", .row),
   ("scope", .scope),
   ("semrole", .semanticRole),
   ("semroles", .semanticRolesLayer),
   ("sense", .senseAnnotation),
   ("s", .sentence),
   ("sentiment", .sentiment),
   ("sentiments", .sentimentLayer),
   ("size", .sizeFeature),
   ("source", .source),
   ("spanrelation", .spanRelation),
   ("spanrelations", .spanRelationLayer),
   ("speech", .speech),
   ("statement", .statement),
   ("statements", .statementLayer),
   ("rel", .statementRelation),
   ("strength", .strengthFeature),
   ("str", .string),
   ("style", .styleFeature),
   ("subjectivity", .subjectivityAnnotation),
   ("suggestion", .suggestion),
   ("synset", .synsetFeature),
   ("su", .syntacticUnit),
   ("syntax", .syntaxLayer),
   ("table", .table),
   ("tablehead", .tableHead),
   ("target", .target),
   ("term", .term),
   ("text", .text),
   ("t", .textContent),
   ("t-correction", .textMarkupCorrection),
   ("t-error", .textMarkupError),
   ("t-gap", .textMarkupGap),
   ("t-hspace", .textMarkupHSpace),
   ("t-lang", .textMarkupLanguage),
   ("t-ref", .textMarkupReference),
   ("t-str", .textMarkupString),
   ("t-style", .textMarkupStyle),
   ("t-whitespace", .textMarkupWhitespace),
   ("time", .timeFeature),
   ("timesegment", .timeSegment),
   ("timing", .timingLayer),
   ("utt", .utterance),
   ("value", .valueFeature),
   ("whitespace", .whitespace),
   ("w", .word),
   ("wref", .wordReference)]

/-- `ElementType::from_str` (src/types.rs:640-766); `none` is its `ParseError`. -/
def ElementType.fromStr (s : String) : Option ElementType := lookupStr ElementType.fromStrTable s

end Folia
