import Verif.Types
import Verif.AttribType
/-! Generated by tools/gen_tables.py from `/repo/src/specification.rs`; do not edit by hand. -/
namespace Folia

/-- `AcceptedData` (src/specification.rs:10-14). -/
inductive AcceptedData where
  | type (t : ElementType)
  | group (g : ElementGroup)
  deriving DecidableEq, Repr

/-- `Properties` (src/specification.rs:17-40); the defaults are those of `Properties::default` (lines 42-68). -/
structure Properties where
  xmltag : String := ""
  annotationtype : Option AnnotationType := none
  acceptedData : List AcceptedData := []
  requiredData : List AcceptedData := []
  requiredAttribs : List AttribType := []
  optionalAttribs : List AttribType := []
  occurrences : Nat := 0
  occurrencesPerSet : Nat := 0
  textdelimiter : Option String := none
  printable : Bool := false
  speakable : Bool := false
  hidden : Bool := false
  xlink : Bool := false
  textcontainer : Bool := false
  phoncontainer : Bool := false
  subset : Option String := none
  auth : Bool := true
  primaryelement : Bool := false
  autoGenerateId : Bool := false
  setonly : Bool := false
  wrefable : Bool := false
  label : String := ""
  deriving DecidableEq, Repr

/-- `Properties::new` (src/specification.rs:94-3166); one arm per element type. Fields equal to the default are left out. -/
def props : ElementType → Properties
  -- src/specification.rs:98-122
  | .actorFeature => {
      acceptedData := [.type .comment, .type .description],
      subset := some "actor",
      primaryelement := true,
      label := "Feature" }
  -- src/specification.rs:124-148
  | .alternative => {
      xmltag := "alt",
      annotationtype := some .ALTERNATIVE,
      acceptedData := [.group .inline, .type .comment, .type .correction, .type .description, .type .foreignData, .type .morphologyLayer, .type .phonologyLayer],
      optionalAttribs := [.ANNOTATOR, .BEGINTIME, .CONFIDENCE, .DATETIME, .ENDTIME, .ID, .METADATA, .N, .SPEAKER, .SRC, .TAG],
      auth := false,
      primaryelement := true,
      label := "Alternative" }
  -- src/specification.rs:150-174
  | .alternativeLayers => {
      xmltag := "altlayers",
      annotationtype := some .ALTERNATIVE,
      acceptedData := [.group .layer, .type .comment, .type .description, .type .foreignData],
      optionalAttribs := [.ANNOTATOR, .BEGINTIME, .CONFIDENCE, .DATETIME, .ENDTIME, .ID, .METADATA, .N, .SPEAKER, .SRC, .TAG],
      auth := false,
      label := "Alternative Layers" }
  -- src/specification.rs:176-200
  | .begindatetimeFeature => {
      acceptedData := [.type .comment, .type .description],
      subset := some "begindatetime",
      primaryelement := true,
      label := "Feature" }
  -- src/specification.rs:202-226
  | .caption => {
      xmltag := "caption",
      acceptedData := [.group .layer, .group .inline, .type .alternative, .type .alternativeLayers, .type .comment, .type .correction, .type .description, .type .external, .type .feature, .type .foreignData, .type .gap, .type .linebreak, .type .metric, .type .paragraph, .type .part, .type .phonContent, .type .quote, .type .reference, .type .relation, .type .sentence, .type .string, .type .textContent, .type .whitespace],
      optionalAttribs := [.ANNOTATOR, .BEGINTIME, .CLASS, .CONFIDENCE, .DATETIME, .ENDTIME, .ID, .METADATA, .N, .SPACE, .SPEAKER, .SRC, .TAG],
      occurrences := 1,
      textdelimiter := some "\n\n",
      printable := true,
      speakable := true,
      primaryelement := true,
      autoGenerateId := true,
      label := "Caption" }
  -- src/specification.rs:228-252
  | .cell => {
      xmltag := "cell",
      acceptedData := [.group .layer, .group .inline, .type .alternative, .type .alternativeLayers, .type .comment, .type .correction, .type .description, .type .entry, .type .event, .type .exampleElt, .type .external, .type .feature, .type .figure, .type .foreignData, .type .gap, .type .head, .type .hiddenword, .type .linebreak, .type .list, .type .metric, .type .note, .type .paragraph, .type .part, .type .quote, .type .reference, .type .relation, .type .sentence, .type .string, .type .textContent, .type .whitespace, .type .word],
      optionalAttribs := [.ANNOTATOR, .BEGINTIME, .CLASS, .CONFIDENCE, .DATETIME, .ENDTIME, .ID, .METADATA, .N, .SPACE, .SPEAKER, .SRC, .TAG],
      textdelimiter := some " | ",
      printable := true,
      speakable := true,
      primaryelement := true,
      autoGenerateId := true,
      label := "Cell" }
  -- src/specification.rs:254-278
  | .chunk => {
      xmltag := "chunk",
      annotationtype := some .CHUNKING,
      acceptedData := [.group .inline, .type .comment, .type .description, .type .feature, .type .foreignData, .type .linkReference, .type .metric, .type .relation, .type .wordReference],
      optionalAttribs := [.ANNOTATOR, .BEGINTIME, .CLASS, .CONFIDENCE, .DATETIME, .ENDTIME, .ID, .METADATA, .N, .SPEAKER, .SRC, .TAG, .TEXTCLASS],
      printable := true,
      speakable := true,
      primaryelement := true,
      label := "Chunk" }
  -- src/specification.rs:280-303
  | .chunkingLayer => {
      xmltag := "chunking",
      annotationtype := some .CHUNKING,
      acceptedData := [.type .chunk, .type .comment, .type .correction, .type .description, .type .foreignData],
      optionalAttribs := [.ID, .TAG],
      setonly := true }
  -- src/specification.rs:305-329
  | .comment => {
      xmltag := "comment",
      annotationtype := some .COMMENT,
      acceptedData := [.type .comment, .type .description],
      optionalAttribs := [.ANNOTATOR, .CONFIDENCE, .DATETIME, .ID, .METADATA, .N, .TAG],
      primaryelement := true,
      label := "Comment" }
  -- src/specification.rs:331-355
  | .content => {
      xmltag := "content",
      annotationtype := some .RAWCONTENT,
      acceptedData := [.type .comment, .type .description],
      optionalAttribs := [.ANNOTATOR, .CLASS, .CONFIDENCE, .DATETIME, .METADATA, .TAG],
      occurrences := 1,
      printable := true,
      primaryelement := true,
      label := "Raw Content" }
  -- src/specification.rs:357-381
  | .coreferenceChain => {
      xmltag := "coreferencechain",
      annotationtype := some .COREFERENCE,
      acceptedData := [.group .inline, .type .comment, .type .coreferenceLink, .type .description, .type .feature, .type .foreignData, .type .linkReference, .type .metric, .type .relation],
      requiredData := [.type .coreferenceLink],
      optionalAttribs := [.ANNOTATOR, .BEGINTIME, .CLASS, .CONFIDENCE, .DATETIME, .ENDTIME, .ID, .METADATA, .N, .SPEAKER, .SRC, .TAG, .TEXTCLASS],
      printable := true,
      speakable := true,
      primaryelement := true,
      label := "Coreference Chain" }
  -- src/specification.rs:383-406
  | .coreferenceLayer => {
      xmltag := "coreferences",
      annotationtype := some .COREFERENCE,
      acceptedData := [.type .comment, .type .coreferenceChain, .type .correction, .type .description, .type .foreignData],
      optionalAttribs := [.ID, .TAG],
      setonly := true }
  -- src/specification.rs:408-432
  | .coreferenceLink => {
      xmltag := "coreferencelink",
      annotationtype := some .COREFERENCE,
      acceptedData := [.group .inline, .type .comment, .type .description, .type .feature, .type .foreignData, .type .headspan, .type .levelFeature, .type .linkReference, .type .metric, .type .modalityFeature, .type .relation, .type .timeFeature, .type .wordReference],
      optionalAttribs := [.ANNOTATOR, .BEGINTIME, .CLASS, .CONFIDENCE, .DATETIME, .ENDTIME, .ID, .METADATA, .N, .SPEAKER, .SRC, .TAG, .TEXTCLASS],
      printable := true,
      speakable := true,
      label := "Coreference Link" }
  -- src/specification.rs:434-458
  | .correction => {
      xmltag := "correction",
      annotationtype := some .CORRECTION,
      acceptedData := [.type .comment, .type .current, .type .description, .type .errorDetection, .type .feature, .type .foreignData, .type .metric, .type .new, .type .original, .type .suggestion],
      optionalAttribs := [.ANNOTATOR, .BEGINTIME, .CLASS, .CONFIDENCE, .DATETIME, .ENDTIME, .ID, .METADATA, .N, .SPEAKER, .SRC, .TAG],
      printable := true,
      speakable := true,
      primaryelement := true,
      label := "Correction" }
  -- src/specification.rs:460-484
  | .cue => {
      xmltag := "cue",
      acceptedData := [.group .inline, .type .comment, .type .description, .type .feature, .type .foreignData, .type .linkReference, .type .metric, .type .relation, .type .wordReference],
      optionalAttribs := [.ANNOTATOR, .BEGINTIME, .CLASS, .CONFIDENCE, .DATETIME, .ENDTIME, .ID, .METADATA, .N, .SPEAKER, .SRC, .TAG, .TEXTCLASS],
      occurrences := 1,
      printable := true,
      speakable := true,
      label := "Cue" }
  -- src/specification.rs:486-509
  | .current => {
      xmltag := "current",
      annotationtype := some .CORRECTION,
      acceptedData := [.group .inline, .group .span, .group .structural, .type .comment, .type .correction, .type .description, .type .foreignData, .type .metric, .type .phonContent, .type .string, .type .textContent],
      optionalAttribs := [.ANNOTATOR, .CONFIDENCE, .DATETIME, .ID, .N, .TAG],
      occurrences := 1,
      printable := true,
      speakable := true }
  -- src/specification.rs:511-535
  | .definition => {
      xmltag := "def",
      annotationtype := some .DEFINITION,
      acceptedData := [.group .layer, .group .inline, .type .alternative, .type .alternativeLayers, .type .comment, .type .correction, .type .description, .type .external, .type .feature, .type .figure, .type .foreignData, .type .hiddenword, .type .linebreak, .type .list, .type .metric, .type .paragraph, .type .part, .type .phonContent, .type .reference, .type .relation, .type .sentence, .type .string, .type .table, .type .textContent, .type .utterance, .type .whitespace, .type .word],
      optionalAttribs := [.ANNOTATOR, .BEGINTIME, .CLASS, .CONFIDENCE, .DATETIME, .ENDTIME, .ID, .METADATA, .N, .SPACE, .SPEAKER, .SRC, .TAG],
      textdelimiter := some "\n\n",
      printable := true,
      speakable := true,
      primaryelement := true,
      autoGenerateId := true,
      label := "Definition" }
  -- src/specification.rs:537-560
  | .dependenciesLayer => {
      xmltag := "dependencies",
      annotationtype := some .DEPENDENCY,
      acceptedData := [.type .comment, .type .correction, .type .dependency, .type .description, .type .foreignData],
      optionalAttribs := [.ID, .TAG],
      setonly := true }
  -- src/specification.rs:562-586
  | .dependency => {
      xmltag := "dependency",
      annotationtype := some .DEPENDENCY,
      acceptedData := [.group .inline, .type .comment, .type .dependencyDependent, .type .description, .type .feature, .type .foreignData, .type .headspan, .type .linkReference, .type .metric, .type .relation],
      requiredData := [.type .dependencyDependent, .type .headspan],
      optionalAttribs := [.ANNOTATOR, .BEGINTIME, .CLASS, .CONFIDENCE, .DATETIME, .ENDTIME, .ID, .METADATA, .N, .SPEAKER, .SRC, .TAG, .TEXTCLASS],
      printable := true,
      speakable := true,
      primaryelement := true,
      label := "Dependency" }
  -- src/specification.rs:588-612
  | .dependencyDependent => {
      xmltag := "dep",
      acceptedData := [.group .inline, .type .comment, .type .description, .type .feature, .type .foreignData, .type .linkReference, .type .metric, .type .relation, .type .wordReference],
      optionalAttribs := [.ANNOTATOR, .BEGINTIME, .CLASS, .CONFIDENCE, .DATETIME, .ENDTIME, .ID, .METADATA, .N, .SPEAKER, .SRC, .TAG, .TEXTCLASS],
      occurrences := 1,
      printable := true,
      speakable := true,
      label := "Dependent" }
  -- src/specification.rs:614-638
  | .description => {
      xmltag := "desc",
      annotationtype := some .DESCRIPTION,
      acceptedData := [.type .comment, .type .description],
      optionalAttribs := [.ANNOTATOR, .CONFIDENCE, .DATETIME, .ID, .METADATA, .N, .TAG],
      occurrences := 1,
      primaryelement := true,
      label := "Description" }
  -- src/specification.rs:640-664
  | .division => {
      xmltag := "div",
      annotationtype := some .DIVISION,
      acceptedData := [.group .layer, .group .inline, .type .alternative, .type .alternativeLayers, .type .comment, .type .correction, .type .description, .type .division, .type .entry, .type .event, .type .exampleElt, .type .external, .type .feature, .type .figure, .type .foreignData, .type .gap, .type .head, .type .linebreak, .type .list, .type .metric, .type .note, .type .paragraph, .type .part, .type .phonContent, .type .quote, .type .reference, .type .relation, .type .sentence, .type .table, .type .textContent, .type .utterance, .type .whitespace, .type .word],
      optionalAttribs := [.ANNOTATOR, .BEGINTIME, .CLASS, .CONFIDENCE, .DATETIME, .ENDTIME, .ID, .METADATA, .N, .SPACE, .SPEAKER, .SRC, .TAG],
      textdelimiter := some "\n\n\n",
      printable := true,
      speakable := true,
      primaryelement := true,
      autoGenerateId := true,
      label := "Division" }
  -- src/specification.rs:666-690
  | .domainAnnotation => {
      xmltag := "domain",
      annotationtype := some .DOMAIN,
      acceptedData := [.type .comment, .type .description, .type .feature, .type .foreignData, .type .metric],
      requiredAttribs := [.CLASS],
      optionalAttribs := [.ANNOTATOR, .BEGINTIME, .CLASS, .CONFIDENCE, .DATETIME, .ENDTIME, .ID, .METADATA, .N, .SPEAKER, .SRC, .TAG, .TEXTCLASS],
      primaryelement := true,
      label := "Domain" }
  -- src/specification.rs:692-716
  | .enddatetimeFeature => {
      acceptedData := [.type .comment, .type .description],
      subset := some "enddatetime",
      primaryelement := true,
      label := "Feature" }
  -- src/specification.rs:718-741
  | .entitiesLayer => {
      xmltag := "entities",
      annotationtype := some .ENTITY,
      acceptedData := [.type .comment, .type .correction, .type .description, .type .entity, .type .foreignData],
      optionalAttribs := [.ID, .TAG],
      setonly := true }
  -- src/specification.rs:743-767
  | .entity => {
      xmltag := "entity",
      annotationtype := some .ENTITY,
      acceptedData := [.group .inline, .type .comment, .type .description, .type .feature, .type .foreignData, .type .linkReference, .type .metric, .type .relation, .type .wordReference],
      optionalAttribs := [.ANNOTATOR, .BEGINTIME, .CLASS, .CONFIDENCE, .DATETIME, .ENDTIME, .ID, .METADATA, .N, .SPEAKER, .SRC, .TAG, .TEXTCLASS],
      printable := true,
      speakable := true,
      primaryelement := true,
      label := "Entity" }
  -- src/specification.rs:769-793
  | .entry => {
      xmltag := "entry",
      annotationtype := some .ENTRY,
      acceptedData := [.group .layer, .type .alternative, .type .alternativeLayers, .type .comment, .type .correction, .type .definition, .type .description, .type .exampleElt, .type .external, .type .feature, .type .foreignData, .type .metric, .type .part, .type .relation, .type .string, .type .term, .type .textContent],
      optionalAttribs := [.ANNOTATOR, .BEGINTIME, .CLASS, .CONFIDENCE, .DATETIME, .ENDTIME, .ID, .METADATA, .N, .SPACE, .SPEAKER, .SRC, .TAG],
      textdelimiter := some "\n\n",
      printable := true,
      speakable := true,
      primaryelement := true,
      autoGenerateId := true,
      label := "Entry" }
  -- src/specification.rs:795-819
  | .errorDetection => {
      xmltag := "errordetection",
      annotationtype := some .ERRORDETECTION,
      acceptedData := [.type .comment, .type .description, .type .feature, .type .foreignData, .type .metric],
      requiredAttribs := [.CLASS],
      optionalAttribs := [.ANNOTATOR, .BEGINTIME, .CLASS, .CONFIDENCE, .DATETIME, .ENDTIME, .ID, .METADATA, .N, .SPEAKER, .SRC, .TAG, .TEXTCLASS],
      primaryelement := true,
      label := "Error Detection" }
  -- src/specification.rs:821-845
  | .event => {
      xmltag := "event",
      annotationtype := some .EVENT,
      acceptedData := [.group .layer, .group .inline, .type .actorFeature, .type .alternative, .type .alternativeLayers, .type .begindatetimeFeature, .type .comment, .type .correction, .type .description, .type .division, .type .enddatetimeFeature, .type .entry, .type .event, .type .exampleElt, .type .external, .type .feature, .type .figure, .type .foreignData, .type .gap, .type .head, .type .hiddenword, .type .linebreak, .type .list, .type .metric, .type .note, .type .paragraph, .type .part, .type .phonContent, .type .quote, .type .reference, .type .relation, .type .sentence, .type .string, .type .table, .type .textContent, .type .utterance, .type .whitespace, .type .word],
      optionalAttribs := [.ANNOTATOR, .BEGINTIME, .CLASS, .CONFIDENCE, .DATETIME, .ENDTIME, .ID, .METADATA, .N, .SPACE, .SPEAKER, .SRC, .TAG],
      textdelimiter := some "\n\n",
      printable := true,
      speakable := true,
      primaryelement := true,
      autoGenerateId := true,
      label := "Event" }
  -- src/specification.rs:847-871
  | .exampleElt => {
      xmltag := "ex",
      annotationtype := some .EXAMPLE,
      acceptedData := [.group .layer, .group .inline, .type .alternative, .type .alternativeLayers, .type .comment, .type .correction, .type .description, .type .external, .type .feature, .type .figure, .type .foreignData, .type .hiddenword, .type .linebreak, .type .list, .type .metric, .type .paragraph, .type .part, .type .phonContent, .type .reference, .type .relation, .type .sentence, .type .string, .type .table, .type .textContent, .type .utterance, .type .whitespace, .type .word],
      optionalAttribs := [.ANNOTATOR, .BEGINTIME, .CLASS, .CONFIDENCE, .DATETIME, .ENDTIME, .ID, .METADATA, .N, .SPACE, .SPEAKER, .SRC, .TAG],
      textdelimiter := some "\n\n",
      printable := true,
      speakable := true,
      primaryelement := true,
      autoGenerateId := true,
      label := "Example" }
  -- src/specification.rs:873-897
  | .external => {
      xmltag := "external",
      annotationtype := some .EXTERNAL,
      requiredAttribs := [.SRC],
      optionalAttribs := [.ANNOTATOR, .BEGINTIME, .CONFIDENCE, .DATETIME, .ENDTIME, .ID, .METADATA, .N, .TAG],
      printable := true,
      speakable := true,
      primaryelement := true,
      label := "External" }
  -- src/specification.rs:899-923
  | .feature => {
      xmltag := "feat",
      acceptedData := [.type .comment, .type .description],
      primaryelement := true,
      label := "Feature" }
  -- src/specification.rs:925-949
  | .figure => {
      xmltag := "figure",
      annotationtype := some .FIGURE,
      acceptedData := [.group .layer, .type .alternative, .type .alternativeLayers, .type .caption, .type .comment, .type .correction, .type .description, .type .external, .type .feature, .type .foreignData, .type .linebreak, .type .metric, .type .part, .type .relation, .type .string, .type .textContent],
      optionalAttribs := [.ANNOTATOR, .BEGINTIME, .CLASS, .CONFIDENCE, .DATETIME, .ENDTIME, .ID, .METADATA, .N, .SPACE, .SPEAKER, .SRC, .TAG],
      textdelimiter := some "\n\n",
      printable := true,
      primaryelement := true,
      autoGenerateId := true,
      label := "Figure" }
  -- src/specification.rs:951-975
  | .fontFeature => {
      acceptedData := [.type .comment, .type .description],
      subset := some "font",
      primaryelement := true,
      label := "Feature" }
  -- src/specification.rs:977-1000
  | .foreignData => {
      xmltag := "foreign-data",
      acceptedData := [.type .comment, .type .description],
      primaryelement := true }
  -- src/specification.rs:1002-1026
  | .functionFeature => {
      acceptedData := [.type .comment, .type .description],
      subset := some "function",
      primaryelement := true,
      label := "Feature" }
  -- src/specification.rs:1028-1052
  | .gap => {
      xmltag := "gap",
      annotationtype := some .GAP,
      acceptedData := [.type .comment, .type .content, .type .description, .type .feature, .type .foreignData, .type .metric, .type .part],
      optionalAttribs := [.ANNOTATOR, .BEGINTIME, .CLASS, .DATETIME, .ENDTIME, .ID, .METADATA, .N, .SRC, .TAG],
      primaryelement := true,
      label := "Gap" }
  -- src/specification.rs:1054-1078
  | .head => {
      xmltag := "head",
      annotationtype := some .HEAD,
      acceptedData := [.group .layer, .group .inline, .type .alternative, .type .alternativeLayers, .type .comment, .type .correction, .type .description, .type .event, .type .external, .type .feature, .type .foreignData, .type .gap, .type .hiddenword, .type .linebreak, .type .metric, .type .paragraph, .type .part, .type .phonContent, .type .reference, .type .relation, .type .sentence, .type .string, .type .textContent, .type .whitespace, .type .word],
      optionalAttribs := [.ANNOTATOR, .BEGINTIME, .CLASS, .CONFIDENCE, .DATETIME, .ENDTIME, .ID, .METADATA, .N, .SPACE, .SPEAKER, .SRC, .TAG],
      textdelimiter := some "\n\n",
      printable := true,
      speakable := true,
      primaryelement := true,
      autoGenerateId := true,
      label := "Head" }
  -- src/specification.rs:1080-1104
  | .headFeature => {
      acceptedData := [.type .comment, .type .description],
      subset := some "head",
      primaryelement := true,
      label := "Feature" }
  -- src/specification.rs:1106-1130
  | .headspan => {
      xmltag := "hd",
      acceptedData := [.group .inline, .type .comment, .type .description, .type .feature, .type .foreignData, .type .linkReference, .type .metric, .type .relation, .type .wordReference],
      optionalAttribs := [.ANNOTATOR, .BEGINTIME, .CLASS, .CONFIDENCE, .DATETIME, .ENDTIME, .ID, .METADATA, .N, .SPEAKER, .SRC, .TAG, .TEXTCLASS],
      occurrences := 1,
      printable := true,
      speakable := true,
      label := "Head" }
  -- src/specification.rs:1132-1156
  | .hiddenword => {
      xmltag := "hiddenw",
      annotationtype := some .HIDDENTOKEN,
      acceptedData := [.group .layer, .group .inline, .type .alternative, .type .alternativeLayers, .type .comment, .type .correction, .type .description, .type .external, .type .feature, .type .foreignData, .type .metric, .type .part, .type .phonContent, .type .reference, .type .relation, .type .string, .type .textContent],
      optionalAttribs := [.ANNOTATOR, .BEGINTIME, .CLASS, .CONFIDENCE, .DATETIME, .ENDTIME, .ID, .METADATA, .N, .SPACE, .SPEAKER, .SRC, .TAG, .TEXTCLASS],
      textdelimiter := some " ",
      printable := true,
      speakable := true,
      hidden := true,
      primaryelement := true,
      autoGenerateId := true,
      wrefable := true,
      label := "Hidden Word/Token" }
  -- src/specification.rs:1158-1182
  | .hyphbreak => {
      xmltag := "t-hbr",
      annotationtype := some .HYPHENATION,
      acceptedData := [.group .textMarkup, .type .comment, .type .description, .type .feature, .type .linebreak],
      optionalAttribs := [.ANNOTATOR, .BEGINTIME, .CLASS, .CONFIDENCE, .DATETIME, .ENDTIME, .ID, .METADATA, .N, .SPEAKER, .SRC, .TAG],
      textdelimiter := some "",
      printable := true,
      xlink := true,
      textcontainer := true,
      label := "Hyphbreak" }
  -- src/specification.rs:1184-1208
  | .label => {
      xmltag := "label",
      acceptedData := [.group .layer, .group .inline, .type .alternative, .type .alternativeLayers, .type .comment, .type .correction, .type .description, .type .external, .type .feature, .type .foreignData, .type .hiddenword, .type .linebreak, .type .metric, .type .part, .type .phonContent, .type .reference, .type .relation, .type .string, .type .textContent, .type .whitespace, .type .word],
      optionalAttribs := [.ANNOTATOR, .BEGINTIME, .CLASS, .CONFIDENCE, .DATETIME, .ENDTIME, .ID, .METADATA, .N, .SPACE, .SPEAKER, .SRC, .TAG],
      textdelimiter := some "\n\n",
      printable := true,
      speakable := true,
      primaryelement := true,
      autoGenerateId := true,
      label := "Label" }
  -- src/specification.rs:1210-1234
  | .langAnnotation => {
      xmltag := "lang",
      annotationtype := some .LANG,
      acceptedData := [.type .comment, .type .description, .type .feature, .type .foreignData, .type .metric],
      requiredAttribs := [.CLASS],
      optionalAttribs := [.ANNOTATOR, .BEGINTIME, .CLASS, .CONFIDENCE, .DATETIME, .ENDTIME, .ID, .METADATA, .N, .SPEAKER, .SRC, .TAG, .TEXTCLASS],
      occurrencesPerSet := 1,
      primaryelement := true,
      label := "Language" }
  -- src/specification.rs:1236-1260
  | .lemmaAnnotation => {
      xmltag := "lemma",
      annotationtype := some .LEMMA,
      acceptedData := [.type .comment, .type .description, .type .feature, .type .foreignData, .type .metric],
      requiredAttribs := [.CLASS],
      optionalAttribs := [.ANNOTATOR, .BEGINTIME, .CLASS, .CONFIDENCE, .DATETIME, .ENDTIME, .ID, .METADATA, .N, .SPEAKER, .SRC, .TAG, .TEXTCLASS],
      occurrencesPerSet := 1,
      primaryelement := true,
      label := "Lemma" }
  -- src/specification.rs:1262-1286
  | .levelFeature => {
      acceptedData := [.type .comment, .type .description],
      subset := some "level",
      primaryelement := true,
      label := "Feature" }
  -- src/specification.rs:1288-1312
  | .linebreak => {
      xmltag := "br",
      annotationtype := some .LINEBREAK,
      acceptedData := [.group .layer, .type .alternative, .type .alternativeLayers, .type .comment, .type .correction, .type .description, .type .external, .type .feature, .type .foreignData, .type .metric, .type .part, .type .relation],
      optionalAttribs := [.ANNOTATOR, .BEGINTIME, .CLASS, .CONFIDENCE, .DATETIME, .ENDTIME, .ID, .METADATA, .N, .SPACE, .SPEAKER, .SRC, .TAG],
      textdelimiter := some "",
      printable := true,
      speakable := true,
      xlink := true,
      primaryelement := true,
      autoGenerateId := true,
      label := "Linebreak" }
  -- src/specification.rs:1314-1337
  | .linkReference => {
      xmltag := "xref",
      acceptedData := [.type .comment, .type .description],
      optionalAttribs := [.IDREF, .TAG],
      primaryelement := true }
  -- src/specification.rs:1339-1363
  | .list => {
      xmltag := "list",
      annotationtype := some .LIST,
      acceptedData := [.group .layer, .group .inline, .type .alternative, .type .alternativeLayers, .type .caption, .type .comment, .type .correction, .type .description, .type .event, .type .external, .type .feature, .type .foreignData, .type .linebreak, .type .listItem, .type .metric, .type .note, .type .part, .type .phonContent, .type .reference, .type .relation, .type .string, .type .textContent],
      optionalAttribs := [.ANNOTATOR, .BEGINTIME, .CLASS, .CONFIDENCE, .DATETIME, .ENDTIME, .ID, .METADATA, .N, .SPACE, .SPEAKER, .SRC, .TAG],
      textdelimiter := some "\n\n",
      printable := true,
      speakable := true,
      primaryelement := true,
      autoGenerateId := true,
      label := "List" }
  -- src/specification.rs:1365-1389
  | .listItem => {
      xmltag := "item",
      acceptedData := [.group .layer, .group .inline, .type .alternative, .type .alternativeLayers, .type .comment, .type .correction, .type .description, .type .event, .type .external, .type .feature, .type .foreignData, .type .gap, .type .hiddenword, .type .label, .type .linebreak, .type .list, .type .metric, .type .note, .type .paragraph, .type .part, .type .phonContent, .type .quote, .type .reference, .type .relation, .type .sentence, .type .string, .type .textContent, .type .whitespace, .type .word],
      optionalAttribs := [.ANNOTATOR, .BEGINTIME, .CLASS, .CONFIDENCE, .DATETIME, .ENDTIME, .ID, .METADATA, .N, .SPACE, .SPEAKER, .SRC, .TAG],
      textdelimiter := some "\n",
      printable := true,
      speakable := true,
      primaryelement := true,
      autoGenerateId := true,
      label := "List Item" }
  -- src/specification.rs:1391-1415
  | .metric => {
      xmltag := "metric",
      annotationtype := some .METRIC,
      acceptedData := [.type .comment, .type .description, .type .feature, .type .foreignData, .type .valueFeature],
      optionalAttribs := [.ANNOTATOR, .BEGINTIME, .CLASS, .CONFIDENCE, .DATETIME, .ENDTIME, .ID, .METADATA, .N, .SPEAKER, .SRC, .TAG],
      primaryelement := true,
      label := "Metric" }
  -- src/specification.rs:1417-1440
  | .modalitiesLayer => {
      xmltag := "modalities",
      annotationtype := some .MODALITY,
      acceptedData := [.type .comment, .type .correction, .type .description, .type .foreignData, .type .modality],
      optionalAttribs := [.ID, .TAG],
      setonly := true }
  -- src/specification.rs:1442-1466
  | .modality => {
      xmltag := "modality",
      annotationtype := some .MODALITY,
      acceptedData := [.group .inline, .type .comment, .type .cue, .type .description, .type .feature, .type .foreignData, .type .linkReference, .type .metric, .type .polarityFeature, .type .relation, .type .scope, .type .source, .type .strengthFeature, .type .target],
      optionalAttribs := [.ANNOTATOR, .BEGINTIME, .CLASS, .CONFIDENCE, .DATETIME, .ENDTIME, .ID, .METADATA, .N, .SPEAKER, .SRC, .TAG, .TEXTCLASS],
      printable := true,
      speakable := true,
      primaryelement := true,
      label := "Modality" }
  -- src/specification.rs:1468-1492
  | .modalityFeature => {
      acceptedData := [.type .comment, .type .description],
      subset := some "mod",
      primaryelement := true,
      label := "Feature" }
  -- src/specification.rs:1494-1518
  | .morpheme => {
      xmltag := "morpheme",
      annotationtype := some .MORPHOLOGICAL,
      acceptedData := [.group .layer, .group .inline, .type .alternative, .type .alternativeLayers, .type .comment, .type .correction, .type .description, .type .feature, .type .foreignData, .type .functionFeature, .type .metric, .type .morpheme, .type .part, .type .phonContent, .type .relation, .type .string, .type .textContent],
      optionalAttribs := [.ANNOTATOR, .BEGINTIME, .CLASS, .CONFIDENCE, .DATETIME, .ENDTIME, .ID, .METADATA, .N, .SPEAKER, .SRC, .TAG],
      textdelimiter := some "",
      printable := true,
      speakable := true,
      primaryelement := true,
      autoGenerateId := true,
      wrefable := true,
      label := "Morpheme" }
  -- src/specification.rs:1520-1543
  | .morphologyLayer => {
      xmltag := "morphology",
      annotationtype := some .MORPHOLOGICAL,
      acceptedData := [.type .comment, .type .correction, .type .description, .type .foreignData, .type .morpheme],
      optionalAttribs := [.ID, .TAG],
      setonly := true }
  -- src/specification.rs:1545-1568
  | .new => {
      xmltag := "new",
      annotationtype := some .CORRECTION,
      acceptedData := [.group .inline, .group .span, .group .structural, .type .comment, .type .correction, .type .description, .type .foreignData, .type .metric, .type .phonContent, .type .string, .type .textContent],
      optionalAttribs := [.ANNOTATOR, .CONFIDENCE, .DATETIME, .ID, .N, .TAG],
      occurrences := 1,
      printable := true,
      speakable := true }
  -- src/specification.rs:1570-1594
  | .note => {
      xmltag := "note",
      annotationtype := some .NOTE,
      acceptedData := [.group .layer, .group .inline, .type .alternative, .type .alternativeLayers, .type .comment, .type .correction, .type .description, .type .exampleElt, .type .external, .type .feature, .type .figure, .type .foreignData, .type .head, .type .hiddenword, .type .linebreak, .type .list, .type .metric, .type .paragraph, .type .part, .type .phonContent, .type .reference, .type .relation, .type .sentence, .type .string, .type .table, .type .textContent, .type .utterance, .type .whitespace, .type .word],
      optionalAttribs := [.ANNOTATOR, .BEGINTIME, .CLASS, .CONFIDENCE, .DATETIME, .ENDTIME, .ID, .METADATA, .N, .SPACE, .SPEAKER, .SRC, .TAG],
      textdelimiter := some "\n\n",
      printable := true,
      speakable := true,
      primaryelement := true,
      autoGenerateId := true,
      label := "Note" }
  -- src/specification.rs:1596-1620
  | .observation => {
      xmltag := "observation",
      annotationtype := some .OBSERVATION,
      acceptedData := [.group .inline, .type .comment, .type .description, .type .feature, .type .foreignData, .type .linkReference, .type .metric, .type .relation, .type .wordReference],
      optionalAttribs := [.ANNOTATOR, .BEGINTIME, .CLASS, .CONFIDENCE, .DATETIME, .ENDTIME, .ID, .METADATA, .N, .SPEAKER, .SRC, .TAG, .TEXTCLASS],
      printable := true,
      speakable := true,
      primaryelement := true,
      label := "Observation" }
  -- src/specification.rs:1622-1645
  | .observationLayer => {
      xmltag := "observations",
      annotationtype := some .OBSERVATION,
      acceptedData := [.type .comment, .type .correction, .type .description, .type .foreignData, .type .observation],
      optionalAttribs := [.ID, .TAG],
      setonly := true }
  -- src/specification.rs:1647-1670
  | .original => {
      xmltag := "original",
      annotationtype := some .CORRECTION,
      acceptedData := [.group .inline, .group .span, .group .structural, .type .comment, .type .correction, .type .description, .type .foreignData, .type .metric, .type .phonContent, .type .string, .type .textContent],
      optionalAttribs := [.ANNOTATOR, .CONFIDENCE, .DATETIME, .ID, .N, .TAG],
      occurrences := 1,
      printable := true,
      speakable := true,
      auth := false }
  -- src/specification.rs:1672-1696
  | .paragraph => {
      xmltag := "p",
      annotationtype := some .PARAGRAPH,
      acceptedData := [.group .layer, .group .inline, .type .alternative, .type .alternativeLayers, .type .comment, .type .correction, .type .description, .type .entry, .type .event, .type .exampleElt, .type .external, .type .feature, .type .figure, .type .foreignData, .type .gap, .type .head, .type .hiddenword, .type .linebreak, .type .list, .type .metric, .type .note, .type .part, .type .phonContent, .type .quote, .type .reference, .type .relation, .type .sentence, .type .string, .type .textContent, .type .whitespace, .type .word],
      optionalAttribs := [.ANNOTATOR, .BEGINTIME, .CLASS, .CONFIDENCE, .DATETIME, .ENDTIME, .ID, .METADATA, .N, .SPACE, .SPEAKER, .SRC, .TAG],
      textdelimiter := some "\n\n",
      printable := true,
      speakable := true,
      primaryelement := true,
      autoGenerateId := true,
      label := "Paragraph" }
  -- src/specification.rs:1698-1722
  | .part => {
      xmltag := "part",
      annotationtype := some .PART,
      acceptedData := [.group .layer, .group .inline, .group .structural, .type .alternative, .type .alternativeLayers, .type .comment, .type .correction, .type .description, .type .external, .type .feature, .type .foreignData, .type .metric, .type .part, .type .phonContent, .type .relation, .type .textContent],
      optionalAttribs := [.ANNOTATOR, .BEGINTIME, .CLASS, .CONFIDENCE, .DATETIME, .ENDTIME, .ID, .METADATA, .N, .SPACE, .SPEAKER, .SRC, .TAG],
      textdelimiter := some " ",
      printable := true,
      speakable := true,
      primaryelement := true,
      autoGenerateId := true,
      label := "Part" }
  -- src/specification.rs:1724-1748
  | .phonContent => {
      xmltag := "ph",
      annotationtype := some .PHON,
      acceptedData := [.type .comment, .type .description, .type .feature],
      optionalAttribs := [.ANNOTATOR, .CLASS, .CONFIDENCE, .DATETIME, .METADATA, .TAG],
      speakable := true,
      phoncontainer := true,
      primaryelement := true,
      label := "Phonetic Content" }
  -- src/specification.rs:1750-1774
  | .phoneme => {
      xmltag := "phoneme",
      annotationtype := some .PHONOLOGICAL,
      acceptedData := [.group .layer, .group .inline, .type .alternative, .type .alternativeLayers, .type .comment, .type .correction, .type .description, .type .feature, .type .foreignData, .type .functionFeature, .type .metric, .type .part, .type .phonContent, .type .phoneme, .type .relation, .type .string, .type .textContent],
      optionalAttribs := [.ANNOTATOR, .BEGINTIME, .CLASS, .CONFIDENCE, .DATETIME, .ENDTIME, .ID, .METADATA, .N, .SPEAKER, .SRC, .TAG],
      textdelimiter := some "",
      printable := true,
      speakable := true,
      primaryelement := true,
      autoGenerateId := true,
      wrefable := true,
      label := "Phoneme" }
  -- src/specification.rs:1776-1799
  | .phonologyLayer => {
      xmltag := "phonology",
      annotationtype := some .PHONOLOGICAL,
      acceptedData := [.type .comment, .type .correction, .type .description, .type .foreignData, .type .phoneme],
      optionalAttribs := [.ID, .TAG],
      setonly := true }
  -- src/specification.rs:1801-1825
  | .polarityFeature => {
      acceptedData := [.type .comment, .type .description],
      subset := some "polarity",
      primaryelement := true,
      label := "Feature" }
  -- src/specification.rs:1827-1851
  | .posAnnotation => {
      xmltag := "pos",
      annotationtype := some .POS,
      acceptedData := [.type .comment, .type .description, .type .feature, .type .foreignData, .type .headFeature, .type .metric],
      requiredAttribs := [.CLASS],
      optionalAttribs := [.ANNOTATOR, .BEGINTIME, .CLASS, .CONFIDENCE, .DATETIME, .ENDTIME, .ID, .METADATA, .N, .SPEAKER, .SRC, .TAG, .TEXTCLASS],
      occurrencesPerSet := 1,
      primaryelement := true,
      label := "Part-of-Speech" }
  -- src/specification.rs:1853-1877
  | .predicate => {
      xmltag := "predicate",
      annotationtype := some .PREDICATE,
      acceptedData := [.group .inline, .type .comment, .type .description, .type .feature, .type .foreignData, .type .linkReference, .type .metric, .type .relation, .type .semanticRole, .type .wordReference],
      optionalAttribs := [.ANNOTATOR, .BEGINTIME, .CLASS, .CONFIDENCE, .DATETIME, .ENDTIME, .ID, .METADATA, .N, .SPEAKER, .SRC, .TAG, .TEXTCLASS],
      printable := true,
      speakable := true,
      primaryelement := true,
      label := "Predicate" }
  -- src/specification.rs:1879-1903
  | .quote => {
      xmltag := "quote",
      annotationtype := some .QUOTE,
      acceptedData := [.group .layer, .group .inline, .type .alternative, .type .alternativeLayers, .type .comment, .type .correction, .type .description, .type .division, .type .external, .type .feature, .type .foreignData, .type .gap, .type .hiddenword, .type .linebreak, .type .metric, .type .paragraph, .type .part, .type .quote, .type .reference, .type .relation, .type .sentence, .type .string, .type .textContent, .type .utterance, .type .whitespace, .type .word],
      optionalAttribs := [.ANNOTATOR, .BEGINTIME, .CLASS, .CONFIDENCE, .DATETIME, .ENDTIME, .ID, .METADATA, .N, .SPACE, .SPEAKER, .SRC, .TAG],
      textdelimiter := some "\n\n",
      printable := true,
      speakable := true,
      primaryelement := true,
      autoGenerateId := true,
      label := "Quote" }
  -- src/specification.rs:1905-1929
  | .reference => {
      xmltag := "ref",
      annotationtype := some .REFERENCE,
      acceptedData := [.group .layer, .type .alternative, .type .alternativeLayers, .type .comment, .type .correction, .type .description, .type .external, .type .feature, .type .foreignData, .type .hiddenword, .type .linebreak, .type .metric, .type .paragraph, .type .part, .type .phonContent, .type .quote, .type .relation, .type .sentence, .type .string, .type .textContent, .type .utterance, .type .whitespace, .type .word],
      optionalAttribs := [.ANNOTATOR, .BEGINTIME, .CLASS, .CONFIDENCE, .DATETIME, .ENDTIME, .ID, .METADATA, .N, .SPACE, .SPEAKER, .SRC, .TAG],
      textdelimiter := some " ",
      printable := true,
      speakable := true,
      xlink := true,
      primaryelement := true,
      autoGenerateId := true,
      label := "Reference" }
  -- src/specification.rs:1931-1955
  | .relation => {
      xmltag := "relation",
      annotationtype := some .RELATION,
      acceptedData := [.type .comment, .type .description, .type .feature, .type .foreignData, .type .linkReference, .type .metric],
      optionalAttribs := [.ANNOTATOR, .BEGINTIME, .CLASS, .CONFIDENCE, .DATETIME, .ENDTIME, .ID, .METADATA, .N, .SPEAKER, .SRC, .TAG],
      xlink := true,
      primaryelement := true,
      label := "Relation" }
  -- src/specification.rs:1957-1981
  | .row => {
      xmltag := "row",
      acceptedData := [.group .layer, .group .inline, .type .alternative, .type .alternativeLayers, .type .cell, .type .comment, .type .correction, .type .description, .type .external, .type .feature, .type .foreignData, .type .metric, .type .part, .type .relation],
      optionalAttribs := [.ANNOTATOR, .BEGINTIME, .CLASS, .CONFIDENCE, .DATETIME, .ENDTIME, .ID, .METADATA, .N, .SPACE, .SPEAKER, .SRC, .TAG],
      textdelimiter := some "\n",
      printable := true,
      speakable := true,
      primaryelement := true,
      autoGenerateId := true,
      label := "Table Row" }
  -- src/specification.rs:1983-2007
  | .scope => {
      xmltag := "scope",
      acceptedData := [.group .inline, .type .comment, .type .cue, .type .description, .type .feature, .type .foreignData, .type .linkReference, .type .metric, .type .relation, .type .source, .type .target, .type .wordReference],
      optionalAttribs := [.ANNOTATOR, .BEGINTIME, .CLASS, .CONFIDENCE, .DATETIME, .ENDTIME, .ID, .METADATA, .N, .SPEAKER, .SRC, .TAG, .TEXTCLASS],
      occurrences := 1,
      printable := true,
      speakable := true,
      label := "Scope" }
  -- src/specification.rs:2009-2033
  | .semanticRole => {
      xmltag := "semrole",
      annotationtype := some .SEMROLE,
      acceptedData := [.group .inline, .type .comment, .type .description, .type .feature, .type .foreignData, .type .headspan, .type .linkReference, .type .metric, .type .relation, .type .wordReference],
      requiredAttribs := [.CLASS],
      optionalAttribs := [.ANNOTATOR, .BEGINTIME, .CLASS, .CONFIDENCE, .DATETIME, .ENDTIME, .ID, .METADATA, .N, .SPEAKER, .SRC, .TAG, .TEXTCLASS],
      printable := true,
      speakable := true,
      primaryelement := true,
      label := "Semantic Role" }
  -- src/specification.rs:2035-2058
  | .semanticRolesLayer => {
      xmltag := "semroles",
      annotationtype := some .SEMROLE,
      acceptedData := [.type .comment, .type .correction, .type .description, .type .foreignData, .type .predicate, .type .semanticRole],
      optionalAttribs := [.ID, .TAG],
      setonly := true }
  -- src/specification.rs:2060-2084
  | .senseAnnotation => {
      xmltag := "sense",
      annotationtype := some .SENSE,
      acceptedData := [.type .comment, .type .description, .type .feature, .type .foreignData, .type .metric, .type .synsetFeature],
      requiredAttribs := [.CLASS],
      optionalAttribs := [.ANNOTATOR, .BEGINTIME, .CLASS, .CONFIDENCE, .DATETIME, .ENDTIME, .ID, .METADATA, .N, .SPEAKER, .SRC, .TAG, .TEXTCLASS],
      primaryelement := true,
      label := "Semantic Sense" }
  -- src/specification.rs:2086-2110
  | .sentence => {
      xmltag := "s",
      annotationtype := some .SENTENCE,
      acceptedData := [.group .layer, .group .inline, .type .alternative, .type .alternativeLayers, .type .comment, .type .correction, .type .description, .type .entry, .type .event, .type .exampleElt, .type .external, .type .feature, .type .foreignData, .type .gap, .type .hiddenword, .type .linebreak, .type .metric, .type .note, .type .part, .type .phonContent, .type .quote, .type .reference, .type .relation, .type .string, .type .textContent, .type .whitespace, .type .word],
      optionalAttribs := [.ANNOTATOR, .BEGINTIME, .CLASS, .CONFIDENCE, .DATETIME, .ENDTIME, .ID, .METADATA, .N, .SPACE, .SPEAKER, .SRC, .TAG],
      textdelimiter := some " ",
      printable := true,
      speakable := true,
      primaryelement := true,
      autoGenerateId := true,
      label := "Sentence" }
  -- src/specification.rs:2112-2136
  | .sentiment => {
      xmltag := "sentiment",
      annotationtype := some .SENTIMENT,
      acceptedData := [.group .inline, .type .comment, .type .description, .type .feature, .type .foreignData, .type .headspan, .type .linkReference, .type .metric, .type .polarityFeature, .type .relation, .type .source, .type .strengthFeature, .type .target, .type .wordReference],
      optionalAttribs := [.ANNOTATOR, .BEGINTIME, .CLASS, .CONFIDENCE, .DATETIME, .ENDTIME, .ID, .METADATA, .N, .SPEAKER, .SRC, .TAG, .TEXTCLASS],
      printable := true,
      speakable := true,
      primaryelement := true,
      label := "Sentiment" }
  -- src/specification.rs:2138-2161
  | .sentimentLayer => {
      xmltag := "sentiments",
      annotationtype := some .SENTIMENT,
      acceptedData := [.type .comment, .type .correction, .type .description, .type .foreignData, .type .sentiment],
      optionalAttribs := [.ID, .TAG],
      setonly := true }
  -- src/specification.rs:2163-2187
  | .sizeFeature => {
      acceptedData := [.type .comment, .type .description],
      subset := some "size",
      primaryelement := true,
      label := "Feature" }
  -- src/specification.rs:2189-2213
  | .source => {
      xmltag := "source",
      acceptedData := [.group .inline, .type .comment, .type .description, .type .feature, .type .foreignData, .type .linkReference, .type .metric, .type .relation, .type .wordReference],
      optionalAttribs := [.ANNOTATOR, .BEGINTIME, .CLASS, .CONFIDENCE, .DATETIME, .ENDTIME, .ID, .METADATA, .N, .SPEAKER, .SRC, .TAG, .TEXTCLASS],
      occurrences := 1,
      printable := true,
      speakable := true,
      label := "Source" }
  -- src/specification.rs:2215-2239
  | .spanRelation => {
      xmltag := "spanrelation",
      annotationtype := some .SPANRELATION,
      acceptedData := [.type .comment, .type .description, .type .feature, .type .foreignData, .type .metric, .type .relation],
      optionalAttribs := [.ANNOTATOR, .BEGINTIME, .CLASS, .CONFIDENCE, .DATETIME, .ENDTIME, .ID, .METADATA, .N, .SPEAKER, .SRC, .TAG],
      primaryelement := true,
      label := "Span Relation" }
  -- src/specification.rs:2241-2264
  | .spanRelationLayer => {
      xmltag := "spanrelations",
      annotationtype := some .SPANRELATION,
      acceptedData := [.type .comment, .type .correction, .type .description, .type .foreignData, .type .spanRelation],
      optionalAttribs := [.ID, .TAG],
      setonly := true }
  -- src/specification.rs:2266-2290
  | .speech => {
      xmltag := "speech",
      acceptedData := [.group .layer, .group .inline, .type .alternative, .type .alternativeLayers, .type .comment, .type .correction, .type .description, .type .division, .type .entry, .type .event, .type .exampleElt, .type .external, .type .feature, .type .foreignData, .type .gap, .type .hiddenword, .type .list, .type .metric, .type .note, .type .paragraph, .type .part, .type .phonContent, .type .quote, .type .reference, .type .relation, .type .sentence, .type .string, .type .textContent, .type .utterance, .type .word],
      optionalAttribs := [.ANNOTATOR, .BEGINTIME, .CLASS, .CONFIDENCE, .DATETIME, .ENDTIME, .ID, .METADATA, .N, .SPACE, .SPEAKER, .SRC, .TAG],
      textdelimiter := some "\n\n\n",
      printable := true,
      speakable := true,
      primaryelement := true,
      autoGenerateId := true,
      label := "Speech Body" }
  -- src/specification.rs:2292-2316
  | .statement => {
      xmltag := "statement",
      annotationtype := some .STATEMENT,
      acceptedData := [.group .inline, .type .comment, .type .description, .type .feature, .type .foreignData, .type .headspan, .type .linkReference, .type .metric, .type .relation, .type .source, .type .statementRelation, .type .wordReference],
      optionalAttribs := [.ANNOTATOR, .BEGINTIME, .CLASS, .CONFIDENCE, .DATETIME, .ENDTIME, .ID, .METADATA, .N, .SPEAKER, .SRC, .TAG, .TEXTCLASS],
      printable := true,
      speakable := true,
      primaryelement := true,
      label := "Statement" }
  -- src/specification.rs:2318-2341
  | .statementLayer => {
      xmltag := "statements",
      annotationtype := some .STATEMENT,
      acceptedData := [.type .comment, .type .correction, .type .description, .type .foreignData, .type .statement],
      optionalAttribs := [.ID, .TAG],
      setonly := true }
  -- src/specification.rs:2343-2367
  | .statementRelation => {
      xmltag := "rel",
      acceptedData := [.group .inline, .type .comment, .type .description, .type .feature, .type .foreignData, .type .linkReference, .type .metric, .type .relation, .type .wordReference],
      optionalAttribs := [.ANNOTATOR, .BEGINTIME, .CLASS, .CONFIDENCE, .DATETIME, .ENDTIME, .ID, .METADATA, .N, .SPEAKER, .SRC, .TAG, .TEXTCLASS],
      occurrences := 1,
      printable := true,
      speakable := true,
      label := "Relation" }
  -- src/specification.rs:2369-2393
  | .strengthFeature => {
      acceptedData := [.type .comment, .type .description],
      subset := some "strength",
      primaryelement := true,
      label := "Feature" }
  -- src/specification.rs:2395-2419
  | .string => {
      xmltag := "str",
      annotationtype := some .STRING,
      acceptedData := [.group .inline, .type .comment, .type .correction, .type .description, .type .feature, .type .foreignData, .type .metric, .type .phonContent, .type .relation, .type .textContent],
      optionalAttribs := [.ANNOTATOR, .BEGINTIME, .CLASS, .CONFIDENCE, .DATETIME, .ENDTIME, .ID, .METADATA, .N, .SRC, .TAG],
      printable := true,
      primaryelement := true,
      label := "String" }
  -- src/specification.rs:2421-2445
  | .styleFeature => {
      acceptedData := [.type .comment, .type .description],
      subset := some "style",
      primaryelement := true,
      label := "Feature" }
  -- src/specification.rs:2447-2471
  | .subjectivityAnnotation => {
      xmltag := "subjectivity",
      annotationtype := some .SUBJECTIVITY,
      acceptedData := [.type .comment, .type .description, .type .feature, .type .foreignData, .type .metric],
      requiredAttribs := [.CLASS],
      optionalAttribs := [.ANNOTATOR, .BEGINTIME, .CLASS, .CONFIDENCE, .DATETIME, .ENDTIME, .ID, .METADATA, .N, .SPEAKER, .SRC, .TAG, .TEXTCLASS],
      occurrencesPerSet := 1,
      primaryelement := true,
      label := "Subjectivity/Sentiment" }
  -- src/specification.rs:2473-2496
  | .suggestion => {
      xmltag := "suggestion",
      annotationtype := some .CORRECTION,
      acceptedData := [.group .inline, .group .span, .group .structural, .type .comment, .type .correction, .type .description, .type .foreignData, .type .metric, .type .phonContent, .type .string, .type .textContent],
      optionalAttribs := [.ANNOTATOR, .CONFIDENCE, .DATETIME, .ID, .N, .TAG],
      printable := true,
      speakable := true,
      auth := false }
  -- src/specification.rs:2498-2522
  | .synsetFeature => {
      acceptedData := [.type .comment, .type .description],
      subset := some "synset",
      primaryelement := true,
      label := "Feature" }
  -- src/specification.rs:2524-2548
  | .syntacticUnit => {
      xmltag := "su",
      annotationtype := some .SYNTAX,
      acceptedData := [.group .inline, .type .comment, .type .description, .type .feature, .type .foreignData, .type .linkReference, .type .metric, .type .relation, .type .syntacticUnit, .type .wordReference],
      optionalAttribs := [.ANNOTATOR, .BEGINTIME, .CLASS, .CONFIDENCE, .DATETIME, .ENDTIME, .ID, .METADATA, .N, .SPEAKER, .SRC, .TAG, .TEXTCLASS],
      printable := true,
      speakable := true,
      primaryelement := true,
      label := "Syntactic Unit" }
  -- src/specification.rs:2550-2573
  | .syntaxLayer => {
      xmltag := "syntax",
      annotationtype := some .SYNTAX,
      acceptedData := [.type .comment, .type .correction, .type .description, .type .foreignData, .type .syntacticUnit],
      optionalAttribs := [.ID, .TAG],
      setonly := true }
  -- src/specification.rs:2575-2599
  | .table => {
      xmltag := "table",
      annotationtype := some .TABLE,
      acceptedData := [.group .layer, .group .inline, .type .alternative, .type .alternativeLayers, .type .comment, .type .correction, .type .description, .type .external, .type .feature, .type .foreignData, .type .linebreak, .type .metric, .type .part, .type .relation, .type .row, .type .tableHead],
      optionalAttribs := [.ANNOTATOR, .BEGINTIME, .CLASS, .CONFIDENCE, .DATETIME, .ENDTIME, .ID, .METADATA, .N, .SPACE, .SPEAKER, .SRC, .TAG],
      textdelimiter := some "\n\n",
      printable := true,
      speakable := true,
      primaryelement := true,
      autoGenerateId := true,
      label := "Table" }
  -- src/specification.rs:2601-2625
  | .tableHead => {
      xmltag := "tablehead",
      acceptedData := [.group .layer, .group .inline, .type .alternative, .type .alternativeLayers, .type .comment, .type .correction, .type .description, .type .external, .type .feature, .type .foreignData, .type .metric, .type .part, .type .relation, .type .row],
      optionalAttribs := [.ANNOTATOR, .BEGINTIME, .CLASS, .CONFIDENCE, .DATETIME, .ENDTIME, .ID, .METADATA, .N, .SPACE, .SPEAKER, .SRC, .TAG],
      textdelimiter := some "\n\n",
      printable := true,
      speakable := true,
      primaryelement := true,
      autoGenerateId := true,
      label := "Table Header" }
  -- src/specification.rs:2627-2651
  | .target => {
      xmltag := "target",
      acceptedData := [.group .inline, .type .comment, .type .description, .type .feature, .type .foreignData, .type .linkReference, .type .metric, .type .relation, .type .wordReference],
      optionalAttribs := [.ANNOTATOR, .BEGINTIME, .CLASS, .CONFIDENCE, .DATETIME, .ENDTIME, .ID, .METADATA, .N, .SPEAKER, .SRC, .TAG, .TEXTCLASS],
      occurrences := 1,
      printable := true,
      speakable := true,
      label := "Target" }
  -- src/specification.rs:2653-2677
  | .term => {
      xmltag := "term",
      annotationtype := some .TERM,
      acceptedData := [.group .layer, .group .inline, .type .alternative, .type .alternativeLayers, .type .comment, .type .correction, .type .description, .type .event, .type .external, .type .feature, .type .figure, .type .foreignData, .type .gap, .type .hiddenword, .type .linebreak, .type .list, .type .metric, .type .paragraph, .type .part, .type .phonContent, .type .reference, .type .relation, .type .sentence, .type .string, .type .table, .type .textContent, .type .utterance, .type .whitespace, .type .word],
      optionalAttribs := [.ANNOTATOR, .BEGINTIME, .CLASS, .CONFIDENCE, .DATETIME, .ENDTIME, .ID, .METADATA, .N, .SPACE, .SPEAKER, .SRC, .TAG],
      textdelimiter := some "\n\n",
      printable := true,
      speakable := true,
      primaryelement := true,
      autoGenerateId := true,
      label := "Term" }
  -- src/specification.rs:2679-2703
  | .text => {
      xmltag := "text",
      acceptedData := [.group .layer, .group .inline, .type .alternative, .type .alternativeLayers, .type .comment, .type .correction, .type .description, .type .division, .type .entry, .type .event, .type .exampleElt, .type .external, .type .feature, .type .figure, .type .foreignData, .type .gap, .type .hiddenword, .type .linebreak, .type .list, .type .metric, .type .note, .type .paragraph, .type .part, .type .phonContent, .type .quote, .type .reference, .type .relation, .type .sentence, .type .string, .type .table, .type .textContent, .type .whitespace, .type .word],
      optionalAttribs := [.ANNOTATOR, .BEGINTIME, .CLASS, .CONFIDENCE, .DATETIME, .ENDTIME, .ID, .METADATA, .N, .SPACE, .SPEAKER, .SRC, .TAG],
      textdelimiter := some "\n\n\n",
      printable := true,
      speakable := true,
      primaryelement := true,
      autoGenerateId := true,
      label := "Text Body" }
  -- src/specification.rs:2705-2729
  | .textContent => {
      xmltag := "t",
      annotationtype := some .TEXT,
      acceptedData := [.group .textMarkup, .type .comment, .type .description, .type .feature, .type .linebreak],
      optionalAttribs := [.ANNOTATOR, .CLASS, .CONFIDENCE, .DATETIME, .METADATA, .TAG],
      printable := true,
      xlink := true,
      textcontainer := true,
      primaryelement := true,
      label := "Text" }
  -- src/specification.rs:2731-2754
  | .textMarkupCorrection => {
      xmltag := "t-correction",
      annotationtype := some .CORRECTION,
      acceptedData := [.group .textMarkup, .type .comment, .type .description, .type .feature, .type .linebreak],
      optionalAttribs := [.ANNOTATOR, .BEGINTIME, .CLASS, .CONFIDENCE, .DATETIME, .ENDTIME, .ID, .METADATA, .N, .SPEAKER, .SRC, .TAG],
      textdelimiter := some "",
      printable := true,
      xlink := true,
      textcontainer := true }
  -- src/specification.rs:2756-2779
  | .textMarkupError => {
      xmltag := "t-error",
      annotationtype := some .ERRORDETECTION,
      acceptedData := [.group .textMarkup, .type .comment, .type .description, .type .feature, .type .linebreak],
      optionalAttribs := [.ANNOTATOR, .BEGINTIME, .CLASS, .CONFIDENCE, .DATETIME, .ENDTIME, .ID, .METADATA, .N, .SPEAKER, .SRC, .TAG],
      textdelimiter := some "",
      printable := true,
      xlink := true,
      textcontainer := true }
  -- src/specification.rs:2781-2804
  | .textMarkupGap => {
      xmltag := "t-gap",
      annotationtype := some .GAP,
      acceptedData := [.group .textMarkup, .type .comment, .type .description, .type .feature, .type .linebreak],
      optionalAttribs := [.ANNOTATOR, .BEGINTIME, .CLASS, .CONFIDENCE, .DATETIME, .ENDTIME, .ID, .METADATA, .N, .SPEAKER, .SRC, .TAG],
      textdelimiter := some "",
      printable := true,
      xlink := true,
      textcontainer := true }
  -- src/specification.rs:2806-2829
  | .textMarkupHSpace => {
      xmltag := "t-hspace",
      annotationtype := some .HSPACE,
      acceptedData := [.group .textMarkup, .type .comment, .type .description, .type .feature, .type .linebreak],
      optionalAttribs := [.ANNOTATOR, .BEGINTIME, .CLASS, .CONFIDENCE, .DATETIME, .ENDTIME, .ID, .METADATA, .N, .SPEAKER, .SRC, .TAG],
      textdelimiter := some "",
      printable := true,
      xlink := true,
      textcontainer := true }
  -- src/specification.rs:2831-2854
  | .textMarkupLanguage => {
      xmltag := "t-lang",
      annotationtype := some .LANG,
      acceptedData := [.group .textMarkup, .type .comment, .type .description, .type .feature, .type .linebreak],
      optionalAttribs := [.ANNOTATOR, .BEGINTIME, .CLASS, .CONFIDENCE, .DATETIME, .ENDTIME, .ID, .METADATA, .N, .SPEAKER, .SRC, .TAG],
      textdelimiter := some "",
      printable := true,
      xlink := true,
      textcontainer := true }
  -- src/specification.rs:2856-2879
  | .textMarkupReference => {
      xmltag := "t-ref",
      annotationtype := some .REFERENCE,
      acceptedData := [.group .textMarkup, .type .comment, .type .description, .type .feature, .type .linebreak],
      optionalAttribs := [.ANNOTATOR, .BEGINTIME, .CLASS, .CONFIDENCE, .DATETIME, .ENDTIME, .ID, .METADATA, .N, .SPEAKER, .SRC, .TAG],
      textdelimiter := some "",
      printable := true,
      xlink := true,
      textcontainer := true }
  -- src/specification.rs:2881-2904
  | .textMarkupString => {
      xmltag := "t-str",
      annotationtype := some .STRING,
      acceptedData := [.group .textMarkup, .type .comment, .type .description, .type .feature, .type .linebreak],
      optionalAttribs := [.ANNOTATOR, .BEGINTIME, .CLASS, .CONFIDENCE, .DATETIME, .ENDTIME, .ID, .METADATA, .N, .SPEAKER, .SRC, .TAG],
      textdelimiter := some "",
      printable := true,
      xlink := true,
      textcontainer := true }
  -- src/specification.rs:2906-2929
  | .textMarkupStyle => {
      xmltag := "t-style",
      annotationtype := some .STYLE,
      acceptedData := [.group .textMarkup, .type .comment, .type .description, .type .feature, .type .fontFeature, .type .linebreak, .type .sizeFeature],
      optionalAttribs := [.ANNOTATOR, .BEGINTIME, .CLASS, .CONFIDENCE, .DATETIME, .ENDTIME, .ID, .METADATA, .N, .SPEAKER, .SRC, .TAG],
      textdelimiter := some "",
      printable := true,
      xlink := true,
      textcontainer := true,
      primaryelement := true }
  -- src/specification.rs:2931-2954
  | .textMarkupWhitespace => {
      xmltag := "t-whitespace",
      annotationtype := some .WHITESPACE,
      acceptedData := [.group .textMarkup, .type .comment, .type .description, .type .feature, .type .linebreak],
      optionalAttribs := [.ANNOTATOR, .BEGINTIME, .CLASS, .CONFIDENCE, .DATETIME, .ENDTIME, .ID, .METADATA, .N, .SPEAKER, .SRC, .TAG],
      textdelimiter := some "",
      printable := true,
      xlink := true,
      textcontainer := true }
  -- src/specification.rs:2956-2980
  | .timeFeature => {
      acceptedData := [.type .comment, .type .description],
      subset := some "time",
      primaryelement := true,
      label := "Feature" }
  -- src/specification.rs:2982-3006
  | .timeSegment => {
      xmltag := "timesegment",
      annotationtype := some .TIMESEGMENT,
      acceptedData := [.group .inline, .type .actorFeature, .type .begindatetimeFeature, .type .comment, .type .description, .type .enddatetimeFeature, .type .feature, .type .foreignData, .type .linkReference, .type .metric, .type .relation, .type .wordReference],
      optionalAttribs := [.ANNOTATOR, .BEGINTIME, .CLASS, .CONFIDENCE, .DATETIME, .ENDTIME, .ID, .METADATA, .N, .SPEAKER, .SRC, .TAG, .TEXTCLASS],
      printable := true,
      speakable := true,
      primaryelement := true,
      label := "Time Segment" }
  -- src/specification.rs:3008-3031
  | .timingLayer => {
      xmltag := "timing",
      annotationtype := some .TIMESEGMENT,
      acceptedData := [.type .comment, .type .correction, .type .description, .type .foreignData, .type .timeSegment],
      optionalAttribs := [.ID, .TAG],
      setonly := true }
  -- src/specification.rs:3033-3057
  | .utterance => {
      xmltag := "utt",
      annotationtype := some .UTTERANCE,
      acceptedData := [.group .layer, .group .inline, .type .alternative, .type .alternativeLayers, .type .comment, .type .correction, .type .description, .type .external, .type .feature, .type .foreignData, .type .gap, .type .hiddenword, .type .metric, .type .note, .type .part, .type .phonContent, .type .quote, .type .reference, .type .relation, .type .sentence, .type .string, .type .textContent, .type .word],
      optionalAttribs := [.ANNOTATOR, .BEGINTIME, .CLASS, .CONFIDENCE, .DATETIME, .ENDTIME, .ID, .METADATA, .N, .SPACE, .SPEAKER, .SRC, .TAG],
      textdelimiter := some " ",
      printable := true,
      speakable := true,
      primaryelement := true,
      autoGenerateId := true,
      label := "Utterance" }
  -- src/specification.rs:3059-3083
  | .valueFeature => {
      acceptedData := [.type .comment, .type .description],
      subset := some "value",
      primaryelement := true,
      label := "Feature" }
  -- src/specification.rs:3085-3109
  | .whitespace => {
      xmltag := "whitespace",
      annotationtype := some .WHITESPACE,
      acceptedData := [.group .layer, .type .alternative, .type .alternativeLayers, .type .comment, .type .correction, .type .description, .type .external, .type .feature, .type .foreignData, .type .metric, .type .part, .type .relation],
      optionalAttribs := [.ANNOTATOR, .BEGINTIME, .CLASS, .CONFIDENCE, .DATETIME, .ENDTIME, .ID, .METADATA, .N, .SPACE, .SPEAKER, .SRC, .TAG],
      textdelimiter := some "",
      printable := true,
      speakable := true,
      primaryelement := true,
      autoGenerateId := true,
      label := "Whitespace" }
  -- src/specification.rs:3111-3135
  | .word => {
      xmltag := "w",
      annotationtype := some .TOKEN,
      acceptedData := [.group .layer, .group .inline, .type .alternative, .type .alternativeLayers, .type .comment, .type .correction, .type .description, .type .external, .type .feature, .type .foreignData, .type .metric, .type .part, .type .phonContent, .type .reference, .type .relation, .type .string, .type .textContent],
      optionalAttribs := [.ANNOTATOR, .BEGINTIME, .CLASS, .CONFIDENCE, .DATETIME, .ENDTIME, .ID, .METADATA, .N, .SPACE, .SPEAKER, .SRC, .TAG, .TEXTCLASS],
      textdelimiter := some " ",
      printable := true,
      speakable := true,
      primaryelement := true,
      autoGenerateId := true,
      wrefable := true,
      label := "Word/Token" }
  -- src/specification.rs:3137-3160
  | .wordReference => {
      xmltag := "wref",
      acceptedData := [.type .comment, .type .description],
      optionalAttribs := [.IDREF, .TAG],
      primaryelement := true }

end Folia
