/-! Attribute types (`src/attrib.rs`). -/
namespace Folia

/-- `AttribType` (src/attrib.rs:21-23). -/
inductive AttribType where
  | NONE | ID | SET | CLASS | ANNOTATOR | ANNOTATORTYPE | CONFIDENCE | N | DATETIME | BEGINTIME | ENDTIME | SRC | SPEAKER
  | TEXTCLASS | METADATA | IDREF | SPACE | PROCESSOR | HREF | FORMAT | SUBSET | TEXT | TYPE | AUTH | OFFSET | REF | ORIGINAL
  | LINENR | PAGENR | NEWPAGE | XLINKTYPE | TAG
  deriving DecidableEq, Repr, Inhabited

/-- `Into<&str> for AttribType` (src/attrib.rs:25-63). -/
def AttribType.asStr : AttribType → String
  | .NONE => "NONE"
  | .ID => "xml:id"
  | .SET => "set"
  | .CLASS => "class"
  | .ANNOTATOR => "annotator"
  | .ANNOTATORTYPE => "annotatortype"
  | .CONFIDENCE => "confidence"
  | .N => "n"
  | .DATETIME => "datetime"
  | .BEGINTIME => "begintime"
  | .ENDTIME => "endtime"
  | .SRC => "src"
  | .SPEAKER => "speaker"
  | .TEXTCLASS => "textclass"
  | .METADATA => "metadata"
  | .IDREF => "id"
  | .SPACE => "space"
  | .PROCESSOR => "processor"
  | .HREF => "xlink:href"
  | .FORMAT => "format"
  | .SUBSET => "subset"
  | .TEXT => "t"
  | .TYPE => "type"
  | .AUTH => "auth"
  | .OFFSET => "offset"
  | .REF => "ref"
  | .LINENR => "linenr"
  | .PAGENR => "pagenr"
  | .NEWPAGE => "newpage"
  | .ORIGINAL => "original"
  | .XLINKTYPE => "xlink:type"
  | .TAG => "tag"

end Folia
