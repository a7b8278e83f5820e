#!/usr/bin/env python3
"""Generate lean/Verif/Types.lean and lean/Verif/Spec.lean from the text of
/repo/src/types.rs and /repo/src/specification.rs (tables only)."""
import re, sys
REPO = "/repo/src"
OUT = "/verif/lean/Verif"
types = open(f"{REPO}/types.rs").read().split("\n")
spec = open(f"{REPO}/specification.rs").read().split("\n")

def et(name):
    n = name[0].lower() + name[1:]
    return {"example": "exampleElt"}.get(n, n)
def eg(name):
    n = name[0].lower() + name[1:]
    return {"structure": "structural"}.get(n, n)

def find(pat, start=0, lines=types):
    for i in range(start, len(lines)):
        if re.search(pat, lines[i]): return i
    raise Exception(pat)

def enum(line):
    return [x.strip() for x in re.search(r"\{(.*)\}", line).group(1).split(",")]

def block(marker, lines=types):
    i = find(re.escape(marker), 0, lines)
    s = find(r"match ", i, lines)
    e = find(r"^\s*}\s*$", s, lines)
    return s, e

i_et = find(r"pub enum ElementType"); ETS = enum(types[i_et])
i_eg = find(r"pub enum ElementGroup"); EGS = enum(types[i_eg])
i_at = find(r"pub enum AnnotationType"); ATS = enum(types[i_at])

o = []
w = o.append
w("/-! Generated by tools/gen_tables.py from `/repo/src/types.rs`; do not edit by hand.")
w("Enumerations of `types.rs` and every table that the file defines on them.")
w("Constructor names are the Rust names with a lower-case first letter")
w("(`Example` is `exampleElt` and the group `Structure` is `structural`, because `example` and `structure` are Lean keywords). -/")
w("namespace Folia\n")
def gen_enum(name, ctors, f, cite, doc):
    w(f"/-- {doc} (src/types.rs:{cite}). -/")
    w(f"inductive {name} where")
    for c in ctors: w(f"  | {f(c)}")
    w("  deriving DecidableEq, Repr, Inhabited\n")
    w(f"/-- All values of `{name}`, in declaration order (src/types.rs:{cite}, derived `EnumIter`). -/")
    w(f"def {name}.all : List {name} :=")
    w("  [" + ",\n   ".join(", ".join("."+f(c) for c in ctors[k:k+5]) for k in range(0,len(ctors),5)) + "]\n")
gen_enum("ElementType", ETS, et, i_et+1, "The type of a FoLiA element")
gen_enum("ElementGroup", EGS, eg, i_eg+1, "Groups of element types")
gen_enum("AnnotationType", ATS, lambda x:x, i_at+1, "Annotation types")

s,e = block("//foliaspec:elementgroup_elementtypes_map")
w(f"/-- `ElementGroup::elementtypes` (src/types.rs:{s+1}-{e+1}). -/")
w("def ElementGroup.elementtypes : ElementGroup → List ElementType")
for l in types[s+1:e]:
    m = re.match(r"\s*ElementGroup::(\w+) => &\[(.*)\],", l)
    els = re.findall(r"ElementType::(\w+)", m.group(2))
    w(f"  | .{eg(m.group(1))} => [" + ", ".join("."+et(x) for x in els) + "]")
w("")
c = find(r"pub fn contains")
w(f"/-- `ElementGroup::contains` (src/types.rs:{c+1}-{c+3}). -/")
w("def ElementGroup.contains (g : ElementGroup) (t : ElementType) : Bool := g.elementtypes.contains t\n")

def simple(marker, lean_sig, lhs, f, rhs_re, rhs_f, doc, wild=None):
    s,e = block(marker)
    w(f"/-- {doc} (src/types.rs:{s+1}-{e+1}). -/")
    w(lean_sig)
    n=0
    for l in types[s+1:e]:
        m = re.match(r"\s*"+lhs+r"::(\w+) =>\s*"+rhs_re+r",?\s*$", l)
        if m:
            w(f"  | .{f(m.group(1))} => {rhs_f(m.group(2))}"); n+=1
        elif re.match(r"\s*_ =>", l):
            assert wild is not None
            w(f"  | _ => {wild}")
        else:
            raise Exception("line: "+l)
    w("")
    return n
q = lambda x: '"'+x+'"'
def table(marker, name, typ, rhs_re, rhs_f, doc):
    s,e = block(marker)
    w(f"/-- {doc} (src/types.rs:{s+1}-{e+1}): the arms of the `match`, tried in this order; the catch-all arm is the empty lookup. -/")
    w(f"def {name} : List (String × {typ}) :=")
    rows=[]
    for l in types[s+1:e]:
        m = re.match(r'\s*"([^"]*)" =>\s*'+rhs_re+r",?\s*$", l)
        if m: rows.append(f'("{m.group(1)}", .{rhs_f(m.group(2))})')
        elif re.match(r"\s*_ =>", l): pass
        else: raise Exception("line: "+l)
    w("  [" + ",\n   ".join(rows) + "]\n")
simple("//foliaspec:annotationtype_string_map", "def AnnotationType.asStr : AnnotationType → String", "AnnotationType", lambda x:x, r'"([^"]*)"', q, "`AnnotationType::as_str`, also its `Display`")
table("//foliaspec:string_annotationtype_map", "AnnotationType.fromStrTable", "AnnotationType", r"Some\(AnnotationType::(\w+)\)", lambda x:x, "`AnnotationType::from_str`")
w("/-- Lookup of a string key in a table of `match` arms: the first arm whose literal is equal. -/")
w("def lookupStr {α : Type} : List (String × α) → String → Option α")
w("  | [], _ => none")
w("  | (k, v) :: rest, s => if k = s then some v else lookupStr rest s\n")
w("/-- `AnnotationType::from_str` (src/types.rs:138-203). -/")
w("def AnnotationType.fromStr (s : String) : Option AnnotationType := lookupStr AnnotationType.fromStrTable s\n")
simple("//foliaspec:annotationtype_xml_map", "def AnnotationType.asElementStr : AnnotationType → String", "AnnotationType", lambda x:x, r'"([^"]*)"', q, "`AnnotationType::as_element_str`")
simple("//foliaspec:annotationtype_layerclass_map", "def AnnotationType.layertype : AnnotationType → Option ElementType", "AnnotationType", lambda x:x, r'Some\(ElementType::(\w+)\)', lambda x:"some ."+et(x), "`AnnotationType::layertype`", "none")
simple("//foliaspec:annotationtype_elementtype_map", "def AnnotationType.elementtype : AnnotationType → ElementType", "AnnotationType", lambda x:x, r'ElementType::(\w+)', lambda x:"."+et(x), "`AnnotationType::elementtype`")
simple("//foliaspec:elementtype_annotationtype_map", "def ElementType.annotationtype : ElementType → Option AnnotationType", "ElementType", et, r'Some\(AnnotationType::(\w+)\)', lambda x:"some ."+x, "`ElementType::annotationtype`", "none")
simple("//foliaspec:elementtype_string_map", "def ElementType.asStr : ElementType → String", "ElementType", et, r'"([^"]*)"', q, "`ElementType::as_str`, also its `Display`")
table("//foliaspec:string_elementtype_map", "ElementType.fromStrTable", "ElementType", r"Ok\(ElementType::(\w+)\)", et, "`ElementType::from_str`")
w("/-- `ElementType::from_str` (src/types.rs:640-766); `none` is its `ParseError`. -/")
w("def ElementType.fromStr (s : String) : Option ElementType := lookupStr ElementType.fromStrTable s\n")
w("end Folia")
open(f"{OUT}/Types.lean","w").write("\n".join(o)+"\n")

# ---- specification
o=[]; w=o.append
w("import Verif.Types")
w("import Verif.AttribType")
w("/-! Generated by tools/gen_tables.py from `/repo/src/specification.rs`; do not edit by hand. -/")
w("namespace Folia\n")
w("/-- `AcceptedData` (src/specification.rs:10-14). -/")
w("inductive AcceptedData where\n  | type (t : ElementType)\n  | group (g : ElementGroup)\n  deriving DecidableEq, Repr\n")
w("/-- `Properties` (src/specification.rs:17-40); the defaults are those of `Properties::default` (lines 42-68). -/")
w("""structure Properties where
  xmltag : String := ""
  annotationtype : Option AnnotationType := none
  acceptedData : List AcceptedData := []
  requiredData : List AcceptedData := []
  requiredAttribs : List AttribType := []
  optionalAttribs : List AttribType := []
  occurrences : Nat := 0
  occurrencesPerSet : Nat := 0
  textdelimiter : Option String := none
  printable : Bool := false
  speakable : Bool := false
  hidden : Bool := false
  xlink : Bool := false
  textcontainer : Bool := false
  phoncontainer : Bool := false
  subset : Option String := none
  auth : Bool := true
  primaryelement : Bool := false
  autoGenerateId : Bool := false
  setonly : Bool := false
  wrefable : Bool := false
  label : String := ""
  deriving DecidableEq, Repr
""")
DEFAULT = dict(xmltag='""', annotationtype="none", accepted_data="[]", required_data="[]", required_attribs="[]", optional_attribs="[]", occurrences="0", occurrences_per_set="0", textdelimiter="none", printable="false", speakable="false", hidden="false", xlink="false", textcontainer="false", phoncontainer="false", subset="none", auth="true", primaryelement="false", auto_generate_id="false", setonly="false", wrefable="false", label='""')
NAMES = dict(accepted_data="acceptedData", required_data="requiredData", required_attribs="requiredAttribs", optional_attribs="optionalAttribs", occurrences_per_set="occurrencesPerSet", auto_generate_id="autoGenerateId")
def val(field, v):
    v=v.strip()
    if v=="None": return "none"
    if v in ("true","false"): return v
    if re.fullmatch(r"\d+", v): return v
    m=re.fullmatch(r"Some\((.*)\)", v)
    if m:
        x=m.group(1)
        if x.startswith("AnnotationType::"): return "some ."+x.split("::")[1]
        assert x.startswith('"'); return "some "+x
    if v.startswith('"'): return v
    m=re.fullmatch(r"&\[(.*)\]", v)
    if m:
        items=[x.strip() for x in m.group(1).split(",") if x.strip()]
        res=[]
        for it in items:
            m2=re.fullmatch(r"AcceptedData::AcceptElementType\(ElementType::(\w+)\)", it)
            m3=re.fullmatch(r"AcceptedData::AcceptElementGroup\(ElementGroup::(\w+)\)", it)
            m4=re.fullmatch(r"AttribType::(\w+)", it)
            if m2: res.append(".type ."+et(m2.group(1)))
            elif m3: res.append(".group ."+eg(m3.group(1)))
            elif m4: res.append("."+m4.group(1))
            else: raise Exception(it)
        return "["+", ".join(res)+"]"
    raise Exception(v)
s = find(r"match elementtype \{",0,spec)
i=s+1; cur=None; seen=[]; arms=[]
while i < len(spec):
    l=spec[i]
    m=re.match(r"\s*ElementType::(\w+) => \{", l)
    if m: cur=(m.group(1),i+1,[])
    m=re.match(r"\s*properties\.(\w+) = (.*);\s*$", l)
    if m: cur[2].append((m.group(1), val(m.group(1),m.group(2))))
    if re.match(r"\s*properties\s*$", l): arms.append((cur,i+1)); seen.append(cur[0])
    i+=1
assert sorted(seen)==sorted(ETS), set(ETS)^set(seen)
w(f"/-- `Properties::new` (src/specification.rs:94-{len(spec)}); one arm per element type. Fields equal to the default are left out. -/")
w("def props : ElementType → Properties")
for (name,start,fields),end in arms:
    fs=[f"{NAMES.get(f,f)} := {v}" for f,v in fields if DEFAULT[f]!=v]
    w(f"  -- src/specification.rs:{start}-{end}")
    w(f"  | .{et(name)} => {{\n      "+",\n      ".join(fs)+" }")
w("\nend Folia")
open(f"{OUT}/Spec.lean","w").write("\n".join(o)+"\n")
