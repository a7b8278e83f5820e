/-! The part of chrono's `NaiveDateTime` that folia-rust uses: `format("%Y-%m-%dT%H:%M:%S")` (src/attrib.rs:172,
src/serialiser.rs:177,180) and `parse_from_str` with that format (src/attrib.rs:298) and with the format
`"%Y-%m-%dT%H:%M:$S"` (src/parser.rs:490,496). chrono is a dependency and not in `/repo`; this follows the documented behaviour of
chrono 0.4 (`format::parse`, `format::scan::number`, `Parsed::to_naive_datetime_with_offset`) and belongs to the trusted base. -/
namespace Folia

/-- Rust's `char::is_whitespace` (Unicode `White_Space`), used by `str::trim` (src/parser.rs:413,423,433). -/
def isWs (c : Char) : Bool :=
  let n := c.toNat
  (9 ≤ n && n ≤ 13) || n == 32 || n == 0x85 || n == 0xA0 || n == 0x1680 || (0x2000 ≤ n && n ≤ 0x200A) ||
  n == 0x2028 || n == 0x2029 || n == 0x202F || n == 0x205F || n == 0x3000

/-- `NaiveDateTime`: proleptic Gregorian date and time of day; `nano ≥ 10^9` is a leap second. -/
structure DateTime where
  year : Int
  month : Nat
  day : Nat
  hour : Nat
  minute : Nat
  second : Nat
  nano : Nat := 0
  deriving DecidableEq, Repr

/-- Gregorian leap years. -/
def leapYear (y : Int) : Bool := (y % 4 == 0 && y % 100 != 0) || y % 400 == 0

/-- Days in a month of the Gregorian calendar. -/
def daysIn (y : Int) (m : Nat) : Nat :=
  if m == 2 then (if leapYear y then 29 else 28)
  else if m == 4 || m == 6 || m == 9 || m == 11 then 30 else 31

/-- The values that `NaiveDateTime` can hold. -/
def DateTime.valid (d : DateTime) : Bool :=
  -262144 ≤ d.year && d.year ≤ 262143 && 1 ≤ d.month && d.month ≤ 12 && 1 ≤ d.day && d.day ≤ daysIn d.year d.month &&
  d.hour < 24 && d.minute < 60 && d.second < 60 && d.nano < 2000000000

/-- `{:0w}` formatting of a natural number. -/
def padNat (w n : Nat) : List Char :=
  let ds := Nat.toDigits 10 n
  List.replicate (w - ds.length) '0' ++ ds

/-- `%Y`: four digits for years 0 to 9999, otherwise an explicit sign and at least four digits. -/
def fmtYear (y : Int) : List Char :=
  if 0 ≤ y ∧ y ≤ 9999 then padNat 4 y.toNat
  else if 0 ≤ y then '+' :: padNat 4 y.toNat
  else '-' :: padNat 4 (-y).toNat

/-- `dt.format("%Y-%m-%dT%H:%M:%S")`; `%S` shows 60 for a leap second. -/
def DateTime.format (d : DateTime) : List Char :=
  fmtYear d.year ++ '-' :: padNat 2 d.month ++ '-' :: padNat 2 d.day ++ 'T' :: padNat 2 d.hour ++ ':' :: padNat 2 d.minute ++
  ':' :: padNat 2 (d.second + d.nano / 1000000000)

/-- The format items of the two format strings. -/
inductive DTItem where
  | year | month | day | hour | minute | second
  | lit (s : List Char)

/-- `"%Y-%m-%dT%H:%M:%S"` (src/attrib.rs:298). -/
def fmtSeconds : List DTItem :=
  [.year, .lit ['-'], .month, .lit ['-'], .day, .lit ['T'], .hour, .lit [':'], .minute, .lit [':'], .second]

/-- `"%Y-%m-%dT%H:%M:$S"` (src/parser.rs:490,496): the final `$S` is literal text. -/
def fmtDollarS : List DTItem :=
  [.year, .lit ['-'], .month, .lit ['-'], .day, .lit ['T'], .hour, .lit [':'], .minute, .lit [':', '$', 'S']]

/-- Take the leading decimal digits, at most `max` of them. -/
def takeDigits : Nat → List Char → List Char × List Char
  | 0, cs => ([], cs)
  | _, [] => ([], [])
  | n + 1, c :: cs => if c.isDigit then let (ds, rest) := takeDigits n cs; (c :: ds, rest) else ([], c :: cs)

/-- chrono `scan::number(s, 1, max)`: one to `max` digits, failing on `i64` overflow. -/
def scanNumber (max : Nat) (cs : List Char) : Option (Nat × List Char) :=
  match takeDigits max cs with
  | ([], _) => none
  | (ds, rest) =>
    let n := Nat.ofDigitChars 10 ds 0
    if n < 2 ^ 63 then some (n, rest) else none

/-- Fields collected while parsing (chrono `Parsed`). -/
structure DTFields where
  year : Int := 0
  month : Nat := 0
  day : Nat := 0
  hour : Nat := 0
  minute : Nat := 0
  second : Nat := 0

/-- One format item (chrono `format::parse`): numbers may be preceded by white space, the year may be signed. -/
def parseItem (f : DTFields) (cs : List Char) : DTItem → Option (DTFields × List Char)
  | .lit s => if s.isPrefixOf cs then some (f, cs.drop s.length) else none
  | .year =>
    match cs.dropWhile isWs with
    | '-' :: r => (scanNumber r.length r).map fun (n, r') => ({ f with year := -(n : Int) }, r')
    | '+' :: r => (scanNumber r.length r).map fun (n, r') => ({ f with year := n }, r')
    | r => (scanNumber 4 r).map fun (n, r') => ({ f with year := n }, r')
  | .month => (scanNumber 2 (cs.dropWhile isWs)).map fun (n, r) => ({ f with month := n }, r)
  | .day => (scanNumber 2 (cs.dropWhile isWs)).map fun (n, r) => ({ f with day := n }, r)
  | .hour => (scanNumber 2 (cs.dropWhile isWs)).map fun (n, r) => ({ f with hour := n }, r)
  | .minute => (scanNumber 2 (cs.dropWhile isWs)).map fun (n, r) => ({ f with minute := n }, r)
  | .second => (scanNumber 2 (cs.dropWhile isWs)).map fun (n, r) => ({ f with second := n }, r)

/-- All format items in order. -/
def parseItems : DTFields → List Char → List DTItem → Option (DTFields × List Char)
  | f, cs, [] => some (f, cs)
  | f, cs, i :: is => match parseItem f cs i with
    | some (f', cs') => parseItems f' cs' is
    | none => none

/-- `NaiveDateTime::parse_from_str`: all input must be consumed and the fields must form a valid date and time;
a second of 60 is a leap second. -/
def DateTime.parse (items : List DTItem) (cs : List Char) : Option DateTime :=
  match parseItems {} cs items with
  | some (f, []) =>
    let d : DateTime :=
      if f.second = 60 then { year := f.year, month := f.month, day := f.day, hour := f.hour, minute := f.minute, second := 59, nano := 1000000000 }
      else { year := f.year, month := f.month, day := f.day, hour := f.hour, minute := f.minute, second := f.second }
    if d.valid then some d else none
  | _ => none

end Folia
