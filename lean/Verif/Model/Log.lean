/-
The Log tracer (trace.go:101-126): an Event as JSON.

The functions of the libraries encoding/json, encoding/base64, time, unicode/utf8 and enumhelper are modelled as far as they matter here; a text is a list of
characters.  `zerolog` writes the line `{"level":"trace",...,"event":<the event>,"message":"OnEvent"}`; only `<the event>` is modelled.
-/
import Verif.Model.Enum

namespace Flate.Model.Log
open Flate.Model Flate.Model.Text Flate.Model.Enum

/-- what depends on the surroundings -/
structure LogEnv where
  /-- whether `json.Marshal` writes `<`, `>` and `&` as escape sequences (it does; an Encoder can be told not to) -/
  html : Bool := true
  /-- whether the caller's slice of records (of bytes) is nil if it is empty -/
  nilRecords : Bool := true
  nilBytes : Bool := false
  /-- the offset, in minutes, of the time zone of a time -/
  zone : Int → Int := fun _ => 0

/-- contract of `utf8.DecodeRune` for a string which begins with `a`: the character, or `none` for an invalid one (of size 1), and how many further bytes
belong to it -/
def decodeRune (a : UInt8) (r : List UInt8) : Option Char × Nat :=
  let cont (b : UInt8) : Bool := 0x80 ≤ b.toNat ∧ b.toNat < 0xC0
  if a.toNat < 0x80 then (some (Char.ofNat a.toNat), 0)
  else match r with
  | [] => (none, 0)
  | b :: r =>
    if 0xC2 ≤ a.toNat ∧ a.toNat < 0xE0 then
      if cont b then (some (Char.ofNat ((a.toNat - 0xC0) * 64 + (b.toNat - 0x80))), 1) else (none, 0)
    else match r with
    | [] => (none, 0)
    | c :: r =>
      if 0xE0 ≤ a.toNat ∧ a.toNat < 0xF0 then
        let v := ((a.toNat - 0xE0) * 64 + (b.toNat - 0x80)) * 64 + (c.toNat - 0x80)
        if cont b ∧ cont c ∧ 0x800 ≤ v ∧ v.isValidChar then (some (Char.ofNat v), 2) else (none, 0)
      else match r with
      | [] => (none, 0)
      | d :: _ =>
        let v := (((a.toNat - 0xF0) * 64 + (b.toNat - 0x80)) * 64 + (c.toNat - 0x80)) * 64 + (d.toNat - 0x80)
        if 0xF0 ≤ a.toNat ∧ cont b ∧ cont c ∧ cont d ∧ 0x10000 ≤ v ∧ v.isValidChar then (some (Char.ofNat v), 3) else (none, 0)

/-- the characters of a string (`range str`); `none` is an invalid byte -/
def runes : List UInt8 → List (Option Char)
  | [] => []
  | a :: r => (decodeRune a r).1 :: runes (r.drop (decodeRune a r).2)
  termination_by l => l.length
  decreasing_by simp only [List.length_drop, List.length_cons]; omega

/-- encoding/json `encodeState.string`, for one character -/
def escape (html : Bool) : Option Char → List Char
  | none => ['\\', 'u', 'f', 'f', 'f', 'd']
  | some c =>
    if c = '"' ∨ c = '\\' then ['\\', c]
    else if c = '\n' then ['\\', 'n']
    else if c = '\r' then ['\\', 'r']
    else if c = '\t' then ['\\', 't']
    else if c < ' ' ∨ (html = true ∧ (c = '<' ∨ c = '>' ∨ c = '&')) then ['\\', 'u', '0', '0', hexDigit (c.toNat / 16), hexDigit (c.toNat % 16)]
    else if c.toNat = 0x2028 ∨ c.toNat = 0x2029 then ['\\', 'u', '2', '0', '2', hexDigit (c.toNat % 16)]
    else [c]

/-- encoding/json `encodeState.string` -/
def jsonString (html : Bool) (s : List UInt8) : List Char := '"' :: ((runes s).flatMap (escape html) ++ ['"'])

/-- texts separated by commas -/
def commas : List (List Char) → List Char
  | [] => []
  | [a] => a
  | a :: l => a ++ ',' :: commas l

/-- encoding/json `arrayEncoder` -/
def jsonArray (l : List (List Char)) : List Char := '[' :: (commas l ++ [']'])

/-- encoding/json `structEncoder`: the names of the fields are the names of the members -/
def jsonStruct (l : List (String × List Char)) : List Char := '{' :: (commas (l.map fun p => jsonQuote p.1.toList ++ ':' :: p.2) ++ ['}'])

def jsonNull : List Char := ['n', 'u', 'l', 'l']

def jsonBool (b : Bool) : List Char := if b then ['t', 'r', 'u', 'e'] else ['f', 'a', 'l', 's', 'e']

/-- encoding/json `intEncoder` -/
def jsonInt (n : Int) : List Char := if n < 0 then '-' :: fmtDec n.natAbs else fmtDec n.toNat

/-- encoding/base64 `encodeStd` -/
def base64Digit (n : Nat) : Char :=
  if n < 26 then Char.ofNat ('A'.toNat + n)
  else if n < 52 then Char.ofNat ('a'.toNat + (n - 26))
  else if n < 62 then Char.ofNat ('0'.toNat + (n - 52))
  else if n = 62 then '+' else '/'

/-- encoding/base64 `StdEncoding.Encode` -/
def base64 : List UInt8 → List Char
  | [] => []
  | [a] => [base64Digit (a.toNat / 4), base64Digit (a.toNat % 4 * 16), '=', '=']
  | [a, b] => [base64Digit (a.toNat / 4), base64Digit (a.toNat % 4 * 16 + b.toNat / 16), base64Digit (b.toNat % 16 * 4), '=']
  | a :: b :: c :: r => base64Digit (a.toNat / 4) :: base64Digit (a.toNat % 4 * 16 + b.toNat / 16) ::
      base64Digit (b.toNat % 16 * 4 + c.toNat / 64) :: base64Digit (c.toNat % 64) :: base64 r

/-- encoding/json `encodeByteSlice` -/
def jsonBytes (isNil : Bool) (b : List UInt8) : List Char :=
  if b = [] ∧ isNil = true then jsonNull else '"' :: (base64 b ++ ['"'])

/-- time `Time.AppendFormat`, for a number of two digits -/
def twoDigits (n : Nat) : List Char := [Char.ofNat ('0'.toNat + n / 10 % 10), Char.ofNat ('0'.toNat + n % 10)]

/-- time `absDate` (format.go of Go 1.16, "abs" counted here from 1 January of the year 1): the year, and the day of the year (from 0) of a day -/
def yearDay (days : Nat) : Nat × Nat :=
  let n400 := days / 146097
  let d := days % 146097
  let n100 := min (d / 36524) 3
  let d := d - 36524 * n100
  let n4 := d / 1461
  let d := d % 1461
  let n1 := min (d / 365) 3
  (400 * n400 + 100 * n100 + 4 * n4 + n1 + 1, d - 365 * n1)

/-- time `isLeap` -/
def isLeap (y : Nat) : Bool := y % 4 = 0 ∧ (y % 100 ≠ 0 ∨ y % 400 = 0)

/-- time `daysBefore` (a table in the library) -/
def cumulative (y : Nat) : List Nat :=
  if isLeap y then [0, 31, 60, 91, 121, 152, 182, 213, 244, 274, 305, 335] else [0, 31, 59, 90, 120, 151, 181, 212, 243, 273, 304, 334]

/-- month (from 1) and day (from 1): the last month which does not begin after the day -/
def monthDay (y yday : Nat) : Nat × Nat :=
  let m := ((cumulative y).filter (· ≤ yday)).length
  (m, yday - (cumulative y).getD (m - 1) 0 + 1)

/-- 1970-01-01 is day 719162 -/
def unixDay : Nat := 719162

/-- time `Time.MarshalJSON` and `Time.Format(RFC3339)`: `none` is an error (year outside of the range [0, 9999]).  Fractions of seconds are not modelled, offsets are
in whole minutes, and times before the year 1 are not modelled (`none`). -/
def timeText (E : LogEnv) (t : Int) : Option (List Char) :=
  let off := E.zone t
  let loc := t + 60 * off + 86400 * unixDay
  if loc < 0 then none
  else
    let (y, yd) := yearDay (loc.toNat / 86400)
    let (m, d) := monthDay y yd
    let s := loc.toNat % 86400
    if y > 9999 then none
    else some (twoDigits (y / 100) ++ twoDigits y ++ '-' :: twoDigits m ++ '-' :: twoDigits d ++ 'T' :: twoDigits (s / 3600) ++ ':' ::
      twoDigits (s / 60 % 60) ++ ':' :: twoDigits (s % 60) ++
      (if off = 0 then ['Z'] else (if off < 0 then '-' else '+') :: twoDigits (off.natAbs / 60) ++ ':' :: twoDigits (off.natAbs % 60)))

/-- "0001-01-01T00:00:00Z", the zero time -/
def zeroTime : List Char := "0001-01-01T00:00:00Z".toList

/-- header.go:13 `LastModified`: the zero time, or the time set -/
def stampText (E : LogEnv) : Option Int → Option (List Char)
  | none => some zeroTime
  | some t => timeText E t

/-- header.go:21-24 `ExtraData`, header.go:27-30 `ExtraDataRecord` -/
def extraText (E : LogEnv) (l : List ExtraRec) : List Char :=
  jsonStruct [("Records", if l = [] ∧ E.nilRecords = true then jsonNull else jsonArray (l.map fun r => jsonStruct [
    ("ID", jsonArray [fmtDec r.id0.toNat, fmtDec r.id1.toNat]), ("Bytes", jsonBytes E.nilBytes r.bytes)]))]

/-- header.go:10-19 `Header`; `none` is an error -/
def headerText (E : LogEnv) (h : Header) : Option (List Char) :=
  match stampText E h.lastModified with
  | none => none
  | some tm =>
    if h.osType < osTypeData.length then
      some (jsonStruct [("FileName", jsonString E.html h.fileName), ("Comment", jsonString E.html h.comment), ("LastModified", jsonQuote tm),
        ("DataType", marshal dataTypeData (match h.dataType with | .unknown => 0 | .binary => 1 | .text => 2)), ("OSType", marshal osTypeData h.osType),
        ("ExtraData", extraText E h.extra), ("WindowBits", fmtDec h.windowBits), ("CompressLevel", jsonInt h.compressLevel)])
    else none

/-- trace.go:34-37 `BlockEvent` -/
def blockText (t : BlockType) (final : Bool) : List Char :=
  jsonStruct [("Type", marshal blockTypeData (match t with | .invalid => 0 | .stored => 1 | .static => 2 | .dynamic => 3)), ("IsFinal", jsonBool final)]

/-- huffman.go:74-84 `SizeList.MarshalJSON`: the package has no empty lists which are not nil -/
def sizesText (l : List Nat) : List Char := if l = [] then jsonNull else jsonArray (l.map fmtDec)

/-- trace.go:40-48 `TreesEvent` -/
def treesText (t : Trees) : List Char :=
  jsonStruct [("CodeCount", fmtDec t.codeCount), ("LiteralLengthCount", fmtDec t.llCount), ("DistanceCount", fmtDec t.dCount),
    ("CodeSizes", sizesText t.codeSizes), ("LiteralLengthSizes", sizesText t.ll), ("DistanceSizes", sizesText t.d)]

/-- trace.go:51-54 `FooterEvent` -/
def footerText (adler crc : BitVec 32) : List Char := jsonStruct [("Adler32", checksumMarshal adler), ("CRC32", checksumMarshal crc)]

/-- the numbers of the constants, enum_eventtype.go:12-39 -/
def eventNum : EvKind → Nat
  | .streamBegin => 0 | .streamHeader _ => 1 | .blockBegin _ _ => 2 | .blockTrees _ _ _ => 3 | .blockEnd _ _ => 4 | .streamEnd _ _ => 5 | .streamClose => 6

/-- the fields `Header`, `Block`, `Trees`, `Footer` of an Event; nil pointers become null -/
def partsText (E : LogEnv) : EvKind → Option (List Char × List Char × List Char × List Char)
  | .streamBegin | .streamClose => some (jsonNull, jsonNull, jsonNull, jsonNull)
  | .streamHeader h => (headerText E h).map fun t => (t, jsonNull, jsonNull, jsonNull)
  | .blockBegin t f | .blockEnd t f => some (jsonNull, blockText t f, jsonNull, jsonNull)
  | .blockTrees t f x => some (jsonNull, blockText t f, treesText x, jsonNull)
  | .streamEnd a c => some (jsonNull, jsonNull, jsonNull, footerText a c)

/-- trace.go:18-31 `Event`, trace.go:117-123 `logTracer.OnEvent`: what is logged as "event"; `none`: the event cannot be marshalled (zerolog then logs
"marshaling error") -/
def eventText (E : LogEnv) (e : Event) : Option (List Char) :=
  match partsText E e.kind with
  | none => none
  | some (hd, bl, tr, fo) => some (jsonStruct [("Type", marshal eventTypeData (eventNum e.kind)), ("InputBytesTotal", fmtDec e.inTotal),
      ("InputBytesStream", fmtDec e.inStream), ("OutputBytesTotal", fmtDec e.outTotal), ("OutputBytesStream", fmtDec e.outStream),
      ("NumStreams", fmtDec e.numStreams), ("Format", marshal formatData (Format.num e.format)), ("Header", hd), ("Block", bl), ("Trees", tr), ("Footer", fo)])

/-- trace.go:105-126 `Log`: the entries written, of each event one -/
def logTracer (E : LogEnv) : List Event → List (Option (List Char)) := List.map (eventText E)

end Flate.Model.Log
