/-
Model of the text conversions: enum_clevel.go, enum_mlevel.go, enum_wbits.go, checksum32.go.
A Go string is modelled as its list of characters (only ASCII matters: any other character is rejected by
`ParseUint` and does not fold to a letter of "default" or "none").
-/
import Verif.Base

namespace Flate.Model.Text

/-- contract of `strings.EqualFold(s, w)` for a lower case ASCII word `w` without the letters `k` and `s`
(the only ASCII letters which also fold to something else) -/
def equalFold (s w : List Char) : Bool := s.map Char.toLower == w

/-- strconv.ParseUint's digit value -/
def digit? (c : Char) : Option Nat :=
  if '0' ≤ c ∧ c ≤ '9' then some (c.toNat - '0'.toNat)
  else if 'a' ≤ c.toLower ∧ c.toLower ≤ 'z' then some (c.toLower.toNat - 'a'.toNat + 10)
  else none

/-- loop of strconv.ParseUint for an explicit base (2..36) and bit size: `none` is any error -/
def parseLoop (base maxVal : Nat) : Nat → List Char → Option Nat
  | n, [] => some n
  | n, c :: cs =>
    match digit? c with
    | none => none
    | some d => if d ≥ base then none else if n * base + d > maxVal then none else parseLoop base maxVal (n * base + d) cs

/-- contract of `strconv.ParseUint(s, base, bitSize)` -/
def parseUint (s : List Char) (base bitSize : Nat) : Option Nat :=
  if s.isEmpty then none else parseLoop base (2 ^ bitSize - 1) 0 s

/-- util.go:8 `strDefault` -/
def strDefault : List Char := ['d', 'e', 'f', 'a', 'u', 'l', 't']
def strNone : List Char := ['n', 'o', 'n', 'e']

/-- `fmt.Sprintf("%d", n)` of a non-negative number -/
def fmtDec (n : Nat) : List Char := Nat.toDigits 10 n

/-- enum_clevel.go:46-54 `CompressLevel.String` -/
def clevelString (c : Int) : List Char :=
  if c < 0 then strDefault else if c = 0 then strNone else fmtDec c.toNat

/-- enum_clevel.go:62-84 `CompressLevel.Parse`: the error indication and the value stored -/
def clevelParse (s : List Char) : Bool × Int :=
  if equalFold s strDefault then (true, -1)
  else if equalFold s strNone then (true, 0)
  else match parseUint s 10 8 with
    | none => (false, -1)
    | some u => if u > 9 then (false, -1) else (true, u)

/-- enum_mlevel.go:43-48 `MemoryLevel.String` -/
def mlevelString (m : Nat) : List Char := if m = 0 then strDefault else fmtDec m

/-- enum_mlevel.go:56-73 `MemoryLevel.Parse` -/
def mlevelParse (s : List Char) : Bool × Nat :=
  if equalFold s strDefault then (true, 0)
  else match parseUint s 10 8 with
    | none => (false, 0)
    | some u => if u > 9 then (false, 0) else (true, u)

/-- enum_wbits.go:45-50 `WindowBits.String` -/
def wbitsString (w : Nat) : List Char := if w < 8 then strDefault else fmtDec w

/-- enum_wbits.go:58-79 `WindowBits.Parse` -/
def wbitsParse (s : List Char) : Bool × Nat :=
  if equalFold s strDefault then (true, 0)
  else match parseUint s 10 8 with
    | none => (false, 0)
    | some u => if u < 8 then (false, 0) else if u > 15 then (false, 0) else (true, u)

/-- a hexadecimal digit, as `%x` prints it -/
def hexDigit (d : Nat) : Char := if d < 10 then Char.ofNat ('0'.toNat + d) else Char.ofNat ('a'.toNat + (d - 10))

/-- `k` hexadecimal digits of `v`, most significant first -/
def hexFixed : Nat → Nat → List Char
  | 0, _ => []
  | k + 1, v => hexFixed k (v / 16) ++ [hexDigit (v % 16)]

/-- checksum32.go:21-23 `Checksum32.String`: `%#08x` prints eight digits (zero padding counts digits, not the
prefix) after "0x" -/
def checksumString (c : BitVec 32) : List Char := ['0', 'x'] ++ hexFixed 8 c.toNat

/-- contract of `json.Marshal` for a string of letters and digits -/
def jsonQuote (s : List Char) : List Char := ['"'] ++ s ++ ['"']

/-- contract of `json.Unmarshal` into a string, for quoted text without quotes, backslashes or control characters;
other JSON texts are not modelled (`none`) -/
def jsonUnquote (raw : List Char) : Option (List Char) :=
  match raw with
  | '"' :: r => if r.getLast? = some '"' ∧ r.dropLast.all (fun c => c ≠ '"' ∧ c ≠ '\\' ∧ ' ' ≤ c) then some r.dropLast else none
  | _ => none

/-- checksum32.go:26-28 `MarshalJSON` -/
def checksumMarshal (c : BitVec 32) : List Char := jsonQuote (checksumString c)

/-- `strings.TrimPrefix(s, "0x")` -/
def trim0x (s : List Char) : List Char :=
  match s with
  | '0' :: 'x' :: r => r
  | _ => s

/-- checksum32.go:31-43 `UnmarshalJSON`: the new value, or `none` for an error -/
def checksumUnmarshal (raw : List Char) : Option (BitVec 32) :=
  match jsonUnquote raw with
  | none => none
  | some s => match parseUint (trim0x s) 16 32 with
    | none => none
    | some u => some (BitVec.ofNat 32 u)

end Flate.Model.Text
