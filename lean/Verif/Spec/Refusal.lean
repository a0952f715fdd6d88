/-
What is wrong with a Header handed to `SetHeader`, or with a text handed to a `Parse` method, according to the error.
-/
import Verif.Model.Types

namespace Flate.Spec
open Flate.Model

/-- the complaints of `SetHeader` -/
inductive HeaderProblem where
  | nameLong
  | nameNul
  | nameSlash
  | nameBackslash
  | commentLong
  | commentNul
  | time
  | os
  /-- the index of a record, and the number of bytes it takes -/
  | record (index size : Nat)
  /-- the number of bytes which all records take -/
  | extra (size : Nat)
  deriving DecidableEq, Repr

/-- what the words of the complaint say, taken literally: "Header.FileName is longer than 256 bytes", "Header.FileName contains embedded NUL byte", "… '/' byte", "… '\\' byte",
"Header.Comment is longer than 256 bytes", "… embedded NUL byte", "Header.LastModified is out of range for unsigned 32-bit time_t", "Header.OSType is not valid",
"Header.ExtraData.Records[i] encodes to n bytes, which is beyond uint16_t", "Header.ExtraData encodes to n bytes, which is beyond uint16_t" -/
def HeaderProblem.Claim (h : Header) : HeaderProblem → Prop
  | .nameLong => 256 < h.fileName.length
  | .nameNul => 0 ∈ h.fileName
  | .nameSlash => 0x2f ∈ h.fileName
  | .nameBackslash => 0x5c ∈ h.fileName
  | .commentLong => 256 < h.comment.length
  | .commentNul => 0 ∈ h.comment
  | .time => ∃ t, h.lastModified = some t ∧ ¬ (0 ≤ t ∧ t ≤ 2 ^ 32 - 1)
  | .os => 14 < h.osType
  | .record i n => ∃ r, h.extra[i]? = some r ∧ n = r.bytes.length + 4 ∧ 2 ^ 16 - 1 < n
  | .extra n => n = (h.extra.map fun r => r.bytes.length + 4).sum ∧ 2 ^ 16 - 1 < n

/-- the order in which complaints come -/
def HeaderProblem.rank : HeaderProblem → Nat × Nat
  | .nameLong => (0, 0)
  | .nameNul => (1, 0)
  | .nameSlash => (2, 0)
  | .nameBackslash => (3, 0)
  | .commentLong => (4, 0)
  | .commentNul => (5, 0)
  | .time => (6, 0)
  | .os => (7, 0)
  | .record i _ => (8, i)
  | .extra _ => (9, 0)

/-- the complaints of the `Parse` methods of CompressLevel, MemoryLevel and WindowBits -/
inductive ParseProblem where
  /-- what `strconv.ParseUint` says -/
  | number
  /-- "value n is out of range" -/
  | range (n : Nat)
  /-- "value n is less than minimum m" -/
  | small (n m : Nat)
  /-- "value n is less than maximum m" -/
  | large (n m : Nat)
  deriving DecidableEq, Repr

/-- what the words of the complaint say, taken literally; `valid` are the numbers which are values of the type -/
def ParseProblem.Claim (valid : Nat → Prop) : ParseProblem → Prop
  | .number => True
  | .range n => ¬ valid n
  | .small n m => n < m ∧ ¬ valid n
  | .large n m => n < m ∧ ¬ valid n

end Flate.Spec
