/-
What the text of a `CorruptInputError` says to somebody who reads it.
-/
import Verif.Spec.Problem
import Verif.Spec.Json

namespace Flate.Spec

/-- how a number is written: decimal, or hexadecimal with `0x` in front and at least so many digits -/
inductive Base where
  | dec
  | hex (width : Nat)
  deriving DecidableEq, Repr

def Base.radix : Base → Nat
  | .dec => 10
  | .hex _ => 16

def Base.mark : Base → List Char
  | .dec => []
  | .hex _ => ['0', 'x']

/-- the value of a numeral, most significant digit first; `none` if a character is not a digit in this base -/
def numeral (radix : Nat) : List Char → Option Nat := List.foldl (fun acc c => do
  let a ← acc
  let v ← hexVal c
  if v < radix then some (a * radix + v) else none) (some 0)

/-- `ds` is the number `n`, written without superfluous zeros, except for those which are needed for the width -/
def Writes (b : Base) (n : Nat) (ds : List Char) : Prop :=
  numeral b.radix ds = some n ∧ ds ≠ [] ∧ match b with
    | .dec => ds.head? = some '0' → ds.length = 1
    | .hex w => w ≤ ds.length ∧ (w < ds.length → ds.head? = some '0' → ds.length = 1)

/-- After the words `label`, the text has the number `n`, and the number ends there. -/
def Shows (text : String) (label : String) (b : Base) (n : Nat) : Prop :=
  ∃ pre ds post, text.toList = pre ++ label.toList ++ b.mark ++ ds ++ post ∧ Writes b n ds ∧ ∀ c, post.head? = some c → hexVal c = none

/-- The numbers which the message about a problem should state, and the words after which they should stand. -/
def labels : Problem → List (String × Base × Nat)
  | .zlibCheck v r => [("invalid zlib header checksum -- expected ", .hex 4, v), (" mod 31 == 0, got ", .dec, r)]
  | .zlibMethod m => [("invalid zlib compression method -- expected 0x8 (DEFLATE), got ", .hex 0, m)]
  | .zlibWindow b l => [("data uses 2**", .dec, b), ("this Reader is limited to 2**", .dec, l)]
  | .dictNeeded s => [("Adler-32 checksum of the dictionary required to decompress this stream is ", .hex 8, s)]
  | .dictOther s o => [("Adler-32 checksum of the required dictionary is ", .hex 8, s), ("checksum of the provided dictionary is ", .hex 8, o)]
  | .dictNeedless o => [("Adler-32 checksum of the supplied dictionary is ", .hex 8, o)]
  | .zlibSum s c => [("Adler-32 checksum -- footer value ", .hex 8, s), ("computed value ", .hex 8, c)]
  | .gzipMethod m => [("invalid gzip compression method ", .hex 2, m)]
  | .gzipFlags f => [("invalid gzip flag bits ", .hex 2, f)]
  | .gzipHeaderSum s c => [("CRC-16 checksum -- header value ", .hex 4, s), ("computed value ", .hex 4, c)]
  | .gzipSum s c => [("CRC-32 checksum -- footer value ", .hex 8, s), ("computed value ", .hex 8, c)]
  | .gzipLength s c => [("decompressed length (mod 2**32) -- footer value ", .dec, s), ("computed value ", .dec, c)]
  | .storedLen l n w => [("got LEN ", .hex 4, l), (" NLEN ", .hex 4, n), ("expected NLEN ", .hex 4, w)]
  | .badLitLen s => [("invalid literal/length symbol ", .dec, s)]
  | .badDist s => [("invalid distance symbol ", .dec, s)]
  | .tooFar dist size => [("distance ", .dec, dist), (" > window.Size ", .dec, size)]
  | .hlit n l => [("HLIT ", .dec, n), (" > ", .dec, l)]
  | .hdist n l => [("HDIST ", .dec, n), (" > ", .dec, l)]
  | .repeatMany c l => [("attempt to repeat ", .dec, c), (" times but only ", .dec, l)]
  | .gzipMagic | .reserved | .noLitLen | .noDist | .noCodeLen | .codeLenCode | .litLenCode | .distCode | .repeatNothing => []

/-- What the message claims about the numbers in it. -/
def Claim : Problem → Prop
  | .zlibCheck v r => r = v % 31 ∧ r ≠ 0
  | .zlibMethod m => m ≠ 8
  | .zlibWindow b l => l < b
  | .dictOther s o => s ≠ o
  | .zlibSum s c => s ≠ c
  | .gzipMethod m => m ≠ 8
  | .gzipFlags f => f ≠ 0
  | .gzipHeaderSum s c => s ≠ c
  | .gzipSum s c => s ≠ c
  | .gzipLength s c => s ≠ c
  | .storedLen l n w => w = 65535 - l ∧ n ≠ w
  | .badLitLen s => 286 ≤ s
  | .badDist s => 30 ≤ s
  | .tooFar d s => s < d
  | .hlit n l => l < n
  | .hdist n l => l < n
  | .repeatMany c l => l < c
  | .dictNeeded _ | .dictNeedless _ | .gzipMagic | .reserved | .noLitLen | .noDist | .noCodeLen | .codeLenCode | .litLenCode | .distCode | .repeatNothing => True

end Flate.Spec
