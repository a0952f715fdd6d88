/-
Contract of the external library github.com/chronos-tachyon/huffman, as used by this package.
The library itself is not available in this sandbox; every theorem quantifies over all
libraries satisfying `HuffLib.Lawful`.
-/
import Verif.Model.Types

namespace Flate.Model
open Flate.Spec

/-- The observable functions of the library.  A decoder or encoder is determined by the list of
code lengths it was initialised with. -/
structure HuffLib where
  /-- `Decoder.Init(sizes) == nil` -/
  accepts : List Nat → Bool
  /-- `Decoder.MinSize()` -/
  minSize : List Nat → Nat
  /-- `Decoder.MaxSize()` -/
  maxSize : List Nat → Nat
  /-- `Decoder.Decode(MakeCode(size, bits))`: symbol (`none` = InvalidSymbol), new min, new max -/
  decode : List Nat → Nat → Nat → Option Nat × Nat × Nat
  /-- `Encoder.Init(numSymbols, freqs)` followed by `Encoder.SizeBySymbol()` -/
  sizes : Nat → List Nat → List Nat

/-- `Encoder.Encode(symbol)`: size of the code, and its bits with the first one to be
transmitted in the least significant position.  The library uses canonical codes (RFC 1951 3.2.2). -/
def hcSize (lens : List Nat) (s : Nat) : Nat := lenOf lens s
def hcBits (lens : List Nat) (s : Nat) : Nat := bitsNat (codeBits lens s)

/-- The contract. -/
structure HuffLib.Lawful (L : HuffLib) : Prop where
  /-- only prefix codes of at most 15 bits are accepted -/
  accepts_code : ∀ {lens}, L.accepts lens = true → IsCode lens
  /-- complete codes are accepted -/
  accepts_complete : ∀ {lens}, IsComplete lens → L.accepts lens = true
  minSize_le : ∀ {lens s}, L.accepts lens = true → Used lens s → L.minSize lens ≤ lenOf lens s
  le_maxSize : ∀ {lens s}, L.accepts lens = true → Used lens s → lenOf lens s ≤ L.maxSize lens
  maxSize_le : ∀ {lens}, L.accepts lens = true → L.maxSize lens ≤ 15
  /-- a decoded symbol is the one with exactly that code -/
  decode_some : ∀ {lens n b s lo hi}, L.accepts lens = true → b < 2 ^ n →
    L.decode lens n b = (some s, lo, hi) → Used lens s ∧ codeBits lens s = natBits n b
  /-- a code is decoded -/
  decode_found : ∀ {lens n b s}, L.accepts lens = true → b < 2 ^ n → Used lens s →
    codeBits lens s = natBits n b → (L.decode lens n b).1 = some s
  /-- otherwise more bits are asked for, but never more than the next possible code has -/
  decode_more : ∀ {lens n b lo hi}, L.accepts lens = true → b < 2 ^ n →
    L.decode lens n b = (none, lo, hi) → hi ≠ 0 →
    n < lo ∧ ∀ s, Used lens s → natBits n b <+: codeBits lens s → lo ≤ lenOf lens s
  /-- or there is no code with these first bits -/
  decode_dead : ∀ {lens n b lo}, L.accepts lens = true → b < 2 ^ n →
    L.decode lens n b = (none, lo, 0) → ∀ s, Used lens s → ¬ natBits n b <+: codeBits lens s
  /-- the encoder assigns a length to each symbol (DEFLATE's alphabets have at most 288 symbols) -/
  sizes_length : ∀ {n freqs}, n ≤ 288 → freqs.length = n → (L.sizes n freqs).length = n
  /-- symbols which occur get a code -/
  sizes_used : ∀ {n freqs s}, n ≤ 288 → freqs.length = n → 0 < freqs.getD s 0 → Used (L.sizes n freqs) s
  /-- symbols which do not occur get none, except that symbols 0 and 1 may be used to complete a code -/
  sizes_unused : ∀ {n freqs s}, n ≤ 288 → freqs.length = n → freqs.getD s 0 = 0 → 2 ≤ s →
    lenOf (L.sizes n freqs) s = 0
  /-- the encoder's code is acceptable to the decoder (so codes have at most 15 bits) -/
  sizes_accepts : ∀ {n freqs}, n ≤ 288 → freqs.length = n → L.accepts (L.sizes n freqs) = true
  /-- codes for the 19 code length symbols have at most 7 bits -/
  sizes_cl : ∀ {freqs}, freqs.length = 19 → ∀ l ∈ L.sizes 19 freqs, l ≤ 7

end Flate.Model
