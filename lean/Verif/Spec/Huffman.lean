/-
Canonical Huffman codes, RFC 1951 section 3.2.2.
A code is given by the list of code lengths by symbol; length 0 means the symbol is not used.
-/
import Verif.Spec.Bits

namespace Flate.Spec

/-- length of the code of symbol `s` (0 when absent) -/
def lenOf (lens : List Nat) (s : Nat) : Nat := lens.getD s 0

/-- RFC 1951 3.2.2 step 1: `bl_count[n]`, with `bl_count[0] = 0` -/
def blCount (lens : List Nat) (n : Nat) : Nat := if n = 0 then 0 else lens.count n

/-- RFC 1951 3.2.2 step 2: `next_code[n]` before any code of length `n` is assigned -/
def firstCode (lens : List Nat) : Nat → Nat
  | 0 => 0
  | n + 1 => 2 * (firstCode lens n + blCount lens n)

/-- RFC 1951 3.2.2 step 3: numerical value of the code of symbol `s` -/
def codeVal (lens : List Nat) (s : Nat) : Nat :=
  firstCode lens (lenOf lens s) + (lens.take s).count (lenOf lens s)

/-- the code of symbol `s` in the order in which its bits appear in the stream (most significant first) -/
def codeBits (lens : List Nat) (s : Nat) : List Bool :=
  (natBits (lenOf lens s) (codeVal lens s)).reverse

/-- symbol `s` has a code -/
def Used (lens : List Nat) (s : Nat) : Prop := 0 < lenOf lens s

/-- Kraft sum scaled by `2^15` -/
def kraft (lens : List Nat) : Nat :=
  (lens.map fun l => if l = 0 then 0 else 2 ^ (15 - l)).sum

/-- the lengths describe a prefix code with codes of at most 15 bits -/
def IsCode (lens : List Nat) : Prop := (∀ l ∈ lens, l ≤ 15) ∧ kraft lens ≤ 2 ^ 15

/-- a complete prefix code: every bit string decodes -/
def IsComplete (lens : List Nat) : Prop := (∀ l ∈ lens, l ≤ 15) ∧ kraft lens = 2 ^ 15

/-- RFC 1951 3.2.6 fixed literal/length code lengths -/
def fixedLL : List Nat :=
  List.replicate 144 8 ++ List.replicate 112 9 ++ List.replicate 24 7 ++ List.replicate 8 8

/-- RFC 1951 3.2.6 fixed distance code lengths -/
def fixedD : List Nat := List.replicate 32 5

end Flate.Spec
