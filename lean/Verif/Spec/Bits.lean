/-
Bit strings.  DEFLATE (RFC 1951 section 3.1.1) packs bits into bytes starting with the least
significant bit; integers are packed least significant bit first, Huffman codes most significant bit first.
-/
import Verif.Spec.Checksum

namespace Flate.Spec

/-- the `n` low bits of `v`, least significant first -/
def natBits : Nat → Nat → List Bool
  | 0, _ => []
  | n + 1, v => v.testBit 0 :: natBits n (v / 2)

/-- the number whose binary digits, least significant first, are the given bits -/
def bitsNat : List Bool → Nat
  | [] => 0
  | b :: bs => b.toNat + 2 * bitsNat bs

/-- number of padding bits needed to reach a byte boundary from bit position `pos` -/
def padLen (pos : Nat) : Nat := (8 - pos % 8) % 8

/-- `n` little-endian bytes of `v` -/
def leBytes : Nat → Nat → List UInt8
  | 0, _ => []
  | n + 1, v => UInt8.ofNat v :: leBytes n (v / 256)

/-- `n` big-endian bytes of `v` -/
def beBytes (n v : Nat) : List UInt8 := (leBytes n v).reverse

end Flate.Spec
