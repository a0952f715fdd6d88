/-
Specification of the two checksums, written from the RFCs and independent of the model.
-/
namespace Flate.Spec

/-- RFC 1950 section 8.2: `s1` after the bytes `d` is one plus the sum of the bytes. -/
def adlerS1 (d : List UInt8) : Nat := 1 + (d.map UInt8.toNat).sum

/-- RFC 1950 section 8.2: `s2` is the sum of the values of `s1` after each byte. -/
def adlerS2 (d : List UInt8) : Nat :=
  ((List.range d.length).map fun k => adlerS1 (d.take (k + 1))).sum

/-- RFC 1950 section 2.2: `s2 * 65536 + s1`, both modulo 65521. -/
def adler32 (d : List UInt8) : Nat :=
  (adlerS2 d % 65521) * 65536 + adlerS1 d % 65521

/-- One step of the reflected CRC-32 shift register (polynomial 0xedb88320): the incoming bit is
added to the lowest register bit; if the result is one, the polynomial is subtracted after the shift. -/
def crcBit (reg : BitVec 32) (bit : Bool) : BitVec 32 :=
  if (reg.getLsbD 0 ^^ bit) then (reg >>> 1) ^^^ 0xedb88320#32 else reg >>> 1

/-- The bits of a byte, least significant first. -/
def byteBits (b : UInt8) : List Bool :=
  (List.range 8).map fun i => b.toNat.testBit i

/-- The bits of a byte string, in the order used by DEFLATE and by CRC-32. -/
def bytesBits (d : List UInt8) : List Bool := d.flatMap byteBits

/-- RFC 1952 section 8: pre- and post-conditioned (ones complement) CRC-32 of a byte string. -/
def crc32 (d : List UInt8) : BitVec 32 :=
  ~~~ ((bytesBits d).foldl crcBit (~~~ 0#32))

end Flate.Spec
