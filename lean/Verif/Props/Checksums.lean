/-
C19, C20: the checksums.  The specification is Verif/Spec/Checksum.lean (RFC 1950 section 8.2 and RFC 1952 section 8).
-/
import Verif.Proof.Checksum

namespace Flate.Props
open Flate.Spec Flate.Model Flate.Proof

/-- The value of a `Hash` after `New`/`Reset` and any sequence of `Write` calls is the RFC 1950 checksum of
everything written: no overflow of the 32-bit sums, and no influence of how the data was cut in pieces. -/
theorem C19_adler (pieces : List (List UInt8)) :
    (pieces.foldl Adler.update Adler.init).toNat = adler32 pieces.flatten := by
  have key : ∀ (ps : List (List UInt8)) (sum : BitVec 32) (d : List UInt8), AdlerIs sum d →
      AdlerIs (ps.foldl Adler.update sum) (d ++ ps.flatten) := by
    intro ps
    induction ps with
    | nil => intro sum d h; simpa using h
    | cons p ps ih =>
      intro sum d h
      have := ih _ _ (adler_update h p)
      simpa [List.append_assoc] using this
  exact key pieces _ [] adler_init

/-- the one-shot function `Checksum` (used for the dictionary identifier) -/
theorem C19_checksum (p : List UInt8) : (Adler.checksum p).toNat = adler32 p := by
  have := C19_adler [p]
  simpa [Adler.checksum] using this

/-- Likewise for CRC-32, through the eight bytes at a time path or not. -/
theorem C20_crc (pieces : List (List UInt8)) :
    pieces.foldl Crc.genericUpdate Crc.init = crc32 pieces.flatten := by
  have key : ∀ (ps : List (List UInt8)) (sum : BitVec 32) (d : List UInt8), CrcIs sum d →
      CrcIs (ps.foldl Crc.genericUpdate sum) (d ++ ps.flatten) := by
    intro ps
    induction ps with
    | nil => intro sum d h; simpa using h
    | cons p ps ih =>
      intro sum d h
      have := ih _ _ (crc_update h p)
      simpa [List.append_assoc] using this
  exact key pieces _ [] crc_init

/-- the specification itself on the customary test vectors: "123456789" has Adler-32 0x091e01de and CRC-32 0xcbf43926 -/
example : adler32 [0x31, 0x32, 0x33, 0x34, 0x35, 0x36, 0x37, 0x38, 0x39] = 0x091e01de ∧
    crc32 [0x31, 0x32, 0x33, 0x34, 0x35, 0x36, 0x37, 0x38, 0x39] = 0xcbf43926#32 := by decide +kernel

/-- and the code on the same data in two pieces -/
example : ([[0x31, 0x32, 0x33], [0x34, 0x35, 0x36, 0x37, 0x38, 0x39]].foldl Adler.update Adler.init).toNat = 0x091e01de := by
  rw [C19_adler]; decide +kernel

end Flate.Props
