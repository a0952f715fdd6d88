/-
C50: the accelerated CRC-32 code.  The specification is Verif/Spec/Checksum.lean; the instructions are those of Verif/Model/CrcArch.lean.
-/
import Verif.Proof.CrcArch

namespace Flate.Props
open Flate.Spec Flate.Model Flate.Proof

/-- On every processor, for every register value and every slice, the update function returns what the portable one returns. -/
theorem C50_update (cpu : Arch.Cpu) (sum : BitVec 32) (p : List UInt8) : Arch.update cpu sum p = Crc.genericUpdate sum p :=
  Arch.update_eq cpu sum p

/-- A hash fed with any pieces, each of them possibly on a different processor, holds the CRC-32 of RFC 1952 of everything written. -/
theorem C50_crc (pieces : List (Arch.Cpu × List UInt8)) :
    pieces.foldl (fun sum x => Arch.update x.1 sum x.2) Crc.init = crc32 (pieces.map Prod.snd).flatten := by
  have key : ∀ (ps : List (Arch.Cpu × List UInt8)) (sum : BitVec 32) (d : List UInt8), CrcIs sum d →
      CrcIs (ps.foldl (fun sum x => Arch.update x.1 sum x.2) sum) (d ++ (ps.map Prod.snd).flatten) := by
    intro ps
    induction ps with
    | nil => intro sum d h; simpa using h
    | cons p ps ih =>
      intro sum d h
      have := ih _ _ (crc_update h p.2)
      rw [List.foldl_cons, C50_update]
      simpa [List.append_assoc] using this
  exact key pieces _ [] crc_init

/-- The two assembly routines themselves, without the inversions: the shift register of the definition. -/
theorem C50_amd64 (sum : BitVec 32) (p : List UInt8) (h : 64 ≤ p.length) (h16 : p.length % 16 = 0) : Arch.ieeeCLMUL sum p = (bytesBits p).foldl crcBit sum :=
  Proof.Arch.ieeeCLMUL_eq sum p h h16

theorem C50_arm64 (sum : BitVec 32) (p : List UInt8) : Arch.armUpdate sum p = (bytesBits p).foldl crcBit sum :=
  Proof.Arch.armUpdate_eq sum p

/-- the lengths for which the assembly routine of amd64 is called, and a call of it: 80 bytes, through both loops -/
example : Arch.update (.amd64 true) Crc.init (List.replicate 85 0x61) = crc32 (List.replicate 85 0x61) ∧
    Arch.update (.arm64 true) Crc.init (List.replicate 15 0x61) = crc32 (List.replicate 15 0x61) := by
  refine ⟨?_, ?_⟩
  · have := C50_crc [(.amd64 true, List.replicate 85 0x61)]
    simpa using this
  · have := C50_crc [(.arm64 true, List.replicate 15 0x61)]
    simpa using this

/-- the model of the assembly run on data: "123456789" on arm64 -/
example : Arch.arm64Update 0#32 [0x31, 0x32, 0x33, 0x34, 0x35, 0x36, 0x37, 0x38, 0x39] = 0xcbf43926#32 := by
  rw [Proof.Arch.arm64Update_eq, genericUpdate_eq]; decide +kernel

end Flate.Props
