/-
C79: the hash objects.
-/
import Verif.Model.Hash
import Verif.Props.Checksums
import Verif.Props.CrcArch

namespace Flate.Props
open Flate.Spec Flate.Model Flate.Proof
open Flate.Model.Hash (Op Res)

/-- What a hash.Hash32 for the checksum `f` answers if `d` is what was written since it was last reset: Write takes everything, Sum appends the checksum (most significant byte first) and changes nothing. -/
def answers (f : List UInt8 → Nat) (d : List UInt8) : List Op → List Res
  | [] => []
  | .write _ p :: ops => .wrote p.length :: answers f (d ++ p) ops
  | .sum s :: ops => .slice (s ++ beBytes 4 (f d)) :: answers f d ops
  | .sum32 :: ops => .word (BitVec.ofNat 32 (f d)) :: answers f d ops
  | .reset :: ops => .unit :: answers f [] ops
  | .size :: ops => .num 4 :: answers f d ops
  | .blockSize :: ops => .num 1 :: answers f d ops

theorem adler_run {h : BitVec 32} {d : List UInt8} (hd : AdlerIs h d) (ops : List Op) : Hash.run Hash.adlerStep h ops = answers adler32 d ops := by
  induction ops generalizing h d with
  | nil => rfl
  | cons op ops ih =>
    have e : h.toNat = adler32 d := hd
    cases op with
    | write c p => exact congrArg _ (ih (adler_update hd p))
    | sum s => show Res.slice (s ++ beBytes 4 h.toNat) :: _ = _; rw [e]; exact congrArg _ (ih hd)
    | sum32 => show Res.word h :: _ = Res.word (BitVec.ofNat 32 (adler32 d)) :: _; rw [← e, BitVec.ofNat_toNat, BitVec.setWidth_eq]; exact congrArg _ (ih hd)
    | reset => exact congrArg _ (ih adler_init)
    | size => exact congrArg _ (ih hd)
    | blockSize => exact congrArg _ (ih hd)

theorem crc_run {h : BitVec 32} {d : List UInt8} (hd : CrcIs h d) (ops : List Op) : Hash.run Hash.crcStep h ops = answers (fun d => (crc32 d).toNat) d ops := by
  induction ops generalizing h d with
  | nil => rfl
  | cons op ops ih =>
    have e : h = crc32 d := hd
    cases op with
    | write c p =>
      have := ih (crc_update hd p)
      rw [← C50_update c] at this
      exact congrArg _ this
    | sum s => show Res.slice (s ++ beBytes 4 h.toNat) :: _ = _; rw [e]; exact congrArg _ (ih (by rw [← e]; exact hd))
    | sum32 => show Res.word h :: _ = Res.word (BitVec.ofNat 32 (crc32 d).toNat) :: _; rw [← e, BitVec.ofNat_toNat, BitVec.setWidth_eq]; exact congrArg _ (ih hd)
    | reset => exact congrArg _ (ih crc_init)
    | size => exact congrArg _ (ih hd)
    | blockSize => exact congrArg _ (ih hd)

/-- Any calls of the methods of a new `adler32.Hash`, or one that was reset, whatever it held -/
theorem C79_adler (ops : List Op) : Hash.run Hash.adlerStep Hash.newAdler ops = answers adler32 [] ops := adler_run adler_init ops

theorem C79_adler_reset (h : BitVec 32) (ops : List Op) : Hash.run Hash.adlerStep h (.reset :: ops) = .unit :: answers adler32 [] ops :=
  congrArg _ (adler_run adler_init ops)

/-- The same for `crc32.Hash`; each Write may run on a different processor -/
theorem C79_crc (ops : List Op) : Hash.run Hash.crcStep Hash.newCrc ops = answers (fun d => (crc32 d).toNat) [] ops := crc_run crc_init ops

theorem C79_crc_reset (h : BitVec 32) (ops : List Op) : Hash.run Hash.crcStep h (.reset :: ops) = .unit :: answers (fun d => (crc32 d).toNat) [] ops :=
  congrArg _ (crc_run crc_init ops)

/-- the zero value of `adler32.Hash` must be reset before it is used (as Writer and Reader do for each stream) -/
example : Hash.run Hash.adlerStep 0#32 [.sum32] ≠ answers adler32 [] [.sum32] := by decide

example : answers adler32 [] [.write .other [0x61], .sum32, .sum [7], .reset, .sum32] = [.wrote 1, .word 0x00620062#32, .slice [7, 0, 0x62, 0, 0x62], .unit, .word 1#32] := by decide

end Flate.Props
