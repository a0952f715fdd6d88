/-
Model of the `Hash` types of internal/adler32 and internal/crc32 (hash.Hash32).
-/
import Verif.Model.CrcArch
import Verif.Spec.Bits

namespace Flate.Model.Hash
open Flate.Spec Flate.Model

/-- the methods; `cpu` is the processor the call runs on (internal/crc32 has special code for some) -/
inductive Op where
  | write (cpu : Arch.Cpu) (p : List UInt8)
  | sum (slice : List UInt8)
  | sum32
  | reset
  | size
  | blockSize

inductive Res where
  /-- `Write` returned this and a nil error -/
  | wrote (n : Nat)
  | slice (b : List UInt8)
  | word (w : BitVec 32)
  | num (n : Nat)
  | unit
  deriving DecidableEq, Repr

/-- internal/adler32/adler32.go:54-84 -/
def adlerStep (h : BitVec 32) : Op → Res × BitVec 32
  | .write _ p => (.wrote p.length, Adler.update h p)
  | .sum s => (.slice (s ++ beBytes 4 h.toNat), h)
  | .sum32 => (.word h, h)
  | .reset => (.unit, 1#32)
  | .size => (.num 4, h)
  | .blockSize => (.num 1, h)

/-- internal/adler32/adler32.go:58-60 -/
def newAdler : BitVec 32 := 1#32

/-- internal/crc32/crc32.go:81-111 -/
def crcStep (h : BitVec 32) : Op → Res × BitVec 32
  | .write cpu p => (.wrote p.length, Arch.update cpu h p)
  | .sum s => (.slice (s ++ beBytes 4 h.toNat), h)
  | .sum32 => (.word h, h)
  | .reset => (.unit, 0#32)
  | .size => (.num 4, h)
  | .blockSize => (.num 1, h)

/-- internal/crc32/crc32.go:85-87 -/
def newCrc : BitVec 32 := 0#32

def run (step : BitVec 32 → Op → Res × BitVec 32) : BitVec 32 → List Op → List Res
  | _, [] => []
  | h, op :: ops => (step h op).1 :: run step (step h op).2 ops

end Flate.Model.Hash
