/-
Model of internal/adler32/adler32.go and of the portable part of internal/crc32/crc32.go.
Go's `uint32` is `BitVec 32`, a byte is `UInt8`.
-/
namespace Flate.Model

/-- conversion `uint32(b)` of a byte -/
def u32OfByte (b : UInt8) : BitVec 32 := BitVec.ofNat 32 b.toNat

namespace Adler

/-- adler32.go:10 `modulus` -/
def modulus : BitVec 32 := 65521#32

/-- adler32.go:12 `nmax` -/
def nmax : Nat := 5552

/-- adler32.go:35-38, the byte-at-a-time loop -/
def tailLoop : BitVec 32 → BitVec 32 → List UInt8 → BitVec 32 × BitVec 32
  | s1, s2, [] => (s1, s2)
  | s1, s2, c :: p =>
    let s1 := s1 + u32OfByte c
    let s2 := s2 + s1
    tailLoop s1 s2 p

/-- adler32.go:23-38, the loop unrolled four times, followed by the byte-at-a-time loop -/
def unrolledLoop : BitVec 32 → BitVec 32 → List UInt8 → BitVec 32 × BitVec 32
  | s1, s2, c0 :: c1 :: c2 :: c3 :: p =>
    let s1 := s1 + u32OfByte c0
    let s2 := s2 + s1
    let s1 := s1 + u32OfByte c1
    let s2 := s2 + s1
    let s1 := s1 + u32OfByte c2
    let s2 := s2 + s1
    let s1 := s1 + u32OfByte c3
    let s2 := s2 + s1
    unrolledLoop s1 s2 p
  | s1, s2, p => tailLoop s1 s2 p

/-- adler32.go:17-43, the loop over pieces of at most `nmax` bytes -/
def chunkLoop (s1 s2 : BitVec 32) (p : List UInt8) : BitVec 32 × BitVec 32 :=
  if _h : p = [] then (s1, s2)
  else
    let r := unrolledLoop s1 s2 (p.take nmax)
    chunkLoop (r.1 % modulus) (r.2 % modulus) (p.drop nmax)
termination_by p.length
decreasing_by
  have : p.length ≠ 0 := by simpa using _h
  simp [nmax]; omega

/-- adler32.go:14-45 `Update` -/
def update (sum : BitVec 32) (p : List UInt8) : BitVec 32 :=
  let s1 := sum &&& 0xffff#32
  let s2 := sum >>> 16
  let r := chunkLoop s1 s2 p
  (r.2 <<< 16) ||| r.1

/-- adler32.go:65-67 `Hash.Reset` and adler32.go:58-60 `New` -/
def init : BitVec 32 := 1#32

/-- adler32.go:47-52 `Checksum` -/
def checksum (p : List UInt8) : BitVec 32 := update init p

end Adler

namespace Crc

/-- crc32.go:11 `ieeePolynomial` -/
def poly : BitVec 32 := 0xedb88320#32

/-- crc32.go:26-30, body of the innermost loop of `init` -/
def initStep (sum : BitVec 32) : BitVec 32 :=
  if sum &&& 1#32 = 1#32 then (sum >>> 1) ^^^ poly else sum >>> 1

/-- crc32.go:23-33, `ieee[0][i]` -/
def table0 (i : Nat) : BitVec 32 :=
  initStep (initStep (initStep (initStep (initStep (initStep (initStep (initStep
    (BitVec.ofNat 32 i))))))))

/-- crc32.go:34-40, `ieee[j][i]` -/
def table : Nat → Nat → BitVec 32
  | 0, i => table0 i
  | j + 1, i =>
    let sum := table j i
    table0 (sum &&& 0xff#32).toNat ^^^ (sum >>> 8)

/-- crc32.go:74-76, the byte-at-a-time loop -/
def byteLoop (sum : BitVec 32) (p : List UInt8) : BitVec 32 :=
  p.foldl (fun sum ch => table0 ((sum &&& 0xff#32).toNat ^^^ ch.toNat) ^^^ (sum >>> 8)) sum

/-- `binary.LittleEndian.Uint32` of four bytes -/
def le32 (b0 b1 b2 b3 : UInt8) : BitVec 32 :=
  u32OfByte b0 ||| (u32OfByte b1 <<< 8) ||| (u32OfByte b2 <<< 16) ||| (u32OfByte b3 <<< 24)

/-- crc32.go:60-72, the loop over eight bytes (followed by the byte-at-a-time loop) -/
def sliceLoop : BitVec 32 → List UInt8 → BitVec 32
  | sum, p0 :: p1 :: p2 :: p3 :: p4 :: p5 :: p6 :: p7 :: p =>
    let sum := sum ^^^ le32 p0 p1 p2 p3
    let sum :=
      table 0 p7.toNat ^^^
      table 1 p6.toNat ^^^
      table 2 p5.toNat ^^^
      table 3 p4.toNat ^^^
      table 4 (sum >>> 24).toNat ^^^
      table 5 ((sum >>> 16) &&& 0xff#32).toNat ^^^
      table 6 ((sum >>> 8) &&& 0xff#32).toNat ^^^
      table 7 (sum &&& 0xff#32).toNat
    sliceLoop sum p
  | sum, p => byteLoop sum p

/-- crc32.go:53-79 `genericUpdate` -/
def genericUpdate (sum : BitVec 32) (p : List UInt8) : BitVec 32 :=
  if p.length = 0 then sum
  else
    let sum := ~~~ sum
    let sum := if p.length ≥ 16 then sliceLoop sum p else byteLoop sum p
    ~~~ sum

/-- crc32.go:92-94 `Hash.Reset` (and 85-87 `New`) -/
def init : BitVec 32 := 0#32

end Crc
end Flate.Model
