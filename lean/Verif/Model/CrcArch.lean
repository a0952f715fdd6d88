/-
The accelerated CRC-32 code: internal/crc32/crc32_arm64.{go,s} and crc32_amd64.{go,s}.

The registers are bit vectors.  The instructions are given by the pseudo-code of the architecture manuals ("ARM Architecture Reference Manual", CRC32B/H/W/X with `Poly32Mod2`
and `BitReverse`; "Intel 64 and IA-32 Architectures Software Developer's Manual", PCLMULQDQ, PSRLDQ, PSRLQ, PAND, PXOR, PCMPEQB, PEXTRD).  Trusted, not modelled: that the assembler
and the processors follow those manuals, and that slices are passed as described in the stack frame comments.
-/
import Verif.Model.Checksum

namespace Flate.Model.Arch

/-- a little-endian load -/
def load : List UInt8 → Nat
  | [] => 0
  | b :: r => b.toNat + 256 * load r

/-! ### arm64 -/

/-- ARM ARM `Poly32Mod2`: `for i = N-1 downto 32: if data<i> == '1' then data<i-1:0> = data<i-1:0> EOR (poly:Zeros(i-32))`; the result is `data<31:0>`. -/
def poly32Mod2 (n : Nat) (data : BitVec n) (poly : BitVec 32) : BitVec 32 :=
  ((List.range (n - 32)).foldl (fun d k => if d.getLsbD (n - 1 - k) then d ^^^ (poly.setWidth n <<< (n - 1 - k - 32)) else d) data).setWidth 32

/-- ARM ARM, operation of CRC32B, CRC32H, CRC32W, CRC32X (`size` = 8, 16, 32, 64):
`tempacc = BitReverse(acc):Zeros(size); tempval = BitReverse(val):Zeros(32); X[d] = BitReverse(Poly32Mod2(tempacc EOR tempval, 0x04C11DB7))` -/
def armCrc (size : Nat) (acc : BitVec 32) (val : BitVec size) : BitVec 32 :=
  (poly32Mod2 (32 + size) ((acc.reverse.setWidth (32 + size) <<< size) ^^^ (val.reverse.setWidth (32 + size) <<< 32)) 0x04c11db7#32).reverse

/-- crc32_arm64.s:12-27: eight bytes at a time -/
def armLoop (r9 : BitVec 32) (p : List UInt8) : BitVec 32 × List UInt8 :=
  if 8 ≤ p.length then armLoop (armCrc 64 r9 (BitVec.ofNat 64 (load (p.take 8)))) (p.drop 8) else (r9, p)
termination_by p.length
decreasing_by rw [List.length_drop]; omega

/-- crc32_arm64.s:29-49: one of the three tests of a bit of the remaining length (`r11`, which is not changed any more) and what follows it -/
def armStep (n : Nat) (bit : Nat) (r11 : Nat) (x : BitVec 32 × List UInt8) : BitVec 32 × List UInt8 :=
  if r11.testBit bit then (armCrc (8 * n) x.1 (BitVec.ofNat (8 * n) (load (x.2.take n))), x.2.drop n) else x

/-- crc32_arm64.s:10-51 -/
def armUpdate (sum : BitVec 32) (p : List UInt8) : BitVec 32 :=
  let x := armLoop sum p
  let r11 := x.2.length
  (armStep 1 0 r11 (armStep 2 1 r11 (armStep 4 2 r11 x))).1

/-- crc32_arm64.go:16-18 -/
def arm64Update (sum : BitVec 32) (p : List UInt8) : BitVec 32 := ~~~ armUpdate (~~~ sum) p

/-! ### amd64 -/

/-- carry-less multiplication of two quadwords -/
def clmul (a b : BitVec 64) : BitVec 128 :=
  (List.range 64).foldl (fun acc i => if b.getLsbD i then acc ^^^ (a.setWidth 128 <<< i) else acc) 0#128

/-- the low and the high quadword -/
def lo (x : BitVec 128) : BitVec 64 := x.setWidth 64
def hi (x : BitVec 128) : BitVec 64 := (x >>> 64).setWidth 64

/-- `PCLMULQDQ $imm, src, dst` (Go's order of operands): bit 0 of `imm` selects the quadword of `dst`, bit 4 that of `src` -/
def pclmul (imm : Nat) (src dst : BitVec 128) : BitVec 128 :=
  clmul (if imm.testBit 0 then hi dst else lo dst) (if imm.testBit 4 then hi src else lo src)

/-- two quadwords of constant data -/
def quads (l h : BitVec 64) : BitVec 128 := l.setWidth 128 ||| (h.setWidth 128 <<< 64)

/-- crc32_amd64.s:15-21 -/
def r2r1 : BitVec 128 := quads 0x154442bd4#64 0x1c6e41596#64
def r4r3 : BitVec 128 := quads 0x1751997d0#64 0x0ccaa009e#64
def rupoly : BitVec 128 := quads 0x1db710641#64 0x1f7011641#64
def r5 : BitVec 128 := quads 0x163cd6124#64 0#64

/-- sixteen bytes at offset `n` -/
def load128 (p : List UInt8) (n : Nat) : BitVec 128 := BitVec.ofNat 128 (load ((p.drop n).take 16))

/-- crc32_amd64.s:50-70 and others: `MOVOA X1, X5; PCLMULQDQ $0, X0, X1; PCLMULQDQ $0x11, X0, X5; PXOR X5, X1` -/
def foldX (x0 x1 : BitVec 128) : BitVec 128 := pclmul 0 x0 x1 ^^^ pclmul 0x11 x0 x1

/-- crc32_amd64.s:49-87: 64 bytes at a time -/
def loop64 (x1 x2 x3 x4 : BitVec 128) (p : List UInt8) : BitVec 128 × BitVec 128 × BitVec 128 × BitVec 128 × List UInt8 :=
  if 64 ≤ p.length then
    loop64 (foldX r2r1 x1 ^^^ load128 p 0) (foldX r2r1 x2 ^^^ load128 p 16) (foldX r2r1 x3 ^^^ load128 p 32) (foldX r2r1 x4 ^^^ load128 p 48) (p.drop 64)
  else (x1, x2, x3, x4, p)
termination_by p.length
decreasing_by rw [List.length_drop]; omega

/-- crc32_amd64.s:110-124: 16 bytes at a time -/
def loop16 (x1 : BitVec 128) (p : List UInt8) : BitVec 128 :=
  if 16 ≤ p.length then loop16 (foldX r4r3 x1 ^^^ load128 p 0) (p.drop 16) else x1
termination_by p.length
decreasing_by rw [List.length_drop]; omega

/-- crc32_amd64.s:128, 137: `PCMPEQB X3, X3; PSRLQ $32, X3`: ones in the lower half of each quadword -/
def mask32 : BitVec 128 := quads 0xffffffff#64 0xffffffff#64

/-- crc32_amd64.s:126-156; `PSRLDQ` shifts by bytes; `PEXTRD $1` selects bits 32-63 -/
def finish (x1 : BitVec 128) : BitVec 32 :=
  let x0 := pclmul 1 x1 r4r3
  let x1 := (x1 >>> 64) ^^^ x0
  let x2 := x1
  let x2 := x2 >>> 32
  let x1 := pclmul 0 r5 (x1 &&& mask32) ^^^ x2
  let x2 := x1
  let x1 := pclmul 0x10 rupoly (x1 &&& mask32)
  let x1 := pclmul 0 rupoly (x1 &&& mask32)
  let x1 := x1 ^^^ x2
  (x1 >>> 32).setWidth 32

/-- crc32_amd64.s:32-158; at least 64 bytes, and a multiple of 16 -/
def ieeeCLMUL (sum : BitVec 32) (p : List UInt8) : BitVec 32 :=
  let (x1, x2, x3, x4, q) := loop64 (load128 p 0 ^^^ sum.setWidth 128) (load128 p 16) (load128 p 32) (load128 p 48) (p.drop 64)
  let x1 := foldX r4r3 x1 ^^^ x2
  let x1 := foldX r4r3 x1 ^^^ x3
  let x1 := foldX r4r3 x1 ^^^ x4
  finish (loop16 x1 q)

/-- crc32_amd64.go:16-26 -/
def amd64Update (sum : BitVec 32) (p : List UInt8) : BitVec 32 :=
  if 64 ≤ p.length then
    let n := p.length - p.length % 16
    Crc.genericUpdate (~~~ ieeeCLMUL (~~~ sum) (p.take n)) (p.drop n)
  else Crc.genericUpdate sum p

/-- the processors: with the instructions (`cpu.X86.HasPCLMULQDQ && cpu.X86.HasSSE41`, `cpu.ARM64.HasCRC32`) or without -/
inductive Cpu where
  | amd64 (fast : Bool)
  | arm64 (fast : Bool)
  | other

/-- crc32.go:43-51 with `archAvailable` and `archUpdate` of each architecture (crc32_amd64.go:12-14, crc32_arm64.go:12-14, crc32_generic.go:5-11) -/
def update : Cpu → BitVec 32 → List UInt8 → BitVec 32
  | .amd64 true => amd64Update
  | .arm64 true => arm64Update
  | _ => Crc.genericUpdate

end Flate.Model.Arch
