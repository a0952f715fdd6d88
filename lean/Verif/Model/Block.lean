/-
Model of bitwriter.go, token.go:196-246 and the block writers of writer.go:996-1218.
The Go interface `bitwriter` becomes a record of functions, with two instances: `bitcounter`
(below) and the Writer (Model/Writer.lean).
-/
import Verif.Model.Token

namespace Flate.Model
open Flate.Spec

/-- `if !x() { return false }; y` -/
def Go.chk {σ : Type} (x y : Go σ Bool) : Go σ Bool := fun s =>
  match x s with
  | .ok (true, s') => y s'
  | .ok (false, s') => .ok (false, s')
  | .error e => .error e

/-- call a pure function which may panic -/
def Go.lift {σ α : Type} (x : Partial α) : Go σ α := fun s =>
  match x with
  | .ok a => .ok (a, s)
  | .error e => .error e

/-- bitwriter.go:10-18.  `outputBufferWriteU32` is not used by block writers; `outputBitsWriteHC(hc)` is
`outputBitsWrite(hc.Size, hc.Bits)` in both instances. -/
structure BitWriter (σ : Type) where
  bufWrite : List UInt8 → Go σ Bool
  /-- always called with `binary.LittleEndian` -/
  bufWriteU16 : Nat → Go σ Bool
  bitsWrite : Nat → Nat → Go σ Bool
  bitsFlush : Go σ Bool
  sendEvent : EvKind → Go σ Unit

/-- bitwriter.go:56-62 -/
def bcFlush (n : Nat) : Nat := if n % 8 ≠ 0 then n + (8 - n % 8) else n

/-- bitwriter.go:20-66 -/
def bitcounter (W : Nat) : BitWriter Nat where
  bufWrite p := fun n => .ok (true, bcFlush n + p.length * 8)
  bufWriteU16 _ := fun n => .ok (true, bcFlush n + 16)
  bitsWrite size _ := fun n => if size ≤ W then .ok (true, n + size) else .error (.assert "size > bitsPerBlock")
  bitsFlush := fun n => .ok (true, bcFlush n)
  sendEvent _ := fun n => .ok ((), n)

section
variable {σ : Type} (bw : BitWriter σ)

/-- `if size != 0 { if !bw.outputBitsWrite(size, bits) { return false } }` -/
def extraWrite (size bits : Nat) : Go σ Bool := if size ≠ 0 then bw.bitsWrite size bits else pure true

/-- token.go:196-227 -/
def encodeLLD (ll d : List Nat) (t : Token) : Go σ Bool := do
  let (symLL, sizeLL, bitsLL) ← Go.lift t.symbolLL
  let (symD, sizeD, bitsD) ← Go.lift t.symbolD
  match symLL with
  | none => pure true
  | some s =>
    Go.chk (bw.bitsWrite (hcSize ll s) (hcBits ll s)) <|
    Go.chk (extraWrite bw sizeLL bitsLL) <|
    match symD with
    | none => pure true
    | some sd =>
      Go.chk (bw.bitsWrite (hcSize d sd) (hcBits d sd)) <|
      extraWrite bw sizeD bitsD

/-- token.go:229-246 -/
def encodeX (cl : List Nat) (t : Token) : Go σ Bool :=
  match t.symbolX with
  | (none, _, _) => pure true
  | (some s, size, bits) =>
    Go.chk (bw.bitsWrite (hcSize cl s) (hcBits cl s)) <|
    extraWrite bw size bits

/-- `for _, x := range xs { if !f(x) { return false } }` -/
def forAll {α : Type} (f : α → Go σ Bool) : List α → Go σ Bool
  | [] => pure true
  | x :: xs => Go.chk (f x) (forAll f xs)

/-- `bw.sendEvent(...)` as a step which cannot fail -/
def evStep (k : EvKind) : Go σ Bool := do bw.sendEvent k; pure true

/-- writer.go:1021-1065 -/
def writeStoredBlock (data : List UInt8) (isFinal : Bool) : Go σ Bool := do
  Go.assert (data.length ≤ 65535) "uncompressed block length exceeds uint16_t"
  Go.chk (evStep bw (.blockBegin .stored isFinal)) <|
  Go.chk (bw.bitsWrite 3 (if isFinal then 1 else 0)) <|
  Go.chk bw.bitsFlush <|
  Go.chk (bw.bufWriteU16 (data.length % 65536)) <|
  Go.chk (bw.bufWriteU16 (65535 - data.length % 65536)) <|
  Go.chk (bw.bufWrite data) <|
  evStep bw (.blockEnd .stored isFinal)

/-- writer.go:1068-1070 and 1124-1126 -/
def assertStop (tokens : List Token) : Go σ Unit := do
  Go.assert (tokens.length ≥ 1) "at least 1 token is required"
  let b ← Go.lift (tokens.getLastD makeStopToken).isStop
  Go.assert b "last token must be a stop token"

/-- writer.go:1067-1121.  The fixed encoders are those of huffman.go:30-58. -/
def writeStaticBlock (tokens : List Token) (isFinal : Bool) : Go σ Bool := do
  assertStop tokens
  Go.chk (evStep bw (.blockBegin .static isFinal)) <|
  Go.chk (bw.bitsWrite 3 (if isFinal then 3 else 2)) <|
  Go.chk (evStep bw (.blockTrees .static isFinal { ll := fixedSizesLL, d := fixedSizesD })) <|
  Go.chk (forAll (encodeLLD bw fixedSizesLL fixedSizesD) tokens) <|
  evStep bw (.blockEnd .static isFinal)

/-- writer.go:1162-1165: `for numX > 4 && sX[scramble[numX-1]] == 0 { numX-- }` -/
def trimX (sX : List Nat) : Nat → Nat
  | 0 => 0
  | n + 1 => if n + 1 > 4 ∧ sX.getD (scramble.getD n 0) 0 = 0 then trimX sX n else n + 1

/-- writer.go:1123-1218.  `hLL`, `hD` are given by their `SizeBySymbol()`.  The extra-bits and code
values are written in the order of the code.  (A pooled token slice starts empty: pools.go:19-26.) -/
def writeDynamicBlock (L : HuffLib) (sLL sD : List Nat) (tokens : List Token) (isFinal : Bool) : Go σ Bool := do
  assertStop tokens
  Go.chk (evStep bw (.blockBegin .dynamic isFinal)) <|
  Go.chk (bw.bitsWrite 3 (if isFinal then 5 else 4)) <| do
  let (xtokens, numLL) ← Go.lift (encodeTreeTokens [] sLL 257)
  let (xtokens, numD) ← Go.lift (encodeTreeTokens xtokens sD 1)
  let freqX ← Go.lift (studyFrequenciesX xtokens)
  let sX := L.sizes physicalNumXCodes freqX
  let numX := trimX sX physicalNumXCodes
  Go.chk (bw.bitsWrite 5 (numLL - 257)) <|
  Go.chk (bw.bitsWrite 5 (numD - 1)) <|
  Go.chk (bw.bitsWrite 4 (numX - 4)) <|
  Go.chk (forAll (fun i => bw.bitsWrite 3 (sX.getD (scramble.getD i 0) 0)) (List.range numX)) <|
  Go.chk (forAll (encodeX bw sX) xtokens) <|
  Go.chk (evStep bw (.blockTrees .dynamic isFinal
      { codeCount := numX, llCount := numLL, dCount := numD, codeSizes := sX, ll := sLL, d := sD })) <|
  Go.chk (forAll (encodeLLD bw sLL sD) tokens) <|
  evStep bw (.blockEnd .dynamic isFinal)

end

/-- run a block writer on a fresh `bitcounter`; its boolean result is ignored, writer.go:1005-1009 -/
def countBits (W : Nat) (f : BitWriter Nat → Go Nat Bool) : Partial Nat :=
  match f (bitcounter W) 0 with
  | .ok (_, n) => .ok n
  | .error e => .error e

/-- writer.go:996-1019 -/
def compressTokens {σ : Type} (bw : BitWriter σ) (W : Nat) (L : HuffLib) (data : List UInt8)
    (tokens : List Token) (isFinal : Bool) : Go σ Bool := do
  let (freqLL, freqD) ← Go.lift (studyFrequenciesLLD tokens)
  let sLL := L.sizes physicalNumLLCodes freqLL
  let sD := L.sizes physicalNumDCodes freqD
  let dynamicLength ← Go.lift (countBits W fun c => writeDynamicBlock c L sLL sD tokens isFinal)
  let staticLength ← Go.lift (countBits W fun c => writeStaticBlock c tokens isFinal)
  let storedLength := data.length * 8 + 35
  if storedLength < dynamicLength then writeStoredBlock bw data isFinal
  else if staticLength ≤ dynamicLength then writeStaticBlock bw tokens isFinal
  else writeDynamicBlock bw L sLL sD tokens isFinal

end Flate.Model
