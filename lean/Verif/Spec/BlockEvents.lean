/-
What the block events of a Reader say about its input.
-/
import Verif.Spec.Deflate
import Verif.Model.Types

namespace Flate.Spec
open Flate.Model

/-- RFC 1951 3.2.3: the two bits BTYPE, in the order in which they are stored -/
def typeBits : BlockType → List Bool
  | .stored => [false, false]
  | .static => [true, false]
  | .dynamic => [false, true]
  | .invalid => [true, true]

/-- like `DynHeader.Valid`, but HLIT and HDIST may have the values 30 and 31, which RFC 1951 does not permit -/
def DynHeader.Loose (ok : List Nat → Prop) (h : DynHeader) : Prop :=
  257 ≤ h.hlit ∧ h.hlit ≤ 288 ∧ 1 ≤ h.hdist ∧ h.hdist ≤ 32 ∧ 4 ≤ h.hclen ∧ h.hclen ≤ 19 ∧
  h.cl.length = 19 ∧ (∀ l ∈ h.cl, l < 8) ∧ (∀ s ∈ clOrder.drop h.hclen, lenOf h.cl s = 0) ∧
  (∀ p ∈ h.rle, Used h.cl p.1 ∧ p.2 < 2 ^ clExtra p.1) ∧
  clExpand [] h.rle = some h.lens ∧ h.lens.length = h.hlit + h.hdist ∧
  ok h.cl ∧ ok h.ll ∧ ok h.d

/-- The bits after the type of a block are `bits` and describe the codes `tr`. -/
inductive Tables (ok : List Nat → Prop) : BlockType → List Bool → Trees → Prop
  | static : Tables ok .static [] { ll := fixedLL, d := fixedD }
  | dynamic (hd : DynHeader) : hd.Loose ok → Tables ok .dynamic hd.bits { codeCount := hd.hclen, llCount := hd.hlit, dCount := hd.hdist, codeSizes := hd.cl, ll := hd.ll, d := hd.d }

/-- the bits `b` are in the bytes `B`, starting with bit number `p` -/
def BitsAt (B : List UInt8) (p : Nat) (b : List Bool) : Prop := ∃ pre r, bytesBits B = pre ++ b ++ r ∧ pre.length = p

/-- The event `e` is of the kind `k`, and was sent when the bytes had been read which contain the first `p` bits, and no others. -/
def SentAt (e : Event) (k : EvKind) (p : Nat) : Prop := e.kind = k ∧ e.inTotal = (p + 7) / 8

/-- `BlockRun ok B p es`: the events `es` describe the blocks of a stream whose first block begins with bit `p` of the bytes `B`, as far as they can be read.
Each block begins where the one before it ended, nothing follows a final one. -/
inductive BlockRun (ok : List Nat → Prop) (B : List UInt8) : Nat → List Event → Prop
  /-- not even the three bits could be read -/
  | nothing (p : Nat) : BlockRun ok B p []
  /-- a block which is not complete, or not correct, whose codes are not known -/
  | begun {p : Nat} (f : Bool) (t : BlockType) (e : Event) : BitsAt B p (f :: typeBits t) → SentAt e (.blockBegin t f) (p + 3) → BlockRun ok B p [e]
  /-- a block which is not complete, or not correct, but whose codes are known -/
  | tables {p : Nat} (f : Bool) (t : BlockType) (h : List Bool) (tr : Trees) (e e' : Event) : BitsAt B p (f :: typeBits t ++ h) → Tables ok t h tr →
      SentAt e (.blockBegin t f) (p + 3) → SentAt e' (.blockTrees t f tr) (p + 3 + h.length) → BlockRun ok B p [e, e']
  /-- a complete stored block -/
  | stored {p : Nat} (f : Bool) (pad : List Bool) (data : List UInt8) (e e' : Event) (es : List Event) (b : List Bool) :
      b = [f, false, false] ++ pad ++ natBits 16 data.length ++ natBits 16 (65535 - data.length) ++ bytesBits data → pad.length = padLen (p + 3) → data.length < 65536 → BitsAt B p b →
      SentAt e (.blockBegin .stored f) (p + 3) → SentAt e' (.blockEnd .stored f) (p + b.length) → (f = true → es = []) → BlockRun ok B (p + b.length) es → BlockRun ok B p (e :: e' :: es)
  /-- a complete compressed block -/
  | coded {p : Nat} (f : Bool) (t : BlockType) (h : List Bool) (tr : Trees) (is : List Item) (e e' e'' : Event) (es : List Event) (b : List Bool) :
      b = f :: typeBits t ++ h ++ dataBits tr.ll tr.d is → Tables ok t h tr → (∀ i ∈ is, i.Valid tr.ll tr.d) → Used tr.ll 256 → BitsAt B p b →
      SentAt e (.blockBegin t f) (p + 3) → SentAt e' (.blockTrees t f tr) (p + 3 + h.length) → SentAt e'' (.blockEnd t f) (p + b.length) →
      (f = true → es = []) → BlockRun ok B (p + b.length) es → BlockRun ok B p (e :: e' :: e'' :: es)

end Flate.Spec
