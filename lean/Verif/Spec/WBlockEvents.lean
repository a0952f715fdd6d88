/-
What the block events of a Writer say about its output.
-/
import Verif.Spec.BlockEvents

namespace Flate.Spec
open Flate.Model

/-- The bits after the type of a block are `bits`; they describe the codes `tr`, in a way which RFC 1951 permits. -/
inductive Codes (ok : List Nat → Prop) : BlockType → List Bool → Trees → Prop
  | static : Codes ok .static [] { ll := fixedLL, d := fixedD }
  | dynamic (hd : DynHeader) : hd.Valid ok → Codes ok .dynamic hd.bits { codeCount := hd.hclen, llCount := hd.hlit, dCount := hd.hdist, codeSizes := hd.cl, ll := hd.ll, d := hd.d }

/-- The event `e` is of the kind `k`, and was sent when `p` bits of output had been produced, of which less than `W` had not been passed on,
and `n` bytes of the stream's data had been compressed. -/
def WroteAt (W : Nat) (e : Event) (k : EvKind) (p n : Nat) : Prop := e.kind = k ∧ 8 * e.outTotal ≤ p ∧ p < 8 * e.outTotal + W ∧ e.inStream = n

/-- The block, final or not, whose bits `b` begin at position `p` and, after `h` (the dictionary and the data of the blocks before), stand for `data`, is described by the events `es`.
`n` bytes of data are in the blocks before this one. -/
inductive WBlock (ok : List Nat → Prop) (win W p : Nat) (h : List UInt8) (n : Nat) (f : Bool) : List Bool → List Event → List UInt8 → Prop
  | stored (pad : List Bool) (data : List UInt8) (e e' : Event) (b : List Bool) :
      b = [f, false, false] ++ pad ++ natBits 16 data.length ++ natBits 16 (65535 - data.length) ++ bytesBits data → pad.length = padLen (p + 3) → data.length < 65536 →
      WroteAt W e (.blockBegin .stored f) p (n + data.length) → WroteAt W e' (.blockEnd .stored f) (p + b.length) (n + data.length) →
      WBlock ok win W p h n f b [e, e'] data
  | coded (t : BlockType) (c : List Bool) (tr : Trees) (is : List Item) (data : List UInt8) (e e' e'' : Event) (b : List Bool) :
      b = f :: typeBits t ++ c ++ dataBits tr.ll tr.d is → Codes ok t c tr → (∀ i ∈ is, i.Valid tr.ll tr.d) → Used tr.ll 256 → expand win h is = some (h ++ data) →
      WroteAt W e (.blockBegin t f) p (n + data.length) → WroteAt W e' (.blockTrees t f tr) (p + 3 + c.length) (n + data.length) →
      WroteAt W e'' (.blockEnd t f) (p + b.length) (n + data.length) → WBlock ok win W p h n f b [e, e', e''] data

/-- The events `es` describe the blocks of a stream whose first block begins with bit `p` of the bits `B`: each block begins where the one before it ended, nothing follows a final one. -/
inductive WBlocks (ok : List Nat → Prop) (win W : Nat) (B : List Bool) : Nat → List UInt8 → Nat → List Event → Prop
  | nothing (p : Nat) (h : List UInt8) (n : Nat) : WBlocks ok win W B p h n []
  | cons {p : Nat} {h : List UInt8} {n : Nat} (f : Bool) (b : List Bool) (es es' : List Event) (data : List UInt8) : WBlock ok win W p h n f b es data →
      (∃ pre r, B = pre ++ b ++ r ∧ pre.length = p) → (f = true → es' = []) → WBlocks ok win W B (p + b.length) (h ++ data) (n + data.length) es' →
      WBlocks ok win W B p h n (es ++ es')

end Flate.Spec
