/-
The DEFLATE compressed data format, RFC 1951, as relations between bit strings and byte strings.
`ok` says which lists of code lengths a decoder has to accept in a dynamic block (RFC 1951 leaves
the treatment of incomplete codes open); `win` is the largest permitted distance.
-/
import Verif.Spec.Huffman

namespace Flate.Spec

/-- RFC 1951 3.2.5: smallest length for symbols 257..285 -/
def lenBase : List Nat :=
  [3, 4, 5, 6, 7, 8, 9, 10, 11, 13, 15, 17, 19, 23, 27, 31, 35, 43, 51, 59, 67, 83, 99, 115, 131, 163, 195,
   227, 258]
/-- RFC 1951 3.2.5: number of extra bits for symbols 257..285 -/
def lenExtra : List Nat :=
  [0, 0, 0, 0, 0, 0, 0, 0, 1, 1, 1, 1, 2, 2, 2, 2, 3, 3, 3, 3, 4, 4, 4, 4, 5, 5, 5, 5, 0]
/-- RFC 1951 3.2.5: smallest distance for symbols 0..29 -/
def distBase : List Nat :=
  [1, 2, 3, 4, 5, 7, 9, 13, 17, 25, 33, 49, 65, 97, 129, 193, 257, 385, 513, 769, 1025, 1537, 2049, 3073,
   4097, 6145, 8193, 12289, 16385, 24577]
/-- RFC 1951 3.2.5: number of extra bits for distance symbols 0..29 -/
def distExtra : List Nat :=
  [0, 0, 0, 0, 1, 1, 2, 2, 3, 3, 4, 4, 5, 5, 6, 6, 7, 7, 8, 8, 9, 9, 10, 10, 11, 11, 12, 12, 13, 13]

/-- An element of compressed data: a literal byte or a back-reference, the latter given by the
index of its length symbol (symbol `257 + li`) and distance symbol together with the extra bits' values.
(Length 258 has, as in every decoder, the two encodings 285 and 284 with extra bits 31.) -/
inductive Item where
  | lit (b : UInt8)
  | ref (li lx di dx : Nat)
  deriving DecidableEq, Repr

/-- length of a back-reference -/
def refLen (li lx : Nat) : Nat := lenBase.getD li 0 + lx
/-- distance of a back-reference -/
def refDist (di dx : Nat) : Nat := distBase.getD di 0 + dx

/-- the item uses existing symbols, which have codes, and extra bits within range -/
def Item.Valid (ll d : List Nat) : Item → Prop
  | .lit b => Used ll b.toNat
  | .ref li lx di dx => li < 29 ∧ lx < 2 ^ lenExtra.getD li 0 ∧ di < 30 ∧ dx < 2 ^ distExtra.getD di 0 ∧
      Used ll (257 + li) ∧ Used d di

/-- the bits of an item -/
def Item.bits (ll d : List Nat) : Item → List Bool
  | .lit b => codeBits ll b.toNat
  | .ref li lx di dx => codeBits ll (257 + li) ++ natBits (lenExtra.getD li 0) lx ++
      codeBits d di ++ natBits (distExtra.getD di 0) dx

/-- append `n` bytes, each a copy of the byte `dist` positions before it -/
def lzCopy (h : List UInt8) (dist : Nat) : Nat → List UInt8
  | 0 => h
  | n + 1 => lzCopy (h ++ [h.getD (h.length - dist) 0]) dist n

/-- Effect of the items on the history `h` (everything decoded so far, preceded by the preset
dictionary); fails when a distance is beyond the window or before the beginning. -/
def expand (win : Nat) : List UInt8 → List Item → Option (List UInt8)
  | h, [] => some h
  | h, .lit b :: is => expand win (h ++ [b]) is
  | h, .ref li lx di dx :: is =>
    if refDist di dx ≤ win ∧ refDist di dx ≤ h.length then
      expand win (lzCopy h (refDist di dx) (refLen li lx)) is
    else none

/-- compressed data of a block: items and the end-of-block symbol 256 -/
def dataBits (ll d : List Nat) (is : List Item) : List Bool :=
  is.flatMap (Item.bits ll d) ++ codeBits ll 256

/-- RFC 1951 3.2.7: order in which the code length code lengths are stored -/
def clOrder : List Nat := [16, 17, 18, 0, 8, 7, 9, 6, 10, 5, 11, 4, 12, 3, 13, 2, 14, 1, 15]

/-- extra bits of a code length symbol -/
def clExtra (s : Nat) : Nat := if s = 16 then 2 else if s = 17 then 3 else if s = 18 then 7 else 0

/-- RFC 1951 3.2.7: effect of one code length symbol on the list of lengths so far -/
def clStep (acc : List Nat) (s x : Nat) : Option (List Nat) :=
  if s < 16 then some (acc ++ [s])
  else if s = 16 then (acc.getLast?).map fun l => acc ++ List.replicate (3 + x) l
  else if s = 17 then some (acc ++ List.replicate (3 + x) 0)
  else if s = 18 then some (acc ++ List.replicate (11 + x) 0)
  else none

/-- effect of a sequence of code length symbols -/
def clExpand : List Nat → List (Nat × Nat) → Option (List Nat)
  | acc, [] => some acc
  | acc, (s, x) :: r => (clStep acc s x).bind fun acc => clExpand acc r

/-- pad a list of code lengths with zeros (symbols without a transmitted length are unused) -/
def padTo (n : Nat) (l : List Nat) : List Nat := l ++ List.replicate (n - l.length) 0

/-- header of a dynamic block -/
structure DynHeader where
  /-- number of literal/length code lengths (HLIT + 257) -/
  hlit : Nat
  /-- number of distance code lengths (HDIST + 1) -/
  hdist : Nat
  /-- number of code length code lengths (HCLEN + 4) -/
  hclen : Nat
  /-- code length code lengths by symbol -/
  cl : List Nat
  /-- code length symbols with the values of their extra bits -/
  rle : List (Nat × Nat)
  /-- the resulting code lengths: `hlit` literal/length ones, then `hdist` distance ones -/
  lens : List Nat

def DynHeader.ll (h : DynHeader) : List Nat := padTo 288 (h.lens.take h.hlit)
def DynHeader.d (h : DynHeader) : List Nat := padTo 32 (h.lens.drop h.hlit)

def DynHeader.Valid (ok : List Nat → Prop) (h : DynHeader) : Prop :=
  257 ≤ h.hlit ∧ h.hlit ≤ 286 ∧ 1 ≤ h.hdist ∧ h.hdist ≤ 30 ∧ 4 ≤ h.hclen ∧ h.hclen ≤ 19 ∧
  h.cl.length = 19 ∧ (∀ l ∈ h.cl, l < 8) ∧ (∀ s ∈ clOrder.drop h.hclen, lenOf h.cl s = 0) ∧
  (∀ p ∈ h.rle, Used h.cl p.1 ∧ p.2 < 2 ^ clExtra p.1) ∧
  clExpand [] h.rle = some h.lens ∧ h.lens.length = h.hlit + h.hdist ∧
  ok h.cl ∧ ok h.ll ∧ ok h.d

def DynHeader.bits (h : DynHeader) : List Bool :=
  natBits 5 (h.hlit - 257) ++ natBits 5 (h.hdist - 1) ++ natBits 4 (h.hclen - 4) ++
  (clOrder.take h.hclen).flatMap (fun s => natBits 3 (lenOf h.cl s)) ++
  h.rle.flatMap (fun p => codeBits h.cl p.1 ++ natBits (clExtra p.1) p.2)

/-- `BlockEnc ok win pos final h bits h'`: the bits, found at bit position `pos` of the compressed data,
form one block, marked final or not, which takes the history `h` to `h'`. -/
inductive BlockEnc (ok : List Nat → Prop) (win : Nat) (pos : Nat) (final : Bool) (h : List UInt8) :
    List Bool → List UInt8 → Prop
  | stored (pad : List Bool) (data : List UInt8) :
      pad.length = padLen (pos + 3) → data.length < 65536 →
      BlockEnc ok win pos final h
        ([final, false, false] ++ pad ++ natBits 16 data.length ++ natBits 16 (65535 - data.length) ++
          bytesBits data)
        (h ++ data)
  | fixed (is : List Item) (h' : List UInt8) :
      (∀ i ∈ is, i.Valid fixedLL fixedD) → expand win h is = some h' →
      BlockEnc ok win pos final h ([final, true, false] ++ dataBits fixedLL fixedD is) h'
  | dynamic (hd : DynHeader) (is : List Item) (h' : List UInt8) :
      hd.Valid ok → (∀ i ∈ is, i.Valid hd.ll hd.d) → Used hd.ll 256 → expand win h is = some h' →
      BlockEnc ok win pos final h ([final, false, true] ++ hd.bits ++ dataBits hd.ll hd.d is) h'

/-- A kind of block: bit position, final flag, history before, bits, history after. -/
abbrev BlockRel := Nat → Bool → List UInt8 → List Bool → List UInt8 → Prop

/-- zero or more non-final blocks of the given kind, starting at bit position `pos` -/
inductive Blocks (E : BlockRel) : Nat → List UInt8 → List Bool → List UInt8 → Prop
  | nil (pos : Nat) (h : List UInt8) : Blocks E pos h [] h
  | cons {pos : Nat} {h h1 h2 : List UInt8} {b bs : List Bool} :
      E pos false h b h1 → Blocks E (pos + b.length) h1 bs h2 → Blocks E pos h (b ++ bs) h2

/-- `DeflateOf E dict bytes data`: the bytes are a complete DEFLATE stream (starting on a byte
boundary, ending with the byte containing the last bit of the final block), consisting of blocks of the given
kind, which, with the preset dictionary `dict`, decodes to `data`. -/
def DeflateOf (E : BlockRel) (dict bytes data : List UInt8) : Prop :=
  ∃ (bs b pad : List Bool) (h : List UInt8),
    Blocks E 0 dict bs h ∧ E bs.length true h b (dict ++ data) ∧
    bytesBits bytes = bs ++ b ++ pad ∧ pad.length < 8

/-- a complete DEFLATE stream with any RFC 1951 blocks -/
def Deflate (ok : List Nat → Prop) (win : Nat) : List UInt8 → List UInt8 → List UInt8 → Prop :=
  DeflateOf (BlockEnc ok win)

/-- a stored block -/
def StoredEnc : BlockRel := fun pos final h bits h' =>
  ∃ (pad : List Bool) (data : List UInt8), pad.length = padLen (pos + 3) ∧ data.length < 65536 ∧
    bits = [final, false, false] ++ pad ++ natBits 16 data.length ++ natBits 16 (65535 - data.length) ++
      bytesBits data ∧ h' = h ++ data

/-- the block is not longer than a stored block (3 bits, padding, 32 bits, the data) would be -/
def NotLonger (pos : Nat) (h : List UInt8) (bits : List Bool) (h' : List UInt8) : Prop :=
  bits.length + 8 * h.length ≤ 8 * h'.length + 35 + padLen (pos + 3)

/-- a non-final block with fixed codes and without data -/
def EmptyStatic : BlockRel := fun _ final h bits h' =>
  final = false ∧ bits = [false, true, false] ++ dataBits fixedLL fixedD [] ∧ h' = h

end Flate.Spec

namespace Flate.Spec

/-- like `BlockEnc`, but all items of a compressed block satisfy `P` -/
inductive BlockItems (P : Item → Prop) (ok : List Nat → Prop) (win : Nat) (pos : Nat) (final : Bool) (h : List UInt8) :
    List Bool → List UInt8 → Prop
  | stored (pad : List Bool) (data : List UInt8) :
      pad.length = padLen (pos + 3) → data.length < 65536 →
      BlockItems P ok win pos final h
        ([final, false, false] ++ pad ++ natBits 16 data.length ++ natBits 16 (65535 - data.length) ++
          bytesBits data)
        (h ++ data)
  | fixed (is : List Item) (h' : List UInt8) :
      (∀ i ∈ is, i.Valid fixedLL fixedD ∧ P i) → expand win h is = some h' →
      BlockItems P ok win pos final h ([final, true, false] ++ dataBits fixedLL fixedD is) h'
  | dynamic (hd : DynHeader) (is : List Item) (h' : List UInt8) :
      hd.Valid ok → (∀ i ∈ is, i.Valid hd.ll hd.d ∧ P i) → Used hd.ll 256 → expand win h is = some h' →
      BlockItems P ok win pos final h ([final, false, true] ++ hd.bits ++ dataBits hd.ll hd.d is) h'

/-- the item is not a back-reference -/
def Item.IsLit : Item → Prop
  | .lit _ => True
  | .ref _ _ _ _ => False

/-- if the item is a back-reference, its distance satisfies `p` -/
def Item.Dist (p : Nat → Prop) : Item → Prop
  | .lit _ => True
  | .ref _ _ di dx => p (refDist di dx)

end Flate.Spec

namespace Flate.Spec

/-- `BlockPart ok win h bits h'`: the bits are the beginning of a block, enough of it to take the history `h` to `h'`
(a stored block counts only as a whole). -/
inductive BlockPart (ok : List Nat → Prop) (win : Nat) (h : List UInt8) : List Bool → List UInt8 → Prop
  | nothing : BlockPart ok win h [] h
  | fixed (final : Bool) (is : List Item) (h' : List UInt8) :
      (∀ i ∈ is, i.Valid fixedLL fixedD) → expand win h is = some h' →
      BlockPart ok win h ([final, true, false] ++ is.flatMap (Item.bits fixedLL fixedD)) h'
  | dynamic (final : Bool) (hd : DynHeader) (is : List Item) (h' : List UInt8) :
      hd.Valid ok → (∀ i ∈ is, i.Valid hd.ll hd.d) → expand win h is = some h' →
      BlockPart ok win h ([final, false, true] ++ hd.bits ++ is.flatMap (Item.bits hd.ll hd.d)) h'

end Flate.Spec
