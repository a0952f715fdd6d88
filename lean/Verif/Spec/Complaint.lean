/-
What is wrong with a stream when a decoder complains about it with a given message.
-/
import Verif.Spec.Container
import Verif.Spec.Problem

namespace Flate.Spec

/-- the number with the given bytes, least significant byte first -/
def leValue : List UInt8 → Nat
  | [] => 0
  | b :: r => b.toNat + 256 * leValue r

/-- the number with the given bytes, most significant byte first -/
def beValue (p : List UInt8) : Nat := leValue p.reverse

/-- no code word of the code stands at the beginning of the bits -/
def NoCode (lens : List Nat) (bits : List Bool) : Prop := ∀ x, Used lens x → ¬ codeBits lens x <+: bits

/-- the problems that there is no code word -/
def noCodeMessages : List Problem := [.noLitLen, .noDist, .noCodeLen]

/-- `DataWrong win ll d h m bits rest`: in the compressed data of a block, with history `h`, the `bits` are in order except for the problem `m` at
their end; `rest` is all that follows. -/
inductive DataWrong (win : Nat) (ll d : List Nat) : List UInt8 → Problem → List Bool → List Bool → Prop
  /-- a good item -/
  | after {h h' : List UInt8} {m : Problem} {bits rest : List Bool} (it : Item) : it.Valid ll d → expand win h [it] = some h' →
      DataWrong win ll d h' m bits rest → DataWrong win ll d h m (it.bits ll d ++ bits) rest
  | noSymbol {h : List UInt8} {rest : List Bool} : NoCode ll rest → DataWrong win ll d h .noLitLen [] rest
  | badSymbol {h : List UInt8} {rest : List Bool} (sym : Nat) : Used ll sym → 286 ≤ sym → DataWrong win ll d h (.badLitLen sym) (codeBits ll sym) rest
  | noDistance {h : List UInt8} {rest : List Bool} (li lx : Nat) : li < 29 → lx < 2 ^ lenExtra.getD li 0 → Used ll (257 + li) → NoCode d rest →
      DataWrong win ll d h .noDist (codeBits ll (257 + li) ++ natBits (lenExtra.getD li 0) lx) rest
  | badDistance {h : List UInt8} {rest : List Bool} (li lx sym : Nat) : li < 29 → lx < 2 ^ lenExtra.getD li 0 → Used ll (257 + li) → Used d sym → 30 ≤ sym →
      DataWrong win ll d h (.badDist sym) (codeBits ll (257 + li) ++ natBits (lenExtra.getD li 0) lx ++ codeBits d sym) rest
  | tooFar {h : List UInt8} {rest : List Bool} (li lx di dx : Nat) : (Item.ref li lx di dx).Valid ll d → (win < refDist di dx ∨ h.length < refDist di dx) →
      DataWrong win ll d h (.tooFar (refDist di dx) win) ((Item.ref li lx di dx).bits ll d) rest

/-- `LensWrong cl total acc m bits rest`: the same for the sequence of `total` code lengths, the first of which are `acc`. -/
inductive LensWrong (cl : List Nat) (total : Nat) : List Nat → Problem → List Bool → List Bool → Prop
  | after {acc acc' : List Nat} {m : Problem} {bits rest : List Bool} (sym x : Nat) : Used cl sym → x < 2 ^ clExtra sym → clStep acc sym x = some acc' →
      acc'.length ≤ total → LensWrong cl total acc' m bits rest → LensWrong cl total acc m (codeBits cl sym ++ natBits (clExtra sym) x ++ bits) rest
  | noSymbol {acc : List Nat} {rest : List Bool} : acc.length < total → NoCode cl rest → LensWrong cl total acc .noCodeLen [] rest
  | nothing {rest : List Bool} : Used cl 16 → LensWrong cl total [] .repeatNothing (codeBits cl 16) rest
  | tooMany {acc acc' : List Nat} {rest : List Bool} (sym x : Nat) : acc.length < total → Used cl sym → x < 2 ^ clExtra sym → clStep acc sym x = some acc' →
      total < acc'.length → LensWrong cl total acc (.repeatMany (acc'.length - acc.length) (total - acc.length)) (codeBits cl sym ++ natBits (clExtra sym) x) rest

/-- the counts at the beginning of a dynamic block, RFC 1951 3.2.7 -/
def dynCounts (hlit hdist hclen : Nat) : List Bool := natBits 5 (hlit - 257) ++ natBits 5 (hdist - 1) ++ natBits 4 (hclen - 4)

/-- a beginning of a dynamic block: good counts, and any code length code -/
def ClHeader (hlit hdist hclen : Nat) (cl : List Nat) : Prop :=
  257 ≤ hlit ∧ hlit ≤ 286 ∧ 1 ≤ hdist ∧ hdist ≤ 30 ∧ 4 ≤ hclen ∧ hclen ≤ 19 ∧ cl.length = 19 ∧ (∀ l ∈ cl, l < 8) ∧ ∀ s ∈ clOrder.drop hclen, lenOf cl s = 0

def clBits (hlit hdist hclen : Nat) (cl : List Nat) : List Bool :=
  dynCounts hlit hdist hclen ++ (clOrder.take hclen).flatMap fun s => natBits 3 (lenOf cl s)

/-- the same for the header of a dynamic block -/
inductive TreesWrong (ok : List Nat → Prop) : Problem → List Bool → List Bool → Prop
  | hlit {rest : List Bool} (hlit hdist hclen : Nat) : 286 < hlit → hlit ≤ 288 → 1 ≤ hdist → hdist ≤ 32 → 4 ≤ hclen → hclen ≤ 19 →
      TreesWrong ok (.hlit hlit 286) (dynCounts hlit hdist hclen) rest
  | hdist {rest : List Bool} (hlit hdist hclen : Nat) : 257 ≤ hlit → hlit ≤ 286 → 30 < hdist → hdist ≤ 32 → 4 ≤ hclen → hclen ≤ 19 →
      TreesWrong ok (.hdist hdist 30) (dynCounts hlit hdist hclen) rest
  | bootstrap {rest : List Bool} {hlit hdist hclen : Nat} {cl : List Nat} : ClHeader hlit hdist hclen cl → ¬ ok cl →
      TreesWrong ok .codeLenCode (clBits hlit hdist hclen cl) rest
  | lens {m : Problem} {bits rest : List Bool} {hlit hdist hclen : Nat} {cl : List Nat} : ClHeader hlit hdist hclen cl → ok cl →
      LensWrong cl (hlit + hdist) [] m bits rest → TreesWrong ok m (clBits hlit hdist hclen cl ++ bits) rest
  | litlen {rest : List Bool} (hd : DynHeader) : ClHeader hd.hlit hd.hdist hd.hclen hd.cl → ok hd.cl → (∀ p ∈ hd.rle, Used hd.cl p.1 ∧ p.2 < 2 ^ clExtra p.1) →
      clExpand [] hd.rle = some hd.lens → hd.lens.length = hd.hlit + hd.hdist → ¬ ok hd.ll → TreesWrong ok .litLenCode hd.bits rest
  | dist {rest : List Bool} (hd : DynHeader) : ClHeader hd.hlit hd.hdist hd.hclen hd.cl → ok hd.cl → (∀ p ∈ hd.rle, Used hd.cl p.1 ∧ p.2 < 2 ^ clExtra p.1) →
      clExpand [] hd.rle = some hd.lens → hd.lens.length = hd.hlit + hd.hdist → ok hd.ll → ¬ ok hd.d → TreesWrong ok .distCode hd.bits rest

/-- the same for a block -/
inductive BlockWrong (ok : List Nat → Prop) (win pos : Nat) (h : List UInt8) : Problem → List Bool → List Bool → Prop
  | reserved {rest : List Bool} (final : Bool) : BlockWrong ok win pos h .reserved [final, true, true] rest
  | stored {rest : List Bool} (final : Bool) (pad : List Bool) (len nlen : Nat) : pad.length = padLen (pos + 3) → len < 65536 → nlen < 65536 → nlen ≠ 65535 - len →
      BlockWrong ok win pos h (.storedLen len nlen (65535 - len)) ([final, false, false] ++ pad ++ natBits 16 len ++ natBits 16 nlen) rest
  | fixed {m : Problem} {bits rest : List Bool} (final : Bool) : DataWrong win fixedLL fixedD h m bits rest → BlockWrong ok win pos h m ([final, true, false] ++ bits) rest
  | trees {m : Problem} {bits rest : List Bool} (final : Bool) : TreesWrong ok m bits rest → BlockWrong ok win pos h m ([final, false, true] ++ bits) rest
  | dynamic {m : Problem} {bits rest : List Bool} (final : Bool) (hd : DynHeader) : hd.Valid ok → DataWrong win hd.ll hd.d h m bits rest →
      BlockWrong ok win pos h m ([final, false, true] ++ hd.bits ++ bits) rest

/-- the same for the blocks of a stream -/
inductive BlocksWrong (ok : List Nat → Prop) (win : Nat) : Nat → List UInt8 → Problem → List Bool → List Bool → Prop
  | after {pos : Nat} {h h' : List UInt8} {m : Problem} {b bits rest : List Bool} : BlockEnc ok win pos false h b h' →
      BlocksWrong ok win (pos + b.length) h' m bits rest → BlocksWrong ok win pos h m (b ++ bits) rest
  | here {pos : Nat} {h : List UInt8} {m : Problem} {bits rest : List Bool} : BlockWrong ok win pos h m bits rest → BlocksWrong ok win pos h m bits rest

/-- a zlib header (RFC 1950 2.2) with problem `m` -/
inductive ZlibWrong (win : Nat) (dict : Option (List UInt8)) : Problem → List UInt8 → Prop
  | check (cmf flg : UInt8) : (cmf.toNat * 256 + flg.toNat) % 31 ≠ 0 → ZlibWrong win dict (.zlibCheck (cmf.toNat * 256 + flg.toNat) ((cmf.toNat * 256 + flg.toNat) % 31)) [cmf, flg]
  | method (cmf flg : UInt8) : (cmf.toNat * 256 + flg.toNat) % 31 = 0 → cmf.toNat % 16 ≠ 8 → ZlibWrong win dict (.zlibMethod (cmf.toNat % 16)) [cmf, flg]
  | window (cmf flg : UInt8) (limit : Nat) : win = 2 ^ limit → (cmf.toNat * 256 + flg.toNat) % 31 = 0 → cmf.toNat % 16 = 8 → win < 2 ^ (cmf.toNat / 16 + 8) →
      ZlibWrong win dict (.zlibWindow (cmf.toNat / 16 + 8) limit) [cmf, flg]
  | noDict (cmf flg : UInt8) (id : List UInt8) : (cmf.toNat * 256 + flg.toNat) % 31 = 0 → cmf.toNat % 16 = 8 → 2 ^ (cmf.toNat / 16 + 8) ≤ win →
      flg.toNat.testBit 5 = true → id.length = 4 → dict = none → ZlibWrong win dict (.dictNeeded (beValue id)) ([cmf, flg] ++ id)
  | otherDict (cmf flg : UInt8) (id d : List UInt8) : (cmf.toNat * 256 + flg.toNat) % 31 = 0 → cmf.toNat % 16 = 8 → 2 ^ (cmf.toNat / 16 + 8) ≤ win →
      flg.toNat.testBit 5 = true → id.length = 4 → dict = some d → id ≠ beBytes 4 (adler32 d) →
      ZlibWrong win dict (.dictOther (beValue id) (adler32 d)) ([cmf, flg] ++ id)
  | needless (cmf flg : UInt8) (d : List UInt8) : (cmf.toNat * 256 + flg.toNat) % 31 = 0 → cmf.toNat % 16 = 8 → 2 ^ (cmf.toNat / 16 + 8) ≤ win →
      flg.toNat.testBit 5 = false → dict = some d → ZlibWrong win dict (.dictNeedless (adler32 d)) [cmf, flg]

/-- a gzip header (RFC 1952 2.3) with problem `m` -/
inductive GzWrong : Problem → List UInt8 → Prop
  | magic (p : List UInt8) : p.length = 10 → ¬ [0x1f, 0x8b] <+: p → GzWrong .gzipMagic p
  | method (cm : UInt8) (p : List UInt8) : p.length = 7 → cm ≠ 8 → GzWrong (.gzipMethod cm.toNat) ([0x1f, 0x8b, cm] ++ p)
  | flags (flg : UInt8) (p : List UInt8) : p.length = 6 → 32 ≤ flg.toNat → GzWrong (.gzipFlags (flg.toNat / 32 * 32)) ([0x1f, 0x8b, 8, flg] ++ p)
  | crc (g : GzHeader) (p : List UInt8) : g.Valid → (∀ e, g.extra = some e → ExtraOK e) → g.hcrc = true → p.length = 2 → p ≠ leBytes 2 ((crc32 g.main).toNat % 65536) →
      GzWrong (.gzipHeaderSum (leValue p) ((crc32 g.main).toNat % 65536)) (g.main ++ p)

/-- a footer with problem `m`, after compressed data with content `data` -/
inductive FootWrong (data : List UInt8) : Container → Problem → List UInt8 → Prop
  | adler (p : List UInt8) : p.length = 4 → p ≠ beBytes 4 (adler32 data) → FootWrong data .zlib (.zlibSum (beValue p) (adler32 data)) p
  | crc (p q : List UInt8) : p.length = 4 → q.length = 4 → p ≠ leBytes 4 (crc32 data).toNat → FootWrong data .gzip (.gzipSum (leValue p) (crc32 data).toNat) (p ++ q)
  | length (p : List UInt8) : p.length = 4 → p ≠ leBytes 4 (data.length % 2 ^ 32) →
      FootWrong data .gzip (.gzipLength (leValue p) (data.length % 2 ^ 32)) (leBytes 4 (crc32 data).toNat ++ p)

/-- `StreamWrong ok win dict c m w b`: the bytes `w`, taken for a stream of container format `c`, begin in order up to the problem `m`, which is found
when `b` bytes have been looked at. -/
inductive StreamWrong (ok : List Nat → Prop) (win : Nat) (dict : Option (List UInt8)) : Container → Problem → List UInt8 → Nat → Prop
  | zlib {m : Problem} {w r : List UInt8} : ZlibWrong win dict m w → StreamWrong ok win dict .zlib m (w ++ r) w.length
  | gzip {m : Problem} {w r : List UInt8} : GzWrong m w → StreamWrong ok win dict .gzip m (w ++ r) w.length
  /-- the problem is in the last of the first `n` bytes of the compressed data, or, if there is no code word, begins there -/
  | blocks {c : Container} {m : Problem} {hdr body : List UInt8} {bits rest : List Bool} {n : Nat} : HeaderOf win dict c hdr → BlocksWrong ok win 0 (dict.getD []) m bits rest →
      bytesBits body = bits ++ rest → n ≤ body.length → bits.length ≤ 8 * n → (m ∉ noCodeMessages → 8 * n < bits.length + 8) →
      StreamWrong ok win dict c m (hdr ++ body) (hdr.length + n)
  | footer {c : Container} {m : Problem} {hdr body data foot r : List UInt8} : HeaderOf win dict c hdr → DeflateOf (BlockEnc ok win) (dict.getD []) body data →
      FootWrong data c m foot → StreamWrong ok win dict c m (hdr ++ body ++ foot ++ r) (hdr ++ body ++ foot).length

end Flate.Spec
