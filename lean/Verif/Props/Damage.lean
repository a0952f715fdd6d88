/-
C71: damage to a stream is noticed.
-/
import Verif.Proof.Detect
import Verif.Proof.RDamage
import Verif.Props.ReadExamples

namespace Flate.Props
open Flate.Spec Flate.Model Flate.Model.Rd Flate.Proof Flate.Proof.R

/-- What a Reader makes of a source: the goroutine does not panic, it delivers the bytes `d` or a part of them (never anything else), and
the error it ends with is not `io.EOF`. -/
def RSetup.Refuses (c : RSetup) (src : Src) (d : List UInt8) : Prop :=
  ∃ s e, c.Runs src s ∧ actErr s.out.acts = some e ∧ e ≠ .eof ∧ ∃ before : List (List UInt8), (before.map Act.data ++ [.err e]) <+: s.out.acts ∧ before.flatten <+: d

theorem refuses_badfoot {c : RSetup} (h : c.OK) {k : Container} {src : Src} {hdr body d r : List UInt8} (ht : c.Takes k src)
    (h1 : HeaderOf (2 ^ c.o.wbits) c.o.dict k hdr) (h2 : DeflateOf (BlockEnc c.ok (2 ^ c.o.wbits)) (c.o.dict.getD []) body d)
    (hb : src.bytes = hdr ++ body ++ r) (hr : ∀ r2, r ≠ footerOf d k ++ r2) : c.Refuses src d := by
  obtain ⟨s, ds, e, post, k1, k2, k3, k4, k5, k6⟩ := run_badfoot h.env ht.det h1 h2 hb hr
  refine ⟨s, e, k1, ?_, k3.ne_eof, ds, ⟨post, by rw [k2]; simp⟩, k5⟩
  rw [k2]
  clear k2 k5 k6
  induction ds with
  | nil => rfl
  | cons d ds ih => simpa [actErr] using ih

/-- **C71, footer.** Whatever the header, the compressed data and what follows: a footer in which anything is changed is noticed, for every
format and every way of cutting the input in pieces. -/
theorem C71_footer {c : RSetup} (h : c.OK) {k : Container} {src : Src} {hdr body d f rest : List UInt8} (ht : c.Takes k src)
    (h1 : HeaderOf (2 ^ c.o.wbits) c.o.dict k hdr) (h2 : DeflateOf (BlockEnc c.ok (2 ^ c.o.wbits)) (c.o.dict.getD []) body d)
    (hl : f.length = (footerOf d k).length) (hf : f ≠ footerOf d k) (hb : src.bytes = hdr ++ body ++ f ++ rest) : c.Refuses src d := by
  refine refuses_badfoot h ht h1 h2 (by rw [hb, List.append_assoc]) fun r2 hr => hf ?_
  exact (List.append_inj hr hl).1

theorem leBytes4_inj {a b : Nat} (ha : a < 2 ^ 32) (hb : b < 2 ^ 32) (h : leBytes 4 a = leBytes 4 b) : a = b := by
  have := congrArg leVal h
  rwa [leVal_leBytes 4 a ha, leVal_leBytes 4 b hb] at this

/-- **C71, gzip.** The compressed data of a gzip stream with content `d` is replaced by one which decodes to `d'` (the footer stays). If `d'` has a
different length modulo 2^32, or if it differs from `d` inside a burst of at most 32 bits, this is noticed. -/
theorem C71_gzip {c : RSetup} (h : c.OK) {src : Src} {hdr body d d' rest : List UInt8} (ht : c.Takes .gzip src)
    (h1 : HeaderOf (2 ^ c.o.wbits) c.o.dict .gzip hdr) (h2 : DeflateOf (BlockEnc c.ok (2 ^ c.o.wbits)) (c.o.dict.getD []) body d')
    (hb : src.bytes = hdr ++ body ++ (leBytes 4 (crc32 d).toNat ++ leBytes 4 (d.length % 2 ^ 32)) ++ rest)
    (hne : d ≠ d') (hd : d.length % 2 ^ 32 ≠ d'.length % 2 ^ 32 ∨ Burst 32 d d') : c.Refuses src d' := by
  refine C71_footer h ht h1 h2 (by simp [footerOf]) (fun he => ?_) hb
  obtain ⟨e1, e2⟩ := List.append_inj he (by simp)
  rcases hd with hd | hd
  · exact hd (leBytes4_inj (Nat.mod_lt _ (by decide)) (Nat.mod_lt _ (by decide)) e2)
  · exact hne (crc_burst hd (BitVec.eq_of_toNat_eq (leBytes4_inj (crc32 d).isLt (crc32 d').isLt e1)))

/-- **C71, zlib.** The compressed data of a zlib stream with content `d` is replaced by one which decodes to `d'` (the footer stays). If `d'` differs
from `d` in one byte, or in two bytes less than 65521 places apart, this is noticed. -/
theorem C71_zlib {c : RSetup} (h : c.OK) {src : Src} {hdr body d d' rest : List UInt8} (ht : c.Takes .zlib src)
    (h1 : HeaderOf (2 ^ c.o.wbits) c.o.dict .zlib hdr) (h2 : DeflateOf (BlockEnc c.ok (2 ^ c.o.wbits)) (c.o.dict.getD []) body d')
    (hb : src.bytes = hdr ++ body ++ beBytes 4 (adler32 d) ++ rest)
    (hne : d ≠ d') (hd : Within 1 d d' ∨ ∃ n < 65521, TwoBytes n d d') : c.Refuses src d' := by
  refine C71_footer h ht h1 h2 (by simp [footerOf, beBytes]) (fun he => ?_) hb
  have h3 : adler32 d = adler32 d' := by
    have := congrArg beVal he
    rwa [footerOf, beVal_beBytes 4 _ (adler_lt d), beVal_beBytes 4 _ (adler_lt d')] at this
  rcases hd with hd | ⟨n, hn, hd⟩
  · exact hne (adler_one hd h3)
  · exact hne (adler_two hn hd h3)

/-! ### these are all which can be promised -/

theorem missed {c : RSetup} (h : c.OK) {k : Container} {src : Src} {hdr body d' : List UInt8} (ht : c.Takes k src)
    (h1 : HeaderOf (2 ^ c.o.wbits) c.o.dict k hdr) (h2 : DeflateOf (BlockEnc c.ok (2 ^ c.o.wbits)) (c.o.dict.getD []) body d')
    (hb : src.bytes = hdr ++ body ++ footerOf d' k) : c.Delivers src d' src.err :=
  C03_decodes h ht (streamOf_iff.2 ⟨hdr, body, h1, h2, hb⟩)

/-- A burst of 33 bits, if it is the generator polynomial, is never noticed in a gzip stream. -/
theorem C71_gzip_sharp {c : RSetup} (h : c.OK) {src : Src} {hdr body p u q : List UInt8} (hu : u.length = 5) (ht : c.Takes .gzip src)
    (h1 : HeaderOf (2 ^ c.o.wbits) c.o.dict .gzip hdr)
    (h2 : DeflateOf (BlockEnc c.ok (2 ^ c.o.wbits)) (c.o.dict.getD []) body (p ++ List.zipWith (· ^^^ ·) u genBytes ++ q))
    (hb : src.bytes = hdr ++ body ++ footerOf (p ++ u ++ q) .gzip) :
    c.Delivers src (p ++ List.zipWith (· ^^^ ·) u genBytes ++ q) src.err ∧
      Burst 33 (p ++ u ++ q) (p ++ List.zipWith (· ^^^ ·) u genBytes ++ q) ∧ p ++ u ++ q ≠ p ++ List.zipWith (· ^^^ ·) u genBytes ++ q := by
  refine ⟨missed h ht h1 h2 ?_, ?_, ?_⟩
  · rw [hb]
    simp only [footerOf, crc_not33 p q hu]
    simp [hu, genBytes]
  · obtain ⟨u0, u1, u2, u3, u4, rfl⟩ : ∃ u0 u1 u2 u3 u4, u = [u0, u1, u2, u3, u4] := by
      rcases u with _ | ⟨u0, _ | ⟨u1, _ | ⟨u2, _ | ⟨u3, _ | ⟨u4, _ | ⟨u5, u⟩⟩⟩⟩⟩⟩ <;> simp at hu
      exact ⟨_, _, _, _, _, rfl⟩
    refine ⟨bytesBits p, (bytesBits [u0, u1, u2, u3, u4]).take 33, (bytesBits (List.zipWith (· ^^^ ·) [u0, u1, u2, u3, u4] genBytes)).take 33,
      (bytesBits [u0, u1, u2, u3, u4]).drop 33 ++ bytesBits q, ?_, ?_, ?_, ?_⟩
    · rw [List.append_assoc (bytesBits p), ← List.append_assoc (List.take _ _), List.take_append_drop]; simp [bytesBits]
    · have : (bytesBits [u0, u1, u2, u3, u4]).drop 33 = (bytesBits (List.zipWith (· ^^^ ·) [u0, u1, u2, u3, u4] genBytes)).drop 33 := by
        have hx : ∀ b : UInt8, (byteBits (b ^^^ 1)).drop 1 = (byteBits b).drop 1 := by
          intro b
          have h0 : ∀ i, i < 8 → 0 < i → (1 : UInt8).toNat.testBit i = false := by decide
          have h1 : ∀ i, 0 < i → i < 8 → (1 : UInt8).toNat.testBit i = false := fun i a b => h0 i b a
          simp only [byteBits_eq, UInt8.toNat_xor, Nat.testBit_xor, List.drop_succ_cons, List.drop_zero, h1 1 (by decide) (by decide), h1 2 (by decide) (by decide), h1 3 (by decide) (by decide),
            h1 4 (by decide) (by decide), h1 5 (by decide) (by decide), h1 6 (by decide) (by decide), h1 7 (by decide) (by decide), Bool.xor_false]
        have hd : ∀ a b c d e : UInt8, (bytesBits [a, b, c, d, e]).drop 33 = (byteBits e).drop 1 := by
          intro a b c d e
          simp only [bytesBits, List.flatMap_cons, List.flatMap_nil, byteBits_eq, List.cons_append, List.nil_append, List.drop_succ_cons, List.drop_zero]
        show _ = (bytesBits [u0 ^^^ 0x41, u1 ^^^ 0x06, u2 ^^^ 0x71, u3 ^^^ 0xdb, u4 ^^^ 1]).drop 33
        rw [hd, hd, hx]
      rw [this, List.append_assoc (bytesBits p), ← List.append_assoc (List.take _ _), List.take_append_drop]; simp [bytesBits]
    · simp [genBytes]
    · simp
  · intro he
    have := List.append_cancel_left (List.append_cancel_right he)
    rcases u with _ | ⟨u0, u⟩
    · simp at hu
    · simp [genBytes] at this
      have h3 := this.1
      have h4 : u0 ^^^ u0 = u0 ^^^ (u0 ^^^ 65) := by rw [← h3]
      rw [← UInt8.xor_assoc, UInt8.xor_self] at h4
      revert h4
      simp

/-- Two bytes which are 65521 places apart may be changed without this being noticed in a zlib stream, -/
theorem C71_zlib_sharp {c : RSetup} (h : c.OK) {src : Src} {hdr body p m q : List UInt8} {x y : UInt8} (hm : m.length + 1 = 65521) (hx : x.toNat < 255) (hy : 0 < y.toNat)
    (ht : c.Takes .zlib src) (h1 : HeaderOf (2 ^ c.o.wbits) c.o.dict .zlib hdr)
    (h2 : DeflateOf (BlockEnc c.ok (2 ^ c.o.wbits)) (c.o.dict.getD []) body (p ++ (x + 1) :: m ++ (y - 1) :: q))
    (hb : src.bytes = hdr ++ body ++ footerOf (p ++ x :: m ++ y :: q) .zlib) : c.Delivers src (p ++ (x + 1) :: m ++ (y - 1) :: q) src.err := by
  refine missed h ht h1 h2 ?_
  rw [hb]
  simp only [footerOf, adler_not65521 p q hm hx hy]

/-- ... and three neighbouring bytes may. -/
theorem C71_zlib_sharp3 {c : RSetup} (h : c.OK) {src : Src} {hdr body p q : List UInt8} {x y z : UInt8} (hx : x.toNat < 255) (hy : 2 ≤ y.toNat) (hz : z.toNat < 255)
    (ht : c.Takes .zlib src) (h1 : HeaderOf (2 ^ c.o.wbits) c.o.dict .zlib hdr)
    (h2 : DeflateOf (BlockEnc c.ok (2 ^ c.o.wbits)) (c.o.dict.getD []) body (p ++ [x + 1, y - 2, z + 1] ++ q))
    (hb : src.bytes = hdr ++ body ++ footerOf (p ++ [x, y, z] ++ q) .zlib) : c.Delivers src (p ++ [x + 1, y - 2, z + 1] ++ q) src.err := by
  refine missed h ht h1 h2 ?_
  rw [hb]
  simp only [footerOf, adler_not3 p q hx hy hz]

/-! ### examples -/

/-- one bit of the content changed, in the middle of a gzip stream -/
example : (rdemo [.format .gzip]).Refuses ⟨[], [0x1f, 0x8b, 8, 0, 0, 0, 0, 0, 0, 255] ++ storedRaw [97, 98, 67] ++ footerOf [97, 98, 99] .gzip, .eof⟩ [97, 98, 67] :=
  C71_gzip (rdemo_ok (by simp [Opt.valid])) (d := [97, 98, 99]) (rest := []) (Or.inl rfl)
    (show HeaderOf _ _ .gzip _ from ⟨⟨false, false, 0, 0, 255, none, none, none⟩, by simp, ⟨by simp, by simp, by simp, by simp⟩, rfl⟩)
    (storedRaw_deflate (by decide) _ _) (by rw [List.append_nil]; rfl) (by decide)
    (Or.inr ⟨bytesBits [97, 98], bytesBits [99], bytesBits [67], [], by decide +kernel, by decide +kernel, by decide +kernel, by decide +kernel⟩)

end Flate.Props
