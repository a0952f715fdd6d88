/-
The zlib (RFC 1950) and gzip (RFC 1952) container formats.
-/
import Verif.Spec.Deflate

namespace Flate.Spec

/-- the three stream formats -/
inductive Container where
  | raw | zlib | gzip
  deriving DecidableEq, Repr

/-- RFC 1950 2.2: header bytes.  `cinfo` is the window size exponent minus 8, `flevel` informative. -/
def ZlibHeader (dict : Option (List UInt8)) (cinfo : Nat) (hdr : List UInt8) : Prop :=
  ∃ cmf flg : UInt8,
    cmf.toNat % 16 = 8 ∧ cmf.toNat / 16 = cinfo ∧ (cmf.toNat * 256 + flg.toNat) % 31 = 0 ∧
    match dict with
    | none => flg.toNat.testBit 5 = false ∧ hdr = [cmf, flg]
    | some d => flg.toNat.testBit 5 = true ∧ hdr = [cmf, flg] ++ beBytes 4 (adler32 d)

/-- RFC 1950 2.2: a zlib stream with window limit `win` -/
def ZlibOf (E : BlockRel) (win : Nat) (dict : Option (List UInt8)) (bytes data : List UInt8) : Prop :=
  ∃ cinfo hdr body, ZlibHeader dict cinfo hdr ∧ 2 ^ (cinfo + 8) ≤ win ∧
    DeflateOf E (dict.getD []) body data ∧
    bytes = hdr ++ body ++ beBytes 4 (adler32 data)

/-- contents of a gzip member header, RFC 1952 2.3 -/
structure GzHeader where
  text : Bool
  hcrc : Bool
  mtime : Nat
  xfl : UInt8
  os : UInt8
  extra : Option (List UInt8)
  name : Option (List UInt8)
  comment : Option (List UInt8)

def GzHeader.Valid (h : GzHeader) : Prop :=
  h.mtime < 2 ^ 32 ∧ (∀ e, h.extra = some e → e.length < 65536) ∧
  (∀ n, h.name = some n → 0 ∉ n) ∧ (∀ c, h.comment = some c → 0 ∉ c)

def GzHeader.flags (h : GzHeader) : Nat :=
  h.text.toNat + 2 * h.hcrc.toNat + 4 * h.extra.isSome.toNat + 8 * h.name.isSome.toNat +
    16 * h.comment.isSome.toNat

/-- header bytes before the header checksum -/
def GzHeader.main (h : GzHeader) : List UInt8 :=
  [0x1f, 0x8b, 8, UInt8.ofNat h.flags] ++ leBytes 4 h.mtime ++ [h.xfl, h.os] ++
  (match h.extra with | none => [] | some e => leBytes 2 e.length ++ e) ++
  (match h.name with | none => [] | some n => n ++ [0]) ++
  (match h.comment with | none => [] | some c => c ++ [0])

def GzHeader.bytes (h : GzHeader) : List UInt8 :=
  h.main ++ (if h.hcrc then leBytes 2 ((crc32 h.main).toNat % 65536) else [])

/-- RFC 1952 2.2: a gzip member -/
def GzMember (E : BlockRel) (dict : Option (List UInt8)) (hd : GzHeader)
    (bytes data : List UInt8) : Prop :=
  ∃ body, hd.Valid ∧ DeflateOf E (dict.getD []) body data ∧
    bytes = hd.bytes ++ body ++ leBytes 4 (crc32 data).toNat ++ leBytes 4 (data.length % 2 ^ 32)

/-- RFC 1952 2.3.1.1: the extra field is a sequence of records, each a two-byte identifier, a 16-bit
little-endian length and that many bytes; fewer than four stray bytes may follow. -/
def extraRecs : List ((UInt8 × UInt8) × List UInt8) → List UInt8
  | [] => []
  | ((a, b), d) :: r => [a, b] ++ leBytes 2 d.length ++ d ++ extraRecs r

def ExtraOK (raw : List UInt8) : Prop :=
  ∃ recs stray, (∀ r ∈ recs, r.2.length < 65536) ∧ raw = extraRecs recs ++ stray ∧ stray.length < 4

/-- A complete stream of the given container format holding `data`, made of blocks of the given kind. -/
def StreamOf (E : BlockRel) (win : Nat) (dict : Option (List UInt8)) (c : Container)
    (bytes data : List UInt8) : Prop :=
  match c with
  | .raw => DeflateOf E (dict.getD []) bytes data
  | .zlib => ZlibOf E win dict bytes data
  | .gzip => ∃ hd, (∀ e, hd.extra = some e → ExtraOK e) ∧ GzMember E dict hd bytes data

/-- A complete stream with any RFC 1951 blocks whose distances do not exceed `win`. -/
def Stream (ok : List Nat → Prop) (win : Nat) (dict : Option (List UInt8)) (c : Container)
    (bytes data : List UInt8) : Prop :=
  StreamOf (BlockEnc ok win) win dict c bytes data

/-- A sequence of complete streams, each related to its content by `S`. -/
inductive StreamsOf {α : Type} (S : List UInt8 → α → Prop) : List UInt8 → List α → Prop
  | nil : StreamsOf S [] []
  | snoc {bytes b : List UInt8} {segs : List α} {d : α} :
      StreamsOf S bytes segs → S b d → StreamsOf S (bytes ++ b) (segs ++ [d])

end Flate.Spec

namespace Flate.Spec

/-- the bytes before the compressed data of a stream -/
def HeaderOf (win : Nat) (dict : Option (List UInt8)) : Container → List UInt8 → Prop
  | .raw, hdr => hdr = []
  | .zlib, hdr => ∃ cinfo, ZlibHeader dict cinfo hdr ∧ 2 ^ (cinfo + 8) ≤ win
  | .gzip, hdr => ∃ hd : GzHeader, (∀ e, hd.extra = some e → ExtraOK e) ∧ hd.Valid ∧ hdr = hd.bytes

/-- the bytes after the compressed data of a stream with content `data` -/
def footerOf (data : List UInt8) : Container → List UInt8
  | .raw => []
  | .zlib => beBytes 4 (adler32 data)
  | .gzip => leBytes 4 (crc32 data).toNat ++ leBytes 4 (data.length % 2 ^ 32)

/-- a stream is a header, compressed data, and a footer -/
theorem streamOf_iff {E : BlockRel} {win : Nat} {dict : Option (List UInt8)} {c : Container} {bytes data : List UInt8} :
    StreamOf E win dict c bytes data ↔
    ∃ hdr body, HeaderOf win dict c hdr ∧ DeflateOf E (dict.getD []) body data ∧ bytes = hdr ++ body ++ footerOf data c := by
  cases c with
  | raw =>
    constructor
    · intro h; exact ⟨[], bytes, rfl, h, by simp [footerOf]⟩
    · rintro ⟨hdr, body, h1, h2, h3⟩
      have h1 : hdr = [] := h1
      subst h1
      rw [h3]; simpa [StreamOf, footerOf] using h2
  | zlib =>
    constructor
    · rintro ⟨ci, hdr, body, h1, h2, h3, h4⟩
      exact ⟨hdr, body, ⟨ci, h1, h2⟩, h3, h4⟩
    · rintro ⟨hdr, body, ⟨ci, h1, h2⟩, h3, h4⟩
      exact ⟨ci, hdr, body, h1, h2, h3, h4⟩
  | gzip =>
    constructor
    · rintro ⟨hd, h0, body, h1, h2, h3⟩
      exact ⟨hd.bytes, body, ⟨hd, h0, h1, rfl⟩, h2, by rw [h3]; simp [footerOf]⟩
    · rintro ⟨hdr, body, ⟨hd, h0, h1, rfl⟩, h2, h3⟩
      exact ⟨hd, h0, body, h1, h2, by rw [h3]; simp [footerOf]⟩

/-- How a Reader is documented to recognise the format of its input from the first two bytes: gzip by its magic number, zlib by
CM = 8 and the check bits, everything else is raw. -/
def autodetect : List UInt8 → Container
  | p0 :: p1 :: _ =>
    if p0 = 0x1f ∧ p1 = 0x8b then .gzip
    else if p0.toNat % 16 = 8 ∧ (p0.toNat * 256 + p1.toNat) % 31 = 0 then .zlib
    else .raw
  | _ => .raw

end Flate.Spec
