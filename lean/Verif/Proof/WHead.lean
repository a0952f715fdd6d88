/-
Stream headers and footers written by the Writer.
-/
import Verif.Proof.WFlow

namespace Flate.Proof
open Flate.Spec Flate.Model

/-! ### byte output on a byte boundary -/

/-- An operation which writes the given bytes, starting and ending on a byte boundary. -/
def ByteOut (f : Go WState Bool) (s : WState) (p : List UInt8) : Prop :=
  ∃ b t, f s = .ok (b, t) ∧ Step s t [] ∧
    (b = true → WInv t ∧ t.state = s.state ∧ t.err = s.err ∧ t.sink.errs = s.sink.errs ∧ t.obLen = 0 ∧
      pushed t = pushed s ++ p ∧ t.crcOut = Crc.genericUpdate s.crcOut p) ∧
    (b = false → Failed s t ∧ t.obLen = 0) ∧ (Reliable s → b = true)

theorem wBufWrite_byteOut {s : WState} (h : WInv s) (h0 : s.obLen = 0) (p : List UInt8) :
    ByteOut (wBufWrite p) s p := by
  obtain ⟨b, t, e, st, o1, o2, ok, bad, rel⟩ := outWrite_any p s
  have e0 : wBitsFlush s = .ok (true, s) := by unfold wBitsFlush; rw [if_pos h0]
  refine ⟨b, t, by unfold wBufWrite; rw [chk_ok e0]; exact e, st, ?_, fun hb => ⟨bad hb, o1.trans h0⟩, rel⟩
  intro hb
  obtain ⟨a1, a2, ae, a3, a4, a5, a6⟩ := ok hb
  refine ⟨⟨by rw [st.core.W]; exact h.hW, by rw [o1, st.core.W]; exact h.lt, by rw [o1, o2]; exact h.blk, ?_⟩,
    a1, a2, ae, o1.trans h0, a3, a4⟩
  by_cases hp : p = []
  · rw [a6 hp]; exact h.out
  · exact a5 hp

theorem ByteOut.pure {s : WState} (h : WInv s) (h0 : s.obLen = 0) : ByteOut (pure true) s [] :=
  ⟨true, s, rfl, Step.refl s, fun _ => ⟨h, rfl, rfl, rfl, h0, by simp, (genericUpdate_nil _).symm⟩, by simp,
    fun _ => rfl⟩

theorem ByteOut.chk {x y : Go WState Bool} {s : WState} {p q : List UInt8} (hx : ByteOut x s p)
    (hy : ∀ t, WInv t → Core s t → t.obLen = 0 → pushed t = pushed s ++ p →
      t.crcOut = Crc.genericUpdate s.crcOut p → ByteOut y t q) : ByteOut (Go.chk x y) s (p ++ q) := by
  obtain ⟨b, t, e, st, ok, bad, rel⟩ := hx
  cases b with
  | false => exact ⟨false, t, chk_false e, st, by simp, bad, fun h => absurd (rel h) (by simp)⟩
  | true =>
    obtain ⟨i, a1, a2, a3, a4, a5, a6⟩ := ok rfl
    obtain ⟨b', u, e', st', ok', bad', rel'⟩ := hy t i st.core a4 a5 a6
    refine ⟨b', u, by rw [chk_ok e]; exact e', st.trans st', ?_, fun hb => ⟨(bad' hb).1.pre st.errs, (bad' hb).2⟩,
      fun h => rel' (reliable_of_core st.core h)⟩
    intro hb
    obtain ⟨i', c1, c2, c3, c4, c5, c6⟩ := ok' hb
    exact ⟨i', c1.trans a1, c2.trans a2, c3.trans a3, c4, by rw [c5, a5, List.append_assoc],
      by rw [c6, a6, genericUpdate_append]⟩

/-! ### gzip headers -/

theorem headerOK_spec {h : Header} (hh : headerOK h = true) :
    h.fileName.length < 256 ∧ 0 ∉ h.fileName ∧ 0x2f ∉ h.fileName ∧ 0x5c ∉ h.fileName ∧ h.comment.length < 256 ∧
    0 ∉ h.comment ∧ (∀ t, h.lastModified = some t → 0 ≤ t ∧ t < 2 ^ 32 - 1) ∧ h.osType ≤ 14 ∧
    (∀ r ∈ h.extra, 4 + r.bytes.length ≤ 65535) ∧ (extraAsBytes h.extra).length ≤ 65535 := by
  unfold headerOK at hh
  simp only [Bool.and_eq_true, decide_eq_true_eq, Bool.not_eq_true', List.contains_eq_mem, decide_eq_false_iff_not,
    List.all_eq_true] at hh
  obtain ⟨⟨⟨⟨⟨⟨⟨⟨⟨a, b⟩, c⟩, d⟩, e⟩, f⟩, g⟩, k⟩, l⟩, m⟩ := hh
  refine ⟨a, b, c, d, e, f, ?_, k, l, m⟩
  intro t ht
  rw [ht] at g
  simp only [Bool.not_eq_true', decide_eq_false_iff_not] at g
  omega

theorem extraAsBytes_eq {rs : List ExtraRec} (h : ∀ r ∈ rs, 4 + r.bytes.length ≤ 65535) :
    extraAsBytes rs = extraRecs (rs.map fun r => ((r.id0, r.id1), r.bytes)) := by
  induction rs with
  | nil => rfl
  | cons r rs ih =>
    have h1 := h r (by simp)
    have h2 := ih fun x hx => h x (by simp [hx])
    unfold extraAsBytes at h2 ⊢
    rw [List.flatMap_cons, h2, Nat.mod_eq_of_lt (by omega)]
    simp [extraRecs]

theorem gzHd_valid {o : Options} {h : Header} (hh : headerOK h = true) : (gzHd o h).Valid := by
  obtain ⟨a, b, c, d, e, f, g, k, l, m⟩ := headerOK_spec hh
  refine ⟨?_, ?_, ?_, ?_⟩
  · unfold gzHd
    dsimp only
    split
    · omega
    · rename_i t _
      have : t % 2 ^ 32 < 2 ^ 32 := Int.emod_lt_of_pos t (by decide)
      omega
  · intro x hx
    unfold gzHd at hx
    dsimp only at hx
    split at hx
    · cases hx
    · cases hx; omega
  · intro x hx
    unfold gzHd at hx
    dsimp only at hx
    split at hx
    · cases hx
    · cases hx; exact b
  · intro x hx
    unfold gzHd at hx
    dsimp only at hx
    split at hx
    · cases hx
    · cases hx; exact f

theorem gzHd_extra {o : Options} {h : Header} (hh : headerOK h = true) :
    ∀ e, (gzHd o h).extra = some e → ExtraOK e := by
  obtain ⟨a, b, c, d, e, f, g, k, l, m⟩ := headerOK_spec hh
  intro x hx
  unfold gzHd at hx
  dsimp only at hx
  split at hx
  · cases hx
  · cases hx
    refine ⟨h.extra.map fun r => ((r.id0, r.id1), r.bytes), [], ?_, ?_, by simp⟩
    · intro r hr
      obtain ⟨y, hy, rfl⟩ := List.mem_map.1 hr
      have := l y hy
      dsimp only
      omega
    · rw [extraAsBytes_eq l, List.append_nil]

theorem gzFlags (o : Options) (h : Header) :
    (0x02 : UInt8) ||| ((if h.dataType = .text then 0x01 else 0) |||
    (if h.extra = [] then 0 else 0x04) ||| (if h.fileName = [] then 0 else 0x08) |||
    (if h.comment = [] then 0 else 0x10)) = UInt8.ofNat (gzHd o h).flags := by
  unfold GzHeader.flags gzHd
  by_cases h1 : h.dataType = .text <;> by_cases h2 : h.extra = [] <;> by_cases h3 : h.fileName = [] <;>
    by_cases h4 : h.comment = [] <;> simp [h1, h2, h3, h4] <;> rfl

/-- the checksummed part of the header -/
theorem gzMain (o : Options) (h : Header) : (gzHd o h).main = gzipHeaderBytes o h ++
    (if h.extra = [] then [] else leBytes 2 (extraAsBytes h.extra).length ++ extraAsBytes h.extra) ++
    (if h.fileName = [] then [] else h.fileName ++ [0]) ++ (if h.comment = [] then [] else h.comment ++ [0]) := by
  unfold GzHeader.main gzipHeaderBytes
  dsimp only
  rw [gzFlags o h]
  have e1 : (gzHd o h).extra = if h.extra = [] then none else some (extraAsBytes h.extra) := rfl
  have e2 : (gzHd o h).name = if h.fileName = [] then none else some h.fileName := rfl
  have e3 : (gzHd o h).comment = if h.comment = [] then none else some h.comment := rfl
  rw [e1, e2, e3]
  by_cases h1 : h.extra = [] <;> by_cases h2 : h.fileName = [] <;> by_cases h3 : h.comment = [] <;>
    simp only [h1, h2, h3, if_true, if_false] <;> cases hm : h.lastModified <;>
    simp only [gzHd, hm] <;> rfl

theorem gzExtra_out {s : WState} (h : WInv s) (h0 : s.obLen = 0) {hd : Header}
    (hx : (extraAsBytes hd.extra).length ≤ 65535) :
    ByteOut (gzExtra hd) s (if hd.extra = [] then [] else leBytes 2 (extraAsBytes hd.extra).length ++ extraAsBytes hd.extra) := by
  unfold gzExtra
  split
  · exact ByteOut.pure h h0
  · dsimp only
    unfold wBufWriteU16
    rw [Nat.mod_eq_of_lt (by omega)]
    exact (wBufWrite_byteOut h h0 _).chk fun t it _ h0' _ _ => wBufWrite_byteOut it h0' _

theorem gzString_out {s : WState} (h : WInv s) (h0 : s.obLen = 0) {str : List UInt8} (hz : 0 ∉ str) :
    ByteOut (gzString str) s (if str = [] then [] else str ++ [0]) := by
  unfold gzString
  split
  · exact ByteOut.pure h h0
  · unfold wBufWriteStringZ
    rw [List.idxOf?_eq_none_iff.2 hz]
    exact wBufWrite_byteOut h h0 _

/-- the final register of `Crc.genericUpdate` is the checksum -/
theorem crc_of_init (d : List UInt8) : Crc.genericUpdate Crc.init d = crc32 d := by
  have : CrcIs Crc.init [] := crc_init
  have := crc_update this d
  rw [List.nil_append] at this
  exact this

theorem step_crc (s : WState) (c : BitVec 32) : Step s { s with crcOut := c } [] :=
  ⟨by constructor <;> rfl, List.prefix_refl _, List.prefix_refl _, List.prefix_refl _, rfl, rfl, by simp, by simp,
    by simp, Nat.le_refl _, Or.inl rfl⟩

/-- like `ByteOut`, without the running checksum -/
def BytesOut (f : Go WState Bool) (s : WState) (p : List UInt8) : Prop :=
  ∃ b t, f s = .ok (b, t) ∧ Step s t [] ∧
    (b = true → WInv t ∧ t.state = s.state ∧ t.err = s.err ∧ t.sink.errs = s.sink.errs ∧ t.obLen = 0 ∧
      pushed t = pushed s ++ p) ∧
    (b = false → Failed s t ∧ t.obLen = 0) ∧ (Reliable s → b = true)

theorem ByteOut.weaken {f : Go WState Bool} {s : WState} {p : List UInt8} (h : ByteOut f s p) : BytesOut f s p := by
  obtain ⟨b, t, e, st, ok, bad, rel⟩ := h
  refine ⟨b, t, e, st, ?_, bad, rel⟩
  intro hb
  obtain ⟨a1, a2, a3, a4, a5, a6, _⟩ := ok hb
  exact ⟨a1, a2, a3, a4, a5, a6⟩

theorem writeHeaderGZIP_out {s : WState} (h : WInv s) (h0 : s.obLen = 0) (hh : headerOK s.header = true) :
    BytesOut writeHeaderGZIP s (gzHd s.o s.header).bytes := by
  obtain ⟨_, hn, _, _, _, hc, _, _, _, hx⟩ := headerOK_spec hh
  let s1 : WState := { s with crcOut := Crc.init }
  have i1 : WInv s1 := ⟨h.hW, h.lt, h.blk, h.out⟩
  have main : ByteOut
      (Go.chk (wBufWrite (gzipHeaderBytes s.o s.header)) <|
       Go.chk (gzExtra s.header) <|
       Go.chk (gzString s.header.fileName) <|
       Go.chk (gzString s.header.comment) <|
       fun s => wBufWriteU16 (s.crcOut.toNat % 65536) s) s1 (gzHd s.o s.header).bytes := by
    have eq : (gzHd s.o s.header).bytes = gzipHeaderBytes s.o s.header ++ ((if s.header.extra = [] then [] else
        leBytes 2 (extraAsBytes s.header.extra).length ++ extraAsBytes s.header.extra) ++
        ((if s.header.fileName = [] then [] else s.header.fileName ++ [0]) ++
        ((if s.header.comment = [] then [] else s.header.comment ++ [0]) ++
        leBytes 2 ((crc32 (gzHd s.o s.header).main).toNat % 65536)))) := by
      have : (gzHd s.o s.header).hcrc = true := rfl
      unfold GzHeader.bytes
      rw [this, if_pos rfl]
      conv => lhs; arg 1; rw [gzMain]
      simp only [List.append_assoc]
    rw [eq]
    refine (wBufWrite_byteOut i1 h0 _).chk fun t1 j1 _ k1 _ c1 => ?_
    refine (gzExtra_out j1 k1 hx).chk fun t2 j2 _ k2 _ c2 => ?_
    refine (gzString_out j2 k2 hn).chk fun t3 j3 _ k3 _ c3 => ?_
    refine (gzString_out j3 k3 hc).chk fun t4 j4 _ k4 _ c4 => ?_
    have hcrc : t4.crcOut = crc32 (gzHd s.o s.header).main := by
      rw [c4, c3, c2, c1, ← genericUpdate_append, ← genericUpdate_append, ← genericUpdate_append, gzMain]
      simp only [List.append_assoc]
      exact crc_of_init _
    rw [← hcrc]
    exact wBufWrite_byteOut j4 k4 _
  obtain ⟨b, t, e, st, ok, bad, rel⟩ := main.weaken
  exact ⟨b, t, e, (step_crc s _).trans st, ok, bad, fun hr => rel hr⟩

/-! ### zlib headers -/

theorem zlib_bytes : ∀ (w : Fin 8) (l : Fin 4) (d : Bool),
    let b0 : UInt8 := (UInt8.ofNat w.val <<< 4) ||| 0x08
    let b1 : UInt8 := UInt8.ofNat l.val <<< 6
    let b1 : UInt8 := if d then b1 ||| 0x20 else b1
    let u16 := b0.toNat * 256 + b1.toNat
    let remainder := if u16 % 31 = 0 then 31 else u16 % 31
    let b1 : UInt8 := b1 ||| UInt8.ofNat (31 - remainder)
    b0.toNat % 16 = 8 ∧ b0.toNat / 16 = w.val ∧ (b0.toNat * 256 + b1.toNat) % 31 = 0 ∧ b1.toNat.testBit 5 = d := by
  decide +kernel

theorem fLevel_lt (o : Options) : fLevel o < 4 := by unfold fLevel; split <;> (try split) <;> (try split) <;> omega

theorem zlibHeader_ok {o : Options} (h1 : 8 ≤ o.wbits) (h2 : o.wbits ≤ 15) :
    ZlibHeader o.dict (o.wbits - 8) (zlibHeaderBytes o) := by
  obtain ⟨a, b, c, d⟩ := zlib_bytes ⟨o.wbits - 8, by omega⟩ ⟨fLevel o, fLevel_lt o⟩ o.dict.isSome
  dsimp only at a b c d
  unfold ZlibHeader zlibHeaderBytes
  refine ⟨_, _, a, b, c, ?_⟩
  cases hd : o.dict with
  | none => rw [hd] at d; exact ⟨d, rfl⟩
  | some x =>
    rw [hd] at d
    refine ⟨d, ?_⟩
    dsimp only
    have : (Adler.checksum x).toNat = adler32 x := by
      have := adler_update adler_init x
      rw [List.nil_append] at this
      exact this
    rw [this]

/-! ### whole headers and footers -/

/-- the bytes of a stream footer -/
def footerBytes (o : Options) (d : List UInt8) : List UInt8 :=
  match o.format with
  | .raw => []
  | .zlib => beBytes 4 (adler32 d)
  | .gzip => leBytes 4 (crc32 d).toNat ++ leBytes 4 (d.length % 2 ^ 32)
  | .default => []

/-- the state in which the header bytes are written -/
def headed (s : WState) : WState :=
  { s with
    inStream := 0
    outStream := 0
    numStreams := s.numStreams + 1
    lz := { s.lz with hist := s.o.dict.getD [] }
    events := s.events ++ [⟨{ kind := .streamBegin, inTotal := s.inTotal, inStream := 0, outTotal := s.outTotal, outStream := 0, numStreams := s.numStreams + 1, format := s.o.format }, s.sink.out.length, s.lz.buf.length⟩]
    header := fillHeader s }

theorem writeHeader_eq (s : WState) : writeHeader s = Go.chk (match s.o.format with
    | .raw => pure true
    | .zlib => writeHeaderZlib
    | .gzip => writeHeaderGZIP
    | .default => Go.panic (.assert "Format not implemented"))
    (fun s => .ok (true, { s with events := s.events ++ [⟨wEvent s (.streamHeader s.header), s.sink.out.length, s.lz.buf.length⟩], adler := Adler.init, crcIn := Crc.init }))
    (headed s) := rfl

theorem headed_flow {s : WState} (h : WInv s) (hs : s.state ≠ .openStream) (hs' : s.state ≠ .closingStream) : Flow s (headed s) [⟨{ kind := .streamBegin, inTotal := s.inTotal, inStream := 0, outTotal := s.outTotal, outStream := 0, numStreams := s.numStreams + 1, format := s.o.format }, s.sink.out.length, s.lz.buf.length⟩] := by
  have hp : (pushed s).length = s.sink.out.length := by simp [pushed, h.out]
  refine ⟨rfl, rfl, rfl, rfl, rfl, rfl, rfl, rfl, rfl, rfl, List.prefix_refl _, List.prefix_refl _, List.prefix_refl _,
    rfl, rfl, rfl, ?_, ?_, ?_, ⟨Nat.le_refl _, Nat.le_refl _⟩, ⟨Nat.le_refl _, Nat.le_refl _⟩,
    ⟨rfl, rfl⟩, ?_, ?_, ?_⟩
  · intro p hp'; rw [List.mem_singleton] at hp'; subst hp'; rw [hp]
  · intro p hp'; rw [List.mem_singleton] at hp'; subst hp'; rfl
  · intro p hp'; rw [List.mem_singleton] at hp'; subst hp'; rfl
  · intro a b _
    exact ⟨s.inTotal, s.outTotal, ⟨rfl, rfl, rfl, rfl⟩, rfl, rfl⟩
  · rintro A ⟨D, h1, h2, _⟩
    refine ⟨⟨D, h1, h2, fun k => (by rcases k with k | k; exacts [absurd k hs, absurd k hs'])⟩, ?_⟩
    intro p hp' a c e; rw [List.mem_singleton] at hp'; subst hp'; cases e
  · intro p hp' x e; rw [List.mem_singleton] at hp'; subst hp'; cases e

theorem out_pushed' {s : WState} (h : WInv s) : pushed s = s.sink.out := by unfold pushed; rw [h.out, List.append_nil]

/-- output of bytes as an operation which sends no event -/
theorem BytesOut.acts {f : Go WState Bool} {s : WState} {q : List UInt8} (h : BytesOut f s q) (p : Phase) :
    Acts f s p p (fun t => Core s t ∧ t.state = s.state ∧ t.obLen = 0 ∧ pushed t = pushed s ++ q ∧
      t.outStream = s.outStream + q.length) := by
  obtain ⟨b, t, e, st, ok, bad, rel⟩ := h
  refine Or.inr ⟨b, t, [], e, st.flow (by simp [kinds]), ?_, fun hb => ⟨(bad hb).1, p, rfl⟩, rel⟩
  intro hb
  obtain ⟨a1, a2, a3, a4, a5, a6⟩ := ok hb
  have := st.str
  rw [a6, List.length_append] at this
  exact ⟨⟨st.core, a2, a5, a6, by omega⟩, a1, a3, a4, rfl⟩

theorem fillHeader_ok {s : WState} (h : headerOK s.header = true) : headerOK (fillHeader s) = true := by
  unfold headerOK at h ⊢
  simp only [fillHeader]
  rw [Bool.and_eq_true, Bool.and_eq_true, Bool.and_eq_true] at h ⊢
  obtain ⟨⟨⟨h1, h2⟩, h3⟩, h4⟩ := h
  refine ⟨⟨⟨h1, ?_⟩, h3⟩, h4⟩
  have h2 := of_decide_eq_true h2
  apply decide_eq_true
  show (if s.header.osType = 0 then 4 else s.header.osType) ≤ 14
  split
  · decide
  · exact h2

/-- beginning of a stream -/
theorem writeHeader_acts {s : WState} (hi : WInv s) (h0 : s.obLen = 0) (hf : s.o.format ≠ .default)
    (hh : headerOK s.header = true) (hs1 : s.state ≠ .openStream) (hs2 : s.state ≠ .closingStream) :
    Acts (Go.chk writeHeader (setState .openStream)) s .idle .opened (fun t =>
      t.state = .openStream ∧ t.obLen = 0 ∧ pushed t = pushed s ++ headerBytes s.o t.header ∧
      t.header = fillHeader s ∧ t.lz = { s.lz with hist := s.o.dict.getD [] } ∧
      t.adler = Adler.init ∧ t.crcIn = Crc.init ∧ t.inStream = 0 ∧ t.numStreams = s.numStreams + 1) := by
  have i1 : WInv (headed s) := ⟨hi.hW, hi.lt, hi.blk, hi.out⟩
  have hfmt : BytesOut (match s.o.format with
    | .raw => pure true
    | .zlib => writeHeaderZlib
    | .gzip => writeHeaderGZIP
    | .default => Go.panic (.assert "Format not implemented")) (headed s) (headerBytes s.o (fillHeader s)) := by
    unfold headerBytes
    cases h : s.o.format with
    | default => exact absurd h hf
    | raw => exact (ByteOut.pure i1 h0).weaken
    | zlib => exact (wBufWrite_byteOut i1 h0 _).weaken
    | gzip => exact writeHeaderGZIP_out (s := headed s) i1 h0 (fillHeader_ok hh)
  have hrest : ∀ (t : WState) (es : List Sent), Flow (headed s) t es → WInv t →
      (Core (headed s) t ∧ t.state = (headed s).state ∧ t.obLen = 0 ∧
        pushed t = pushed (headed s) ++ headerBytes s.o (fillHeader s) ∧
        t.outStream = (headed s).outStream + (headerBytes s.o (fillHeader s)).length) →
      Acts (Go.chk (fun s => .ok (true, { s with events := s.events ++ [⟨wEvent s (.streamHeader s.header), s.sink.out.length, s.lz.buf.length⟩], adler := Adler.init, crcIn := Crc.init })) (setState .openStream)) t .begun .opened (fun t =>
      t.state = .openStream ∧ t.obLen = 0 ∧ pushed t = pushed s ++ headerBytes s.o t.header ∧
      t.header = fillHeader s ∧ t.lz = { s.lz with hist := s.o.dict.getD [] } ∧
      t.adler = Adler.init ∧ t.crcIn = Crc.init ∧ t.inStream = 0 ∧ t.numStreams = s.numStreams + 1) := by
    rintro t es fl it ⟨hc, hs, ho, hp, hos⟩
    refine Or.inr ⟨true, { t with events := t.events ++ [⟨wEvent t (.streamHeader t.header), t.sink.out.length, t.lz.buf.length⟩], adler := Adler.init, crcIn := Crc.init, state := .openStream },
      [⟨wEvent t (.streamHeader t.header), t.sink.out.length, t.lz.buf.length⟩], rfl, ?_, ?_, by simp, fun _ => rfl⟩
    · have hpl : (pushed t).length = t.sink.out.length := by simp [pushed, it.out]
      refine ⟨rfl, rfl, rfl, rfl, rfl, rfl, rfl, rfl, rfl, rfl, List.prefix_refl _, List.prefix_refl _, List.prefix_refl _,
        rfl, rfl, rfl, ?_, ?_, ?_, ⟨Nat.le_refl _, Nat.le_refl _⟩, ⟨Nat.le_refl _, Nat.le_refl _⟩,
        ⟨rfl, rfl⟩, ?_, ?_, ?_⟩
      · intro p hp'; rw [List.mem_singleton] at hp'; subst hp'; rw [hpl]; rfl
      · intro p hp'; rw [List.mem_singleton] at hp'; subst hp'; rfl
      · intro p hp'; rw [List.mem_singleton] at hp'; subst hp'; rfl
      · intro a b hab
        exact ⟨a, b, ⟨hab.1, hab.2, rfl, rfl⟩, hab.1, hab.2⟩
      · rintro A ⟨D, h1, h2, _⟩
        refine ⟨⟨D, h1, h2, fun _ => ?_⟩, ?_⟩
        · have h0 : t.inStream = 0 := hc.inStream
          show t.inStream ≤ t.inTotal ∧ AdlerIs Adler.init (D.drop (D.length - t.inStream)) ∧ CrcIs Crc.init (D.drop (D.length - t.inStream))
          rw [h0, Nat.sub_zero, List.drop_length]
          exact ⟨Nat.zero_le _, adler_init, crc_init⟩
        · intro p hp' a c e; rw [List.mem_singleton] at hp'; subst hp'; cases e
      · intro p hp' x e
        rw [List.mem_singleton] at hp'
        subst hp'
        cases e
        have e1 : t.header = fillHeader s := hc.header
        have e2 : t.o = s.o := hc.o
        have e3 : t.outStream = (headerBytes s.o (fillHeader s)).length := by rw [hos]; exact Nat.zero_add _
        rw [out_pushed' it] at hp
        show headerOK t.header = true ∧ t.header.osType ≠ 0 ∧ t.outStream = (headerBytes t.o t.header).length ∧
          ∃ pre, pre ++ headerBytes t.o t.header <+: t.sink.out ∧ (pre ++ headerBytes t.o t.header).length = t.sink.out.length
        rw [e1, e2]
        refine ⟨fillHeader_ok hh, ?_, e3, pushed (headed s), ?_, ?_⟩
        · show (if s.header.osType = 0 then 4 else s.header.osType) ≠ 0
          split <;> omega
        · rw [hp]; exact List.prefix_refl _
        · rw [hp]
    · intro _
      have hh : t.header = fillHeader s := hc.header
      refine ⟨⟨rfl, ho, ?_, hh, hc.lz, rfl, rfl, hc.inStream, hc.numStreams⟩,
        ⟨it.hW, it.lt, it.blk, it.out⟩, rfl, rfl, rfl⟩
      show pushed t = _
      rw [hp]
      show _ = pushed s ++ headerBytes s.o t.header
      rw [hh]; rfl
  have main := (hfmt.acts .begun).chk hrest
  have heq : Go.chk writeHeader (setState .openStream) s = Go.chk (match s.o.format with
    | .raw => pure true
    | .zlib => writeHeaderZlib
    | .gzip => writeHeaderGZIP
    | .default => Go.panic (.assert "Format not implemented")) (Go.chk (fun s => .ok (true, { s with events := s.events ++ [⟨wEvent s (.streamHeader s.header), s.sink.out.length, s.lz.buf.length⟩], adler := Adler.init, crcIn := Crc.init })) (setState .openStream)) (headed s) := by
    refine Eq.trans ?_ (congrFun (chk_assoc _ _ _) (headed s))
    conv => lhs; unfold Go.chk
    rw [writeHeader_eq]
    rfl
  have fl0 := headed_flow hi hs1 hs2
  rcases main with ⟨e, hn⟩ | ⟨b, t, es, e, fl, ok, bad, rel⟩
  · exact Or.inl ⟨heq.trans e, fun h => hn (fit_of_flow fl0 h)⟩
  · refine Or.inr ⟨b, t, _, heq.trans e, fl0.trans fl, ?_, ?_, fun hr => rel hr⟩
    · intro hb
      obtain ⟨q, i, er, ee, ph⟩ := ok hb
      exact ⟨q, i, er, ee, by rw [kinds_append]; exact runPh_trans (q := .begun) rfl ph⟩
    · intro hb
      obtain ⟨f, p, hp⟩ := bad hb
      exact ⟨f, p, by rw [kinds_append]; exact runPh_trans (q := .begun) rfl hp⟩

/-- both parts of the gzip footer are written, whatever happens to the first -/
theorem writeFooterGZIP_out {s : WState} (h : WInv s) (h0 : s.obLen = 0) (c : BitVec 32) :
    BytesOut (writeFooterGZIP c) s (leBytes 4 c.toNat ++ leBytes 4 (s.inStream % 2 ^ 32)) := by
  obtain ⟨b, t, e, st, ok, bad, rel⟩ := wBufWrite_byteOut h h0 (leBytes 4 c.toNat)
  have hz : t.obLen = 0 := by
    cases b with
    | true => exact (ok rfl).2.2.2.2.1
    | false => exact (bad rfl).2
  have hin : t.inStream = s.inStream := st.core.inStream
  have e0 : wBitsFlush t = .ok (true, t) := by unfold wBitsFlush; rw [if_pos hz]
  have heq : ∀ b' u, outWrite (leBytes 4 (s.inStream % 2 ^ 32)) t = .ok (b', u) →
      writeFooterGZIP c s = .ok (b && b', u) := by
    intro b' u e'
    unfold writeFooterGZIP wBufWriteU32
    rw [Go.bind_ok e, Go.bind_ok (Go.get_apply t)]
    have : wBufWrite (leBytes 4 (t.inStream % 2 ^ 32)) t = .ok (b', u) := by
      unfold wBufWrite; rw [chk_ok e0, hin]; exact e'
    rw [Go.bind_ok this]
    rfl
  obtain ⟨b', u, e', st', o1, o2, ok', bad', rel'⟩ := outWrite_any (leBytes 4 (s.inStream % 2 ^ 32)) t
  refine ⟨b && b', u, heq b' u e', st.trans st', ?_, ?_, ?_⟩
  · intro hb
    rw [Bool.and_eq_true] at hb
    obtain ⟨a1, a2, a3, a4, a5, a6, a7⟩ := ok hb.1
    obtain ⟨c1, c2, ce, c3, c4, c5, c6⟩ := ok' hb.2
    refine ⟨⟨by rw [st'.core.W]; exact a1.hW, by rw [o1, st'.core.W]; exact a1.lt,
      by rw [o1, o2]; exact a1.blk, c5 (by simp [leBytes])⟩, c1.trans a2, c2.trans a3, ce.trans a4, o1.trans hz,
      by rw [c3, a6, List.append_assoc]⟩
  · intro hb
    refine ⟨?_, o1.trans hz⟩
    cases b' with
    | false => exact (bad' rfl).pre st.errs
    | true =>
      have hb0 : b = false := by simpa using hb
      obtain ⟨f1, pre, er, f2, f3⟩ := (bad hb0).1
      obtain ⟨c1, c2, ce, _⟩ := ok' rfl
      exact ⟨c1.trans f1, pre, er, ce.trans f2, c2.trans f3⟩
  · intro hr
    rw [rel hr, rel' (reliable_of_core st.core hr)]; rfl

/-- one event as an operation -/
theorem event_acts {s : WState} (hi : WInv s) (k : EvKind) (hk : k ≠ .streamBegin) (hk2 : ∀ h, k ≠ .streamHeader h)
    (hk3 : ∀ a c, k = .streamEnd a c → (s.state = .openStream ∨ s.state = .closingStream) ∧ a = s.adler ∧ c = s.crcIn) {p q : Phase}
    (hp : evNext p k = some q) : Acts (evStep wBW k) s p q (fun t =>
      t = { s with events := s.events ++ [⟨wEvent s k, s.sink.out.length, s.lz.buf.length⟩] }) := by
  have hpl : (pushed s).length = s.sink.out.length := by simp [pushed, hi.out]
  refine Or.inr ⟨true, { s with events := s.events ++ [⟨wEvent s k, s.sink.out.length, s.lz.buf.length⟩] },
    [⟨wEvent s k, s.sink.out.length, s.lz.buf.length⟩], rfl, ?_, ?_, by simp, fun _ => rfl⟩
  · refine ⟨rfl, rfl, rfl, rfl, rfl, rfl, rfl, rfl, rfl, rfl, List.prefix_refl _, List.prefix_refl _, List.prefix_refl _,
        rfl, rfl, rfl, ?_, ?_, ?_, ⟨Nat.le_refl _, Nat.le_refl _⟩, ⟨Nat.le_refl _, Nat.le_refl _⟩,
        ?_, ?_, ?_, ?_⟩
    · intro p hp'; rw [List.mem_singleton] at hp'; subst hp'; rw [hpl]; rfl
    · intro p hp'; rw [List.mem_singleton] at hp'; subst hp'; rfl
    · intro p hp'; rw [List.mem_singleton] at hp'; subst hp'; rfl
    · unfold NumLog
      rw [if_neg (show ¬ (wEvent s k).kind = .streamBegin from hk)]
      exact ⟨rfl, rfl⟩
    · intro a b hab
      refine ⟨a, b, ?_, hab.1, hab.2⟩
      unfold StrLog
      rw [if_neg (show ¬ (wEvent s k).kind = .streamBegin from hk)]
      exact ⟨hab.1, hab.2, rfl, rfl⟩
    · rintro A ⟨D, h1, h2, h3⟩
      refine ⟨⟨D, h1, h2, h3⟩, ?_⟩
      intro p hp' a c e
      rw [List.mem_singleton] at hp'
      subst hp'
      obtain ⟨g1, g2, g3⟩ := hk3 a c e
      obtain ⟨g4, g5, g6⟩ := h3 g1
      have hpart : inPart A (wEvent s k) = D.drop (D.length - s.inStream) := by
        show (A.take s.inTotal).drop (s.inTotal - s.inStream) = _
        rw [h1, ← h2, List.take_append_of_le_length (Nat.le_refl _), List.take_length]
      show s.inStream ≤ s.inTotal ∧ s.inTotal ≤ A.length ∧ _
      rw [hpart, g2, g3]
      exact ⟨g4, by rw [h1, List.length_append, h2]; omega, g5, g6⟩
    · intro p hp' x e
      rw [List.mem_singleton] at hp'
      subst hp'
      exact absurd e (hk2 x)
  · intro _
    refine ⟨rfl, ⟨hi.hW, hi.lt, hi.blk, hi.out⟩, rfl, rfl, ?_⟩
    show (evNext p k).bind _ = _
    rw [hp]; rfl

/-- end of a stream -/
theorem writeFooter_acts {s : WState} (hi : WInv s) (hf : s.o.format ≠ .default) {d : List UInt8}
    (ha : AdlerIs s.adler d) (hc : CrcIs s.crcIn d) (hin : s.inStream = d.length) (hs : s.state = .closingStream) :
    Acts (Go.chk writeFooter (setState .closedStream)) s .last .idle (fun t =>
      t.state = .closedStream ∧ t.obLen = 0 ∧
      (∃ q, pushed t = q ++ footerBytes s.o d ∧ bytesBits q = view s ++ padBits (view s).length) ∧
      t.lz = s.lz ∧ t.header = s.header ∧ t.numStreams = s.numStreams) := by
  obtain ⟨b, t, e, st, ok, bad, rel⟩ := wBitsFlush_gen hi.hW (Nat.le_of_lt hi.lt) hi.blk hi.out
  have hflush : Acts wBitsFlush s .last .last (fun t => Core s t ∧ t.state = s.state ∧ t.obLen = 0 ∧
      bytesBits (pushed t) = view s ++ padBits (view s).length) := by
    refine Or.inr ⟨b, t, [], e, st.flow (by simp [kinds]), ?_, fun hb => ⟨bad hb, _, rfl⟩, rel⟩
    intro hb
    obtain ⟨a, hz⟩ := ok hb
    refine ⟨⟨st.core, a.state, hz, ?_⟩, a.inv, a.err, a.errs, rfl⟩
    rw [← a.view]
    unfold view
    rw [hz]; simp
  have heq : Go.chk writeFooter (setState .closedStream) = Go.chk wBitsFlush (fun s =>
      Go.chk (evStep wBW (.streamEnd s.adler s.crcIn)) (Go.chk (match s.o.format with
        | .raw => pure true
        | .zlib => writeFooterZlib s.adler
        | .gzip => writeFooterGZIP s.crcIn
        | .default => Go.panic (.assert "Format not implemented"))
        (Go.chk (evStep wBW .streamClose) (setState .closedStream))) s) := by
    unfold writeFooter
    rw [chk_assoc]
    congr 1
    funext u
    exact congrFun (chk_assoc (match u.o.format with
        | .raw => pure true
        | .zlib => writeFooterZlib u.adler
        | .gzip => writeFooterGZIP u.crcIn
        | .default => Go.panic (.assert "Format not implemented")) (evStep wBW .streamClose) (setState .closedStream))
      { u with events := u.events ++ [⟨wEvent u (.streamEnd u.adler u.crcIn), u.sink.out.length, u.lz.buf.length⟩] }
  rw [heq]
  refine hflush.chk ?_
  rintro t1 es1 f1 i1 ⟨c1, s1, z1, v1⟩
  refine (event_acts i1 (.streamEnd t1.adler t1.crcIn) (by simp) (by simp)
    (fun a c e => by cases e; exact ⟨Or.inr (s1.trans hs), rfl, rfl⟩) (p := .last) (q := .ended) rfl).chk ?_
  rintro t2 es2 f2 i2 rfl
  have hbytes : ∀ u : WState, WInv u → u.obLen = 0 → u.inStream = d.length → BytesOut (match t1.o.format with
        | .raw => pure true
        | .zlib => writeFooterZlib t1.adler
        | .gzip => writeFooterGZIP t1.crcIn
        | .default => Go.panic (.assert "Format not implemented")) u (footerBytes s.o d) := by
    intro u iu zu hu
    unfold footerBytes
    rw [c1.o, c1.adler, c1.crcIn]
    have e1 : s.adler.toNat = adler32 d := ha
    have e2 : s.crcIn = crc32 d := hc
    cases h : s.o.format with
    | default => exact absurd h hf
    | raw => exact (ByteOut.pure iu zu).weaken
    | zlib =>
      show BytesOut (wBufWrite (beBytes 4 s.adler.toNat)) _ _
      rw [e1]; exact (wBufWrite_byteOut iu zu _).weaken
    | gzip =>
      show BytesOut (writeFooterGZIP s.crcIn) _ _
      have := writeFooterGZIP_out iu zu s.crcIn
      rw [e2, hu] at this
      rw [e2]
      exact this
  refine ((hbytes _ i2 z1 (c1.inStream.trans hin)).acts .ended).chk ?_
  rintro t3 es3 f3 i3 ⟨c3, s3, z3, p3, _⟩
  refine (event_acts i3 .streamClose (by simp) (by simp) (by simp) (p := .ended) (q := .idle) rfl).chk ?_
  rintro t4 es4 f4 i4 rfl
  refine Or.inr ⟨true, _, [], rfl, ?_, fun _ => ?_, by simp, fun _ => rfl⟩
  · have := Flow.refl { t3 with events := t3.events ++ [⟨wEvent t3 .streamClose, t3.sink.out.length, t3.lz.buf.length⟩] }
    exact ⟨rfl, rfl, rfl, rfl, rfl, rfl, rfl, rfl, rfl, rfl, List.prefix_refl _, List.prefix_refl _,
      List.prefix_refl _, rfl, rfl, by simp, by simp, by simp, by simp, Nat.le_refl _, Nat.le_refl _, rfl, this.offs,
      fun A h => ⟨h.other (by simp) (by simp) _, by simp⟩, by simp⟩
  · refine ⟨⟨rfl, z3, ⟨pushed t1, ?_, v1⟩, c3.lz.trans c1.lz, c3.header.trans c1.header,
      c3.numStreams.trans c1.numStreams⟩, ⟨i3.hW, i3.lt, i3.blk, i3.out⟩, rfl, rfl, rfl⟩
    exact p3

end Flate.Proof
