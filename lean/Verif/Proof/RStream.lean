/-
Reading one stream, when everything the source will deliver is in the input buffer.
-/
import Verif.Proof.RFoot

namespace Flate.Proof.R
open Flate.Spec Flate.Model Flate.Model.Rd

/-- between two streams -/
structure Ready (e0 : Err) (s : RState) : Prop where
  err : s.inp.inputError = some e0
  stop : s.out.stopIsForced = false
  flat : Flat s.inp
  empty : s.out.decodeBuffer = []

/-- The events for a stream: `h` is the header reported, and the footer has the checksums of `data`. -/
def StreamEvents (h : Header) (data : List UInt8) (ks : List EvKind) : Prop :=
  ∃ (bks : List EvKind) (a c : BitVec 32), BlocksTrace bks ∧ a.toNat = adler32 data ∧ c = crc32 data ∧
    ks = [.streamBegin, .streamHeader h] ++ bks ++ endEvents a c

theorem StreamEvents.trace {h : Header} {data : List UInt8} {ks : List EvKind} (x : StreamEvents h data ks) : StreamTrace ks := by
  obtain ⟨bks, a, c, ⟨bl, last, h1, h2, rfl⟩, _, _, rfl⟩ := x
  have := StreamTrace.mk h bl last a c h1 h2
  simpa [endEvents] using this

/-- A stream `S` with content `data` was read and delivered. -/
structure Clean (s : RState) (S data : List UInt8) (h : Header) (ks : List EvKind) (s' : RState) : Prop where
  buf : s.inp.buf = S ++ s'.inp.buf
  total : s'.inp.inTotal = s.inp.inTotal + S.length
  err : s'.inp.inputError = s.inp.inputError
  src : s'.inp.src = s.inp.src
  flat : Flat s'.inp
  acts : ∃ ds : List (List UInt8), s'.out.acts = s.out.acts ++ ds.map .data ∧ ds.flatten = data
  empty : s'.out.decodeBuffer = []
  outTotal : s'.out.outTotal = s.out.outTotal + data.length
  set : s'.out.errorWasSet = s.out.errorWasSet
  stop : s'.out.stopIsForced = s.out.stopIsForced
  num : s'.numStreams = s.numStreams + 1
  hdr : s'.header = h
  ev : kinds s' = kinds s ++ ks

theorem Clean.ready {e0 : Err} {s s' : RState} {S data : List UInt8} {h : Header} {ks : List EvKind} (c : Clean s S data h ks s') (hs : Ready e0 s) : Ready e0 s' :=
  ⟨c.err.trans hs.err, c.stop.trans hs.stop, c.flat, c.empty⟩

/-- What was decoded of a stream: `p` is determined by a prefix of `buf` consisting of a header, blocks and
perhaps the beginning of a block. -/
def PartOf (ok : List Nat → Prop) (win : Nat) (dict : Option (List UInt8)) (c : Container) (buf p : List UInt8) : Prop :=
  p = [] ∨ ∃ hdr r bits, HeaderOf win dict c hdr ∧ buf = hdr ++ r ∧ bits <+: bytesBits r ∧
    (SomeBlocks ok win 0 (dict.getD []) bits (dict.getD [] ++ p) ∨ AllBlocks ok win 0 (dict.getD []) bits (dict.getD [] ++ p))

/-- An error was reported after `p` had been decoded, all of it delivered or in the decode buffer; things may have gone on after that. -/
def Halted (e0 : Err) (s : RState) (p : List UInt8) (s' : RState) : Prop :=
  ∃ (s1 : RState) (e : Err) (ds : List (List UInt8)), Bad e0 e ∧ s1.out.acts = s.out.acts ++ ds.map .data ∧ ds.flatten ++ s1.out.decodeBuffer = p ∧
    s1.out.errorWasSet = s.out.errorWasSet ∧ s1.out.stopIsForced = s.out.stopIsForced ∧
    (∃ c, s.inp.buf = c ++ s1.inp.buf ∧ s1.inp.inTotal = s.inp.inTotal + c.length) ∧ s1.inp.src = s.inp.src ∧ s1.inp.inputError = s.inp.inputError ∧
    Past { s1 with out := closeOut e s1.out } s'

section
variable {E : Env} {e0 : Err} {s : RState}

/-- the event which `sendEvent` sends -/
def mkEv (k : EvKind) (s : RState) : Event :=
  { kind := k, inTotal := s.inp.inTotal, inStream := s.inp.inStream, outTotal := s.out.outTotal, outStream := s.out.outStream, numStreams := s.numStreams, format := s.actualFormat }

theorem sendEvent_eq (k : EvKind) (s : RState) : sendEvent k s = .ok ((), { s with events := s.events ++ [mkEv k s] }) := rfl

/-- the state in which the header is read -/
def Begun (E : Env) (s s3 : RState) : Prop := ∃ ev : Event, ev.kind = .streamBegin ∧ s3 =
  { s with inp := { s.inp with inStream := 0 }, out := { s.out with outStream := 0, window := (lastN (2 ^ E.o.wbits) (E.o.dict.getD [])) }, numStreams := s.numStreams + 1, actualFormat := .default, header := {}, events := s.events ++ [ev] }

theorem filled_norm (hs : s.inp.inputError = some e0) : filled s = { s with inp := { s.inp with inStream := 0 }, out := { s.out with outStream := 0 } } := by
  unfold filled refill
  by_cases hb : s.inp.buf = []
  · have : s.inp.buf.isEmpty = true := by simp [hb]
    simp only [this, if_true]
    rw [fill_done (i := { s.inp with inStream := 0 }) hs]
  · have : s.inp.buf.isEmpty = false := by simpa using hb
    simp only [this, Bool.false_eq_true, if_false]

theorem chk_congr {x y : Go RState Bool} (k : Go RState Bool) {s s' : RState} (h : x s = y s') : Go.chk x k s = Go.chk y k s' := by
  unfold Go.chk; rw [h]

theorem stream_begin (hs : s.inp.inputError = some e0) (hb : s.inp.buf ≠ []) :
    ∃ s3, Begun E s s3 ∧ readStream E s = Go.chk (Go.chk (readHeaderOf E E.o.format) fun s => do
      let (_, s) ← sendEvent (.streamHeader s.header) s
      pure (true, s)) (bodyRest E) s3 := by
  rw [readStream_split, filled_norm hs, if_neg (by simpa using hb)]
  refine ⟨_, ⟨mkEv .streamBegin { s with inp := { s.inp with inStream := 0 }, out := { s.out with outStream := 0, window := (lastN (2 ^ E.o.wbits) (E.o.dict.getD [])) }, numStreams := s.numStreams + 1, actualFormat := .default }, rfl, rfl⟩, ?_⟩
  have hx : headRest E { s with inp := { s.inp with inStream := 0 }, out := { s.out with outStream := 0 } } = (Go.chk (readHeaderOf E E.o.format) fun s => do
      let (_, s) ← sendEvent (.streamHeader s.header) s
      pure (true, s)) { s with inp := { s.inp with inStream := 0 }, out := { s.out with outStream := 0, window := (lastN (2 ^ E.o.wbits) (E.o.dict.getD [])) }, numStreams := s.numStreams + 1, actualFormat := .default, header := {}, events := s.events ++ [mkEv .streamBegin { s with inp := { s.inp with inStream := 0 }, out := { s.out with outStream := 0, window := (lastN (2 ^ E.o.wbits) (E.o.dict.getD [])) }, numStreams := s.numStreams + 1, actualFormat := .default }] } := by
    unfold headRest
    refine (Go.bind_ok (Go.modify_apply _ _)).trans ?_
    refine (Go.bind_ok (sendEvent_eq _ _)).trans ?_
    refine (Go.bind_ok (Go.modify_apply _ _)).trans ?_
    have : (match E.o.dict with | none => [] | some d => windowWrite E.o.wbits [] d) = lastN (2 ^ E.o.wbits) (E.o.dict.getD []) := by
      cases E.o.dict with
      | none => simp [lastN]
      | some d => simp [windowWrite, lastN]
    rw [← this]
    rfl
  exact chk_congr _ hx

theorem stream_empty (hs : s.inp.inputError = some e0) (hb : s.inp.buf = []) :
    readStream E s = .ok (false, { s with inp := { s.inp with inStream := 0 }, out := closeOut e0 { s.out with outStream := 0 } }) := by
  rw [readStream_split, filled_norm hs, if_pos (by simp [hb])]
  have : propagateError false { s with inp := { s.inp with inStream := 0 }, out := { s.out with outStream := 0 } } = .ok ((), { s with inp := { s.inp with inStream := 0 }, out := closeOut e0 { s.out with outStream := 0 } }) := by
    unfold propagateError
    simp only [hs]
    exact closeWithError_eq _ _
  exact (Go.bind_ok this).trans rfl

/-- the state in which the blocks are read -/
structure Opened (E : Env) (s : RState) (c : Container) (hdr r : List UInt8) (h : Header) (s5 : RState) : Prop where
  ibuf : s5.inp.buf = r
  total : s5.inp.inTotal = s.inp.inTotal + hdr.length
  err : s5.inp.inputError = s.inp.inputError
  src : s5.inp.src = s.inp.src
  flat : Flat s5.inp
  window : s5.out.window = lastN (2 ^ E.o.wbits) (E.o.dict.getD [])
  acts : s5.out.acts = s.out.acts
  buf : s5.out.decodeBuffer = s.out.decodeBuffer
  outTotal : s5.out.outTotal = s.out.outTotal
  outStream : s5.out.outStream = 0
  set : s5.out.errorWasSet = s.out.errorWasSet
  stop : s5.out.stopIsForced = s.out.stopIsForced
  crc : CrcIs s5.out.crc []
  adler : AdlerIs s5.out.adler []
  num : s5.numStreams = s.numStreams + 1
  fmt : s5.actualFormat = fmtOf c
  hdr : s5.header = h
  ev : kinds s5 = kinds s ++ [.streamBegin, .streamHeader h]

/-- reading blocks and footer -/
def blocksFoot (E : Env) : Go RState Bool := do
  readBlocks E
  onOut fun o => ((), mustFlush E o)
  readFooter

theorem stream_open {s3 : RState} (h3 : Begun E s s3) {c : Container} {hdr r : List UInt8} {h : Header} {c32 : BitVec 32}
    (hd : readHeaderOf E E.o.format s3 = .ok (true, { s3 with inp := takeIn hdr r { s3.inp with crc := c32 }, header := h, actualFormat := fmtOf c })) :
    ∃ s5, Opened E s c hdr r h s5 ∧ Go.chk (Go.chk (readHeaderOf E E.o.format) fun s => do
      let (_, s) ← sendEvent (.streamHeader s.header) s
      pure (true, s)) (bodyRest E) s3 = blocksFoot E s5 := by
  obtain ⟨s4, hs4⟩ : ∃ s4 : RState, s4 = { s3 with inp := takeIn hdr r { s3.inp with crc := c32 }, header := h, actualFormat := fmtOf c } := ⟨_, rfl⟩
  rw [← hs4] at hd
  have h1 : (Go.chk (readHeaderOf E E.o.format) fun s => do
      let (_, s) ← sendEvent (.streamHeader s.header) s
      pure (true, s)) s3 = .ok (true, { s4 with events := s4.events ++ [mkEv (.streamHeader s4.header) s4] }) := (chk_true hd).trans rfl
  refine ⟨{ s4 with events := s4.events ++ [mkEv (.streamHeader s4.header) s4], out := { s4.out with adler := Adler.init, crc := Crc.init } }, ?_, ?_⟩
  rotate_left
  · rw [chk_true h1]
    unfold bodyRest
    exact Go.bind_ok (Go.modify_apply _ _)
  obtain ⟨ev, hev, rfl⟩ := h3
  subst hs4
  refine ⟨rfl, ?_, rfl, rfl, ⟨rfl, rfl⟩, rfl, rfl, rfl, rfl, rfl, rfl, rfl, crc_init, adler_init, rfl, rfl, rfl, ?_⟩
  · simp [takeIn, countIn, Rd.discard]
  · simp [kinds, hev, mkEv]

/-- the beginning of a stream -/
theorem stream_head (hs : Ready e0 s) (hb : s.inp.buf ≠ []) {c : Container} (hc : detect E.o.format s.inp.buf = c) :
    (∃ hdr r h s5, HeaderOf (2 ^ E.o.wbits) E.o.dict c hdr ∧ Reports c hdr h ∧ s.inp.buf = hdr ++ r ∧ Opened E s c hdr r h s5 ∧ readStream E s = blocksFoot E s5) ∨
    (∃ s', readStream E s = .ok (false, s') ∧ Halted e0 s [] s') ∨
    (c = .gzip ∧ readStream E s = .error .bounds ∧ GzPanics s.inp.buf) := by
  obtain ⟨s3, h3, e3⟩ := stream_begin (E := E) hs.err hb
  have hs3 := h3
  obtain ⟨ev, hev, rfl⟩ := h3
  have hdet : readHeaderOf E E.o.format _ = _ := readHeaderOf_detect E E.o.format { s with inp := { s.inp with inStream := 0 }, out := { s.out with outStream := 0, window := (lastN (2 ^ E.o.wbits) (E.o.dict.getD [])) }, numStreams := s.numStreams + 1, actualFormat := .default, header := {}, events := s.events ++ [ev] }
  rw [show detect E.o.format _ = c from hc] at hdet
  rcases head_sound (E := E) (e0 := e0) (s := { s with inp := { s.inp with inStream := 0 }, out := { s.out with outStream := 0, window := (lastN (2 ^ E.o.wbits) (E.o.dict.getD [])) }, numStreams := s.numStreams + 1, actualFormat := .default, header := {}, events := s.events ++ [ev] })
    hs.err hs.flat rfl c with ⟨hdr, r, h, c32, k1, k2, k3, k4⟩ | ⟨s', h, c32, k1, i', e, f1, f2, f3⟩ | ⟨k1, k2, k3⟩
  · left
    obtain ⟨s5, h5, e5⟩ := stream_open hs3 (hdet.trans k4)
    exact ⟨hdr, r, h, s5, k1, k2, k3, h5, e3.trans e5⟩
  · right; left
    refine ⟨s', e3.trans (chk_false (chk_false (hdet.trans k1))), ?_⟩
    subst f3
    obtain ⟨⟨cc, c1, c2, _, _⟩, c5, c6⟩ := f1
    refine ⟨{ s with inp := i', out := { s.out with outStream := 0, window := (lastN (2 ^ E.o.wbits) (E.o.dict.getD [])) }, numStreams := s.numStreams + 1, actualFormat := .default, header := h, events := s.events ++ [ev] }, e, [], f2, ?_, ?_, rfl, rfl, ⟨cc, c1, c2⟩, c6, c5, .refl _⟩
    · simp
    · simp [hs.empty]
  · right; right
    exact ⟨k1, e3.trans (chk_error (chk_error (hdet.trans k2))), k3⟩

theorem vb_flat {i : Inp} (h : Flat i) : vb i = bytesBits i.buf := by rw [vb, flat_nat h]; rfl

theorem Opened.nm {c : Container} {hdr r : List UInt8} {h : Header} {s5 : RState} (o : Opened E s c hdr r h s5) (hs : Ready e0 s) : Nm e0 s5 :=
  ⟨o.err.trans hs.err, o.stop.trans hs.stop, ⟨by rw [o.flat.1]; omega, by rw [o.flat.1, o.flat.2]; decide⟩⟩

theorem SomeAll.at0 {i : Inp} (h : Flat i) : At 0 i := by unfold At; rw [h.1]; rfl

/-- after the final block -/
theorem stream_close (hE : EnvOK E) (hs : Ready e0 s) {c : Container} {hdr r : List UInt8} {h : Header} {s5 s6 : RState} (hb : s.inp.buf = hdr ++ r) (ho : Opened E s c hdr r h s5)
    {bits : List Bool} {data : List UInt8} {bks : List EvKind} (hbt : BlocksTrace bks) (hr : Ran E s5 bits data bks s6) (he : readBlocks E s5 = .ok ((), s6)) :
    ∃ body, r = body ++ s6.inp.buf ∧ (∃ pad, bytesBits body = bits ++ pad ∧ pad.length < 8) ∧
    ((∃ r2 ks s', s6.inp.buf = footerOf data c ++ r2 ∧ blocksFoot E s5 = .ok (true, s') ∧ StreamEvents h data ks ∧
        s'.inp.buf = r2 ∧ Clean s (hdr ++ body ++ footerOf data c) data h ks s') ∨
     (∃ s', (∀ r2, s6.inp.buf ≠ footerOf data c ++ r2) ∧ blocksFoot E s5 = .ok (false, s') ∧ Halted e0 s data s')) := by
  obtain ⟨⟨body, b1, b2, _, _⟩, b5, b6⟩ := hr.adv.step
  have hbits := hr.adv.bits
  rw [vb_flat ho.flat, b1, bytesBits_append] at hbits
  unfold vb at hbits
  rw [← List.append_assoc] at hbits
  have hbody := List.append_cancel_right hbits
  refine ⟨body, by rw [← ho.ibuf]; exact b1, ⟨_, hbody, by simp; have := hr.adv.small.len; omega⟩, ?_⟩
  have nm := (ho.nm hs).ran hr
  obtain ⟨m1, m2⟩ := emit_mustFlush hE.opn nm.stop
  obtain ⟨w, ⟨ds, d1, d2, d3, d4, d5, d6⟩, d7, d8⟩ := hr.emit.trans m1
  rw [m2, ho.buf, hs.empty] at d2
  simp only [List.append_nil, List.nil_append] at d2
  have hcrc := d5 [] ho.crc
  have hadl := d6 [] ho.adler
  rw [d2, List.nil_append] at hcrc hadl
  have hstream : (mustFlush E s6.out).outStream = data.length := by rw [d4, ho.outStream, d2]; simp
  have hbf : blocksFoot E s5 = readFooter { s6 with out := mustFlush E s6.out } := by
    unfold blocksFoot
    exact (Go.bind_ok he).trans (Go.bind_ok rfl)
  rw [hbf]
  rcases foot_sound (s := { s6 with out := mustFlush E s6.out }) (e0 := e0) nm.err hcrc hadl hstream (c := c) (hr.fmt.trans ho.fmt) with ⟨r2, ev, f1, f2, f3⟩ | ⟨f1, s', ev, i', e, f2, f3, f4, f5, f6⟩
  · left
    refine ⟨r2, [.streamBegin, .streamHeader h] ++ bks ++ endEvents _ _, _, f1, f2, ⟨bks, _, _, hbt, hadl, hcrc, rfl⟩, rfl, ?_⟩
    have f1 : s6.inp.buf = footerOf data c ++ r2 := f1
    refine ⟨?_, ?_, ?_, ?_, flat_takeIn _ _ _, ⟨ds, ?_, d2⟩, m2, ?_, ?_, ?_, ?_, ?_, ?_⟩
    · show _ = _ ++ r2
      rw [hb, ← ho.ibuf, b1, f1]; simp
    · simp only [takeIn, countIn, Rd.discard]
      rw [b2, ho.total]
      simp only [List.length_append]
      omega
    · exact b5.trans ho.err
    · exact b6.trans ho.src
    · rw [← ho.acts]; exact d1
    · show (mustFlush E s6.out).outTotal = _
      rw [d3, d2, ho.outTotal]
    · exact d7.trans ho.set
    · exact d8.trans ho.stop
    · exact hr.num.trans ho.num
    · exact hr.hdr.trans ho.hdr
    · show (s6.events ++ ev).map (·.kind) = _
      rw [List.map_append, f3]
      have := hr.ev
      unfold kinds at this
      rw [this]
      have := ho.ev
      unfold kinds at this
      rw [this]
      simp [kinds]
  · right
    refine ⟨s', f1, f2, ?_⟩
    subst f6
    obtain ⟨⟨cc, c1, c2, _, _⟩, c5, c6⟩ := f3
    refine ⟨{ s6 with inp := i', out := mustFlush E s6.out, events := s6.events ++ ev }, e, ds, f4, ?_, ?_, ?_, ?_, ⟨hdr ++ body ++ cc, ?_, ?_⟩, ?_, ?_, .refl _⟩
    · rw [← ho.acts]; exact d1
    · show _ ++ (mustFlush E s6.out).decodeBuffer = _
      rw [m2, d2]; simp
    · exact d7.trans ho.set
    · exact d8.trans ho.stop
    · have c1 : s6.inp.buf = cc ++ i'.buf := c1
      rw [hb, ← ho.ibuf, b1, c1]; simp
    · have c2 : i'.inTotal = s6.inp.inTotal + cc.length := c2
      show i'.inTotal = _
      rw [c2, b2, ho.total]; simp only [List.length_append]; omega
    · exact c6.trans (b6.trans ho.src)
    · exact c5.trans (b5.trans ho.err)

/-- when the blocks are not in order -/
theorem stream_broken (hE : EnvOK E) (hs : Ready e0 s) {c : Container} {hdr r : List UInt8} {h : Header} {s5 s6 : RState} (hb : s.inp.buf = hdr ++ r) (ho : Opened E s c hdr r h s5)
    {p : List UInt8} (hr : Broke E e0 s5 p s6) (he : readBlocks E s5 = .ok ((), s6)) (hf : s6.actualFormat ≠ .default) :
    ∃ b s', blocksFoot E s5 = .ok (b, s') ∧ Halted e0 s p s' := by
  obtain ⟨s1, e, q1, q2, q3, q4⟩ := hr
  have hbf : blocksFoot E s5 = readFooter { s6 with out := mustFlush E s6.out } := by
    unfold blocksFoot
    exact (Go.bind_ok he).trans (Go.bind_ok rfl)
  rw [hbf]
  rcases (safe_readFooter (b := false) (X := False) (s := { s6 with out := mustFlush E s6.out }) hf).cases with ⟨b, s', e1, m, _⟩ | ⟨_, x⟩
  swap
  · exact x.elim
  refine ⟨b, s', e1, s1, e, ?_⟩
  obtain ⟨w, ⟨ds, d1, d2, d3, d4, d5, d6⟩, d7, d8⟩ := q2
  obtain ⟨⟨cc, c1, c2, _, _⟩, c5, c6⟩ := q1
  refine ⟨ds, q3, by rw [← ho.acts]; exact d1, ?_, d7.trans ho.set, d8.trans ho.stop, ⟨hdr ++ cc, ?_, ?_⟩, c6.trans ho.src, c5.trans ho.err, q4.trans (Past.trans ?_ m.past)⟩
  · rw [d2, ho.buf, hs.empty]; simp
  · rw [hb, ← ho.ibuf, c1]; simp
  · rw [c2, ho.total]; simp only [List.length_append]; omega
  · exact (mono_out (b := false) (stepO_mustFlush E s6.out)).past

theorem AllBlocks.deflate {ok : List Nat → Prop} {win : Nat} {dict body data : List UInt8} {bits pad : List Bool} (h : AllBlocks ok win 0 dict bits (dict ++ data))
    (hb : bytesBits body = bits ++ pad) (hp : pad.length < 8) : DeflateOf (BlockEnc ok win) dict body data := by
  obtain ⟨bs, b, h1, k1, k2, rfl⟩ := h
  exact ⟨bs, b, pad, h1, k1, by simpa using k2, hb, hp⟩

/-- Reading one stream. -/
theorem stream_sound (hE : EnvOK E) (hs : Ready e0 s) (hb : s.inp.buf ≠ []) {c : Container} (hc : detect E.o.format s.inp.buf = c) :
    (∃ S data hdr h ks s', Stream (Env.ok E) (2 ^ E.o.wbits) E.o.dict c S data ∧ hdr <+: S ∧ Reports c hdr h ∧ StreamEvents h data ks ∧
      readStream E s = .ok (true, s') ∧ Clean s S data h ks s') ∨
    (∃ b p s', readStream E s = .ok (b, s') ∧ PartOf (Env.ok E) (2 ^ E.o.wbits) E.o.dict c s.inp.buf p ∧ Halted e0 s p s') ∨
    (c = .gzip ∧ readStream E s = .error .bounds ∧ GzPanics s.inp.buf) := by
  rcases stream_head hs hb hc with ⟨hdr, r, h, s5, k1, k2, k3, k4, k5⟩ | ⟨s', k1, k2⟩ | k
  rotate_left
  · right; left; exact ⟨false, [], s', k1, Or.inl rfl, k2⟩
  · right; right; exact k
  rw [k5]
  rcases blockLoop_sound hE (s5.inp.bits + 1) (k4.nm hs) (SomeAll.at0 k4.flat) k4.window (Nat.lt_succ_self _) with
    ⟨bits, p, bks, s6, b1, b2, b3, b4⟩ | ⟨bits, p, s6, b1, b2, b3, b4⟩
  · obtain ⟨body, c1, ⟨pad, c2, c2'⟩, c3 | ⟨s', c3, c4, c5⟩⟩ := stream_close hE hs k3 k4 b3 b4 b1
    · obtain ⟨r2, ks, s', c3, c4, c5, c6, c7⟩ := c3
      left
      exact ⟨hdr ++ body ++ footerOf p c, p, hdr, h, ks, s', streamOf_iff.2 ⟨hdr, body, k1, b2.deflate c2 c2', rfl⟩, ⟨body ++ footerOf p c, by simp⟩, k2, c5, c4, c7⟩
    · right; left
      refine ⟨false, p, s', c4, Or.inr ⟨hdr, r, bits, k1, k3, ?_, Or.inr b2⟩, c5⟩
      rw [c1, bytesBits_append, c2]
      exact ⟨pad ++ bytesBits s6.inp.buf, by simp⟩
  · right; left
    have hf : s6.actualFormat ≠ .default := by
      rcases (safe_readBlocks (b := true) (X := False) (s := s5) ⟨hE.lawful, hE.word⟩).cases with ⟨_, s', e1, m, _⟩ | ⟨_, x⟩
      · have : s' = s6 := by
          have := e1.symm.trans b1
          cases this; rfl
        subst this
        exact m.fmt rfl (by rw [k4.fmt]; exact fmtOf_ne c)
      · exact x.elim
    obtain ⟨b, s', c1, c2⟩ := stream_broken hE hs k3 k4 b4 b1 hf
    refine ⟨b, p, s', c1, Or.inr ⟨hdr, r, bits, k1, k3, ?_, Or.inl b2⟩, c2⟩
    rw [vb_flat k4.flat, k4.ibuf] at b3
    exact b3

end
end Flate.Proof.R
