/-
Dividing the data among `Write` calls: when the input buffer is no larger than a block, one more division makes no
difference to the output.
-/
import Verif.Proof.WSim2

namespace Flate.Proof.Div
open Flate.Spec Flate.Model Flate.Proof.Sim

/-! ### writing a header does not look at the input buffer -/

/-- another input buffer and other options, other events, another header -/
def put (x : Options × LZ) (ev : List Sent) (h : Header) (s : WState) : WState :=
  { s with o := x.1, lz := x.2, events := ev, header := h }

/-- apply a function to the resulting state -/
def mapS {α : Type} (g : WState → WState) : Except Panic (α × WState) → Except Panic (α × WState)
  | .error e => .error e
  | .ok (a, t) => .ok (a, g t)

/-- a function which neither uses nor changes the options, the input buffer, the events and the header -/
def Inert {α : Type} (f : Go WState α) : Prop := ∀ x ev h s, f (put x ev h s) = mapS (put x ev h) (f s)

theorem Inert.pure {α : Type} (a : α) : Inert (Pure.pure a : Go WState α) := fun _ _ _ _ => rfl

theorem Inert.panic {α : Type} (e : Panic) : Inert (Go.panic e : Go WState α) := fun _ _ _ _ => rfl

theorem Inert.chk {f g : Go WState Bool} (hf : Inert f) (hg : Inert g) : Inert (Go.chk f g) := by
  intro x ev h s
  unfold Go.chk
  rw [hf]
  cases f s with
  | error e => rfl
  | ok r =>
    obtain ⟨_ | _, t⟩ := r
    · rfl
    · exact hg x ev h t

theorem inert_flush : Inert outputBufferFlush := by
  intro x ev h s
  unfold outputBufferFlush sinkWrite
  by_cases ho : s.output = []
  · rw [if_pos ho, if_pos (show (put x ev h s).output = [] from ho)]; rfl
  · rw [if_neg ho, if_neg (show ¬ (put x ev h s).output = [] from ho)]
    have e : (put x ev h s).sink = s.sink := rfl
    rw [e]
    cases s.sink.wfail s.sink.nWrites with
    | none => rfl
    | some r => rfl

theorem inert_outLoop : ∀ (fuel : Nat) (p : List UInt8), Inert (outLoop fuel p)
  | 0, _ => Inert.panic _
  | fuel + 1, p => by
    intro x ev h s
    unfold outLoop
    by_cases hp : p = []
    · rw [if_pos hp, if_pos hp]; rfl
    · rw [if_neg hp, if_neg hp]
      exact (inert_flush.chk (inert_outLoop fuel (p.drop (min p.length (2 ^ s.outBits - s.output.length))))) x ev h
        { s with
          output := s.output ++ p.take (min p.length (2 ^ s.outBits - s.output.length))
          crcOut := Crc.genericUpdate s.crcOut (p.take (min p.length (2 ^ s.outBits - s.output.length)))
          outTotal := s.outTotal + min p.length (2 ^ s.outBits - s.output.length)
          outStream := s.outStream + min p.length (2 ^ s.outBits - s.output.length) }

theorem inert_bitsFlush : Inert wBitsFlush := by
  intro x ev h s
  unfold wBitsFlush
  by_cases ho : s.obLen = 0
  · rw [if_pos ho, if_pos (show (put x ev h s).obLen = 0 from ho)]; rfl
  · rw [if_neg ho, if_neg (show ¬ (put x ev h s).obLen = 0 from ho)]
    exact inert_outLoop _ _ x ev h { s with obLen := 0, obBlock := 0 }

theorem inert_bufWrite (p : List UInt8) : Inert (wBufWrite p) := inert_bitsFlush.chk (inert_outLoop _ _)

theorem inert_gzString (p : List UInt8) : Inert (gzString p) := by
  unfold gzString
  split
  · exact Inert.pure _
  · unfold wBufWriteStringZ
    split
    · exact inert_bufWrite _
    · split
      · exact inert_bufWrite _
      · exact Inert.panic _

theorem inert_headOf (d : HeadDep) : Inert (headOf d) := by
  unfold headOf
  cases d.format
  · exact Inert.panic _
  · exact Inert.pure true
  · exact inert_bufWrite _
  · intro x ev h s
    have : Inert (Go.chk (wBufWrite d.gzip) <| Go.chk (if d.extra = [] then pure true else
        Go.chk (wBufWriteU16 ((extraAsBytes d.extra).length % 65536)) (wBufWrite (extraAsBytes d.extra))) <|
      Go.chk (gzString d.fileName) <| Go.chk (gzString d.comment) <| fun s => wBufWriteU16 (s.crcOut.toNat % 65536) s : Go WState Bool) := by
      refine (inert_bufWrite _).chk <| Inert.chk ?_ <| (inert_gzString _).chk <| (inert_gzString _).chk fun x ev h s => inert_bufWrite _ x ev h s
      split
      · exact Inert.pure _
      · exact (inert_bufWrite _).chk (inert_bufWrite _)
    exact this x ev h { s with crcOut := Crc.init }

/-- the state in which the header is written -/
def begun (s : WState) : WState :=
  let s1 : WState := { s with inStream := 0, outStream := 0, numStreams := s.numStreams + 1, lz := { s.lz with hist := s.o.dict.getD [] } }
  let s2 : WState := { s1 with events := s1.events ++ [⟨wEvent s1 .streamBegin, s1.sink.out.length, s1.lz.buf.length⟩] }
  { s2 with header := fillHeader s2 }

/-- what happens after the header -/
def done (s : WState) : WState := { s with
  events := s.events ++ [⟨wEvent s (.streamHeader s.header), s.sink.out.length, s.lz.buf.length⟩]
  adler := Adler.init, crcIn := Crc.init, state := .openStream }

theorem open_eq (s : WState) : openStream s = Go.chk (headOf (headDep (begun s))) (fun t => .ok (true, done t)) (begun s) := by
  have e0 : openStream = Go.chk (Go.chk hdrWrite hdrDone) (setState .openStream) := congrArg (fun w => Go.chk w (setState .openStream)) Sim.writeHeader_eq
  rw [e0]
  have e : hdrWrite s = headOf (headDep (begun s)) (begun s) := by
    have e1 : hdrWrite s = (fun s : WState => (match s.o.format with
      | .raw => pure true
      | .zlib => writeHeaderZlib
      | .gzip => writeHeaderGZIP
      | .default => Go.panic (.assert "Format not implemented") : Go WState Bool) s) (begun s) := rfl
    rw [e1]
    generalize begun s = u
    unfold headOf headDep
    simp only []
    cases hf : u.o.format <;> simp only [if_true] <;> rfl
  unfold Go.chk
  rw [e]
  cases headOf (headDep (begun s)) (begun s) with
  | error e => rfl
  | ok r => obtain ⟨_ | _, t⟩ := r <;> rfl

/-- another input buffer -/
def putBuf (x : List UInt8) (s : WState) : WState := { s with lz := { s.lz with buf := x } }

/-- the kind of the data does not have to be guessed -/
def Known (s : WState) : Prop := s.o.format = .gzip → s.header.dataType ≠ .unknown

theorem fill_known {s : WState} (h : Known s) (x : List UInt8) : HSame s.o.format (fillHeader s) (fillHeader (putBuf x s)) := by
  refine ⟨rfl, fun hf => ?_⟩
  have := h hf
  unfold fillHeader
  show (if s.header.dataType = .unknown then _ else _) = (if s.header.dataType = .unknown then _ else _)
  rw [if_neg this, if_neg this]; rfl

theorem headDep_known {s : WState} (h : Known s) (x : List UInt8) : headDep (begun (putBuf x s)) = headDep (begun s) := by
  have e : HSame s.o.format (begun s).header (begun (putBuf x s)).header := fill_known (s := { s with inStream := 0, outStream := 0, numStreams := s.numStreams + 1, lz := { s.lz with hist := s.o.dict.getD [] } }) h x
  unfold headDep
  show HeadDep.mk s.o.format _ _ _ _ _ = HeadDep.mk s.o.format _ _ _ _ _
  congr 1
  · show (if s.o.format = .gzip then gzipHeaderBytes s.o _ else []) = (if s.o.format = .gzip then gzipHeaderBytes s.o _ else [])
    split
    · rename_i hf; rw [hf] at e; exact e.bytes _
    · rfl

theorem headOf_keeps {d : HeadDep} {s u : WState} {r : Bool} (hu : headOf d s = .ok (r, u)) :
    u.header = s.header ∧ u.lz = s.lz ∧ u.o = s.o := by
  have h1 := inert_headOf d (s.o, s.lz) s.events s.header s
  have h2 : put (s.o, s.lz) s.events s.header s = s := rfl
  rw [h2, hu] at h1
  simp only [mapS, Except.ok.injEq, Prod.mk.injEq] at h1
  exact ⟨by rw [h1.2]; rfl, by rw [h1.2]; rfl, by rw [h1.2]; rfl⟩

/-- the input buffer, its history cleared, and the options are kept -/
structure Kept (s t : WState) : Prop where
  o : t.o = s.o
  opts : t.lz.opts = s.lz.opts
  buf : t.lz.buf = s.lz.buf

theorem open_keeps {s t : WState} (e : openStream s = .ok (true, t)) : t.state = .openStream ∧ Kept s t := by
  rw [open_eq] at e
  unfold Go.chk at e
  cases e2 : headOf (headDep (begun s)) (begun s) with
  | error y => rw [e2] at e; cases e
  | ok r =>
    obtain ⟨r, u⟩ := r
    rw [e2] at e
    obtain ⟨h1, h2, h3⟩ := headOf_keeps e2
    cases r with
    | false => cases e
    | true =>
      cases e
      refine ⟨rfl, h3, ?_, ?_⟩
      · show u.lz.opts = _; rw [h2]; rfl
      · show u.lz.buf = _; rw [h2]; rfl

/-- the states agree, except for the events and the header -/
structure Near (s t : WState) : Prop where
  eq : t = put (s.o, s.lz) t.events t.header s
  hdr : HSame s.o.format s.header t.header

theorem HSame.symm {f : Format} {h h' : Header} (e : HSame f h h') : HSame f h' h :=
  ⟨by rw [e.eq], fun hf => (e.dt hf).symm⟩

theorem Near.rel {s t : WState} (h : Near s t) (hc : 2 ≤ s.outBits) (ho : s.output = []) : R true nil3 s t ∧ R true nil3 t s := by
  obtain ⟨he, hh⟩ := h
  generalize t.events = ev at he
  generalize t.header = hd at he hh
  subst he
  exact ⟨⟨rfl, Alike.of rfl, rfl, rfl, rfl, rfl, rfl, rfl, hh, rfl, rfl, rfl, fun _ => rfl, rfl, rfl, rfl, rfl, rfl, rfl, ⟨rfl, rfl, rfl⟩, fun _ => ⟨rfl, rfl, rfl⟩,
    (fun e => by cases e), (fun e => by cases e), (fun e => by cases e), (fun _ => ho), (fun e => by cases e), hc⟩,
    ⟨rfl, Alike.of rfl, rfl, rfl, rfl, rfl, rfl, rfl, (HSame.symm hh), rfl, rfl, rfl, fun _ => rfl, rfl, rfl, rfl, rfl, rfl, rfl, ⟨rfl, rfl, rfl⟩, fun _ => ⟨rfl, rfl, rfl⟩,
    (fun e => by cases e), (fun e => by cases e), (fun e => by cases e), (fun _ => ho), (fun e => by cases e), hc⟩⟩

theorem R.refl {s : WState} (hc : 2 ≤ s.outBits) (ho : s.output = []) : R true nil3 s s := (Near.rel ⟨rfl, HSame.of rfl⟩ hc ho).1

/-- Beginning a stream with another input buffer. -/
theorem open_put {s t : WState} (h : Known s) (x : List UInt8) (e : openStream s = .ok (true, t)) :
    ∃ u, openStream (putBuf x s) = .ok (true, u) ∧ Near (putBuf x t) u := by
  rw [open_eq] at e ⊢
  rw [headDep_known h]
  have e1 : begun (putBuf x s) = put (s.o, (begun (putBuf x s)).lz) (begun (putBuf x s)).events (begun (putBuf x s)).header (begun s) := rfl
  have hh : HSame s.o.format (begun s).header (begun (putBuf x s)).header := fill_known (s := { s with inStream := 0, outStream := 0, numStreams := s.numStreams + 1, lz := { s.lz with hist := s.o.dict.getD [] } }) h x
  have e3 : (begun (putBuf x s)).lz = { (begun s).lz with buf := x } := rfl
  rw [e1]
  generalize (begun (putBuf x s)).events = ev at *
  generalize (begun (putBuf x s)).header = hd at *
  generalize (begun (putBuf x s)).lz = z at *
  unfold Go.chk at e ⊢
  rw [inert_headOf]
  cases e2 : headOf (headDep (begun s)) (begun s) with
  | error y => rw [e2] at e; cases e
  | ok r =>
    obtain ⟨r, u⟩ := r
    rw [e2] at e
    obtain ⟨h1, h2, h3⟩ := headOf_keeps e2
    cases r with
    | false => cases e
    | true =>
      cases e
      subst e3
      refine ⟨_, rfl, ?_, ?_⟩
      · show WState.mk _ _ _ _ _ _ _ _ _ _ _ _ _ _ _ _ _ _ _ _ = WState.mk _ _ _ _ _ _ _ _ _ _ _ _ _ _ _ _ _ _ _ _
        have h2' : u.lz = (begun s).lz := h2
        have h3' : u.o = s.o := h3
        congr 1
        · exact h3'.symm
        · show _ = ({ u.lz with buf := x } : LZ); rw [h2']; rfl
      · show HSame u.o.format u.header hd
        rw [h3, h1]; exact hh

/-! ### one iteration of the loop of `Write` -/

/-- writer.go:463-468 -/
def opening : Go WState Bool := fun s => if s.state = .noStream ∨ s.state = .closedStream then openStream s else .ok (true, s)

/-- writer.go:470-474 -/
def squeeze (L : HuffLib) (all : Bool) : Go WState Bool := fun s => if usesStore s.o then compressStore all s else compressSlow L all s

/-- a stream is open or may be opened -/
def Ready (s : WState) : Prop := s.state = .noStream ∨ s.state = .openStream ∨ s.state = .closedStream

theorem compress_eq {L : HuffLib} {all : Bool} {s : WState} (hr : Ready s) (hb : s.lz.buf ≠ []) : compressImpl L all s = Go.chk opening (squeeze L all) s := by
  unfold compressImpl
  rw [if_neg hb]
  have hc : s.state ≠ .closingStream := by rcases hr with h | h | h <;> rw [h] <;> simp
  have : finishClosing s = .ok (true, s) := by unfold finishClosing; rw [if_neg hc]
  conv_lhs => unfold Go.chk
  rw [this]
  rfl

theorem opening_keeps {s t : WState} (hr : Ready s) (e : opening s = .ok (true, t)) : t.state = .openStream ∧ Kept s t := by
  unfold opening at e
  by_cases h : s.state = .noStream ∨ s.state = .closedStream
  · rw [if_pos h] at e; exact open_keeps e
  · rw [if_neg h] at e
    cases e
    refine ⟨?_, rfl, rfl, rfl⟩
    rcases hr with h1 | h1 | h1
    · exact absurd (Or.inl h1) h
    · exact h1
    · exact absurd (Or.inr h1) h

theorem opening_put {s t : WState} (h : Known s) (x : List UInt8) (e : opening s = .ok (true, t)) :
    ∃ u, opening (putBuf x s) = .ok (true, u) ∧ Near (putBuf x t) u := by
  unfold opening at e ⊢
  by_cases hs : s.state = .noStream ∨ s.state = .closedStream
  · rw [if_pos hs] at e
    rw [if_pos (show (putBuf x s).state = .noStream ∨ (putBuf x s).state = .closedStream from hs)]
    exact open_put h x e
  · rw [if_neg hs] at e
    cases e
    rw [if_neg (show ¬ ((putBuf x s).state = .noStream ∨ (putBuf x s).state = .closedStream) from hs)]
    exact ⟨_, rfl, rfl, HSame.of rfl⟩

theorem opening_done {s : WState} (h : s.state = .openStream) : opening s = .ok (true, s) := by
  unfold opening
  rw [if_neg (by rw [h]; simp)]

/-- the input buffer is no larger than a block -/
def Tight (s : WState) : Prop := s.lz.cap ≤ (if usesStore s.o = true then storedBlockSize else 4096)

theorem Kept.cap {s t : WState} (h : Kept s t) : t.lz.cap = s.lz.cap := by unfold LZ.cap; rw [h.opts]
theorem Kept.tight {s t : WState} (h : Kept s t) (ht : Tight s) : Tight t := by unfold Tight; rw [h.cap, h.o]; exact ht

theorem squeeze_small {L : HuffLib} {s : WState} (ht : Tight s) (h : s.lz.buf.length < s.lz.cap) : squeeze L false s = .ok (true, s) := by
  unfold squeeze
  unfold Tight at ht
  by_cases hs : usesStore s.o = true
  · rw [if_pos hs] at ht ⊢
    unfold compressStore
    simp only
    rw [if_pos ⟨by omega, trivial, h⟩]
  · rw [if_neg hs] at ht ⊢
    unfold compressSlow
    simp only
    rw [if_pos ⟨by omega, trivial, h⟩]

theorem squeeze_full {L : HuffLib} {s : WState} (h : s.lz.cap ≤ s.lz.buf.length) : squeeze L false s = squeeze L true s := by
  unfold squeeze
  split
  · unfold compressStore
    simp only
    rw [if_neg (fun x => by omega), if_neg (fun x => by cases x.2.1)]
  · unfold compressSlow
    simp only
    rw [if_neg (fun x => by omega), if_neg (fun x => by cases x.2.1)]

/-- The loop of `Write` finishes without an error. -/
def Runs (L : HuffLib) (p : List UInt8) (s t : WState) : Prop := ∃ n, writeLoop L n p s = .ok (none, t)

theorem runs_nil {L : HuffLib} {s t : WState} : Runs L [] s t ↔ t = s := by
  constructor
  · rintro ⟨n, h⟩
    cases n with
    | zero => cases h
    | succ n => unfold writeLoop at h; rw [if_pos rfl] at h; cases h; rfl
  · rintro rfl
    exact ⟨1, by unfold writeLoop; rw [if_pos rfl]⟩

/-- one iteration -/
theorem runs_step {L : HuffLib} {p : List UInt8} {s t : WState} (hp : p ≠ []) : Runs L p s t ↔
    ∃ u, compressImpl L ((s.lz.write p).1 == 0 || decide ((s.lz.write p).1 < p.length)) { s with lz := (s.lz.write p).2 } = .ok (true, u) ∧ Runs L (p.drop (s.lz.write p).1) u t := by
  constructor
  · rintro ⟨n, h⟩
    cases n with
    | zero => cases h
    | succ n =>
      unfold writeLoop at h
      rw [if_neg hp] at h
      simp only at h
      cases e : compressImpl L ((s.lz.write p).1 == 0 || decide ((s.lz.write p).1 < p.length)) { s with lz := (s.lz.write p).2 } with
      | error x => rw [e] at h; cases h
      | ok r =>
        obtain ⟨_ | _, u⟩ := r
        · rw [e] at h; cases h
        · rw [e] at h; exact ⟨u, rfl, n, h⟩
  · rintro ⟨u, e, n, h⟩
    refine ⟨n + 1, ?_⟩
    unfold writeLoop
    rw [if_neg hp]
    simp only
    rw [e]
    exact h

theorem chk_ok {f g : Go WState Bool} {s t : WState} : Go.chk f g s = .ok (true, t) ↔ ∃ u, f s = .ok (true, u) ∧ g u = .ok (true, t) := by
  unfold Go.chk
  cases f s with
  | error e => exact ⟨fun h => (by cases h), fun ⟨u, h, _⟩ => (by cases h)⟩
  | ok r =>
    obtain ⟨_ | _, u⟩ := r
    · exact ⟨fun h => (by cases h), fun ⟨u, h, _⟩ => (by cases h)⟩
    · exact ⟨fun h => ⟨u, rfl, h⟩, fun ⟨v, h, h'⟩ => (by cases h; exact h')⟩

/-- what is assumed of the state before a call -/
structure Start (s : WState) : Prop where
  ready : Ready s
  room : s.lz.buf.length < s.lz.cap
  tight : Tight s
  known : Known s
  cap : 2 ≤ s.outBits
  out : s.output = []

theorem squeeze_good (L : HuffLib) (all : Bool) : Good true isFalse nil3 nil3 (squeeze L all) :=
  Good.ite (fun s => usesStore s.o = true) (fun s s' h => by rw [h.o.store]) (good_compressStore all) (good_compressSlow L all)

theorem Good.ok {α : Type} {bad : α → Prop} {φ φ' : Fl} {f : Go WState α} (h : Good true bad φ φ' f) {s s' t : WState} {a : α} (hr : R true φ s s')
    (e : f s = .ok (a, t)) (hn : ¬ bad a) : ∃ t', f s' = .ok (a, t') ∧ R true φ' t t' := by
  have := h.sim s s' hr
  rw [e] at this
  rcases this with ⟨t', e', _, h2, _⟩ | ⟨hM, _⟩
  · exact ⟨t', e', h2 hn⟩
  · cases hM

theorem runs_sim {L : HuffLib} {p : List UInt8} {s s' t : WState} (h : R true nil3 s s') (hr : Runs L p s t) : ∃ t', Runs L p s' t' ∧ R true nil3 t t' := by
  obtain ⟨n, e⟩ := hr
  obtain ⟨t', e', h'⟩ := Good.ok (good_writeLoop L n p) h e (by simp)
  exact ⟨t', ⟨n, e'⟩, h'⟩

theorem opening_cap {s t : WState} (hc : 2 ≤ s.outBits) (ho : s.output = []) (e : opening s = .ok (true, t)) : 2 ≤ t.outBits ∧ t.output = [] := by
  unfold opening at e
  by_cases h : s.state = .noStream ∨ s.state = .closedStream
  · rw [if_pos h] at e
    obtain ⟨t', _, h'⟩ := Good.ok good_openStream (R.refl hc ho) e (by simp)
    exact ⟨h'.cap, h'.emp rfl⟩
  · rw [if_neg h] at e; cases e; exact ⟨hc, ho⟩

/-- one iteration, when there is room -/
theorem runs_gen {L : HuffLib} {p : List UInt8} {s t : WState} (hr : Ready s) (hc : s.lz.buf.length < s.lz.cap) (hp : p ≠ []) {m : Nat}
    (hm : m = min p.length (s.lz.cap - s.lz.buf.length)) : Runs L p s t ↔
    ∃ u, Go.chk opening (squeeze L (decide (m < p.length))) (putBuf (s.lz.buf ++ p.take m) s) = .ok (true, u) ∧ Runs L (p.drop m) u t := by
  rw [runs_step hp]
  have hl : 0 < p.length := List.length_pos_iff.2 hp
  have hw : s.lz.write p = (m, { s.lz with buf := s.lz.buf ++ p.take m }) := by
    unfold LZ.write
    simp only [← hm]
  rw [hw]
  have hm0 : (m == 0) = false := by simp; omega
  simp only [hm0, Bool.false_or]
  have e0 : compressImpl L (decide (m < p.length)) { s with lz := { s.lz with buf := s.lz.buf ++ p.take m } } = Go.chk opening (squeeze L (decide (m < p.length))) (putBuf (s.lz.buf ++ p.take m) s) := by
    refine compress_eq (s := putBuf (s.lz.buf ++ p.take m) s) hr ?_
    show s.lz.buf ++ p.take m ≠ []
    intro h
    have := congrArg List.length h
    rw [List.length_append, List.length_take, List.length_nil] at this
    omega
  rw [e0]

/-- writing one byte while there is room -/
theorem runs_one {L : HuffLib} {b : UInt8} {s t : WState} (h : Start s) (hr : s.lz.buf.length + 1 < s.lz.cap) :
    Runs L [b] s t ↔ opening (putBuf (s.lz.buf ++ [b]) s) = .ok (true, t) := by
  rw [runs_gen h.ready h.room (by simp) (m := 1) (by simp; omega)]
  have hk : Ready (putBuf (s.lz.buf ++ [b]) s) := h.ready
  have hs : ∀ {u}, opening (putBuf (s.lz.buf ++ [b]) s) = .ok (true, u) → squeeze L (decide (1 < [b].length)) u = .ok (true, u) := by
    intro u hu
    obtain ⟨_, k⟩ := opening_keeps hk hu
    refine squeeze_small (k.tight h.tight) ?_
    rw [k.cap, k.buf]
    show (s.lz.buf ++ [b]).length < s.lz.cap
    simpa using hr
  constructor
  · rintro ⟨u, e, ht⟩
    rw [show [b].drop 1 = [] from rfl, runs_nil] at ht
    obtain ⟨v, e1, e2⟩ := chk_ok.1 e
    have e1' : opening (putBuf (s.lz.buf ++ [b]) s) = .ok (true, v) := e1
    rw [hs e1'] at e2
    cases e2; subst ht; exact e1
  · intro e
    exact ⟨t, chk_ok.2 ⟨t, e, hs e⟩, runs_nil.2 rfl⟩

/-- writing the last byte for which there is room -/
theorem runs_last {L : HuffLib} {b : UInt8} {s t : WState} {p : List UInt8} (h : Start s) (hr : s.lz.buf.length + 1 = s.lz.cap) :
    Runs L (b :: p) s t ↔ ∃ u, Go.chk opening (squeeze L true) (putBuf (s.lz.buf ++ [b]) s) = .ok (true, u) ∧ Runs L p u t := by
  rw [runs_gen h.ready h.room (by simp) (m := 1) (by simp; omega)]
  have hk : Ready (putBuf (s.lz.buf ++ [b]) s) := h.ready
  have e0 : ∀ all, Go.chk opening (squeeze L all) (putBuf (s.lz.buf ++ [b]) s) = Go.chk opening (squeeze L true) (putBuf (s.lz.buf ++ [b]) s) := by
    intro all
    cases all with
    | true => rfl
    | false =>
      unfold Go.chk
      cases e1 : opening (putBuf (s.lz.buf ++ [b]) s) with
      | error e => rfl
      | ok r =>
        obtain ⟨_ | _, u⟩ := r
        · rfl
        · obtain ⟨_, k⟩ := opening_keeps hk e1
          refine squeeze_full ?_
          rw [k.cap, k.buf]
          show s.lz.cap ≤ (s.lz.buf ++ [b]).length
          simp; omega
  rw [show (b :: p).take 1 = [b] from rfl, e0]
  rfl

/-- writing several bytes while there is room, given what a single byte does -/
theorem runs_more {L : HuffLib} {b : UInt8} {s u : WState} {p : List UInt8} (h : Start s) (hr : s.lz.buf.length + 1 < s.lz.cap) (hp : p ≠ [])
    (e : opening (putBuf (s.lz.buf ++ [b]) s) = .ok (true, u)) : ∃ v all x q, R true nil3 v (putBuf x u) ∧ R true nil3 (putBuf x u) v ∧
      (∀ t, Runs L (b :: p) s t ↔ ∃ w, squeeze L all v = .ok (true, w) ∧ Runs L q w t) ∧
      (∀ t, Runs L p u t ↔ ∃ w, squeeze L all (putBuf x u) = .ok (true, w) ∧ Runs L q w t) := by
  have hk : Ready (putBuf (s.lz.buf ++ [b]) s) := h.ready
  obtain ⟨hst, k⟩ := opening_keeps hk e
  have hl : 0 < p.length := List.length_pos_iff.2 hp
  have hb : u.lz.buf = s.lz.buf ++ [b] := k.buf
  have hcap : u.lz.cap = s.lz.cap := k.cap
  obtain ⟨m, hm⟩ : ∃ m, m = min p.length (u.lz.cap - u.lz.buf.length) := ⟨_, rfl⟩
  have hm1 : m + 1 = min (b :: p).length (s.lz.cap - s.lz.buf.length) := by
    rw [hcap, hb] at hm; simp at hm ⊢; omega
  have hx : s.lz.buf ++ (b :: p).take (m + 1) = u.lz.buf ++ p.take m := by rw [hb]; simp
  have hkn : Known (putBuf (s.lz.buf ++ [b]) s) := h.known
  obtain ⟨v, ev, near⟩ := opening_put hkn (u.lz.buf ++ p.take m) e
  have ev' : opening (putBuf (u.lz.buf ++ p.take m) s) = .ok (true, v) := ev
  obtain ⟨c1, c2⟩ := opening_cap (s := putBuf (s.lz.buf ++ [b]) s) h.cap h.out e
  obtain ⟨r1, r2⟩ := near.rel c1 c2
  refine ⟨v, decide (m < p.length), u.lz.buf ++ p.take m, p.drop m, r2, r1, fun t => ?_, fun t => ?_⟩
  · rw [runs_gen h.ready h.room (by simp) hm1, hx]
    have hd : decide (m + 1 < (b :: p).length) = decide (m < p.length) := by simp
    rw [hd, show (b :: p).drop (m + 1) = p.drop m from rfl]
    constructor
    · rintro ⟨w, e1, e2⟩
      obtain ⟨v', e3, e4⟩ := chk_ok.1 e1
      rw [ev'] at e3; cases e3
      exact ⟨w, e4, e2⟩
    · rintro ⟨w, e1, e2⟩
      exact ⟨w, chk_ok.2 ⟨v, ev', e1⟩, e2⟩
  · rw [runs_gen (Or.inr (Or.inl hst)) (by rw [hcap, hb]; simpa using hr) hp hm]
    have ho : opening (putBuf (u.lz.buf ++ p.take m) u) = .ok (true, putBuf (u.lz.buf ++ p.take m) u) := opening_done hst
    constructor
    · rintro ⟨w, e1, e2⟩
      obtain ⟨v', e3, e4⟩ := chk_ok.1 e1
      rw [ho] at e3; cases e3
      exact ⟨w, e4, e2⟩
    · rintro ⟨w, e1, e2⟩
      exact ⟨w, chk_ok.2 ⟨_, ho, e1⟩, e2⟩

/-- the same, when the result is known to be good -/
theorem runs_cap {L : HuffLib} {p : List UInt8} {s t : WState} (h : R true nil3 s s) (e : Runs L p s t) : R true nil3 t t := by
  obtain ⟨t', e', h'⟩ := runs_sim h e
  exact R.refl h'.cap (h'.emp rfl)

/-- if a stream can be begun with one content of the input buffer, it can be begun with another -/
theorem opening_any {s t : WState} {x : List UInt8} (y : List UInt8) (h : Known s) (e : opening (putBuf x s) = .ok (true, t)) : ∃ u, opening (putBuf y s) = .ok (true, u) := by
  obtain ⟨u, hu, _⟩ := opening_put (s := putBuf x s) h y e
  exact ⟨u, hu⟩

/-- One more division makes no difference. -/
theorem runs_split {L : HuffLib} {b : UInt8} {s t : WState} {p : List UInt8} (h : Start s) (e : Runs L (b :: p) s t) :
    ∃ u t', Runs L [b] s u ∧ Runs L p u t' ∧ R true nil3 t t' := by
  have hR := R.refl h.cap h.out
  by_cases hp : p = []
  · subst hp
    exact ⟨t, t, e, runs_nil.2 rfl, runs_cap hR e⟩
  by_cases hr : s.lz.buf.length + 1 < s.lz.cap
  · have h1 := (runs_gen h.ready h.room (by simp) rfl).1 e
    obtain ⟨w, h2, h3⟩ := h1
    obtain ⟨v, h4, h5⟩ := chk_ok.1 h2
    obtain ⟨u, hu⟩ := opening_any (s.lz.buf ++ [b]) h.known h4
    obtain ⟨v, all, x, q, r1, r2, i1, i2⟩ := runs_more (L := L) h hr hp hu
    obtain ⟨w, e1, e2⟩ := (i1 t).1 e
    obtain ⟨w', e1', r3⟩ := Good.ok (squeeze_good L all) r1 e1 (by simp)
    obtain ⟨t', e2', r4⟩ := runs_sim r3 e2
    exact ⟨u, t', (runs_one h hr).2 hu, (i2 t').2 ⟨w', e1', e2'⟩, r4⟩
  · have hr' : s.lz.buf.length + 1 = s.lz.cap := by have := h.room; omega
    obtain ⟨u, e1, e2⟩ := (runs_last h hr').1 e
    exact ⟨u, t, (runs_last h hr').2 ⟨u, e1, runs_nil.2 rfl⟩, e2, runs_cap hR e⟩

/-- One division less makes no difference. -/
theorem runs_join {L : HuffLib} {b : UInt8} {s u t : WState} {p : List UInt8} (h : Start s) (e1 : Runs L [b] s u) (e2 : Runs L p u t) :
    ∃ t', Runs L (b :: p) s t' ∧ R true nil3 t t' := by
  have hR := R.refl h.cap h.out
  by_cases hp : p = []
  · subst hp
    rw [runs_nil] at e2
    subst e2
    exact ⟨t, e1, runs_cap hR e1⟩
  by_cases hr : s.lz.buf.length + 1 < s.lz.cap
  · have hu := (runs_one h hr).1 e1
    obtain ⟨v, all, x, q, r1, r2, i1, i2⟩ := runs_more (L := L) h hr hp hu
    obtain ⟨w, e3, e4⟩ := (i2 t).1 e2
    obtain ⟨w', e3', r3⟩ := Good.ok (squeeze_good L all) r2 e3 (by simp)
    obtain ⟨t', e4', r4⟩ := runs_sim r3 e4
    exact ⟨t', (i1 t').2 ⟨w', e3', e4'⟩, r4⟩
  · have hr' : s.lz.buf.length + 1 = s.lz.cap := by have := h.room; omega
    obtain ⟨v, e3, e4⟩ := (runs_last h hr').1 e1
    rw [runs_nil] at e4
    subst e4
    exact ⟨t, (runs_last h hr').2 ⟨u, e3, e2⟩, runs_cap (runs_cap hR e1) e2⟩

end Flate.Proof.Div
