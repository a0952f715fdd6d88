/-
The Writer's compression step.
-/
import Verif.Proof.WBlock
import Verif.Spec.Container

namespace Flate.Proof
open Flate.Spec Flate.Model

/-! ### the match finder -/

/-- the LZ77 buffer is configured so that matches can be encoded -/
structure LZOK (z : LZ) : Prop where
  maxLen : z.opts.maxLen ≤ 258
  minLen : 3 ≤ z.opts.minLen ∨ z.opts.maxLen = 0
  maxDist : z.maxDist ≤ 32768

/-- what `Advance` does on a non-empty buffer -/
theorem advance_spec {z : LZ} (hz : LZOK z) (hb : z.buf ≠ []) :
    ∃ p m z', z.advance = (p, m, z') ∧ p ++ z'.buf = z.buf ∧ p ≠ [] ∧ z'.hist = z.hist ++ p ∧ z'.opts = z.opts ∧
      z'.propose = z.propose ∧
      (m = none → ∃ ch, p = [ch]) ∧
      (∀ d l, m = some (d, l) → 1 ≤ d ∧ d ≤ z.maxDist ∧ d ≤ z.hist.length ∧ 3 ≤ l ∧ l ≤ 258 ∧
        z.opts.maxLen ≠ 0 ∧ lzCopy z.hist d l = z.hist ++ p ∧ ∃ n, z.propose n = some (d, l)) := by
  obtain ⟨x, xs, hx⟩ : ∃ x xs, z.buf = x :: xs := by
    cases h : z.buf with
    | nil => exact absurd h hb
    | cons x xs => exact ⟨x, xs, rfl⟩
  have lit : ∀ m, m = none → ∃ p m' z', (z.buf.take 1, m, ({ z with hist := z.hist ++ z.buf.take 1, buf := z.buf.drop 1, step := z.step + 1 } : LZ)) = (p, m', z') ∧
      p ++ z'.buf = z.buf ∧ p ≠ [] ∧ z'.hist = z.hist ++ p ∧ z'.opts = z.opts ∧
      z'.propose = z.propose ∧
      (m' = none → ∃ ch, p = [ch]) ∧
      (∀ d l, m' = some (d, l) → 1 ≤ d ∧ d ≤ z.maxDist ∧ d ≤ z.hist.length ∧ 3 ≤ l ∧ l ≤ 258 ∧
        z.opts.maxLen ≠ 0 ∧ lzCopy z.hist d l = z.hist ++ p ∧ ∃ n, z.propose n = some (d, l)) := by
    intro m hm
    refine ⟨_, _, _, rfl, ?_, ?_, rfl, rfl, rfl, fun _ => ⟨x, by simp [hx]⟩, by simp [hm]⟩
    · exact List.take_append_drop 1 z.buf
    · simp [hx]
  unfold LZ.advance
  cases hp : z.propose z.step with
  | none => exact lit none rfl
  | some dl =>
    obtain ⟨d, l⟩ := dl
    by_cases hv : z.validMatch d l = true
    · simp only [hv, if_true]
      unfold LZ.validMatch at hv
      simp only [Bool.and_eq_true, decide_eq_true_eq, beq_iff_eq] at hv
      obtain ⟨⟨v1, v2, v3, v4, v5, v6, v7⟩, v8⟩ := hv
      refine ⟨_, _, _, rfl, by simp, ?_, rfl, rfl, rfl, by simp, ?_⟩
      · intro hc
        have := congrArg List.length hc
        rw [List.length_take, List.length_nil] at this
        omega
      · intro d' l' e
        cases e
        have := hz.maxLen
        have := hz.minLen
        exact ⟨v1, v2, v3, by omega, by omega, by omega, v8, _, hp⟩
    · simp only [hv]
      exact lit none rfl

theorem lzCopy_prefix (pre h : List UInt8) (dist n : Nat) (hd : dist ≤ h.length) (h1 : 1 ≤ dist) :
    lzCopy (pre ++ h) dist n = pre ++ lzCopy h dist n := by
  induction n generalizing h with
  | zero => rfl
  | succ n ih =>
    simp only [lzCopy]
    have : (pre ++ h).getD ((pre ++ h).length - dist) 0 = h.getD (h.length - dist) 0 := by
      simp only [List.getD_eq_getElem?_getD, List.length_append]
      rw [List.getElem?_append_right (by omega)]
      congr 2; omega
    rw [this, List.append_assoc, ih _ (by simp; omega)]

/-! ### consumption of input -/

/-- `d` has been taken from the input buffer -/
structure Eat (s t : WState) (d : List UInt8) : Prop where
  eq : t = { s with
    adler := t.adler
    crcIn := t.crcIn
    lz := t.lz
    inTotal := s.inTotal + d.length
    inStream := s.inStream + d.length }
  adler : ∀ x, AdlerIs s.adler x → AdlerIs t.adler (x ++ d)
  crc : ∀ x, CrcIs s.crcIn x → CrcIs t.crcIn (x ++ d)
  opts : t.lz.opts = s.lz.opts
  propose : t.lz.propose = s.lz.propose
  hist : t.lz.hist = s.lz.hist ++ d
  buf : s.lz.buf = d ++ t.lz.buf

theorem Eat.refl (s : WState) : Eat s s [] :=
  ⟨rfl, fun x h => by simpa using h, fun x h => by simpa using h, rfl, rfl, by simp, by simp⟩

theorem Eat.trans {s t u : WState} {a b : List UInt8} (h : Eat s t a) (k : Eat t u b) : Eat s u (a ++ b) := by
  refine ⟨?_, ?_, ?_, k.opts.trans h.opts, k.propose.trans h.propose, ?_, ?_⟩
  · have e1 := h.eq
    have e2 := k.eq
    rw [e2]
    rw [e1]
    simp only [List.length_append, Nat.add_assoc]
  · intro x hx; rw [← List.append_assoc]; exact k.adler _ (h.adler x hx)
  · intro x hx; rw [← List.append_assoc]; exact k.crc _ (h.crc x hx)
  · rw [k.hist, h.hist, List.append_assoc]
  · rw [h.buf, k.buf, List.append_assoc]

/-- tokens and items correspond -/
inductive Toks : List Token → List Item → Prop
  | nil : Toks [] []
  | cons {t : Token} {i : Item} {ts : List Token} {is : List Item} : TokIs t i → Toks ts is → Toks (t :: ts) (i :: is)

theorem toks_stop {ts : List Token} {is : List Item} (h : Toks ts is) : ToksAre (ts ++ [makeStopToken]) is := by
  induction h with
  | nil => exact .stop
  | cons ht _ ih => exact .cons ht ih

theorem maxDist_congr {z z' : LZ} (h : z'.opts = z.opts) : z'.maxDist = z.maxDist := by
  unfold LZ.maxDist; rw [h]

theorem LZOK.congr {z z' : LZ} (hz : LZOK z) (h : z'.opts = z.opts) : LZOK z' :=
  ⟨by rw [h]; exact hz.maxLen, by rw [h]; exact hz.minLen, by rw [maxDist_congr h]; exact hz.maxDist⟩

theorem inputBufferAdvance_spec {s : WState} (hz : LZOK s.lz) (hb : s.lz.buf ≠ []) :
    ∃ p m t, inputBufferAdvance s = .ok ((p, m), t) ∧ Eat s t p ∧ p ≠ [] ∧
      (m = none → ∃ ch, p = [ch]) ∧
      (∀ d l, m = some (d, l) → 1 ≤ d ∧ d ≤ s.lz.maxDist ∧ d ≤ s.lz.hist.length ∧ 3 ≤ l ∧ l ≤ 258 ∧
        s.lz.opts.maxLen ≠ 0 ∧ lzCopy s.lz.hist d l = s.lz.hist ++ p ∧ ∃ n, s.lz.propose n = some (d, l)) := by
  obtain ⟨p, m, z', e, h1, h2, h3, h4, h5, h6, h7⟩ := advance_spec hz hb
  refine ⟨p, m, account p { s with lz := z' }, ?_, ⟨rfl, ?_, ?_, h4, h5, h3, h1.symm⟩, h2, h6, h7⟩
  · unfold inputBufferAdvance; rw [e]
  · intro x hx; exact adler_update hx p
  · intro x hx; exact crc_update hx p

theorem tokenLoop_spec : ∀ (fuel : Nat) (s : WState) (bb : List UInt8) (toks : List Token),
    s.lz.buf.length < fuel → LZOK s.lz →
    ∃ ts is t, tokenLoop fuel s.lz.buf.length bb toks s = .ok ((bb ++ s.lz.buf, toks ++ ts), t) ∧
      Eat s t s.lz.buf ∧ Toks ts is ∧
      (∀ h, s.lz.hist <:+ h → expand s.lz.maxDist h is = some (h ++ s.lz.buf)) ∧
      ((s.lz.opts.maxLen = 0 ∨ ∀ n, s.lz.propose n = none) → ∀ i ∈ is, ∃ b, i = .lit b) := by
  intro fuel
  induction fuel with
  | zero => intro s _ _ h; omega
  | succ fuel ih =>
    intro s bb toks hf hz
    by_cases hb : s.lz.buf = []
    · refine ⟨[], [], s, ?_, ?_, .nil, ?_, by simp⟩
      · unfold tokenLoop; simp [hb]
      · rw [hb]; exact Eat.refl s
      · intro h _; simp [expand, hb]
    · obtain ⟨p, m, s1, e, hE, hp, hm0, hm1⟩ := inputBufferAdvance_spec hz hb
      have hl : s.lz.buf.length ≠ 0 := by simpa using hb
      have hpl : 0 < p.length := List.length_pos_iff.2 hp
      have hbuf : s.lz.buf = p ++ s1.lz.buf := hE.buf
      have hlen : s.lz.buf.length - p.length = s1.lz.buf.length := by rw [hbuf]; simp
      have hf1 : s1.lz.buf.length < fuel := by
        have := congrArg List.length hbuf; simp at this; omega
      unfold tokenLoop
      rw [if_neg hl]
      cases m with
      | none =>
        obtain ⟨ch, rfl⟩ := hm0 rfl
        obtain ⟨ts, is, t, e', hE', hT, hx, hlit⟩ := ih s1 (bb ++ [ch]) (toks ++ [makeLiteralToken ch]) hf1
          (hz.congr hE.opts)
        refine ⟨makeLiteralToken ch :: ts, .lit ch :: is, t, ?_, ?_, .cons (.lit ch) hT, ?_, ?_⟩
        · rw [Go.bind_ok e]
          dsimp only
          rw [hlen, e', hbuf]
          simp
        · rw [hbuf]; exact hE.trans hE'
        · intro h hh
          simp only [expand]
          have hsuf : s1.lz.hist <:+ h ++ [ch] := by
            rw [hE.hist]; obtain ⟨q, rfl⟩ := hh; exact ⟨q, by simp⟩
          have := hx (h ++ [ch]) hsuf
          rw [maxDist_congr hE.opts] at this
          rw [this, hbuf]; simp
        · intro h0 i hi
          rcases List.mem_cons.1 hi with rfl | hi
          · exact ⟨ch, rfl⟩
          · exact hlit (by rw [hE.opts, hE.propose]; exact h0) i hi
      | some dl =>
        obtain ⟨d, l⟩ := dl
        obtain ⟨m1, m2, m3, m4, m5, m6, m7, m8⟩ := hm1 d l rfl
        have hd : d ≤ 32768 := Nat.le_trans m2 hz.maxDist
        obtain ⟨ts, is, t, e', hE', hT, hx, hlit⟩ := ih s1 (bb ++ p) (toks ++ [⟨l, d⟩]) hf1 (hz.congr hE.opts)
        obtain ⟨li, lx, di, dx, ht, hrl, hrd⟩ := tokIs_copy m4 m5 m1 hd
        refine ⟨⟨l, d⟩ :: ts, .ref li lx di dx :: is, t, ?_, ?_, .cons ht hT, ?_, ?_⟩
        · rw [Go.bind_ok e]
          dsimp only
          have a1 : (Go.assert (decide (l ≥ 3)) "length < 3" : Go WState Unit) s1 = .ok ((), s1) := by
            rw [decide_eq_true m4]; rfl
          have a2 : (Go.assert (decide (d ≥ 1)) "distance < 1" : Go WState Unit) s1 = .ok ((), s1) := by
            rw [decide_eq_true m1]; rfl
          rw [Go.bind_ok a1, Go.bind_ok a2]
          have a3 : makeCopyToken (l % 65536) (d % 65536) = .ok ⟨l, d⟩ := by
            rw [Nat.mod_eq_of_lt (by omega), Nat.mod_eq_of_lt (by omega)]
            unfold makeCopyToken passert
            rw [decide_eq_true (show l ≥ 3 from m4), decide_eq_true m5, decide_eq_true (show d ≥ 1 from m1), decide_eq_true hd]
            rfl
          rw [a3]
          simp only [lift_ok, Go.pure_bind]
          rw [hlen, e', hbuf]
          simp
        · rw [hbuf]; exact hE.trans hE'
        · intro h hh
          simp only [expand]
          obtain ⟨q, rfl⟩ := hh
          rw [hrd, hrl, if_pos ⟨m2, by simp; omega⟩, lzCopy_prefix q _ d l m3 m1, m7]
          have hsuf : s1.lz.hist <:+ q ++ (s.lz.hist ++ p) := by
            rw [hE.hist]; exact ⟨q, rfl⟩
          have := hx _ hsuf
          rw [maxDist_congr hE.opts] at this
          rw [this, hbuf]; simp
        · intro h0
          rcases h0 with h0 | h0
          · exact absurd h0 m6
          · obtain ⟨n, m8⟩ := m8; rw [h0] at m8; cases m8

/-! ### stream headers -/

/-- the gzip header which represents `h` -/
def gzHd (o : Options) (h : Header) : GzHeader where
  text := decide (h.dataType = .text)
  hcrc := true
  mtime := match h.lastModified with
    | none => 0
    | some t => (t % 2 ^ 32).toNat
  xfl := if o.strategy = .huffmanOnly ∨ o.strategy = .huffmanRLE ∨ o.clevel < 2 then 0x04
    else if o.clevel = 9 then 0x02 else 0x00
  os := (osTypeEncode h.osType).getD 0xff
  extra := if h.extra = [] then none else some (extraAsBytes h.extra)
  name := if h.fileName = [] then none else some h.fileName
  comment := if h.comment = [] then none else some h.comment

/-- the bytes of a stream header -/
def headerBytes (o : Options) (h : Header) : List UInt8 :=
  match o.format with
  | .raw => []
  | .zlib => zlibHeaderBytes o
  | .gzip => (gzHd o h).bytes
  | .default => []

/-! ### relation between states -/

/-- stream-relative counters are offsets from the beginning of the stream -/
def Offs (s : WState) (a b : Nat) : Prop := s.inTotal = a + s.inStream ∧ s.outTotal = b + s.outStream

/-- the same for a log of events; offsets change exactly at `streamBegin` -/
def StrLog : Nat → Nat → List Sent → Nat → Nat → Prop
  | a, b, [], a', b' => a' = a ∧ b' = b
  | a, b, e :: es, a', b' =>
    if e.ev.kind = .streamBegin then
      e.ev.inStream = 0 ∧ e.ev.outStream = 0 ∧ StrLog e.ev.inTotal e.ev.outTotal es a' b'
    else e.ev.inTotal = a + e.ev.inStream ∧ e.ev.outTotal = b + e.ev.outStream ∧ StrLog a b es a' b'

theorem StrLog.append {a b a' b' a'' b'' : Nat} {es es' : List Sent} (h : StrLog a b es a' b')
    (k : StrLog a' b' es' a'' b'') : StrLog a b (es ++ es') a'' b'' := by
  induction es generalizing a b with
  | nil => obtain ⟨rfl, rfl⟩ := h; exact k
  | cons e es ih =>
    simp only [List.cons_append, StrLog] at h ⊢
    split
    · rw [if_pos (by assumption)] at h; exact ⟨h.1, h.2.1, ih h.2.2⟩
    · rw [if_neg (by assumption)] at h; exact ⟨h.1, h.2.1, ih h.2.2⟩

/-- the number of streams carried by events is the number of `streamBegin` events up to and including that one -/
def NumLog : Nat → List Sent → Nat → Prop
  | n, [], n' => n' = n
  | n, e :: es, n' => if e.ev.kind = .streamBegin then e.ev.numStreams = n + 1 ∧ NumLog (n + 1) es n'
    else e.ev.numStreams = n ∧ NumLog n es n'

theorem NumLog.append {n n' n'' : Nat} {es es' : List Sent} (h : NumLog n es n') (k : NumLog n' es' n'') :
    NumLog n (es ++ es') n'' := by
  induction es generalizing n with
  | nil => have h : n' = n := h; subst h; exact k
  | cons e es ih =>
    simp only [List.cons_append, NumLog] at h ⊢
    split
    · rw [if_pos (by assumption)] at h; exact ⟨h.1, ih h.2⟩
    · rw [if_neg (by assumption)] at h; exact ⟨h.1, ih h.2⟩

theorem numLog_of {n : Nat} {es : List Sent} (h0 : ∀ p ∈ es, p.ev.kind ≠ .streamBegin) (h : ∀ p ∈ es, p.ev.numStreams = n) :
    NumLog n es n := by
  induction es with
  | nil => rfl
  | cons e es ih =>
    simp only [NumLog, if_neg (h0 e (by simp))]
    exact ⟨h e (by simp), ih (fun p hp => h0 p (by simp [hp])) fun p hp => h p (by simp [hp])⟩

/-- `A` is everything accepted as input: what has been consumed, then what waits.  While a stream is open, its running checksums are
those of the last `inStream` bytes consumed. -/
def Fed (s : WState) (A : List UInt8) : Prop :=
  ∃ D, A = D ++ s.lz.buf ∧ D.length = s.inTotal ∧
    (s.state = .openStream ∨ s.state = .closingStream → s.inStream ≤ s.inTotal ∧
      AdlerIs s.adler (D.drop (D.length - s.inStream)) ∧ CrcIs s.crcIn (D.drop (D.length - s.inStream)))

/-- the part of `A` which an event's input counters delimit -/
def inPart (A : List UInt8) (e : Event) : List UInt8 := (A.take e.inTotal).drop (e.inTotal - e.inStream)

/-- the checksums carried by a StreamEnd event are those of the stream's data -/
def Foot (A : List UInt8) (e : Event) : Prop :=
  ∀ a c, e.kind = .streamEnd a c → e.inStream ≤ e.inTotal ∧ e.inTotal ≤ A.length ∧
    a.toNat = adler32 (inPart A e) ∧ c = crc32 (inPart A e)

theorem Foot.append {A : List UInt8} {e : Event} (h : Foot A e) (x : List UInt8) : Foot (A ++ x) e := by
  intro a c k
  obtain ⟨h1, h2, h3, h4⟩ := h a c k
  have : inPart (A ++ x) e = inPart A e := by
    unfold inPart; rw [List.take_append_of_le_length h2]
  rw [this]
  exact ⟨h1, by rw [List.length_append]; omega, h3, h4⟩

/-- the header carried by a StreamHeader event is the one whose bytes have just been delivered -/
def Head (hb : Header → List UInt8) (out : List UInt8) (p : Sent) : Prop :=
  ∀ h, p.ev.kind = .streamHeader h → headerOK h = true ∧ h.osType ≠ 0 ∧ p.ev.outStream = (hb h).length ∧
    ∃ pre, pre ++ hb h <+: out ∧ (pre ++ hb h).length = p.delivered

theorem Head.mono {hb : Header → List UInt8} {out out' : List UInt8} {p : Sent} (h : Head hb out p) (k : out <+: out') :
    Head hb out' p := by
  intro x hx
  obtain ⟨h1, h2, h3, pre, h4, h5⟩ := h x hx
  exact ⟨h1, h2, h3, pre, h4.trans k, h5⟩

/-- events other than those at the beginning and the end of a stream -/
def MidEv (k : EvKind) : Prop := k ≠ .streamBegin ∧ (∀ a c, k ≠ .streamEnd a c) ∧ ∀ h, k ≠ .streamHeader h

theorem Fed.other {s : WState} {A : List UInt8} (h : Fed s A) {x : WS} (hx : x ≠ .openStream) (hy : x ≠ .closingStream) (e : Option Err) :
    Fed { s with state := x, err := e } A := by
  obtain ⟨D, h1, h2, _⟩ := h
  exact ⟨D, h1, h2, fun k => (by rcases k with k | k; exacts [absurd k hx, absurd k hy])⟩

theorem Fed.closing {s : WState} {A : List UInt8} (h : Fed s A) (hs : s.state = .openStream) {x : List UInt8} :
    Fed { s with lz := { s.lz with hist := x }, state := .closingStream } A := by
  obtain ⟨D, h1, h2, h3⟩ := h
  exact ⟨D, h1, h2, fun _ => h3 (Or.inl hs)⟩

/-- What is true after any Writer operation (other than accepting input and `Reset`). -/
structure Flow (s t : WState) (es : List Sent) : Prop where
  W : t.W = s.W
  o : t.o = s.o
  outBits : t.outBits = s.outBits
  lzopts : t.lz.opts = s.lz.opts
  propose : t.lz.propose = s.lz.propose
  wfail : t.sink.wfail = s.sink.wfail
  ffail : t.sink.ffail = s.sink.ffail
  sfail : t.sink.sfail = s.sink.sfail
  hasFlush : t.sink.hasFlush = s.sink.hasFlush
  hasSync : t.sink.hasSync = s.sink.hasSync
  out : s.sink.out <+: t.sink.out
  errs : s.sink.errs <+: t.sink.errs
  pfx : pushed s <+: pushed t
  tot : t.outTotal + (pushed s).length = s.outTotal + (pushed t).length
  tin : t.inTotal + t.lz.buf.length = s.inTotal + s.lz.buf.length
  ev : t.events = s.events ++ es
  evOut : ∀ p ∈ es, p.ev.outTotal + (pushed s).length = s.outTotal + p.delivered
  evIn : ∀ p ∈ es, p.ev.inTotal + p.buffered = s.inTotal + s.lz.buf.length
  evFmt : ∀ p ∈ es, p.ev.format = s.o.format
  monoOut : MonoLog Event.outTotal s.outTotal es t.outTotal
  monoIn : MonoLog Event.inTotal s.inTotal es t.inTotal
  monoNum : NumLog s.numStreams es t.numStreams
  offs : ∀ a b, Offs s a b → ∃ a' b', StrLog a b es a' b' ∧ Offs t a' b'
  feed : ∀ A, Fed s A → Fed t A ∧ ∀ p ∈ es, Foot A p.ev
  heads : ∀ p ∈ es, Head (headerBytes s.o) t.sink.out p

theorem Flow.refl (s : WState) : Flow s s [] := by
  refine ⟨rfl, rfl, rfl, rfl, rfl, rfl, rfl, rfl, rfl, rfl, List.prefix_refl _, List.prefix_refl _, List.prefix_refl _, rfl, rfl,
    by simp, by simp, by simp, by simp, Nat.le_refl _, Nat.le_refl _, rfl, ?_, fun A h => ⟨h, by simp⟩, by simp⟩
  intro a b h; exact ⟨a, b, ⟨rfl, rfl⟩, h⟩

theorem Flow.trans {s t u : WState} {es es' : List Sent} (h : Flow s t es) (k : Flow t u es') :
    Flow s u (es ++ es') := by
  refine ⟨k.W.trans h.W, k.o.trans h.o, k.outBits.trans h.outBits, k.lzopts.trans h.lzopts,
    k.propose.trans h.propose, k.wfail.trans h.wfail, k.ffail.trans h.ffail, k.sfail.trans h.sfail,
    k.hasFlush.trans h.hasFlush, k.hasSync.trans h.hasSync,
    h.out.trans k.out, h.errs.trans k.errs, h.pfx.trans k.pfx, ?_, ?_, ?_, ?_, ?_, ?_, h.monoOut.append k.monoOut,
    h.monoIn.append k.monoIn, h.monoNum.append k.monoNum, ?_, ?_, ?_⟩
  · have := h.tot; have := k.tot; omega
  · have := h.tin; have := k.tin; omega
  · rw [k.ev, h.ev, List.append_assoc]
  · intro p hp
    rcases List.mem_append.1 hp with hp | hp
    · exact h.evOut p hp
    · have := k.evOut p hp; have := h.tot; omega
  · intro p hp
    rcases List.mem_append.1 hp with hp | hp
    · exact h.evIn p hp
    · have := k.evIn p hp; have := h.tin; omega
  · intro p hp
    rcases List.mem_append.1 hp with hp | hp
    · exact h.evFmt p hp
    · rw [k.evFmt p hp, h.o]
  · intro a b hab
    obtain ⟨a', b', h1, h2⟩ := h.offs a b hab
    obtain ⟨a'', b'', h3, h4⟩ := k.offs a' b' h2
    exact ⟨a'', b'', h1.append h3, h4⟩
  · intro A hA
    obtain ⟨h1, h2⟩ := h.feed A hA
    obtain ⟨h3, h4⟩ := k.feed A h1
    refine ⟨h3, fun p hp => ?_⟩
    rcases List.mem_append.1 hp with hp | hp
    · exact h2 p hp
    · exact h4 p hp
  · intro p hp
    rcases List.mem_append.1 hp with hp | hp
    · exact (h.heads p hp).mono k.out
    · have := k.heads p hp; rw [h.o] at this; exact this

theorem monoLog_const {f : Event → Nat} {a : Nat} {es : List Sent} (h : ∀ p ∈ es, f p.ev = a) : MonoLog f a es a := by
  induction es with
  | nil => exact Nat.le_refl _
  | cons e es ih =>
    have h1 := h e (by simp)
    refine ⟨by omega, ?_⟩
    rw [h1]
    exact ih fun p hp => h p (by simp [hp])

theorem strLog_of {a b : Nat} {es : List Sent} (h0 : ∀ p ∈ es, p.ev.kind ≠ .streamBegin)
    (h1 : ∀ p ∈ es, p.ev.inTotal = a + p.ev.inStream) (h2 : ∀ p ∈ es, p.ev.outTotal = b + p.ev.outStream) :
    StrLog a b es a b := by
  induction es with
  | nil => exact ⟨rfl, rfl⟩
  | cons e es ih =>
    simp only [StrLog, if_neg (h0 e (by simp))]
    exact ⟨h1 e (by simp), h2 e (by simp), ih (fun p hp => h0 p (by simp [hp])) (fun p hp => h1 p (by simp [hp]))
      fun p hp => h2 p (by simp [hp])⟩

theorem Step.flow {s t : WState} {es : List Sent} (h : Step s t es) (hk : ∀ k ∈ kinds es, MidEv k) :
    Flow s t es := by
  have c := h.core
  refine ⟨c.W, c.o, c.outBits, by rw [c.lz], by rw [c.lz], c.wfail, c.ffail, c.sfail, c.hasFlush, c.hasSync,
    h.out, h.errs, h.pfx, h.tot, by rw [c.lz, c.inTotal], h.ev, fun p hp => (h.evOut p hp).1, ?_, ?_, h.mono, ?_, ?_, ?_, ?_, ?_⟩
  · intro p hp
    obtain ⟨a, _, _, _, b⟩ := h.evIn p hp
    rw [a, b]
  · intro p hp; exact (h.evIn p hp).2.2.2.1
  · rw [c.inTotal]; exact monoLog_const fun p hp => (h.evIn p hp).1
  · rw [c.numStreams]
    exact numLog_of (fun p hp => (hk _ (List.mem_map.2 ⟨p, hp, rfl⟩)).1) fun p hp => (h.evIn p hp).2.2.1
  · intro a b hab
    refine ⟨a, b, strLog_of ?_ ?_ ?_, ?_⟩
    · intro p hp; exact (hk _ (List.mem_map.2 ⟨p, hp, rfl⟩)).1
    · intro p hp
      obtain ⟨x, y, _⟩ := h.evIn p hp
      rw [x, y]; exact hab.1
    · intro p hp
      obtain ⟨x, y⟩ := h.evOut p hp
      have := hab.2
      omega
    · have := hab.1; have := hab.2; have := h.tot; have := h.str
      exact ⟨by rw [c.inTotal, c.inStream]; exact hab.1, by omega⟩
  · rintro A ⟨D, h1, h2, h3⟩
    refine ⟨⟨D, by rw [c.lz]; exact h1, by rw [c.inTotal]; exact h2, ?_⟩, ?_⟩
    · intro hs
      rw [c.inTotal, c.inStream, c.adler, c.crcIn]
      apply h3
      rcases h.state with e | e
      · rw [← e]; exact hs
      · rw [e] at hs; rcases hs with hs | hs <;> cases hs
    · intro p hp a x e
      exact absurd e ((hk _ (List.mem_map.2 ⟨p, hp, rfl⟩)).2.1 a x)
  · intro p hp x e
    exact absurd e ((hk _ (List.mem_map.2 ⟨p, hp, rfl⟩)).2.2 x)

theorem Eat.flow {s t : WState} {d : List UInt8} (h : Eat s t d) : Flow s t [] := by
  have e := h.eq
  have hp : pushed t = pushed s := by rw [e]; rfl
  refine ⟨by rw [e], by rw [e], by rw [e], h.opts, h.propose, by rw [e], by rw [e], by rw [e], by rw [e], by rw [e],
    by rw [e]; exact List.prefix_refl _, by rw [e]; exact List.prefix_refl _, by rw [hp]; exact List.prefix_refl _, by rw [hp, e], ?_, by rw [e]; simp,
    by simp, by simp, by simp, by rw [e]; exact Nat.le_refl _, by rw [e]; exact Nat.le_add_right _ _,
    by rw [e]; exact rfl, ?_, ?_, by simp⟩
  · have h1 : t.inTotal = s.inTotal + d.length := by rw [e]
    rw [h1, h.buf, List.length_append]; omega
  · intro a b hab
    refine ⟨a, b, ⟨rfl, rfl⟩, ?_, by rw [e]; exact hab.2⟩
    have h1 : t.inTotal = s.inTotal + d.length := by rw [e]
    have h2 : t.inStream = s.inStream + d.length := by rw [e]
    have := hab.1
    omega
  · rintro A ⟨D, h1, h2, h3⟩
    have k1 : t.inTotal = s.inTotal + d.length := by rw [e]
    have k2 : t.inStream = s.inStream + d.length := by rw [e]
    have k3 : t.state = s.state := by rw [e]
    refine ⟨⟨D ++ d, by rw [h1, h.buf, List.append_assoc], by rw [List.length_append, h2, k1], ?_⟩, by simp⟩
    intro hs
    rw [k3] at hs
    obtain ⟨g1, g2, g3⟩ := h3 hs
    have hd : (D ++ d).drop ((D ++ d).length - t.inStream) = D.drop (D.length - s.inStream) ++ d := by
      rw [k2, List.length_append, show D.length + d.length - (s.inStream + d.length) = D.length - s.inStream by omega,
        List.drop_append_of_le_length (by omega)]
    rw [hd]
    exact ⟨by omega, h.adler _ g2, h.crc _ g3⟩

/-- the configuration excludes stored blocks with too much data, or what is buffered and the `n` bytes to come are not too much -/
def Fit (s : WState) (n : Nat) : Prop := usesStore s.o = true ∨ s.lz.opts.bufBits ≤ 15 ∨ s.lz.buf.length + n ≤ 65535

/-- what may remain in the input buffer between calls is less than this -/
def room (s : WState) : Nat := if usesStore s.o = true then min s.lz.cap storedBlockSize else min s.lz.cap 4096

theorem room_le (s : WState) : room s ≤ s.lz.cap := by unfold room; split <;> omega

/-- An operation which, unless the underlying writer fails, succeeds with the given result
(or panics, when the configuration allows buffering too much data). -/
def Acts (f : Go WState Bool) (s : WState) (p0 p1 : Phase) (Q : WState → Prop) : Prop :=
  (f s = .error tooLong ∧ ¬ Fit s 0) ∨
  ∃ b t es, f s = .ok (b, t) ∧ Flow s t es ∧
    (b = true → Q t ∧ WInv t ∧ t.err = s.err ∧ t.sink.errs = s.sink.errs ∧ runPh p0 (kinds es) = some p1) ∧
    (b = false → Failed s t ∧ ∃ p, runPh p0 (kinds es) = some p) ∧ (Reliable s → b = true)

theorem Acts.mono {f : Go WState Bool} {s : WState} {p0 p1 : Phase} {Q R : WState → Prop} (h : Acts f s p0 p1 Q)
    (hq : ∀ t es, Flow s t es → Q t → R t) : Acts f s p0 p1 R := by
  rcases h with h | ⟨b, t, es, e, fl, ok, bad, rel⟩
  · exact Or.inl h
  refine Or.inr ⟨b, t, es, e, fl, ?_, bad, rel⟩
  intro hb
  obtain ⟨q, r⟩ := ok hb
  exact ⟨hq t es fl q, r⟩

theorem fit_of_flow {s t : WState} {es : List Sent} (h : Flow s t es) {n : Nat} (hf : Fit s n) : Fit t n := by
  unfold Fit at hf ⊢; rw [h.o, h.lzopts]
  have := h.tin
  have := h.monoIn.le
  rcases hf with hf | hf | hf
  · exact Or.inl hf
  · exact Or.inr (Or.inl hf)
  · exact Or.inr (Or.inr (by omega))

theorem chk_error {x y : Go WState Bool} {s : WState} {e : Panic} (h : x s = .error e) :
    Go.chk x y s = .error e := by unfold Go.chk; rw [h]

theorem Acts.done {s : WState} (h : WInv s) {p : Phase} {Q : WState → Prop} (q : Q s) {f : Go WState Bool}
    (e : f s = .ok (true, s)) : Acts f s p p Q :=
  Or.inr ⟨true, s, [], e, Flow.refl s, fun _ => ⟨q, h, rfl, rfl, rfl⟩, by simp, fun _ => rfl⟩

theorem reliable_of_flow {s t : WState} {es : List Sent} (h : Flow s t es) (r : Reliable s) : Reliable t := by
  intro n; rw [h.wfail]; exact r n

theorem Acts.chk {x y : Go WState Bool} {s : WState} {p0 p1 p2 : Phase} {Q R : WState → Prop}
    (hx : Acts x s p0 p1 Q) (hy : ∀ t es, Flow s t es → WInv t → Q t → Acts y t p1 p2 R) :
    Acts (Go.chk x y) s p0 p2 R := by
  rcases hx with ⟨e, hf⟩ | ⟨b, t, es, e, fl, ok, bad, rel⟩
  · exact Or.inl ⟨chk_error e, hf⟩
  cases b with
  | false => exact Or.inr ⟨false, t, es, chk_false e, fl, by simp, fun _ => bad rfl, fun h => absurd (rel h) (by simp)⟩
  | true =>
    obtain ⟨q, inv, er, ee, ph⟩ := ok rfl
    rcases hy t es fl inv q with ⟨e', hf⟩ | ⟨b', u, es', e', fl', ok', bad', rel'⟩
    · exact Or.inl ⟨by rw [chk_ok e]; exact e', fun h => hf (fit_of_flow fl h)⟩
    refine Or.inr ⟨b', u, es ++ es', by rw [chk_ok e]; exact e', fl.trans fl', ?_, ?_,
      fun h => rel' (reliable_of_flow fl h)⟩
    · intro hb
      obtain ⟨r, i, er', ee', ph'⟩ := ok' hb
      exact ⟨r, i, er'.trans er, ee'.trans ee, by rw [kinds_append]; exact runPh_trans ph ph'⟩
    · intro hb
      obtain ⟨f, p, hp⟩ := bad' hb
      exact ⟨f.pre fl.errs, p, by rw [kinds_append]; exact runPh_trans ph hp⟩

/-- a command sequence as an operation -/
theorem Does.acts {f : Go WState Bool} {s : WState} {bits : List Bool} {ks : List EvKind} (h : Does f s bits ks)
    {p0 p1 : Phase} (hp : runPh p0 ks = some p1) (hk : ∀ k ∈ ks, MidEv k) :
    Acts f s p0 p1 (fun t => Core s t ∧ t.state = s.state ∧ view t = view s ++ bits ∧
      (∃ bs, pushed t = pushed s ++ bs ∧ t.crcOut = Crc.genericUpdate s.crcOut bs) ∧
      t.outStream + (pushed s).length = s.outStream + (pushed t).length) := by
  obtain ⟨b, t, es, e, st, ok, bad, rel⟩ := h
  have hk' : ∀ k ∈ kinds es, MidEv k := by
    cases b with
    | true => rw [(ok rfl).2]; exact hk
    | false => intro k hk'; exact hk k ((bad rfl).2.subset hk')
  refine Or.inr ⟨b, t, es, e, st.flow hk', ?_, ?_, rel⟩
  · intro hb
    obtain ⟨a, k⟩ := ok hb
    exact ⟨⟨st.core, a.state, a.view, a.crc, st.str⟩, a.inv, a.err, a.errs, by rw [k]; exact hp⟩
  · intro hb
    obtain ⟨a, k⟩ := bad hb
    exact ⟨a, runPh_prefix hp k⟩

theorem blockTrace_noBegin {f : Bool} {ks : List EvKind} (h : BlockTrace f ks) : ∀ k ∈ ks, MidEv k := by
  cases h <;> simp [MidEv]

/-! ### compression in an open stream -/

/-- The Writer has consumed `c` and produced blocks for it. -/
structure Grow (E : BlockRel) (s t : WState) (c : List UInt8) : Prop where
  bits : ∃ bs, view t = view s ++ bs ∧ ∀ h, s.lz.hist <:+ h →
    Blocks E (view s).length h bs (h ++ c) ∧ t.lz.hist <:+ h ++ c
  buf : s.lz.buf = c ++ t.lz.buf
  adler : ∀ x, AdlerIs s.adler x → AdlerIs t.adler (x ++ c)
  crc : ∀ x, CrcIs s.crcIn x → CrcIs t.crcIn (x ++ c)
  inStr : t.inStream = s.inStream + c.length
  num : t.numStreams = s.numStreams
  header : t.header = s.header
  state : t.state = s.state

theorem blocks_append {E : BlockRel} {pos : Nat} {h h1 h2 : List UInt8} {a b : List Bool} (ha : Blocks E pos h a h1)
    (hb : Blocks E (pos + a.length) h1 b h2) : Blocks E pos h (a ++ b) h2 := by
  induction ha with
  | nil pos h => simpa using hb
  | @cons pos h h1 h2' x xs hx _ ih =>
    rw [List.append_assoc]
    refine .cons hx (ih ?_)
    rw [List.length_append, ← Nat.add_assoc] at hb
    exact hb

theorem blocks_one {E : BlockRel} {pos : Nat} {h h1 : List UInt8} {a : List Bool} (ha : E pos false h a h1) :
    Blocks E pos h a h1 := by
  have := Blocks.cons ha (.nil _ h1)
  simpa using this

theorem Grow.refl {E : BlockRel} (s : WState) : Grow E s s [] := by
  refine ⟨⟨[], by simp, fun h hh => ⟨?_, by simpa using hh⟩⟩, by simp, fun x h => by simpa using h,
    fun x h => by simpa using h, rfl, rfl, rfl, rfl⟩
  rw [List.append_nil]; exact .nil _ _

theorem Grow.trans {E : BlockRel} {s t u : WState} {c d : List UInt8} (h : Grow E s t c) (k : Grow E t u d) :
    Grow E s u (c ++ d) := by
  refine ⟨?_, ?_, ?_, ?_, ?_, k.num.trans h.num, k.header.trans h.header, k.state.trans h.state⟩
  · obtain ⟨a, ha, fa⟩ := h.bits
    obtain ⟨b, hb, fb⟩ := k.bits
    refine ⟨a ++ b, by rw [hb, ha, List.append_assoc], fun x hx => ?_⟩
    obtain ⟨b1, s1⟩ := fa x hx
    obtain ⟨b2, s2⟩ := fb _ s1
    rw [ha, List.length_append] at b2
    rw [← List.append_assoc]
    exact ⟨blocks_append b1 b2, s2⟩
  · rw [h.buf, k.buf, List.append_assoc]
  · intro x hx; rw [← List.append_assoc]; exact k.adler _ (h.adler x hx)
  · intro x hx; rw [← List.append_assoc]; exact k.crc _ (h.crc x hx)
  · rw [k.inStr, h.inStr, List.length_append, Nat.add_assoc]

/-- one block of data already taken from the buffer -/
theorem grow_block {E : BlockRel} {s s1 t : WState} {d : List UInt8} {bits : List Bool} (he : Eat s s1 d)
    (hc : Core s1 t) (hs : t.state = s1.state) (hv : view t = view s1 ++ bits)
    (hE : ∀ h, s.lz.hist <:+ h → E (view s).length false h bits (h ++ d)) : Grow E s t d := by
  have e := he.eq
  have hv1 : view s1 = view s := by rw [e]; rfl
  refine ⟨⟨bits, by rw [hv, hv1], fun h hh => ⟨blocks_one (hE h hh), ?_⟩⟩, ?_, ?_, ?_, ?_, ?_, ?_, ?_⟩
  · rw [hc.lz, he.hist]; obtain ⟨q, rfl⟩ := hh; exact ⟨q, by simp⟩
  · rw [hc.lz]; exact he.buf
  · intro x hx; rw [hc.adler]; exact he.adler x hx
  · intro x hx; rw [hc.crcIn]; exact he.crc x hx
  · rw [hc.inStream, e]
  · rw [hc.numStreams, e]
  · rw [hc.header, e]
  · rw [hs, e]

theorem eat_inv {s t : WState} {d : List UInt8} (h : Eat s t d) (i : WInv s) : WInv t := by
  have e := h.eq
  exact ⟨by rw [e]; exact i.hW, by rw [e]; exact i.lt, by rw [e]; exact i.blk, by rw [e]; exact i.out⟩

/-- prefix an operation by the consumption of input -/
theorem Acts.eat {g f : Go WState Bool} {s s1 : WState} {d : List UInt8} {p0 p1 : Phase} {Q : WState → Prop}
    (he : Eat s s1 d) (hf : f s = g s1) (h : Acts g s1 p0 p1 Q) : Acts f s p0 p1 Q := by
  rcases h with ⟨e, hn⟩ | ⟨b, t, es, e, fl, ok, bad, rel⟩
  · exact Or.inl ⟨by rw [hf]; exact e, fun h => hn (fit_of_flow he.flow h)⟩
  have e0 := he.eq
  refine Or.inr ⟨b, t, [] ++ es, by rw [hf]; exact e, he.flow.trans fl, ?_, fun hb => ⟨(bad hb).1.pre he.flow.errs, (bad hb).2⟩, fun hr => rel ?_⟩
  · intro hb
    obtain ⟨q, i, er, ee, ph⟩ := ok hb
    exact ⟨q, i, by rw [er, e0], by rw [ee, e0], ph⟩
  · intro n; rw [e0]; exact hr n

theorem inputBufferRead_spec (s : WState) (n : Nat) :
    ∃ t, inputBufferRead n s = .ok (s.lz.buf.take n, t) ∧ Eat s t (s.lz.buf.take n) ∧ t.lz.buf = s.lz.buf.drop n := by
  refine ⟨account (s.lz.buf.take n) { s with lz := (s.lz.read n).2 }, rfl, ⟨rfl, ?_, ?_, rfl, rfl, rfl, ?_⟩, rfl⟩
  · intro x hx; exact adler_update hx _
  · intro x hx; exact crc_update hx _
  · exact (List.take_append_drop n s.lz.buf).symm

theorem storeLoop_acts {E : BlockRel} (hE : ∀ {pos f h b h'}, StoredEnc pos f h b h' → PadZero pos b → E pos f h b h') :
    ∀ (fuel : Nat) (s : WState), s.lz.buf.length < fuel → WInv s →
    Acts (storeLoop fuel s.lz.buf.length) s .opened .opened (fun t => Grow E s t s.lz.buf) := by
  intro fuel
  induction fuel with
  | zero => intro s h; omega
  | succ fuel ih =>
    intro s hf hi
    by_cases h0 : s.lz.buf.length = 0
    · have hb : s.lz.buf = [] := by simpa using h0
      refine Acts.done hi ?_ (by unfold storeLoop; rw [if_pos h0]; rfl)
      rw [hb]; exact Grow.refl s
    · obtain ⟨s1, e, he, hb⟩ := inputBufferRead_spec s storedBlockSize
      have i1 := eat_inv he hi
      have hl : (s.lz.buf.take storedBlockSize).length ≤ 61440 := by
        rw [List.length_take]; exact Nat.min_le_left _ _
      have hpos : 0 < (s.lz.buf.take storedBlockSize).length := by
        rw [List.length_take]; unfold storedBlockSize; omega
      have hlen := congrArg List.length he.buf
      rw [List.length_append] at hlen
      have hsub : s.lz.buf.length - (s.lz.buf.take storedBlockSize).length = s1.lz.buf.length := by
        omega
      refine Acts.eat (g := Go.chk (writeStoredBlock wBW (s.lz.buf.take storedBlockSize) false)
        (storeLoop fuel s1.lz.buf.length)) he ?_ ?_
      · conv => lhs; unfold storeLoop
        rw [if_neg h0, Go.bind_ok e, hsub]
      · refine Acts.chk ((writeStoredBlock_does i1 (by omega) false).acts (p0 := .opened) (p1 := .opened)
          (runPh_block .stored) (blockTrace_noBegin .stored)) ?_
        rintro t es fl it ⟨hc, hs, hv, _⟩
        have hg : Grow E s t (s.lz.buf.take storedBlockSize) := by
          refine grow_block he hc hs hv ?_
          intro h _
          have hv1 : view s1 = view s := by rw [he.eq]; rfl
          refine hE ?_ (by rw [← hv1]; exact padZero_stored _ _ _ _ _)
          exact ⟨padBits ((view s1).length + 3), s.lz.buf.take storedBlockSize, by simp [padBits, hv1], by omega, rfl, rfl⟩
        have hbt : t.lz.buf.length = s1.lz.buf.length := by rw [hc.lz]
        have hb2 : s.lz.buf = s.lz.buf.take storedBlockSize ++ t.lz.buf := hg.buf
        rw [← hbt]
        refine (ih t (by omega) it).mono ?_
        intro u es' _ hgu
        have := hg.trans hgu
        rw [← hb2] at this
        exact this

/-- result of a compress function: either nothing was done, or everything was consumed -/
theorem compressStore_acts {E : BlockRel} (hE : ∀ {pos f h b h'}, StoredEnc pos f h b h' → PadZero pos b → E pos f h b h')
    {s : WState} (hi : WInv s) (hst : usesStore s.o = true) (all : Bool) :
    Acts (compressStore all) s .opened .opened (fun t => ∃ c, Grow E s t c ∧
      (t.lz.buf = [] ∨ (all = false ∧ s.lz.buf.length < room s ∧ t = s))) := by
  unfold compressStore
  by_cases h : s.lz.buf.length < storedBlockSize ∧ all = false ∧ s.lz.buf.length < s.lz.cap
  · exact Acts.done hi ⟨[], Grow.refl s, Or.inr ⟨h.2.1, by unfold room; rw [if_pos hst]; have := h.1; have := h.2.2; omega, rfl⟩⟩ (if_pos h)
  · have := storeLoop_acts hE (s.lz.buf.length + 1) s (by omega) hi
    rcases this with ⟨e, hn⟩ | ⟨b, t, es, e, fl, ok, bad, rel⟩
    · exact Or.inl ⟨by dsimp only; rw [if_neg h]; exact e, hn⟩
    refine Or.inr ⟨b, t, es, by dsimp only; rw [if_neg h]; exact e, fl, ?_, bad, rel⟩
    intro hb
    obtain ⟨g, r⟩ := ok hb
    refine ⟨⟨_, g, Or.inl ?_⟩, r⟩
    have := g.buf
    exact List.self_eq_append_right.1 this

theorem compressSlow_acts {L : HuffLib} (hL : L.Lawful) {E : BlockRel} {s : WState}
    (hE : ∀ {pos f h b h'}, BlockEnc (fun l => L.accepts l = true) s.lz.maxDist pos f h b h' → NotLonger pos h b h' → PadZero pos b →
      E pos f h b h') (hi : WInv s) (hz : LZOK s.lz) (hcap : s.lz.buf.length ≤ s.lz.cap) (hns : usesStore s.o = false) (all : Bool) :
    Acts (compressSlow L all) s .opened .opened (fun t => ∃ c, Grow E s t c ∧
      (t.lz.buf = [] ∨ (all = false ∧ s.lz.buf.length < room s ∧ t = s))) := by
  unfold compressSlow
  by_cases h : s.lz.buf.length < 4096 ∧ all = false ∧ s.lz.buf.length < s.lz.cap
  · exact Acts.done hi ⟨[], Grow.refl s, Or.inr ⟨h.2.1, by unfold room; rw [hns, if_neg (by simp)]; omega, rfl⟩⟩ (if_pos h)
  · obtain ⟨ts, is, s1, e, he, hT, hx, _⟩ := tokenLoop_spec (s.lz.buf.length + 1) s [] [] (by omega) hz
    have i1 := eat_inv he hi
    have hW1 : s1.W = s.W := by rw [he.eq]
    have hdef : (fun s' : WState => if s'.lz.buf.length < 4096 ∧ all = false ∧ s'.lz.buf.length < s'.lz.cap then
        Except.ok (true, s') else (do
      let (data, tokens) ← tokenLoop (s'.lz.buf.length + 1) s'.lz.buf.length [] []
      compressTokens wBW s'.W L data (tokens ++ [makeStopToken]) false : Go WState Bool) s') s =
        compressTokens wBW s.W L s.lz.buf (ts ++ [makeStopToken]) false s1 := by
      dsimp only
      rw [if_neg h, Go.bind_ok e]
      rfl
    rcases compressTokens_does hL i1 (toks_stop hT) s.lz.buf false with ⟨hlen, hpan⟩ | ⟨bits, ks, hd, hk, hlong, hpz, henc⟩
    · refine Or.inl ⟨?_, ?_⟩
      · rw [hW1] at hpan
        exact hdef.trans hpan
      · rintro (hf | hf | hf)
        · rw [hns] at hf; exact absurd hf (by simp)
        · apply hlen
          unfold LZ.cap at hcap
          have : 2 ^ s.lz.opts.bufBits ≤ 2 ^ 15 := Nat.pow_le_pow_right (by omega) hf
          omega
        · exact hlen (by omega)
    rw [hW1] at hd
    refine Acts.eat he (g := compressTokens wBW s.W L s.lz.buf (ts ++ [makeStopToken]) false) hdef ?_
    · refine (hd.acts (p1 := .opened) (runPh_block hk) (blockTrace_noBegin hk)).mono ?_
      rintro t es fl ⟨hc, hs, hv, _⟩
      have hv1 : view s1 = view s := by rw [he.eq]; rfl
      refine ⟨s.lz.buf, grow_block he hc hs hv ?_, Or.inl ?_⟩
      · intro x hxx
        refine hE (by rw [← hv1]; exact henc _ _ (hx x hxx)) ?_ (by rw [← hv1]; exact hpz)
        rw [← hv1]
        unfold NotLonger
        rw [List.length_append]
        omega
      · rw [hc.lz]
        exact List.self_eq_append_right.1 he.buf

end Flate.Proof
