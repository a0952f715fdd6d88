/-
C59, C60: what the StreamHeader events of a Reader say; tracers.
-/
import Verif.Proof.RHeadEv
import Verif.Props.RoundTrip
import Verif.Props.ReaderEvents
import Verif.Model.Trace

namespace Flate.Props
open Flate.Spec Flate.Model Flate.Model.Rd Flate.Proof Flate.Proof.R

/-! ### what a header says -/

/-- The reported header `h` says what the gzip member header `g` says. -/
structure GzSays (g : GzHeader) (h : Header) : Prop where
  name : h.fileName = g.name.getD []
  comment : h.comment = g.comment.getD []
  mtime : h.lastModified = if g.mtime = 0 then none else some (g.mtime : Int)
  text : h.dataType = if g.text then .text else .binary
  os : h.osType = if g.os.toNat < 14 then g.os.toNat + 1 else 0
  noExtra : g.extra = none → h.extra = []
  extra : ∀ e, g.extra = some e → ∃ stray, stray.length < 4 ∧ e = extraRecs (h.extra.map fun r => ((r.id0, r.id1), r.bytes)) ++ stray
  level : h.compressLevel = if g.xfl = 2 then 9 else if g.xfl = 4 then 1 else -1
  window : h.windowBits = 0

/-- The reported header `h` says what the header bytes `hdr` say. -/
def HeaderSays : Container → List UInt8 → Header → Prop
  | .raw, _, h => h = { compressLevel := -1 }
  | .zlib, hdr, h => ∃ cmf flg rest, hdr = cmf :: flg :: rest ∧
      h = { windowBits := 8 + cmf.toNat / 16, compressLevel := if flg.toNat / 64 = 0 then 1 else if flg.toNat / 64 = 1 then 2 else if flg.toNat / 64 = 2 then -1 else 9 }
  | .gzip, hdr, h => ∃ g : GzHeader, g.Valid ∧ hdr = g.bytes ∧ GzSays g h

theorem gzReport_says {g : GzHeader} (hx : ∀ e, g.extra = some e → ExtraOK e) : GzSays g (gzReport g) where
  name := rfl
  comment := rfl
  mtime := by
    show (if g.mtime ≠ 0 then some (g.mtime : Int) else none) = _
    by_cases h : g.mtime = 0 <;> simp [h]
  text := rfl
  os := rfl
  noExtra := fun h => by show gotExtra g.extra = _; rw [h]; rfl
  extra := fun e he => by
    obtain ⟨rs, stray, h1, h2, h3⟩ := C23_parse_partial (hx e he)
    refine ⟨stray, h3, ?_⟩
    show e = extraRecs ((gotExtra g.extra).map _) ++ stray
    rw [he]
    simp only [gotExtra, h1]
    exact h2
  level := rfl
  window := rfl

theorem reports_says {k : Container} {hdr : List UInt8} {h : Header} (r : Reports k hdr h) : HeaderSays k hdr h := by
  cases k with
  | raw => exact r
  | zlib =>
    obtain ⟨cmf, flg, rest, h1, rfl⟩ := r
    refine ⟨cmf, flg, rest, h1, ?_⟩
    unfold zlibReport
    rw [Nat.shiftRight_eq_div_pow, Nat.shiftRight_eq_div_pow]
    congr 1
    have : flg.toNat / 2 ^ 6 < 4 := by have := flg.toNat_lt; omega
    show [(1 : Int), 2, -1, 9].getD (flg.toNat / 2 ^ 6) (-1) = _
    have e : flg.toNat / 64 = flg.toNat / 2 ^ 6 := rfl
    rw [e]
    generalize flg.toNat / 2 ^ 6 = v at this
    have : v = 0 ∨ v = 1 ∨ v = 2 ∨ v = 3 := by omega
    rcases this with rfl | rfl | rfl | rfl <;> rfl
  | gzip =>
    obtain ⟨g, h1, h2, h3, rfl⟩ := r
    exact ⟨g, h2, h3, gzReport_says h1⟩

/-! ### C59 -/

/-- **C59.** In every run, whatever the input, also if an error occurs later and whenever `Close` is called: each StreamHeader event is sent when exactly the
header has been read; that header (the last `InputBytesStream` of the first `InputBytesTotal` bytes of the input) is a valid one of the format in the event, which
is the Reader's format if one was chosen, and the Header in the event says what the header says: nothing of an earlier stream shows up in it. -/
theorem C59_header {c : RSetup} (h : c.OK) {src : Src} {stop : Nat → Option Nat} {closed : Bool} {s : RState}
    (hr : readThread (c.envStop stop) (start src closed) = .ok ((), s)) {e : Event} (he : e ∈ s.events) {hd : Header} (hk : e.kind = .streamHeader hd) :
    e.inStream ≤ e.inTotal ∧ e.inTotal ≤ src.bytes.length ∧ ∃ k, e.format = fmtOf k ∧ (c.o.format = .default ∨ c.o.format = e.format) ∧
      HeaderOf (2 ^ c.o.wbits) c.o.dict k ((src.bytes.take e.inTotal).drop (e.inTotal - e.inStream)) ∧
      HeaderSays k ((src.bytes.take e.inTotal).drop (e.inTotal - e.inStream)) hd := by
  obtain ⟨k, pre, hdr, r, b, h1, h2, h3, h4, h5, h6, h7, h8, h9⟩ := hinv_thread (E := c.envStop stop) ⟨h.env.lawful, h.env.word⟩ hr e he hd hk
  have hl : src.bytes.length = pre.length + (hdr.length + r.length) := by rw [h1]; simp
  have hsl : (src.bytes.take e.inTotal).drop (e.inTotal - e.inStream) = hdr := by
    rw [h2, h3, h1, ← List.append_assoc, List.take_left' (by simp), List.drop_left' (by omega)]
  refine ⟨by omega, by omega, k, h4, ?_, ?_, ?_⟩
  · have hd : k = detect c.o.format b := h7
    rw [h4, hd]
    cases c.o.format with
    | default => exact Or.inl rfl
    | raw => exact Or.inr rfl
    | zlib => exact Or.inr rfl
    | gzip => exact Or.inr rfl
  · rw [hsl]; exact h8
  · rw [hsl]; exact reports_says h9

/-! ### C60: tracers -/

/-- what one tracer makes of the events -/
def Tracer.run (t : Tracer) (es : List Event) (s : t.S) : t.S := es.foldl (fun s e => t.onEvent e s) s

/-- **C60 (dispatch).** Every registered tracer receives every event, once and in order, independently of the others. -/
theorem C60_dispatch : ∀ (es : List Event) (ts : List Traced), traceRun es ts = ts.map fun x => ⟨x.1, Tracer.run x.1 es x.2⟩
  | [], ts => by
    unfold traceRun
    exact (List.map_id ts).symm
  | e :: es, ts => by
    unfold traceRun
    rw [C60_dispatch es]
    have : notifyAll e ts = ts.map fun x => ⟨x.1, x.1.onEvent e x.2⟩ := by
      induction ts with
      | nil => rfl
      | cons x r ih => unfold notifyAll; rw [ih]; rfl
    rw [this, List.map_map]
    rfl

theorem run_append (t : Tracer) (a b : List Event) (s : t.S) : Tracer.run t (a ++ b) s = Tracer.run t b (Tracer.run t a s) := List.foldl_append

theorem capture_append (es : List Event) (h : Header) (e : Event) : Tracer.run captureHeader (es ++ [e]) h = captureHeader.onEvent e (Tracer.run captureHeader es h) := by
  exact run_append captureHeader es [e] h

theorem capture_none {r : List Event} (hr : ∀ e ∈ r, ∀ x, e.kind ≠ .streamHeader x) (h : Header) : Tracer.run captureHeader r h = h := by
  induction r with
  | nil => rfl
  | cons e r ih =>
    have h1 : captureHeader.onEvent e h = h := by
      unfold captureHeader
      simp only []
      split
      · rename_i x hx; exact absurd hx (hr e (by simp) x)
      · rfl
    show Tracer.run captureHeader r (captureHeader.onEvent e h) = h
    rw [h1]
    exact ih fun y hy => hr y (by simp [hy])

/-- **C60 (CaptureHeader).** After the events the captured Header is that of the last StreamHeader event. -/
theorem C60_capture {l r : List Event} {e : Event} {h : Header} (hk : e.kind = .streamHeader h) (hr : ∀ x ∈ r, ∀ y, x.kind ≠ .streamHeader y) (h0 : Header) :
    Tracer.run captureHeader (l ++ e :: r) h0 = h := by
  rw [List.append_cons]
  refine (run_append captureHeader (l ++ [e]) r h0).trans ((capture_none hr _).trans ((capture_append l h0 e).trans ?_))
  unfold captureHeader
  simp only [hk]

/-- **C60 (round trip).** A Reader with `CaptureHeader(&h)` which reads what a Writer wrote leaves in `h` the header which the Writer was given (as in C21). -/
theorem C60_round_trip {c : Setup} (h : c.OK) (hf : c.o.format = .gzip) {hd : Header} (hk : HeaderOK hd)
    {ops : List WOp} (hfst : ∀ op ∈ ops, (∃ p, op = .write p) ∨ ∃ ft, op = .flush ft ∧ ft ≠ .finishFlush)
    {rs : List WRes} {t : WState} (hr : c.Runs ([.setHeader hd] ++ ops ++ [.close]) rs t) (he : NoErr rs)
    (h0 : c.sink.out = []) {r : RSetup} (hok : r.OK) (hs : Suits c r) {src : Src} (hsrc : src.bytes = t.sink.out) (init : Header) :
    ∃ (s : RState) (got : Header), r.Runs src s ∧ traceRun s.events [⟨captureHeader, init⟩] = [⟨captureHeader, got⟩] ∧
      got.fileName = hd.fileName ∧ got.comment = hd.comment ∧ got.extra = hd.extra ∧
      got.lastModified = (if hd.lastModified = some 0 then none else hd.lastModified) ∧
      got.osType = (if hd.osType = 0 then 4 else hd.osType) ∧ (hd.dataType ≠ .unknown → got.dataType = hd.dataType) := by
  obtain ⟨s, got, rest, q1, q2, q3, q4, q5, q6, q7, q8, q9, _⟩ := C21_round_trip h hf hk hfst hr he h0 hok hs hsrc
  refine ⟨s, got, q1, ?_, q4, q5, q6, q7, q8, q9⟩
  rw [C60_dispatch]
  show [(⟨captureHeader, Tracer.run captureHeader s.events init⟩ : Traced)] = _
  have : Tracer.run captureHeader s.events init = got := by
    rcases hev : s.events with _ | ⟨e0, _ | ⟨e1, es⟩⟩
    · rw [hev] at q2; simp at q2
    · rw [hev] at q2; simp at q2
    · rw [hev] at q2
      simp only [List.map_cons, List.cons.injEq] at q2
      obtain ⟨q2a, q2b, q2c⟩ := q2
      exact C60_capture (l := [e0]) q2b (fun x hx y hy => q3 y (by rw [← q2c]; exact List.mem_map.2 ⟨x, hx, hy⟩)) init
  rw [this]

/-! ### examples -/

/-- the headers reported in a run, with the positions -/
def runHeaders (r : Except Panic (Unit × RState)) : Option (List (Header × Nat × Nat)) := match r with
  | .ok (_, s) => some (s.events.filterMap fun e => match e.kind with | .streamHeader h => some (h, e.inTotal, e.inStream) | _ => none)
  | .error _ => none

/-- Two gzip members, the first with a file name, the second with a comment and cut off after the header: nothing of the first header is in the second. -/
example : runHeaders (readThread (rdemo [.format .gzip]).env (start ⟨[(0x1f, [0x8b, 8, 8, 5, 0, 0, 0, 2, 3, 97, 0] ++ [1, 0, 0, 255, 255] ++ [0, 0, 0, 0, 0, 0, 0, 0] ++
      [0x1f, 0x8b, 8, 0x10, 0, 0, 0, 0, 4, 255, 98, 0] ++ [1])], [], .eof⟩ false)) =
    some [({ fileName := [97], lastModified := some 5, dataType := .binary, osType := 4, compressLevel := 9 }, 12, 12),
      ({ comment := [98], dataType := .binary, osType := 0, compressLevel := 1 }, 37, 12)] := by decide +kernel

end Flate.Props
