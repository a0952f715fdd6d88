/-
What the trace events of a Writer say: C53 (headers and checksums), C35 (counters), in terms of the list of events as it is received.
-/
import Verif.Props.WriterCalls

namespace Flate.Props
open Flate.Spec Flate.Model Flate.Proof

/-! ### logs, by position -/

theorem monoLog_pos {f : Event → Nat} : ∀ {l : List Sent} {a b : Nat} {p : Sent} {r : List Sent}, MonoLog f a (l ++ p :: r) b →
    a ≤ f p.ev ∧ MonoLog f (f p.ev) r b := by
  intro l
  induction l with
  | nil => intro a b p r h; exact h
  | cons e l ih =>
    intro a b p r h
    obtain ⟨h1, h2⟩ := ih h.2
    exact ⟨Nat.le_trans h.1 h1, h2⟩

theorem numLog_pos : ∀ {l : List Sent} {a b : Nat} {p : Sent} {r : List Sent}, NumLog a (l ++ p :: r) b →
    p.ev.numStreams = a + ((l ++ [p]).filter fun q => decide (q.ev.kind = .streamBegin)).length := by
  intro l
  induction l with
  | nil =>
    intro a b p r h
    simp only [List.nil_append, NumLog] at h ⊢
    split at h
    · rename_i hk; simp [hk, h.1]
    · rename_i hk; simp [hk, h.1]
  | cons e l ih =>
    intro a b p r h
    simp only [List.cons_append, NumLog] at h ⊢
    split at h
    · rename_i hk
      rw [ih h.2, List.filter_cons_of_pos (by simpa using hk), List.length_cons]; omega
    · rename_i hk
      rw [ih h.2, List.filter_cons_of_neg (by simpa using hk)]

/-- the second part of a log -/
theorem strLog_split : ∀ {l : List Sent} {a b a' b' : Nat} {r : List Sent}, StrLog a b (l ++ r) a' b' →
    ∃ x y, StrLog a b l x y ∧ StrLog x y r a' b' := by
  intro l
  induction l with
  | nil => intro a b a' b' r h; exact ⟨a, b, ⟨rfl, rfl⟩, h⟩
  | cons e l ih =>
    intro a b a' b' r h
    simp only [List.cons_append, StrLog] at h ⊢
    split at h
    · rename_i hk
      obtain ⟨h1, h2, h3⟩ := h
      obtain ⟨x, y, h4, h5⟩ := ih h3
      exact ⟨x, y, by rw [if_pos hk]; exact ⟨h1, h2, h4⟩, h5⟩
    · rename_i hk
      obtain ⟨h1, h2, h3⟩ := h
      obtain ⟨x, y, h4, h5⟩ := ih h3
      exact ⟨x, y, by rw [if_neg hk]; exact ⟨h1, h2, h4⟩, h5⟩

theorem strLog_same : ∀ {l : List Sent} {a b a' b' : Nat}, (∀ p ∈ l, p.ev.kind ≠ .streamBegin) → StrLog a b l a' b' →
    (∀ p ∈ l, p.ev.inTotal = a + p.ev.inStream ∧ p.ev.outTotal = b + p.ev.outStream) := by
  intro l
  induction l with
  | nil => intro a b a' b' _ _; simp
  | cons e l ih =>
    intro a b a' b' hk h p hp
    simp only [StrLog, if_neg (hk e (by simp))] at h
    rcases List.mem_cons.1 hp with rfl | hp
    · exact ⟨h.1, h.2.1⟩
    · exact ih (fun q hq => hk q (by simp [hq])) h.2.2 p hp

/-! ### C35 -/

/-- **C35.** In every history the number of streams carried by an event is the number of StreamBegin events sent so far, that event
included. -/
theorem C35_streams {c : Setup} (h : c.OK) {ops : List WOp} {rs : List WRes} {t : WState} (hr : c.Runs ops rs t)
    {l r : List Sent} {p : Sent} (e : t.events = l ++ p :: r) :
    p.ev.numStreams = ((l ++ [p]).filter fun q => decide (q.ev.kind = .streamBegin)).length := by
  have := (C35_output h hr).2.2.2.1
  rw [e] at this
  rw [numLog_pos this, Nat.zero_add]

/-- **C35.** In every history the totals never decrease from one event to a later one. -/
theorem C35_monotone {c : Setup} (h : c.OK) {ops : List WOp} {rs : List WRes} {t : WState} (hr : c.Runs ops rs t)
    {l m r : List Sent} {p q : Sent} (e : t.events = l ++ p :: (m ++ q :: r)) :
    p.ev.inTotal ≤ q.ev.inTotal ∧ p.ev.outTotal ≤ q.ev.outTotal ∧ q.ev.outTotal ≤ t.outTotal ∧ q.ev.inTotal ≤ t.inTotal := by
  obtain ⟨_, h1, h2, _⟩ := C35_output h hr
  rw [e] at h1 h2
  obtain ⟨_, h3⟩ := monoLog_pos h1
  obtain ⟨_, h4⟩ := monoLog_pos h2
  obtain ⟨h5, h6⟩ := monoLog_pos h3
  obtain ⟨h7, h8⟩ := monoLog_pos h4
  exact ⟨h7, h5, h6.le, h8.le⟩

/-- **C35.** In every history the per-stream counters of an event are counted from the latest StreamBegin event. -/
theorem C35_perStream {c : Setup} (h : c.OK) {ops : List WOp} {rs : List WRes} {t : WState} (hr : c.Runs ops rs t)
    {l m r : List Sent} {b p : Sent} (e : t.events = l ++ b :: (m ++ p :: r)) (hb : b.ev.kind = .streamBegin)
    (hm : ∀ q ∈ m, q.ev.kind ≠ .streamBegin) (hp : p.ev.kind ≠ .streamBegin) :
    b.ev.inStream = 0 ∧ b.ev.outStream = 0 ∧ p.ev.inTotal = b.ev.inTotal + p.ev.inStream ∧
      p.ev.outTotal = b.ev.outTotal + p.ev.outStream := by
  obtain ⟨_, _, _, _, x, y, h1⟩ := C35_output h hr
  rw [e] at h1
  obtain ⟨x', y', _, h2⟩ := strLog_split h1
  simp only [StrLog, if_pos hb] at h2
  obtain ⟨h3, h4, h5⟩ := h2
  rw [show m ++ p :: r = (m ++ [p]) ++ r by simp] at h5
  obtain ⟨_, _, h6, _⟩ := strLog_split h5
  have := strLog_same (l := m ++ [p]) (by
    intro q hq
    rcases List.mem_append.1 hq with hq | hq
    · exact hm q hq
    · rw [List.mem_singleton] at hq; subst hq; exact hp) h6 p (by simp)
  exact ⟨h3, h4, this.1, this.2⟩

/-! ### C53: what StreamEnd and StreamHeader events carry -/

theorem offered_eq (ops : List WOp) : offered ops = writtenData ops := by
  unfold offered writtenData
  congr 1

/-- **C53 (checksums).** In every history, each StreamEnd event carries the Adler-32 and CRC-32 checksums of that stream's data: of the
last `InputBytesStream` of the first `InputBytesTotal` bytes handed to `Write`. -/
theorem C53_footer {c : Setup} (h : c.OK) {ops : List WOp} {rs : List WRes} {t : WState} (hr : c.Runs ops rs t)
    {p : Sent} (hp : p ∈ t.events) {a x : BitVec 32} (hk : p.ev.kind = .streamEnd a x) :
    p.ev.inStream ≤ p.ev.inTotal ∧ p.ev.inTotal ≤ (writtenData ops).length ∧
    a.toNat = adler32 (((writtenData ops).take p.ev.inTotal).drop (p.ev.inTotal - p.ev.inStream)) ∧
    x = crc32 (((writtenData ops).take p.ev.inTotal).drop (p.ev.inTotal - p.ev.inStream)) := by
  obtain ⟨es, k, hh, ⟨q, hq⟩, _⟩ := reach h hr
  have hev : t.events = es := by rw [hh.ev]; rfl
  rw [hev] at hp
  have h0 : Fed c.start [] := ⟨[], rfl, rfl, fun hs => (by rcases hs with hs | hs <;> cases hs)⟩
  have := (hh.feed [] h0).2 p hp
  rw [List.nil_append] at this
  have := (this.append q) a x hk
  rw [hq, offered_eq] at this
  exact this

/-- the bytes of a stream header of the given format which announces `hd` -/
def Announces (c : Setup) (hd : Header) (bytes : List UInt8) : Prop :=
  match c.o.format with
  | .raw => bytes = []
  | .zlib => ZlibHeader c.o.dict (c.o.wbits - 8) bytes
  | .gzip => ∃ g : GzHeader, GzOf hd g ∧ g.Valid ∧ (∀ e, g.extra = some e → ExtraOK e) ∧ bytes = g.bytes
  | .default => False

/-- **C53 (headers).** In every history, each StreamHeader event carries a valid header, and the bytes which the underlying writer has
received since the beginning of that stream are the stream header which says the same. -/
theorem C53_header {c : Setup} (h : c.OK) {ops : List WOp} {rs : List WRes} {t : WState} (hr : c.Runs ops rs t)
    {p : Sent} (hp : p ∈ t.events) {hd : Header} (hk : p.ev.kind = .streamHeader hd) :
    HeaderOK hd ∧ hd.osType ≠ 0 ∧ p.ev.outStream ≤ p.delivered ∧ p.delivered ≤ t.sink.out.length ∧
    Announces c hd ((t.sink.out.take p.delivered).drop (p.delivered - p.ev.outStream)) := by
  obtain ⟨es, k, hh, _, _⟩ := reach h hr
  have hev : t.events = es := by rw [hh.ev]; rfl
  rw [hev] at hp
  obtain ⟨h1, h2, h3, pre, ⟨post, h4⟩, h5⟩ := hh.heads p hp hd hk
  have hb : (t.sink.out.take p.delivered).drop (p.delivered - p.ev.outStream) = headerBytes c.start.o hd := by
    rw [← h4, ← h5, List.take_append_of_le_length (Nat.le_refl _), List.take_length, h3, List.length_append, Nat.add_sub_cancel,
      List.drop_append_of_le_length (Nat.le_refl _), List.drop_length, List.nil_append]
  have hl : p.delivered ≤ t.sink.out.length := by rw [← h4, ← h5, List.length_append (bs := post)]; omega
  have hok := (headerOK_iff hd).1 h1
  refine ⟨hok, h2, by rw [h3, ← h5, List.length_append]; omega, hl, ?_⟩
  rw [hb, c.start_o]
  unfold Announces headerBytes
  have hfull := h.full
  cases hf : c.o.format with
  | raw => rfl
  | zlib => exact zlibHeader_ok hfull.wbits.1 hfull.wbits.2
  | gzip => exact ⟨gzHd c.o hd, gzHd_of hok h2, gzHd_valid h1, gzHd_extra h1, rfl⟩
  | default => exact absurd hf hfull.format

/-! ### a case -/

/-- what an event says, as numbers: the Adler-32 checksum of a StreamEnd event or the operating system of a StreamHeader event;
the number of streams; the stream's and the total input -/
def evBrief (p : Sent) : Nat × Nat × Nat × Nat :=
  ((match p.ev.kind with | .streamEnd a _ => a.toNat | .streamHeader h => h.osType | _ => 0), p.ev.numStreams, p.ev.inStream, p.ev.inTotal)

-- two streams, "a" and "bc"; 6422626 and 19464390 are their checksums
example : (match runOps refLib [.write [97], .flush .finishFlush, .write [98, 99], .close] (demo [.format .zlib, .clevel 0]).start with
    | .ok (_, t) => t.events.map evBrief
    | .error _ => []) = [(0, 1, 0, 0), (4, 1, 0, 0), (0, 1, 1, 1), (0, 1, 1, 1), (0, 1, 1, 1), (0, 1, 1, 1), (6422626, 1, 1, 1), (0, 1, 1, 1),
      (0, 2, 0, 1), (4, 2, 0, 1), (0, 2, 2, 3), (0, 2, 2, 3), (0, 2, 2, 3), (0, 2, 2, 3), (19464390, 2, 2, 3), (0, 2, 2, 3)] := by
  decide +kernel

end Flate.Props
