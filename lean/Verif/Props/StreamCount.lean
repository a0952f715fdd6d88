/-
C107: the tracers of a Writer are told of exactly the streams that are in its output.
-/
import Verif.Props.WriterEvents
import Verif.Props.WriterOutput
import Verif.Props.RoundTrip

namespace Flate.Props
open Flate.Spec Flate.Model Flate.Proof

/-- how many of the events are StreamBegin -/
def begun (ks : List EvKind) : Nat := (ks.filter fun k => decide (k = .streamBegin)).length

theorem begunOf_append (a b : List EvKind) : begun (a ++ b) = begun a + begun b := by simp [begun]

theorem begunOf_block {f : Bool} {b : List EvKind} (h : BlockTrace f b) : begun b = 0 := by
  cases h <;> simp [begun]

theorem begunOf_blocks {l : List (List EvKind)} (h : ∀ b ∈ l, BlockTrace false b) : begun l.flatten = 0 := by
  induction l with
  | nil => rfl
  | cons x l ih =>
    rw [List.flatten_cons, begunOf_append, begunOf_block (h x (by simp)), ih (fun b hb => h b (by simp [hb]))]

theorem begunOf_stream {st : List EvKind} (h : StreamTrace st) : begun st = 1 := by
  cases h with
  | mk h blocks last adler crc h1 h2 =>
    rw [begunOf_append, begunOf_append, begunOf_append, begunOf_blocks h1, begunOf_block h2]
    simp [begun]

theorem begunOf_streams {l : List (List EvKind)} (h : ∀ st ∈ l, StreamTrace st) : begun l.flatten = l.length := by
  induction l with
  | nil => rfl
  | cons x l ih =>
    rw [List.flatten_cons, begunOf_append, begunOf_stream (h x (by simp)), ih (fun b hb => h b (by simp [hb])), List.length_cons, Nat.add_comm]

theorem numLog_end : ∀ {l : List Sent} {a b : Nat}, NumLog a l b → b = a + begun (l.map fun p => p.ev.kind) := by
  intro l
  induction l with
  | nil => intro a b h; simp only [NumLog] at h; simp [begun, h]
  | cons e l ih =>
    intro a b h
    simp only [NumLog] at h
    rw [List.map_cons, show ∀ (x : EvKind) (y : List EvKind), x :: y = [x] ++ y from fun _ _ => rfl, begunOf_append]
    split at h
    · rename_i hk
      rw [ih h.2, hk]
      simp [begun, Nat.add_assoc]
    · rename_i hk
      rw [ih h.2]
      simp [begun, hk]

/-- **C107.** After successful calls ending with `Close`, the output is a sequence of complete streams, and the events are those of a
sequence of complete streams, and there are as many of the one as of the other. -/
theorem C107_streams {c : Setup} (h : c.OK) {ops : List WOp} (hc : WOp.close ∉ ops) {rs : List WRes} {t : WState}
    (hr : c.Runs (ops ++ [.close]) rs t) (he : NoErr rs) :
    ∃ (bytes : List UInt8) (data : List (List UInt8)) (streams : List (List EvKind)),
      t.sink.out = c.sink.out ++ bytes ∧ StreamsOf (Stream c.ok (2 ^ c.o.wbits) c.o.dict (container c.o.format)) bytes data ∧
      data = (segsOf (ops ++ [.close])).done ∧
      (∀ st ∈ streams, StreamTrace st) ∧ (t.events.map fun p => p.ev.kind) = streams.flatten ∧ streams.length = data.length := by
  obtain ⟨bytes, h1, h2⟩ := C02_conforming h hc hr he
  obtain ⟨streams, h3, h4⟩ := C33_complete h hc hr he
  obtain ⟨es, k, hh, cl, _⟩ := run_close h.lawful (h.live _) (h.any True) (fun _ _ _ => trivial) hc hr he
  refine ⟨bytes, _, streams, h1, h2, rfl, h3, h4, ?_⟩
  have h5 := numLog_end (C35_output h hr).2.2.2.1
  rw [h4, begunOf_streams h3, cl.num, Nat.zero_add, Nat.zero_add] at h5
  rw [← h5, ← segs_done (cfgOf c.start) {}, List.length_map]

/-- **C107**, without calls of `Flush(FinishFlush)`: the events are those of one stream. -/
theorem C107_single {c : Setup} (h : c.OK) {ops : List WOp} (hc : ∀ op ∈ ops, Continues op) {rs : List WRes} {t : WState}
    (hr : c.Runs (ops ++ [.close]) rs t) (he : NoErr rs) : StreamTrace (t.events.map fun p => p.ev.kind) := by
  have hcl : WOp.close ∉ ops := fun x => hc _ x
  obtain ⟨_, data, streams, _, _, h3, h4, h5, h6⟩ := C107_streams h hcl hr he
  rw [h3, segs_single hc] at h6
  obtain ⟨st, rfl⟩ := List.length_eq_one_iff.1 h6
  rw [h5]
  simpa using h4 st (by simp)

/-- **C107**, at any time: the tracers have been told of as many streams as have been completed, and of the open one if there is one. -/
theorem C107_sofar {c : Setup} (h : c.OK) {ops : List WOp} (hc : WOp.close ∉ ops) {rs : List WRes} {t : WState}
    (hr : c.Runs ops rs t) (he : NoErr rs) :
    begun (t.events.map fun p => p.ev.kind) = (segsOf ops).done.length + (segsOf ops).cur.toList.length := by
  obtain ⟨es, k, hh, hl, _⟩ := run_good h.lawful ops (h.live _) (h.any True) (fun _ _ _ => trivial) hc hr he
  have h5 := numLog_end (C35_output h hr).2.2.2.1
  have h6 := abs_segs (cfgOf c.start) ops {}
  rw [show Abs.segs ({} : Abs) = {} from rfl] at h6
  unfold segsOf
  rw [← h6]
  rw [hl.num, Nat.zero_add, Nat.zero_add] at h5
  rw [← h5]
  simp only [Abs.segs, List.length_map]
  cases ((ops.foldl (Abs.step (cfgOf c.start)) {}).cur) <;> rfl

/-- two streams with an empty write, flushes with and without a stream, and another stream ended by `Close` -/
def threeOps : List WOp :=
  [.write [], .flush .syncFlush, .flush .finishFlush, .flush .fullFlush, .write [1, 2, 3], .flush .syncFlush, .flush .finishFlush, .flush .finishFlush, .write [9]]

/-- non-vacuity -/
example : ∃ rs t, (demo [.format .gzip, .mlevel 1]).Runs (threeOps ++ [.close]) rs t ∧ NoErr rs :=
  (demo_ok (by decide)).run_close_ok (Or.inr (by decide)) (demo_sink _) (by simp [threeOps])

example : (segsOf (threeOps ++ [.close])).done = [[], [1, 2, 3], [9]] := by decide

example : (segsOf threeOps).done.length + (segsOf threeOps).cur.toList.length = 3 := by decide

end Flate.Props
