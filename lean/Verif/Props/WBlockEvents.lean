/-
What the block events of a Writer say about its output.
-/
import Verif.Props.Session
import Verif.Proof.WEvents2

namespace Flate.Props
open Flate.Spec Flate.Model Flate.Proof

/-- the events and the output after calls which did not fail -/
theorem ev_reach {c : Setup} (hc : c.OK) {ops : List WOp} {rs : List WRes} {t : WState} (h : c.Runs ops rs t) (hn : NoErr rs) :
    (∃ w, Ev c.L c.sink.out (2 ^ c.o.wbits) t w ∧ (WOp.close ∈ ops → w = .idle)) ∧ t.W = c.start.W ∧ t.o = c.start.o := by
  have fr := hc.fresh
  have h0 : Fine c.L (BlockEnc c.ok (2 ^ c.o.wbits)) c.sink.out (2 ^ c.o.wbits) c.start := by
    refine Or.inl ⟨⟨.idle, ⟨fr.inv, fr.conf, ?_, maxDist_window hc.full rfl, ⟨[], ?_, .start⟩, fr.ob, ⟨fun _ => ⟨rfl, rfl⟩, by show ∀ e ∈ ([] : List Event).head?, _; simp⟩, fun _ => ⟨fun l e he => (by cases l <;> cases he), fun l e f he => (by cases l <;> cases he)⟩, fun l p e r he => (by cases l <;> cases he)⟩, trivial⟩, _, _, hc.live _⟩
    · show 0 + c.sink.out.length = (c.sink.out ++ []).length; simp
    · rw [view_zero fr.ob]; show bytesBits (c.sink.out ++ []) = _; simp
  obtain ⟨hf, hcl, hW, ho⟩ := run_ev hc.lawful ops h0 (hc.any True) h hn
  refine ⟨?_, hW, ho⟩
  rcases hf with ⟨⟨w, he, hm⟩, _⟩ | ⟨_, he⟩
  · refine ⟨w, he, fun k => ?_⟩
    rw [hcl (Or.inr k)] at hm
    cases w <;> exact hm.elim
  · exact ⟨_, he, fun _ => rfl⟩

/-- nothing has been written when the first event is sent -/
theorem first_event {c : Setup} (hc : c.OK) {ops : List WOp} {rs : List WRes} {t : WState} (h : c.Runs ops rs t) (hn : NoErr rs) {e : Event} {r : List Event}
    (he : t.events.map (·.ev) = e :: r) : e.outTotal = 0 ∧ e.inTotal = 0 := by
  obtain ⟨⟨w, hw, _⟩, _⟩ := ev_reach hc h hn
  refine hw.first.2 e ?_
  unfold evs
  rw [he]; rfl

/-- after Close, nothing has been consumed since the event before the last, if that is StreamClose -/
theorem last_event {c : Setup} (hc : c.OK) {ops : List WOp} {rs : List WRes} {t : WState} (h : c.Runs ops rs t) (hn : NoErr rs) (hcl : WOp.close ∈ ops) {e f : Event} {l : List Event}
    (he : t.events.map (·.ev) = l ++ [e, f]) (hf : f.kind = .streamClose) : e.inTotal = t.inTotal := by
  obtain ⟨⟨w, hw, hi⟩, _⟩ := ev_reach hc h hn
  exact (hw.stop (hi hcl)).2 l e f he hf

/-- **C70.**  As long as no call fails: the events after each StreamHeader, up to the StreamEnd of the same stream (or the last event), describe the blocks of that stream one by one.
`8 * e.outTotal` (the header's event) is where the first block begins; each BlockBegin, BlockTrees and BlockEnd event names the right kind of block and the right codes,
and its counters are those of the place in the output which it is about.  `pend` are the bits not yet passed on to the underlying writer; after Close there are none. -/
theorem C70_blocks {c : Setup} (hc : c.OK) {ops : List WOp} {rs : List WRes} {t : WState} (h : c.Runs ops rs t) (hn : NoErr rs) :
    ∃ out pend, t.sink.out = c.sink.out ++ out ∧ pend.length < c.W ∧ (WOp.close ∈ ops → pend = []) ∧
      ∀ l e r hd, t.events.map (·.ev) = l ++ e :: r → e.kind = .streamHeader hd →
        ∃ bks rest, r = bks ++ rest ∧ (rest = [] ∨ ∃ x rest' a b, rest = x :: rest' ∧ x.kind = .streamEnd a b) ∧
          WBlocks c.ok (2 ^ c.o.wbits) c.W (bytesBits out ++ pend) (8 * e.outTotal) (c.o.dict.getD []) 0 bks := by
  obtain ⟨key, hW, ho⟩ := ev_reach hc h hn
  obtain ⟨w, he, hw⟩ := key
  obtain ⟨B, hB, tr⟩ := he.tr
  have hp : pushed t = t.sink.out := out_pushed he.inv
  have hpre : c.sink.out <+: t.sink.out := by
    rcases run_any hc.lawful ops (hc.live _) (hc.any True) (fun _ _ _ => trivial) with ⟨e, _⟩ | ⟨_, _, _, _, e, hh, _⟩
    · rw [show runOps c.L ops c.start = _ from h] at e; cases e
    · rw [show runOps c.L ops c.start = _ from h] at e; cases e; exact hh.out
  obtain ⟨out, hout⟩ := hpre
  have hB' : B = bytesBits out ++ natBits t.obLen t.obBlock := by
    unfold view at hB
    rw [hp, ← hout, bytesBits_append, List.append_assoc] at hB
    exact (List.append_cancel_left hB).symm
  refine ⟨out, natBits t.obLen t.obBlock, hout.symm, ?_, ?_, ?_⟩
  · have := he.inv.lt
    rw [hW] at this
    rw [natBits_length]; exact this
  · intro k
    have hz := he.pos
    rw [hw k] at hz
    rw [show t.obLen = 0 from hz]; rfl
  · intro l e r hd hl hk
    have ha := tr.after l e r hd hl hk
    rw [hW, ho, hB'] at ha
    rcases ha with ⟨bks, x, rest, a, b, h1, h2, h3⟩ | ha
    · exact ⟨bks, x :: rest, h1, Or.inr ⟨x, rest, a, b, rfl, h2⟩, h3⟩
    · refine ⟨r, [], by simp, Or.inl rfl, ?_⟩
      cases w with
      | idle => exact ha.elim
      | opn h n => exact Path.blocks ha
      | fin => exact ha

/-- an event as numbers: which kind, the number of literal codes described, of distance codes, and the counters of output and input -/
def blkBrief (e : Event) : Nat × Nat × Nat × Nat × Nat :=
  match e.kind with
  | .blockBegin _ _ => (1, 0, 0, e.outTotal, e.inStream)
  | .blockTrees _ _ t => (2, (t.ll.filter (· ≠ 0)).length, (t.d.filter (· ≠ 0)).length, e.outTotal, e.inStream)
  | .blockEnd _ _ => (3, 0, 0, e.outTotal, e.inStream)
  | .streamHeader _ => (4, 0, 0, e.outTotal, e.inStream)
  | _ => (0, 0, 0, e.outTotal, e.inStream)

-- a stored block, an empty static one, a dynamic one with three literal codes, the empty final one
example : (match runOps refLib [.write [97, 97, 97, 97, 98], .flush .partialFlush, .write ((List.replicate 150 [200, 201]).flatten), .close] (demo [.format .zlib, .mlevel 1]).start with
    | .ok (_, t) => t.events.map (fun (p : Sent) => blkBrief p.ev)
    | .error _ => []) = [(0, 0, 0, 0, 0), (4, 0, 0, 2, 0), (1, 0, 0, 2, 5), (3, 0, 0, 12, 5), (1, 0, 0, 12, 5), (2, 288, 32, 12, 5), (3, 0, 0, 12, 5), (1, 0, 0, 12, 305),
      (2, 3, 0, 20, 305), (3, 0, 0, 100, 305), (1, 0, 0, 100, 305), (3, 0, 0, 106, 305), (0, 0, 0, 106, 305), (0, 0, 0, 110, 305)] := by
  decide +kernel

/-- such histories exist -/
example : ∃ rs t, (demo [.format .zlib, .mlevel 1]).Runs ([.write [1, 2], .flush .fullFlush, .write [3]] ++ [.close]) rs t ∧ NoErr rs :=
  (demo_ok (by simp [Opt.valid])).run_close_ok (Or.inr (by decide)) (demo_sink _) (by simp)

end Flate.Props
