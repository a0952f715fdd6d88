/-
C102: calls with nothing to do.
-/
import Verif.Props.WriterFlush
import Verif.Props.WriterShape
import Verif.Props.Format
import Verif.Proof.WWord
import Verif.Proof.WSize

namespace Flate.Props
open Flate.Spec Flate.Model Flate.Proof

/-- After the calls `ops`, the call `op` has nothing to do: a `Write` of no bytes; `SetHeader`; a flush while no stream is in progress, which does not have to produce the
empty stream; `Close` after the end of a stream; `BlockFlush` directly after another flush. -/
def NothingToDo (ops : List WOp) : WOp → Prop
  | .write p => p = []
  | .setHeader _ => True
  | .flush f => (segsOf ops).cur = none ∧ (f = .finishFlush → (segsOf ops).done ≠ []) ∨ f = .blockFlush ∧ ∃ ops' f', ops = ops' ++ [.flush f']
  | .close => (segsOf ops).cur = none ∧ (segsOf ops).done ≠ []

/-- the underlying writer has been given nothing to write (though possibly been told to flush or to sync), and the tracers have not been told anything -/
structure Silent (s t : WState) : Prop where
  out : t.sink.out = s.sink.out
  events : t.events = s.events
  log : ∃ l, t.sink.log = s.sink.log ++ l ∧ ∀ x ∈ l, x = .flush ∨ x = .sync

theorem Silent.refl (s : WState) : Silent s s := ⟨rfl, rfl, [], by simp, by simp⟩

theorem sinkBoth_silent (s : WState) : ∃ b t, Go.chk sinkFlush sinkSync s = .ok (b, t) ∧ Silent s t ∧ (s.sink.hasFlush = false → s.sink.hasSync = false → b = true ∧ t = s) := by
  have h1 : ∀ s : WState, ∃ b t, sinkFlush s = .ok (b, t) ∧ Silent s t ∧ (s.sink.hasFlush = false → b = true ∧ t = s) := by
    intro s
    unfold sinkFlush
    by_cases hf : s.sink.hasFlush = true
    · rw [if_pos hf]
      dsimp only
      split
      · exact ⟨_, _, rfl, ⟨rfl, rfl, [.flush], rfl, by simp⟩, fun h => by rw [hf] at h; cases h⟩
      · exact ⟨_, _, rfl, ⟨rfl, rfl, [.flush], rfl, by simp⟩, fun h => by rw [hf] at h; cases h⟩
    · rw [if_neg hf]
      exact ⟨_, _, rfl, Silent.refl _, fun _ => ⟨rfl, rfl⟩⟩
  have h2 : ∀ s : WState, ∃ b t, sinkSync s = .ok (b, t) ∧ Silent s t ∧ (s.sink.hasSync = false → b = true ∧ t = s) := by
    intro s
    unfold sinkSync
    by_cases hf : s.sink.hasSync = true
    · rw [if_pos hf]
      dsimp only
      split
      · split
        · exact ⟨_, _, rfl, ⟨rfl, rfl, [.sync], rfl, by simp⟩, fun h => by rw [hf] at h; cases h⟩
        · exact ⟨_, _, rfl, ⟨rfl, rfl, [.sync], rfl, by simp⟩, fun h => by rw [hf] at h; cases h⟩
      · exact ⟨_, _, rfl, ⟨rfl, rfl, [.sync], rfl, by simp⟩, fun h => by rw [hf] at h; cases h⟩
    · rw [if_neg hf]
      exact ⟨_, _, rfl, Silent.refl _, fun _ => ⟨rfl, rfl⟩⟩
  obtain ⟨b, t, e, k, q⟩ := h1 s
  cases b with
  | false => exact ⟨false, t, chk_false e, k, fun a _ => by obtain ⟨x, -⟩ := q a; cases x⟩
  | true =>
    obtain ⟨b, u, e', k', q'⟩ := h2 t
    refine ⟨b, u, by rw [chk_ok e]; exact e', ?_, ?_⟩
    · obtain ⟨a1, a4, l1, a2, a3⟩ := k
      obtain ⟨b1, b4, l2, b2, b3⟩ := k'
      refine ⟨b1.trans a1, b4.trans a4, l1 ++ l2, by rw [b2, a2]; simp, fun x hx => ?_⟩
      rcases List.mem_append.1 hx with h | h
      · exact a3 x h
      · exact b3 x h
    · intro x y
      obtain ⟨-, rfl⟩ := q x
      exact q' y

theorem sinkBoth_ob {s t : WState} {b : Bool} (e : Go.chk sinkFlush sinkSync s = .ok (b, t)) : t.obLen = s.obLen := by
  have h1 : ∀ {s t : WState} {b : Bool}, sinkFlush s = .ok (b, t) → t.obLen = s.obLen := by
    intro s t b e
    unfold sinkFlush at e
    split at e
    · dsimp only at e
      split at e <;> (cases e; rfl)
    · cases e; rfl
  have h2 : ∀ {s t : WState} {b : Bool}, sinkSync s = .ok (b, t) → t.obLen = s.obLen := by
    intro s t b e
    unfold sinkSync at e
    split at e
    · dsimp only at e
      split at e
      · split at e <;> (cases e; rfl)
      · cases e; rfl
    · cases e; rfl
  rcases Word.chk_inv e with ⟨u, a, b⟩ | ⟨-, a⟩
  · exact (h2 b).trans (h1 a)
  · exact h1 a

/-- a flush which does nothing but to pass itself on -/
theorem flush_nothing {L : HuffLib} {s : WState} {f : FlushType} (hb : s.lz.buf = [])
    (h : (s.state = .noStream ∨ s.state = .closedStream) ∧ (f = .finishFlush → s.state = .closedStream) ∨ s.state = .openStream ∧ f = .blockFlush) :
    flushImpl L f s = Go.chk sinkFlush sinkSync s := by
  rw [flushImpl_eq]
  have e2 : openIf f s = .ok (true, s) := by
    unfold openIf
    rw [if_neg]
    rintro ⟨x, y⟩
    rcases h with h | h
    · have := h.2 x; rw [y] at this; cases this
    · rw [y] at h; cases h.1
  have e3 : gutsIf f s = .ok (true, s) := by
    unfold gutsIf
    rcases h with h | ⟨h, rfl⟩
    · rw [if_neg]; rcases h.1 with h | h <;> rw [h] <;> simp
    · rw [if_pos h]; rfl
  have e4 : finishClosing s = .ok (true, s) := finishClosing_other (by rcases h with ⟨h | h, -⟩ | h <;> first | (rw [h]; simp) | (rw [h.1]; simp))
  rw [chk_ok (compress_empty hb true), chk_ok e2, chk_ok e3, chk_ok e4]

/-- the state after successful calls -/
theorem idle_state {c : Setup} (h : c.OK) {ops : List WOp} (hc : WOp.close ∉ ops) {rs : List WRes} {s : WState} (hr : c.Runs ops rs s) (he : NoErr rs) (hcur : (segsOf ops).cur = none) :
    s.lz.buf = [] ∧ (s.state = .noStream ∧ (segsOf ops).done = [] ∨ s.state = .closedStream ∧ (segsOf ops).done ≠ []) := by
  obtain ⟨es, k, hh, hl, _⟩ := run_good h.lawful _ (h.live _) (h.any True) (fun _ _ _ => trivial) hc hr he
  obtain ⟨bytes, _, hb⟩ := hl.body
  have hs := abs_segs (cfgOf c.start) ops {}
  have hn : (ops.foldl (Abs.step (cfgOf c.start)) {}).cur = none := by
    have h2 : (Abs.segs (ops.foldl (Abs.step (cfgOf c.start)) {})).cur = none := by rw [hs]; exact hcur
    exact Option.map_eq_none_iff.1 h2
  have hd : (ops.foldl (Abs.step (cfgOf c.start)) {}).done = [] ↔ (segsOf ops).done = [] := by
    rw [← segs_done (cfgOf c.start) {} ops, List.map_eq_nil_iff]
  rw [hn] at hb
  obtain ⟨_, _, h2, h3⟩ := hb
  refine ⟨h2, h3.imp (fun x => ⟨x.1, hd.1 x.2⟩) fun x => ⟨x.1, fun y => x.2 (hd.2 y)⟩⟩

theorem cur_cases {ops : List WOp} : (segsOf ops).cur = none ∨ ∃ d, (segsOf ops).cur = some d := by
  cases (segsOf ops).cur with
  | none => exact Or.inl rfl
  | some d => exact Or.inr ⟨d, rfl⟩

theorem segs_snoc (ops : List WOp) (op : WOp) : segsOf (ops ++ [op]) = (segsOf ops).step op := by
  unfold segsOf; rw [List.foldl_append]; rfl

/-- the state after a successful flush -/
theorem flushed_state {c : Setup} (h : c.OK) {ops : List WOp} (hc : WOp.close ∉ ops) {f : FlushType} {rs : List WRes} {t : WState} (hr : c.Runs (ops ++ [.flush f]) rs t) (he : NoErr rs) :
    t.lz.buf = [] ∧ (t.state = .noStream ∨ t.state = .closedStream ∨ t.state = .openStream) := by
  have hc' : WOp.close ∉ ops ++ [.flush f] := by simp [hc]
  have idle : (segsOf (ops ++ [.flush f])).cur = none → t.lz.buf = [] ∧ (t.state = .noStream ∨ t.state = .closedStream ∨ t.state = .openStream) := by
    intro hn
    obtain ⟨a, b⟩ := idle_state h hc' hr he hn
    exact ⟨a, b.imp And.left fun x => Or.inl x.1⟩
  by_cases hf : f = .finishFlush
  · subst hf
    apply idle
    rw [segs_snoc]
    show (Segs.finish _).cur = none
    unfold Segs.finish
    split
    · rfl
    · split
      · rfl
      · assumption
  rcases cur_cases (ops := ops) with hn | ⟨d, hd⟩
  · apply idle
    rw [segs_snoc]
    cases f <;> first | exact hn | exact absurd rfl hf
  · obtain ⟨rs1, s, r, h1, h2, rfl⟩ := run_last hr
    obtain ⟨hd', bytes, es, k, hh, hl, hcur, hk, hst, hs, ho, hsum⟩ :=
      cur_open h (h.any True) (fun _ _ _ => trivial) hc h1 (fun r x => he r (by simp [x])) hd
    obtain ⟨kp, hb, _, _, _⟩ := flush_step h.lawful hl hcur ((h.any True).hist hh) hf (fun _ => trivial) h2 (he r (by simp))
    exact ⟨hb, Or.inr (Or.inr kp.state)⟩

/-- **C102.** A call with nothing to do writes nothing and tells the tracers nothing (a flush is passed on to the underlying writer, if that has a `Flush` or `Sync` method).
If it is not `SetHeader` or `Close` and the underlying writer has no such methods, the Writer is left exactly as it was, so that all later calls do what they
would have done without it. -/
theorem C102_nothing {c : Setup} (h : c.OK) {ops : List WOp} (hc : WOp.close ∉ ops) {rs : List WRes} {s : WState} (hr : c.Runs ops rs s) (he : NoErr rs)
    {op : WOp} (hn : NothingToDo ops op) :
    ∃ r t, stepOp c.L op s = .ok (r, t) ∧ Silent s t ∧
      (s.sink.hasFlush = false → s.sink.hasSync = false → (∀ hd, op ≠ .setHeader hd) → r.err = none ∧ (op ≠ .close → t = s)) := by
  obtain ⟨es, k, hh, hl, _⟩ := run_good h.lawful _ (h.live _) (h.any True) (fun _ _ _ => trivial) hc hr he
  have hst := live_state hl
  have n1 : s.state ≠ .closed := by rcases hst with h | h | h <;> rw [h] <;> simp
  have n2 : s.state ≠ .error := by rcases hst with h | h | h <;> rw [h] <;> simp
  cases op with
  | write p =>
    obtain rfl : p = [] := hn
    have e : stepOp c.L (.write []) s = .ok (.write 0 none, s) := by
      unfold stepOp wWrite
      simp only [if_neg n1, if_neg n2]
      rfl
    exact ⟨_, _, e, Silent.refl _, fun _ _ _ => ⟨rfl, fun _ => rfl⟩⟩
  | setHeader hd =>
    have e : ∃ b t, stepOp c.L (.setHeader hd) s = .ok (.header b, t) ∧ Silent s t := by
      unfold stepOp wSetHeader
      by_cases k : headerOK hd = true
      · simp only [if_pos k]; exact ⟨_, _, rfl, rfl, rfl, [], by simp, by simp⟩
      · simp only [if_neg k]; exact ⟨_, _, rfl, Silent.refl _⟩
    obtain ⟨b, t, e, k⟩ := e
    exact ⟨_, t, e, k, fun _ _ z => absurd rfl (z hd)⟩
  | flush f =>
    obtain ⟨b, t, e', k1, k2⟩ := sinkBoth_silent s
    have e : flushImpl c.L f s = .ok (b, t) := by
      rw [flush_nothing (f := f), e']
      · rcases hn with ⟨a, _⟩ | ⟨-, ops', f', rfl⟩
        · exact (idle_state h hc hr he a).1
        · exact (flushed_state h (fun x => hc (by simp [x])) hr he).1
      · rcases hn with ⟨a, d⟩ | ⟨rfl, ops', f', rfl⟩
        · have := (idle_state h hc hr he a).2
          refine Or.inl ⟨this.imp And.left And.left, fun x => ?_⟩
          rcases this with y | y
          · exact absurd y.2 (d x)
          · exact y.1
        · rcases (flushed_state h (fun x => hc (by simp [x])) hr he).2 with x | x | x
          · exact Or.inl ⟨Or.inl x, fun e => by cases e⟩
          · exact Or.inl ⟨Or.inr x, fun e => by cases e⟩
          · exact Or.inr ⟨x, rfl⟩
    cases b with
    | true =>
      refine ⟨.flush none, t, ?_, k1, fun x y _ => ⟨rfl, fun _ => (k2 x y).2⟩⟩
      unfold stepOp wFlush
      simp only [if_neg n1, if_neg n2, e]
    | false =>
      refine ⟨.flush t.err, t, ?_, k1, fun x y _ => ?_⟩
      · unfold stepOp wFlush
        simp only [if_neg n1, if_neg n2, e]
      · obtain ⟨z, -⟩ := k2 x y; cases z
  | close =>
    obtain ⟨b, t, e', k1, k2⟩ := sinkBoth_silent s
    obtain ⟨a, d⟩ := hn
    obtain ⟨hb, hs⟩ := idle_state h hc hr he a
    have hs : s.state = .closedStream := by
      rcases hs with y | y
      · exact absurd y.2 d
      · exact y.1
    have e : flushImpl c.L .finishFlush s = .ok (b, t) := by
      rw [flush_nothing hb (Or.inl ⟨Or.inr hs, fun _ => hs⟩), e']
    cases b with
    | true =>
      refine ⟨.close none, { t with state := .closed }, ?_, ⟨k1.out, k1.events, k1.log⟩, fun x y _ => ⟨rfl, fun z => absurd rfl z⟩⟩
      unfold stepOp wClose
      simp only [if_neg n1, if_neg n2, e]
    | false =>
      refine ⟨.close t.err, { t with state := .closed, err := none }, ?_, ⟨k1.out, k1.events, k1.log⟩, fun x y _ => ?_⟩
      · unfold stepOp wClose
        simp only [if_neg n1, if_neg n2, e]
      · obtain ⟨z, -⟩ := k2 x y; cases z

/-- **C102, while a stream is in progress.** `SyncFlush` (or `FullFlush`) right after `SyncFlush` or `FullFlush` adds exactly an empty stored block, five bytes, every time. -/
theorem C102_again {c : Setup} (h : c.OK) {ops : List WOp} (hc : WOp.close ∉ ops) {f f' : FlushType} (hf : f = .syncFlush ∨ f = .fullFlush) (hf' : f' = .syncFlush ∨ f' = .fullFlush)
    {rs : List WRes} {s t : WState} {r : WRes} {d : List UInt8} (hd : (segsOf ops).cur = some d) (hr : c.Runs (ops ++ [.flush f]) rs s) (he : NoErr rs)
    (e : stepOp c.L (.flush f') s = .ok (r, t)) (hn : r.err = none) : t.sink.out = s.sink.out ++ [0x00, 0x00, 0x00, 0xff, 0xff] := by
  have hc' : WOp.close ∉ ops ++ [.flush f] := by simp [hc]
  have hd' : (segsOf (ops ++ [.flush f])).cur = some d := by
    rw [segs_snoc]; rcases hf with rfl | rfl <;> exact hd
  -- before
  obtain ⟨rs1, u, r1, h1, h2, rfl⟩ := run_last hr
  have nf : ∀ {f : FlushType}, f = .syncFlush ∨ f = .fullFlush → f ≠ .finishFlush := by rintro f (rfl | rfl) <;> simp
  obtain ⟨hb, ob, iv⟩ : s.lz.buf = [] ∧ s.obLen = 0 ∧ WInv s := by
    obtain ⟨hd', bytes, es, k, hh, hl, hcur, hk, hst, hs, ho, hsum⟩ :=
      cur_open h (h.any True) (fun _ _ _ => trivial) hc h1 (fun r x => he r (by simp [x])) hd
    obtain ⟨-, a, -, b, iv⟩ := flush_step h.lawful hl hcur ((h.any True).hist hh) (nf hf) (fun _ => trivial) h2 (he r1 (by simp))
    exact ⟨a, b hf, iv⟩
  -- after
  obtain ⟨x, bytes, es, k, hh, hl, hcur, hk, hst, -⟩ := cur_open h (h.any True) (fun _ _ _ => trivial) hc' hr he hd'
  obtain ⟨-, -, -, ob', iv'⟩ := flush_step h.lawful hl hcur ((h.any True).hist hh) (nf hf') (fun _ => trivial) e hn
  have ob' := ob' hf'
  have n1 : s.state ≠ .closed := by rw [hst]; simp
  have n2 : s.state ≠ .error := by rw [hst]; simp
  unfold stepOp wFlush at e
  simp only [if_neg n1, if_neg n2] at e
  rcases e' : flushImpl c.L f' s with y | ⟨b, v⟩
  · rw [e'] at e; cases e
  rw [e'] at e
  have hv : t = v := by cases b <;> (cases e; rfl)
  subst hv
  have ht : b = true := by
    cases b with
    | true => rfl
    | false =>
      rcases flush_open h.lawful ((h.any True).hist hh) hl.inv hl.conf hl.cap hst f' (nf hf') (fun _ => trivial) with ⟨q, _⟩ | ⟨b, u, es, k, q, _, _, _, bad, _⟩
      · rw [q] at e'; cases e'
      · rw [q] at e'; cases e'
        cases e
        obtain ⟨⟨_, _, _, _, f3⟩, _⟩ := bad rfl
        rw [show (WRes.flush t.err).err = t.err from rfl, f3] at hn
        cases hn
  subst ht
  rw [flushImpl_eq, chk_ok (compress_empty hb true), chk_ok (openIf_open f' hst)] at e'
  -- the block
  have hblock : ∃ w, writeStoredBlock wBW [] false s = .ok (true, w) ∧ t.sink.out = w.sink.out ∧ t.obLen = w.obLen := by
    rcases Word.chk_inv e' with ⟨a, e1, e2⟩ | ⟨q, -⟩
    · have hg : ∃ w, writeStoredBlock wBW [] false s = .ok (true, w) ∧ a.sink = w.sink ∧ a.obLen = w.obLen ∧ a.state = w.state := by
        unfold gutsIf at e1
        rw [if_pos hst] at e1
        rcases hf' with rfl | rfl
        · exact ⟨a, e1, rfl, rfl, rfl⟩
        · rcases Word.chk_inv e1 with ⟨w, q1, q2⟩ | ⟨q, -⟩
          · cases q2; exact ⟨w, q1, rfl, rfl, rfl⟩
          · cases q
      obtain ⟨w, w1, w2, w3, w4⟩ := hg
      obtain ⟨_, _, _, ws⟩ := (writeStoredBlock_does iv (data := []) (by simp) false).of_ok w1
      rw [chk_ok (finishClosing_other (by rw [w4, ws, hst]; simp))] at e2
      obtain ⟨_, v, q1, q2, -⟩ := sinkBoth_silent a
      rw [q1] at e2; cases e2
      exact ⟨w, w1, by rw [q2.out, w2], by rw [sinkBoth_ob q1, w3]⟩
    · cases q
  obtain ⟨w, w1, w2, w3⟩ := hblock
  obtain ⟨_, vw, iw, _⟩ := (writeStoredBlock_does iv (data := []) (by simp) false).of_ok w1
  rw [view_zero (w3.symm.trans ob'), view_zero ob, out_pushed iw, out_pushed iv, ← w2] at vw
  have hp : padBits ((bytesBits s.sink.out).length + 3) = List.replicate 5 false := by
    unfold padBits padLen
    rw [bytesBits_length]
    congr 1
    omega
  rw [hp] at vw
  apply bytesBits_inj
  rw [vw, bytesBits_append]
  congr 1

/-- **C102, consequence.** Calls with nothing to do can be left out: everything else returns the same and the same is written. -/
theorem C102_skip {c : Setup} (h : c.OK) (hs1 : c.sink.hasFlush = false) (hs2 : c.sink.hasSync = false) {ops : List WOp} (hc : WOp.close ∉ ops) {rs : List WRes} {s : WState}
    (hr : c.Runs ops rs s) (he : NoErr rs) {op : WOp} (hn : NothingToDo ops op) (h1 : ∀ hd, op ≠ .setHeader hd) (h2 : op ≠ .close) :
    ∃ r, r.err = none ∧ ∀ (rest : List WOp) (rs' : List WRes) (t : WState), c.Runs (ops ++ rest) (rs ++ rs') t ↔ c.Runs (ops ++ op :: rest) (rs ++ r :: rs') t := by
  obtain ⟨es, k, hh, -⟩ := run_good h.lawful _ (h.live (BlockEnc c.ok (2 ^ c.o.wbits))) (h.any True) (fun _ _ _ => trivial) hc hr he
  obtain ⟨r, t, e, -, q⟩ := C102_nothing h hc hr he hn
  obtain ⟨q1, q2⟩ := q (hh.hasFlush.trans hs1) (hh.hasSync.trans hs2) h1
  obtain rfl := q2 h2
  refine ⟨r, q1, fun rest rs' v => ?_⟩
  unfold Setup.Runs at hr ⊢
  constructor
  · intro a
    obtain ⟨x, w, y, e1, e2, e3⟩ := run_append_inv a
    rw [hr] at e1; cases e1
    obtain rfl := List.append_cancel_left e3
    exact run_append_ok hr (by simp only [runOps, e, e2])
  · intro a
    obtain ⟨x, w, y, e1, e2, e3⟩ := run_append_inv a
    rw [hr] at e1; cases e1
    obtain rfl := List.append_cancel_left e3
    obtain ⟨r', w, z, g1, g2, g3⟩ := run_cons_inv e2
    rw [e] at g1; cases g1
    cases g3
    exact run_append_ok hr g2

/-- the hypotheses are met -/
example : ∃ rs t, (demo [.format .gzip, .mlevel 1]).Runs [.write [1, 2], .flush .finishFlush] rs t ∧ NoErr rs :=
  (demo_ok (by decide)).run_ok (Or.inr (by decide)) (demo_sink _) (by simp)
example : NothingToDo [.write [1, 2], .flush .finishFlush] .close := ⟨by decide, by decide⟩
example : NothingToDo [.write [1, 2], .flush .finishFlush] (.flush .syncFlush) := Or.inl ⟨by decide, by decide⟩
example : NothingToDo [.write [1, 2], .flush .syncFlush] (.flush .blockFlush) := Or.inr ⟨rfl, [.write [1, 2]], _, rfl⟩
example : (segsOf [.write [1, 2]]).cur = some [1, 2] := by decide

end Flate.Props
