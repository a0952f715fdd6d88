/-
The calls the underlying writer receives: C76.
-/
import Verif.Proof.WLog
import Verif.Props.WriterShape
import Verif.Props.WriterCalls

namespace Flate.Props
open Flate.Spec Flate.Model Flate.Proof

/-- does this method pass a flush on to the underlying writer? -/
def asksFlush : WOp → Bool
  | .flush _ => true
  | .close => true
  | _ => false

/-- the calls which end a `Flush` or `Close`: `Flush()`, then `Sync()`, as far as the underlying writer has these methods -/
def passedOn (k : Sink) : List SinkCall := (if k.hasFlush then [.flush] else []) ++ if k.hasSync then [.sync] else []

/-- what a method may do to the underlying writer -/
structure CallsOf (op : WOp) (r : WRes) (k k' : Sink) : Prop where
  hasFlush : k'.hasFlush = k.hasFlush
  hasSync : k'.hasSync = k.hasSync
  calls : ∃ (ws : List (List UInt8)) (l : List SinkCall), k'.log = k.log ++ ws.map .write ++ l ∧ (∀ w ∈ ws, w ≠ []) ∧
    l <+: (if asksFlush op then passedOn k else []) ∧
    (k'.errs = k.errs → k'.out = k.out ++ ws.flatten) ∧
    (r.err = none → l = if asksFlush op then passedOn k else [])

theorem CallsOf.writes {op : WOp} {r : WRes} {k k' : Sink} (h : Writes k k') (ha : asksFlush op = true → r.err ≠ none) : CallsOf op r k k' := by
  obtain ⟨w1, w2, w3, ws, w4, w5, w6⟩ := h
  refine ⟨w1, w2, ws, [], by rw [w5]; simp, w4, List.nil_prefix, w6, fun h => ?_⟩
  cases hb : asksFlush op with
  | true => exact absurd h (ha hb)
  | false => rfl

theorem flush_calls {L : HuffLib} {s t : WState} {ft : FlushType} {b : Bool} {op : WOp} {r : WRes} (hu : flushImpl L ft s = .ok (b, t))
    (ha : asksFlush op = true) (hr : b = false → r.err ≠ none) : CallsOf op r s.sink t.sink := by
  rw [flushImpl_tail] at hu
  unfold Go.chk at hu
  rcases hf : flushFirst L ft s with x | ⟨c, v⟩
  · rw [hf] at hu; cases hu
  rw [hf] at hu
  have hw := wr_first L ft s c v hf
  cases c with
  | false => cases hu; exact .writes hw fun _ => hr rfl
  | true =>
    obtain ⟨w1, w2, w3, ws, w4, w5, w6⟩ := hw
    obtain ⟨t1, t2, t3, t4, l, t5, t6, t7, t8⟩ := tail_calls hu
    have hp : tailCalls v.sink = passedOn s.sink := by unfold tailCalls passedOn; rw [w1, w2]
    rw [hp] at t6 t7
    refine ⟨t1.trans w1, t2.trans w2, ws, l, by rw [t5, w5], w4, by rw [if_pos ha]; exact t6, fun hE => ?_, fun h => ?_⟩
    · rw [t3]
      exact w6 (prefix_eq_of w3 t4 hE)
    · rw [if_pos ha]
      cases b with
      | true => exact t7 rfl
      | false => exact absurd h (hr rfl)

theorem live_calls {L : HuffLib} {op : WOp} {s t : WState} {r : WRes} (h1 : s.state ≠ .closed) (h2 : s.state ≠ .error)
    (hf : ∀ ft u, flushImpl L ft s = .ok (false, u) → u.err ≠ none) (e : stepOp L op s = .ok (r, t)) : CallsOf op r s.sink t.sink := by
  cases op with
  | write p =>
    unfold stepOp wWrite at e
    simp only [if_neg h1, if_neg h2] at e
    rcases hl : writeLoop L (2 * p.length + 2) p s with x | ⟨_ | er', u⟩
    · rw [hl] at e; cases e
    · rw [hl] at e; cases e; exact .writes (wr_writeLoop L _ _ s _ _ hl) (by intro h; cases h)
    · rw [hl] at e; cases e; exact .writes (wr_writeLoop L _ _ s _ _ hl) (by intro h; cases h)
  | setHeader hd =>
    have ht : t.sink = s.sink := by
      unfold stepOp wSetHeader at e
      dsimp only at e
      cases hk : headerOK hd <;> simp only [hk] at e <;> cases e <;> rfl
    rw [ht]
    exact .writes (writes_pre.refl s) (by intro h; cases h)
  | flush ft =>
    unfold stepOp wFlush at e
    simp only [if_neg h1, if_neg h2] at e
    rcases hl : flushImpl L ft s with x | ⟨b, u⟩
    · rw [hl] at e; cases e
    cases b with
    | true => rw [hl] at e; cases e; exact flush_calls hl rfl (by intro h; cases h)
    | false => rw [hl] at e; cases e; exact flush_calls hl rfl fun _ => hf _ _ hl
  | close =>
    unfold stepOp wClose at e
    simp only [if_neg h1, if_neg h2] at e
    rcases hl : flushImpl L .finishFlush s with x | ⟨b, u⟩
    · rw [hl] at e; cases e
    cases b with
    | true => rw [hl] at e; cases e; have := flush_calls (op := .close) (r := .close none) hl rfl (by intro h; cases h); exact this
    | false => rw [hl] at e; cases e; have := flush_calls (op := .close) (r := .close u.err) hl rfl fun _ => hf _ _ hl; exact this

/-- **C76.** The calls a method of a Writer makes on the underlying writer: `Write` calls with some bytes; then, for `Flush` and `Close`,
a call of `Flush` and one of `Sync`, if the underlying writer has these methods, and both are made if the method returns nil.
If no error occurs, the bytes of these `Write` calls are the output of the method: nothing is written after `Flush` and `Sync`. -/
theorem C76_calls {c : Setup} (h : c.OK) {ops : List WOp} {rs : List WRes} {s t : WState} {op : WOp} {r : WRes}
    (hr : c.Runs ops rs s) (e : stepOp c.L op s = .ok (r, t)) :
    ∃ (ws : List (List UInt8)) (l : List SinkCall), t.sink.log = s.sink.log ++ ws.map .write ++ l ∧ (∀ w ∈ ws, w ≠ []) ∧
      l <+: (if asksFlush op then passedOn c.sink else []) ∧
      (r.err = none → l = (if asksFlush op then passedOn c.sink else []) ∧ t.sink.out = s.sink.out ++ ws.flatten) := by
  have hs := C15_no_false_success h hr e
  obtain ⟨es, k, hh, _, _, hd⟩ := reach h hr
  have hp : passedOn s.sink = passedOn c.sink := by
    unfold passedOn; rw [hh.hasFlush, hh.hasSync]; rfl
  have main : CallsOf op r s.sink t.sink := by
    rcases hd with ⟨a, hl⟩ | hd
    · have hst := live_state hl
      refine live_calls (by rcases hst with h | h | h <;> rw [h] <;> simp) (by rcases hst with h | h | h <;> rw [h] <;> simp) ?_ e
      intro ft u hu
      rcases flush_live h.lawful hl ((h.any True).hist hh) ft (fun _ => trivial) with ⟨e', _⟩ | ⟨b, v, es', k', e', _, _, _, bad, _⟩
      · rw [e'] at hu; cases hu
      · rw [e'] at hu; cases hu
        obtain ⟨⟨_, _, _, _, f3⟩, _⟩ := bad rfl
        rw [f3]; simp
    · obtain ⟨r', t', e', eq, hx⟩ := stepOp_dead (L := c.L) s hd op
      rw [e'] at e
      cases e
      have : t.sink = s.sink := by rw [eq]
      rw [this]
      refine .writes (writes_pre.refl s) ?_
      obtain ⟨_, x1, x2, _⟩ := hx
      intro ha
      have hn : ∀ x, op ≠ .setHeader x := fun x hx => by rw [hx] at ha; cases ha
      rcases hd with hd | ⟨hd, e0, h0⟩
      · rw [(x1 hd).2.2 hn]; simp
      · rw [(x2 hd).1 hn, h0]; simp
  obtain ⟨_, _, ws, l, g1, g2, g3, g4, g5⟩ := main
  rw [hp] at g3 g5
  exact ⟨ws, l, g1, g2, g3, fun hn => ⟨g5 hn, g4 (hs hn)⟩⟩

/-- what one call contributes to the calls of the underlying writer -/
def Part (k : Sink) (op : WOp) (p : List SinkCall) : Prop :=
  ∃ ws : List (List UInt8), (∀ w ∈ ws, w ≠ []) ∧ p = ws.map .write ++ if asksFlush op then passedOn k else []

/-- the bytes of the `Write` calls -/
def writtenBy : List SinkCall → List UInt8
  | [] => []
  | .write p :: l => p ++ writtenBy l
  | _ :: l => writtenBy l

theorem writtenBy_append (a b : List SinkCall) : writtenBy (a ++ b) = writtenBy a ++ writtenBy b := by
  induction a with
  | nil => rfl
  | cons x a ih => cases x <;> simp [writtenBy, ih]

theorem writtenBy_map (ws : List (List UInt8)) : writtenBy (ws.map .write) = ws.flatten := by
  induction ws with
  | nil => rfl
  | cons x a ih => simp [writtenBy, ih]

theorem writtenBy_passed (k : Sink) : writtenBy (passedOn k) = [] := by
  unfold passedOn
  cases k.hasFlush <;> cases k.hasSync <;> rfl

/-- **C76**, a whole history without errors: the underlying writer has been called, for each call of the Writer, with some writes, and
after these with `Flush` and `Sync` for each `Flush` and `Close`; and the bytes it has received are those of the `Write` calls. -/
theorem C76_history {c : Setup} (h : c.OK) {ops : List WOp} {rs : List WRes} {t : WState} (hr : c.Runs ops rs t) (he : NoErr rs) :
    ∃ parts, List.Forall₂ (Part c.sink) ops parts ∧ t.sink.log = c.sink.log ++ parts.flatten ∧
      t.sink.out = c.sink.out ++ writtenBy parts.flatten := by
  have main : ∀ (post pre : List WOp) (rs1 rs2 : List WRes) (s t : WState), c.Runs pre rs1 s → runOps c.L post s = .ok (rs2, t) → NoErr rs2 →
      ∃ parts, List.Forall₂ (Part c.sink) post parts ∧ t.sink.log = s.sink.log ++ parts.flatten ∧
        t.sink.out = s.sink.out ++ writtenBy parts.flatten := by
    intro post
    induction post with
    | nil => intro pre rs1 rs2 s t h1 h2 _; cases h2; exact ⟨[], .nil, by simp, by simp [writtenBy]⟩
    | cons op post ih =>
      intro pre rs1 rs2 s t h1 h2 hn
      obtain ⟨r, u, rs', h3, h4, rfl⟩ := run_cons_inv h2
      have hu : c.Runs (pre ++ [op]) (rs1 ++ [r]) u := run_append_ok h1 (run_cons h3 rfl)
      obtain ⟨ws, l, g1, g2, g3, g4⟩ := C76_calls h h1 h3
      obtain ⟨g5, g6⟩ := g4 (hn r (by simp))
      obtain ⟨parts, i1, i2, i3⟩ := ih _ _ _ u t hu h4 (fun r hr => hn r (by simp [hr]))
      refine ⟨(ws.map .write ++ l) :: parts, .cons ⟨ws, g2, by rw [g5]⟩ i1, ?_, ?_⟩
      · rw [i2, g1]; simp
      · rw [i3, g6, List.flatten_cons, writtenBy_append, writtenBy_append, writtenBy_map]
        have : writtenBy l = [] := by
          rw [g5]; split
          · exact writtenBy_passed _
          · rfl
        rw [this]; simp
  exact main ops [] [] rs c.start t rfl hr he

/-- an underlying writer with both methods, whose `Sync` is not supported (EINVAL) -/
def syncing : Setup := ⟨refLib, 64, fun _ => none, { hasFlush := true, hasSync := true, sfail := fun _ => some 22 }, [.format .raw, .mlevel 1]⟩
theorem syncing_ok : syncing.OK := ⟨refLib_lawful, Or.inr rfl, by decide⟩

example : ∃ rs t, syncing.Runs [.write [1, 2], .flush .syncFlush, .close] rs t ∧ NoErr rs :=
  syncing_ok.run_close_ok (ops := [.write [1, 2], .flush .syncFlush]) (Or.inr (by decide)) ⟨fun _ => rfl, fun _ => rfl, fun _ e h => by cases h; rfl⟩ (by simp)

/-- the calls of this history -/
example : (match runOps refLib [.write [1, 2], .flush .syncFlush, .close] syncing.start with
    | .ok (_, t) => some (t.sink.log, t.sink.out)
    | .error _ => none) =
    some ([.write [0], .write [2, 0], .write [253, 255], .write [1, 2], .write [0], .write [0, 0], .write [255, 255], .flush, .sync,
      .write [1], .write [0, 0], .write [255, 255], .flush, .sync], [0, 2, 0, 253, 255, 1, 2, 0, 0, 0, 255, 255, 1, 0, 0, 255, 255]) := by
  decide +kernel

end Flate.Props
