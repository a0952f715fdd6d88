/-
When the tracers of a Reader hear of what the goroutine does, and what callers of `Read` have received by then (trace.go:11-13, reader.go:385-411, 1388-1395).

`sendEvent` is called by the goroutine while it decompresses, with mu1 held (`TPc.run` in Model/Conc.lean).  Model/Conc.lean leaves the events out; here they are put
back.  Each event carries the number of bytes which have been flushed when it is sent (`OutputBytesTotal`, reader.go:1340, 1391), which tells its place among the goroutine's flushes.
Once `Close` has taken effect (`forced`), nothing is flushed any more, and the goroutine may do something else; it is left open which events it sends then.  `Reset` is not
modelled here.
-/
import Verif.Model.Conc
import Verif.Model.Trace

namespace Flate.Model.Conc
open Flate.Model Flate.Model.Rd

/-- a Reader with tracers -/
structure ESt where
  rd : St
  /-- the events which have been sent to the tracers, reader.go:1392-1394 -/
  sent : List Event
  /-- those which will be -/
  todo : List Event

/-- the number of bytes in the pieces which the goroutine has begun to flush, which is `outputBytesTotal` while it runs: reader.go:1340 -/
def flushed (s : St) : Nat := (actData s.script).length - (actData s.acts).length

/-- the next event is to be sent before anything else is flushed -/
def ESt.Due (s : ESt) : Prop := ∃ e r, s.todo = e :: r ∧ e.outTotal = flushed s.rd

/-- The steps: those of Model/Conc.lean, and that an event is sent.  While an event is due the goroutine neither flushes nor ends.  (Whether an error is reported before or
after an event with the same `OutputBytesTotal` is left open.) -/
inductive EStep (s : ESt) : Option Lab → ESt → Prop
  /-- reader.go:1388-1395 -/
  | event {e : Event} {r : List Event} : s.rd.forced = false → s.rd.th = .run → s.todo = e :: r → e.outTotal = flushed s.rd → EStep s none { s with sent := s.sent ++ [e], todo := r }
  /-- after `Close` -/
  | late (e : Event) : s.rd.forced = true → EStep s none { s with sent := s.sent ++ [e] }
  | other {l : Lab} {t : St} : Step s.rd l t → (l = .thread → s.rd.th = .run → s.rd.forced = false → ¬ s.Due ∨ ∃ e r, s.rd.acts = .err e :: r) → EStep s (some l) { s with rd := t }

/-- what can happen to a Reader whose goroutine does `script` and sends `events`, if `Reset` is not called -/
inductive EReach (cap : Nat) (script : List Act) (events : List Event) (n : Nat) : ESt → Prop
  | refl : EReach cap script events n ⟨initial cap script n, [], events⟩
  | step {s t : ESt} {l : Option Lab} : EReach cap script events n s → EStep s l t → (∀ x, l = some x → NoReset x) → EReach cap script events n t

end Flate.Model.Conc
