/-
Tracers (trace.go).
-/
import Verif.Model.Types

namespace Flate.Model

/-- trace.go:11-13 `Tracer`: what `OnEvent` does to the state of the tracer.  (A tracer which panics, blocks or calls the Reader or Writer
is not modelled.) -/
structure Tracer where
  S : Type
  onEvent : Event → S → S

/-- trace.go:57-63 `NoOpTracer` -/
def noOpTracer : Tracer := ⟨Unit, fun _ s => s⟩

/-- trace.go:70-75 `TracerFunc` which keeps the events -/
def recorder : Tracer := ⟨List Event, fun e l => l ++ [e]⟩

/-- trace.go:84-99 `CaptureHeader`: the state is the Header which the pointer points to.  `event.Header` is not nil for
StreamHeaderEvent (reader.go:406-411, writer.go:598-603). -/
def captureHeader : Tracer := ⟨Header, fun e s => match e.kind with
  | .streamHeader h => h
  | _ => s⟩

/-- tracers with their states -/
abbrev Traced := (t : Tracer) × t.S

/-- reader.go:1392-1394, writer.go:922-924: the loop of `sendEvent` -/
def notifyAll (e : Event) : List Traced → List Traced
  | [] => []
  | ⟨t, s⟩ :: r => ⟨t, t.onEvent e s⟩ :: notifyAll e r

/-- what becomes of the tracers when these events are sent -/
def traceRun : List Event → List Traced → List Traced
  | [], ts => ts
  | e :: es, ts => traceRun es (notifyAll e ts)

end Flate.Model
