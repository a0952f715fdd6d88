/-
Concrete histories which meet the hypotheses of the theorems of Props/Conc.lean.
-/
import Verif.Props.Conc

namespace Flate.Props
open Flate.Spec Flate.Model Flate.Model.Rd Flate.Model.Conc Flate.Proof Flate.Proof.R Flate.Proof.Cc

theorem history {P : Lab → Prop} {α : Type} {cap n : Nat} {script : List Act} (ls : List Lab) (f : St → α) {v : α} (h : (execs (initial cap script n) ls).map f = some v) (hP : ∀ l ∈ ls, P l) :
    ∃ s, Reach P cap script n s ∧ f s = v := by
  obtain ⟨s, h1, h2⟩ := Option.map_eq_some_iff.1 h
  exact ⟨s, execs_ok h1 hP, h2⟩

/-- the same, and the last step by itself -/
theorem history2 {P : Lab → Prop} {α : Type} {cap n : Nat} {script : List Act} (ls : List Lab) (l : Lab) (f g : St → α) {v w : α} (h : (execs (initial cap script n) ls).map f = some v)
    (h' : ((execs (initial cap script n) ls).bind (exec · l)).map g = some w) (hP : ∀ l ∈ ls, P l) :
    ∃ s s', Reach P cap script n s ∧ f s = v ∧ Step s l s' ∧ g s' = w := by
  obtain ⟨s, h1, h2⟩ := Option.map_eq_some_iff.1 h
  obtain ⟨s', h3, h4⟩ := Option.map_eq_some_iff.1 h'
  rw [h1] at h3
  exact ⟨s, s', execs_ok h1 hP, h2, exec_ok h3, h4⟩

/-- a call of `Read` by `i` up to where it waits -/
def rdStart (i n : Nat) : List Lab := [.callRead i n, .client i, .client i, .client i, .client i]

/-- C39: two callers each get a byte, of two -/
example : ∃ s, Reach ReadOnly 8 [.data [65, 66], .err .eof] 2 s ∧ s.log = [(0, .read [65] none), (1, .read [66] none)] :=
  history (rdStart 0 1 ++ rdStart 1 1 ++ List.replicate 7 .thread ++ [.client 0, .client 0, .client 1, .client 1]) (·.log) (by decide +kernel) (by decide)

/-- C39_sizes: the step which returns a byte, of two -/
example : ∃ s s', Reach ReadOnly 8 [.data [65, 66], .err .eof] 1 s ∧ s.log = [] ∧ Step s (.client 0) s' ∧ s'.log = [(0, .read [65] none)] :=
  history2 (rdStart 0 1 ++ List.replicate 7 .thread ++ [.client 0]) (.client 0) (·.log) (·.log) (by decide +kernel) (by decide +kernel) (by decide)

/-- C40, C45_first: all data, then `io.EOF` -/
example : ∃ s, Reach ReadOnly 8 ([[65, 66]].map .data ++ [.err .eof]) 2 s ∧ s.log = [(0, .read [65, 66] none), (1, .read [] (some .eof)), (0, .read [] (some .eof))] :=
  history (rdStart 0 8 ++ List.replicate 7 .thread ++ [.client 0, .client 0] ++ List.replicate 3 .thread ++ rdStart 1 8 ++ rdStart 0 0) (·.log) (by decide +kernel) (by decide)

/-- C41_partial: an error between data -/
example : ∃ s, Reach ReadOnly 8 ([.data [65]] ++ .err .unexpectedEOF :: [.data [66]]) 2 s ∧ s.log = [(0, .read [65] none), (1, .read [] (some .unexpectedEOF))] :=
  history (rdStart 0 8 ++ rdStart 1 8 ++ List.replicate 7 .thread ++ [.client 0, .client 0] ++ List.replicate 2 .thread ++ [.client 1, .client 1]) (·.log) (by decide +kernel) (by decide)

/-- C42_live: a caller waits, another one is about to -/
example : ∃ s, Reach NoReset 8 [.data [65], .err .eof] 2 s ∧ s.cls = [.rdWait 1, .rd2 5] :=
  history (rdStart 0 1 ++ [.callRead 1 5, .client 1, .client 1]) (·.cls) (by decide +kernel) (by decide)

/-- C43_exited: `Close` returns, after the goroutine was started -/
example : ∃ s s', Reach NoReset 8 [.data [65], .err .eof] 2 s ∧ (s.log, true) = ([], true) ∧ Step s (.client 1) s' ∧ (s'.log, s'.started) = ([(1, .closed)], true) :=
  history2 (rdStart 0 1 ++ [.callClose 1, .client 1, .client 1, .client 1] ++ List.replicate 4 .thread ++ [.done, .client 1, .client 1]) (.client 1) (fun s => (s.log, true)) (fun s => (s.log, s.started))
    (by decide +kernel) (by decide +kernel) (by decide)

/-- C43_partial: `Close` while a caller waits -/
example : ∃ s s', Reach NoReset 8 [.data [65], .err .eof] 2 s ∧ s.cls = [.rdWait 1, .cl3] ∧ Step s (.client 1) s' ∧ s'.cls = [.rdWoken 1, .cl4] :=
  history2 (rdStart 0 1 ++ [.callClose 1, .client 1, .client 1]) (.client 1) (·.cls) (·.cls) (by decide +kernel) (by decide +kernel) (by decide)

/-- C44_blocked: `Reset` while the goroutine waits for space -/
example : ∃ s, Reach (fun _ => True) 1 [.data [65], .data [66], .err .eof] 1 s ∧ (s.cls[0]?, decide (s.th = .absent)) = (some (.rs2 [.err .eof]), false) :=
  history (rdStart 0 1 ++ List.replicate 8 .thread ++ [.client 0, .client 0, .callReset 0 [.err .eof], .client 0, .client 0]) (fun s => (s.cls[0]?, decide (s.th = .absent))) (by decide +kernel) (by decide)

/-- C44_partial: `Close` has returned, nobody calls -/
example : ∃ s0 s, Reach NoReset 8 [.data [65], .err .eof] 1 s0 ∧ (s0.log, [.idle]) = ([(0, .read [65] none)], [CPc.idle]) ∧ Step s0 (.client 0) s ∧ (s.log, s.cls) = ([(0, .read [65] none), (0, .closed)], [.idle]) :=
  history2 (rdStart 0 8 ++ List.replicate 7 .thread ++ [.client 0, .client 0] ++ List.replicate 3 .thread ++ [.callClose 0, .client 0]) (.client 0) (fun s => (s.log, [.idle])) (fun s => (s.log, s.cls))
    (by decide +kernel) (by decide +kernel) (by decide)

/-- C44_like_new: after a `Reset` -/
example : ∃ s, Reach (fun _ => True) 8 [.data [65], .err .eof] 1 s ∧ (s.log, decide ({ s with log := [] } = initial 8 [.data [66], .err .unexpectedEOF] 1)) =
    ([(0, .read [65] none), (0, .closed), (0, .reset [.data [66], .err .unexpectedEOF])], true) :=
  history (rdStart 0 8 ++ List.replicate 7 .thread ++ [.client 0, .client 0] ++ List.replicate 3 .thread ++ [.done, .callClose 0, .client 0, .client 0] ++
    [.callReset 0 [.data [66], .err .unexpectedEOF], .client 0, .client 0, .client 0]) (fun s => (s.log, decide ({ s with log := [] } = initial 8 [.data [66], .err .unexpectedEOF] 1))) (by decide +kernel) (by decide)

/-- C45_final: the goroutine has ended, and a caller is told -/
example : ∃ s s', Reach NoReset 8 [.err .eof] 1 s ∧ (s.log, s.stopped) = ([], true) ∧ Step s (.client 0) s' ∧ (s'.log, true) = ([(0, .read [] (some .eof))], true) :=
  history2 (rdStart 0 1 ++ List.replicate 4 .thread ++ [.client 0]) (.client 0) (fun s => (s.log, s.stopped)) (fun s => (s.log, true)) (by decide +kernel) (by decide +kernel) (by decide)

/-- C40_close: one byte is read, the Reader is closed, and the next `Read` returns `canceled` -/
example : ∃ s, Reach NoReset 1 ([[65, 66]].map .data ++ [.err .eof]) 2 s ∧ (s.log, s.forced) = ([(0, .read [65] none), (1, .closed), (0, .read [] (some .canceled))], true) :=
  history (rdStart 0 1 ++ List.replicate 7 .thread ++ [.client 0, .client 0, .callClose 1, .client 1, .client 1, .client 1] ++ List.replicate 6 .thread ++
    [.done, .client 1, .client 1, .client 1] ++ rdStart 0 1) (fun s => (s.log, s.forced)) (by decide +kernel) (by decide)

end Flate.Props
