/-
C80: how far a Reader decompresses ahead of its callers.

`s.log` lists what calls returned; `s.acts` is what the goroutine has still to begin.
-/
import Verif.Proof.ConcRoom
import Verif.Proof.RFit
import Verif.Props.ReadCalls

namespace Flate.Props
open Flate.Spec Flate.Model Flate.Model.Rd Flate.Model.Conc Flate.Proof Flate.Proof.R Flate.Proof.Cc

/-- data which the goroutine has decompressed and is about to put in outputBuffer -/
def flying : TPc → List UInt8
  | .absent | .entry | .run | .errHeld _ => []
  | .fl1 p | .fl2 p | .flWait p | .flWoken p | .fl3 p | .fl4 p | .fl5 p => p

/-- no piece of data exceeds `D` bytes -/
def Pieces (D : Nat) (script : List Act) : Prop := ∀ p, Act.data p ∈ script → p.length ≤ D

theorem source_pieces {D : Nat} : ∀ (log : List (Nat × Res)) {script : List Act}, Pieces D script → (∀ i sc, (i, Res.reset sc) ∈ log → Pieces D sc) → Pieces D (source script log)
  | [], _, h, _ => h
  | (i, r) :: log, script, h, hr => by
    have ih := @source_pieces D log
    have hr' : ∀ i sc, (i, Res.reset sc) ∈ log → Pieces D sc := fun i sc hm => hr i sc (List.mem_cons_of_mem _ hm)
    cases r with
    | reset sc => exact ih (script := sc) (hr i sc (List.mem_cons_self ..)) hr'
    | read p e => exact ih h hr'
    | closed => exact ih h hr'
    | got => exact ih h hr'

/-- **C80.** Whatever the schedule and the calls so far, if the goroutine makes pieces of at most `D` bytes: at most `cap` bytes are in outputBuffer
and at most `D` more are on their way there; and unless the Reader has been closed, what has been decompressed is what `Read` has returned since the last `Reset`, followed by these,
nothing else.  The pieces still to be made have at most `D` bytes each. -/
theorem C80_ahead {P : Lab → Prop} {cap D n : Nat} {script : List Act} {s : St} (hc : 0 < cap) (h : Reach P cap script n s) (hD : Pieces D script)
    (hr : ∀ i sc, (i, Res.reset sc) ∈ s.log → Pieces D sc) :
    s.buf.length ≤ cap ∧ (flying s.th).length ≤ D ∧ Pieces D s.acts ∧
    (s.forced = false → ∃ done, source script s.log = done ++ s.acts ∧ actData done = got s.log ++ s.buf ++ flying s.th) := by
  have hb := reach_room h
  rw [reach_cap h] at hb
  have hs : Pieces D s.script := by rw [reach_source h]; exact source_pieces _ hD hr
  obtain ⟨d, w, p⟩ := (reach_inv hc h).prog
  refine ⟨hb, ?_, fun q hq => hs q (by rw [p.script]; simp [hq]), fun hf => ⟨d ++ pend w s.th, ?_, ?_⟩⟩
  · have hm : ∀ q, Act.data (w ++ q) ∈ pend w s.th → q.length ≤ D := fun q hq => by
      have := hs (w ++ q) (by rw [p.script]; simp [hq])
      simp only [List.length_append] at this
      omega
    cases ht : s.th <;> rw [ht] at hm <;> first | exact Nat.zero_le _ | exact hm _ (by simp [pend, flying])
  · rw [← reach_source h, p.script]
  · rw [p.data hf, Proof.Cc.actData_append]
    have hq := p.q
    cases ht : s.th with
    | absent | entry | run | errHeld _ => rw [ht] at hq; rw [hq rfl]; simp [pend, actData, flying]
    | _ => simp [pend, actData, flying]

/-- what a Reader delivers comes in pieces which fit in its buffer -/
theorem runs_pieces {c : RSetup} {src : Src} {s : RState} (hr : c.Runs src s) : Pieces (2 ^ (c.o.mlevel + 6)) s.out.acts := by
  refine (ft_thread c.env _ _ _ hr ⟨Nat.zero_le _, ?_⟩).2
  intro p hp
  cases hp

/-- **C80 for a Reader.** Whatever its input, a Reader holds at most `2 * 2^(mlevel+6)` bytes of data it has decompressed and not yet returned.
In particular the amount decompressed (including the piece which is being made, if none is on its way to outputBuffer) exceeds the amount returned by no more than that.
Sources given in calls of `Reset` are decompressed with the same options. -/
theorem C80_bounded {c : RSetup} {P : Lab → Prop} {src : Src} {n : Nat} {t : St} (hh : c.Calls P src (2 ^ (c.o.mlevel + 6)) n t)
    (hr : ∀ i sc, (i, Res.reset sc) ∈ t.log → ∃ src' s', c.Runs src' s' ∧ sc = s'.out.acts) :
    t.buf.length + (flying t.th).length ≤ 2 * 2 ^ (c.o.mlevel + 6) ∧
    (t.forced = false → ∀ s, c.Runs src s → ∃ done, source s.out.acts t.log = done ++ t.acts ∧
      (actData done).length ≤ (got t.log).length + 2 * 2 ^ (c.o.mlevel + 6) ∧
      (flying t.th = [] → ∀ p r, t.acts = .data p :: r → (actData (done ++ [.data p])).length ≤ (got t.log).length + 2 * 2 ^ (c.o.mlevel + 6))) := by
  obtain ⟨s, h1, h2⟩ := hh
  obtain ⟨a1, a2, a3, a4⟩ := C80_ahead (Nat.two_pow_pos _) h2 (runs_pieces h1) (fun i sc hm => by
    obtain ⟨src', s', h3, rfl⟩ := hr i sc hm
    exact runs_pieces h3)
  refine ⟨by omega, fun hf s' h1' => ?_⟩
  have := runs_unique h1 h1'
  subst this
  obtain ⟨done, e1, e2⟩ := a4 hf
  have hl := congrArg List.length e2
  simp only [List.length_append] at hl
  refine ⟨done, e1, by omega, fun hfl p r hp => ?_⟩
  have := a3 p (by rw [hp]; simp)
  rw [hfl] at hl
  rw [Proof.Cc.actData_append]
  simp only [List.length_append, actData, List.length_nil] at hl ⊢
  omega

/-! ### the hypotheses can be met, and the bound can be reached -/

/-- one call asked for a byte and got it: outputBuffer is full, and what remains of the second piece has to wait -/
example : ∃ t, Reach ReadOnly 2 [.data [65, 66], .data [67, 68], .data [69], .err .eof] 1 t ∧ t.log = [(0, .read [65] none)] ∧ t.buf = [66, 67] ∧ flying t.th = [68] ∧
    t.acts = [.data [69], .err .eof] := by
  have he : (execs (initial 2 [.data [65, 66], .data [67, 68], .data [69], .err .eof] 1) ([.callRead 0 1, .client 0, .client 0] ++ List.replicate 7 .thread ++ [.client 0, .client 0] ++
      List.replicate 8 .thread)).map (fun t => (t.log, t.buf, flying t.th, t.acts)) =
      some ([(0, .read [65] none)], [66, 67], [68], [.data [69], .err .eof]) := by decide +kernel
  obtain ⟨t, ht, hl⟩ := Option.map_eq_some_iff.1 he
  simp only [Prod.mk.injEq] at hl
  exact ⟨t, execs_ok ht (by decide), hl⟩

/-- nobody reads beyond the first byte: outputBuffer holds `cap` bytes and the goroutine another `D`, and there it stays -/
example : ∃ t, Reach ReadOnly 2 [.data [65], .data [66, 67], .data [68, 69], .data [70], .err .eof] 1 t ∧ t.log = [(0, .read [65] none)] ∧ t.buf.length = 2 ∧
    (flying t.th).length = 2 ∧ t.acts = [.data [70], .err .eof] := by
  have he : (execs (initial 2 [.data [65], .data [66, 67], .data [68, 69], .data [70], .err .eof] 1) ([.callRead 0 1, .client 0, .client 0] ++ List.replicate 7 .thread ++
      [.client 0, .client 0] ++ List.replicate 9 .thread)).map (fun t => (t.log, t.buf.length, (flying t.th).length, t.acts)) =
      some ([(0, .read [65] none)], 2, 2, [.data [70], .err .eof]) := by decide +kernel
  obtain ⟨t, ht, hl⟩ := Option.map_eq_some_iff.1 he
  simp only [Prod.mk.injEq] at hl
  exact ⟨t, execs_ok ht (by decide), hl⟩

/-- a Reader of a gzip stream, one of whose two bytes has been read -/
example : ∃ t, (rdemo [.mlevel 1]).Calls ReadOnly ⟨[], storedGz [65, 66], .eof⟩ (2 ^ ((rdemo [.mlevel 1]).o.mlevel + 6)) 1 t ∧
    t.log = [(0, .read [65] none)] ∧ t.buf = [66] ∧ t.forced = false := by
  have ⟨s, h1, h2⟩ : ∃ s, (rdemo [.mlevel 1]).Runs ⟨[], storedGz [65, 66], .eof⟩ s ∧ s.out.acts = [.data [65, 66], .err .eof] := acts?_some (by decide +kernel)
  have he : (execs (initial 128 [.data [65, 66], .err .eof] 1) ([.callRead 0 1, .client 0, .client 0] ++ List.replicate 7 .thread ++ [.client 0, .client 0])).map
      (fun t => (t.log, t.buf, t.forced)) = some ([(0, .read [65] none)], [66], false) := by decide +kernel
  obtain ⟨t, ht, hl⟩ := Option.map_eq_some_iff.1 he
  simp only [Prod.mk.injEq] at hl
  exact ⟨t, ⟨s, h1, by rw [h2]; exact execs_ok ht (by decide)⟩, hl⟩

end Flate.Props
