/-
outputBuffer is never overfull, and nothing is lost between the goroutine and the callers of `Read`.
-/
import Verif.Proof.ConcLog

namespace Flate.Proof.Cc
open Flate.Model Flate.Model.Rd Flate.Model.Conc

theorem room_finish {s s' : St} {i n : Nat} (h : s.buf.length ≤ s.cap) (f : Finish s i n s') : s'.buf.length ≤ s'.cap := by
  cases f with
  | error hb => exact h
  | all hb hp => exact Nat.zero_le _
  | some hb hr hn sg =>
    have := congrArg List.length hr.1
    simp only [List.length_append] at this
    simp only [St.setC]
    omega

theorem room_step {s s' : St} {l : Lab} (h : s.buf.length ≤ s.cap) (hs : Step s l s') : s'.buf.length ≤ s'.cap := by
  cases hs with
  | rd3 _ _ f => exact room_finish h f
  | rd4 _ _ f => exact room_finish h f
  | cl3 _ => exact Nat.zero_le _
  | rs2 _ _ => exact Nat.zero_le _
  | fl5end _ hb _ => simpa using hb
  | fl5 _ _ _ _ hb _ => simpa using hb
  | _ => exact h

theorem reach_room {P : Lab → Prop} {cap n : Nat} {script : List Act} {s : St} (h : Reach P cap script n s) : s.buf.length ≤ s.cap := by
  unfold Reach at h
  induction h with
  | refl => exact Nat.zero_le _
  | step _ hs _ ih => exact room_step ih hs

end Flate.Proof.Cc
