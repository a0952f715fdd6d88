/-
A scheduler, which makes particular histories of the concurrent model checkable by evaluation.  Used for counterexamples and examples only.
-/
import Verif.Proof.ConcLive

namespace Flate.Proof.Cc
open Flate.Model Flate.Model.Rd Flate.Model.Conc

/-- the first one who waits for cv1 -/
def firstWaiting : List CPc → Option (Nat × Nat)
  | [] => none
  | .rdWait n :: _ => some (0, n)
  | _ :: r => (firstWaiting r).map fun x => (x.1 + 1, x.2)

theorem firstWaiting_some {cs : List CPc} {j n : Nat} (h : firstWaiting cs = some (j, n)) : cs[j]? = some (.rdWait n) := by
  induction cs generalizing j with
  | nil => cases h
  | cons c cs ih =>
    cases c with
    | rdWait m => cases h; rfl
    | _ =>
      simp only [firstWaiting, Option.map_eq_some_iff] at h
      obtain ⟨⟨a, b⟩, h1, h2⟩ := h
      cases h2
      simpa using ih h1

theorem firstWaiting_none {cs : List CPc} (h : firstWaiting cs = none) : ∀ j n : Nat, cs[j]? ≠ some (CPc.rdWait n) := by
  induction cs with
  | nil => intro j n hj; cases hj
  | cons c cs ih =>
    intro j n hj
    cases c with
    | rdWait m => cases h
    | _ =>
      simp only [firstWaiting, Option.map_eq_none_iff] at h
      cases j with
      | zero => cases hj
      | succ j => exact ih h j n (by simpa using hj)

def signal (cs : List CPc) : List CPc := match firstWaiting cs with
  | none => cs
  | some (j, n) => cs.set j (.rdWoken n)

theorem signal_ok (cs : List CPc) : Signal1 cs (signal cs) := by
  unfold signal
  cases h : firstWaiting cs with
  | none => exact .nobody (firstWaiting_none h)
  | some x => obtain ⟨j, n⟩ := x; exact .one (firstWaiting_some h)

/-- `Read` returns as much as it can -/
def finish (s : St) (i n : Nat) : St :=
  if s.buf = [] then { s.setC i .idle with mu2 := none, log := s.log ++ [(i, .read [] s.outErr)] }
  else if s.buf.drop n = [] then { s.setC i .idle with mu2 := none, buf := [], th := wakeT s.th, log := s.log ++ [(i, .read s.buf none)] }
  else { s with mu2 := none, buf := s.buf.drop n, cls := signal (s.cls.set i .idle), log := s.log ++ [(i, .read (s.buf.take n) none)] }

theorem finish_ok (s : St) (i n : Nat) : Finish s i n (finish s i n) := by
  unfold finish
  split
  · exact .error ‹_›
  · rename_i hb
    split
    · rename_i hr
      exact .all hb ⟨by simp, by simpa using hr, fun _ => hb⟩
    · rename_i hr
      refine .some hb ⟨by simp, by simp; omega, fun h e => ?_⟩ hr (signal_ok _)
      have := congrArg List.length e
      simp only [List.length_take, List.length_nil] at this
      have := List.length_pos_iff.2 hb
      omega

/-- a step of caller `i` -/
def execC (s : St) (i : Nat) (c : CPc) : Option St := match c with
  | .rd0 n => if s.mu1 = none then some { s.setC i (.rd1 n) with mu1 := some (.client i) } else none
  | .rd1 n => if s.started = true then some { s.setC i (.rd2 n) with mu1 := none }
      else some { s.setC i (.rd2 n) with mu1 := none, started := true, wg := s.wg + 1, th := .entry }
  | .rd2 n => if s.mu2 = none then some { s.setC i (.rd3 n) with mu2 := some (.client i) } else none
  | .rd3 n => if s.outErr = none ∧ s.buf = [] then some { s.setC i (.rdWait n) with mu2 := none, th := wakeT s.th } else some (finish s i n)
  | .rdWoken n => if s.mu2 = none then some { s.setC i (.rd4 n) with mu2 := some (.client i) } else none
  | .rd4 n => if s.outErr = none ∧ s.buf = [] then some { s.setC i (.rdWait n) with mu2 := none } else some (finish s i n)
  | .cl0 => if s.mu1 = none then some { s.setC i .cl1 with mu1 := some (.client i) } else none
  | .cl1 => if s.started = true ∧ s.stopped = false then (if s.mu2 = none then some { s.setC i .cl3 with mu2 := some (.client i) } else none)
      else some { s.setC i .idle with mu1 := none, log := s.log ++ [(i, .closed)] }
  | .cl3 => some { s with mu1 := none, mu2 := none, outErr := some .canceled, buf := [], errSet := true, forced := true, th := wakeT s.th, cls := (s.cls.set i .cl4).map wakeC }
  | .cl4 => if s.wg = 0 then some (s.setC i .cl5) else none
  | .cl5 => if s.mu1 = none then some { s.setC i .cl6 with mu1 := some (.client i) } else none
  | .cl6 => some { s.setC i .idle with mu1 := none, log := s.log ++ [(i, .closed)] }
  | .rs0 sc => if s.mu1 = none then some { s.setC i (.rs1 sc) with mu1 := some (.client i) } else none
  | .rs1 sc => if s.mu2 = none then some { s.setC i (.rs2 sc) with mu2 := some (.client i) } else none
  | .rs2 sc => if s.started = true ∧ s.stopped = false then none
      else some { s.setC i .idle with mu1 := none, mu2 := none, started := false, stopped := false, errSet := false, forced := false, outErr := none, buf := [], acts := sc, script := sc, log := s.log ++ [(i, .reset sc)] }
  | .gt0 => if s.mu1 = none then some { s.setC i .gt1 with mu1 := some (.client i) } else none
  | .gt1 => some { s.setC i .idle with mu1 := none, log := s.log ++ [(i, .got)] }
  | .ur => some { s.setC i .idle with log := s.log ++ [(i, .got)] }
  | .idle => none
  | .rdWait _ => none

/-- a step of the goroutine -/
def execT (s : St) : Option St := match s.th with
  | .entry => if s.mu1 = none then some { s with th := .run, mu1 := some .thread } else none
  | .run => match s.acts with
    | .data p :: r => if s.forced = true ∨ p = [] then some { s with acts := r } else some { s with acts := r, th := .fl1 p, mu1 := none }
    | .err e :: r => if s.errSet = true then some { s with acts := r }
        else if s.mu2 = none then some { s with acts := r, th := .errHeld e, mu2 := some .thread } else none
    | [] => some { s with th := .absent, mu1 := none, stopped := true, zomb := s.zomb + 1 }
  | .errHeld e => some { s with th := .run, mu2 := none, outErr := some e, errSet := true, cls := s.cls.map wakeC }
  | .fl1 p => if s.mu2 = none then some { s with th := .fl2 p, mu2 := some .thread } else none
  | .fl2 p => if s.cap ≤ s.buf.length then some { s with th := .flWait p, mu2 := none } else some { s with th := .fl3 p, mu2 := none }
  | .flWoken p => if s.mu2 = none then some { s with th := .fl2 p, mu2 := some .thread } else none
  | .fl3 p => if s.mu1 = none then some { s with th := .fl4 p, mu1 := some .thread } else none
  | .fl4 p => if s.forced = true then some { s with th := .run } else if s.mu2 = none then some { s with th := .fl5 p, mu2 := some .thread } else none
  | .fl5 p => if s.buf.length + p.length ≤ s.cap then some { s with th := .run, mu2 := none, buf := s.buf ++ p, cls := signal s.cls }
      else if s.cap ≤ s.buf.length then none
      else some { s with th := .fl1 (p.drop (s.cap - s.buf.length)), mu1 := none, mu2 := none, buf := s.buf ++ p.take (s.cap - s.buf.length), cls := signal s.cls }
  | .absent => none
  | .flWait _ => none

def exec (s : St) : Lab → Option St
  | .callRead i n => if s.cls[i]? = some .idle then some (s.setC i (.rd0 n)) else none
  | .callClose i => if s.cls[i]? = some .idle then some (s.setC i .cl0) else none
  | .callReset i sc => if s.cls[i]? = some .idle then some (s.setC i (.rs0 sc)) else none
  | .callGet i => if s.cls[i]? = some .idle then some (s.setC i .gt0) else none
  | .callUnder i => if s.cls[i]? = some .idle then some (s.setC i .ur) else none
  | .client i => match s.cls[i]? with
    | some c => execC s i c
    | none => none
  | .thread => execT s
  | .done => if 0 < s.zomb then some { s with zomb := s.zomb - 1, wg := s.wg - 1 } else none

theorem execC_ok {s s' : St} {i : Nat} {c : CPc} (hc : s.cls[i]? = some c) (h : execC s i c = some s') : Step s (.client i) s' := by
  cases c with
  | idle => cases h
  | rdWait n => cases h
  | rd0 n => unfold execC at h; simp only [] at h; split at h <;> cases h; exact .rd0 hc ‹_›
  | rd1 n =>
    unfold execC at h; simp only [] at h; split at h <;> cases h
    · exact .rd1 hc ‹_›
    · rename_i hs; exact .rd1go hc (by simpa using hs)
  | rd2 n => unfold execC at h; simp only [] at h; split at h <;> cases h; exact .rd2 hc ‹_›
  | rd3 n =>
    unfold execC at h; simp only [] at h; split at h <;> cases h
    · rename_i hs; exact .rd3wait hc hs.1 hs.2
    · exact .rd3 hc ‹_› (finish_ok _ _ _)
  | rdWoken n => unfold execC at h; simp only [] at h; split at h <;> cases h; exact .rdWoken hc ‹_›
  | rd4 n =>
    unfold execC at h; simp only [] at h; split at h <;> cases h
    · rename_i hs; exact .rd4wait hc hs.1 hs.2
    · exact .rd4 hc ‹_› (finish_ok _ _ _)
  | cl0 => unfold execC at h; simp only [] at h; split at h <;> cases h; exact .cl0 hc ‹_›
  | cl1 =>
    unfold execC at h; simp only [] at h; split at h
    · rename_i hs; split at h <;> cases h; exact .cl1 hc hs.1 hs.2 ‹_›
    · cases h; exact .cl1ret hc ‹_›
  | cl3 => cases h; exact .cl3 hc
  | cl4 => unfold execC at h; simp only [] at h; split at h <;> cases h; exact .cl4 hc ‹_›
  | cl5 => unfold execC at h; simp only [] at h; split at h <;> cases h; exact .cl5 hc ‹_›
  | cl6 => cases h; exact .cl6 hc
  | rs0 sc => unfold execC at h; simp only [] at h; split at h <;> cases h; exact .rs0 hc ‹_›
  | rs1 sc => unfold execC at h; simp only [] at h; split at h <;> cases h; exact .rs1 hc ‹_›
  | rs2 sc => unfold execC at h; simp only [] at h; split at h <;> cases h; exact .rs2 hc ‹_›
  | gt0 => unfold execC at h; simp only [] at h; split at h <;> cases h; exact .gt0 hc ‹_›
  | gt1 => cases h; exact .gt1 hc
  | ur => cases h; exact .ur hc

theorem execT_ok {s s' : St} (h : execT s = some s') : Step s .thread s' := by
  unfold execT at h
  split at h
  · split at h <;> cases h; exact .entry ‹_› ‹_›
  · split at h
    · split at h <;> cases h
      · exact .skip ‹_› ‹_› ‹_›
      · rename_i hn
        exact .flush ‹_› ‹_› (by simp only [not_or] at hn; simpa using hn.1) (fun e => hn (Or.inr e))
    · split at h
      · cases h; exact .skipErr ‹_› ‹_› ‹_›
      · rename_i hn
        split at h <;> cases h; exact .errLock ‹_› ‹_› (by simpa using hn) ‹_›
    · cases h; exact .exit ‹_› ‹_›
  · cases h; exact .errSet ‹_›
  · split at h <;> cases h; exact .fl1 ‹_› ‹_›
  · split at h <;> cases h
    · exact .fl2wait ‹_› ‹_›
    · exact .fl2 ‹_› (by omega)
  · split at h <;> cases h; exact .flWoken ‹_› ‹_›
  · split at h <;> cases h; exact .fl3 ‹_› ‹_›
  · split at h
    · cases h; exact .fl4stop ‹_› ‹_›
    · rename_i hn
      split at h <;> cases h; exact .fl4 ‹_› (by simpa using hn) ‹_›
  · rename_i p hp
    split at h
    · cases h; exact .fl5end hp ‹_› (signal_ok _)
    · split at h <;> cases h
      refine .fl5 hp (List.take_append_drop (s.cap - s.buf.length) p).symm ?_ ?_ ?_ (signal_ok _)
      · intro e
        have := congrArg List.length e
        simp only [List.length_take, List.length_nil] at this
        omega
      · intro e
        have := congrArg List.length e
        simp only [List.length_drop, List.length_nil] at this
        omega
      · simp only [List.length_take]; omega
  · cases h
  · cases h

theorem exec_ok {s s' : St} {l : Lab} (h : exec s l = some s') : Step s l s' := by
  cases l with
  | callRead i n => simp only [exec] at h; split at h <;> cases h; exact .callRead n ‹_›
  | callClose i => simp only [exec] at h; split at h <;> cases h; exact .callClose ‹_›
  | callReset i sc => simp only [exec] at h; split at h <;> cases h; exact .callReset sc ‹_›
  | callGet i => simp only [exec] at h; split at h <;> cases h; exact .callGet ‹_›
  | callUnder i => simp only [exec] at h; split at h <;> cases h; exact .callUnder ‹_›
  | client i =>
    simp only [exec] at h
    split at h
    · exact execC_ok ‹_› h
    · cases h
  | thread => exact execT_ok h
  | done => simp only [exec] at h; split at h <;> cases h; exact .done ‹_›

/-- follow a schedule -/
def execs (s : St) : List Lab → Option St
  | [] => some s
  | l :: r => (exec s l).bind (execs · r)

theorem steps_trans {P : Lab → Prop} {s t u : St} (h1 : Steps P s t) (h2 : Steps P t u) : Steps P s u := by
  induction h2 with
  | refl => exact h1
  | step _ h hl ih => exact ih.step h hl

theorem execs_ok {P : Lab → Prop} {s s' : St} {ls : List Lab} (h : execs s ls = some s') (hP : ∀ l ∈ ls, P l) : Steps P s s' := by
  induction ls generalizing s with
  | nil => cases h; exact .refl
  | cons l ls ih =>
    simp only [execs, Option.bind_eq_some_iff] at h
    obtain ⟨t, h1, h2⟩ := h
    exact steps_trans (.step .refl (exec_ok h1) (hP l (by simp))) (ih h2 fun x hx => hP x (by simp [hx]))

instance : DecidablePred ReadOnly := fun l => by cases l <;> unfold ReadOnly <;> infer_instance
instance : DecidablePred NoReset := fun l => by cases l <;> unfold NoReset <;> infer_instance
instance : DecidablePred Internal := fun l => by cases l <;> unfold Internal <;> infer_instance

end Flate.Proof.Cc
