/-
An input whose header is bad: nothing is delivered, not even after the error.
-/
import Verif.Proof.RHeadEv
import Verif.Proof.RPos
import Verif.Proof.RRun

namespace Flate.Proof.R
open Flate.Spec Flate.Model Flate.Model.Rd

/-- nothing is delivered in between -/
def NoData (s s' : RState) : Prop := actData s'.out.acts = actData s.out.acts

theorem closeOut_noData (e : Err) (o : Out) : actData (closeOut e o).acts = actData o.acts := by
  unfold closeOut
  split
  · rfl
  · simp [actData_append, actData]

theorem noData_flow : Flow NoData where
  refl _ := rfl
  trans _ _ _ h h' := h'.trans h
  inp _ _ _ := rfl
  close s e _ := closeOut_noData e s.out
  hdr _ _ _ := rfl

theorem noData_propagate (b : Bool) : Keeps NoData (propagateError b) := by
  intro s a s' e
  unfold propagateError at e
  split at e
  · cases e; rfl
  · rw [closeWithError_eq] at e; cases e; exact closeOut_noData _ _

section
variable {E : Env}

theorem noHead_stream {s s' : RState} {b : Bool} (hflat : Flat s.inp) (hn : ∀ hdr r, HeaderOf (2 ^ E.o.wbits) E.o.dict (detect E.o.format (filled s).inp.buf) hdr → allB s.inp ≠ hdr ++ r)
    (e : readStream E s = .ok (b, s')) : b = false ∧ NoData s s' := by
  obtain ⟨f1, f2, f3, f4, f5, f6⟩ := filled_frame s
  have hfill : NoData s (filled s) := rfl
  rw [readStream_split] at e
  split at e
  · obtain ⟨_, s1, e1, e2⟩ := Go.bind_eq_ok.1 e
    cases e2
    exact ⟨rfl, noData_propagate _ (filled s) _ _ e1⟩
  · unfold Go.chk at e
    rcases hx : headRest E (filled s) with p | ⟨b1, s1⟩
    · rw [hx] at e; cases e
    · rw [hx] at e
      rw [headRest_eq] at hx
      unfold Go.chk at hx
      rcases hy : readHeaderOf E E.o.format (begun E (filled s)) with p | ⟨b2, s2⟩
      · rw [hy] at hx; cases hx
      · rw [hy] at hx
        cases b2 with
        | false => cases hx; cases e; exact ⟨rfl, noData_flow.headerOf E _ (begun E (filled s)) _ _ hy⟩
        | true =>
          exfalso
          have hf : Flat (begun E (filled s)).inp := by
            show Flat (refill s.out.stopIsForced { s.inp with inStream := 0 })
            unfold refill
            split
            · exact flat_fill _ _ hflat
            · exact hflat
          obtain ⟨hdr, r, hh, k1, k2, k3, _⟩ := header_true hf rfl hy
          exact hn hdr r k1 (f2.symm.trans k3)

theorem noHead_thread {src : Src} {s : RState} (hn : ∀ hdr r, HeaderOf (2 ^ E.o.wbits) E.o.dict (detect E.o.format src.first) hdr → src.bytes ≠ hdr ++ r)
    (e : readThread E (start src false) = .ok ((), s)) : actData s.out.acts = [] := by
  have hst : readThread E (start src false) = ((fun s => streamLoop E (s.inp.size + 2) s : Go RState Unit) >>= fun _ => finishThread) (start src false) := by
    unfold readThread
    exact Go.bind_ok (Go.modify_apply _ _)
  obtain ⟨_, s1, e1, e2⟩ := Go.bind_eq_ok.1 (hst.symm.trans e)
  have h3 : NoData s1 s := Keeps.bind noData_flow.toPre (noData_flow.onInp fun _ i a i' e => by cases e; exact steady_of rfl rfl (Nat.le_refl _)) (fun _ => noData_propagate _) _ _ _ e2
  rw [h3]
  have hbuf : (filled (start src false)).inp.buf = src.first := by
    rcases src with ⟨_ | ⟨⟨x, xs⟩, cs⟩, l, e⟩ <;> rfl
  simp only [streamLoop] at e1
  split at e1
  · rcases hx : readStream E (start src false) with p | ⟨b, s2⟩
    · rw [hx] at e1; cases e1
    · rw [hx] at e1
      obtain ⟨rfl, h4⟩ := noHead_stream (s := start src false) ⟨rfl, rfl⟩ (by rw [hbuf]; exact hn) hx
      cases e1
      exact h4
  · cases e1; rfl

/-- the goroutine runs to its end, unless the extra data of a gzip header make it panic -/
theorem noHead_runs (hE : EnvOK E) {src : Src} (hn : ∀ hdr r, HeaderOf (2 ^ E.o.wbits) E.o.dict (detect E.o.format src.first) hdr → src.bytes ≠ hdr ++ r)
    (hp : detect E.o.format src.first = .gzip → ¬ GzPanics src.bytes) : ∃ s, readThread E (start src false) = .ok ((), s) := by
  have hst : readThread E (start src false) = ((fun s => streamLoop E (s.inp.size + 2) s : Go RState Unit) >>= fun _ => finishThread) (start src false) := by
    unfold readThread
    exact Go.bind_ok (Go.modify_apply _ _)
  have hbuf : (filled (start src false)).inp.buf = src.first := by
    rcases src with ⟨_ | ⟨⟨x, xs⟩, cs⟩, l, e⟩ <;> rfl
  have hcalm : Calm (start src false) := ⟨rfl, rfl, ⟨rfl, rfl⟩, rfl, rfl⟩
  have hall : allB (start src false).inp = src.bytes := rfl
  obtain ⟨b, s1, h1⟩ : ∃ b s1, readStream E (start src false) = .ok (b, s1) := by
    rcases stream_step hE hcalm with ⟨_, s', h, _⟩ | ⟨_, s', _, _, _, h, _⟩ | ⟨b, _, _, s', _, _, h, _⟩ | ⟨_, hg, _, hp', _⟩
    · exact ⟨_, _, h⟩
    · exact ⟨_, _, h⟩
    · exact ⟨_, _, h⟩
    · unfold firstC at hg
      rw [hbuf] at hg
      exact absurd hp' (hp hg.symm)
  obtain ⟨rfl, _⟩ := noHead_stream (s := start src false) ⟨rfl, rfl⟩ (by rw [hbuf]; exact hn) h1
  obtain ⟨e, he⟩ := finishThread_eq s1
  refine ⟨_, hst.trans ((Go.bind_ok (a := ()) ?_).trans he)⟩
  simp only [streamLoop]
  rw [h1]
  rfl

end
end Flate.Proof.R
