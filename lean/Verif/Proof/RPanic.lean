/-
A malformed extra field in the first header makes the Reader's goroutine panic.
-/
import Verif.Proof.RRun

namespace Flate.Proof.R
open Flate.Spec Flate.Model Flate.Model.Rd

section
variable {E : Env} {s : RState} {e0 : Err}

theorem gzExtra_panics (hs : s.inp.inputError = some e0) (hf : Flat s.inp) (hh : s.header.extra = []) (hp : ExtraPanics s.inp.buf) :
    gzExtraData true s = .error .bounds := by
  obtain ⟨e, r, hb, hl, hx⟩ := hp
  have l2 : leVal (leBytes 2 e.length) = e.length := leVal_leBytes 2 _ (by simpa using hl)
  rcases needBytes_eq hs false 2 (fun p => needBytes false (leVal p) fun raw => do
      let recs ← Go.lift (parseExtra raw [])
      modHeader fun h => { h with extra := recs }
      pure true) with ⟨p, r1, b1, l1, e1⟩ | ⟨h1, _⟩
  swap
  · rw [hb] at h1; simp at h1; omega
  have hb' : p ++ r1 = leBytes 2 e.length ++ (e ++ r) := by rw [← b1, hb, List.append_assoc]
  obtain ⟨rfl, rfl⟩ := List.append_inj hb' (by rw [l1]; simp)
  refine e1.trans ?_
  rcases needBytes_eq (s := { s with inp := takeIn (leBytes 2 e.length) (e ++ r) s.inp }) hs false (leVal (leBytes 2 e.length)) (fun raw => do
      let recs ← Go.lift (parseExtra raw [])
      modHeader fun h => { h with extra := recs }
      pure true) with ⟨e', r2, b2, l2', e2⟩ | ⟨h2, _⟩
  swap
  · have h2 : (e ++ r).length < leVal (leBytes 2 e.length) := h2
    rw [l2] at h2; simp at h2
    omega
  have b2 : e ++ r = e' ++ r2 := b2
  rw [l2] at l2'
  obtain ⟨rfl, rfl⟩ := List.append_inj b2 l2'.symm
  refine e2.trans ?_
  rcases parseExtra_spec e with ⟨_, _, h, _⟩ | ⟨h, _⟩
  · exact absurd h hx
  · exact Go.bind_error (by rw [h]; rfl)

theorem gz_panics (hs : s.inp.inputError = some e0) (hh : s.header = {}) (hp : GzPanics s.inp.buf) : readHeaderGZIP s = .error .bounds := by
  obtain ⟨f, t, x, o, r, h1, h2, h3, hb, hp⟩ := hp
  rcases gz_fixed hs hh with ⟨f', t', x', o', r1, h1', h2', b1, e1⟩ | ⟨hno, _⟩
  swap
  · exact absurd hb (hno _ _ _ _ _ h1 h2)
  obtain ⟨rfl, rfl, rfl, rfl, rfl⟩ := gzPrefix_inj h1' h1 h2' h2 (b1.symm.trans hb)
  rw [e1]
  unfold gzRest
  have : decide (f' &&& 4 ≠ 0) = true := decide_eq_true h3
  rw [this]
  exact chk_error (gzExtra_panics (s := { s with inp := takeIn _ r1 { s.inp with crc := Crc.init }, header := gzFixed (decide (f' &&& 1 ≠ 0)) t' x' o' }) hs (flat_takeIn _ _ _) rfl hp)

theorem stream_panics (hs : Ready e0 s) (hb : s.inp.buf ≠ []) (hc : detect E.o.format s.inp.buf = .gzip) (hp : GzPanics s.inp.buf) : readStream E s = .error .bounds := by
  obtain ⟨s3, h3, e3⟩ := stream_begin (E := E) hs.err hb
  obtain ⟨ev, hev, rfl⟩ := h3
  have hdet : readHeaderOf E E.o.format _ = _ := readHeaderOf_detect E E.o.format { s with inp := { s.inp with inStream := 0 }, out := { s.out with outStream := 0, window := (lastN (2 ^ E.o.wbits) (E.o.dict.getD [])) }, numStreams := s.numStreams + 1, actualFormat := .default, header := {}, events := s.events ++ [ev] }
  rw [show detect E.o.format _ = .gzip from hc] at hdet
  have : readHeaderGZIP { s with inp := { s.inp with inStream := 0 }, out := { s.out with outStream := 0, window := (lastN (2 ^ E.o.wbits) (E.o.dict.getD [])) }, numStreams := s.numStreams + 1, actualFormat := .default, header := {}, events := s.events ++ [ev] } = .error .bounds :=
    gz_panics (e0 := e0) hs.err rfl hp
  exact e3.trans (chk_error (chk_error (hdet.trans this)))

theorem step_panics (hE : EnvOK E) (hs : Calm s) (hc : firstC E s = .gzip) (hp : GzPanics (allB s.inp)) : readStream E s = .error .bounds := by
  have hne : allB s.inp ≠ [] := by
    obtain ⟨f, t, x, o, r, _, _, _, hb, _⟩ := hp
    rw [hb]; simp [gzPrefix]
  have hb : (filled s).inp.buf ≠ [] := fun h => hne ((filled_all hs).2 h).1
  have hcm := cm_readStream hE.opn hs.stop hb
  have hc' : detect E.o.format (filled s).inp.buf = .gzip := hc
  rw [hc'] at hcm
  rw [stream_panics hs.ready (by rw [hs.nbuf]; exact hne) (detect_fmtOf .gzip _) (by rw [hs.nbuf]; exact hp)] at hcm
  exact mapS_error hcm.symm

theorem thread_panics (hE : EnvOK E) (src : Src) (hc : detect E.o.format src.first = .gzip) (hp : GzPanics src.bytes) :
    readThread E (start src false) = .error .bounds := by
  have hcalm : Calm (start src false) := ⟨rfl, rfl, ⟨rfl, rfl⟩, rfl, rfl⟩
  have hfc : firstC E (start src false) = .gzip := by
    refine Eq.trans ?_ hc
    unfold firstC filled refill start fill Src.first
    rcases src with ⟨_ | ⟨⟨b, bs⟩, cs⟩, last, err⟩ <;> simp
  have h1 := step_panics hE hcalm hfc hp
  have hst : readThread E (start src false) = ((fun s => streamLoop E (s.inp.size + 2) s : Go RState Unit) >>= fun _ => finishThread) (start src false) := by
    unfold readThread
    exact Go.bind_ok (Go.modify_apply _ _)
  rw [hst]
  refine Go.bind_error ?_
  unfold streamLoop
  simp only [hcalm.err, Option.isNone_none, if_true]
  rw [h1]

end
end Flate.Proof.R
