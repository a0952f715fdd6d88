/-
A stream whose footer does not belong to its content is refused.
-/
import Verif.Proof.RRun

namespace Flate.Proof.R
open Flate.Spec Flate.Model Flate.Model.Rd

section
variable {E : Env} {e0 : Err} {s : RState}

theorem stream_badfoot (hE : EnvOK E) (hs : Ready e0 s) {c : Container} {hdr body data r : List UInt8} (hc : detect E.o.format s.inp.buf = c)
    (h1 : HeaderOf (2 ^ E.o.wbits) E.o.dict c hdr) (hD : DeflateOf (BlockEnc (Env.ok E) (2 ^ E.o.wbits)) (E.o.dict.getD []) body data)
    (hb : s.inp.buf = hdr ++ body ++ r) (hr : ∀ r2, r ≠ footerOf data c ++ r2) :
    ∃ s', readStream E s = .ok (false, s') ∧ Halted e0 s data s' := by
  have hne := deflate_ne hD
  obtain ⟨bs, b, pad, hh, d1, d2, d3, d4⟩ := hD
  have hb1 : s.inp.buf = hdr ++ (body ++ r) := by rw [hb]; simp
  obtain ⟨h, s5, k1, k2, k3⟩ := stream_head_ok (E := E) hs (by rw [hb]; simp; tauto) hc h1 hb1
  have hvb : vb s5.inp = bs ++ b ++ (pad ++ bytesBits r) := by
    rw [vb_flat k2.flat, k2.ibuf, bytesBits_append, d3]; simp
  obtain ⟨p, bks, s6, q1, q2, q3, q4⟩ := blockLoop_ok hE d1 (by simpa using d2) (s5.inp.bits + 1) (k2.nm hs) (SomeAll.at0 k2.flat) k2.window (Nat.lt_succ_self _) hvb
  have hp : data = p := List.append_cancel_left q1
  subst hp
  obtain ⟨body', c1, ⟨pad', c2, c2'⟩, c3⟩ := stream_close hE hs hb1 k2 q3 q4 q2
  have hlen : body'.length = body.length := by
    have e1 := congrArg List.length c2
    have e2 := congrArg List.length d3
    simp only [List.length_append, bytesBits_length] at e1 e2
    omega
  obtain ⟨hbody, c1'⟩ := List.append_inj c1.symm hlen
  subst hbody
  rcases c3 with ⟨r2, ks, s', c3, _⟩ | ⟨s', _, c4, c5⟩
  · rw [c1'] at c3
    exact absurd c3 (hr r2)
  · exact ⟨s', k3.trans c4, c5⟩

/-- The whole goroutine. -/
theorem run_badfoot (hE : EnvOK E) {src : Src} {c : Container} {hdr body data r : List UInt8} (hc : detect E.o.format src.first = c)
    (h1 : HeaderOf (2 ^ E.o.wbits) E.o.dict c hdr) (hD : DeflateOf (BlockEnc (Env.ok E) (2 ^ E.o.wbits)) (E.o.dict.getD []) body data)
    (hb : src.bytes = hdr ++ body ++ r) (hr : ∀ r2, r ≠ footerOf data c ++ r2) :
    ∃ (s' : RState) (ds : List (List UInt8)) (e : Err) (post : List Act), readThread E (start src false) = .ok ((), s') ∧ s'.out.acts = ds.map .data ++ .err e :: post ∧ Bad src.err e ∧
      post.countP isErr = 0 ∧ ds.flatten <+: data ∧ data <+: ds.flatten ++ actData post := by
  have hcalm : Calm (start src false) := ⟨rfl, rfl, ⟨rfl, rfl⟩, rfl, rfl⟩
  have hall : allB (start src false).inp = src.bytes := rfl
  have hfb : (filled (start src false)).inp.buf = src.first := by
    unfold filled refill start fill Src.first
    rcases src with ⟨_ | ⟨⟨b, bs⟩, cs⟩, last, err⟩ <;> simp
  have hfne : src.first ≠ [] := by
    have hne : src.bytes ≠ [] := by rw [hb]; have := deflate_ne hD; simp [this]
    intro h0
    apply hne
    have := (filled_all hcalm).2 (by rw [hfb]; exact h0)
    exact hall ▸ this.1
  have hcm := cm_readStream hE.opn hcalm.stop (by rw [hfb]; exact hfne)
  rw [hfb, hc] at hcm
  have hE' : EnvOK (asF E (fmtOf c)) := ⟨hE.lawful, hE.word, hE.opn⟩
  have hnb := hcalm.nbuf
  obtain ⟨s1, k1, k2⟩ := stream_badfoot (E := asF E (fmtOf c)) hE' hcalm.ready (c := c) (detect_fmtOf c _) h1 hD (hnb.trans (hall.trans hb)) hr
  rw [hcm] at k1
  obtain ⟨s1, k3, rfl⟩ := mapS_ok k1
  have hst := stop_readStream hE.opn hcalm.stop k3
  have hend := halt_end (s := nrm (start src false)) (s0 := start src false) (s' := s1) (ds0 := []) (d := []) (by simp [nrm]) rfl hcalm.set hst k2 (Past.of_nrm (.refl _))
  have hloop : streamLoop E ((start src false).inp.size + 2) (start src false) = .ok ((), s1) := by
    show streamLoop E (((start src false).inp.size + 1) + 1) (start src false) = .ok ((), s1)
    rw [streamLoop]
    simp only [hcalm.err, Option.isNone_none, if_true, k3]
  have hrun : readThread E (start src false) = finishThread s1 := by
    have hst : readThread E (start src false) = ((fun s => streamLoop E (s.inp.size + 2) s : Go RState Unit) >>= fun _ => finishThread) (start src false) := by
      unfold readThread
      exact Go.bind_ok (Go.modify_apply _ _)
    rw [hst]
    exact Go.bind_ok hloop
  have hfin : finishThread s1 = .ok ((), { s1 with inp := { s1.inp with inputError := some (s1.inp.inputError.getD .eof) }, out := closeOut (s1.inp.inputError.getD .eof) s1.out }) := by
    unfold finishThread
    refine (Go.bind_ok (onInp_ok rfl)).trans ?_
    unfold propagateError
    simp only [Bool.false_and, Bool.false_eq_true, if_false]
    exact closeWithError_eq _ _
  obtain ⟨e, ds, db, post, t1, t2, t3, t4, t5, t6, ⟨q, t7⟩, _⟩ := hend
  rw [flushed_loop _ rfl hloop] at t7
  refine ⟨_, ds, e, post, hrun.trans hfin, ?_, t1, t4, ⟨db, by simpa using t3⟩, ?_⟩
  · simp only [closeOut, t5, if_true]
    rw [t2]; simp [start]
  · have t3 : ds.flatten ++ db = data := by simpa using t3
    rw [← t3]
    refine ⟨q, ?_⟩
    rw [List.append_nil] at t7
    rw [List.append_assoc, t7]

end
end Flate.Proof.R
