/-
What is wrong with the input when the Reader reports that it is corrupt: a whole stream.
-/
import Verif.Proof.RWhyHead

namespace Flate.Proof.R.Wrong
open Flate.Spec Flate.Model Flate.Model.Rd Flate.Proof.R Flate.Proof.R.Pos

section
variable {E : Env} {e0 : Err} {s : RState}

theorem why_head (he : NotC e0) (hs : s.inp.inputError = some e0) (hq : Quiet s.out) (hf : Flat s.inp) (hh : s.header = {}) (c : Container) :
    Why (readHeaderOf E (fmtOf c)) s (LocB (fun m w => (c = .zlib ∧ ZlibWrong (2 ^ E.o.wbits) E.o.dict m w) ∨ (c = .gzip ∧ GzWrong m w)) s.inp) := by
  cases c with
  | raw => exact Why.done (raw_eq hf hh) hq
  | zlib =>
    refine Why.mono (why_zlib (E := E) he hs hq) fun m T h => ?_
    obtain ⟨w, r, h1, h2, h3⟩ := h
    exact ⟨w, r, h1, h2, Or.inl ⟨rfl, h3⟩⟩
  | gzip =>
    refine Why.mono (why_gzip he hs hq hh) fun m T h => ?_
    obtain ⟨w, r, h1, h2, h3⟩ := h
    exact ⟨w, r, h1, h2, Or.inr ⟨rfl, h3⟩⟩

theorem why_footer (he : NotC e0) (hs : s.inp.inputError = some e0) (hq : Quiet s.out) {data : List UInt8} (hc : CrcIs s.out.crc data) (ha : AdlerIs s.out.adler data)
    (hl : s.out.outStream = data.length) {c : Container} (hfmt : s.actualFormat = fmtOf c) : Why readFooter s (LocB (FootWrong data c) s.inp) := by
  obtain ⟨inp, out, num, hd, fmt, evs⟩ := s
  simp only at hfmt hs hc ha hl
  subst hfmt
  unfold readFooter
  refine Why.step (onInp_ok (s := ⟨inp, out, num, hd, fmtOf c, evs⟩) (a := ()) (i := Rd.discard inp) rfl) ?_
  obtain ⟨ev1, he1⟩ : ∃ ev, sendEvent (.streamEnd out.adler out.crc) ⟨Rd.discard inp, out, num, hd, fmtOf c, evs⟩ = .ok ((), ⟨Rd.discard inp, out, num, hd, fmtOf c, evs ++ [ev]⟩) :=
    ⟨_, rfl⟩
  refine Why.of_eq (Go.bind_ok he1) ?_
  refine Why.chk (s := ⟨Rd.discard inp, out, num, hd, fmtOf c, evs ++ [ev1]⟩) hs
    ((why_footOf he (s := ⟨Rd.discard inp, out, num, hd, fmtOf c, evs ++ [ev1]⟩) hs hq hc ha hl c).mono fun m T h => h) (sm_readFooterOf (c := fr he) _ _ _).keep
    (Sm2.bind (sm_sendEvent (c := fr he) _) fun _ => .pure _).keep fun s1 _ hn => ?_
  intro a s' e T b m h
  cases e
  have h : actErr s1.out.acts = some (.corrupt T b m) := h
  rw [hn] at h; cases h

/-- One stream. -/
theorem stream_why (hE : EnvOK E) (hs : Ready e0 s) (he : NotC e0) (hb : s.inp.buf ≠ []) {c : Container} (hc : detect E.o.format s.inp.buf = c) (hq : Quiet s.out) :
    Why (readStream E) s (fun m T => ∃ n, T = s.inp.inTotal + n ∧ StreamWrong (Env.ok E) (2 ^ E.o.wbits) E.o.dict c m s.inp.buf n) := by
  obtain ⟨s3, h3, e3⟩ := stream_begin (E := E) hs.err hb
  have hs3 := h3
  obtain ⟨ev, hev, rfl⟩ := h3
  obtain ⟨s3, rfl'⟩ : ∃ s3 : RState, s3 = { s with inp := { s.inp with inStream := 0 }, out := { s.out with outStream := 0, window := (lastN (2 ^ E.o.wbits) (E.o.dict.getD [])) }, numStreams := s.numStreams + 1, actualFormat := .default, header := {}, events := s.events ++ [ev] } := ⟨_, rfl⟩
  rw [← rfl'] at hs3 e3
  have hdet : readHeaderOf E E.o.format s3 = readHeaderOf E (fmtOf c) s3 := by
    rw [readHeaderOf_detect, show detect E.o.format s3.inp.buf = c by rw [rfl']; exact hc]
  have he3 : s3.inp.inputError = some e0 := by rw [rfl']; exact hs.err
  have hf3 : Flat s3.inp := by rw [rfl']; exact hs.flat
  have hh3 : s3.header = {} := by rw [rfl']
  have hq3 : Quiet s3.out := by rw [rfl']; exact ⟨hq.set, hq.acts⟩
  have hb3 : s3.inp.buf = s.inp.buf ∧ s3.inp.inTotal = s.inp.inTotal := by rw [rfl']; exact ⟨rfl, rfl⟩
  rcases head_sound (E := E) he3 hf3 hh3 c with ⟨hdr, r, h, c32, k1, k2, k3, k4⟩ | ⟨s', h, c32, k1, _⟩ | ⟨k1, k2, k3⟩
  rotate_left
  · -- a bad header
    intro a s2 e T b m hcor
    have e := (e3.trans (chk_false (chk_false (hdet.trans k1)))).symm.trans e
    cases e
    obtain ⟨w, r, w1, w2, w3⟩ := why_head he he3 hq3 hf3 hh3 c _ _ k1 T b m hcor
    refine ⟨w.length, by rw [w2, hb3.2], ?_⟩
    rw [← hb3.1, w1]
    rcases w3 with ⟨rfl, w3⟩ | ⟨rfl, w3⟩
    · exact .zlib w3
    · exact .gzip w3
  · intro a s2 e
    have e := (e3.trans (chk_error (chk_error (hdet.trans k2)))).symm.trans e
    cases e
  obtain ⟨s5, ho, e5⟩ := stream_open hs3 (hdet.trans k4)
  have hbuf : s.inp.buf = hdr ++ r := by rw [← hb3.1]; exact k3
  refine Why.of_eq (e3.trans e5) ?_
  have nm := ho.nm hs
  have q5 : Quiet s5.out := ⟨ho.set.trans hq.set, by rw [ho.acts]; exact hq.acts⟩
  unfold blocksFoot
  refine Why.bind nm.err ((why_blocks hE he nm q5 (SomeAll.at0 ho.flat) ho.window).mono fun m T hl => ?_) (sm_readBlocks (c := fr he)).keep
    (fun _ => (Sm.bind (Sm.onOut (c := fr he) fun o => must_first o) fun _ => sm_readFooter).keep) fun a s6 e6 hn => ?_
  · obtain ⟨bits, j, i', l1, l2, l3, l4, l5⟩ := hl
    obtain ⟨cc, c1, c2, _, _⟩ := (l1.step.trans l2.step).took
    have hb5 : r = cc ++ i'.buf := by rw [← ho.ibuf]; exact c1
    have hbits := l1.bits
    rw [vb_flat ho.flat, ho.ibuf] at hbits
    have hlen := congrArg List.length hbits
    rw [bytesBits_length, List.length_append, ← l2.bits, vb_length, hb5, List.length_append] at hlen
    refine ⟨hdr.length + cc.length, by rw [l3, c2, ho.total]; omega, ?_⟩
    rw [hbuf]
    refine .blocks k1 l5 hbits (by rw [hb5]; simp) (by omega) fun hm => ?_
    have hj := l1.small.len
    have := l4 hm
    subst this
    omega
  · rcases blockLoop_sound hE (s5.inp.bits + 1) nm (SomeAll.at0 ho.flat) ho.window (Nat.lt_succ_self _) with ⟨bits, p, bks, s6', b1, b2, b3, b4⟩ | ⟨bits, p, s6', b1, b2, b3, b4⟩
    swap
    · have b1 : readBlocks E s5 = .ok ((), s6') := b1
      rw [e6] at b1; cases b1
      exact absurd hn (Broke.reports q5 b4)
    have b1 : readBlocks E s5 = .ok ((), s6') := b1
    rw [e6] at b1; cases b1
    obtain ⟨body, c1, ⟨pad, c2, c3⟩, _⟩ := stream_close hE hs hbuf ho b3 b4 e6
    have nm6 := nm.ran b4
    obtain ⟨m1, m2⟩ := emit_mustFlush hE.opn nm6.stop
    have hem := b4.emit.trans m1
    have q6 := q5.emit hem
    obtain ⟨w, ⟨ds, d1, d2, d3, d4, d5, d6⟩, d7, d8⟩ := hem
    rw [m2, ho.buf, hs.empty] at d2
    simp only [List.append_nil, List.nil_append] at d2
    have hcrc := d5 [] ho.crc
    have hadl := d6 [] ho.adler
    rw [d2, List.nil_append] at hcrc hadl
    have hstream : (mustFlush E s6.out).outStream = p.length := by rw [d4, ho.outStream, d2]; simp
    refine Why.step (a := ()) (s1 := { s6 with out := mustFlush E s6.out }) rfl ?_
    refine (why_footer he (s := { s6 with out := mustFlush E s6.out }) nm6.err q6 hcrc hadl hstream (b4.fmt.trans ho.fmt)).mono fun m T h => ?_
    obtain ⟨w, r2, w1, w2, w3⟩ := h
    have w1 : s6.inp.buf = w ++ r2 := w1
    have w2 : T = s6.inp.inTotal + w.length := w2
    obtain ⟨⟨cc, g1, g2, _, _⟩, _, _⟩ := b4.adv.step
    have hcc : cc = body := by
      rw [ho.ibuf, c1] at g1
      exact (List.append_cancel_right g1).symm
    subst hcc
    refine ⟨(hdr ++ cc ++ w).length, ?_, ?_⟩
    · rw [w2, g2, ho.total]; simp only [List.length_append]; omega
    · have : s.inp.buf = hdr ++ cc ++ w ++ r2 := by rw [hbuf, c1, w1]; simp
      rw [this]
      exact .footer k1 (b2.deflate c2 c3) w3

/-- One stream, whatever the pieces in which the source delivers it. -/
theorem step_why (hE : EnvOK E) : Says E (StreamWrong (Env.ok E) (2 ^ E.o.wbits) E.o.dict) := by
  intro s s' a T b m hs he hb hn e hc
  obtain ⟨f1, f2⟩ := filled_all hs
  have hcm := cm_readStream hE.opn hs.stop hb
  rw [e] at hcm
  have hE' : EnvOK (asF E (fmtOf (firstC E s))) := ⟨hE.lawful, hE.word, hE.opn⟩
  have hne : (nrm s).inp.buf ≠ [] := by
    rw [hs.nbuf]; intro h; rw [h] at f1; exact hb (List.prefix_nil.1 f1)
  have hrun : readStream (asF E (fmtOf (firstC E s))) (nrm s) = .ok (a, nrm s') := hcm
  have hc' : actErr (nrm s').out.acts = some (.corrupt T b m) := hc
  obtain ⟨k1, _, _⟩ := step_pos hE hs he hb hn e hc
  obtain ⟨n, k2, k3⟩ := stream_why hE' hs.ready he hne (c := firstC E s) (detect_fmtOf _ _) ⟨hs.set, hn⟩ a _ hrun T b m hc'
  have k2 : T = s.inp.inTotal + n := k2
  have : n = b := by omega
  subst this
  rw [hs.nbuf] at k3
  exact k3

end
end Flate.Proof.R.Wrong
