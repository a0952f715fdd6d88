/-
Every stream is read, when everything the source will deliver is in the input buffer; streams are self-delimiting.
-/
import Verif.Proof.RStream

namespace Flate.Proof.R
open Flate.Spec Flate.Model Flate.Model.Rd

section
variable {E : Env} {e0 : Err} {s : RState}

theorem stream_head_ok (hs : Ready e0 s) (hb : s.inp.buf ≠ []) {c : Container} (hc : detect E.o.format s.inp.buf = c) {hdr r : List UInt8}
    (hd : HeaderOf (2 ^ E.o.wbits) E.o.dict c hdr) (hbuf : s.inp.buf = hdr ++ r) :
    ∃ h s5, Reports c hdr h ∧ Opened E s c hdr r h s5 ∧ readStream E s = blocksFoot E s5 := by
  obtain ⟨s3, h3, e3⟩ := stream_begin (E := E) hs.err hb
  have hs3 := h3
  obtain ⟨ev, hev, rfl⟩ := h3
  have hdet : readHeaderOf E E.o.format _ = _ := readHeaderOf_detect E E.o.format { s with inp := { s.inp with inStream := 0 }, out := { s.out with outStream := 0, window := (lastN (2 ^ E.o.wbits) (E.o.dict.getD [])) }, numStreams := s.numStreams + 1, actualFormat := .default, header := {}, events := s.events ++ [ev] }
  rw [show detect E.o.format _ = c from hc] at hdet
  obtain ⟨h, c32, k1, k2⟩ := head_ok (E := E) (e0 := e0) (s := { s with inp := { s.inp with inStream := 0 }, out := { s.out with outStream := 0, window := (lastN (2 ^ E.o.wbits) (E.o.dict.getD [])) }, numStreams := s.numStreams + 1, actualFormat := .default, header := {}, events := s.events ++ [ev] })
    hs.err hs.flat rfl hd hbuf
  obtain ⟨s5, h5, e5⟩ := stream_open hs3 (hdet.trans k2)
  exact ⟨h, s5, k1, h5, e3.trans e5⟩

theorem deflate_ne {ok : List Nat → Prop} {win : Nat} {dict body data : List UInt8} (h : DeflateOf (BlockEnc ok win) dict body data) : body ≠ [] := by
  obtain ⟨bs, b, pad, h1, _, k2, k3, _⟩ := h
  rintro rfl
  have := enc_pos k2
  have h := congrArg List.length k3
  simp at h
  omega

theorem stream_ne {ok : List Nat → Prop} {win : Nat} {dict : Option (List UInt8)} {c : Container} {S data : List UInt8} (h : Stream ok win dict c S data) : S ≠ [] := by
  obtain ⟨hdr, body, _, h2, rfl⟩ := streamOf_iff.1 h
  have := deflate_ne h2
  simp [this]

/-- Reading a valid stream. -/
theorem stream_ok (hE : EnvOK E) (hs : Ready e0 s) {c : Container} {S data r : List UInt8} (hc : detect E.o.format (S ++ r) = c)
    (hS : Stream (Env.ok E) (2 ^ E.o.wbits) E.o.dict c S data) (hb : s.inp.buf = S ++ r) :
    ∃ hdr h ks s', hdr <+: S ∧ Reports c hdr h ∧ StreamEvents h data ks ∧ readStream E s = .ok (true, s') ∧ s'.inp.buf = r ∧ Clean s S data h ks s' := by
  have hne := stream_ne hS
  obtain ⟨hdr, body, h1, ⟨bs, b, pad, hh, d1, d2, d3, d4⟩, rfl⟩ := streamOf_iff.1 hS
  have hb1 : s.inp.buf = hdr ++ (body ++ footerOf data c ++ r) := by rw [hb]; simp
  obtain ⟨h, s5, k1, k2, k3⟩ := stream_head_ok (E := E) hs (by rw [hb]; simp; simp at hne; tauto) (by rw [hb]; exact hc) h1 hb1
  have hvb : vb s5.inp = bs ++ b ++ (pad ++ bytesBits (footerOf data c ++ r)) := by
    rw [vb_flat k2.flat, k2.ibuf, List.append_assoc body, bytesBits_append, d3]; simp
  obtain ⟨p, bks, s6, q1, q2, q3, q4⟩ := blockLoop_ok hE d1 (by simpa using d2) (s5.inp.bits + 1) (k2.nm hs) (SomeAll.at0 k2.flat) k2.window (Nat.lt_succ_self _) hvb
  have hp : data = p := List.append_cancel_left q1
  subst hp
  obtain ⟨body', c1, ⟨pad', c2, c2'⟩, c3⟩ := stream_close hE hs hb1 k2 q3 q4 q2
  have hlen : body'.length = body.length := by
    have e1 := congrArg List.length c2
    have e2 := congrArg List.length d3
    simp only [List.length_append, bytesBits_length] at e1 e2
    omega
  rw [List.append_assoc] at c1
  obtain ⟨hbody, c1'⟩ := List.append_inj c1.symm hlen
  subst hbody
  clear c1
  rcases c3 with ⟨r2, ks, s', c3, c4, c5, c6, c7⟩ | ⟨s', c3, _⟩
  · refine ⟨hdr, h, ks, s', ⟨body' ++ footerOf data c, by simp⟩, k1, c5, k3.trans c4, ?_, c7⟩
    rw [c6]
    rw [c3] at c1'
    exact List.append_cancel_left c1'
  · exact absurd c1' (c3 r)

/-- what a valid beginning of a stream decodes to is decoded -/
theorem stream_part (hE : EnvOK E) (hs : Ready e0 s) (hb : s.inp.buf ≠ []) {c : Container} {hdr r p : List UInt8} {bits : List Bool} (hc : detect E.o.format s.inp.buf = c)
    (hd : HeaderOf (2 ^ E.o.wbits) E.o.dict c hdr) (hbuf : s.inp.buf = hdr ++ r)
    (hp : SomeBlocks (Env.ok E) (2 ^ E.o.wbits) 0 (E.o.dict.getD []) bits (E.o.dict.getD [] ++ p)) (hpre : bits <+: bytesBits r) :
    ∃ (b : Bool) (s1 s' : RState) (ds : List (List UInt8)), readStream E s = .ok (b, s') ∧ s1.out.acts = s.out.acts ++ ds.map .data ∧ ds.flatten ++ s1.out.decodeBuffer = p ∧
      s1.out.errorWasSet = s.out.errorWasSet ∧ s1.out.stopIsForced = s.out.stopIsForced ∧ Past s1 s' := by
  obtain ⟨h, s5, k1, k2, k3⟩ := stream_head_ok (E := E) hs hb hc hd hbuf
  obtain ⟨bs, b, h1, q1, q2, rfl⟩ := hp
  obtain ⟨rest, hrest⟩ := hpre
  have hvb : vb s5.inp = bs ++ b ++ rest := by rw [vb_flat k2.flat, k2.ibuf, hrest]
  obtain ⟨p', ks, s1, s6, q3, q4, q5, q6⟩ := blockLoop_part hE q1 q2 (s5.inp.bits + 1) (k2.nm hs) (SomeAll.at0 k2.flat) k2.window (Nat.lt_succ_self _) hvb
  have hp' : p = p' := List.append_cancel_left q3
  subst hp'
  have hbf : blocksFoot E s5 = readFooter { s6 with out := mustFlush E s6.out } := by
    unfold blocksFoot
    exact (Go.bind_ok (show readBlocks E s5 = _ from q4)).trans (Go.bind_ok rfl)
  have hf : s6.actualFormat ≠ .default := by
    rcases (safe_readBlocks (b := true) (X := False) (s := s5) ⟨hE.lawful, hE.word⟩).cases with ⟨_, s', e1, m, _⟩ | ⟨_, x⟩
    · have : s' = s6 := by
        have := e1.symm.trans q4
        cases this; rfl
      subst this
      exact m.fmt rfl (by rw [k2.fmt]; exact fmtOf_ne c)
    · exact x.elim
  rcases (safe_readFooter (b := false) (X := False) (s := { s6 with out := mustFlush E s6.out }) hf).cases with ⟨b', s', e1, m, _⟩ | ⟨_, x⟩
  swap
  · exact x.elim
  obtain ⟨w, ⟨ds, d1, d2, d3, d4, d5, d6⟩, d7, d8⟩ := q5.emit
  refine ⟨b', s1, s', ds, k3.trans (hbf.trans e1), by rw [← k2.acts]; exact d1, ?_, d7.trans k2.set, d8.trans k2.stop, q6.trans (Past.trans ?_ m.past)⟩
  · rw [d2, k2.buf, hs.empty]; simp
  · exact (mono_out (b := false) (stepO_mustFlush E s6.out)).past

/-- Streams are self-delimiting. -/
theorem stream_unique (hE : EnvOK E) {c : Container} {S S' data data' r r' : List UInt8}
    (h : Stream (Env.ok E) (2 ^ E.o.wbits) E.o.dict c S data) (h' : Stream (Env.ok E) (2 ^ E.o.wbits) E.o.dict c S' data') (he : S ++ r = S' ++ r') : S = S' ∧ data = data' := by
  obtain ⟨s, hs, hb⟩ : ∃ s : RState, Ready .eof s ∧ s.inp.buf = S ++ r :=
    ⟨{ inp := { src := ⟨[], [], .eof⟩, inputError := some .eof, buf := S ++ r } }, ⟨rfl, rfl, ⟨rfl, rfl⟩, rfl⟩, rfl⟩
  obtain ⟨E', hE', e1, e2, e3, e4⟩ : ∃ E' : Env, EnvOK E' ∧ E'.o.format = fmtOf c ∧ E'.L = E.L ∧ E'.o.wbits = E.o.wbits ∧ E'.o.dict = E.o.dict :=
    ⟨{ E with o := { E.o with format := fmtOf c } }, ⟨hE.lawful, hE.word, hE.opn⟩, rfl, rfl, rfl, rfl⟩
  have hok : Env.ok E' = Env.ok E := by unfold Env.ok; rw [e2]
  rw [← e3, ← e4, ← hok] at h h'
  have hdet : ∀ b, detect E'.o.format b = c := fun b => by rw [e1]; exact detect_fmtOf c b
  obtain ⟨_, _, _, s1, _, _, _, q1, q2, q3⟩ := stream_ok hE' hs (hdet _) h hb
  obtain ⟨_, _, _, s2, _, _, _, p1, p2, p3⟩ := stream_ok hE' hs (hdet _) h' (hb.trans he)
  have hq : s1 = s2 := by rw [q1] at p1; cases p1; rfl
  subst hq
  have hr : r = r' := q2.symm.trans p2
  subst hr
  refine ⟨List.append_cancel_right he, ?_⟩
  obtain ⟨ds, d1, rfl⟩ := q3.acts
  obtain ⟨ds', d1', rfl⟩ := p3.acts
  have := List.append_cancel_left (d1.symm.trans d1')
  rw [List.map_inj_right (by intro a b h; cases h; rfl)] at this
  rw [this]

end
end Flate.Proof.R
