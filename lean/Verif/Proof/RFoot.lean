/-
Headers and footers of any format, when everything the source will deliver is in the input buffer.
-/
import Verif.Proof.RHead

namespace Flate.Proof.R
open Flate.Spec Flate.Model Flate.Model.Rd

/-- the format of a container -/
def fmtOf : Container → Format
  | .raw => .raw
  | .zlib => .zlib
  | .gzip => .gzip

theorem fmtOf_ne (c : Container) : fmtOf c ≠ .default := by cases c <;> simp [fmtOf]

theorem fmtOf_inj {a b : Container} (h : fmtOf a = fmtOf b) : a = b := by cases a <;> cases b <;> simp [fmtOf] at h <;> rfl

/-- the container which a Reader takes a stream for when its input buffer holds `buf` -/
def detect : Format → List UInt8 → Container
  | .raw, _ => .raw
  | .zlib, _ => .zlib
  | .gzip, _ => .gzip
  | .default, p0 :: p1 :: _ =>
    if p0 = 0x1f ∧ p1 = 0x8b then .gzip
    else if p0.toNat &&& 0x0f = 8 ∧ (p0.toNat * 256 + p1.toNat) % 31 = 0 then .zlib
    else .raw
  | .default, _ => .raw

theorem detect_fmtOf (c : Container) (buf : List UInt8) : detect (fmtOf c) buf = c := by cases c <;> rfl

section
variable {E : Env} {e0 : Err} {s : RState}

theorem readHeaderOf_detect (E : Env) (f : Format) (s : RState) : readHeaderOf E f s = readHeaderOf E (fmtOf (detect f s.inp.buf)) s := by
  cases f with
  | raw => rfl
  | zlib => rfl
  | gzip => rfl
  | default =>
    show readHeaderAuto E s = _
    unfold readHeaderAuto
    rcases hb : s.inp.buf with _ | ⟨p0, _ | ⟨p1, r⟩⟩
    · rfl
    · rfl
    · show (if p0 = 0x1f ∧ p1 = 0x8b then readHeaderGZIP s
        else if p0.toNat &&& 0x0f = 8 ∧ (p0.toNat * 256 + p1.toNat) % 31 = 0 then readHeaderZlib E s
        else readHeaderRaw s) = readHeaderOf E (fmtOf (if p0 = 0x1f ∧ p1 = 0x8b then Container.gzip
        else if p0.toNat &&& 0x0f = 8 ∧ (p0.toNat * 256 + p1.toNat) % 31 = 0 then .zlib
        else .raw)) s
      split
      · rfl
      · split <;> rfl

theorem raw_eq (hf : Flat s.inp) (hh : s.header = {}) : readHeaderRaw s = .ok (true, { s with inp := takeIn [] s.inp.buf s.inp, header := { compressLevel := -1 }, actualFormat := .raw }) := by
  rw [takeIn_nil hf]
  unfold readHeaderRaw
  rw [hh]

theorem head_ok (hs : s.inp.inputError = some e0) (hf : Flat s.inp) (hh : s.header = {}) {c : Container} {hdr r : List UInt8}
    (hd : HeaderOf (2 ^ E.o.wbits) E.o.dict c hdr) (hb : s.inp.buf = hdr ++ r) :
    ∃ h c32, Reports c hdr h ∧ readHeaderOf E (fmtOf c) s = .ok (true, { s with inp := takeIn hdr r { s.inp with crc := c32 }, header := h, actualFormat := fmtOf c }) := by
  cases c with
  | raw =>
    have hd : hdr = [] := hd
    subst hd
    have hb : s.inp.buf = r := hb
    subst hb
    exact ⟨_, s.inp.crc, rfl, raw_eq hf hh⟩
  | zlib =>
    obtain ⟨ci, h1, h2⟩ := hd
    obtain ⟨cmf, flg, rest, k1, k2⟩ := zlib_ok hs hh h1 h2 hb
    exact ⟨_, s.inp.crc, ⟨cmf, flg, rest, k1, rfl⟩, k2⟩
  | gzip =>
    obtain ⟨g, h1, h2, rfl⟩ := hd
    exact ⟨_, Crc.init, ⟨g, h1, h2, rfl, rfl⟩, gz_ok hs hh h1 h2 hb⟩

theorem head_sound (hs : s.inp.inputError = some e0) (hf : Flat s.inp) (hh : s.header = {}) (c : Container) :
    (∃ hdr r h c32, HeaderOf (2 ^ E.o.wbits) E.o.dict c hdr ∧ Reports c hdr h ∧ s.inp.buf = hdr ++ r ∧
      readHeaderOf E (fmtOf c) s = .ok (true, { s with inp := takeIn hdr r { s.inp with crc := c32 }, header := h, actualFormat := fmtOf c })) ∨
    (∃ s' h c32, readHeaderOf E (fmtOf c) s = .ok (false, s') ∧ Failed e0 { s with inp := { s.inp with crc := c32 }, header := h } s') ∨
    (c = .gzip ∧ readHeaderOf E (fmtOf c) s = .error .bounds ∧ GzPanics s.inp.buf) := by
  cases c with
  | raw =>
    left
    exact ⟨[], s.inp.buf, _, s.inp.crc, rfl, rfl, rfl, raw_eq hf hh⟩
  | zlib =>
    rcases zlib_sound (E := E) hs hh with ⟨cmf, flg, ci, hdr, rest, r, h1, h2, h3, h4, h5⟩ | ⟨s', h, h1, h2⟩
    · left
      exact ⟨hdr, r, _, s.inp.crc, ⟨ci, h2, h3⟩, ⟨cmf, flg, rest, h1, rfl⟩, h4, h5⟩
    · right; left
      exact ⟨s', h, s.inp.crc, h1, h2⟩
  | gzip =>
    rcases gz_sound hs hh with ⟨g, r, h1, h2, h3, h4⟩ | ⟨s', h, h1, h2⟩ | ⟨h1, h2⟩
    · left
      exact ⟨g.bytes, r, _, Crc.init, ⟨g, h1, h2, rfl⟩, ⟨g, h1, h2, rfl, rfl⟩, h3, h4⟩
    · right; left
      exact ⟨s', h, Crc.init, h1, h2⟩
    · right; right
      exact ⟨rfl, h1, h2⟩

/-- a malformed extra field excludes a valid header -/
theorem header_not_panics {win : Nat} {dict : Option (List UInt8)} {hdr r : List UInt8} (hd : HeaderOf win dict .gzip hdr) : ¬ GzPanics (hdr ++ r) := by
  obtain ⟨g, h1, ⟨v1, v2, _, _⟩, rfl⟩ := hd
  rintro ⟨f, t, x, o, r1, k1, k2, k3, k4, e, r2, k5, k6, k7⟩
  obtain ⟨q1, q2, _, _, _, q6, _⟩ := flags_bits g.text g.hcrc g.extra.isSome g.name.isSome g.comment.isSome
  have hflags : g.flags = flagsOf g.text g.hcrc g.extra.isSome g.name.isSome g.comment.isSome := rfl
  obtain ⟨_, _, _, _, q5, _, _⟩ := flags_bits g.text g.hcrc g.extra.isSome g.name.isSome g.comment.isSome
  rw [← hflags] at q1 q5
  rw [gz_bytes, List.append_assoc] at k4
  obtain ⟨rfl, rfl, rfl, rfl, k8⟩ := gzPrefix_inj q1 k1 v1 k2 k4
  have hx : g.extra.isSome = true := by rw [← q5]; exact decide_eq_true k3
  obtain ⟨e', he⟩ := Option.isSome_iff_exists.1 hx
  rw [k5] at k8
  unfold gzVar at k8
  rw [he] at k8
  simp only [extraBytes, List.append_assoc] at k8
  obtain ⟨k9, k10⟩ := List.append_inj k8 (by simp)
  have hl : e'.length = e.length := leBytes_inj k9 (by have := v2 _ he; omega) (by omega)
  obtain ⟨k11, _⟩ := List.append_inj k10 hl
  subst k11
  exact k7 (h1 _ he)

/-! ### footers -/

theorem footerOf_length (data : List UInt8) (c : Container) : (footerOf data c).length = match c with | .raw => 0 | .zlib => 4 | .gzip => 8 := by
  cases c <;> simp [footerOf, beBytes]

/-- the footer of the stream, without the events -/
theorem footOf_sound (hs : s.inp.inputError = some e0) (hf : Flat s.inp) {data : List UInt8} (hc : CrcIs s.out.crc data) (ha : AdlerIs s.out.adler data)
    (hl : s.out.outStream = data.length) (c : Container) :
    (∃ r, s.inp.buf = footerOf data c ++ r ∧ readFooterOf (fmtOf c) s.out.adler s.out.crc s = .ok (true, { s with inp := takeIn (footerOf data c) r s.inp })) ∨
    ((∀ r, s.inp.buf ≠ footerOf data c ++ r) ∧ ∃ s', readFooterOf (fmtOf c) s.out.adler s.out.crc s = .ok (false, s') ∧ Failed e0 s s') := by
  cases c with
  | raw =>
    left
    refine ⟨s.inp.buf, rfl, ?_⟩
    show (Pure.pure true : Go RState Bool) s = _
    rw [show footerOf data .raw = [] from rfl, takeIn_nil hf]
    rfl
  | zlib =>
    show _ ∨ (_ ∧ ∃ s', readFooterZlib _ s = _ ∧ _)
    rcases needBytes_eq hs false 4 (fun p => if beVal p ≠ s.out.adler.toNat then fail (.zlibSum (beVal p) s.out.adler.toNat) else pure true) with ⟨p, r, b1, l1, e1⟩ | ⟨h1, s', e1, f1⟩
    swap
    · right
      refine ⟨fun r hr => ?_, s', e1, f1⟩
      rw [hr] at h1
      simp [footerOf, beBytes] at h1
      omega
    have hadler : s.out.adler.toNat = adler32 data := ha
    by_cases hv : beVal p ≠ s.out.adler.toNat
    · right
      rw [if_pos hv] at e1
      obtain ⟨s', e2, f2⟩ := fail_eq (.zlibSum (beVal p) s.out.adler.toNat) { s with inp := takeIn p r s.inp } e0
      refine ⟨fun r' hr => hv ?_, s', e1.trans e2, f2.step (takeIn_step b1)⟩
      rw [b1] at hr
      obtain ⟨rfl, _⟩ := List.append_inj hr (by rw [l1]; simp [footerOf, beBytes])
      rw [hadler]
      exact beVal_beBytes 4 _ (adler_lt data)
    · left
      rw [if_neg hv] at e1
      have hp : p = footerOf data .zlib := by
        show p = beBytes 4 (adler32 data)
        rw [← hadler, ← Decidable.not_not.1 hv, dict_bytes l1]
      subst hp
      exact ⟨r, b1, e1⟩
  | gzip =>
    show _ ∨ (_ ∧ ∃ s', readFooterGZIP _ s = _ ∧ _)
    rcases needBytes_eq hs false 4 (fun p => needBytes false 4 fun q => fun s' =>
      if leVal p ≠ s.out.crc.toNat then fail (.gzipSum (leVal p) s.out.crc.toNat) s'
      else if leVal q ≠ s'.out.outStream % 2 ^ 32 then fail (.gzipLength (leVal q) (s'.out.outStream % 2 ^ 32)) s'
      else .ok (true, s')) with ⟨p, r1, b1, l1, e1⟩ | ⟨h1, s', e1, f1⟩
    swap
    · right
      refine ⟨fun r hr => ?_, s', e1, f1⟩
      rw [hr] at h1
      simp [footerOf] at h1
      omega
    rcases needBytes_eq (s := { s with inp := takeIn p r1 s.inp }) hs false 4 (fun q => fun s' =>
      if leVal p ≠ s.out.crc.toNat then fail (.gzipSum (leVal p) s.out.crc.toNat) s'
      else if leVal q ≠ s'.out.outStream % 2 ^ 32 then fail (.gzipLength (leVal q) (s'.out.outStream % 2 ^ 32)) s'
      else .ok (true, s')) with ⟨q, r2, b2, l2, e2⟩ | ⟨h2, s', e2, f2⟩
    swap
    · right
      refine ⟨fun r hr => ?_, s', e1.trans e2, f2.step (takeIn_step b1)⟩
      rw [b1] at hr
      have h2' : r1.length < 4 := h2
      have := congrArg List.length hr
      simp [footerOf] at this
      omega
    have b2' : r1 = q ++ r2 := b2
    have hbuf : s.inp.buf = p ++ q ++ r2 := by rw [b1, b2']; simp
    have hcrc : s.out.crc.toNat = (crc32 data).toNat := congrArg BitVec.toNat hc
    have hps : ∀ {r}, s.inp.buf = footerOf data .gzip ++ r → p = leBytes 4 (crc32 data).toNat ∧ q = leBytes 4 (data.length % 2 ^ 32) := by
      intro r hr
      rw [hbuf] at hr
      simp only [footerOf, List.append_assoc] at hr
      obtain ⟨h1, h2⟩ := List.append_inj hr (by simp [l1])
      obtain ⟨h3, _⟩ := List.append_inj h2 (by simp [l2])
      exact ⟨h1, h3⟩
    have e12 := e1.trans e2
    simp only [takeIn_takeIn] at e12
    have step := takeIn_step (p := p ++ q) (r := r2) (i := s.inp) hbuf
    by_cases hv : leVal p ≠ s.out.crc.toNat
    · right
      rw [if_pos hv] at e12
      obtain ⟨s', e3, f3⟩ := fail_eq (.gzipSum (leVal p) s.out.crc.toNat) { s with inp := takeIn (p ++ q) r2 s.inp } e0
      refine ⟨fun r' hr => hv ?_, s', e12.trans e3, f3.step step⟩
      rw [(hps hr).1, hcrc]
      exact leVal_leBytes 4 _ (crc32 data).isLt
    rw [if_neg hv] at e12
    by_cases hw : leVal q ≠ s.out.outStream % 2 ^ 32
    · right
      rw [if_pos hw] at e12
      obtain ⟨s', e3, f3⟩ := fail_eq (.gzipLength (leVal q) (s.out.outStream % 2 ^ 32)) { s with inp := takeIn (p ++ q) r2 s.inp } e0
      refine ⟨fun r' hr => hw ?_, s', e12.trans e3, f3.step step⟩
      rw [(hps hr).2, hl]
      exact leVal_leBytes 4 _ (Nat.mod_lt _ (by decide))
    · left
      rw [if_neg hw] at e12
      have hpq : p ++ q = footerOf data .gzip := by
        have h1 := leBytes_leVal p
        have h2 := leBytes_leVal q
        rw [l1, Decidable.not_not.1 hv, hcrc] at h1
        rw [l2, Decidable.not_not.1 hw, hl] at h2
        rw [← h1, ← h2]; rfl
      rw [hpq] at e12 hbuf
      exact ⟨r2, hbuf, e12⟩

/-- the events at the end of a stream -/
def endEvents (a c : BitVec 32) : List EvKind := [.streamEnd a c, .streamClose]

theorem flat_discard (i : Inp) : Flat (Rd.discard i) := ⟨rfl, rfl⟩

theorem takeIn_discard (p r : List UInt8) (i : Inp) : takeIn p r (Rd.discard i) = takeIn p r i := rfl

theorem foot_sound (hs : s.inp.inputError = some e0) {data : List UInt8} (hc : CrcIs s.out.crc data) (ha : AdlerIs s.out.adler data)
    (hl : s.out.outStream = data.length) {c : Container} (hfmt : s.actualFormat = fmtOf c) :
    (∃ r ev, s.inp.buf = footerOf data c ++ r ∧ readFooter s = .ok (true, { s with inp := takeIn (footerOf data c) r s.inp, events := s.events ++ ev }) ∧
      ev.map (·.kind) = endEvents s.out.adler s.out.crc) ∨
    ((∀ r, s.inp.buf ≠ footerOf data c ++ r) ∧ ∃ s' ev i' e, readFooter s = .ok (false, s') ∧ RStep (Rd.discard s.inp) i' ∧ Bad e0 e ∧
      ev.map (·.kind) = [.streamEnd s.out.adler s.out.crc] ∧ s' = { s with inp := i', out := closeOut e s.out, events := s.events ++ ev }) := by
  obtain ⟨inp, out, num, hd, fmt, evs⟩ := s
  simp only at hfmt hs hc ha hl
  subst hfmt
  have h1 : ∀ s : RState, readFooter s = (fun s : RState => (do
      sendEvent (.streamEnd s.out.adler s.out.crc)
      Go.chk (readFooterOf s.actualFormat s.out.adler s.out.crc) do
        sendEvent .streamClose
        pure true : Go RState Bool) s) { s with inp := Rd.discard s.inp } := by
    intro s
    unfold readFooter
    exact Go.bind_ok (onInp_ok rfl)
  rw [h1]
  simp only []
  obtain ⟨ev1, he1, k1⟩ : ∃ ev, sendEvent (.streamEnd out.adler out.crc) ⟨Rd.discard inp, out, num, hd, fmtOf c, evs⟩ = .ok ((), ⟨Rd.discard inp, out, num, hd, fmtOf c, evs ++ [ev]⟩) ∧ ev.kind = .streamEnd out.adler out.crc :=
    ⟨_, rfl, rfl⟩
  rw [Go.bind_ok he1]
  rcases footOf_sound (s := ⟨Rd.discard inp, out, num, hd, fmtOf c, evs ++ [ev1]⟩) hs (flat_discard _) hc ha hl c with ⟨r, b1, e1⟩ | ⟨b1, s', e1, i', e, f1, f2, f3⟩
  · left
    rw [chk_true e1]
    obtain ⟨ev2, he2, k2⟩ : ∃ ev, sendEvent .streamClose ⟨takeIn (footerOf data c) r inp, out, num, hd, fmtOf c, evs ++ [ev1]⟩ = .ok ((), ⟨takeIn (footerOf data c) r inp, out, num, hd, fmtOf c, (evs ++ [ev1]) ++ [ev]⟩) ∧ ev.kind = .streamClose :=
      ⟨_, rfl, rfl⟩
    refine ⟨r, [ev1, ev2], b1, ?_, by simp [k1, k2, endEvents]⟩
    refine (Go.bind_ok he2).trans ?_
    simp only [List.append_assoc, List.cons_append, List.nil_append]
    rfl
  · right
    exact ⟨b1, s', [ev1], i', e, chk_false e1, f1, f2, by simp [k1], f3⟩

end
end Flate.Proof.R
