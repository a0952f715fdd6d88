/-
What is wrong with the input when the Reader reports that it is corrupt: headers and footers.
-/
import Verif.Proof.RWhy

namespace Flate.Proof.R.Wrong
open Flate.Spec Flate.Model Flate.Model.Rd Flate.Proof.R Flate.Proof.R.Pos

/-- Where the problem is: in the next bytes `w`. -/
def LocB (Z : Spec.Problem → List UInt8 → Prop) (i : Inp) (m : Spec.Problem) (T : Nat) : Prop := ∃ w r, i.buf = w ++ r ∧ T = i.inTotal + w.length ∧ Z m w

theorem LocB.here {Z : Spec.Problem → List UInt8 → Prop} {i : Inp} {m : Spec.Problem} {w r : List UInt8} (hb : i.buf = w ++ r) (hz : Z m w) : LocB Z i m (takeIn w r i).inTotal :=
  ⟨w, r, hb, rfl, hz⟩

section
variable {α β : Type} {E : Env} {e0 : Err} {s : RState} {W : Spec.Problem → Nat → Prop}

theorem Why.chk {f g : Go RState Bool} (hs : s.inp.inputError = some e0) (hf : Why f s W) (kf : Keeps (P e0) f) (kg : Keeps (P e0) g)
    (hg : ∀ s1, f s = .ok (true, s1) → actErr s1.out.acts = none → Why g s1 W) : Why (Go.chk f g) s W := by
  intro b s' e T x m hc
  unfold Go.chk at e
  rcases hfe : f s with er | ⟨a, s1⟩
  · rw [hfe] at e; cases e
  · rw [hfe] at e
    cases a with
    | false => cases e; exact hf _ _ hfe T x m hc
    | true =>
      have e : g s1 = .ok (b, s') := e
      rcases ha : actErr s1.out.acts with _ | er
      · exact hg s1 hfe ha b s' e T x m hc
      · have k1 := kf _ _ _ hfe hs
        have k2 := kg _ _ _ e k1.inp.err
        rw [k2.first er ha] at hc
        cases hc
        exact hf _ _ hfe T x m ha

theorem leVal_value : ∀ p : List UInt8, leVal p = leValue p
  | [] => rfl
  | b :: r => by simp only [leVal, leValue, leVal_value r]

theorem beVal_value (p : List UInt8) : beVal p = beValue p := leVal_value _

/-! ### zlib -/

theorem and32 : ∀ v < 256, (v &&& 0x20 ≠ 0) → v.testBit 5 = true := fun v h => (flg5 v h).1

theorem why_zlib (he : NotC e0) (hs : s.inp.inputError = some e0) (hq : Quiet s.out) : Why (readHeaderZlib E) s (LocB (ZlibWrong (2 ^ E.o.wbits) E.o.dict) s.inp) := by
  rw [zlib_eq]
  refine Why.needBytes he hs hq fun p r b1 l1 => ?_
  match p, l1 with
  | [cmf, flg], _ =>
    unfold zlibBody
    simp only [List.getD_cons_zero, List.getD_cons_succ, beVal_two]
    have hc := cmf.toNat_lt
    have hg := flg.toNat_lt
    have sh : cmf.toNat >>> 4 = cmf.toNat / 16 := by rw [Nat.shiftRight_eq_div_pow]
    by_cases c1 : (cmf.toNat * 256 + flg.toNat) % 31 ≠ 0
    · rw [if_pos c1]
      exact Why.fail (s := { s with inp := takeIn [cmf, flg] r s.inp }) hq (LocB.here b1 (.check _ _ c1))
    rw [if_neg c1]
    have k2 : (cmf.toNat * 256 + flg.toNat) % 31 = 0 := Decidable.not_not.1 c1
    by_cases c2 : cmf.toNat &&& 0x0f ≠ 8
    · rw [if_pos c2]
      rw [and15] at c2 ⊢
      exact Why.fail (s := { s with inp := takeIn [cmf, flg] r s.inp }) hq (LocB.here b1 (.method _ _ k2 c2))
    rw [if_neg c2]
    have k1 : cmf.toNat % 16 = 8 := by rw [and15] at c2; exact Decidable.not_not.1 c2
    unfold modHeader
    refine Why.step (Go.modify_apply _ _) ?_
    by_cases c3 : 8 + (cmf.toNat >>> 4) > E.o.wbits
    · rw [if_pos c3]
      rw [sh] at c3 ⊢
      rw [Nat.add_comm 8]
      exact Why.fail (s := { s with inp := takeIn [cmf, flg] r s.inp, header := { s.header with windowBits := cmf.toNat / 16 + 8 } }) hq
        (LocB.here b1 (.window _ _ _ rfl k2 k1 (Nat.pow_lt_pow_right (by omega) (by omega))))
    rw [if_neg c3]
    have k3 : 2 ^ (cmf.toNat / 16 + 8) ≤ 2 ^ E.o.wbits := by
      apply Nat.pow_le_pow_right (by omega)
      rw [sh] at c3; omega
    refine Why.step (Go.modify_apply _ _) ?_
    refine (fun (hd : Header) => ?_ : ∀ hd : Header, Why _ { s with inp := takeIn [cmf, flg] r s.inp, header := hd } _) _
    by_cases c4 : flg.toNat &&& 0x20 ≠ 0
    · rw [if_pos c4]
      have k4 := (flg5 _ hg).1 c4
      refine Why.needBytes he (s := { s with inp := takeIn [cmf, flg] r s.inp, header := hd }) hs hq fun q r2 b2 l2 => ?_
      have b2' : s.inp.buf = ([cmf, flg] ++ q) ++ r2 := by rw [b1, List.append_assoc]; congr 1
      show Why _ { s with inp := takeIn q r2 (takeIn [cmf, flg] r s.inp), header := hd } _
      rw [takeIn_takeIn]
      simp only [adler_checksum, beVal_value]
      cases hd' : E.o.dict with
      | none => exact Why.fail (s := { s with inp := takeIn ([cmf, flg] ++ q) r2 s.inp, header := hd }) hq (LocB.here b2' (.noDict _ _ _ k2 k1 k3 k4 l2 rfl))
      | some d =>
        simp only []
        by_cases c5 : beValue q ≠ adler32 d
        · rw [if_pos c5]
          refine Why.fail (s := { s with inp := takeIn ([cmf, flg] ++ q) r2 s.inp, header := hd }) hq (LocB.here b2' (.otherDict _ _ _ d k2 k1 k3 k4 l2 rfl fun hq => c5 ?_))
          rw [hq, ← beVal_value, beVal_beBytes _ _ (adler_lt d)]
        · rw [if_neg c5]
          exact Why.done rfl hq
    · rw [if_neg c4]
      simp only [adler_checksum]
      cases hd' : E.o.dict with
      | some d =>
        have k4 : flg.toNat.testBit 5 = false := by
          have := (flg5 _ hg).not.1 c4
          simpa using this
        exact Why.fail (s := { s with inp := takeIn [cmf, flg] r s.inp, header := hd }) hq (LocB.here b1 (.needless _ _ d k2 k1 k3 k4 rfl))
      | none => exact Why.done rfl hq

/-! ### gzip -/

theorem why_gzExtra (he : NotC e0) (hs : s.inp.inputError = some e0) (hq : Quiet s.out) (b : Bool) : Why (gzExtraData b) s (fun _ _ => False) := by
  unfold gzExtraData
  cases b with
  | false => exact Why.done rfl hq
  | true =>
    rw [if_pos rfl]
    refine Why.needBytes he hs hq fun p r b1 l1 => Why.needBytes he (s := { s with inp := takeIn p r s.inp }) hs hq fun q r2 b2 l2 => ?_
    intro a s' e T x m hc
    obtain ⟨y, s1, e1, e2⟩ := Go.bind_eq_ok.1 e
    have : s1.out = s.out := by
      unfold Go.lift at e1
      split at e1
      · cases e1; rfl
      · cases e1
    cases e2
    have hc : actErr s1.out.acts = some (.corrupt T x m) := hc
    rw [this, hq.acts] at hc
    cases hc

theorem why_gzStr (he : NotC e0) (hs : s.inp.inputError = some e0) (hq : Quiet s.out) (b : Bool) (set : List UInt8 → Header → Header) : Why (gzStr b set) s (fun _ _ => False) := by
  unfold gzStr
  cases b with
  | false => exact Why.done rfl hq
  | true =>
    rw [if_pos rfl]
    rcases stringZLoop_eq (st := s.out.stopIsForced) (s.inp.size + 1) [] hs (by unfold Inp.size; omega) with ⟨str, r', i', b1, h0, e1, h2⟩ | ⟨h0, i', e1, h1, h2⟩
    · have e2 : onInp readStringZ s = .ok ((str, true), { s with inp := i' }) := onInp_ok (by simpa [readStringZ] using e1)
      refine Why.step e2 ?_
      exact Why.done rfl hq
    · have e2 : onInp readStringZ s = .ok ((s.inp.buf, false), { s with inp := i' }) := onInp_ok (by simpa [readStringZ] using e1)
      refine Why.closed (a := false) (s1 := { s with inp := i', out := closeOut (propErr e0) s.out }) ?_ hq rfl fun T b m h => absurd h (he.prop T b m)
      rw [Go.bind_ok e2]
      simp only [Bool.not_false, if_true]
      exact exhausted_eq false (s := { s with inp := i' }) (h1.err.trans hs)

theorem why_gzCRC (he : NotC e0) (hs : s.inp.inputError = some e0) (hq : Quiet s.out) {m0 : List UInt8} (b : Bool) (hm : CrcIs s.inp.crc m0) :
    Why (gzCRC b) s (fun m T => b = true ∧ ∃ p r, m = .gzipHeaderSum (leVal p) ((crc32 m0).toNat % 65536) ∧ s.inp.buf = p ++ r ∧ p.length = 2 ∧ p ≠ leBytes 2 ((crc32 m0).toNat % 65536) ∧ T = s.inp.inTotal + 2) := by
  refine Why.of_eq (g := gzCRC16 b s.inp.crc) rfl ?_
  unfold gzCRC16
  cases b with
  | false => exact Why.done rfl hq
  | true =>
    rw [if_pos rfl]
    refine Why.needBytes he hs hq fun p r b1 l1 => ?_
    by_cases hc : s.inp.crc.toNat % 65536 ≠ leVal p
    · rw [if_pos hc]
      refine Why.fail (s := { s with inp := takeIn p r s.inp }) hq ⟨rfl, p, r, by rw [hm], b1, l1, fun hp => hc ?_, by show s.inp.inTotal + p.length = _; rw [l1]⟩
      rw [hp, leVal_leBytes _ _ (by omega), hm]
    · rw [if_neg hc]
      exact Why.done rfl hq

theorem why_gzRest (he : NotC e0) (hs : s.inp.inputError = some e0) (hq : Quiet s.out) (hf : Flat s.inp) {m0 : List UInt8} (hm : CrcIs s.inp.crc m0) (h1 : s.header.extra = []) (h2 : s.header.fileName = [])
    (h3 : s.header.comment = []) {f : Nat} :
    Why (gzRest f) s (fun m T => ∃ e n c p r, m = .gzipHeaderSum (leVal p) ((crc32 (m0 ++ gzVar e n c)).toNat % 65536) ∧ e.isSome = decide (f &&& 4 ≠ 0) ∧ n.isSome = decide (f &&& 8 ≠ 0) ∧ c.isSome = decide (f &&& 0x10 ≠ 0) ∧
      decide (f &&& 2 ≠ 0) = true ∧ (∀ x, e = some x → x.length < 65536 ∧ ExtraOK x) ∧ (∀ x, n = some x → 0 ∉ x) ∧ (∀ x, c = some x → 0 ∉ x) ∧
      s.inp.buf = gzVar e n c ++ p ++ r ∧ p.length = 2 ∧ p ≠ leBytes 2 ((crc32 (m0 ++ gzVar e n c)).toNat % 65536) ∧ T = s.inp.inTotal + (gzVar e n c ++ p).length) := by
  unfold gzRest
  have k4 : Keeps (P e0) (Go.chk (gzCRC (decide (f &&& 2 ≠ 0))) setGzip) := ((sm_gzCRC (c := fr he) _).chk sm_setGzip).keep
  have k3 : Keeps (P e0) (Go.chk (gzStr (decide (f &&& 0x10 ≠ 0)) fun str h => { h with comment := str }) (Go.chk (gzCRC (decide (f &&& 2 ≠ 0))) setGzip)) :=
    ((sm_gzStr (c := fr he) _ _).chk ((sm_gzCRC _).chk sm_setGzip)).keep
  have k2 : Keeps (P e0) (Go.chk (gzStr (decide (f &&& 8 ≠ 0)) fun str h => { h with fileName := str }) (Go.chk (gzStr (decide (f &&& 0x10 ≠ 0)) fun str h => { h with comment := str }) (Go.chk (gzCRC (decide (f &&& 2 ≠ 0))) setGzip))) :=
    ((sm_gzStr (c := fr he) _ _).chk ((sm_gzStr _ _).chk ((sm_gzCRC _).chk sm_setGzip))).keep
  refine Why.chk hs ((why_gzExtra he hs hq _).mono fun _ _ h => h.elim) (sm_gzExtraData (c := fr he) _).keep k2 fun s1 e1 hn1 => ?_
  rcases gzExtra_sound hs hf (decide (f &&& 4 ≠ 0)) h1 with ⟨e, r1, a1, a2, b1, e1'⟩ | ⟨s', e1', _⟩ | ⟨_, e1', _⟩
  rotate_left
  · rw [e1'] at e1; cases e1
  · rw [e1'] at e1; cases e1
  rw [e1'] at e1; cases e1
  refine Why.chk (s := { s with inp := takeIn (extraBytes e) r1 s.inp, header := { s.header with extra := gotExtra e } }) hs
    ((why_gzStr he (s := { s with inp := takeIn (extraBytes e) r1 s.inp, header := { s.header with extra := gotExtra e } }) hs hq _ _).mono fun _ _ h => h.elim) (sm_gzStr (c := fr he) _ _).keep k3 fun s2 e2 hn2 => ?_
  rcases gzStr_sound (s := { s with inp := takeIn (extraBytes e) r1 s.inp, header := { s.header with extra := gotExtra e } }) hs (flat_takeIn _ _ _) (decide (f &&& 8 ≠ 0))
    (fun str h => { h with fileName := str }) (by simp only [← h2]) with ⟨n, r2, a3, a4, b2, e2'⟩ | ⟨s', e2', f2⟩
  swap
  · rw [e2'] at e2; cases e2
  rw [e2'] at e2; cases e2
  have b2' : s.inp.buf = extraBytes e ++ strBytes n ++ r2 := by rw [b1, List.append_assoc]; congr 1
  simp only [takeIn_takeIn]
  refine Why.chk (s := { s with inp := takeIn (extraBytes e ++ strBytes n) r2 s.inp, header := { s.header with extra := gotExtra e, fileName := n.getD [] } }) hs
    ((why_gzStr he (s := { s with inp := takeIn (extraBytes e ++ strBytes n) r2 s.inp, header := { s.header with extra := gotExtra e, fileName := n.getD [] } }) hs hq _ _).mono fun _ _ h => h.elim) (sm_gzStr (c := fr he) _ _).keep k4 fun s3 e3 hn3 => ?_
  rcases gzStr_sound (s := { s with inp := takeIn (extraBytes e ++ strBytes n) r2 s.inp, header := { s.header with extra := gotExtra e, fileName := n.getD [] } }) hs (flat_takeIn _ _ _) (decide (f &&& 0x10 ≠ 0))
    (fun str h => { h with comment := str }) (by simp only [← h3]) with ⟨c, r3, a5, a6, b3, e3'⟩ | ⟨s', e3', f3⟩
  swap
  · rw [e3'] at e3; cases e3
  rw [e3'] at e3; cases e3
  have b3' : s.inp.buf = gzVar e n c ++ r3 := by
    unfold gzVar
    rw [b2', List.append_assoc _ (strBytes c)]; congr 1
  simp only [takeIn_takeIn]
  have hm' : CrcIs (takeIn (gzVar e n c) r3 s.inp).crc (m0 ++ gzVar e n c) := crc_update hm _
  refine Why.chk (s := { s with inp := takeIn (gzVar e n c) r3 s.inp, header := { s.header with extra := gotExtra e, fileName := n.getD [], comment := c.getD [] } }) hs
    ((why_gzCRC he (s := { s with inp := takeIn (gzVar e n c) r3 s.inp, header := { s.header with extra := gotExtra e, fileName := n.getD [], comment := c.getD [] } }) hs hq _ hm').mono fun m T h => ?_)
    (sm_gzCRC (c := fr he) _).keep (sm_setGzip (c := fr he)).keep fun s4 e4 hn4 => ?_
  · obtain ⟨g1, p, r, g2, g3, g4, g5, g6⟩ := h
    refine ⟨e, n, c, p, r, g2, a1, a3, a5, g1, a2, a4, a6, ?_, g4, g5, ?_⟩
    · rw [b3', List.append_assoc]
      congr 1
    · rw [g6]
      show s.inp.inTotal + (gzVar e n c).length + 2 = _
      rw [List.length_append, g4]; omega
  · intro a s' e T x m hc
    cases e
    have hc : actErr s4.out.acts = some (.corrupt T x m) := hc
    rw [hn4] at hc; cases hc

theorem high3_eq : ∀ v < 256, v &&& 0xe0 = v / 32 * 32 := by decide +kernel

theorem high3 : ∀ v < 256, v &&& 0xe0 ≠ 0 → 32 ≤ v := by decide +kernel

theorem why_gzip (he : NotC e0) (hs : s.inp.inputError = some e0) (hq : Quiet s.out) (hh : s.header = {}) : Why readHeaderGZIP s (LocB GzWrong s.inp) := by
  refine Why.of_eq (gz_eq s) (Why.needBytes he (s := { s with inp := { s.inp with crc := Crc.init } }) hs hq fun p r b1 l1 => ?_)
  match p, l1 with
  | [a0, a1, a2, a3, t0, t1, t2, t3, x, o], _ =>
    have hb : s.inp.buf = [a0, a1, a2, a3, t0, t1, t2, t3, x, o] ++ r := b1
    have here : ∀ {m : Spec.Problem}, GzWrong m [a0, a1, a2, a3, t0, t1, t2, t3, x, o] → LocB GzWrong s.inp m (takeIn [a0, a1, a2, a3, t0, t1, t2, t3, x, o] r { s.inp with crc := Crc.init }).inTotal :=
      fun h => ⟨_, r, hb, rfl, h⟩
    unfold gzBody
    simp only [List.getD_cons_zero, List.getD_cons_succ, List.drop_succ_cons, List.drop_zero, List.take_succ_cons, List.take_zero]
    by_cases c0 : a0 ≠ 0x1f ∨ a1 ≠ 0x8b
    · rw [if_pos c0]
      refine Why.fail (s := { s with inp := takeIn [a0, a1, a2, a3, t0, t1, t2, t3, x, o] r { s.inp with crc := Crc.init } }) hq (here (.magic _ rfl fun hp => ?_))
      obtain ⟨w, hw⟩ := hp
      simp only [List.cons_append, List.nil_append, List.cons.injEq] at hw
      rcases c0 with h | h
      · exact h hw.1.symm
      · exact h hw.2.1.symm
    rw [if_neg c0]
    obtain ⟨d0, d1⟩ : a0 = 0x1f ∧ a1 = 0x8b := by
      rw [not_or] at c0
      exact ⟨Decidable.not_not.1 c0.1, Decidable.not_not.1 c0.2⟩
    subst d0 d1
    by_cases c1 : a2 ≠ 8
    · rw [if_pos c1]
      exact Why.fail (s := { s with inp := takeIn [0x1f, 0x8b, a2, a3, t0, t1, t2, t3, x, o] r { s.inp with crc := Crc.init } }) hq (here (.method a2 [a3, t0, t1, t2, t3, x, o] rfl c1))
    rw [if_neg c1]
    have d2 := Decidable.not_not.1 c1
    subst d2
    unfold modHeader
    refine Why.step (Go.modify_apply _ _) ?_
    by_cases c2 : a3.toNat &&& 0xe0 ≠ 0
    · rw [if_pos c2]
      refine Why.of_eq (s1 := { s with inp := takeIn [0x1f, 0x8b, 8, a3, t0, t1, t2, t3, x, o] r { s.inp with crc := Crc.init }, header := _ }) rfl (Why.fail (s := { s with inp := takeIn [0x1f, 0x8b, 8, a3, t0, t1, t2, t3, x, o] r { s.inp with crc := Crc.init }, header := _ }) hq ?_)
      rw [high3_eq _ a3.toNat_lt]
      exact here (.flags a3 [t0, t1, t2, t3, x, o] rfl (high3 _ a3.toNat_lt c2))
    rw [if_neg c2]
    have c2' := Decidable.not_not.1 c2
    refine Why.step (Go.modify_apply _ _) ?_
    have h32 : a3.toNat < 32 := by
      have := a3.toNat_lt
      have h := flags_split a3.toNat this c2'
      have h' := (flags_bits (decide (a3.toNat &&& 1 ≠ 0)) (decide (a3.toNat &&& 2 ≠ 0)) (decide (a3.toNat &&& 4 ≠ 0)) (decide (a3.toNat &&& 8 ≠ 0)) (decide (a3.toNat &&& 0x10 ≠ 0))).1
      omega
    have hm : CrcIs (takeIn [0x1f, 0x8b, 8, a3, t0, t1, t2, t3, x, o] r { s.inp with crc := Crc.init }).crc [0x1f, 0x8b, 8, a3, t0, t1, t2, t3, x, o] := crc_first [0x1f, 0x8b, 8, a3, t0, t1, t2, t3, x, o]
    have ht : leBytes 4 (leVal [t0, t1, t2, t3]) = [t0, t1, t2, t3] := leBytes_leVal [t0, t1, t2, t3]
    refine (fun (hd : Header) (hd0 : hd.extra = [] ∧ hd.fileName = [] ∧ hd.comment = []) => ?_ : ∀ hd : Header, hd.extra = [] ∧ hd.fileName = [] ∧ hd.comment = [] →
      Why _ { s with inp := takeIn [0x1f, 0x8b, 8, a3, t0, t1, t2, t3, x, o] r { s.inp with crc := Crc.init }, header := hd } _) _ (by rw [hh]; exact ⟨rfl, rfl, rfl⟩)
    refine (why_gzRest he (s := { s with inp := takeIn [0x1f, 0x8b, 8, a3, t0, t1, t2, t3, x, o] r { s.inp with crc := Crc.init }, header := hd }) hs hq (flat_takeIn _ _ _) hm hd0.1 hd0.2.1 hd0.2.2 (f := a3.toNat)).mono fun m T h => ?_
    obtain ⟨e, n, c, p, r', gm, g1, g2, g3, g4, g5, g6, g7, g8, g9, g10, g11⟩ := h
    have hfl : GzHeader.flags { text := decide (a3.toNat &&& 1 ≠ 0), hcrc := decide (a3.toNat &&& 2 ≠ 0), mtime := leVal [t0, t1, t2, t3], xfl := x, os := o, extra := e, name := n, comment := c } = a3.toNat := by
      unfold GzHeader.flags
      rw [g1, g2, g3]
      exact (flags_split a3.toNat (by omega) (low5 _ h32)).symm
    have hmain : GzHeader.main { text := decide (a3.toNat &&& 1 ≠ 0), hcrc := decide (a3.toNat &&& 2 ≠ 0), mtime := leVal [t0, t1, t2, t3], xfl := x, os := o, extra := e, name := n, comment := c } =
        [0x1f, 0x8b, 8, a3, t0, t1, t2, t3, x, o] ++ gzVar e n c := by
      rw [gz_main, hfl]
      unfold gzPrefix
      rw [ht, UInt8.ofNat_toNat]; rfl
    rw [← hmain, leVal_value] at gm
    subst gm
    refine ⟨_, r', ?_, ?_, GzWrong.crc { text := decide (a3.toNat &&& 1 ≠ 0), hcrc := decide (a3.toNat &&& 2 ≠ 0), mtime := leVal [t0, t1, t2, t3], xfl := x, os := o, extra := e, name := n, comment := c } p
      ⟨leVal_lt [t0, t1, t2, t3], fun x hx => (g5 x hx).1, g6, g7⟩ (fun x hx => (g5 x hx).2) g4 g9 ?_⟩
    · rw [hmain, hb]
      have g8 : r = gzVar e n c ++ p ++ r' := g8
      rw [g8]; simp
    · rw [hmain, g11]
      show s.inp.inTotal + [0x1f, 0x8b, 8, a3, t0, t1, t2, t3, x, o].length + _ = _
      simp only [List.length_append]; omega
    · rw [hmain]; exact g10

/-! ### footers -/

theorem why_footOf (he : NotC e0) (hs : s.inp.inputError = some e0) (hq : Quiet s.out) {data : List UInt8} (hc : CrcIs s.out.crc data) (ha : AdlerIs s.out.adler data)
    (hl : s.out.outStream = data.length) (c : Container) : Why (readFooterOf (fmtOf c) s.out.adler s.out.crc) s (LocB (FootWrong data c) s.inp) := by
  have hadler : s.out.adler.toNat = adler32 data := ha
  have hcrc : s.out.crc.toNat = (crc32 data).toNat := congrArg BitVec.toNat hc
  cases c with
  | raw => exact Why.done rfl hq
  | zlib =>
    show Why (readFooterZlib _) s _
    unfold readFooterZlib
    refine Why.needBytes he hs hq fun p r b1 l1 => ?_
    by_cases hv : beVal p ≠ s.out.adler.toNat
    · rw [if_pos hv, hadler, beVal_value]
      refine Why.fail (s := { s with inp := takeIn p r s.inp }) hq (LocB.here b1 (.adler _ l1 fun hp => hv ?_))
      rw [hp, hadler]
      exact beVal_beBytes 4 _ (adler_lt data)
    · rw [if_neg hv]
      exact Why.done rfl hq
  | gzip =>
    show Why (readFooterGZIP _) s _
    unfold readFooterGZIP
    refine Why.needBytes he hs hq fun p r1 b1 l1 => Why.needBytes he (s := { s with inp := takeIn p r1 s.inp }) hs hq fun q r2 b2 l2 => ?_
    have b2' : r1 = q ++ r2 := b2
    have hbuf : s.inp.buf = p ++ q ++ r2 := by rw [b1, b2']; simp
    show Why _ { s with inp := takeIn q r2 (takeIn p r1 s.inp) } _
    rw [takeIn_takeIn]
    by_cases hv : leVal p ≠ s.out.crc.toNat
    · refine Why.of_eq (g := fail (.gzipSum (leValue p) (crc32 data).toNat)) (by rw [← hcrc, ← leVal_value]; exact if_pos hv) (Why.fail (s := { s with inp := takeIn (p ++ q) r2 s.inp }) hq (LocB.here hbuf (.crc _ _ l1 l2 fun hp => hv ?_)))
      rw [hp, hcrc]
      exact leVal_leBytes 4 _ (crc32 data).isLt
    · have hp : p = leBytes 4 (crc32 data).toNat := by
        have h1 := leBytes_leVal p
        rw [l1, Decidable.not_not.1 hv, hcrc] at h1
        exact h1.symm
      by_cases hw : leVal q ≠ s.out.outStream % 2 ^ 32
      · refine Why.of_eq (g := fail (.gzipLength (leValue q) (data.length % 2 ^ 32))) (by rw [← hl, ← leVal_value]; exact (if_neg hv).trans (if_pos hw)) (Why.fail (s := { s with inp := takeIn (p ++ q) r2 s.inp }) hq (LocB.here hbuf ?_))
        rw [hp]
        refine .length _ l2 fun hq => hw ?_
        rw [hq, hl]
        exact leVal_leBytes 4 _ (Nat.mod_lt _ (by decide))
      · exact Why.done (a := true) (s1 := { s with inp := takeIn (p ++ q) r2 s.inp }) ((if_neg hv).trans (if_neg hw)) hq

end
end Flate.Proof.R.Wrong
