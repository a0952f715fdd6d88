/-
Every problem which is there first, is reported: blocks, headers, footers and streams.
-/
import Verif.Proof.RTell

namespace Flate.Proof.R.Wrong
open Flate.Spec Flate.Model Flate.Model.Rd Flate.Proof.R Flate.Proof.R.Pos

section
variable {α β : Type} {E : Env} {e0 : Err} {s : RState} {i : Inp} {m : Spec.Problem} {bits : List Bool}

/-! ### blocks -/

theorem tell_stored (hs : Nm e0 s) (hq : Quiet s.out) {pad r : List Bool} {len nlen : Nat} (hp : pad.length = s.inp.ibLen) (h1 : len < 65536) (h2 : nlen < 65536) (hne : nlen ≠ 65535 - len)
    (hb : vb s.inp = pad ++ natBits 16 len ++ natBits 16 nlen ++ r) : Tells s.inp (readStored E) s (.storedLen len nlen (65535 - len)) (pad ++ natBits 16 len ++ natBits 16 nlen) := by
  have hb' := hb
  unfold vb at hb'
  simp only [List.append_assoc] at hb'
  obtain ⟨g1, g2⟩ := List.append_inj hb' (by simp [hp])
  rw [show (16 : Nat) = 8 * 2 from rfl, ← bytesBits_leBytes, ← bytesBits_leBytes] at g2
  obtain ⟨r1, b1, g3⟩ := bytesBits_split _ g2
  obtain ⟨r2, b2, g4⟩ := bytesBits_split _ g3.symm
  have a1 := takeIn_adv b1
  have n1 := hs.adv a1
  have a2 := takeIn_adv (i := takeIn (leBytes 2 len) r1 s.inp) b2
  have a12 := a1.trans a2
  rw [bytesBits_leBytes, bytesBits_leBytes, show (takeIn (leBytes 2 len) r1 s.inp).ibLen = 0 from rfl, g1] at a12
  simp only [natBits_zero, List.nil_append] at a12
  unfold readStored
  refine Tells.of_eq (needBytes_ok hs.err false _ b1 (by simp)) (Tells.of_eq (needBytes_ok n1.err false _ b2 (by simp)) ?_)
  rw [leVal_leBytes _ _ (by omega), leVal_leBytes _ _ (by omega), if_pos hne]
  exact Tells.corrupt0 (s := { s with inp := takeIn (leBytes 2 nlen) r2 (takeIn (leBytes 2 len) r1 s.inp) }) hq _ a12

theorem tell_block (hE : EnvOK E) (he : NotC e0) (hs : Nm e0 s) (hq : Quiet s.out) {h : List UInt8} (hwin : s.out.window = lastN (2 ^ E.o.wbits) h) {pos : Nat} (hp : At pos s.inp) {rest : List Bool}
    (hw : BlockWrong (Env.ok E) (2 ^ E.o.wbits) pos h m bits rest) (hb : vb s.inp = bits ++ rest) : Tells s.inp (readFlateBlock E) s m bits := by
  -- the first three bits
  have head : ∀ {f b1 b2 : Bool} {bits2 : List Bool}, bits = [f, b1, b2] ++ bits2 →
      (∀ bt s1, ([b1, b2] = [false, false] → bt = .stored) → ([b1, b2] = [true, false] → bt = .static) → ([b1, b2] = [false, true] → bt = .dynamic) → ([b1, b2] = [true, true] → bt = .invalid) →
        Nm e0 s1 → s1.out = s.out → vb s1.inp = bits2 ++ rest → At (pos + 3) s1.inp → Tells s1.inp (readBlockOf E f bt) s1 m bits2) →
      Tells s.inp (readFlateBlock E) s m bits := by
    intro f b1 b2 bits2 hbits hk
    obtain ⟨v, hv, h1, h2, h3⟩ : ∃ v < 8, natBits 3 v = [f, b1, b2] ∧ decide (v % 2 = 1) = f ∧ (([b1, b2] = [false, false] → blockTypeOf v = .stored) ∧
        ([b1, b2] = [true, false] → blockTypeOf v = .static) ∧ ([b1, b2] = [false, true] → blockTypeOf v = .dynamic) ∧ ([b1, b2] = [true, true] → blockTypeOf v = .invalid)) := by
      cases f <;> cases b1 <;> cases b2 <;> decide
    rw [hbits] at hb ⊢
    rw [← h1, List.append_assoc] at hb
    rw [← h1]
    obtain ⟨i1, a1, e1⟩ := needBits_ok hE.word hs (none : Option Bool) (n := 3) (by omega) (fun out => blockRest E (decide (out % 2 = 1)) (blockTypeOf out)) (v := v) (by omega) hb
    have at1 := hp.adv a1
    rw [natBits_length] at at1
    rw [h2] at e1
    refine Tells.after a1 (Tells.of_eq ((congrFun (block_eq E) s).trans e1) ?_)
    obtain ⟨s1, e2, _, k1, k2⟩ := ran_event E (s := { s with inp := i1 }) a1.small (.blockBegin (blockTypeOf v) f)
    have k1 : s1.inp = i1 := k1
    unfold blockRest
    refine Tells.step e2 ?_
    have n1 : Nm e0 s1 := Nm.same (s := { s with inp := i1 }) (hs.adv a1) k1 k2
    have := hk (blockTypeOf v) s1 h3.1 h3.2.1 h3.2.2.1 h3.2.2.2 n1 k2 (by rw [k1]; exact List.append_cancel_left (a1.bits.symm.trans hb)) (by rw [k1]; exact at1)
    rw [k1] at this
    refine Tells.bind n1.err ?_ (fun b => ?_) this
    · generalize blockTypeOf v = bt
      cases bt with
      | stored => exact (sm_stored (c := fr he)).keep
      | static => exact (sm_static (c := fr he) f).keep
      | dynamic => exact (sm_dynamic (c := fr he) f).keep
      | invalid => exact (sm_fail (c := fr he) _).keep
    · exact (show Sm (fr he) _ from .ite (Sm2.bind (sm_sendEvent _) fun _ => .pure _) (.pure _)).keep
  cases hw with
  | reserved final =>
    refine head (f := final) (b1 := true) (b2 := true) (bits2 := []) rfl fun bt s1 _ _ _ ht n1 o1 _ _ => ?_
    rw [ht rfl]
    exact Tells.corrupt0 (by rw [o1]; exact hq) _ (Adv.refl n1.small)
  | stored final pad len nlen h1 h2 h3 h4 =>
    refine head (f := final) (b1 := false) (b2 := false) (bits2 := pad ++ natBits 16 len ++ natBits 16 nlen) (by simp) fun bt s1 ht _ _ _ n1 o1 b1 at1 => ?_
    rw [ht rfl]
    exact tell_stored n1 (by rw [o1]; exact hq) (h1.trans at1.symm) h2 h3 h4 b1
  | fixed final hd =>
    refine head (f := final) (b1 := true) (b2 := false) rfl fun bt s1 _ ht _ _ n1 o1 b1 _ => ?_
    rw [ht rfl]
    obtain ⟨s2, k3, k4, _, t2⟩ := readStatic_eq (E := E) n1.small final
    refine Tells.of_eq t2 ?_
    have := tell_huff hE he (acceptsLL hE) (acceptsD hE) hd (n1.same k3 k4) (by rw [k4, o1]; exact hq) (by rw [k4, o1]; exact hwin) (by rw [k3]; exact b1)
    rw [k3] at this
    exact this
  | trees final ht =>
    refine head (f := final) (b1 := false) (b2 := true) rfl fun bt s1 _ _ hbt _ n1 o1 b1 _ => ?_
    rw [hbt rfl]
    refine Tells.bind n1.err (sm_trees (c := fr he) final).keep (fun x => ?_) (tell_trees hE he n1 (by rw [o1]; exact hq) final ht b1)
    rcases x with _ | ⟨ll, d⟩
    · exact Keeps.pure (p_pre _) _
    · exact (sm_huff (c := fr he) _ _).keep
  | @dynamic _ bits2 _ final hd hv hdw =>
    refine head (f := final) (b1 := false) (b2 := true) (bits2 := hd.bits ++ bits2) (by simp) fun bt s1 _ _ hbt _ n1 o1 b1 _ => ?_
    rw [hbt rfl]
    rw [List.append_assoc] at b1
    obtain ⟨tr, s2, e2, r2, o2, _⟩ := trees_ok hE n1 final hv b1
    obtain ⟨_, _, _, _, _, _, _, _, _, _, _, _, _, w3, w4⟩ := id hv
    refine Tells.after r2.adv (Tells.step e2 ?_)
    exact tell_huff hE he w3 w4 hdw (n1.ran r2) (by rw [o2, o1]; exact hq) (by rw [o2, o1]; exact hwin) (List.append_cancel_left (r2.adv.bits.symm.trans b1))

theorem tell_blockLoop (hE : EnvOK E) (he : NotC e0) {pos : Nat} {h : List UInt8} {rest : List Bool} (hw : BlocksWrong (Env.ok E) (2 ^ E.o.wbits) pos h m bits rest) :
    ∀ (fuel : Nat) {s : RState}, Nm e0 s → Quiet s.out → At pos s.inp → s.out.window = lastN (2 ^ E.o.wbits) h → vb s.inp = bits ++ rest → Tells s.inp (blockLoop E fuel) s m bits := by
  induction hw with
  | @after pos h h' m b bits rest hB _ ih =>
    intro fuel s hs hq hp hwin hb
    cases fuel with
    | zero => intro _ _ e; cases e
    | succ fuel =>
      rw [List.append_assoc] at hb
      obtain ⟨p, ks, s1, rfl, e1, _, r1⟩ := block_ok hE hs hp hwin hB hb
      unfold blockLoop
      refine Tells.after r1.adv (Tells.step e1 ?_)
      exact ih fuel (hs.ran r1) (hq.emit r1.emit) (hp.adv r1.adv) (r1.emit.window _ hwin) (List.append_cancel_left (r1.adv.bits.symm.trans hb))
  | @here pos h m bits rest hB =>
    intro fuel s hs hq hp hwin hb
    cases fuel with
    | zero => intro _ _ e; cases e
    | succ fuel =>
      unfold blockLoop
      refine Tells.bind hs.err (sm_flateBlock (c := fr he)).keep (fun y => ?_) (tell_block hE he hs hq hwin hp hB hb)
      split
      · exact (sm_blockLoop (c := fr he) fuel fuel (Nat.le_refl _)).keep
      · exact Keeps.pure (p_pre _) _

/-! ### headers and footers -/

/-- the function reports the problem `m` at `T` -/
def TellsAt {α : Type} (T : Nat) (f : Go RState α) (s : RState) (m : Spec.Problem) : Prop := ∀ a s', f s = .ok (a, s') → ∃ b, actErr s'.out.acts = some (.corrupt T b m)

variable {T : Nat}

theorem TellsAt.of_eq {f g : Go RState α} {s1 : RState} (h : f s = g s1) (hg : TellsAt T g s1 m) : TellsAt T f s m :=
  fun a s' e => hg a s' (h ▸ e)

theorem TellsAt.step {f : Go RState α} {g : α → Go RState β} {s1 : RState} {a : α} (h : f s = .ok (a, s1)) (hg : TellsAt T (g a) s1 m) : TellsAt T (f >>= g) s m :=
  TellsAt.of_eq (Go.bind_ok h) hg

theorem TellsAt.bind {f : Go RState α} {g : α → Go RState β} (hs : s.inp.inputError = some e0) (kf : Keeps (P e0) f) (kg : ∀ a, Keeps (P e0) (g a))
    (hf : TellsAt T f s m) : TellsAt T (f >>= g) s m := by
  intro b s' e
  obtain ⟨a, s1, e1, e2⟩ := Go.bind_eq_ok.1 e
  obtain ⟨x, h4⟩ := hf a s1 e1
  have k1 := kf _ _ _ e1 hs
  have k2 := kg a _ _ _ e2 k1.inp.err
  exact ⟨x, k2.first _ h4⟩

theorem TellsAt.chk {f g : Go RState Bool} (hs : s.inp.inputError = some e0) (kf : Keeps (P e0) f) (kg : Keeps (P e0) g) (hf : TellsAt T f s m) : TellsAt T (Go.chk f g) s m := by
  intro b s' e
  unfold Go.chk at e
  rcases hfe : f s with er | ⟨a, s1⟩
  · rw [hfe] at e; cases e
  · rw [hfe] at e
    cases a with
    | false => cases e; exact hf _ _ hfe
    | true =>
      have e : g s1 = .ok (b, s') := e
      obtain ⟨x, h4⟩ := hf _ _ hfe
      have k1 := kf _ _ _ hfe hs
      have k2 := kg _ _ _ e k1.inp.err
      exact ⟨x, k2.first _ h4⟩

theorem TellsAt.fail (hq : Quiet s.out) (hT : s.inp.inTotal = T) : TellsAt T (Rd.fail m) s m := by
  intro a s' e
  have : Rd.fail m s = .ok (false, { s with out := closeOut (.corrupt s.inp.inTotal s.inp.inStream m) s.out }) := (Go.bind_ok (corruptf_eq m s)).trans rfl
  rw [this] at e; cases e
  rw [← hT]
  exact ⟨_, hq.close _⟩

theorem TellsAt.needBytes (hs : s.inp.inputError = some e0) {fl : α} {n : Nat} {k : List UInt8 → Go RState α} {p r : List UInt8} (hb : s.inp.buf = p ++ r) (hn : p.length = n)
    (h : TellsAt T (k p) { s with inp := takeIn p r s.inp } m) : TellsAt T (needBytes fl n k) s m :=
  TellsAt.of_eq (needBytes_ok hs fl k hb hn) h

theorem tell_zlib (hs : s.inp.inputError = some e0) (hq : Quiet s.out) {w r : List UInt8} (hw : ZlibWrong (2 ^ E.o.wbits) E.o.dict m w) (hb : s.inp.buf = w ++ r) :
    TellsAt (s.inp.inTotal + w.length) (readHeaderZlib E) s m := by
  rw [zlib_eq]
  have sh : ∀ c : UInt8, c.toNat >>> 4 = c.toNat / 16 := fun c => by rw [Nat.shiftRight_eq_div_pow]
  -- the first two bytes
  have two : ∀ {cmf flg : UInt8} {q : List UInt8}, w = [cmf, flg] ++ q → TellsAt (s.inp.inTotal + w.length) (zlibBody E [cmf, flg]) { s with inp := takeIn [cmf, flg] (q ++ r) s.inp } m →
      TellsAt (s.inp.inTotal + w.length) (needBytes false 2 (zlibBody E)) s m := by
    intro cmf flg q hwq hk
    exact TellsAt.of_eq (needBytes_ok hs false _ (p := [cmf, flg]) (r := q ++ r) (by rw [hb, hwq, List.append_assoc]) rfl) hk
  -- the window size is good
  have win : ∀ {cmf flg : UInt8} {q : List UInt8}, w = [cmf, flg] ++ q → (cmf.toNat * 256 + flg.toNat) % 31 = 0 → cmf.toNat % 16 = 8 → 2 ^ (cmf.toNat / 16 + 8) ≤ 2 ^ E.o.wbits →
      (∀ hd, TellsAt (s.inp.inTotal + w.length) (if flg.toNat &&& 0x20 ≠ 0 then
          needBytes false 4 fun q =>
            match E.o.dict with
            | none => Rd.fail (.dictNeeded (beVal q))
            | some d =>
              if beVal q ≠ (Adler.checksum d).toNat then Rd.fail (.dictOther (beVal q) (Adler.checksum d).toNat)
              else setZlib
        else
          match E.o.dict with
          | some d => Rd.fail (.dictNeedless (Adler.checksum d).toNat)
          | none => setZlib) { s with inp := takeIn [cmf, flg] (q ++ r) s.inp, header := hd } m) →
      TellsAt (s.inp.inTotal + w.length) (needBytes false 2 (zlibBody E)) s m := by
    intro cmf flg q hwq c1 c2 c3 hk
    refine two hwq ?_
    have c3' : ¬ 8 + (cmf.toNat >>> 4) > E.o.wbits := by
      have := (Nat.pow_le_pow_iff_right (by omega)).1 c3
      rw [sh]; omega
    unfold zlibBody modHeader
    simp only [List.getD_cons_zero, List.getD_cons_succ, beVal_two]
    rw [if_neg (by omega), if_neg (by rw [and15]; omega)]
    refine TellsAt.step (Go.modify_apply _ _) ?_
    rw [if_neg c3']
    refine TellsAt.step (Go.modify_apply _ _) ?_
    exact hk _
  cases hw with
  | check cmf flg c1 =>
    refine two (q := []) rfl ?_
    unfold zlibBody
    simp only [List.getD_cons_zero, List.getD_cons_succ, beVal_two]
    rw [if_pos c1]
    exact TellsAt.fail (s := { s with inp := takeIn [cmf, flg] ([] ++ r) s.inp }) hq rfl
  | method cmf flg c1 c2 =>
    refine two (q := []) rfl ?_
    unfold zlibBody
    simp only [List.getD_cons_zero, List.getD_cons_succ, beVal_two]
    rw [if_neg (by omega), if_pos (by rw [and15]; exact c2), and15]
    exact TellsAt.fail (s := { s with inp := takeIn [cmf, flg] ([] ++ r) s.inp }) hq rfl
  | window cmf flg limit hlim c1 c2 c3 =>
    obtain rfl : E.o.wbits = limit := Nat.pow_right_injective (Nat.le_refl 2) hlim
    refine two (q := []) rfl ?_
    have c3' : 8 + (cmf.toNat >>> 4) > E.o.wbits := by
      have := (Nat.pow_lt_pow_iff_right (by omega)).1 c3
      rw [sh]; omega
    unfold zlibBody modHeader
    simp only [List.getD_cons_zero, List.getD_cons_succ, beVal_two]
    rw [if_neg (by omega), if_neg (by rw [and15]; omega)]
    refine TellsAt.step (Go.modify_apply _ _) ?_
    rw [if_pos c3', sh, Nat.add_comm 8]
    exact TellsAt.fail (s := { s with inp := takeIn [cmf, flg] ([] ++ r) s.inp, header := _ }) hq rfl
  | noDict cmf flg id c1 c2 c3 c4 hl hd =>
    refine win (q := id) rfl c1 c2 c3 fun hdr => ?_
    rw [if_pos ((flg5 _ flg.toNat_lt).2 c4)]
    refine TellsAt.of_eq (needBytes_ok (s := { s with inp := takeIn [cmf, flg] (id ++ r) s.inp, header := hdr }) hs false _ (p := id) (r := r) rfl hl) ?_
    rw [hd]
    simp only [beVal_value]
    exact TellsAt.fail (s := { s with inp := takeIn id r (takeIn [cmf, flg] (id ++ r) s.inp), header := hdr }) hq (by rw [takeIn_takeIn]; rfl)
  | otherDict cmf flg id d c1 c2 c3 c4 hl hd hne =>
    refine win (q := id) rfl c1 c2 c3 fun hdr => ?_
    rw [if_pos ((flg5 _ flg.toNat_lt).2 c4)]
    refine TellsAt.of_eq (needBytes_ok (s := { s with inp := takeIn [cmf, flg] (id ++ r) s.inp, header := hdr }) hs false _ (p := id) (r := r) rfl hl) ?_
    rw [hd]
    have : beVal id ≠ (Adler.checksum d).toNat := by
      intro h
      apply hne
      have := beBytes_beVal id
      rw [hl, h, adler_checksum] at this
      exact this.symm
    simp only []
    rw [if_pos this, adler_checksum, beVal_value]
    exact TellsAt.fail (s := { s with inp := takeIn id r (takeIn [cmf, flg] (id ++ r) s.inp), header := hdr }) hq (by rw [takeIn_takeIn]; rfl)
  | needless cmf flg d c1 c2 c3 c4 hd =>
    refine win (q := []) rfl c1 c2 c3 fun hdr => ?_
    have c4' : ¬ (flg.toNat &&& 0x20 ≠ 0) := by
      intro h
      rw [(flg5 _ flg.toNat_lt).1 h] at c4; cases c4
    rw [if_neg c4', hd]
    simp only [adler_checksum]
    exact TellsAt.fail (s := { s with inp := takeIn [cmf, flg] ([] ++ r) s.inp, header := hdr }) hq rfl

theorem high3' : ∀ v < 256, 32 ≤ v → v &&& 0xe0 ≠ 0 := by decide +kernel

theorem tell_gzCRC (he : NotC e0) (hs : s.inp.inputError = some e0) (hq : Quiet s.out) {m0 p r : List UInt8} (hm : CrcIs s.inp.crc m0) (hb : s.inp.buf = p ++ r) (hl : p.length = 2)
    (hne : p ≠ leBytes 2 ((crc32 m0).toNat % 65536)) : TellsAt (s.inp.inTotal + 2) (Go.chk (gzCRC true) setGzip) s (.gzipHeaderSum (leValue p) ((crc32 m0).toNat % 65536)) := by
  refine TellsAt.chk hs (sm_gzCRC (c := fr he) _).keep (sm_setGzip (c := fr he)).keep (TellsAt.of_eq (g := gzCRC16 true s.inp.crc) rfl ?_)
  unfold gzCRC16
  rw [if_pos rfl]
  refine TellsAt.of_eq (needBytes_ok hs false _ hb hl) ?_
  have : s.inp.crc.toNat % 65536 ≠ leVal p := by
    intro h
    apply hne
    rw [← show s.inp.crc = crc32 m0 from hm, h, ← hl, leBytes_leVal]
  rw [if_pos this, show s.inp.crc = crc32 m0 from hm, leVal_value]
  exact TellsAt.fail (s := { s with inp := takeIn p r s.inp }) hq (by show s.inp.inTotal + p.length = _; rw [hl])

theorem tell_gzRest (he : NotC e0) (hs : s.inp.inputError = some e0) (hq : Quiet s.out) (hf : Flat s.inp) {pre : List UInt8} (hm : CrcIs s.inp.crc pre) {g : GzHeader} {p r : List UInt8}
    (hb : s.inp.buf = gzVar g.extra g.name g.comment ++ (p ++ r)) (hd0 : s.header.extra = [] ∧ s.header.fileName = [] ∧ s.header.comment = [])
    (v2 : ∀ e, g.extra = some e → e.length < 65536 ∧ ExtraOK e) (v3 : ∀ n, g.name = some n → 0 ∉ n) (v4 : ∀ n, g.comment = some n → 0 ∉ n) {f : Nat}
    (k4 : decide (f &&& 2 ≠ 0) = true) (k5 : decide (f &&& 4 ≠ 0) = g.extra.isSome) (k6 : decide (f &&& 8 ≠ 0) = g.name.isSome) (k7 : decide (f &&& 0x10 ≠ 0) = g.comment.isSome)
    (hl : p.length = 2) (hne : p ≠ leBytes 2 ((crc32 (pre ++ gzVar g.extra g.name g.comment)).toNat % 65536)) :
    TellsAt (s.inp.inTotal + ((gzVar g.extra g.name g.comment).length + 2)) (gzRest f) s (.gzipHeaderSum (leValue p) ((crc32 (pre ++ gzVar g.extra g.name g.comment)).toNat % 65536)) := by
  unfold gzRest
  rw [k5, k6, k7, k4]
  refine TellsAt.of_eq (chk_true (gzExtra_ok hs hf v2 (r := strBytes g.name ++ (strBytes g.comment ++ (p ++ r))) (by rw [hb]; simp [gzVar]) hd0.1)) ?_
  refine TellsAt.of_eq (chk_true (gzStr_ok (s := { s with inp := takeIn (extraBytes g.extra) _ s.inp, header := { s.header with extra := gotExtra g.extra } }) hs (flat_takeIn _ _ _) v3 rfl (fun str h => { h with fileName := str }) (by simp only [← hd0.2.1]))) ?_
  simp only [takeIn_takeIn]
  refine TellsAt.of_eq (chk_true (gzStr_ok (s := { s with inp := takeIn (extraBytes g.extra ++ strBytes g.name) _ s.inp, header := { s.header with extra := gotExtra g.extra, fileName := g.name.getD [] } }) hs (flat_takeIn _ _ _) v4 rfl (fun str h => { h with comment := str }) (by simp only [← hd0.2.2]))) ?_
  simp only [takeIn_takeIn]
  have hm' : CrcIs (takeIn (gzVar g.extra g.name g.comment) (p ++ r) s.inp).crc (pre ++ gzVar g.extra g.name g.comment) := crc_update hm _
  have := tell_gzCRC he (s := { s with inp := takeIn (gzVar g.extra g.name g.comment) (p ++ r) s.inp, header := { s.header with extra := gotExtra g.extra, fileName := g.name.getD [], comment := g.comment.getD [] } })
    hs hq hm' rfl hl hne
  rw [← Nat.add_assoc]
  exact this

theorem tell_gzip (he : NotC e0) (hs : s.inp.inputError = some e0) (hq : Quiet s.out) (hh : s.header = {}) {w r : List UInt8} (hw : GzWrong m w) (hb : s.inp.buf = w ++ r) :
    TellsAt (s.inp.inTotal + w.length) readHeaderGZIP s m := by
  have ten : ∀ {p : List UInt8}, p.length = 10 → w = p → TellsAt (s.inp.inTotal + w.length) (gzBody p) { s with inp := takeIn p r { s.inp with crc := Crc.init } } m →
      TellsAt (s.inp.inTotal + w.length) readHeaderGZIP s m := by
    intro p hl hwp hk
    exact TellsAt.of_eq ((gz_eq s).trans (needBytes_ok (s := { s with inp := { s.inp with crc := Crc.init } }) hs false _ (p := p) (r := r) (by rw [← hwp]; exact hb) hl)) hk
  cases hw with
  | magic _ hl hno =>
    refine ten hl rfl ?_
    match w, hl, hno with
    | [a0, a1, a2, a3, t0, t1, t2, t3, x, o], _, hno =>
      unfold gzBody
      simp only [List.getD_cons_zero, List.getD_cons_succ]
      have : a0 ≠ 0x1f ∨ a1 ≠ 0x8b := by
        rcases Decidable.em (a0 = 0x1f) with h | h
        · right
          intro h'
          subst h h'
          exact hno ⟨[a2, a3, t0, t1, t2, t3, x, o], rfl⟩
        · exact Or.inl h
      rw [if_pos this]
      exact TellsAt.fail (s := { s with inp := takeIn [a0, a1, a2, a3, t0, t1, t2, t3, x, o] r { s.inp with crc := Crc.init } }) hq rfl
  | method cm p hl hno =>
    refine ten (p := [0x1f, 0x8b, cm] ++ p) (by simp [hl]) rfl ?_
    unfold gzBody
    simp only [List.cons_append, List.nil_append, List.getD_cons_zero, List.getD_cons_succ]
    rw [if_neg (by simp), if_pos hno]
    exact TellsAt.fail (s := { s with inp := takeIn ([0x1f, 0x8b, cm] ++ p) r { s.inp with crc := Crc.init } }) hq rfl
  | flags flg p hl hf =>
    refine ten (p := [0x1f, 0x8b, 8, flg] ++ p) (by simp [hl]) rfl ?_
    unfold gzBody modHeader
    simp only [List.cons_append, List.nil_append, List.getD_cons_zero, List.getD_cons_succ]
    rw [if_neg (by simp), if_neg (by simp)]
    refine TellsAt.step (Go.modify_apply _ _) ?_
    rw [if_pos (high3' _ flg.toNat_lt hf), high3_eq _ flg.toNat_lt]
    exact TellsAt.fail (s := { s with inp := takeIn ([0x1f, 0x8b, 8, flg] ++ p) r { s.inp with crc := Crc.init }, header := _ }) hq rfl
  | crc g p hv hx hc hl hne =>
    obtain ⟨v1, v2, v3, v4⟩ := hv
    have hflags : g.flags = flagsOf g.text g.hcrc g.extra.isSome g.name.isSome g.comment.isSome := rfl
    obtain ⟨k1, k2, k3, k4, k5, k6, k7⟩ := flags_bits g.text g.hcrc g.extra.isSome g.name.isSome g.comment.isSome
    rw [← hflags] at k1 k2 k3 k4 k5 k6 k7
    have hb' := hb
    rw [gz_main, List.append_assoc, List.append_assoc] at hb'
    rcases gz_fixed hs hh with ⟨f, t, x, o, r1, h1, h2, b1, e1⟩ | ⟨hno, _⟩
    swap
    · exact absurd hb' (hno _ _ _ _ _ k1 v1)
    obtain ⟨rfl, rfl, rfl, rfl, b2⟩ := gzPrefix_inj h1 k1 h2 v1 (b1.symm.trans hb')
    refine TellsAt.of_eq e1 ?_
    have hm : CrcIs (takeIn (gzPrefix g.flags g.mtime g.xfl g.os) r1 { s.inp with crc := Crc.init }).crc (gzPrefix g.flags g.mtime g.xfl g.os) := crc_first (gzPrefix g.flags g.mtime g.xfl g.os)
    have hT : s.inp.inTotal + (g.main ++ p).length = (takeIn (gzPrefix g.flags g.mtime g.xfl g.os) r1 { s.inp with crc := Crc.init }).inTotal + ((gzVar g.extra g.name g.comment).length + 2) := by
      show _ = s.inp.inTotal + (gzPrefix g.flags g.mtime g.xfl g.os).length + _
      rw [gz_main, List.length_append, List.length_append, hl]; omega
    rw [hT]
    rw [gz_main] at hne ⊢
    exact tell_gzRest he (s := { s with inp := takeIn (gzPrefix g.flags g.mtime g.xfl g.os) r1 { s.inp with crc := Crc.init }, header := gzFixed (decide (g.flags &&& 1 ≠ 0)) g.mtime g.xfl g.os })
      hs hq (flat_takeIn _ _ _) hm b2 ⟨rfl, rfl, rfl⟩ (fun e h => ⟨v2 e h, hx e h⟩) v3 v4 (k4.trans hc) k5 k6 k7 hl hne

theorem tell_footOf (hs : s.inp.inputError = some e0) (hq : Quiet s.out) {data : List UInt8} (hc : CrcIs s.out.crc data) (ha : AdlerIs s.out.adler data)
    (hl : s.out.outStream = data.length) {c : Container} {w r : List UInt8} (hw : FootWrong data c m w) (hb : s.inp.buf = w ++ r) :
    TellsAt (s.inp.inTotal + w.length) (readFooterOf (fmtOf c) s.out.adler s.out.crc) s m := by
  have hadler : s.out.adler.toNat = adler32 data := ha
  have hcrc : s.out.crc.toNat = (crc32 data).toNat := congrArg BitVec.toNat hc
  cases hw with
  | adler _ l1 hne =>
    show TellsAt _ (readFooterZlib _) s _
    unfold readFooterZlib
    refine TellsAt.of_eq (needBytes_ok hs false _ hb l1) ?_
    have : beVal w ≠ s.out.adler.toNat := by
      intro h
      apply hne
      have h1 := beBytes_beVal w
      rw [l1, h, hadler] at h1
      exact h1.symm
    rw [if_pos this, hadler, beVal_value]
    exact TellsAt.fail (s := { s with inp := takeIn w r s.inp }) hq rfl
  | crc p q l1 l2 hne =>
    show TellsAt _ (readFooterGZIP _) s _
    unfold readFooterGZIP
    rw [List.append_assoc] at hb
    refine TellsAt.of_eq (needBytes_ok hs false _ hb l1) ?_
    refine TellsAt.needBytes (s := { s with inp := takeIn p (q ++ r) s.inp }) hs (p := q) (r := r) rfl l2 ?_
    have : leVal p ≠ s.out.crc.toNat := by
      intro h
      apply hne
      have h1 := leBytes_leVal p
      rw [l1, h, hcrc] at h1
      exact h1.symm
    refine TellsAt.of_eq (g := Rd.fail (.gzipSum (leValue p) (crc32 data).toNat)) (by rw [← hcrc, ← leVal_value]; exact if_pos this) ?_
    exact TellsAt.fail (s := { s with inp := takeIn q r (takeIn p (q ++ r) s.inp) }) hq (by rw [takeIn_takeIn]; rfl)
  | length q l2 hne =>
    show TellsAt _ (readFooterGZIP _) s _
    unfold readFooterGZIP
    rw [List.append_assoc] at hb
    refine TellsAt.of_eq (needBytes_ok hs false _ hb (by simp)) ?_
    refine TellsAt.needBytes (s := { s with inp := takeIn (leBytes 4 (crc32 data).toNat) (q ++ r) s.inp }) hs (p := q) (r := r) rfl l2 ?_
    have h1 : ¬ (leVal (leBytes 4 (crc32 data).toNat) ≠ s.out.crc.toNat) := by
      rw [leVal_leBytes 4 _ (crc32 data).isLt, hcrc]; simp
    have h2 : leVal q ≠ s.out.outStream % 2 ^ 32 := by
      intro h
      apply hne
      have h1 := leBytes_leVal q
      rw [l2, h, hl] at h1
      exact h1.symm
    refine TellsAt.of_eq (g := Rd.fail (.gzipLength (leValue q) (data.length % 2 ^ 32))) (by rw [← hl, ← leVal_value]; exact (if_neg h1).trans (if_pos h2)) ?_
    exact TellsAt.fail (s := { s with inp := takeIn q r (takeIn (leBytes 4 (crc32 data).toNat) (q ++ r) s.inp) }) hq (by rw [takeIn_takeIn]; rfl)

theorem tell_footer (he : NotC e0) (hs : s.inp.inputError = some e0) (hq : Quiet s.out) {data : List UInt8} (hc : CrcIs s.out.crc data) (ha : AdlerIs s.out.adler data)
    (hl : s.out.outStream = data.length) {c : Container} (hfmt : s.actualFormat = fmtOf c) {w r : List UInt8} (hw : FootWrong data c m w) (hb : s.inp.buf = w ++ r) :
    TellsAt (s.inp.inTotal + w.length) readFooter s m := by
  obtain ⟨inp, out, num, hd, fmt, evs⟩ := s
  simp only at hfmt hs hc ha hl
  subst hfmt
  unfold readFooter
  refine TellsAt.step (onInp_ok (s := ⟨inp, out, num, hd, fmtOf c, evs⟩) (a := ()) (i := Rd.discard inp) rfl) ?_
  obtain ⟨ev1, he1⟩ : ∃ ev, sendEvent (.streamEnd out.adler out.crc) ⟨Rd.discard inp, out, num, hd, fmtOf c, evs⟩ = .ok ((), ⟨Rd.discard inp, out, num, hd, fmtOf c, evs ++ [ev]⟩) :=
    ⟨_, rfl⟩
  refine TellsAt.of_eq (Go.bind_ok he1) ?_
  exact TellsAt.chk (s := ⟨Rd.discard inp, out, num, hd, fmtOf c, evs ++ [ev1]⟩) hs (sm_readFooterOf (c := fr he) _ _ _).keep
    (Sm2.bind (sm_sendEvent (c := fr he) _) fun _ => .pure _).keep
    (tell_footOf (s := ⟨Rd.discard inp, out, num, hd, fmtOf c, evs ++ [ev1]⟩) hs hq hc ha hl hw hb)

/-! ### streams -/

theorem tell_head (he : NotC e0) (hs : s.inp.inputError = some e0) (hq : Quiet s.out) (hh : s.header = {}) {c : Container} {w r : List UInt8}
    (hw : (c = .zlib ∧ ZlibWrong (2 ^ E.o.wbits) E.o.dict m w) ∨ (c = .gzip ∧ GzWrong m w)) (hb : s.inp.buf = w ++ r) :
    TellsAt (s.inp.inTotal + w.length) (readHeaderOf E (fmtOf c)) s m := by
  rcases hw with ⟨rfl, hw⟩ | ⟨rfl, hw⟩
  · exact tell_zlib hs hq hw hb
  · exact tell_gzip he hs hq hh hw hb

/-- One stream. -/
theorem stream_tell (hE : EnvOK E) (hs : Ready e0 s) (he : NotC e0) (hb : s.inp.buf ≠ []) {c : Container} (hf : E.o.format = fmtOf c) (hq : Quiet s.out) {n : Nat}
    (hw : StreamWrong (Env.ok E) (2 ^ E.o.wbits) E.o.dict c m s.inp.buf n) {a : Bool} {s' : RState} (e : readStream E s = .ok (a, s')) :
    ∃ T b, actErr s'.out.acts = some (.corrupt T b m) ∧ (m ∉ noCodeMessages → T = s.inp.inTotal + n) := by
  have hc : detect E.o.format s.inp.buf = c := by rw [hf]; exact detect_fmtOf _ _
  have bad : ∀ {w r : List UInt8}, ((c = .zlib ∧ ZlibWrong (2 ^ E.o.wbits) E.o.dict m w) ∨ (c = .gzip ∧ GzWrong m w)) → s.inp.buf = w ++ r →
      TellsAt (s.inp.inTotal + w.length) (readStream E) s m := by
    intro w r hw hbuf
    obtain ⟨s3, h3, e3⟩ := stream_begin (E := E) hs.err hb
    obtain ⟨ev, hev, rfl⟩ := h3
    refine TellsAt.of_eq e3 ?_
    have hfmt : E.o.format ≠ .default := by rw [hf]; exact fmtOf_ne c
    have k1 : Sm (fr he) (readHeaderOf E E.o.format) := sm_readHeaderOf hfmt
    have k2 : Sm (fr he) (fun s => do
      let (_, s) ← sendEvent (.streamHeader s.header) s
      pure (true, s)) :=
      Sm.read (fun s => s.header) (fun _ => rfl) (F := fun h => (do sendEvent (.streamHeader h); Pure.pure true : Go RState Bool)) fun v => Sm2.bind (sm_sendEvent _) fun _ => .pure _
    refine TellsAt.chk (e0 := e0) hs.err (k1.chk k2).keep (sm_bodyRest (c := fr he)).keep (TellsAt.chk (e0 := e0) hs.err k1.keep k2.keep ?_)
    rw [hf]
    exact tell_head he (s := { s with inp := { s.inp with inStream := 0 }, out := { s.out with outStream := 0, window := (lastN (2 ^ E.o.wbits) (E.o.dict.getD [])) }, numStreams := s.numStreams + 1, actualFormat := .default, header := {}, events := s.events ++ [ev] })
      hs.err ⟨hq.set, hq.acts⟩ rfl hw hbuf
  generalize hbuf : s.inp.buf = w0 at hw
  cases hw with
  | zlib hz =>
    obtain ⟨b, h⟩ := bad (Or.inl ⟨rfl, hz⟩) hbuf a s' e
    exact ⟨_, b, h, fun _ => rfl⟩
  | gzip hz =>
    obtain ⟨b, h⟩ := bad (Or.inr ⟨rfl, hz⟩) hbuf a s' e
    exact ⟨_, b, h, fun _ => rfl⟩
  | blocks hh hbw hbits hn h1 h2 =>
    rename_i hdr body bits rest n
    obtain ⟨h, s5, _, ho, e5⟩ := stream_head_ok hs hb hc hh hbuf
    have nm := ho.nm hs
    have q5 : Quiet s5.out := ⟨ho.set.trans hq.set, by rw [ho.acts]; exact hq.acts⟩
    rw [e5] at e
    unfold blocksFoot at e
    have hvb : vb s5.inp = bits ++ rest := by rw [vb_flat ho.flat, ho.ibuf]; exact hbits
    have := Tells.bind nm.err (sm_readBlocks (c := fr he)).keep (fun _ => (Sm.bind (Sm.onOut (c := fr he) fun o => must_first o) fun _ => sm_readFooter).keep)
      (Tells.of_eq (f := readBlocks E) (s1 := s5) rfl (tell_blockLoop hE he hbw (s5.inp.bits + 1) nm q5 (SomeAll.at0 ho.flat) ho.window hvb)) a s' e
    obtain ⟨j, i', b, l1, l2, l3, l4⟩ := this
    refine ⟨_, b, l4, fun hm => ?_⟩
    have hij := l3 hm
    rw [hij]
    obtain ⟨cc, c1, c2, _, _⟩ := l1.step.took
    have hb5 : body = cc ++ j.buf := by rw [← ho.ibuf]; exact c1
    have hlen := congrArg List.length (l1.bits.symm.trans hvb)
    have hlen2 := congrArg List.length l1.bits
    rw [vb_flat ho.flat, ho.ibuf, bytesBits_length, List.length_append, vb_length, hb5, List.length_append] at hlen2
    have hj := l1.small.len
    have h2 := h2 hm
    rw [c2, ho.total]
    omega
  | @footer _ _ hdr body data foot r hh hd hfw =>
    obtain ⟨bs, b, pad, h1, d1, d2, d3, d4⟩ := hd
    have hb1 : s.inp.buf = hdr ++ (body ++ foot ++ r) := by rw [hbuf]; simp
    obtain ⟨h, s5, _, ho, e5⟩ := stream_head_ok hs hb hc hh hb1
    have nm := ho.nm hs
    have q5 : Quiet s5.out := ⟨ho.set.trans hq.set, by rw [ho.acts]; exact hq.acts⟩
    have hvb : vb s5.inp = bs ++ b ++ (pad ++ bytesBits (foot ++ r)) := by
      rw [vb_flat ho.flat, ho.ibuf, List.append_assoc body, bytesBits_append, d3]; simp
    obtain ⟨p, bks, s6, g1, g2, g3, g4⟩ := blockLoop_ok hE d1 (by simpa using d2) (s5.inp.bits + 1) nm (SomeAll.at0 ho.flat) ho.window (Nat.lt_succ_self _) hvb
    have hp : data = p := List.append_cancel_left g1
    subst hp
    have g2 : readBlocks E s5 = .ok ((), s6) := g2
    obtain ⟨body', c1, ⟨pad', c2, c2'⟩, _⟩ := stream_close hE hs hb1 ho g3 g4 g2
    have hlen : body'.length = body.length := by
      have e1 := congrArg List.length c2
      have e2 := congrArg List.length d3
      simp only [List.length_append, bytesBits_length] at e1 e2
      omega
    rw [List.append_assoc] at c1
    obtain ⟨hbody, c1'⟩ := List.append_inj c1.symm hlen
    subst hbody
    have nm6 := nm.ran g4
    obtain ⟨m1, m2⟩ := emit_mustFlush hE.opn nm6.stop
    have hem := g4.emit.trans m1
    have q6 := q5.emit hem
    obtain ⟨w, ⟨ds, y1, y2, y3, y4, y5, y6⟩, y7, y8⟩ := hem
    rw [m2, ho.buf, hs.empty] at y2
    simp only [List.append_nil, List.nil_append] at y2
    have hcrc := y5 [] ho.crc
    have hadl := y6 [] ho.adler
    rw [y2, List.nil_append] at hcrc hadl
    have hstream : (mustFlush E s6.out).outStream = data.length := by rw [y4, ho.outStream, y2]; simp
    have := TellsAt.of_eq e5 (TellsAt.step g2 (TellsAt.step (a := ()) (s1 := { s6 with out := mustFlush E s6.out }) rfl
      (tell_footer he (s := { s6 with out := mustFlush E s6.out }) nm6.err q6 hcrc hadl hstream (g4.fmt.trans ho.fmt) hfw c1'))) a s' e
    obtain ⟨x, hx⟩ := this
    refine ⟨_, x, hx, fun _ => ?_⟩
    obtain ⟨⟨cc, z1, z2, _, _⟩, _, _⟩ := g4.adv.step
    have hcc : cc.length = body'.length := by
      rw [ho.ibuf, c1'] at *
      have := congrArg List.length z1
      rw [List.length_append] at this
      simp at this c1
      omega
    show s6.inp.inTotal + _ = _
    rw [z2, ho.total, hcc]; simp only [List.length_append]; omega

/-- One stream, whatever the pieces in which the source delivers it. -/
theorem step_tell (hE : EnvOK E) {s s' : RState} {a : Bool} (hs : Calm s) (he : NotC s.inp.src.err) (hn : actErr s.out.acts = none) (hb : (filled s).inp.buf ≠ []) {n : Nat}
    (hw : StreamWrong (Env.ok E) (2 ^ E.o.wbits) E.o.dict (firstC E s) m (allB s.inp) n) (e : readStream E s = .ok (a, s')) :
    ∃ b, actErr s'.out.acts = some (.corrupt (s.inp.inTotal + b) b m) ∧ (m ∉ noCodeMessages → b = n) := by
  obtain ⟨f1, f2⟩ := filled_all hs
  have hcm := cm_readStream hE.opn hs.stop hb
  rw [e] at hcm
  have hE' : EnvOK (asF E (fmtOf (firstC E s))) := ⟨hE.lawful, hE.word, hE.opn⟩
  have hne : (nrm s).inp.buf ≠ [] := by
    rw [hs.nbuf]; intro h; rw [h] at f1; exact hb (List.prefix_nil.1 f1)
  have hrun : readStream (asF E (fmtOf (firstC E s))) (nrm s) = .ok (a, nrm s') := hcm
  rw [← hs.nbuf] at hw
  obtain ⟨T, b, k1, k2⟩ := stream_tell hE' hs.ready he hne (c := firstC E s) rfl ⟨hs.set, hn⟩ hw hrun
  have k1 : actErr s'.out.acts = some (.corrupt T b m) := k1
  obtain ⟨k3, _, _⟩ := step_pos hE hs he hb hn e k1
  have k2 : m ∉ noCodeMessages → T = s.inp.inTotal + n := k2
  refine ⟨b, by rw [k1, k3], fun hm => ?_⟩
  have := k2 hm
  omega

theorem wrong_ne {ok : List Nat → Prop} {win : Nat} {dict : Option (List UInt8)} {c : Container} {w : List UInt8} {n : Nat} (hw : StreamWrong ok win dict c m w n) : w ≠ [] := by
  cases hw with
  | zlib hz => cases hz <;> simp
  | gzip hz =>
    cases hz with
    | magic _ hl => intro h; simp at h; simp [h.1] at hl
    | method => simp
    | flags => simp
    | crc _ _ _ _ _ hl => intro h; simp at h; simp [h.2.1] at hl
  | footer _ hd => have := deflate_ne hd; simp [this]
  | blocks _ hb hbits =>
    intro h
    simp at h
    have hne : ∀ {pos h m bits rest}, BlocksWrong ok win pos h m bits rest → bits ++ rest ≠ [] := by
      intro pos h m bits rest hb
      induction hb with
      | after _ _ ih => simp at ih ⊢; tauto
      | here hb => cases hb <;> simp
    rw [h.2] at hbits
    exact hne hb hbits.symm

theorem run_tell (hE : EnvOK E) (src : Src) (he : NotC src.err) {s' : RState} (hr : readThread E (start src false) = .ok ((), s')) {n : Nat}
    (hw : StreamWrong (Env.ok E) (2 ^ E.o.wbits) E.o.dict (detect E.o.format src.first) m src.bytes n) : ∃ b, actErr s'.out.acts = some (.corrupt b b m) ∧ (m ∉ noCodeMessages → b = n) := by
  have hcalm : Calm (start src false) := ⟨rfl, rfl, ⟨rfl, rfl⟩, rfl, rfl⟩
  have hst : readThread E (start src false) = ((fun s => streamLoop E (s.inp.size + 2) s : Go RState Unit) >>= fun _ => finishThread) (start src false) := by
    unfold readThread
    exact Go.bind_ok (Go.modify_apply _ _)
  rw [hst] at hr
  obtain ⟨_, s1, e1, e2⟩ := Go.bind_eq_ok.1 hr
  have hfin : finishThread s1 = .ok ((), { s1 with inp := { s1.inp with inputError := some (s1.inp.inputError.getD .eof) }, out := closeOut (s1.inp.inputError.getD .eof) s1.out }) := by
    unfold finishThread
    refine (Go.bind_ok (onInp_ok rfl)).trans ?_
    unfold propagateError
    simp only [Bool.false_and, Bool.false_eq_true, if_false]
    exact closeWithError_eq _ _
  rw [hfin] at e2
  cases e2
  have e1 : streamLoop E ((start src false).inp.size + 1 + 1) (start src false) = .ok ((), s1) := e1
  have hfc : firstC E (start src false) = detect E.o.format src.first := by
    unfold firstC filled refill start fill Src.first
    rcases src with ⟨_ | ⟨⟨b, bs⟩, cs⟩, last, err⟩ <;> simp
  rw [← hfc] at hw
  have hlib : LibOK E := ⟨hE.lawful, hE.word⟩
  have hfuel : (allB (start src false).inp).length < (start src false).inp.size + 1 := by rw [size_eq]; omega
  generalize (start src false).inp.size + 1 = fuel at e1 hfuel
  have hall : allB (start src false).inp = src.bytes := rfl
  have htot : (start src false).inp.inTotal = 0 := rfl
  have hacts : actErr (start src false).out.acts = none := rfl
  rw [← hall] at hw
  have he : NotC (start src false).inp.src.err := he
  generalize start src false = s at *
  have hb : (filled s).inp.buf ≠ [] := fun h => wrong_ne hw ((filled_all hcalm).2 h).1
  have hfinal : (∃ b, actErr s1.out.acts = some (.corrupt b b m) ∧ (m ∉ noCodeMessages → b = n)) →
      ∃ b, actErr (closeOut (s1.inp.inputError.getD .eof) s1.out).acts = some (.corrupt b b m) ∧ (m ∉ noCodeMessages → b = n) := by
    rintro ⟨b, h1, h2⟩
    exact ⟨b, (close_first _ s1.out).1 _ h1, h2⟩
  refine hfinal ?_
  unfold streamLoop at e1
  simp only [hcalm.err, Option.isNone_none, if_true] at e1
  rcases hrs : readStream E s with er | ⟨a, s'⟩
  · rw [hrs] at e1; cases e1
  rw [hrs] at e1
  obtain ⟨b, k1, k2⟩ := step_tell hE hcalm he hacts hb hw hrs
  rw [htot, Nat.zero_add] at k1
  refine ⟨b, ?_, k2⟩
  cases a with
  | false => cases e1; exact k1
  | true =>
    simp only [] at e1
    obtain ⟨hz, hlt⟩ : s'.inp.ibLen = 0 ∧ (allB s'.inp).length < fuel := by
      rcases safe_readStream (X := True) (E := E) (s := s) hlib hcalm.flat.1 fun _ => trivial with ⟨s'', e, _⟩ | ⟨s'', e, _, z, m⟩ | ⟨e, _⟩
      · rw [hrs] at e; cases e
      · rw [hrs] at e; cases e; exact ⟨z, by omega⟩
      · rw [hrs] at e; cases e
    rcases safe_streamLoop (X := True) hlib fuel s' hlt hz fun _ => trivial with ⟨s2, e, m⟩ | ⟨e, _⟩
    · rw [e] at e1; cases e1
      obtain ⟨post, p1, _⟩ := m.out.acts
      rw [p1, actErr_append, k1]
    · rw [e] at e1; cases e1

end
end Flate.Proof.R.Wrong
