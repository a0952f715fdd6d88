/-
Decoding blocks.
-/
import Verif.Proof.RDyn
import Verif.Proof.RMono

namespace Flate.Proof.R
open Flate.Spec Flate.Model Flate.Model.Rd

/-- the kinds of the events sent -/
def kinds (s : RState) : List EvKind := s.events.map (·.kind)

/-- Everything went well: `bits` were consumed, `p` was delivered, and events `ks` were sent. -/
structure Ran (E : Env) (s : RState) (bits : List Bool) (p : List UInt8) (ks : List EvKind) (s' : RState) : Prop where
  adv : Adv s.inp bits s'.inp
  emit : Emit E s.out p s'.out
  ev : kinds s' = kinds s ++ ks
  hdr : s'.header = s.header
  fmt : s'.actualFormat = s.actualFormat
  num : s'.numStreams = s.numStreams

theorem Ran.refl (E : Env) {s : RState} (h : Small s.inp) : Ran E s [] [] [] s :=
  ⟨.refl h, .refl _ _, by simp, rfl, rfl, rfl⟩

theorem Ran.trans {E : Env} {s s1 s2 : RState} {a b : List Bool} {p q : List UInt8} {k l : List EvKind} (h : Ran E s a p k s1) (h' : Ran E s1 b q l s2) :
    Ran E s (a ++ b) (p ++ q) (k ++ l) s2 :=
  ⟨h.adv.trans h'.adv, h.emit.trans h'.emit, by rw [h'.ev, h.ev]; simp, h'.hdr.trans h.hdr, h'.fmt.trans h.fmt, h'.num.trans h.num⟩

theorem Nm.ran {e0 : Err} {E : Env} {s s' : RState} {a : List Bool} {p : List UInt8} {k : List EvKind} (h : Nm e0 s) (hr : Ran E s a p k s') : Nm e0 s' :=
  ⟨hr.adv.step.err.trans h.err, hr.emit.stop.trans h.stop, hr.adv.small⟩

/-- An error was reported after `p` had been delivered; things may have gone on after that. -/
def Broke (E : Env) (e0 : Err) (s : RState) (p : List UInt8) (s' : RState) : Prop :=
  ∃ (s1 : RState) (e : Err), RStep s.inp s1.inp ∧ Emit E s.out p s1.out ∧ Bad e0 e ∧ Past { s1 with out := closeOut e s1.out } s'

theorem Failed.broke {E : Env} {e0 : Err} {s s' : RState} (h : Failed e0 s s') : Broke E e0 s [] s' := by
  obtain ⟨i', e, h1, h2, rfl⟩ := h
  exact ⟨{ s with inp := i' }, e, h1, .refl _ _, h2, .refl _⟩

theorem Broke.later {E : Env} {e0 : Err} {s s1 s2 : RState} {p : List UInt8} (h : Broke E e0 s p s1) (h' : Past s1 s2) : Broke E e0 s p s2 := by
  obtain ⟨s0, e, h1, h2, h3, h4⟩ := h
  exact ⟨s0, e, h1, h2, h3, h4.trans h'⟩

theorem Broke.after {E : Env} {e0 : Err} {s s1 s2 : RState} {a : List Bool} {p q : List UInt8} {k : List EvKind} (h : Ran E s a p k s1)
    (h' : Broke E e0 s1 q s2) : Broke E e0 s (p ++ q) s2 := by
  obtain ⟨s0, e, h1, h2, h3, h4⟩ := h'
  exact ⟨s0, e, h.adv.step.trans h1, h.emit.trans h2, h3, h4⟩

theorem past_event (s : RState) (k : EvKind) : ∃ s', sendEvent k s = .ok ((), s') ∧ Past s s' :=
  ⟨_, rfl, (mono_event false k).past⟩

theorem ran_event (E : Env) {s : RState} (hs : Small s.inp) (k : EvKind) : ∃ s', sendEvent k s = .ok ((), s') ∧ Ran E s [] [] [k] s' ∧ s'.inp = s.inp ∧ s'.out = s.out :=
  ⟨_, rfl, ⟨.refl hs, .refl _ _, by simp [kinds], rfl, rfl, rfl⟩, rfl, rfl⟩

/-! ### bytes -/

theorem leVal_leBytes : ∀ (n v : Nat), v < 2 ^ (8 * n) → leVal (leBytes n v) = v
  | 0, v, h => by simp at h; simp [leBytes, leVal, h]
  | n + 1, v, h => by
    have : v / 256 < 2 ^ (8 * n) := by
      rw [show 8 * (n + 1) = 8 * n + 8 by omega, Nat.pow_add] at h
      omega
    simp only [leBytes, leVal, leVal_leBytes n _ this, UInt8.toNat_ofNat']
    omega

theorem leBytes_leVal : ∀ (l : List UInt8), leBytes l.length (leVal l) = l
  | [] => rfl
  | b :: l => by
    have := b.toNat_lt
    simp only [List.length_cons, leBytes, leVal]
    rw [show (b.toNat + 256 * leVal l) / 256 = leVal l by omega, leBytes_leVal l]
    congr 1
    apply UInt8.toNat_inj.1
    rw [UInt8.toNat_ofNat']; omega

theorem leVal_lt (l : List UInt8) : leVal l < 2 ^ (8 * l.length) := by
  induction l with
  | nil => simp [leVal]
  | cons b l ih =>
    have := b.toNat_lt
    simp only [leVal, List.length_cons]
    rw [show 8 * (l.length + 1) = 8 * l.length + 8 by omega, Nat.pow_add]
    omega

theorem bytesBits_leVal {n : Nat} {l : List UInt8} (h : l.length = n) : bytesBits l = natBits (8 * n) (leVal l) := by
  subst h
  rw [← bytesBits_leBytes, leBytes_leVal]

theorem bytesBits_split : ∀ (x : List UInt8) {y : List UInt8} {r : List Bool}, bytesBits y = bytesBits x ++ r → ∃ z, y = x ++ z ∧ r = bytesBits z
  | [], y, r, h => ⟨y, rfl, by simpa using h.symm⟩
  | b :: x, [], r, h => by
    have := congrArg List.length h
    simp at this
    omega
  | b :: x, c :: y, r, h => by
    simp only [bytesBits_cons, List.append_assoc] at h
    obtain ⟨h1, h2⟩ := List.append_inj h (by simp)
    have := byteBits_inj h1
    subst this
    obtain ⟨z, rfl, h3⟩ := bytesBits_split x h2
    exact ⟨z, rfl, h3⟩

/-- bit position modulo 8 -/
def At (pos : Nat) (i : Inp) : Prop := i.ibLen = padLen pos

theorem vb_length (i : Inp) : (vb i).length = i.ibLen + 8 * i.buf.length := by simp [vb]

theorem At.adv {pos : Nat} {i i' : Inp} {b : List Bool} (h : At pos i) (ha : Adv i b i') : At (pos + b.length) i' := by
  have h1 := congrArg List.length ha.bits
  rw [List.length_append, vb_length, vb_length] at h1
  have := ha.small.len
  unfold At padLen at *
  omega

section
variable {E : Env} {e0 : Err} {s : RState}

/-! ### stored blocks -/

theorem readStored_sound (hE : EnvOK E) (hs : Nm e0 s) :
    (∃ data i' o', data.length < 65536 ∧ readStored E s = .ok (true, { s with inp := i', out := o' }) ∧
      Adv s.inp (natBits s.inp.ibLen s.inp.ibBlock ++ natBits 16 data.length ++ natBits 16 (65535 - data.length) ++ bytesBits data) i' ∧ Emit E s.out data o') ∨
    (∃ s', readStored E s = .ok (false, s') ∧ Failed e0 s s') := by
  unfold readStored
  rcases needBytes_eq hs.err false 2 (fun p => needBytes false 2 fun q =>
      if leVal q ≠ 65535 - leVal p then fail (.storedLen (leVal p) (leVal q) (65535 - leVal p))
      else needBytes false (leVal p) fun d => do
        dbWrite E d
        pure true) with ⟨p, r, b1, l1, e1⟩ | ⟨_, s', e1, f1⟩
  swap
  · right; exact ⟨s', e1, f1⟩
  rw [e1]
  have a1 := takeIn_adv b1
  have n1 := hs.adv a1
  rcases needBytes_eq n1.err false 2 (fun q =>
      if leVal q ≠ 65535 - leVal p then fail (.storedLen (leVal p) (leVal q) (65535 - leVal p))
      else needBytes false (leVal p) fun d => do
        dbWrite E d
        pure true) with ⟨q, r2, b2, l2, e2⟩ | ⟨_, s', e2, f2⟩
  swap
  · right; exact ⟨s', e2, f2.step a1.step⟩
  rw [e2]
  have a2 := takeIn_adv b2
  have n2 := n1.adv a2
  simp only []
  by_cases hc : leVal q ≠ 65535 - leVal p
  · right
    rw [if_pos hc]
    obtain ⟨s', e3, f3⟩ := fail_eq (.storedLen (leVal p) (leVal q) (65535 - leVal p)) { s with inp := takeIn q r2 (takeIn p r s.inp) } e0
    exact ⟨s', e3, f3.step (a1.step.trans a2.step)⟩
  rw [if_neg hc]
  rcases needBytes_eq n2.err false (leVal p) (fun d => do
        dbWrite E d
        pure true) with ⟨d, r3, b3, l3, e3⟩ | ⟨_, s', e3, f3⟩
  swap
  · right; exact ⟨s', e3, Failed.step (s := s) (i := takeIn q r2 (takeIn p r s.inp)) f3 (a1.step.trans a2.step)⟩
  left
  rw [e3]
  have a3 := takeIn_adv b3
  obtain ⟨o', e4, m4⟩ := emit_dbWrite hE.opn d (s := { s with inp := takeIn d r3 (takeIn q r2 (takeIn p r s.inp)) }) hs.stop
  have hlt := leVal_lt p
  rw [l1] at hlt
  refine ⟨d, _, o', by rw [l3]; exact hlt, (Go.bind_ok e4).trans rfl, ?_, m4⟩
  have := (a1.trans a2).trans a3
  rw [show (takeIn p r s.inp).ibLen = 0 from rfl, show (takeIn q r2 (takeIn p r s.inp)).ibLen = 0 from rfl, bytesBits_leVal l1, bytesBits_leVal l2] at this
  simp only [natBits_zero, List.nil_append] at this
  rw [l3, ← Decidable.not_not.1 hc]
  exact this

theorem readStored_ok (hE : EnvOK E) (hs : Nm e0 s) {pad : List Bool} {data : List UInt8} {r : List Bool} (hp : pad.length = s.inp.ibLen) (hd : data.length < 65536)
    (hb : vb s.inp = pad ++ natBits 16 data.length ++ natBits 16 (65535 - data.length) ++ bytesBits data ++ r) :
    ∃ i' o', readStored E s = .ok (true, { s with inp := i', out := o' }) ∧
      Adv s.inp (pad ++ natBits 16 data.length ++ natBits 16 (65535 - data.length) ++ bytesBits data) i' ∧ Emit E s.out data o' := by
  have hb' := hb
  unfold vb at hb'
  simp only [List.append_assoc] at hb'
  obtain ⟨h1, h2⟩ := List.append_inj hb' (by simp [hp])
  rw [show (16 : Nat) = 8 * 2 from rfl, ← bytesBits_leBytes, ← bytesBits_leBytes] at h2
  obtain ⟨r1, b1, h3⟩ := bytesBits_split _ h2
  obtain ⟨r2, b2, h4⟩ := bytesBits_split _ h3.symm
  obtain ⟨r3, b3, h5⟩ := bytesBits_split _ h4.symm
  have a1 := takeIn_adv b1
  have n1 := hs.adv a1
  have a2 := takeIn_adv (i := takeIn (leBytes 2 data.length) r1 s.inp) b2
  have n2 := n1.adv a2
  have a3 := takeIn_adv (i := takeIn (leBytes 2 (65535 - data.length)) r2 (takeIn (leBytes 2 data.length) r1 s.inp)) b3
  obtain ⟨o', e4, m4⟩ := emit_dbWrite hE.opn data (s := { s with inp := takeIn data r3 (takeIn (leBytes 2 (65535 - data.length)) r2 (takeIn (leBytes 2 data.length) r1 s.inp)) }) hs.stop
  refine ⟨takeIn data r3 (takeIn (leBytes 2 (65535 - data.length)) r2 (takeIn (leBytes 2 data.length) r1 s.inp)), o', ?_, ?_, m4⟩
  · unfold readStored
    rw [needBytes_ok hs.err false _ b1 (by simp)]
    rw [needBytes_ok n1.err false _ b2 (by simp)]
    rw [leVal_leBytes _ _ (by omega), leVal_leBytes _ _ (by omega), if_neg (by simp)]
    rw [needBytes_ok n2.err false _ b3 rfl]
    exact (Go.bind_ok e4).trans rfl
  · have := (a1.trans a2).trans a3
    rw [bytesBits_leBytes, bytesBits_leBytes] at this
    rw [show (takeIn (leBytes 2 data.length) r1 s.inp).ibLen = 0 from rfl, show (takeIn (leBytes 2 (65535 - data.length)) r2 (takeIn (leBytes 2 data.length) r1 s.inp)).ibLen = 0 from rfl, h1] at this
    simp only [natBits_zero, List.nil_append] at this
    exact this

/-! ### Huffman blocks -/

theorem vb_bits (i : Inp) : (vb i).length ≤ i.bits := by
  simp [Inp.bits, Inp.size, vb]; omega

theorem huffBlock_sound (hE : EnvOK E) {ll d : List Nat} (hll : E.L.accepts ll = true) (hd : E.L.accepts d = true) {h : List UInt8}
    (hs : Nm e0 s) (hw : s.out.window = lastN (2 ^ E.o.wbits) h) :
    (∃ is p s', decodeHuffmanBlock E ll d s = .ok (true, s') ∧ (∀ i ∈ is, i.Valid ll d) ∧ Used ll 256 ∧
      expand (2 ^ E.o.wbits) h is = some (h ++ p) ∧ Ran E s (dataBits ll d is) p [] s') ∨
    (∃ is p s', decodeHuffmanBlock E ll d s = .ok (false, s') ∧ (∀ i ∈ is, i.Valid ll d) ∧
      expand (2 ^ E.o.wbits) h is = some (h ++ p) ∧ is.flatMap (Item.bits ll d) <+: vb s.inp ∧ Broke E e0 s p s') := by
  unfold decodeHuffmanBlock
  rcases huffLoop_sound hE hll hd (s.inp.bits + 1) hs hw (Nat.lt_succ_of_le (vb_bits _)) with ⟨is, p, i', o', g1, g2, g3, g4, g5, g6⟩ | ⟨is, p, s', g1, g2⟩
  · left
    exact ⟨is, p, _, g1, g2, g3, g4, g5, g6, by simp [kinds], rfl, rfl, rfl⟩
  · right
    obtain ⟨j, i', o1, e, q1, q2, q3, q4, q5, q6, rfl⟩ := g2
    refine ⟨is, p, _, g1, q1, q2, ⟨_, q3.bits.symm⟩, { s with inp := i', out := o1 }, e, q3.step.trans q4, q5, q6, .refl _⟩

theorem huffBlock_ok (hE : EnvOK E) {ll d : List Nat} (hll : E.L.accepts ll = true) (hd : E.L.accepts d = true) {h p : List UInt8}
    (hs : Nm e0 s) (hw : s.out.window = lastN (2 ^ E.o.wbits) h) {is : List Item} (hv : ∀ i ∈ is, i.Valid ll d)
    (hx : expand (2 ^ E.o.wbits) h is = some (h ++ p)) (hu : Used ll 256) {r : List Bool} (hb : vb s.inp = dataBits ll d is ++ r) :
    ∃ s', decodeHuffmanBlock E ll d s = .ok (true, s') ∧ Ran E s (dataBits ll d is) p [] s' := by
  obtain ⟨i', o', q, g1, g2, g3, g4⟩ := huffLoop_complete hE hll hd hs hw hv hx hu hb (fuel := s.inp.bits + 1) (Nat.lt_succ_of_le (vb_bits _))
  have := List.append_cancel_left g4
  subst this
  exact ⟨_, g1, g2, g3, by simp [kinds], rfl, rfl, rfl⟩

/-- whatever follows, the items at the beginning are decoded -/
theorem huffBlock_part (hE : EnvOK E) {ll d : List Nat} (hll : E.L.accepts ll = true) (hd : E.L.accepts d = true) {h p : List UInt8}
    (hs : Nm e0 s) (hw : s.out.window = lastN (2 ^ E.o.wbits) h) {is : List Item} (hv : ∀ i ∈ is, i.Valid ll d)
    (hx : expand (2 ^ E.o.wbits) h is = some (h ++ p)) {r : List Bool} (hb : vb s.inp = is.flatMap (Item.bits ll d) ++ r) :
    ∃ s1 b s', decodeHuffmanBlock E ll d s = .ok (b, s') ∧ Ran E s (is.flatMap (Item.bits ll d)) p [] s1 ∧ Past s1 s' := by
  unfold decodeHuffmanBlock
  have hl := items_length hv
  have hvb := vb_bits s.inp
  have hvl : (is.flatMap (Item.bits ll d)).length ≤ (vb s.inp).length := by rw [hb]; simp
  obtain ⟨i', o', q, g1, g2, g3, g4⟩ := huffLoop_items hE hll hd (s.inp.bits + 1 - is.length) is hs hw hv hx hb
  have := List.append_cancel_left g4
  subst this
  rw [show s.inp.bits + 1 - is.length + is.length = s.inp.bits + 1 by omega] at g1
  have hbits : i'.bits < s.inp.bits + 1 - is.length := by
    obtain ⟨c, c1, _⟩ := g2.step.took
    have e1 := congrArg List.length g2.bits
    rw [List.length_append, vb_length, vb_length] at e1
    have e2 := congrArg List.length c1
    simp only [List.length_append] at e2
    have e3 : i'.src = s.inp.src := g2.step.src
    unfold Inp.bits Inp.size
    rw [e3]
    omega
  rcases (safe_huffLoop (b := true) (X := False) (d := d) ⟨hE.lawful, hE.word⟩ hll hd _ { s with inp := i', out := o' } hbits).cases with ⟨b, s', e, m, _⟩ | ⟨_, x⟩
  · exact ⟨{ s with inp := i', out := o' }, b, s', g1.trans e, ⟨g2, g3, by simp [kinds], rfl, rfl, rfl⟩, m.past⟩
  · exact x.elim

end
end Flate.Proof.R
