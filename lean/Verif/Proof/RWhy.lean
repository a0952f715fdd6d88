/-
What is wrong with the input when the Reader reports that it is corrupt: the compressed data.
-/
import Verif.Proof.RPosRun
import Verif.Spec.Complaint

namespace Flate.Proof.R.Wrong
open Flate.Spec Flate.Model Flate.Model.Rd Flate.Proof.R Flate.Proof.R.Pos

/-- the source does not itself report corrupt input -/
def NotC (e0 : Err) : Prop := ∀ T b m, e0 ≠ .corrupt T b m

theorem NotC.prop {e0 : Err} (h : NotC e0) : NotC (propErr e0) := by
  intro T b m
  unfold propErr
  split
  · intro h; cases h
  · exact h T b m

/-- no error has been reported -/
structure Quiet (o : Out) : Prop where
  set : o.errorWasSet = false
  acts : actErr o.acts = none

theorem datas_none : ∀ (ds : List (List UInt8)), actErr (ds.map Act.data) = none
  | [] => rfl
  | _ :: ds => datas_none ds

theorem Quiet.emit {E : Env} {o o' : Out} {p : List UInt8} (h : Quiet o) (m : Emit E o p o') : Quiet o' := by
  obtain ⟨ds, a1, _⟩ := m.pieces
  refine ⟨m.err.trans h.set, ?_⟩
  rw [a1, actErr_append, h.acts, datas_none]

theorem Quiet.close {o : Out} (h : Quiet o) (e : Err) : actErr (closeOut e o).acts = some e := by
  unfold closeOut
  rw [if_neg (by rw [h.set]; simp)]
  show actErr (o.acts ++ [.err e]) = _
  rw [actErr_append, h.acts]; rfl

/-- a frame, for the sake of `Sm` -/
def fr {e0 : Err} (he : NotC e0) : Frame := ⟨1, 0, 1, [0], e0, by omega, by simp, rfl, he⟩

/-- if the function reports corrupt input, then `W` -/
def Why {α : Type} (f : Go RState α) (s : RState) (W : Spec.Problem → Nat → Prop) : Prop :=
  ∀ a s', f s = .ok (a, s') → ∀ T b m, actErr s'.out.acts = some (.corrupt T b m) → W m T

section
variable {α β : Type} {E : Env} {e0 : Err} {s : RState} {W : Spec.Problem → Nat → Prop}

theorem Why.of_eq {f : Go RState α} {g : Go RState α} {s1 : RState} (h : f s = g s1) (hg : Why g s1 W) : Why f s W := by
  intro a s' e
  exact hg a s' (h ▸ e)

theorem Why.step {f : Go RState α} {g : α → Go RState β} {s1 : RState} {a : α} (h : f s = .ok (a, s1)) (hg : Why (g a) s1 W) : Why (f >>= g) s W :=
  Why.of_eq (Go.bind_ok h) hg

theorem Why.mono {f : Go RState α} {W' : Spec.Problem → Nat → Prop} (h : Why f s W') (hw : ∀ m T, W' m T → W m T) : Why f s W :=
  fun a s' e T b m hc => hw _ _ (h a s' e T b m hc)

theorem Why.done {f : Go RState α} {a : α} {s1 : RState} (h : f s = .ok (a, s1)) (hq : Quiet s1.out) : Why f s W := by
  intro a' s' e T b m hc
  rw [h] at e; cases e
  rw [hq.acts] at hc; cases hc

theorem Why.closed {f : Go RState α} {a : α} {s1 : RState} {e : Err} (h : f s = .ok (a, s1)) (hq : Quiet s.out) (ho : s1.out = closeOut e s.out)
    (hw : ∀ T b m, e = .corrupt T b m → W m T) : Why f s W := by
  intro a' s' e' T b m hc
  rw [h] at e'; cases e'
  rw [ho, hq.close] at hc
  exact hw T b m (Option.some.inj hc)

theorem Why.bind {f : Go RState α} {g : α → Go RState β} (hs : s.inp.inputError = some e0) (hf : Why f s W) (kf : Keeps (P e0) f) (kg : ∀ a, Keeps (P e0) (g a))
    (hg : ∀ a s1, f s = .ok (a, s1) → actErr s1.out.acts = none → Why (g a) s1 W) : Why (f >>= g) s W := by
  intro b s' e T x m hc
  obtain ⟨a, s1, e1, e2⟩ := Go.bind_eq_ok.1 e
  rcases ha : actErr s1.out.acts with _ | er
  · exact hg a s1 e1 ha b s' e2 T x m hc
  · have k1 := kf _ _ _ e1 hs
    have k2 := kg a _ _ _ e2 k1.inp.err
    rw [k2.first er ha] at hc
    cases hc
    exact hf a s1 e1 T x m ha

theorem Why.corrupt (hq : Quiet s.out) {m : Spec.Problem} (x : α) (hw : W m s.inp.inTotal) : Why (do corruptf m; pure x : Go RState α) s W := by
  refine Why.closed (a := x) (s1 := { s with out := closeOut (.corrupt s.inp.inTotal s.inp.inStream m) s.out }) (by rw [Go.bind_ok (corruptf_eq m s)]; rfl) hq rfl fun T b m' h => ?_
  cases h; exact hw

theorem Why.fail (hq : Quiet s.out) {m : Spec.Problem} (hw : W m s.inp.inTotal) : Why (fail m) s W := Why.corrupt hq false hw

theorem Why.needBits (hW : 32 ≤ E.W) (he : NotC e0) (hs : Nm e0 s) (hq : Quiet s.out) {fl : α} {n : Nat} (hn : n ≤ 24) {k : Nat → Go RState α}
    (h : ∀ v i', v < 2 ^ n → Adv s.inp (natBits n v) i' → Why (k v) { s with inp := i' } W) : Why (needBits E fl n k) s W := by
  rcases fillRead_eq (W := E.W) (st := s.out.stopIsForced) (n := n) (by omega) (by omega) hs.err hs.small with ⟨h0, j, v, i', h1, h2, h3, h4⟩ | ⟨h0, i', h1, h2, h3⟩
  · refine Why.of_eq ?_ (h v i' h3 h4)
    have e1 : onInp (fun st => bitsFill E.W st n) s = .ok (true, { s with inp := j }) := onInp_ok h1
    have e2 : onInp (fun _ => bitsRead E.W n) { s with inp := j } = .ok (v, { s with inp := i' }) := onInp_ok h2
    unfold Rd.needBits
    rw [Go.bind_ok e1]
    simp only [Bool.not_true, Bool.false_eq_true, if_false]
    rw [Go.bind_ok e2]
  · have e1 : onInp (fun st => bitsFill E.W st n) s = .ok (false, { s with inp := i' }) := onInp_ok h1
    refine Why.closed (a := fl) (s1 := { s with inp := i', out := closeOut (propErr e0) s.out }) ?_ hq rfl fun T b m h => absurd h (he.prop T b m)
    unfold Rd.needBits
    rw [Go.bind_ok e1]
    simp only [Bool.not_false, if_true]
    exact exhausted_eq fl (s := { s with inp := i' }) (h2.step.err.trans hs.err)

theorem Why.needBytes (he : NotC e0) (hs : s.inp.inputError = some e0) (hq : Quiet s.out) {fl : α} {n : Nat} {k : List UInt8 → Go RState α}
    (h : ∀ p r, s.inp.buf = p ++ r → p.length = n → Why (k p) { s with inp := takeIn p r s.inp } W) : Why (needBytes fl n k) s W := by
  by_cases hn : n ≤ s.inp.buf.length
  · obtain ⟨p, r, h1, h2⟩ := split_take hn
    exact Why.of_eq (needBytes_ok hs fl k h1 h2) (h p r h1 h2)
  · have e1 : onInp (fun st i => .ok (bufRead st n i)) s = .ok ((s.inp.buf, false), { s with inp := takeIn s.inp.buf [] s.inp }) := by
      apply onInp_ok
      rw [bufRead_eq n hs, List.take_of_length_le (by omega), List.drop_eq_nil_of_le (by omega)]
      simp [takeIn]; omega
    refine Why.closed (a := fl) (s1 := { s with inp := takeIn s.inp.buf [] s.inp, out := closeOut (propErr e0) s.out }) ?_ hq rfl fun T b m h => absurd h (he.prop T b m)
    unfold Rd.needBytes
    rw [Go.bind_ok e1]
    simp only [Bool.not_false, if_true]
    exact exhausted_eq fl (s := { s with inp := takeIn s.inp.buf [] s.inp }) hs

theorem Why.addBits (hW : 32 ≤ E.W) (he : NotC e0) (hs : Nm e0 s) (hq : Quiet s.out) {fl : α} {n : Nat} (hn : n ≤ 24) {base : Nat} {k : Nat → Go RState α}
    (h : ∀ v i', v < 2 ^ n → Adv s.inp (natBits n v) i' → Why (k (base + v)) { s with inp := i' } W) : Why (addBits E fl n base k) s W := by
  unfold Rd.addBits
  by_cases h0 : n = 0
  · subst h0
    rw [if_neg (by simp)]
    exact h 0 s.inp (by simp) (Adv.refl hs.small)
  · rw [if_pos h0]
    exact Why.needBits hW he hs hq hn h

/-- Where the problem is: `bits` are consumed first. -/
def Loc (X : Spec.Problem → List Bool → List Bool → Prop) (i : Inp) (m : Spec.Problem) (T : Nat) : Prop :=
  ∃ bits j i', Adv i bits j ∧ Hold j i' ∧ T = i'.inTotal ∧ (m ∉ noCodeMessages → i' = j) ∧ X m bits (vb j)

theorem Loc.here {X : Spec.Problem → List Bool → List Bool → Prop} {i j : Inp} {bits : List Bool} {m : Spec.Problem} (h : Adv i bits j) (hx : X m bits (vb j)) : Loc X i m j.inTotal :=
  ⟨bits, j, j, h, Hold.refl h.small.lt, rfl, fun _ => rfl, hx⟩

theorem Loc.held {X : Spec.Problem → List Bool → List Bool → Prop} {i j i' : Inp} {bits : List Bool} {m : Spec.Problem} (h : Adv i bits j) (hh : Hold j i') (hm : m ∈ noCodeMessages)
    (hx : X m bits (vb j)) : Loc X i m i'.inTotal := ⟨bits, j, i', h, hh, rfl, fun h => absurd hm h, hx⟩

theorem Loc.after {X Y : Spec.Problem → List Bool → List Bool → Prop} {i i1 : Inp} {b : List Bool} {m : Spec.Problem} {T : Nat} (h : Loc Y i1 m T) (ha : Adv i b i1)
    (hx : ∀ bits r, Y m bits r → X m (b ++ bits) r) : Loc X i m T := by
  obtain ⟨bits, j, i', h1, h2, h3, h4, h5⟩ := h
  exact ⟨b ++ bits, j, i', ha.trans h1, h2, h3, h4, hx _ _ h5⟩

/-! ### compressed data -/

variable {ll d : List Nat}

theorem why_huffLoop (hE : EnvOK E) (he : NotC e0) (hll : E.L.accepts ll = true) (hd : E.L.accepts d = true) : ∀ (fuel : Nat) {s : RState} {h : List UInt8},
    Nm e0 s → Quiet s.out → s.out.window = lastN (2 ^ E.o.wbits) h → Why (huffLoop E ll d fuel) s (Loc (DataWrong (2 ^ E.o.wbits) ll d h) s.inp)
  | 0, s, h, _, _, _ => fun _ _ e => by cases e
  | fuel + 1, s, h, hs, hq, hw => by
    rcases readSymbol_eq hE.lawful hE.word hll hs with ⟨sym, i1, e1, u1, a1⟩ | ⟨i1, e1, hh, hno⟩
    swap
    · unfold huffLoop
      refine Why.step e1 (Why.fail (s := { s with inp := i1 }) hq ?_)
      exact Loc.held (Adv.refl hs.small) hh (by simp [noCodeMessages]) (.noSymbol hno)
    have s1 := hs.adv a1
    by_cases h256 : sym < 256
    · obtain ⟨o1, e2, m1⟩ := emit_dbWriteByte hE.opn (UInt8.ofNat sym) (s := { s with inp := i1 }) hs.stop
      have hb : (UInt8.ofNat sym).toNat = sym := by rw [UInt8.toNat_ofNat']; omega
      have step : huffLoop E ll d (fuel + 1) s = huffLoop E ll d fuel { s with inp := i1, out := o1 } := by
        conv => lhs; unfold huffLoop
        rw [Go.bind_ok e1]
        simp only []
        rw [Go.bind_ok (decodeLL_lit h256)]
        simp only [if_true]
        have : ¬ (256 ≤ sym) := by omega
        simp only [ge_iff_le, this, if_false]
        rw [Go.bind_ok e2]
      have val : (Item.lit (UInt8.ofNat sym)).Valid ll d := by simpa [Item.Valid, hb] using u1
      have hx : expand (2 ^ E.o.wbits) h [.lit (UInt8.ofNat sym)] = some (h ++ [UInt8.ofNat sym]) := rfl
      have ha : Adv s.inp ((Item.lit (UInt8.ofNat sym)).bits ll d) i1 := by simpa [Item.bits, hb] using a1
      refine Why.of_eq step ((why_huffLoop hE he hll hd fuel (s := { s with inp := i1, out := o1 }) (h := h ++ [UInt8.ofNat sym]) (s1.out m1.stop) (hq.emit m1) (m1.window _ hw)).mono fun m T hl => ?_)
      exact hl.after ha fun bits r hy => .after _ val hx hy
    · by_cases hs256 : sym = 256
      · subst hs256
        refine Why.done (a := true) (s1 := { s with inp := i1 }) ?_ hq
        unfold huffLoop
        rw [Go.bind_ok e1]
        simp only []
        rw [Go.bind_ok decodeLL_stop]
        rfl
      · by_cases h286 : 286 ≤ sym
        · refine Why.closed (a := false) (s1 := { s with inp := i1, out := closeOut (.corrupt i1.inTotal i1.inStream (.badLitLen sym)) s.out }) (e := .corrupt i1.inTotal i1.inStream (.badLitLen sym)) ?_ hq rfl ?_
          · unfold huffLoop
            rw [Go.bind_ok e1]
            simp only []
            have : decodeLL E sym { s with inp := i1 } = .ok (none, { s with inp := i1, out := closeOut (.corrupt i1.inTotal i1.inStream (.badLitLen sym)) s.out }) := by
              unfold decodeLL
              rw [if_neg (by omega), if_neg (by omega), lenSym_none h286]
              exact (Go.bind_ok (corruptf_eq _ _)).trans rfl
            rw [Go.bind_ok this]
            rfl
          · intro T b m h; cases h
            exact Loc.here a1 (.badSymbol sym u1 h286)
        · -- a match
          obtain ⟨li, rfl, hli⟩ : ∃ li, sym = 257 + li ∧ li < 29 := ⟨sym - 257, by omega, by omega⟩
          unfold huffLoop
          refine Why.step e1 ?_
          simp only []
          obtain ⟨q1, q2, q3, q4⟩ := lenSym_eq li hli
          have hdl : Why (decodeLL E (257 + li)) { s with inp := i1 } (fun _ _ => False) := by
            unfold decodeLL
            rw [if_neg (by omega), if_neg (by omega), q1]
            simp only []
            refine Why.addBits hE.word he s1 hq (by omega) fun v i' hv ha => ?_
            exact Why.done (decodeLL_tail hli hv _) hq
          refine Why.bind s1.err (hdl.mono fun _ _ h => h.elim) (sm_decodeLL (c := fr he) _).keep (fun y => ?_) fun y t e2 hn => ?_
          · cases y with
            | none => exact Keeps.pure (p_pre _) _
            | some t => 
              simp only []
              split
              · split
                · exact Keeps.pure (p_pre _) _
                · exact Keeps.bind (p_pre _) (sm_dbWriteByte (c := fr he) _).keep fun _ => (sm_huffLoop (c := fr he) ll d fuel fuel (Nat.le_refl _)).keep
              · refine Keeps.bind (p_pre _) (sm_readSymbol (c := fr he) _).keep fun y => ?_
                cases y with
                | none => exact (sm_fail (c := fr he) _).keep
                | some _ =>
                  refine Keeps.bind (p_pre _) (sm_decodeD (c := fr he) _ _).keep fun y => ?_
                  cases y with
                  | none => exact Keeps.pure (p_pre _) _
                  | some _ => exact (Sm2.chk (sm_copyMatch (c := fr he) _ _) (sm_huffLoop (c := fr he) ll d fuel fuel (Nat.le_refl _))).keep
          rcases decodeLL_ref hE s1 hli with ⟨lx, i2, l1, a2, e2'⟩ | ⟨_, s', e2', f2⟩
          swap
          · rw [e2'] at e2; cases e2
            obtain ⟨i', e, _, _, rfl⟩ := f2
            exact absurd (hq.close e) (by rw [hn]; simp)
          rw [e2'] at e2; cases e2
          have s2 := s1.adv a2
          have rl := refLen_range hli l1
          have a12 := a1.trans a2
          simp only [Nat.one_ne_zero, if_false]
          rcases readSymbol_eq hE.lawful hE.word hd s2 with ⟨di, i3, e3, u3, a3⟩ | ⟨i3, e3, hh, hno⟩
          swap
          · refine Why.step e3 (Why.fail (s := { s with inp := i3 }) hq ?_)
            exact Loc.held a12 hh (by simp [noCodeMessages]) (.noDistance li lx hli l1 u1 hno)
          refine Why.step e3 ?_
          have s3 := s2.adv a3
          have a13 := a12.trans a3
          simp only []
          by_cases h30 : 30 ≤ di
          · have : decodeD E di (refLen li lx) { s with inp := i3 } = .ok (none, { s with inp := i3, out := closeOut (.corrupt i3.inTotal i3.inStream (.badDist di)) s.out }) := by
              unfold decodeD
              rw [distSym_none h30]
              exact (Go.bind_ok (corruptf_eq _ _)).trans rfl
            refine Why.closed (a := false) (s1 := { s with inp := i3, out := closeOut (.corrupt i3.inTotal i3.inStream (.badDist di)) s.out }) (e := .corrupt i3.inTotal i3.inStream (.badDist di))
              ((Go.bind_ok this).trans rfl) hq rfl ?_
            intro T b m h; cases h
            exact Loc.here a13 (.badDistance li lx di hli l1 u1 u3 h30)
          obtain ⟨p1, p2, p3, p4⟩ := distSym_eq di (by omega)
          have hdd : Why (decodeD E di (refLen li lx)) { s with inp := i3 } (fun _ _ => False) := by
            unfold decodeD
            rw [p1]
            simp only []
            refine Why.addBits hE.word he s3 hq (by omega) fun v i' hv ha => ?_
            exact Why.done (decodeD_tail rl.1 rl.2 (by omega) hv _) hq
          refine Why.bind s3.err (hdd.mono fun _ _ h => h.elim) (sm_decodeD (c := fr he) _ _).keep (fun y => ?_) fun y t e4 hn => ?_
          · cases y with
            | none => exact Keeps.pure (p_pre _) _
            | some _ => exact (Sm2.chk (sm_copyMatch (c := fr he) _ _) (sm_huffLoop (c := fr he) ll d fuel fuel (Nat.le_refl _))).keep
          rcases decodeD_ref hE s3 (di := di) (by omega) rl.1 rl.2 with ⟨dx, i4, l4, a4, e4'⟩ | ⟨_, s', e4', f4⟩
          swap
          · rw [e4'] at e4; cases e4
            obtain ⟨i', e, _, _, rfl⟩ := f4
            exact absurd (hq.close e) (by rw [hn]; simp)
          rw [e4'] at e4; cases e4
          simp only []
          have rd := refDist_range (di := di) (by omega) l4
          have val : (Item.ref li lx di dx).Valid ll d := ⟨hli, l1, by omega, l4, u1, u3⟩
          have ha : Adv s.inp ((Item.ref li lx di dx).bits ll d) i4 := a13.trans a4
          by_cases hdist : refDist di dx ≤ 2 ^ E.o.wbits ∧ refDist di dx ≤ h.length
          · obtain ⟨o1, p1, e6, m1, c1⟩ := copyMatch_ok (len := refLen li lx) hE.opn rd.1 hdist.1 (s := { s with inp := i4 }) hs.stop hw hdist.2
            have hx : expand (2 ^ E.o.wbits) h [.ref li lx di dx] = some (h ++ p1) := by
              simp only [expand]; rw [if_pos hdist, c1]
            refine Why.of_eq (chk_ok e6) ((why_huffLoop hE he hll hd fuel (s := { s with inp := i4, out := o1 }) (h := h ++ p1) ((hs.adv ha).out m1.stop) (hq.emit m1) (m1.window _ hw)).mono fun m T hl => ?_)
            exact hl.after ha fun bits r hy => .after _ val hx hy
          · have e6 := copyMatch_far (E := E) (len := refLen li lx) rd.1 (s := { s with inp := i4 }) hw hdist
            have e7 : copyMatch E (refDist di dx) (refLen li lx) { s with inp := i4 } = .ok (false, { s with inp := i4, out := closeOut (.corrupt i4.inTotal i4.inStream (.tooFar (refDist di dx) (2 ^ E.o.wbits))) s.out }) :=
              e6.trans ((Go.bind_ok (corruptf_eq _ _)).trans rfl)
            refine Why.closed (a := false) (s1 := { s with inp := i4, out := closeOut (.corrupt i4.inTotal i4.inStream (.tooFar (refDist di dx) (2 ^ E.o.wbits))) s.out }) (e := .corrupt i4.inTotal i4.inStream (.tooFar (refDist di dx) (2 ^ E.o.wbits)))
              (chk_false e7) hq rfl ?_
            intro T b m h; cases h
            refine Loc.here ha (.tooFar li lx di dx val ?_)
            rw [Decidable.not_and_iff_or_not] at hdist
            rcases hdist with h | h
            · left; omega
            · right; omega

theorem why_huff (hE : EnvOK E) (he : NotC e0) (hll : E.L.accepts ll = true) (hd : E.L.accepts d = true) {h : List UInt8}
    (hs : Nm e0 s) (hq : Quiet s.out) (hw : s.out.window = lastN (2 ^ E.o.wbits) h) :
    Why (decodeHuffmanBlock E ll d) s (Loc (DataWrong (2 ^ E.o.wbits) ll d h) s.inp) :=
  Why.of_eq rfl (why_huffLoop hE he hll hd _ hs hq hw)

/-! ### the header of a dynamic block -/

theorem Failed.reports {s' : RState} (hq : Quiet s.out) (hf : Failed e0 s s') : actErr s'.out.acts ≠ none := by
  obtain ⟨i', e, _, _, rfl⟩ := hf
  rw [hq.close]
  simp

theorem why_decodeX (hE : EnvOK E) (he : NotC e0) (hs : Nm e0 s) (hq : Quiet s.out) {sym total : Nat} {acc : List Nat} (h19 : sym < 19) (ht : acc.length < total) :
    Why (decodeX E sym total acc) s (fun m T => (sym = 16 ∧ acc = [] ∧ m = .repeatNothing ∧ T = s.inp.inTotal) ∨
      ∃ x acc' i', x < 2 ^ clExtra sym ∧ clStep acc sym x = some acc' ∧ total < acc'.length ∧ Adv s.inp (natBits (clExtra sym) x) i' ∧ m = .repeatMany (acc'.length - acc.length) (total - acc.length) ∧ T = i'.inTotal) := by
  unfold decodeX
  by_cases h16 : sym < 16
  · rw [if_pos h16, if_pos ht]
    exact Why.done rfl hq
  rw [if_neg h16]
  have rep : ∀ (n base val : Nat) (k : Nat → Go RState (Option (List Nat))), n ≤ 7 → clExtra sym = n →
      (∀ x, clStep acc sym x = some (acc ++ List.replicate (base + x) val)) →
      (∀ x, ¬ base + x > total - acc.length → k x = Pure.pure (some (acc ++ List.replicate (base + x) val))) →
      (∀ x, base + x > total - acc.length → k x = (do corruptf (.repeatMany (base + x) (total - acc.length)); Pure.pure none)) →
      Why (needBits E none n k) s (fun m T => (sym = 16 ∧ acc = [] ∧ m = .repeatNothing ∧ T = s.inp.inTotal) ∨
        ∃ x acc' i', x < 2 ^ clExtra sym ∧ clStep acc sym x = some acc' ∧ total < acc'.length ∧ Adv s.inp (natBits (clExtra sym) x) i' ∧ m = .repeatMany (acc'.length - acc.length) (total - acc.length) ∧ T = i'.inTotal) := by
    intro n base val k hn hx hst hk1 hk2
    refine Why.needBits hE.word he hs hq (by omega) fun v i1 h1 a1 => ?_
    by_cases hc : base + v > total - acc.length
    · rw [hk2 v hc]
      refine Why.corrupt (s := { s with inp := i1 }) hq _ (Or.inr ⟨v, _, i1, by rw [hx]; exact h1, hst v, by simp; omega, by rw [hx]; exact a1, by simp, rfl⟩)
    · rw [hk1 v hc]
      exact Why.done rfl hq
  by_cases h1 : sym = 16
  · rw [if_pos h1]
    by_cases h0 : acc.length = 0
    · rw [if_pos h0]
      exact Why.corrupt hq _ (Or.inl ⟨h1, List.length_eq_zero_iff.1 h0, rfl, rfl⟩)
    · rw [if_neg h0]
      refine rep 2 3 (acc.getD (acc.length - 1) 0) _ (by omega) (by unfold clExtra; rw [if_pos h1]) (fun x => ?_) (fun x hc => ?_) (fun x hc => ?_)
      · unfold clStep; rw [if_neg h16, if_pos h1, last_getD h0]; rfl
      · simp only [hc, if_false]
        rw [if_pos (by omega)]
      · simp only [hc, if_true]
  · rw [if_neg h1]
    by_cases h2 : sym = 17
    · rw [if_pos h2]
      refine rep 3 3 0 _ (by omega) (by unfold clExtra; rw [if_neg h1, if_pos h2]) (fun x => ?_) (fun x hc => ?_) (fun x hc => ?_)
      · unfold clStep; rw [if_neg h16, if_neg h1, if_pos h2]
      · simp only [hc, if_false]
      · simp only [hc, if_true]
    · rw [if_neg h2]
      have h3 : sym = 18 := by omega
      rw [if_pos h3]
      refine rep 7 11 0 _ (by omega) (by unfold clExtra; rw [if_neg h1, if_neg h2, if_pos h3]) (fun x => ?_) (fun x hc => ?_) (fun x hc => ?_)
      · unfold clStep; rw [if_neg h16, if_neg h1, if_neg h2, if_pos h3]
      · simp only [hc, if_false]
      · simp only [hc, if_true]

theorem why_lensLoop (hE : EnvOK E) (he : NotC e0) {cl : List Nat} (ha : E.L.accepts cl = true) (hcl : cl.length = 19) {total : Nat} :
    ∀ (fuel : Nat) (acc : List Nat) {s : RState}, Nm e0 s → Quiet s.out → acc.length ≤ total → Why (lensLoop E cl total fuel acc) s (Loc (LensWrong cl total acc) s.inp)
  | 0, _, s, _, _, _ => fun _ _ e => by cases e
  | fuel + 1, acc, s, hs, hq, hacc => by
    unfold lensLoop
    by_cases ht : acc.length < total
    · rw [if_pos ht]
      rcases readSymbol_eq hE.lawful hE.word ha hs with ⟨sym, i1, e1, u1, a1⟩ | ⟨i1, e1, hh, hno⟩
      · refine Why.step e1 ?_
        simp only []
        have h19 : sym < 19 := by
          unfold Used lenOf at u1
          rcases Nat.lt_or_ge sym 19 with h | h
          · exact h
          · rw [List.getD_eq_getElem?_getD, List.getElem?_eq_none (by omega)] at u1; simp at u1
        have s1 := hs.adv a1
        refine Why.bind s1.err ((why_decodeX hE he s1 hq (total := total) (acc := acc) h19 ht).mono fun m T hx => ?_) (sm_decodeX (c := fr he) _ _ _).keep (fun y => ?_) fun y t e2 hn => ?_
        · rcases hx with ⟨rfl, rfl, rfl, rfl⟩ | ⟨x, acc', i2, x1, x2, x3, x4, rfl, rfl⟩
          · exact Loc.here a1 (.nothing u1)
          · exact Loc.here (a1.trans x4) (.tooMany sym x ht u1 x1 x2 x3)
        · cases y with
          | none => exact Keeps.pure (p_pre _) _
          | some _ => exact (sm_lensLoop (c := fr he) cl total fuel fuel _ (Nat.le_refl _)).keep
        rcases decodeX_eq hE s1 (total := total) (acc := acc) h19 ht with ⟨x, acc', i2, h1, h2, h3, a2, e2'⟩ | ⟨s', e2', f2, _⟩
        · rw [e2'] at e2; cases e2
          refine (why_lensLoop hE he ha hcl fuel acc' (s := { s with inp := i2 }) (s1.adv a2) hq h3).mono fun m T hl => ?_
          exact hl.after (a1.trans a2) fun bits r hy => .after sym x u1 h1 h2 h3 hy
        · rw [e2'] at e2; cases e2
          exact absurd hn (Failed.reports (s := { s with inp := i1 }) hq f2)
      · refine Why.step e1 (Why.corrupt (s := { s with inp := i1 }) hq _ ?_)
        exact Loc.held (Adv.refl hs.small) hh (by simp [noCodeMessages]) (.noSymbol ht hno)
    · rw [if_neg ht]
      exact Why.done rfl hq

theorem why_readCL (hE : EnvOK E) (he : NotC e0) : ∀ (is sX : List Nat) {s : RState}, Nm e0 s → Quiet s.out → Why (readCL E is sX) s (fun _ _ => False)
  | [], _, _, _, hq => Why.done rfl hq
  | i :: is, sX, s, hs, hq => by
    unfold readCL
    exact Why.needBits hE.word he hs hq (by omega) fun v i' _ ha => why_readCL hE he is _ (s := { s with inp := i' }) (hs.adv ha) hq

theorem keep_rest (he : NotC e0) (f : Bool) (numLL numD numX : Nat) : Keeps (P e0) (treesRest E f numLL numD numX) := by
  have : Sm (fr he) (treesRest E f numLL numD numX) := by
    unfold treesRest
    refine Sm2.bind (sm_readCL _ _) fun x => ?_
    cases x with
    | none => exact .pure _
    | some sX =>
      refine .ite (Sm2.bind (sm_corruptf _) fun _ => .pure _) (Sm2.bind (sm_lensStart _ _) fun y => ?_)
      cases y with
      | none => exact .pure _
      | some y => exact .ite (Sm2.bind (sm_corruptf _) fun _ => .pure _) (.ite (Sm2.bind (sm_corruptf _) fun _ => .pure _) (Sm2.bind (sm_sendEvent _) fun _ => .pure _))
  exact this.keep

/-- after the counts -/
def RestWrong (ok : List Nat → Prop) (numLL numD numX : Nat) (m : Spec.Problem) (bits r : List Bool) : Prop :=
  TreesWrong ok m (dynCounts numLL numD numX ++ bits) r

theorem clBits_rle {hd : DynHeader} : clBits hd.hlit hd.hdist hd.hclen hd.cl ++ rleBits hd.cl hd.rle = hd.bits := by
  simp [clBits, dynCounts, DynHeader.bits, rleBits]

theorem why_treesRest (hE : EnvOK E) (he : NotC e0) (hs : Nm e0 s) (hq : Quiet s.out) (f : Bool) {numLL numD numX : Nat} (h1 : 257 ≤ numLL) (h2 : numLL ≤ 286) (h3 : 1 ≤ numD) (h4 : numD ≤ 30)
    (h5 : 4 ≤ numX) (h6 : numX ≤ 19) : Why (treesRest E f numLL numD numX) s (Loc (RestWrong (Env.ok E) numLL numD numX) s.inp) := by
  unfold treesRest
  rcases readCL_eq hE (scramble.take numX) (List.replicate 19 0) hs with ⟨vs, i1, g1, g2, a1, e1⟩ | ⟨_, s', e1, f1⟩
  swap
  · intro a t e T b m hc
    rw [Go.bind_ok e1] at e
    cases e
    exact (why_readCL hE he _ _ hs hq _ _ e1 T b m hc).elim
  refine Why.step e1 ?_
  rw [scramble_eq] at g1
  obtain ⟨c1, c2, c3, c4⟩ := cl_facts g1 g2
  rw [scramble_eq]
  generalize setAll (clOrder.take numX) vs (List.replicate 19 0) = cl at c1 c2 c3 c4 ⊢
  have n1 := hs.adv a1
  rw [← c4] at a1
  have hh : ClHeader numLL numD numX cl := ⟨h1, h2, h3, h4, h5, h6, c1, c2, c3⟩
  simp only []
  cases ha : E.L.accepts cl with
  | false =>
    simp only [Bool.not_false, if_true]
    refine Why.corrupt (s := { s with inp := i1 }) hq _ (Loc.here a1 ?_)
    exact TreesWrong.bootstrap hh (by simp [ha])
  | true =>
    simp only [Bool.not_true, Bool.false_eq_true, if_false]
    refine Why.bind n1.err (f := lensStart E cl (numLL + numD)) (Why.of_eq (g := lensLoop E cl (numLL + numD) (i1.bits + 1) []) rfl ((why_lensLoop hE he ha c1 _ [] (s := { s with inp := i1 }) n1 hq (by simp)).mono fun m T hl => ?_))
      (sm_lensStart (c := fr he) _ _).keep (fun y => ?_) fun y t e2 hn => ?_
    · refine hl.after a1 fun bits r hy => ?_
      show TreesWrong _ _ (_ ++ (_ ++ bits)) _
      rw [← List.append_assoc]
      exact TreesWrong.lens hh ha hy
    · cases y with
      | none => exact Keeps.pure (p_pre _) _
      | some y =>
        exact (show Sm (fr he) _ from .ite (Sm2.bind (sm_corruptf _) fun _ => .pure _) (.ite (Sm2.bind (sm_corruptf _) fun _ => .pure _) (Sm2.bind (sm_sendEvent _) fun _ => .pure _))).keep
    have hlo := lensLoop_sound hE ha c1 (total := numLL + numD) (i1.bits + 1) [] (s := { s with inp := i1 }) n1 (by simp) (Nat.lt_succ_of_le (vb_bits _))
    rcases hlo with ⟨rle, lens, i2, q1, q2, q3, a2, e2'⟩ | ⟨s', e2', f2⟩
    swap
    · have : lensStart E cl (numLL + numD) { s with inp := i1 } = .ok (none, s') := e2'
      rw [this] at e2; cases e2
      exact absurd hn (Failed.reports (s := { s with inp := i1 }) hq f2)
    have : lensStart E cl (numLL + numD) { s with inp := i1 } = _ := e2'
    rw [this] at e2; cases e2
    simp only [dyn_ll h2, dyn_d q3 h4]
    have a12 := a1.trans a2
    have hbits := clBits_rle (hd := ⟨numLL, numD, numX, cl, rle, lens⟩)
    have hpre : ∀ m r, TreesWrong (Env.ok E) m (DynHeader.mk numLL numD numX cl rle lens).bits r → RestWrong (Env.ok E) numLL numD numX m ((clOrder.take numX).flatMap (fun x => natBits 3 (lenOf cl x)) ++ rleBits cl rle) r := by
      intro m r h
      rw [← hbits] at h
      simpa [RestWrong, clBits] using h
    cases hl : E.L.accepts (padTo 288 (lens.take numLL)) with
    | false =>
      simp only [Bool.not_false, if_true]
      refine Why.corrupt (s := { s with inp := i2 }) hq _ (Loc.here a12 (hpre _ _ (.litlen _ hh ha q1 q2 q3 ?_)))
      show ¬ E.L.accepts (padTo 288 (lens.take numLL)) = true
      rw [hl]; simp
    | true =>
      simp only [Bool.not_true, Bool.false_eq_true, if_false]
      cases hd : E.L.accepts (padTo 32 (lens.drop numLL)) with
      | false =>
        simp only [Bool.not_false, if_true]
        refine Why.corrupt (s := { s with inp := i2 }) hq _ (Loc.here a12 (hpre _ _ (.dist _ hh ha q1 q2 q3 hl ?_)))
        show ¬ E.L.accepts (padTo 32 (lens.drop numLL)) = true
        rw [hd]; simp
      | true =>
        simp only [Bool.not_true, Bool.false_eq_true, if_false]
        exact Why.done rfl hq

theorem counts_first {a b : Nat} (h : ¬ (a ≤ 286 ∧ b ≤ 30)) (hq : Quiet s.out) : ∃ s' m, checkCounts a b s = .ok ((), s') ∧ s'.inp = s.inp ∧
    actErr s'.out.acts = some (.corrupt s.inp.inTotal s.inp.inStream m) ∧ ((286 < a ∧ m = (.hlit a 286)) ∨ (a ≤ 286 ∧ 30 < b ∧ m = (.hdist b 30))) := by
  unfold checkCounts logicalNumLLCodes logicalNumDCodes
  simp only []
  by_cases h1 : a > 286
  · rw [if_pos h1]
    by_cases h2 : b > 30
    · rw [if_pos h2]
      refine ⟨_, (.hlit a 286), (Go.bind_ok (corruptf_eq _ s)).trans (corruptf_eq _ _), rfl, ?_, Or.inl ⟨h1, rfl⟩⟩
      have h := closeOut_set (.corrupt s.inp.inTotal s.inp.inStream (.hlit a 286)) s.out
      have h' := hq.close (.corrupt s.inp.inTotal s.inp.inStream (.hlit a 286))
      generalize closeOut (.corrupt s.inp.inTotal s.inp.inStream (.hlit a 286)) s.out = o at h h' ⊢
      show actErr (closeOut _ o).acts = _
      unfold closeOut
      rw [if_pos h]
      exact h'
    · rw [if_neg h2]
      exact ⟨_, (.hlit a 286), (Go.bind_ok (corruptf_eq _ s)).trans rfl, rfl, hq.close _, Or.inl ⟨h1, rfl⟩⟩
  · rw [if_neg h1, if_pos (by omega)]
    exact ⟨_, (.hdist b 30), corruptf_eq _ s, rfl, hq.close _, Or.inr ⟨by omega, by omega, rfl⟩⟩

theorem why_trees (hE : EnvOK E) (he : NotC e0) (hs : Nm e0 s) (hq : Quiet s.out) (f : Bool) : Why (readDynamicTrees E f) s (Loc (TreesWrong (Env.ok E)) s.inp) := by
  rw [trees_eq]
  refine Why.needBits hE.word he hs hq (by omega) fun v i1 hv a1 => ?_
  have n1 := hs.adv a1
  rw [and31, and31, and15, Nat.shiftRight_eq_div_pow, Nat.shiftRight_eq_div_pow]
  have r1 : (2 : Nat) ^ 5 = 32 := rfl
  have r2 : (2 : Nat) ^ 10 = 1024 := rfl
  rw [r1, r2]
  have hcb : natBits 14 v = dynCounts (257 + v % 32) (1 + v / 32 % 32) (4 + v / 1024 % 16) := by
    rw [split14]
    unfold dynCounts
    rw [show 257 + v % 32 - 257 = v % 32 by omega, show 1 + v / 32 % 32 - 1 = v / 32 % 32 by omega, show 4 + v / 1024 % 16 - 4 = v / 1024 % 16 by omega]
  rw [hcb] at a1
  by_cases hc : 257 + v % 32 ≤ 286 ∧ 1 + v / 32 % 32 ≤ 30
  · refine Why.step (checkCounts_ok hc.1 hc.2 _) ?_
    refine (why_treesRest hE he n1 hq f (numLL := 257 + v % 32) (numD := 1 + v / 32 % 32) (numX := 4 + v / 1024 % 16) (by omega) hc.1 (by omega) hc.2 (by omega) (by omega)).mono fun m T hl => ?_
    exact hl.after a1 fun bits r hy => hy
  · obtain ⟨s1, m, e2, k1, k2, k3⟩ := counts_first (s := { s with inp := i1 }) hc hq
    refine Why.step e2 fun a s' e T b m' hcor => ?_
    have k := keep_rest he f _ _ _ _ _ _ e (by rw [k1]; exact n1.err)
    rw [k.first _ k2] at hcor
    cases hcor
    rcases k3 with ⟨k3, rfl⟩ | ⟨k3, k4, rfl⟩
    · exact Loc.here a1 (.hlit _ _ _ k3 (by omega) (by omega) (by omega) (by omega) (by omega))
    · exact Loc.here a1 (.hdist _ _ _ (by omega) k3 k4 (by omega) (by omega) (by omega))

/-! ### blocks -/

theorem why_stored (he : NotC e0) (hs : Nm e0 s) (hq : Quiet s.out) : Why (readStored E) s (Loc (fun m bits _ => ∃ pad len nlen, m = .storedLen len nlen (65535 - len) ∧ pad.length = s.inp.ibLen ∧ len < 65536 ∧ nlen < 65536 ∧
    nlen ≠ 65535 - len ∧ bits = pad ++ natBits 16 len ++ natBits 16 nlen) s.inp) := by
  unfold readStored
  refine Why.needBytes he hs.err hq fun p r b1 l1 => ?_
  have a1 := takeIn_adv b1
  have n1 := hs.adv a1
  refine Why.needBytes he n1.err hq fun q r2 b2 l2 => ?_
  have a2 := takeIn_adv b2
  have n2 := n1.adv a2
  have hp := leVal_lt p
  have hq' := leVal_lt q
  rw [l1] at hp
  rw [l2] at hq'
  by_cases hc : leVal q ≠ 65535 - leVal p
  · rw [if_pos hc]
    refine Why.fail (s := { s with inp := takeIn q r2 (takeIn p r s.inp) }) hq (Loc.here (a1.trans a2) ⟨natBits s.inp.ibLen s.inp.ibBlock, leVal p, leVal q, rfl, by simp, hp, hq', hc, ?_⟩)
    rw [show (takeIn p r s.inp).ibLen = 0 from rfl, bytesBits_leVal l1, bytesBits_leVal l2]
    simp
  · rw [if_neg hc]
    refine Why.needBytes he n2.err hq fun d r3 b3 l3 => ?_
    intro a s' e T b m hcor
    obtain ⟨_, s1, e1, e2⟩ := Go.bind_eq_ok.1 e
    cases e2
    have k := (sm_dbWrite (E := E) (c := fr he) d)
    unfold dbWrite at e1
    rcases hdw : dbWriteLoop E (d.length + 1) d s.out with er | o1
    · rw [show ({ s with inp := takeIn d r3 (takeIn q r2 (takeIn p r s.inp)) } : RState).out = s.out from rfl, hdw] at e1; cases e1
    · rw [show ({ s with inp := takeIn d r3 (takeIn q r2 (takeIn p r s.inp)) } : RState).out = s.out from rfl, hdw] at e1; cases e1
      have := loop_first _ _ _ _ hdw
      rw [this, hq.acts] at hcor
      cases hcor

theorem Broke.reports {s' : RState} {p : List UInt8} (hq : Quiet s.out) (hb : Broke E e0 s p s') : actErr s'.out.acts ≠ none := by
  obtain ⟨s1, e, _, h2, _, h4⟩ := hb
  obtain ⟨ds, hd, _⟩ := h4.out.acts
  have := (hq.emit h2).close e
  rw [hd, actErr_append]
  simp only [this]
  simp

theorem why_blockRest (hE : EnvOK E) (he : NotC e0) (hs : Nm e0 s) (hq : Quiet s.out) {h : List UInt8} (hw : s.out.window = lastN (2 ^ E.o.wbits) h) (f : Bool) {v : Nat} (hv : v < 8)
    (hf : decide (v % 2 = 1) = f) {pos : Nat} (hp : At (pos + 3) s.inp) :
    Why (blockRest E f (blockTypeOf v)) s (Loc (fun m bits r => BlockWrong (Env.ok E) (2 ^ E.o.wbits) pos h m (natBits 3 v ++ bits) r) s.inp) := by
  unfold blockRest
  obtain ⟨s1, e1, r1, i1, o1⟩ := ran_event E hs.small (.blockBegin (blockTypeOf v) f)
  refine Why.step e1 ?_
  have n1 : Nm e0 s1 := hs.same i1 o1
  have q1 : Quiet s1.out := by rw [o1]; exact hq
  have w1 : s1.out.window = lastN (2 ^ E.o.wbits) h := by rw [o1]; exact hw
  have endk : ∀ b, Keeps (P e0) (if b = true then (do sendEvent (.blockEnd (blockTypeOf v) f); pure (some f)) else pure none : Go RState (Option Bool)) := by
    intro b
    exact (show Sm (fr he) _ from .ite (Sm2.bind (sm_sendEvent _) fun _ => .pure _) (.pure _)).keep
  have endw : ∀ (W : Spec.Problem → Nat → Prop) b t, actErr t.out.acts = none → Why (if b = true then (do sendEvent (.blockEnd (blockTypeOf v) f); pure (some f)) else pure none : Go RState (Option Bool)) t W := by
    intro W b t ht a t' e T x m hc
    have : t'.out = t.out := by
      cases b <;> cases e <;> rfl
    rw [this, ht] at hc
    cases hc
  rw [← i1]
  rcases type3 v hv with ⟨ht, hb⟩ | ⟨ht, hb⟩ | ⟨ht, hb⟩ | ⟨ht, hb⟩ <;> rw [hf] at hb <;> rw [ht] at endk endw ⊢ <;> rw [hb]
  · refine Why.bind n1.err ((why_stored he n1 q1).mono fun m T hl => ?_) (sm_stored (c := fr he)).keep endk fun b t _ hn => endw _ b t hn
    obtain ⟨bits, j, i', l1, l2, l3, l4, pad, len, nlen, rfl, l5, l6, l7, l8, rfl⟩ := hl
    refine ⟨_, j, i', l1, l2, l3, l4, ?_⟩
    have := BlockWrong.stored (ok := Env.ok E) (win := 2 ^ E.o.wbits) (h := h) (pos := pos) (rest := vb j) f pad len nlen (l5.trans (by rw [i1]; exact hp)) l6 l7 l8
    simpa using this
  · obtain ⟨s2, k3, k4, t1, t2⟩ := readStatic_eq (E := E) n1.small f
    refine Why.bind n1.err ?_ (sm_static (c := fr he) f).keep endk fun b t _ hn => endw _ b t hn
    refine Why.of_eq t2 ((why_huff hE he (acceptsLL hE) (acceptsD hE) (n1.same k3 k4) (by rw [k4]; exact q1) (by rw [k4]; exact w1)).mono fun m T hl => ?_)
    rw [k3] at hl
    obtain ⟨bits, j, i', l1, l2, l3, l4, l5⟩ := hl
    exact ⟨_, j, i', l1, l2, l3, l4, .fixed f l5⟩
  · refine Why.bind n1.err ?_ (sm_dynamic (c := fr he) f).keep endk fun b t _ hn => endw _ b t hn
    refine Why.bind n1.err ((why_trees hE he n1 q1 f).mono fun m T hl => ?_) (sm_trees (c := fr he) f).keep (fun x => ?_) fun x t e2 hn => ?_
    · obtain ⟨bits, j, i', l1, l2, l3, l4, l5⟩ := hl
      exact ⟨_, j, i', l1, l2, l3, l4, .trees f l5⟩
    · rcases x with _ | ⟨ll, d⟩
      · exact Keeps.pure (p_pre _) _
      · exact (sm_huff (c := fr he) _ _).keep
    · rcases trees_sound hE n1 f with ⟨hd, tr, s2, v1, v2, v3, v4⟩ | ⟨x', s2, v1, v2, v3⟩
      · rw [v2] at e2; cases e2
        obtain ⟨_, _, _, _, _, _, _, _, _, _, _, _, _, w3, w4⟩ := id v1
        refine Why.mono (why_huff hE he w3 w4 (n1.ran v3) (by rw [v4]; exact q1) (by rw [v4]; exact w1)) fun m T hl => ?_
        refine hl.after v3.adv fun bits r hy => ?_
        have := BlockWrong.dynamic (pos := pos) f hd v1 hy
        simpa using this
      · rw [v1] at e2; cases e2
        exact absurd hn (Broke.reports q1 v2)
  · refine Why.bind n1.err ?_ (sm_fail (c := fr he) _).keep endk fun b t _ hn => endw _ b t hn
    refine Why.fail q1 (Loc.here (Adv.refl n1.small) ?_)
    simpa using BlockWrong.reserved f

theorem why_block (hE : EnvOK E) (he : NotC e0) (hs : Nm e0 s) (hq : Quiet s.out) {h : List UInt8} (hw : s.out.window = lastN (2 ^ E.o.wbits) h) {pos : Nat} (hp : At pos s.inp) :
    Why (readFlateBlock E) s (Loc (BlockWrong (Env.ok E) (2 ^ E.o.wbits) pos h) s.inp) := by
  rw [block_eq]
  refine Why.needBits hE.word he hs hq (by omega) fun v i1 hv a1 => ?_
  have at1 := hp.adv a1
  rw [natBits_length] at at1
  exact (why_blockRest hE he (s := { s with inp := i1 }) (hs.adv a1) hq hw _ hv rfl at1).mono fun m T hl => hl.after a1 fun bits r hy => hy

theorem why_blockLoop (hE : EnvOK E) (he : NotC e0) : ∀ (fuel : Nat) {s : RState} {pos : Nat} {h : List UInt8}, Nm e0 s → Quiet s.out → At pos s.inp →
    s.out.window = lastN (2 ^ E.o.wbits) h → Why (blockLoop E fuel) s (Loc (BlocksWrong (Env.ok E) (2 ^ E.o.wbits) pos h) s.inp)
  | 0, _, _, _, _, _, _, _ => fun _ _ e => by cases e
  | fuel + 1, s, pos, h, hs, hq, hp, hw => by
    unfold blockLoop
    refine Why.bind hs.err ((why_block hE he hs hq hw hp).mono fun m T hl => ?_) (sm_flateBlock (c := fr he)).keep (fun y => ?_) fun y t e1 hn => ?_
    · obtain ⟨bits, j, i', l1, l2, l3, l4, l5⟩ := hl
      exact ⟨_, j, i', l1, l2, l3, l4, .here l5⟩
    · split
      · exact (sm_blockLoop (c := fr he) fuel fuel (Nat.le_refl _)).keep
      · exact Keeps.pure (p_pre _) _
    · rcases block_sound hE hs hp hw with ⟨final, b, p, k, s1, e1', h1, h2, h3⟩ | ⟨r, b, p, s1, e1', h1, h2, h3⟩
      · rw [e1'] at e1; cases e1
        have q1 := hq.emit h3.emit
        cases final with
        | true => exact Why.done rfl q1
        | false =>
          refine Why.mono (why_blockLoop hE he fuel (hs.ran h3) q1 (hp.adv h3.adv) (h3.emit.window _ hw)) fun m T hl => ?_
          exact hl.after h3.adv fun bits r hy => .after h1 hy
      · rw [e1'] at e1; cases e1
        exact absurd hn (Broke.reports hq h3)

theorem why_blocks (hE : EnvOK E) (he : NotC e0) {pos : Nat} {h : List UInt8} (hs : Nm e0 s) (hq : Quiet s.out) (hp : At pos s.inp)
    (hw : s.out.window = lastN (2 ^ E.o.wbits) h) : Why (readBlocks E) s (Loc (BlocksWrong (Env.ok E) (2 ^ E.o.wbits) pos h) s.inp) :=
  Why.of_eq rfl (why_blockLoop hE he _ hs hq hp hw)

end
end Flate.Proof.R.Wrong
