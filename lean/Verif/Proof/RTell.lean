/-
Every problem which is there first, is reported: the compressed data.
-/
import Verif.Proof.RWhyRun

namespace Flate.Proof.R.Wrong
open Flate.Spec Flate.Model Flate.Model.Rd Flate.Proof.R Flate.Proof.R.Pos

/-- after `bits`, counted from `i`, the function reports the problem `m` -/
def Tells {α : Type} (i : Inp) (f : Go RState α) (s : RState) (m : Spec.Problem) (bits : List Bool) : Prop :=
  ∀ a s', f s = .ok (a, s') → ∃ j i' b, Adv i bits j ∧ Hold j i' ∧ (m ∉ noCodeMessages → i' = j) ∧ actErr s'.out.acts = some (.corrupt i'.inTotal b m)

section
variable {α β : Type} {E : Env} {e0 : Err} {s : RState} {i : Inp} {m : Spec.Problem} {bits : List Bool}

theorem Tells.of_eq {f g : Go RState α} {s1 : RState} (h : f s = g s1) (hg : Tells i g s1 m bits) : Tells i f s m bits :=
  fun a s' e => hg a s' (h ▸ e)

theorem Tells.step {f : Go RState α} {g : α → Go RState β} {s1 : RState} {a : α} (h : f s = .ok (a, s1)) (hg : Tells i (g a) s1 m bits) : Tells i (f >>= g) s m bits :=
  Tells.of_eq (Go.bind_ok h) hg

theorem Tells.after {f : Go RState α} {i1 : Inp} {b : List Bool} (ha : Adv i b i1) (hg : Tells i1 f s m bits) : Tells i f s m (b ++ bits) := by
  intro a s' e
  obtain ⟨j, i', x, h1, h2, h3, h4⟩ := hg a s' e
  exact ⟨j, i', x, ha.trans h1, h2, h3, h4⟩

theorem Tells.bind {f : Go RState α} {g : α → Go RState β} (hs : s.inp.inputError = some e0) (kf : Keeps (P e0) f) (kg : ∀ a, Keeps (P e0) (g a))
    (hf : Tells i f s m bits) : Tells i (f >>= g) s m bits := by
  intro b s' e
  obtain ⟨a, s1, e1, e2⟩ := Go.bind_eq_ok.1 e
  obtain ⟨j, i', x, h1, h2, h3, h4⟩ := hf a s1 e1
  have k1 := kf _ _ _ e1 hs
  have k2 := kg a _ _ _ e2 k1.inp.err
  exact ⟨j, i', x, h1, h2, h3, k2.first _ h4⟩

/-- `f` has just given up -/
theorem Tells.closed {f : Go RState α} {a : α} {j i' : Inp} {o : Out} {x : Nat} (h : f s = .ok (a, { s with inp := i', out := closeOut (.corrupt i'.inTotal x m) o })) (hq : Quiet o)
    (ha : Adv i bits j) (hh : Hold j i') (hm : m ∉ noCodeMessages → i' = j) : Tells i f s m bits := by
  intro a' s' e
  rw [h] at e; cases e
  exact ⟨j, i', x, ha, hh, hm, hq.close _⟩

theorem Tells.corrupt {j : Inp} (hq : Quiet s.out) (x : α) (ha : Adv i bits j) (hh : Hold j s.inp) (hm : m ∉ noCodeMessages → s.inp = j) :
    Tells i (do corruptf m; pure x : Go RState α) s m bits :=
  Tells.closed (a := x) (j := j) (i' := s.inp) (o := s.out) (by rw [Go.bind_ok (corruptf_eq m s)]; rfl) hq ha hh hm

theorem Tells.corrupt0 (hq : Quiet s.out) (x : α) (ha : Adv i bits s.inp) : Tells i (do corruptf m; pure x : Go RState α) s m bits :=
  Tells.corrupt hq x ha (Hold.refl ha.small.lt) fun _ => rfl

/-! ### compressed data -/

variable {ll d : List Nat}

theorem tell_huffLoop (hE : EnvOK E) (he : NotC e0) (hll : E.L.accepts ll = true) (hd : E.L.accepts d = true) {h : List UInt8} {rest : List Bool}
    (hw : DataWrong (2 ^ E.o.wbits) ll d h m bits rest) : ∀ (fuel : Nat) {s : RState}, Nm e0 s → Quiet s.out → s.out.window = lastN (2 ^ E.o.wbits) h →
    vb s.inp = bits ++ rest → Tells s.inp (huffLoop E ll d fuel) s m bits := by
  induction hw with
  | @after h h' m bits rest it hv hx _ ih =>
    intro fuel s hs hq hwin hb
    cases fuel with
    | zero => intro _ _ e; cases e
    | succ fuel =>
      rw [List.append_assoc] at hb
      obtain ⟨i', o', p, e1, a1, m1, rfl⟩ := huffLoop_item hE hll hd hs hwin hv hx hb fuel
      refine Tells.after a1 (Tells.of_eq e1 (ih fuel (s := { s with inp := i', out := o' }) ((hs.adv a1).out m1.stop) (hq.emit m1) (m1.window _ hwin) ?_))
      exact List.append_cancel_left (a1.bits.symm.trans hb)
  | @noSymbol h rest hno =>
    intro fuel s hs hq hwin hb
    cases fuel with
    | zero => intro _ _ e; cases e
    | succ fuel =>
      rcases readSymbol_eq hE.lawful hE.word hll hs with ⟨sym, i1, e1, u1, a1⟩ | ⟨i1, e1, hh, _⟩
      · refine absurd ?_ (hno sym u1)
        rw [List.nil_append] at hb
        exact ⟨_, a1.bits.symm.trans hb⟩
      · unfold huffLoop
        refine Tells.step e1 ?_
        exact Tells.corrupt (s := { s with inp := i1 }) hq false (Adv.refl hs.small) hh fun h => absurd (by simp [noCodeMessages]) h
  | @badSymbol h rest sym u1 h286 =>
    intro fuel s hs hq hwin hb
    cases fuel with
    | zero => intro _ _ e; cases e
    | succ fuel =>
      obtain ⟨i1, e1, a1⟩ := readSymbol_ok hE.lawful hE.word hll hs u1 hb
      refine Tells.closed (a := false) (o := s.out) (x := i1.inStream) ?_ hq a1 (Hold.refl a1.small.lt) fun _ => rfl
      unfold huffLoop
      rw [Go.bind_ok e1]
      simp only []
      have : decodeLL E sym { s with inp := i1 } = .ok (none, { s with inp := i1, out := closeOut (.corrupt i1.inTotal i1.inStream (.badLitLen sym)) s.out }) := by
        unfold decodeLL
        rw [if_neg (by omega), if_neg (by omega), lenSym_none h286]
        exact (Go.bind_ok (corruptf_eq _ _)).trans rfl
      rw [Go.bind_ok this]
      rfl
  | @noDistance h rest li lx hli l1 u1 hno =>
    intro fuel s hs hq hwin hb
    cases fuel with
    | zero => intro _ _ e; cases e
    | succ fuel =>
      rw [List.append_assoc] at hb
      obtain ⟨i1, e1, a1⟩ := readSymbol_ok hE.lawful hE.word hll hs u1 hb
      have s1 := hs.adv a1
      have hb1 : vb i1 = _ := List.append_cancel_left (a1.bits.symm.trans hb)
      obtain ⟨i2, a2, e2⟩ := decodeLL_ok hE s1 hli l1 hb1
      have hb2 : vb i2 = _ := List.append_cancel_left (a2.bits.symm.trans hb1)
      have s2 := s1.adv a2
      have e2 : decodeLL E (257 + li) { s with inp := i1 } = .ok (some ⟨refLen li lx, 1⟩, { s with inp := i2 }) := e2
      have a12 : Adv s.inp _ i2 := a1.trans a2
      unfold huffLoop
      refine Tells.step e1 (Tells.step e2 ?_)
      simp only [Nat.one_ne_zero, if_false]
      rcases readSymbol_eq hE.lawful hE.word hd s2 with ⟨di, i3, e3, u3, a3⟩ | ⟨i3, e3, hh, _⟩
      · exact absurd ⟨_, a3.bits.symm.trans hb2⟩ (hno di u3)
      · refine Tells.step e3 ?_
        exact Tells.corrupt (s := { s with inp := i3 }) hq false a12 hh fun h => absurd (by simp [noCodeMessages]) h
  | @badDistance h rest li lx di hli l1 u1 u3 h30 =>
    intro fuel s hs hq hwin hb
    cases fuel with
    | zero => intro _ _ e; cases e
    | succ fuel =>
      rw [List.append_assoc, List.append_assoc] at hb
      obtain ⟨i1, e1, a1⟩ := readSymbol_ok hE.lawful hE.word hll hs u1 hb
      have s1 := hs.adv a1
      have hb1 : vb i1 = _ := List.append_cancel_left (a1.bits.symm.trans hb)
      obtain ⟨i2, a2, e2⟩ := decodeLL_ok hE s1 hli l1 hb1
      have hb2 : vb i2 = _ := List.append_cancel_left (a2.bits.symm.trans hb1)
      have s2 := s1.adv a2
      have e2 : decodeLL E (257 + li) { s with inp := i1 } = .ok (some ⟨refLen li lx, 1⟩, { s with inp := i2 }) := e2
      obtain ⟨i3, e3, a3⟩ := readSymbol_ok hE.lawful hE.word hd s2 u3 hb2
      have a13 : Adv s.inp _ i3 := (a1.trans a2).trans a3
      unfold huffLoop
      refine Tells.step e1 (Tells.step e2 ?_)
      simp only [Nat.one_ne_zero, if_false]
      refine Tells.step e3 ?_
      simp only []
      have : decodeD E di (refLen li lx) { s with inp := i3 } = .ok (none, { s with inp := i3, out := closeOut (.corrupt i3.inTotal i3.inStream (.badDist di)) s.out }) := by
        unfold decodeD
        rw [distSym_none h30]
        exact (Go.bind_ok (corruptf_eq _ _)).trans rfl
      exact Tells.closed (a := false) (o := s.out) (x := i3.inStream) (s := { s with inp := i3 }) ((Go.bind_ok this).trans rfl) hq a13 (Hold.refl a13.small.lt) fun _ => rfl
  | @tooFar h rest li lx di dx hv hfar =>
    intro fuel s hs hq hwin hb
    cases fuel with
    | zero => intro _ _ e; cases e
    | succ fuel =>
      obtain ⟨hli, l1, hdi, l4, u1, u3⟩ := hv
      simp only [Item.bits, List.append_assoc] at hb
      obtain ⟨i1, e1, a1⟩ := readSymbol_ok hE.lawful hE.word hll hs u1 hb
      have s1 := hs.adv a1
      have hb1 : vb i1 = _ := List.append_cancel_left (a1.bits.symm.trans hb)
      obtain ⟨i2, a2, e2⟩ := decodeLL_ok hE s1 hli l1 hb1
      have hb2 : vb i2 = _ := List.append_cancel_left (a2.bits.symm.trans hb1)
      have s2 := s1.adv a2
      have e2 : decodeLL E (257 + li) { s with inp := i1 } = .ok (some ⟨refLen li lx, 1⟩, { s with inp := i2 }) := e2
      obtain ⟨i3, e3, a3⟩ := readSymbol_ok hE.lawful hE.word hd s2 u3 hb2
      have s3 := s2.adv a3
      have hb3 : vb i3 = _ := List.append_cancel_left (a3.bits.symm.trans hb2)
      have rl := refLen_range hli l1
      obtain ⟨i4, a4, e4⟩ := decodeD_ok hE s3 hdi l4 rl.1 rl.2 hb3
      have e4 : decodeD E di (refLen li lx) { s with inp := i3 } = .ok (some ⟨refLen li lx, refDist di dx⟩, { s with inp := i4 }) := e4
      have ha : Adv s.inp ((Item.ref li lx di dx).bits ll d) i4 := ((a1.trans a2).trans a3).trans a4
      have rd := refDist_range hdi l4
      unfold huffLoop
      refine Tells.step e1 (Tells.step e2 ?_)
      simp only [Nat.one_ne_zero, if_false]
      refine Tells.step e3 (Tells.step e4 ?_)
      simp only []
      have e6 := copyMatch_far (E := E) (len := refLen li lx) rd.1 (s := { s with inp := i4 }) hwin (by omega)
      have e7 : copyMatch E (refDist di dx) (refLen li lx) { s with inp := i4 } = .ok (false, { s with inp := i4, out := closeOut (.corrupt i4.inTotal i4.inStream (.tooFar (refDist di dx) (2 ^ E.o.wbits))) s.out }) :=
        e6.trans ((Go.bind_ok (corruptf_eq _ _)).trans rfl)
      exact Tells.closed (a := false) (o := s.out) (x := i4.inStream) (s := { s with inp := i4 }) (chk_false e7) hq ha (Hold.refl ha.small.lt) fun _ => rfl

theorem tell_huff (hE : EnvOK E) (he : NotC e0) (hll : E.L.accepts ll = true) (hd : E.L.accepts d = true) {h : List UInt8} {rest : List Bool}
    (hw : DataWrong (2 ^ E.o.wbits) ll d h m bits rest) (hs : Nm e0 s) (hq : Quiet s.out) (hwin : s.out.window = lastN (2 ^ E.o.wbits) h)
    (hb : vb s.inp = bits ++ rest) : Tells s.inp (decodeHuffmanBlock E ll d) s m bits :=
  Tells.of_eq rfl (tell_huffLoop hE he hll hd hw _ hs hq hwin hb)

/-! ### the header of a dynamic block -/

theorem used_lt {cl : List Nat} {sym : Nat} (hcl : cl.length = 19) (u1 : Used cl sym) : sym < 19 := by
  unfold Used lenOf at u1
  rcases Nat.lt_or_ge sym 19 with h | h
  · exact h
  · rw [List.getD_eq_getElem?_getD, List.getElem?_eq_none (by omega)] at u1; simp at u1

theorem clStep_grows {acc acc' : List Nat} {sym x : Nat} (h : clStep acc sym x = some acc') : acc.length < acc'.length := by
  unfold clStep at h
  split at h
  · cases h; simp
  · split at h
    · cases hl : acc.getLast? with
      | none => rw [hl] at h; cases h
      | some l => rw [hl] at h; cases h; simp; omega
    · split at h
      · cases h; simp; omega
      · split at h
        · cases h; simp; omega
        · cases h

theorem tell_decodeX (hE : EnvOK E) (hs : Nm e0 s) {sym total x : Nat} {acc acc' : List Nat} {r : List Bool} (h19 : sym < 19) (ht : acc.length < total)
    (hx : x < 2 ^ clExtra sym) (hst : clStep acc sym x = some acc') (hlt : total < acc'.length) (hb : vb s.inp = natBits (clExtra sym) x ++ r) :
    ∃ i', Adv s.inp (natBits (clExtra sym) x) i' ∧
      decodeX E sym total acc s = .ok (none, { s with inp := i', out := closeOut (.corrupt i'.inTotal i'.inStream (.repeatMany (acc'.length - acc.length) (total - acc.length))) s.out }) := by
  unfold decodeX
  by_cases h16 : sym < 16
  · exfalso
    unfold clStep at hst; rw [if_pos h16] at hst; cases hst
    simp at hlt; omega
  rw [if_neg h16]
  have rep : ∀ (n base val : Nat) (k : Nat → Go RState (Option (List Nat))), n ≤ 7 → clExtra sym = n →
      clStep acc sym x = some (acc ++ List.replicate (base + x) val) →
      (∀ x, base + x > total - acc.length → k x = (do corruptf (.repeatMany (base + x) (total - acc.length)); Pure.pure none)) →
      ∃ i', Adv s.inp (natBits (clExtra sym) x) i' ∧
      needBits E none n k s = .ok (none, { s with inp := i', out := closeOut (.corrupt i'.inTotal i'.inStream (.repeatMany (acc'.length - acc.length) (total - acc.length))) s.out }) := by
    intro n base val k hn hxn hst2 hk2
    rw [hxn] at hx hb ⊢
    obtain ⟨i', a1, e1⟩ := needBits_ok hE.word hs (none : Option (List Nat)) (by omega) k hx hb
    refine ⟨i', a1, ?_⟩
    rw [hst] at hst2; cases hst2
    rw [e1, hk2 x (by simp at hlt; omega)]
    rw [show (acc ++ List.replicate (base + x) val).length - acc.length = base + x by simp]
    exact (Go.bind_ok (corruptf_eq _ _)).trans rfl
  by_cases h1 : sym = 16
  · rw [if_pos h1]
    by_cases h0 : acc.length = 0
    · exfalso
      have := List.length_eq_zero_iff.1 h0
      subst this; subst h1
      simp [clStep] at hst
    · rw [if_neg h0]
      refine rep 2 3 (acc.getD (acc.length - 1) 0) _ (by omega) (by unfold clExtra; rw [if_pos h1]) ?_ (fun x hc => ?_)
      · unfold clStep; rw [if_neg h16, if_pos h1, last_getD h0]; rfl
      · simp only [hc, if_true]
  · rw [if_neg h1]
    by_cases h2 : sym = 17
    · rw [if_pos h2]
      refine rep 3 3 0 _ (by omega) (by unfold clExtra; rw [if_neg h1, if_pos h2]) ?_ (fun x hc => ?_)
      · unfold clStep; rw [if_neg h16, if_neg h1, if_pos h2]
      · simp only [hc, if_true]
    · rw [if_neg h2]
      have h3 : sym = 18 := by omega
      rw [if_pos h3]
      refine rep 7 11 0 _ (by omega) (by unfold clExtra; rw [if_neg h1, if_neg h2, if_pos h3]) ?_ (fun x hc => ?_)
      · unfold clStep; rw [if_neg h16, if_neg h1, if_neg h2, if_pos h3]
      · simp only [hc, if_true]

theorem tell_lensLoop (hE : EnvOK E) {cl : List Nat} (ha : E.L.accepts cl = true) (hcl : cl.length = 19) {total : Nat} (h0 : 0 < total) {acc : List Nat} {rest : List Bool}
    (hw : LensWrong cl total acc m bits rest) : ∀ (fuel : Nat) {s : RState}, Nm e0 s → Quiet s.out → vb s.inp = bits ++ rest → Tells s.inp (lensLoop E cl total fuel acc) s m bits := by
  induction hw with
  | @after acc acc' m bits rest sym x u1 hx hst hle _ ih =>
    intro fuel s hs hq hb
    cases fuel with
    | zero => intro _ _ e; cases e
    | succ fuel =>
      have ht : acc.length < total := Nat.lt_of_lt_of_le (clStep_grows hst) hle
      rw [List.append_assoc, List.append_assoc] at hb
      obtain ⟨i1, e1, a1⟩ := readSymbol_ok hE.lawful hE.word ha hs u1 hb
      have s1 := hs.adv a1
      have hb1 : vb i1 = _ := List.append_cancel_left (a1.bits.symm.trans hb)
      obtain ⟨i2, a2, e2⟩ := decodeX_ok hE s1 (used_lt hcl u1) hx hst hle hb1
      have hb2 : vb i2 = _ := List.append_cancel_left (a2.bits.symm.trans hb1)
      have e2 : decodeX E sym total acc { s with inp := i1 } = .ok (some acc', { s with inp := i2 }) := e2
      refine Tells.after (a1.trans a2) ?_
      unfold lensLoop
      rw [if_pos ht]
      exact Tells.step e1 (Tells.step e2 (ih fuel (s := { s with inp := i2 }) (s1.adv a2) hq hb2))
  | @noSymbol acc rest ht hno =>
    intro fuel s hs hq hb
    cases fuel with
    | zero => intro _ _ e; cases e
    | succ fuel =>
      unfold lensLoop
      rw [if_pos ht]
      rcases readSymbol_eq hE.lawful hE.word ha hs with ⟨sym, i1, e1, u1, a1⟩ | ⟨i1, e1, hh, _⟩
      · refine absurd ?_ (hno sym u1)
        rw [List.nil_append] at hb
        exact ⟨_, a1.bits.symm.trans hb⟩
      · refine Tells.step e1 ?_
        exact Tells.corrupt (s := { s with inp := i1 }) hq _ (Adv.refl hs.small) hh fun h => absurd (by simp [noCodeMessages]) h
  | @nothing rest u1 =>
    intro fuel s hs hq hb
    cases fuel with
    | zero => intro _ _ e; cases e
    | succ fuel =>
      unfold lensLoop
      rw [if_pos (by simpa using h0)]
      obtain ⟨i1, e1, a1⟩ := readSymbol_ok hE.lawful hE.word ha hs u1 hb
      refine Tells.step e1 ?_
      simp only []
      have : decodeX E 16 total [] { s with inp := i1 } = .ok (none, { s with inp := i1, out := closeOut (.corrupt i1.inTotal i1.inStream .repeatNothing) s.out }) := by
        unfold decodeX
        rw [if_neg (by omega), if_pos rfl, if_pos (by simp)]
        exact (Go.bind_ok (corruptf_eq _ _)).trans rfl
      exact Tells.closed (a := none) (o := s.out) (x := i1.inStream) (s := { s with inp := i1 }) ((Go.bind_ok this).trans rfl) hq a1 (Hold.refl a1.small.lt) fun _ => rfl
  | @tooMany acc acc' rest sym x ht u1 hx hst hlt =>
    intro fuel s hs hq hb
    cases fuel with
    | zero => intro _ _ e; cases e
    | succ fuel =>
      unfold lensLoop
      rw [if_pos ht]
      rw [List.append_assoc] at hb
      obtain ⟨i1, e1, a1⟩ := readSymbol_ok hE.lawful hE.word ha hs u1 hb
      have s1 := hs.adv a1
      have hb1 : vb i1 = _ := List.append_cancel_left (a1.bits.symm.trans hb)
      obtain ⟨i2, a2, e2⟩ := tell_decodeX hE s1 (used_lt hcl u1) ht hx hst hlt hb1
      have a12 : Adv s.inp _ i2 := a1.trans a2
      refine Tells.step e1 ?_
      exact Tells.closed (a := none) (o := s.out) (x := i2.inStream) (s := { s with inp := i1 }) ((Go.bind_ok e2).trans rfl) hq a12 (Hold.refl a12.small.lt) fun _ => rfl

theorem cl_read (hE : EnvOK E) (hs : Nm e0 s) {hlit hdist hclen : Nat} {cl : List Nat} (hh : ClHeader hlit hdist hclen cl) {r : List Bool}
    (hb : vb s.inp = (clOrder.take hclen).flatMap (fun x => natBits 3 (lenOf cl x)) ++ r) :
    ∃ i1, Adv s.inp ((clOrder.take hclen).flatMap (fun x => natBits 3 (lenOf cl x))) i1 ∧
      readCL E (scramble.take hclen) (List.replicate 19 0) s = .ok (some cl, { s with inp := i1 }) := by
  obtain ⟨_, _, _, _, _, _, c1, c2, c3⟩ := hh
  have hfm : (clOrder.take hclen).flatMap (fun s => natBits 3 (lenOf cl s)) = ((clOrder.take hclen).map (lenOf cl)).flatMap (natBits 3) := by
    rw [List.flatMap_map]
  rw [hfm] at hb ⊢
  obtain ⟨i1, a1, e1⟩ := readCL_ok hE hs (is := clOrder.take hclen) (sX := List.replicate 19 0) (by simp) (by
    intro v hv
    obtain ⟨x, hx, rfl⟩ := List.mem_map.1 hv
    have : x < 19 := order_lt x (List.mem_of_mem_take hx)
    unfold lenOf
    rw [List.getD_eq_getElem?_getD, List.getElem?_eq_getElem (by omega)]
    exact c2 _ (List.getElem_mem _)) hb
  rw [cl_back c1 c3] at e1
  exact ⟨i1, a1, e1⟩

theorem rle_read (hE : EnvOK E) (hs : Nm e0 s) {cl : List Nat} (ha : E.L.accepts cl = true) (hcl : cl.length = 19) {rle : List (Nat × Nat)} {lens : List Nat} {total : Nat} {r : List Bool}
    (q1 : ∀ p ∈ rle, Used cl p.1 ∧ p.2 < 2 ^ clExtra p.1) (q2 : clExpand [] rle = some lens) (q3 : lens.length = total) (hb : vb s.inp = rleBits cl rle ++ r) :
    ∃ i', Adv s.inp (rleBits cl rle) i' ∧ lensStart E cl total s = .ok (some lens, { s with inp := i' }) := by
  refine lensLoop_ok hE ha hcl rle (s.inp.bits + 1) (s := s) hs q1 q2 q3 hb ?_
  have e3 : rle.length ≤ (rleBits cl rle).length := by
    unfold rleBits
    clear hb q2
    revert q1
    intro q1
    induction rle with
    | nil => simp
    | cons p l ih =>
      have u := (q1 p (by simp)).1
      have := ih fun p hp => q1 p (by simp [hp])
      unfold Used at u
      simp only [List.flatMap_cons, List.length_append, List.length_cons, codeBits_length]
      omega
  have := vb_bits s.inp
  rw [hb] at this
  simp only [List.length_append] at this
  omega

theorem counts_read (hE : EnvOK E) (hs : Nm e0 s) (f : Bool) {hlit hdist hclen : Nat} (h1 : 257 ≤ hlit) (h2 : hlit ≤ 288) (h3 : 1 ≤ hdist) (h4 : hdist ≤ 32) (h5 : 4 ≤ hclen) (h6 : hclen ≤ 19)
    {r : List Bool} (hb : vb s.inp = dynCounts hlit hdist hclen ++ r) :
    ∃ i1, Adv s.inp (dynCounts hlit hdist hclen) i1 ∧
      readDynamicTrees E f s = (do checkCounts hlit hdist; treesRest E f hlit hdist hclen : Go RState (Option (List Nat × List Nat))) { s with inp := i1 } := by
  have hbits : dynCounts hlit hdist hclen = natBits 14 ((hlit - 257) + 32 * (hdist - 1) + 1024 * (hclen - 4)) := by
    rw [split14]
    rw [show (hlit - 257 + 32 * (hdist - 1) + 1024 * (hclen - 4)) % 32 = hlit - 257 by omega,
      show (hlit - 257 + 32 * (hdist - 1) + 1024 * (hclen - 4)) / 32 % 32 = hdist - 1 by omega,
      show (hlit - 257 + 32 * (hdist - 1) + 1024 * (hclen - 4)) / 1024 % 16 = hclen - 4 by omega]
    rfl
  generalize hvv : (hlit - 257) + 32 * (hdist - 1) + 1024 * (hclen - 4) = v at hbits
  rw [hbits] at hb ⊢
  rw [trees_eq]
  obtain ⟨i1, a1, e1⟩ := needBits_ok hE.word hs (none : Option (List Nat × List Nat)) (n := 14) (by omega) (fun out => do
    checkCounts (257 + (out &&& 0x1f)) (1 + ((out >>> 5) &&& 0x1f))
    treesRest E f (257 + (out &&& 0x1f)) (1 + ((out >>> 5) &&& 0x1f)) (4 + ((out >>> 10) &&& 0x0f))) (v := v) (by omega) hb
  refine ⟨i1, a1, ?_⟩
  rw [e1, and31, and31, and15, Nat.shiftRight_eq_div_pow, Nat.shiftRight_eq_div_pow]
  rw [show 257 + v % 32 = hlit by omega, show 1 + v / 2 ^ 5 % 32 = hdist by omega, show 4 + v / 2 ^ 10 % 16 = hclen by omega]

theorem tell_trees (hE : EnvOK E) (he : NotC e0) (hs : Nm e0 s) (hq : Quiet s.out) (f : Bool) {rest : List Bool} (hw : TreesWrong (Env.ok E) m bits rest) (hb : vb s.inp = bits ++ rest) :
    Tells s.inp (readDynamicTrees E f) s m bits := by
  have bad : ∀ (hlit hdist hclen : Nat), 257 ≤ hlit → hlit ≤ 288 → 1 ≤ hdist → hdist ≤ 32 → 4 ≤ hclen → hclen ≤ 19 → ¬ (hlit ≤ 286 ∧ hdist ≤ 30) →
      (∀ m', ((286 < hlit ∧ m' = .hlit hlit 286) ∨ (hlit ≤ 286 ∧ 30 < hdist ∧ m' = .hdist hdist 30)) → m' = m) → bits = dynCounts hlit hdist hclen → Tells s.inp (readDynamicTrees E f) s m bits := by
    intro hlit hdist hclen h1 h2 h3 h4 h5 h6 hc hm hbits
    rw [hbits] at hb ⊢
    obtain ⟨i1, a1, e1⟩ := counts_read hE hs f h1 h2 h3 h4 h5 h6 hb
    refine Tells.of_eq e1 ?_
    obtain ⟨s1, m', e2, k1, k2, k3⟩ := counts_first (s := { s with inp := i1 }) hc hq
    have := hm m' k3
    subst this
    refine Tells.step e2 fun a s' e => ?_
    have k := keep_rest he f _ _ _ _ _ _ e (by rw [k1]; exact (hs.adv a1).err)
    exact ⟨i1, i1, _, a1, Hold.refl a1.small.lt, fun _ => rfl, k.first _ k2⟩
  -- the code length code
  have cl : ∀ {hlit hdist hclen : Nat} {cl : List Nat} {bits2 : List Bool}, ClHeader hlit hdist hclen cl → bits = clBits hlit hdist hclen cl ++ bits2 →
      (∀ i2, Nm e0 { s with inp := i2 } → vb i2 = bits2 ++ rest → Tells i2 (if !E.L.accepts cl then do
        corruptf .codeLenCode
        pure none
      else lensStart E cl (hlit + hdist) >>= fun y => match y with
        | none => pure none
        | some lens => do
          let sLL := padTo physicalNumLLCodes ((lens.take hlit).take physicalNumLLCodes)
          let sD := padTo physicalNumDCodes ((lens.drop hlit).take physicalNumDCodes)
          if !E.L.accepts sLL then do
            corruptf .litLenCode
            pure none
          else if !E.L.accepts sD then do
            corruptf .distCode
            pure none
          else do
            sendEvent (.blockTrees .dynamic f { codeCount := hclen, llCount := hlit, dCount := hdist, codeSizes := cl, ll := sLL, d := sD })
            pure (some (sLL, sD)) : Go RState (Option (List Nat × List Nat))) { s with inp := i2 } m bits2) →
      Tells s.inp (readDynamicTrees E f) s m bits := by
    intro hlit hdist hclen cl bits2 hh hbits hk
    rw [hbits] at hb ⊢
    unfold clBits at hb ⊢
    simp only [List.append_assoc] at hb
    obtain ⟨h1, h2, h3, h4, h5, h6, _⟩ := id hh
    obtain ⟨i1, a1, e1⟩ := counts_read hE hs f h1 (by omega) h3 (by omega) h5 h6 hb
    have hb1 : vb i1 = _ := List.append_cancel_left (a1.bits.symm.trans hb)
    obtain ⟨i2, a2, e2⟩ := cl_read hE (hs.adv a1) hh hb1
    have hb2 : vb i2 = _ := List.append_cancel_left (a2.bits.symm.trans hb1)
    refine Tells.of_eq e1 (Tells.step (checkCounts_ok h2 h4 _) ?_)
    refine Tells.after (a1.trans a2) ?_
    unfold treesRest
    exact Tells.step e2 (hk i2 ((hs.adv a1).adv a2) hb2)
  have hx : ∀ {hd : DynHeader}, ClHeader hd.hlit hd.hdist hd.hclen hd.cl → Env.ok E hd.cl → (∀ p ∈ hd.rle, Used hd.cl p.1 ∧ p.2 < 2 ^ clExtra p.1) →
      clExpand [] hd.rle = some hd.lens → hd.lens.length = hd.hlit + hd.hdist → bits = hd.bits →
      (∀ i3, Adv i3 [] i3 → Tells i3 (if !E.L.accepts hd.ll then do
            corruptf .litLenCode
            pure none
          else if !E.L.accepts hd.d then do
            corruptf .distCode
            pure none
          else do
            sendEvent (.blockTrees .dynamic f { codeCount := hd.hclen, llCount := hd.hlit, dCount := hd.hdist, codeSizes := hd.cl, ll := hd.ll, d := hd.d })
            pure (some (hd.ll, hd.d)) : Go RState (Option (List Nat × List Nat))) { s with inp := i3 } m []) → Tells s.inp (readDynamicTrees E f) s m bits := by
    intro hd hh ha q1 q2 q3 hbits hk
    refine cl hh (bits2 := rleBits hd.cl hd.rle) (hbits.trans clBits_rle.symm) fun i2 n2 hb2 => ?_
    have ha' : E.L.accepts hd.cl = true := ha
    simp only [ha', Bool.not_true, Bool.false_eq_true, if_false]
    obtain ⟨i3, a3, e3⟩ := rle_read hE (s := { s with inp := i2 }) n2 ha' hh.2.2.2.2.2.2.1 q1 q2 q3 hb2
    have e3 : lensStart E hd.cl (hd.hlit + hd.hdist) { s with inp := i2 } = .ok (some hd.lens, { s with inp := i3 }) := e3
    have := Tells.after a3 (hk i3 (Adv.refl a3.small))
    rw [List.append_nil] at this
    refine Tells.step e3 ?_
    simp only [dyn_ll hh.2.1, dyn_d q3 hh.2.2.2.1]
    exact this
  cases hw with
  | hlit hlit hdist hclen h1 h2 h3 h4 h5 h6 =>
    refine bad hlit hdist hclen (by omega) h2 h3 h4 h5 h6 (by omega) (fun m' h => ?_) rfl
    rcases h with ⟨_, h⟩ | ⟨h, _⟩
    · exact h
    · omega
  | hdist hlit hdist hclen h1 h2 h3 h4 h5 h6 =>
    refine bad hlit hdist hclen (by omega) (by omega) (by omega) h4 h5 h6 (by omega) (fun m' h => ?_) rfl
    rcases h with ⟨h, _⟩ | ⟨_, _, h⟩
    · omega
    · exact h
  | bootstrap hh hno =>
    refine cl hh (bits2 := []) (by simp) fun i2 n2 hb2 => ?_
    rw [Bool.not_eq_true] at hno
    simp only [hno, Bool.not_false, if_true]
    exact Tells.corrupt0 (s := { s with inp := i2 }) hq _ (Adv.refl n2.small)
  | lens hh ha hl =>
    refine cl hh rfl fun i2 n2 hb2 => ?_
    have ha' : E.L.accepts _ = true := ha
    simp only [ha', Bool.not_true, Bool.false_eq_true, if_false]
    refine Tells.bind n2.err (sm_lensStart (c := fr he) _ _).keep (fun y => ?_) (Tells.of_eq (g := lensLoop E _ _ (i2.bits + 1) []) rfl
      (tell_lensLoop hE ha' hh.2.2.2.2.2.2.1 (by have := hh.1; omega) hl _ (s := { s with inp := i2 }) n2 hq hb2))
    cases y with
    | none => exact Keeps.pure (p_pre _) _
    | some y =>
      exact (show Sm (fr he) _ from .ite (Sm2.bind (sm_corruptf _) fun _ => .pure _) (.ite (Sm2.bind (sm_corruptf _) fun _ => .pure _) (Sm2.bind (sm_sendEvent _) fun _ => .pure _))).keep
  | litlen hd hh ha q1 q2 q3 hno =>
    refine hx hh ha q1 q2 q3 rfl fun i3 a3 => ?_
    rw [Bool.not_eq_true] at hno
    simp only [hno, Bool.not_false, if_true]
    exact Tells.corrupt0 (s := { s with inp := i3 }) hq _ a3
  | dist hd hh ha q1 q2 q3 hl hno =>
    refine hx hh ha q1 q2 q3 rfl fun i3 a3 => ?_
    rw [Bool.not_eq_true] at hno
    have hl : E.L.accepts hd.ll = true := hl
    simp only [hl, hno, Bool.not_false, Bool.not_true, Bool.false_eq_true, if_false, if_true]
    exact Tells.corrupt0 (s := { s with inp := i3 }) hq _ a3

end
end Flate.Proof.R.Wrong
