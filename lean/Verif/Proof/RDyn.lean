/-
Reading the header of a dynamic block.
-/
import Verif.Proof.RMono

namespace Flate.Proof.R
open Flate.Spec Flate.Model Flate.Model.Rd

section
variable {E : Env} {e0 : Err} {s : RState}

/-! ### the code length code -/

/-- assign values to places -/
def setAll : List Nat → List Nat → List Nat → List Nat
  | i :: is, v :: vs, l => setAll is vs (l.set i v)
  | _, _, l => l

theorem setAll_length : ∀ (is vs l : List Nat), (setAll is vs l).length = l.length
  | [], _, l => by simp [setAll]
  | _ :: _, [], l => by simp [setAll]
  | i :: is, v :: vs, l => by simp only [setAll]; rw [setAll_length]; simp

theorem setAll_not_mem : ∀ (is vs l : List Nat) {x : Nat}, x ∉ is → (setAll is vs l).getD x 0 = l.getD x 0
  | [], _, l, x, _ => by simp [setAll]
  | _ :: _, [], l, x, _ => by simp [setAll]
  | i :: is, v :: vs, l, x, h => by
    simp only [List.mem_cons, not_or] at h
    simp only [setAll]
    rw [setAll_not_mem is vs _ h.2]
    simp only [List.getD_eq_getElem?_getD, List.getElem?_set]
    rw [if_neg (by omega)]

theorem setAll_map : ∀ (is vs l : List Nat), is.Nodup → (∀ i ∈ is, i < l.length) → vs.length = is.length →
    is.map (fun i => (setAll is vs l).getD i 0) = vs
  | [], [], l, _, _, _ => rfl
  | [], _ :: _, l, _, _, h => by simp at h
  | _ :: _, [], l, _, _, h => by simp at h
  | i :: is, v :: vs, l, hn, hl, hlen => by
    rw [List.nodup_cons] at hn
    simp only [setAll, List.map_cons]
    rw [setAll_not_mem is vs _ hn.1]
    congr 1
    · have := hl i (by simp)
      simp [List.getD_eq_getElem?_getD, List.getElem?_set, this]
    · exact setAll_map is vs _ hn.2 (fun j hj => by simpa using hl j (by simp [hj])) (by simpa using hlen)

theorem readCL_eq (hE : EnvOK E) : ∀ (is sX : List Nat) {s : RState}, Nm e0 s →
    (∃ vs i', vs.length = is.length ∧ (∀ v ∈ vs, v < 8) ∧ Adv s.inp (vs.flatMap (natBits 3)) i' ∧
      readCL E is sX s = .ok (some (setAll is vs sX), { s with inp := i' })) ∨
    ((vb s.inp).length < 3 * is.length ∧ ∃ s', readCL E is sX s = .ok (none, s') ∧ Failed e0 s s')
  | [], sX, s, hs => Or.inl ⟨[], s.inp, rfl, by simp, Adv.refl hs.small, rfl⟩
  | i :: is, sX, s, hs => by
    unfold readCL
    rcases needBits_eq hE.word hs (none : Option (List Nat)) (n := 3) (by omega) (fun out => readCL E is (sX.set i out)) with
      ⟨_, v, i1, h1, a1, e1⟩ | ⟨h1, s', e1, f1⟩
    · rw [e1]
      rcases readCL_eq hE is (sX.set i v) (hs.adv a1) with ⟨vs, i2, g1, g2, g3, g4⟩ | ⟨g1, s', g2, g3⟩
      · left
        refine ⟨v :: vs, i2, by simp [g1], ?_, a1.trans g3, g4⟩
        intro x hx
        rcases List.mem_cons.1 hx with rfl | hx
        · exact h1
        · exact g2 x hx
      · right
        refine ⟨?_, s', g2, g3.step a1.step⟩
        have := congrArg List.length a1.bits
        simp at this g1 ⊢
        omega
    · right
      exact ⟨by simp; omega, s', e1, f1⟩

theorem flatMap3_inj : ∀ {a b : List Nat} {r r' : List Bool}, a.length = b.length → (∀ v ∈ a, v < 8) → (∀ v ∈ b, v < 8) →
    a.flatMap (natBits 3) ++ r = b.flatMap (natBits 3) ++ r' → a = b
  | [], [], _, _, _, _, _, _ => rfl
  | [], _ :: _, _, _, h, _, _, _ => by simp at h
  | _ :: _, [], _, _, h, _, _, _ => by simp at h
  | x :: a, y :: b, r, r', h, ha, hb, he => by
    simp only [List.flatMap_cons, List.append_assoc] at he
    obtain ⟨e1, e2⟩ := List.append_inj he (by simp)
    have := natBits_inj e1 (ha x (by simp)) (hb y (by simp))
    subst this
    rw [flatMap3_inj (by simpa using h) (fun v hv => ha v (by simp [hv])) (fun v hv => hb v (by simp [hv])) e2]

theorem readCL_ok (hE : EnvOK E) (hs : Nm e0 s) {is vs sX : List Nat} {r : List Bool} (hl : vs.length = is.length) (hv : ∀ v ∈ vs, v < 8)
    (hb : vb s.inp = vs.flatMap (natBits 3) ++ r) :
    ∃ i', Adv s.inp (vs.flatMap (natBits 3)) i' ∧ readCL E is sX s = .ok (some (setAll is vs sX), { s with inp := i' }) := by
  rcases readCL_eq hE is sX hs with ⟨ws, i', h1, h2, h3, h4⟩ | ⟨h1, _⟩
  · have : ws = vs := flatMap3_inj (h1.trans hl.symm) h2 hv (h3.bits.symm.trans hb)
    subst this
    exact ⟨i', h3, h4⟩
  · exfalso
    rw [hb] at h1
    have : (vs.flatMap (natBits 3)).length = 3 * vs.length := by
      clear hb hv hl h1
      induction vs with
      | nil => rfl
      | cons v vs ih => simp only [List.flatMap_cons, List.length_append, natBits_length, List.length_cons, ih]; omega
    simp only [List.length_append, this] at h1
    omega

/-! ### the code lengths -/

theorem clStep_grows {acc acc' : List Nat} {sym x : Nat} (h : clStep acc sym x = some acc') : acc.length < acc'.length := by
  unfold clStep at h
  split at h
  · cases h; simp
  · split at h
    · rw [Option.map_eq_some_iff] at h
      obtain ⟨l, _, rfl⟩ := h
      simp; omega
    · split at h
      · cases h; simp; omega
      · split at h
        · cases h; simp; omega
        · cases h

theorem clExpand_grows : ∀ {rle : List (Nat × Nat)} {acc lens : List Nat}, clExpand acc rle = some lens → acc.length + rle.length ≤ lens.length
  | [], acc, lens, h => by simp only [clExpand, Option.some.injEq] at h; subst h; simp
  | (sym, x) :: r, acc, lens, h => by
    simp only [clExpand, Option.bind_eq_some_iff] at h
    obtain ⟨acc', h1, h2⟩ := h
    have := clStep_grows h1
    have := clExpand_grows h2
    simp only [List.length_cons]; omega

theorem last_getD {acc : List Nat} (h : acc.length ≠ 0) : acc.getLast? = some (acc.getD (acc.length - 1) 0) := by
  rw [List.getLast?_eq_getElem?, List.getD_eq_getElem?_getD]
  have : acc.length - 1 < acc.length := by omega
  rw [List.getElem?_eq_getElem this]
  rfl

theorem decodeX_eq (hE : EnvOK E) (hs : Nm e0 s) {sym total : Nat} {acc : List Nat} (h19 : sym < 19) (ht : acc.length < total) :
    (∃ x acc' i', x < 2 ^ clExtra sym ∧ clStep acc sym x = some acc' ∧ acc'.length ≤ total ∧ Adv s.inp (natBits (clExtra sym) x) i' ∧
      decodeX E sym total acc s = .ok (some acc', { s with inp := i' })) ∨
    (∃ s', decodeX E sym total acc s = .ok (none, s') ∧ Failed e0 s s' ∧
      ∀ x r acc', x < 2 ^ clExtra sym → vb s.inp = natBits (clExtra sym) x ++ r → clStep acc sym x = some acc' → ¬ acc'.length ≤ total) := by
  unfold decodeX
  by_cases h16 : sym < 16
  · left
    have : clExtra sym = 0 := by unfold clExtra; rw [if_neg (by omega), if_neg (by omega), if_neg (by omega)]
    rw [this]
    refine ⟨0, acc ++ [sym], s.inp, by simp, by unfold clStep; rw [if_pos h16], by simp; omega, Adv.refl hs.small, ?_⟩
    rw [if_pos h16, if_pos ht]; rfl
  rw [if_neg h16]
  -- the three repeating symbols
  have rep : ∀ (n base val : Nat) (k : Nat → Go RState (Option (List Nat))), n ≤ 7 → clExtra sym = n →
      (∀ x, clStep acc sym x = some (acc ++ List.replicate (base + x) val)) →
      (∀ x, ¬ base + x > total - acc.length → k x = Pure.pure (some (acc ++ List.replicate (base + x) val))) →
      (∀ x, base + x > total - acc.length → k x = (do corruptf (.repeatMany (base + x) (total - acc.length)); Pure.pure none)) →
      (∃ x acc' i', x < 2 ^ clExtra sym ∧ clStep acc sym x = some acc' ∧ acc'.length ≤ total ∧ Adv s.inp (natBits (clExtra sym) x) i' ∧
        needBits E none n k s = .ok (some acc', { s with inp := i' })) ∨
      (∃ s', needBits E none n k s = .ok (none, s') ∧ Failed e0 s s' ∧
        ∀ x r acc', x < 2 ^ clExtra sym → vb s.inp = natBits (clExtra sym) x ++ r → clStep acc sym x = some acc' → ¬ acc'.length ≤ total) := by
    intro n base val k hn hx hst hk1 hk2
    rcases needBits_eq hE.word hs (none : Option (List Nat)) (n := n) (by omega) k with ⟨_, v, i1, h1, a1, e1⟩ | ⟨h1, s', e1, f1⟩
    · rw [e1]
      by_cases hc : base + v > total - acc.length
      · right
        rw [hk2 v hc]
        obtain ⟨s', e2, f2⟩ := corruptf_bind _ (none : Option (List Nat)) { s with inp := i1 } e0
        refine ⟨s', e2, f2.step a1.step, fun x r acc' q1 q2 q3 => ?_⟩
        rw [hx] at q1 q2
        have e3 : natBits n v = natBits n x := by
          have := a1.bits
          rw [q2] at this
          exact (List.append_inj this (by simp)).1.symm
        have := natBits_inj e3 h1 q1
        subst this
        rw [hst] at q3
        cases q3
        simp; omega
      · left
        rw [hx]
        refine ⟨v, _, i1, h1, hst v, ?_, a1, by rw [hk1 v hc]; rfl⟩
        simp; omega
    · right
      refine ⟨s', e1, f1, fun x r acc' q1 q2 q3 => ?_⟩
      rw [hx] at q2
      rw [q2] at h1
      simp at h1
      omega
  by_cases h1 : sym = 16
  · rw [if_pos h1]
    by_cases h0 : acc.length = 0
    · right
      rw [if_pos h0]
      obtain ⟨s', e2, f2⟩ := corruptf_bind .repeatNothing (none : Option (List Nat)) s e0
      refine ⟨s', e2, f2, fun x r acc' q1 q2 q3 => ?_⟩
      have : acc = [] := List.length_eq_zero_iff.1 h0
      subst this
      unfold clStep at q3
      rw [if_neg h16, if_pos h1] at q3
      cases q3
    · rw [if_neg h0]
      refine rep 2 3 (acc.getD (acc.length - 1) 0) _ (by omega) (by unfold clExtra; rw [if_pos h1]) (fun x => ?_) (fun x hc => ?_) (fun x hc => ?_)
      · unfold clStep; rw [if_neg h16, if_pos h1, last_getD h0]; rfl
      · simp only [hc, if_false]
        rw [if_pos (by omega)]
      · simp only [hc, if_true]
  · rw [if_neg h1]
    by_cases h2 : sym = 17
    · rw [if_pos h2]
      refine rep 3 3 0 _ (by omega) (by unfold clExtra; rw [if_neg h1, if_pos h2]) (fun x => ?_) (fun x hc => ?_) (fun x hc => ?_)
      · unfold clStep; rw [if_neg h16, if_neg h1, if_pos h2]
      · simp only [hc, if_false]
      · simp only [hc, if_true]
    · rw [if_neg h2]
      have h3 : sym = 18 := by omega
      rw [if_pos h3]
      refine rep 7 11 0 _ (by omega) (by unfold clExtra; rw [if_neg h1, if_neg h2, if_pos h3]) (fun x => ?_) (fun x hc => ?_) (fun x hc => ?_)
      · unfold clStep; rw [if_neg h16, if_neg h1, if_neg h2, if_pos h3]
      · simp only [hc, if_false]
      · simp only [hc, if_true]

theorem decodeX_ok (hE : EnvOK E) (hs : Nm e0 s) {sym total x : Nat} {acc acc' : List Nat} {r : List Bool} (h19 : sym < 19)
    (hx : x < 2 ^ clExtra sym) (hst : clStep acc sym x = some acc') (ht : acc'.length ≤ total) (hb : vb s.inp = natBits (clExtra sym) x ++ r) :
    ∃ i', Adv s.inp (natBits (clExtra sym) x) i' ∧ decodeX E sym total acc s = .ok (some acc', { s with inp := i' }) := by
  have hg := clStep_grows hst
  rcases decodeX_eq hE hs (total := total) (acc := acc) h19 (by omega) with ⟨y, acc2, i', h1, h2, h3, h4, h5⟩ | ⟨_, _, _, h⟩
  · have e3 : natBits (clExtra sym) y = natBits (clExtra sym) x := by
      have := h4.bits
      rw [hb] at this
      exact (List.append_inj this (by simp)).1.symm
    have := natBits_inj e3 h1 hx
    subst this
    rw [hst] at h2
    cases h2
    exact ⟨i', h4, h5⟩
  · exact absurd ht (h x r acc' hx hb hst)

/-- bits of code length symbols -/
def rleBits (cl : List Nat) (rle : List (Nat × Nat)) : List Bool := rle.flatMap fun p => codeBits cl p.1 ++ natBits (clExtra p.1) p.2

theorem lensLoop_sound (hE : EnvOK E) {cl : List Nat} (ha : E.L.accepts cl = true) (hcl : cl.length = 19) {total : Nat} :
    ∀ (fuel : Nat) (acc : List Nat) {s : RState}, Nm e0 s → acc.length ≤ total → (vb s.inp).length < fuel →
    (∃ rle lens i', (∀ p ∈ rle, Used cl p.1 ∧ p.2 < 2 ^ clExtra p.1) ∧ clExpand acc rle = some lens ∧ lens.length = total ∧
      Adv s.inp (rleBits cl rle) i' ∧ lensLoop E cl total fuel acc s = .ok (some lens, { s with inp := i' })) ∨
    (∃ s', lensLoop E cl total fuel acc s = .ok (none, s') ∧ Failed e0 s s')
  | 0, _, s, _, _, hf => by omega
  | fuel + 1, acc, s, hs, hacc, hf => by
    unfold lensLoop
    by_cases ht : acc.length < total
    · rw [if_pos ht]
      rcases readSymbol_eq hE.lawful hE.word ha hs with ⟨sym, i1, e1, u1, a1⟩ | ⟨i1, e1, hh, _⟩
      · rw [Go.bind_ok e1]
        simp only []
        have h19 : sym < 19 := by
          unfold Used lenOf at u1
          rcases Nat.lt_or_ge sym 19 with h | h
          · exact h
          · rw [List.getD_eq_getElem?_getD, List.getElem?_eq_none (by omega)] at u1; simp at u1
        rcases decodeX_eq hE (hs.adv a1) (total := total) (acc := acc) h19 ht with ⟨x, acc', i2, h1, h2, h3, a2, e2⟩ | ⟨s', e2, f2, _⟩
        · rw [Go.bind_ok e2]
          simp only []
          have hlen : (vb i2).length < fuel := by
            have b1 := congrArg List.length a1.bits
            have b2 := congrArg List.length a2.bits
            simp at b1 b2
            unfold Used at u1
            omega
          rcases lensLoop_sound hE ha hcl fuel acc' ((hs.adv a1).adv a2) h3 hlen with ⟨rle, lens, i3, g1, g2, g3, g4, g5⟩ | ⟨s', g1, g2⟩
          · left
            refine ⟨(sym, x) :: rle, lens, i3, ?_, ?_, g3, ?_, g5⟩
            · intro p hp
              rcases List.mem_cons.1 hp with rfl | hp
              · exact ⟨u1, h1⟩
              · exact g1 p hp
            · simp only [clExpand, h2, Option.bind_some, g2]
            · have := (a1.trans a2).trans g4
              simpa [rleBits] using this
          · right
            exact ⟨s', g1, Failed.step (s := s) g2 (a1.step.trans a2.step)⟩
        · right
          rw [Go.bind_ok e2]
          exact ⟨s', rfl, f2.step a1.step⟩
      · right
        rw [Go.bind_ok e1]
        simp only []
        obtain ⟨s', e2, f2⟩ := corruptf_bind .noCodeLen (none : Option (List Nat)) { s with inp := i1 } e0
        exact ⟨s', e2, f2.step hh.step⟩
    · rw [if_neg ht]
      left
      exact ⟨[], acc, s.inp, by simp, rfl, by omega, Adv.refl hs.small, rfl⟩

theorem lensLoop_ok (hE : EnvOK E) {cl : List Nat} (ha : E.L.accepts cl = true) (hcl : cl.length = 19) {total : Nat} :
    ∀ (rle : List (Nat × Nat)) (fuel : Nat) {acc lens : List Nat} {s : RState} {r : List Bool}, Nm e0 s →
    (∀ p ∈ rle, Used cl p.1 ∧ p.2 < 2 ^ clExtra p.1) → clExpand acc rle = some lens → lens.length = total → vb s.inp = rleBits cl rle ++ r →
    rle.length < fuel →
    ∃ i', Adv s.inp (rleBits cl rle) i' ∧ lensLoop E cl total fuel acc s = .ok (some lens, { s with inp := i' })
  | _, 0, _, _, _, _, _, _, _, _, _, hf => by omega
  | [], fuel + 1, acc, lens, s, r, hs, hv, hx, ht, hb, hf => by
    simp only [clExpand, Option.some.injEq] at hx
    subst hx
    unfold lensLoop
    rw [if_neg (by omega)]
    exact ⟨s.inp, Adv.refl hs.small, rfl⟩
  | (sym, x) :: rle, fuel + 1, acc, lens, s, r, hs, hv, hx, ht, hb, hf => by
    have hgr := clExpand_grows hx
    simp only [clExpand, Option.bind_eq_some_iff] at hx
    obtain ⟨acc', hst, hx⟩ := hx
    have hg := clExpand_grows hx
    obtain ⟨u, hxx⟩ := hv (sym, x) (by simp)
    have h19 : sym < 19 := by
      unfold Used lenOf at u
      rcases Nat.lt_or_ge sym 19 with h | h
      · exact h
      · rw [List.getD_eq_getElem?_getD, List.getElem?_eq_none (by simp only; omega)] at u; simp at u
    unfold lensLoop
    simp only [List.length_cons] at hgr hf
    rw [if_pos (by omega)]
    simp only [rleBits, List.flatMap_cons, List.append_assoc] at hb
    obtain ⟨i1, e1, a1⟩ := readSymbol_ok hE.lawful hE.word ha hs u hb
    have b1 := List.append_cancel_left (a1.bits.symm.trans hb)
    rw [Go.bind_ok e1]
    simp only []
    obtain ⟨i2, a2, e2⟩ := decodeX_ok hE (s := { s with inp := i1 }) (hs.adv a1) (total := total) h19 hxx hst (by omega) b1
    have b2 := List.append_cancel_left (a2.bits.symm.trans b1)
    rw [Go.bind_ok e2]
    simp only []
    obtain ⟨i3, a3, e3⟩ := lensLoop_ok hE ha hcl rle fuel (s := { s with inp := i2 }) ((hs.adv a1).adv a2) (fun p hp => hv p (by simp [hp])) hx ht b2 (by omega)
    refine ⟨i3, ?_, e3⟩
    have := (a1.trans a2).trans a3
    simpa [rleBits] using this

end

end Flate.Proof.R
