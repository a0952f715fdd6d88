/-
The header of a dynamic block.
-/
import Verif.Proof.RBlock

namespace Flate.Proof.R
open Flate.Spec Flate.Model Flate.Model.Rd

/-- `readDynamicTrees` after the counts were checked -/
def treesRest (E : Env) (isFinal : Bool) (numLL numD numX : Nat) : Go RState (Option (List Nat × List Nat)) := do
    match ← readCL E (scramble.take numX) (List.replicate 19 0) with
    | none => pure none
    | some sX =>
      if !E.L.accepts sX then do
        corruptf .codeLenCode
        pure none
      else match ← lensStart E sX (numLL + numD) with
        | none => pure none
        | some lens => do
          let sLL := padTo physicalNumLLCodes ((lens.take numLL).take physicalNumLLCodes)
          let sD := padTo physicalNumDCodes ((lens.drop numLL).take physicalNumDCodes)
          if !E.L.accepts sLL then do
            corruptf .litLenCode
            pure none
          else if !E.L.accepts sD then do
            corruptf .distCode
            pure none
          else do
            sendEvent (.blockTrees .dynamic isFinal { codeCount := numX, llCount := numLL, dCount := numD, codeSizes := sX, ll := sLL, d := sD })
            pure (some (sLL, sD))

theorem trees_eq (E : Env) (f : Bool) : readDynamicTrees E f = needBits E none 14 (fun out => do
    checkCounts (257 + (out &&& 0x1f)) (1 + ((out >>> 5) &&& 0x1f))
    treesRest E f (257 + (out &&& 0x1f)) (1 + ((out >>> 5) &&& 0x1f)) (4 + ((out >>> 10) &&& 0x0f))) := rfl

theorem checkCounts_ok {a b : Nat} (ha : a ≤ 286) (hb : b ≤ 30) (s : RState) : checkCounts a b s = .ok ((), s) := by
  unfold checkCounts logicalNumLLCodes logicalNumDCodes
  simp only []
  rw [if_neg (by omega), if_neg (by omega)]
  rfl

theorem checkCounts_bad {a b : Nat} (h : ¬ (a ≤ 286 ∧ b ≤ 30)) (s : RState) (e0 : Err) : ∃ s', checkCounts a b s = .ok ((), s') ∧ Failed e0 s s' := by
  unfold checkCounts logicalNumLLCodes logicalNumDCodes
  simp only []
  have two : ∀ m m' : Spec.Problem, ∃ s', (do corruptf m; corruptf m' : Go RState Unit) s = .ok ((), s') ∧ Failed e0 s s' := by
    intro m m'
    refine ⟨_, (Go.bind_ok (corruptf_eq m s)).trans (corruptf_eq m' _), s.inp, .corrupt s.inp.inTotal s.inp.inStream m, .refl _, Or.inr ⟨_, _, _, rfl⟩, ?_⟩
    have h := closeOut_set (.corrupt s.inp.inTotal s.inp.inStream m) s.out
    generalize closeOut (.corrupt s.inp.inTotal s.inp.inStream m) s.out = o at h ⊢
    unfold closeOut
    simp only [h, if_true]
  by_cases h1 : a > 286
  · rw [if_pos h1]
    by_cases h2 : b > 30
    · rw [if_pos h2]; exact two _ _
    · rw [if_neg h2]; exact corruptf_bind _ () s e0
  · rw [if_neg h1, if_pos (by omega)]
    exact ⟨_, corruptf_eq _ s, s.inp, _, .refl _, Or.inr ⟨_, _, _, rfl⟩, rfl⟩

section
variable {E : Env} {e0 : Err} {s : RState}

theorem safe_treesRest {b : Bool} {X : Prop} (hE : LibOK E) (f : Bool) (numLL numD numX : Nat) : Safe b X (treesRest E f numLL numD numX) s
    (fun r _ => ∀ ll d, r = some (ll, d) → E.L.accepts ll = true ∧ E.L.accepts d = true) := by
  have hc : ∀ (m : Spec.Problem) (s1 : RState), Safe b X (do corruptf m; Pure.pure (none : Option (List Nat × List Nat))) s1
      (fun r _ => ∀ ll d, r = some (ll, d) → E.L.accepts ll = true ∧ E.L.accepts d = true) :=
    fun m s1 => safe_corrupt_none _ _ fun o m' _ _ h => by cases h
  unfold treesRest
  refine Safe.bind (safe_readCL hE _ _ s) fun r s2 _ _ => ?_
  cases r with
  | none => exact Safe.pure fun _ _ h => by cases h
  | some sX =>
    simp only []
    cases ha : E.L.accepts sX with
    | false => exact hc _ _
    | true =>
      simp only [Bool.not_true, Bool.false_eq_true, if_false]
      refine Safe.bind (safe_lensLoop hE ha _ _ _ s2 (Nat.lt_succ_self _)) fun r s3 _ _ => ?_
      cases r with
      | none => exact Safe.pure fun _ _ h => by cases h
      | some lens =>
        simp only []
        generalize padTo physicalNumLLCodes _ = sLL
        generalize padTo physicalNumDCodes _ = sD
        cases h1 : E.L.accepts sLL with
        | false => exact hc _ _
        | true =>
          simp only [Bool.not_true, Bool.false_eq_true, if_false]
          cases h2 : E.L.accepts sD with
          | false => exact hc _ _
          | true =>
            simp only [Bool.not_true, Bool.false_eq_true, if_false]
            refine Safe.bind (safe_sendEvent _ (Q := fun _ _ => True) fun _ => trivial) fun _ s4 _ _ => ?_
            exact Safe.pure fun _ _ h => by cases h; exact ⟨h1, h2⟩

/-! ### the header's fields -/

theorem split14 (v : Nat) : natBits 14 v = natBits 5 (v % 32) ++ natBits 5 (v / 32 % 32) ++ natBits 4 (v / 1024 % 16) := by
  rw [show (14 : Nat) = 5 + 5 + 4 from rfl, natBits_add, natBits_add]
  rw [← natBits_mod 5 v, ← natBits_mod 5 (v / 2 ^ 5), ← natBits_mod 4 (v / 2 ^ (5 + 5))]

theorem and31 (v : Nat) : v &&& 0x1f = v % 32 := Nat.and_two_pow_sub_one_eq_mod v 5
theorem and15 (v : Nat) : v &&& 0x0f = v % 16 := Nat.and_two_pow_sub_one_eq_mod v 4

theorem setAll_lt {k : Nat} : ∀ (is vs l : List Nat), (∀ v ∈ vs, v < k) → (∀ v ∈ l, v < k) → ∀ v ∈ setAll is vs l, v < k
  | [], _, l, _, h => by simpa [setAll] using h
  | _ :: _, [], l, _, h => by simpa [setAll] using h
  | i :: is, v :: vs, l, h1, h2 => by
    simp only [setAll]
    refine setAll_lt is vs _ (fun x hx => h1 x (by simp [hx])) fun x hx => ?_
    rcases List.mem_or_eq_of_mem_set hx with h | h
    · exact h2 x h
    · rw [h]; exact h1 v (by simp)

theorem scramble_eq : scramble = clOrder := rfl

theorem order_nodup : clOrder.Nodup := by decide
theorem order_lt : ∀ i ∈ clOrder, i < 19 := by decide
theorem order_all : ∀ i < 19, i ∈ clOrder := by decide

theorem take_nodup (n : Nat) : (clOrder.take n).Nodup := order_nodup.sublist (List.take_sublist _ _)

/-- the code length code lengths read are those of a header -/
theorem cl_facts {n : Nat} {vs : List Nat} (hl : vs.length = (clOrder.take n).length) (hv : ∀ v ∈ vs, v < 8) :
    let cl := setAll (clOrder.take n) vs (List.replicate 19 0)
    cl.length = 19 ∧ (∀ l ∈ cl, l < 8) ∧ (∀ x ∈ clOrder.drop n, lenOf cl x = 0) ∧
    (clOrder.take n).flatMap (fun x => natBits 3 (lenOf cl x)) = vs.flatMap (natBits 3) := by
  intro cl
  refine ⟨by simp [cl, setAll_length], setAll_lt _ _ _ hv (by simp), fun x hx => ?_, ?_⟩
  · have hnot : x ∉ clOrder.take n := by
      intro h
      have := order_nodup
      rw [← List.take_append_drop n clOrder] at this
      exact (List.nodup_append.1 this).2.2 x h x hx rfl
    unfold lenOf
    rw [setAll_not_mem _ _ _ hnot]
    rw [List.getD_eq_getElem?_getD, List.getElem?_replicate]
    split <;> rfl
  · have := setAll_map (clOrder.take n) vs (List.replicate 19 0) (take_nodup n)
      (fun i hi => by simpa using order_lt i (List.mem_of_mem_take hi)) hl
    conv => rhs; rw [← this]
    rw [List.flatMap_map]
    rfl

/-- and conversely -/
theorem cl_back {n : Nat} {cl : List Nat} (h19 : cl.length = 19) (hz : ∀ x ∈ clOrder.drop n, lenOf cl x = 0) :
    setAll (clOrder.take n) ((clOrder.take n).map (lenOf cl)) (List.replicate 19 0) = cl := by
  apply List.ext_getElem?
  intro i
  by_cases hi : i < 19
  · have e1 : (setAll (clOrder.take n) ((clOrder.take n).map (lenOf cl)) (List.replicate 19 0)).getD i 0 = cl.getD i 0 := by
      by_cases hm : i ∈ clOrder.take n
      · have := setAll_map (clOrder.take n) ((clOrder.take n).map (lenOf cl)) (List.replicate 19 0) (take_nodup n)
          (fun i hi => by simpa using order_lt i (List.mem_of_mem_take hi)) (by simp)
        exact List.map_inj_left.1 this i hm
      · rw [setAll_not_mem _ _ _ hm]
        have : i ∈ clOrder.drop n := by
          have h := order_all i hi
          rw [← List.take_append_drop n clOrder] at h
          exact (List.mem_append.1 h).resolve_left hm
        have := hz i this
        unfold lenOf at this
        rw [this]
        rw [List.getD_eq_getElem?_getD, List.getElem?_replicate]
        split <;> rfl
    have l1 : i < (setAll (clOrder.take n) ((clOrder.take n).map (lenOf cl)) (List.replicate 19 0)).length := by rw [setAll_length]; simpa using hi
    have l2 : i < cl.length := by omega
    rw [List.getD_eq_getElem?_getD, List.getD_eq_getElem?_getD, List.getElem?_eq_getElem l1, List.getElem?_eq_getElem l2] at e1
    rw [List.getElem?_eq_getElem l1, List.getElem?_eq_getElem l2]
    exact congrArg some e1
  · rw [List.getElem?_eq_none (by rw [setAll_length]; simp; omega), List.getElem?_eq_none (by omega)]

theorem dyn_ll {lens : List Nat} {n : Nat} (h : n ≤ 286) : padTo physicalNumLLCodes ((lens.take n).take physicalNumLLCodes) = padTo 288 (lens.take n) := by
  rw [List.take_take, show min physicalNumLLCodes n = n by unfold physicalNumLLCodes; omega]; rfl

theorem dyn_d {lens : List Nat} {n m : Nat} (hl : lens.length = n + m) (h : m ≤ 30) :
    padTo physicalNumDCodes ((lens.drop n).take physicalNumDCodes) = padTo 32 (lens.drop n) := by
  rw [List.take_of_length_le (by simp [hl, physicalNumDCodes]; omega)]; rfl

theorem treesRest_sound (hE : EnvOK E) (hs : Nm e0 s) (f : Bool) {numLL numD numX : Nat} (h1 : 257 ≤ numLL) (h2 : numLL ≤ 286) (h3 : 1 ≤ numD) (h4 : numD ≤ 30)
    (h5 : 4 ≤ numX) (h6 : numX ≤ 19) :
    (∃ (hd : DynHeader) (tr : Trees) (s' : RState), hd.hlit = numLL ∧ hd.hdist = numD ∧ hd.hclen = numX ∧ hd.Valid (fun l => E.L.accepts l = true) ∧ treesRest E f numLL numD numX s = .ok (some (hd.ll, hd.d), s') ∧
      Ran E s ((clOrder.take numX).flatMap (fun s => natBits 3 (lenOf hd.cl s)) ++ rleBits hd.cl hd.rle) [] [.blockTrees .dynamic f tr] s' ∧ s'.out = s.out) ∨
    (∃ s', treesRest E f numLL numD numX s = .ok (none, s') ∧ Broke E e0 s [] s') := by
  unfold treesRest
  rcases readCL_eq hE (scramble.take numX) (List.replicate 19 0) hs with ⟨vs, i1, g1, g2, a1, e1⟩ | ⟨_, s', e1, f1⟩
  swap
  · right
    exact ⟨s', (Go.bind_ok e1).trans rfl, f1.broke⟩
  rw [Go.bind_ok e1]
  rw [scramble_eq] at g1
  obtain ⟨c1, c2, c3, c4⟩ := cl_facts g1 g2
  rw [scramble_eq]
  generalize setAll (clOrder.take numX) vs (List.replicate 19 0) = cl at c1 c2 c3 c4 ⊢
  have n1 := hs.adv a1
  have hbad : ∀ (m : Spec.Problem) {s1 : RState} {i : Inp}, s1 = { s with inp := i } → RStep s.inp i → ∃ s', (do corruptf m; pure none : Go RState (Option (List Nat × List Nat))) s1 = .ok (none, s') ∧ Broke E e0 s [] s' := by
    intro m s1 i he hr
    subst he
    obtain ⟨s', e, f⟩ := corruptf_bind m (none : Option (List Nat × List Nat)) { s with inp := i } e0
    exact ⟨s', e, (f.step hr).broke⟩
  simp only []
  cases ha : E.L.accepts cl with
  | false => right; simp only [Bool.not_false, if_true]; exact hbad _ rfl a1.step
  | true =>
    simp only [Bool.not_true, Bool.false_eq_true, if_false]
    have hlo := lensLoop_sound hE ha c1 (total := numLL + numD) (i1.bits + 1) [] (s := { s with inp := i1 }) n1 (by simp) (Nat.lt_succ_of_le (vb_bits _))
    rcases hlo with ⟨rle, lens, i2, q1, q2, q3, a2, e2⟩ | ⟨s', e2, f2⟩
    swap
    · right
      exact ⟨s', (Go.bind_ok e2).trans rfl, (Failed.step (s := s) (i := i1) f2 a1.step).broke⟩
    rw [Go.bind_ok (show lensStart E cl (numLL + numD) { s with inp := i1 } = _ from e2)]
    simp only [dyn_ll h2, dyn_d q3 h4]
    have a12 := a1.trans a2
    cases hl : E.L.accepts (padTo 288 (lens.take numLL)) with
    | false => right; simp only [Bool.not_false, if_true]; exact hbad _ rfl a12.step
    | true =>
      simp only [Bool.not_true, Bool.false_eq_true, if_false]
      cases hd : E.L.accepts (padTo 32 (lens.drop numLL)) with
      | false => right; simp only [Bool.not_false, if_true]; exact hbad _ rfl a12.step
      | true =>
        left
        simp only [Bool.not_true, Bool.false_eq_true, if_false]
        refine ⟨⟨numLL, numD, numX, cl, rle, lens⟩, { codeCount := numX, llCount := numLL, dCount := numD, codeSizes := cl, ll := padTo 288 (lens.take numLL), d := padTo 32 (lens.drop numLL) }, _, rfl, rfl, rfl, ⟨h1, h2, h3, h4, h5, h6, c1, c2, c3, q1, q2, q3, ha, hl, hd⟩, rfl, ⟨?_, .refl _ _, by simp [kinds], rfl, rfl, rfl⟩, rfl⟩
        rw [c4]; exact a12

theorem treesRest_ok (hE : EnvOK E) (hs : Nm e0 s) (f : Bool) {hd : DynHeader} (hv : hd.Valid (fun l => E.L.accepts l = true)) {r : List Bool}
    (hb : vb s.inp = (clOrder.take hd.hclen).flatMap (fun s => natBits 3 (lenOf hd.cl s)) ++ rleBits hd.cl hd.rle ++ r) :
    ∃ tr s', treesRest E f hd.hlit hd.hdist hd.hclen s = .ok (some (hd.ll, hd.d), s') ∧
      Ran E s ((clOrder.take hd.hclen).flatMap (fun s => natBits 3 (lenOf hd.cl s)) ++ rleBits hd.cl hd.rle) [] [.blockTrees .dynamic f tr] s' ∧ s'.out = s.out ∧ tr = Trees.mk hd.hclen hd.hlit hd.hdist hd.cl hd.ll hd.d := by
  obtain ⟨h1, h2, h3, h4, h5, h6, c1, c2, c3, q1, q2, q3, ha, hl, hdd⟩ := hv
  have hfm : (clOrder.take hd.hclen).flatMap (fun s => natBits 3 (lenOf hd.cl s)) = ((clOrder.take hd.hclen).map (lenOf hd.cl)).flatMap (natBits 3) := by
    rw [List.flatMap_map]
  rw [hfm] at hb ⊢
  rw [List.append_assoc] at hb
  obtain ⟨i1, a1, e1⟩ := readCL_ok hE hs (is := clOrder.take hd.hclen) (sX := List.replicate 19 0) (by simp) (by
    intro v hv
    obtain ⟨x, hx, rfl⟩ := List.mem_map.1 hv
    have : x < 19 := order_lt x (List.mem_of_mem_take hx)
    unfold lenOf
    rw [List.getD_eq_getElem?_getD, List.getElem?_eq_getElem (by omega)]
    exact c2 _ (List.getElem_mem _)) hb
  rw [cl_back c1 c3] at e1
  have b1 := List.append_cancel_left (a1.bits.symm.trans hb)
  have hlen := clExpand_grows q2
  obtain ⟨i2, a2, e2⟩ := lensLoop_ok hE ha c1 hd.rle (i1.bits + 1) (s := { s with inp := i1 }) (hs.adv a1) q1 q2 q3 b1 (by
    have e3 : hd.rle.length ≤ (rleBits hd.cl hd.rle).length := by
      unfold rleBits
      clear b1 a1 e1 hb q2 hlen
      revert q1
      generalize hd.rle = rle
      intro q1
      induction rle with
      | nil => simp
      | cons p l ih =>
        have u := (q1 p (by simp)).1
        have := ih fun p hp => q1 p (by simp [hp])
        unfold Used at u
        simp only [List.flatMap_cons, List.length_append, List.length_cons, codeBits_length]
        omega
    have := vb_bits i1
    rw [b1] at this
    simp only [List.length_append] at this
    omega)
  obtain ⟨s', ev, rn, _, ro⟩ := ran_event E (s := { s with inp := i2 }) a2.small (.blockTrees .dynamic f { codeCount := hd.hclen, llCount := hd.hlit, dCount := hd.hdist, codeSizes := hd.cl, ll := hd.ll, d := hd.d })
  have r0 : Ran E s _ [] [] { s with inp := i2 } := ⟨a1.trans a2, .refl _ _, by simp [kinds], rfl, rfl, rfl⟩
  refine ⟨_, s', ?_, by simpa using r0.trans rn, ro, rfl⟩
  · unfold treesRest
    rw [scramble_eq, Go.bind_ok e1]
    simp only [ha, Bool.not_true, Bool.false_eq_true, if_false]
    rw [Go.bind_ok (show lensStart E hd.cl (hd.hlit + hd.hdist) { s with inp := i1 } = _ from e2)]
    simp only [dyn_ll h2, dyn_d q3 h4]
    rw [show padTo 288 (hd.lens.take hd.hlit) = hd.ll from rfl, show padTo 32 (hd.lens.drop hd.hlit) = hd.d from rfl]
    simp only [hl, hdd, Bool.not_true, Bool.false_eq_true, if_false]
    exact (Go.bind_ok ev).trans rfl

theorem trees_sound (hE : EnvOK E) (hs : Nm e0 s) (f : Bool) :
    (∃ (hd : DynHeader) (tr : Trees) (s' : RState), hd.Valid (fun l => E.L.accepts l = true) ∧ readDynamicTrees E f s = .ok (some (hd.ll, hd.d), s') ∧
      Ran E s hd.bits [] [.blockTrees .dynamic f tr] s' ∧ s'.out = s.out) ∨
    (∃ r s', readDynamicTrees E f s = .ok (r, s') ∧ Broke E e0 s [] s' ∧ ∀ ll d, r = some (ll, d) → E.L.accepts ll = true ∧ E.L.accepts d = true) := by
  rw [trees_eq]
  rcases needBits_eq hE.word hs (none : Option (List Nat × List Nat)) (n := 14) (by omega) (fun out => do
    checkCounts (257 + (out &&& 0x1f)) (1 + ((out >>> 5) &&& 0x1f))
    treesRest E f (257 + (out &&& 0x1f)) (1 + ((out >>> 5) &&& 0x1f)) (4 + ((out >>> 10) &&& 0x0f))) with ⟨_, v, i1, hv, a1, e1⟩ | ⟨_, s', e1, f1⟩
  swap
  · right; exact ⟨none, s', e1, f1.broke, fun _ _ h => by cases h⟩
  rw [e1]
  have n1 := hs.adv a1
  rw [and31, and31, and15, Nat.shiftRight_eq_div_pow, Nat.shiftRight_eq_div_pow]
  have r1 : (2 : Nat) ^ 5 = 32 := rfl
  have r2 : (2 : Nat) ^ 10 = 1024 := rfl
  rw [r1, r2]
  by_cases hc : 257 + v % 32 ≤ 286 ∧ 1 + v / 32 % 32 ≤ 30
  · rw [Go.bind_ok (checkCounts_ok hc.1 hc.2 _)]
    rcases treesRest_sound hE n1 f (numLL := 257 + v % 32) (numD := 1 + v / 32 % 32) (numX := 4 + v / 1024 % 16) (by omega) hc.1 (by omega) hc.2 (by omega) (by omega) with
      ⟨hd, tr, s', q1, q2, q3, q4, q5, q6, q7⟩ | ⟨s', q1, q2⟩
    · left
      refine ⟨hd, tr, s', q4, q5, ?_, q7⟩
      have : Ran E s (natBits 14 v) [] [] { s with inp := i1 } := ⟨a1, .refl _ _, by simp [kinds], rfl, rfl, rfl⟩
      have := this.trans q6
      rw [split14] at this
      unfold DynHeader.bits
      rw [q1, q2, q3, show 257 + v % 32 - 257 = v % 32 by omega, show 1 + v / 32 % 32 - 1 = v / 32 % 32 by omega, show 4 + v / 1024 % 16 - 4 = v / 1024 % 16 by omega]
      simpa [rleBits] using this
    · right
      refine ⟨none, s', q1, ?_, fun _ _ h => by cases h⟩
      have : Ran E s (natBits 14 v) [] [] { s with inp := i1 } := ⟨a1, .refl _ _, by simp [kinds], rfl, rfl, rfl⟩
      exact q2.after this
  · right
    obtain ⟨s1, e2, f2⟩ := checkCounts_bad hc { s with inp := i1 } e0
    rw [Go.bind_ok e2]
    rcases (safe_treesRest (b := true) (X := False) (s := s1) ⟨hE.lawful, hE.word⟩ f (257 + v % 32) (1 + v / 32 % 32) (4 + v / 1024 % 16)).cases with ⟨r, s', e3, m3, q3⟩ | ⟨_, x⟩
    · exact ⟨r, s', e3, (f2.step a1.step).broke.later m3.past, q3⟩
    · exact x.elim

theorem trees_ok (hE : EnvOK E) (hs : Nm e0 s) (f : Bool) {hd : DynHeader} (hv : hd.Valid (fun l => E.L.accepts l = true)) {r : List Bool}
    (hb : vb s.inp = hd.bits ++ r) :
    ∃ tr s', readDynamicTrees E f s = .ok (some (hd.ll, hd.d), s') ∧ Ran E s hd.bits [] [.blockTrees .dynamic f tr] s' ∧ s'.out = s.out ∧ tr = Trees.mk hd.hclen hd.hlit hd.hdist hd.cl hd.ll hd.d := by
  obtain ⟨h1, h2, h3, h4, h5, h6, _⟩ := id hv
  have hbits : hd.bits = natBits 14 ((hd.hlit - 257) + 32 * (hd.hdist - 1) + 1024 * (hd.hclen - 4)) ++
      ((clOrder.take hd.hclen).flatMap (fun s => natBits 3 (lenOf hd.cl s)) ++ rleBits hd.cl hd.rle) := by
    rw [split14]
    rw [show (hd.hlit - 257 + 32 * (hd.hdist - 1) + 1024 * (hd.hclen - 4)) % 32 = hd.hlit - 257 by omega,
      show (hd.hlit - 257 + 32 * (hd.hdist - 1) + 1024 * (hd.hclen - 4)) / 32 % 32 = hd.hdist - 1 by omega,
      show (hd.hlit - 257 + 32 * (hd.hdist - 1) + 1024 * (hd.hclen - 4)) / 1024 % 16 = hd.hclen - 4 by omega]
    simp [DynHeader.bits, rleBits]
  generalize hvv : (hd.hlit - 257) + 32 * (hd.hdist - 1) + 1024 * (hd.hclen - 4) = v at hbits
  rw [hbits, List.append_assoc] at hb
  rw [trees_eq]
  obtain ⟨i1, a1, e1⟩ := needBits_ok hE.word hs (none : Option (List Nat × List Nat)) (n := 14) (by omega) (fun out => do
    checkCounts (257 + (out &&& 0x1f)) (1 + ((out >>> 5) &&& 0x1f))
    treesRest E f (257 + (out &&& 0x1f)) (1 + ((out >>> 5) &&& 0x1f)) (4 + ((out >>> 10) &&& 0x0f))) (v := v) (by omega) hb
  have b1 := List.append_cancel_left (a1.bits.symm.trans hb)
  rw [e1, and31, and31, and15, Nat.shiftRight_eq_div_pow, Nat.shiftRight_eq_div_pow]
  rw [show 257 + v % 32 = hd.hlit by omega, show 1 + v / 2 ^ 5 % 32 = hd.hdist by omega, show 4 + v / 2 ^ 10 % 16 = hd.hclen by omega]
  rw [Go.bind_ok (checkCounts_ok h2 h4 _)]
  obtain ⟨tr, s', e2, r2, o2, t2⟩ := treesRest_ok hE (hs.adv a1) f hv b1
  refine ⟨tr, s', e2, ?_, o2, t2⟩
  have : Ran E s (natBits 14 v) [] [] { s with inp := i1 } := ⟨a1, .refl _ _, by simp [kinds], rfl, rfl, rfl⟩
  rw [hbits]
  exact this.trans r2

end
end Flate.Proof.R
