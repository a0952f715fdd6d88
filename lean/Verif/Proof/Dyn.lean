/-
The dynamic block writer and the choice of block type.
-/
import Verif.Proof.Cmd

namespace Flate.Proof
open Flate.Spec Flate.Model

/-- commands of a dynamic block -/
def dynCmds (hd : DynHeader) (is : List Item) (final : Bool) : List Cmd :=
  [.ev (.blockBegin .dynamic final), .bits 3 (if final then 5 else 4), .bits 5 (hd.hlit - 257),
   .bits 5 (hd.hdist - 1), .bits 4 (hd.hclen - 4)] ++
  ((List.range hd.hclen).map fun i => .bits 3 (lenOf hd.cl (clOrder.getD i 0))) ++
  hd.rle.flatMap (xCmds hd.cl) ++
  [.ev (.blockTrees .dynamic final (Trees.mk hd.hclen hd.hlit hd.hdist hd.cl hd.ll hd.d))] ++
  dataCmds hd.ll hd.d is ++ [.ev (.blockEnd .dynamic final)]

theorem trimX_spec (sX : List Nat) (n : Nat) (h4 : 4 ≤ n) (hn : n ≤ 19) :
    4 ≤ trimX sX n ∧ trimX sX n ≤ n ∧
    ∀ k, trimX sX n ≤ k → k < n → sX.getD (scramble.getD k 0) 0 = 0 := by
  induction n with
  | zero => omega
  | succ n ih =>
    unfold trimX
    split
    · rename_i h
      obtain ⟨a, b, c⟩ := ih (by omega) (by omega)
      refine ⟨a, by omega, fun k h1 h2 => ?_⟩
      by_cases hk : k = n
      · subst hk; exact h.2
      · exact c k h1 (by omega)
    · exact ⟨h4, by omega, fun k h1 h2 => by omega⟩

theorem padTo_take {n m : Nat} {l : List Nat} (hl : l.length = n) (hm : m ≤ n)
    (hz : sizesAllZeroes (l.drop m) = true) : padTo n (l.take m) = l := by
  unfold padTo
  have hr : l.drop m = List.replicate (n - m) 0 := by
    unfold sizesAllZeroes at hz
    simp only [List.all_eq_true, beq_iff_eq] at hz
    apply List.eq_replicate_of_mem hz |>.trans
    simp [hl]
  have hlen : (l.take m).length = m := by simp; omega
  rw [hlen, ← hr, List.take_append_drop]

/-- What the Writer knows about the two codes of a dynamic block. -/
structure CodesOK (L : HuffLib) (sLL sD : List Nat) : Prop where
  lenLL : sLL.length = 288
  lenD : sD.length = 32
  accLL : L.accepts sLL = true
  accD : L.accepts sD = true
  stop : Used sLL 256
  highLL : ∀ s, 286 ≤ s → lenOf sLL s = 0
  highD : ∀ s, 30 ≤ s → lenOf sD s = 0

theorem accepts_lt {L : HuffLib} (hL : L.Lawful) {l : List Nat} (h : L.accepts l = true) : ∀ s ∈ l, s < 16 := by
  intro s hs
  have := (hL.accepts_code h).1 s hs
  omega

theorem writeDynamicBlock_eq {L : HuffLib} (hL : L.Lawful) {sLL sD : List Nat} (hc : CodesOK L sLL sD) :
    ∃ hd : DynHeader, hd.Valid (fun l => L.accepts l = true) ∧ hd.ll = sLL ∧ hd.d = sD ∧
      ∀ {σ : Type} (bw : BitWriter σ) {ts : List Token} {is : List Item} (_ : ToksAre ts is) (final : Bool),
        writeDynamicBlock bw L sLL sD ts final = run bw (dynCmds hd is final) := by
  have mLL : MinOK sLL 257 := by
    refine ⟨by rw [hc.lenLL]; omega, fun i hi hz => ?_⟩
    exfalso
    have := (allZero_iff _).1 hz (256 - i)
    rw [List.getD_eq_getElem?_getD, List.getElem?_drop, show i + (256 - i) = 256 by omega,
      ← List.getD_eq_getElem?_getD] at this
    have h := hc.stop
    unfold Used lenOf at h
    omega
  have mD : MinOK sD 1 := ⟨by rw [hc.lenD]; omega, fun i hi _ => by omega⟩
  obtain ⟨ts1, nLL, e1, a1, a2, a3, a4, a5, a6⟩ := encodeTreeTokens_spec mLL (accepts_lt hL hc.accLL) []
  obtain ⟨ts2, nD, e2, b1, b2, b3, b4, b5, b6⟩ := encodeTreeTokens_spec mD (accepts_lt hL hc.accD) ([] ++ ts1)
  have nLL286 : nLL ≤ 286 := by
    rcases a6 with h | h
    · omega
    · rcases Nat.lt_or_ge 286 nLL with hh | hh
      · exact absurd (hc.highLL (nLL - 1) (by omega)) h
      · exact hh
  have nD30 : nD ≤ 30 := by
    rcases b6 with h | h
    · omega
    · rcases Nat.lt_or_ge 30 nD with hh | hh
      · exact absurd (hc.highD (nD - 1) (by omega)) h
      · exact hh
  have hx : ∀ t ∈ ts1 ++ ts2, XTok t := by
    intro t ht
    rcases List.mem_append.1 ht with h | h
    · exact a3 t h
    · exact b3 t h
  obtain ⟨fX, f1, f2, _, f4⟩ := studyLoopX_ok hx (List.replicate 19 0) (by simp)
  have hs := hL.sizes_length (by omega) f2
  obtain ⟨x1, x2, x3⟩ := trimX_spec (L.sizes 19 fX) 19 (by omega) (by omega)
  refine ⟨{ hlit := nLL, hdist := nD, hclen := trimX (L.sizes 19 fX) 19, cl := L.sizes 19 fX,
            rle := (ts1 ++ ts2).map xPair, lens := sLL.take nLL ++ sD.take nD }, ?_, ?_, ?_, ?_⟩
  · have hlenLL : (sLL.take nLL).length = nLL := by rw [List.length_take, hc.lenLL]; omega
    have hll : padTo 288 (sLL.take nLL) = sLL := padTo_take hc.lenLL (by rw [hc.lenLL] at a2; exact a2) a5
    have hd : padTo 32 (sD.take nD) = sD := padTo_take hc.lenD (by rw [hc.lenD] at b2; exact b2) b5
    refine ⟨a1, nLL286, b1, nD30, x1, x2, hs, ?_, ?_, ?_, ?_, ?_, hL.sizes_accepts (by omega) f2, ?_, ?_⟩
    · intro l hl
      have := hL.sizes_cl f2 l hl
      omega
    · intro s hsm
      obtain ⟨k, hk, rfl⟩ := List.getElem_of_mem hsm
      rw [List.getElem_drop]
      simp only [List.length_drop] at hk
      have hk2 : trimX (L.sizes 19 fX) 19 + k < 19 := by
        have : clOrder.length = 19 := rfl
        omega
      have := x3 (trimX (L.sizes 19 fX) 19 + k) (by omega) hk2
      have hsc : scramble.getD (trimX (L.sizes 19 fX) 19 + k) 0 = clOrder[trimX (L.sizes 19 fX) 19 + k] := by
        show clOrder.getD _ 0 = _
        exact List.getD_eq_getElem _ _ hk2
      rw [hsc] at this
      exact this
    · intro p hp
      obtain ⟨t, ht, rfl⟩ := List.mem_map.1 hp
      exact ⟨hL.sizes_used (by omega) f2 (f4 t ht), (xTok_pair (hx t ht)).2.2⟩
    · show clExpand [] ((ts1 ++ ts2).map xPair) = some (sLL.take nLL ++ sD.take nD)
      rw [List.map_append, clExpand_append, a4 []]
      exact b4 _
    · show (sLL.take nLL ++ sD.take nD).length = nLL + nD
      rw [List.length_append, hlenLL, List.length_take, hc.lenD]
      have : nD ≤ 32 := by rw [hc.lenD] at b2; exact b2
      omega
    · show L.accepts (padTo 288 ((sLL.take nLL ++ sD.take nD).take nLL)) = true
      rw [List.take_append_of_le_length (by omega), List.take_of_length_le (by omega), hll]
      exact hc.accLL
    · show L.accepts (padTo 32 ((sLL.take nLL ++ sD.take nD).drop nLL)) = true
      rw [List.drop_append_of_le_length (by omega), List.drop_of_length_le (by omega), List.nil_append, hd]
      exact hc.accD
  · show padTo 288 ((sLL.take nLL ++ sD.take nD).take nLL) = sLL
    have hlenLL : (sLL.take nLL).length = nLL := by rw [List.length_take, hc.lenLL]; omega
    rw [List.take_append_of_le_length (by omega), List.take_of_length_le (by omega)]
    exact padTo_take hc.lenLL (by rw [hc.lenLL] at a2; exact a2) a5
  · show padTo 32 ((sLL.take nLL ++ sD.take nD).drop nLL) = sD
    have hlenLL : (sLL.take nLL).length = nLL := by rw [List.length_take, hc.lenLL]; omega
    rw [List.drop_append_of_le_length (by omega), List.drop_of_length_le (by omega), List.nil_append]
    exact padTo_take hc.lenD (by rw [hc.lenD] at b2; exact b2) b5
  · intro σ bw ts is hts final
    have hlenLL : (sLL.take nLL).length = nLL := by rw [List.length_take, hc.lenLL]; omega
    have hll : padTo 288 ((sLL.take nLL ++ sD.take nD).take nLL) = sLL := by
      rw [List.take_append_of_le_length (by omega), List.take_of_length_le (by omega)]
      exact padTo_take hc.lenLL (by rw [hc.lenLL] at a2; exact a2) a5
    have hd : padTo 32 ((sLL.take nLL ++ sD.take nD).drop nLL) = sD := by
      rw [List.drop_append_of_le_length (by omega), List.drop_of_length_le (by omega), List.nil_append]
      exact padTo_take hc.lenD (by rw [hc.lenD] at b2; exact b2) b5
    unfold writeDynamicBlock dynCmds
    rw [assertStop_eq hts]
    have hfx : studyFrequenciesX ([] ++ ts1 ++ ts2) = .ok fX := by
      rw [List.nil_append]; exact f1
    have hsc : ∀ i, scramble.getD i 0 = clOrder.getD i 0 := fun _ => rfl
    simp only [Go.pure_bind, e1, e2, lift_ok, hfx, DynHeader.ll, DynHeader.d, hll, hd,
      encodeAll_eq bw _ _ hts, encodeX_all bw _ (show ∀ t ∈ [] ++ ts1 ++ ts2, XTok t by simpa using hx),
      forAll_bits, run_append, run, exec, chk_assoc, chk_true_right, hsc, physicalNumXCodes]
    rfl

/-! ### frequencies -/

/-- symbols of an item: literal/length, distance -/
def itemLL : Item → Nat
  | .lit b => b.toNat
  | .ref li _ _ _ => 257 + li
def itemD : Item → Option Nat
  | .lit _ => none
  | .ref _ _ di _ => some di

theorem bump_facts {f : List Nat} {s : Nat} (h : s < f.length) :
    ∃ f', bump f s = .ok f' ∧ f'.length = f.length ∧ (∀ k, f.getD k 0 ≤ f'.getD k 0) ∧ 0 < f'.getD s 0 ∧
      ∀ k, k ≠ s → f'.getD k 0 = f.getD k 0 := by
  refine ⟨f.modify s (· + 1), by simp [bump, h], by simp, ?_, ?_, ?_⟩
  · intro k
    simp only [List.getD_eq_getElem?_getD, List.getElem?_modify]
    by_cases hs : s = k
    · simp only [hs, if_true]; cases f[k]? <;> simp
    · simp [hs]
  · simp only [List.getD_eq_getElem?_getD, List.getElem?_modify, if_true]
    rw [List.getElem?_eq_getElem h]; simp
  · intro k hk
    simp only [List.getD_eq_getElem?_getD, List.getElem?_modify]
    simp [Ne.symm hk]

theorem tokIs_syms {t : Token} {i : Item} (h : TokIs t i) :
    (∃ a b, t.symbolLL = .ok (some (itemLL i), a, b)) ∧ (∃ a b, t.symbolD = .ok (itemD i, a, b)) ∧
    itemLL i < 286 ∧ itemLL i ≠ 256 ∧ ∀ d, itemD i = some d → d < 30 := by
  cases h with
  | lit b =>
    have := b.toNat_lt
    refine ⟨⟨_, _, symbolLL_lit b⟩, ⟨0, 0, symbolD_lit _⟩, ?_, ?_, ?_⟩
    · simp [itemLL]; omega
    · simp [itemLL]; omega
    · simp [itemD]
  | ref hl hd h1 h2 h3 h4 h5 h6 =>
    refine ⟨⟨_, _, hl⟩, ⟨_, _, hd⟩, ?_, ?_, ?_⟩
    · simp [itemLL]; omega
    · simp [itemLL]; omega
    · simp [itemD]; omega

theorem studyLoopLLD_ok {ts : List Token} {is : List Item} (h : ToksAre ts is) (fLL fD : List Nat)
    (h1 : fLL.length = 288) (h2 : fD.length = 32) (z1 : ∀ k, 286 ≤ k → fLL.getD k 0 = 0)
    (z2 : ∀ k, 30 ≤ k → fD.getD k 0 = 0) :
    ∃ gLL gD, studyLoopLLD ts fLL fD = .ok (gLL, gD) ∧ gLL.length = 288 ∧ gD.length = 32 ∧
      (∀ k, fLL.getD k 0 ≤ gLL.getD k 0) ∧ (∀ k, fD.getD k 0 ≤ gD.getD k 0) ∧
      (∀ k, 286 ≤ k → gLL.getD k 0 = 0) ∧ (∀ k, 30 ≤ k → gD.getD k 0 = 0) ∧ 0 < gLL.getD 256 0 ∧
      ∀ i ∈ is, 0 < gLL.getD (itemLL i) 0 ∧ ∀ d, itemD i = some d → 0 < gD.getD d 0 := by
  induction h generalizing fLL fD with
  | stop =>
    obtain ⟨f', b1, b2, b3, b4, b5⟩ := bump_facts (f := fLL) (s := 256) (by omega)
    refine ⟨f', fD, ?_, by omega, h2, b3, fun _ => Nat.le_refl _, ?_, z2, b4, by simp⟩
    · unfold studyLoopLLD
      rw [symbolLL_stop]
      simp only [makeStopToken, symbolD_lit]
      show (bump fLL 256 >>= _) = _
      rw [b1]; rfl
    · intro k hk; rw [b5 k (by omega)]; exact z1 k hk
  | @cons t i ts is ht _ ih =>
    obtain ⟨⟨a, b, e1⟩, ⟨c, d, e2⟩, l1, l2, l3⟩ := tokIs_syms ht
    obtain ⟨f', b1, b2, b3, b4, b5⟩ := bump_facts (f := fLL) (s := itemLL i) (by omega)
    cases hd : itemD i with
    | none =>
      obtain ⟨gLL, gD, c1, c2, c3, c4, c5, c6, c7, c8, c9⟩ := ih f' fD (by omega) h2
        (fun k hk => by rw [b5 k (by omega)]; exact z1 k hk) z2
      refine ⟨gLL, gD, ?_, c2, c3, fun k => Nat.le_trans (b3 k) (c4 k), c5, c6, c7, c8, ?_⟩
      · unfold studyLoopLLD
        rw [e1, e2, hd]
        show (bump fLL (itemLL i) >>= _) = _
        rw [b1]; exact c1
      · intro j hj
        rcases List.mem_cons.1 hj with rfl | hj
        · exact ⟨Nat.lt_of_lt_of_le b4 (c4 _), by simp [hd]⟩
        · exact c9 j hj
    | some sd =>
      have hsd := l3 sd hd
      obtain ⟨g', d1, d2, d3, d4, d5⟩ := bump_facts (f := fD) (s := sd) (by omega)
      obtain ⟨gLL, gD, c1, c2, c3, c4, c5, c6, c7, c8, c9⟩ := ih f' g' (by omega) (by omega)
        (fun k hk => by rw [b5 k (by omega)]; exact z1 k hk)
        (fun k hk => by rw [d5 k (by omega)]; exact z2 k hk)
      refine ⟨gLL, gD, ?_, c2, c3, fun k => Nat.le_trans (b3 k) (c4 k),
        fun k => Nat.le_trans (d3 k) (c5 k), c6, c7, c8, ?_⟩
      · unfold studyLoopLLD
        rw [e1, e2, hd]
        show (bump fLL (itemLL i) >>= _) = _
        rw [b1]
        show (bump fD sd >>= _) = _
        rw [d1]; exact c1
      · intro j hj
        rcases List.mem_cons.1 hj with rfl | hj
        · refine ⟨Nat.lt_of_lt_of_le b4 (c4 _), ?_⟩
          intro d' hd'
          rw [hd] at hd'
          cases hd'
          exact Nat.lt_of_lt_of_le d4 (c5 _)
        · exact c9 j hj

/-- an item which comes from a token -/
def ItemRange : Item → Prop
  | .lit _ => True
  | .ref li lx di dx => li < 29 ∧ lx < 2 ^ lenExtra.getD li 0 ∧ di < 30 ∧ dx < 2 ^ distExtra.getD di 0

theorem toksAre_range {ts : List Token} {is : List Item} (h : ToksAre ts is) : ∀ i ∈ is, ItemRange i := by
  induction h with
  | stop => simp
  | cons ht _ ih =>
    intro i hi
    rcases List.mem_cons.1 hi with rfl | hi
    · cases ht with
      | lit b => trivial
      | ref _ _ h1 h2 h3 h4 _ _ => exact ⟨h1, h2, h3, h4⟩
    · exact ih i hi

/-- The codes computed from the frequencies suit the tokens. -/
theorem study_codes {L : HuffLib} (hL : L.Lawful) {ts : List Token} {is : List Item} (h : ToksAre ts is) :
    ∃ fLL fD, studyFrequenciesLLD ts = .ok (fLL, fD) ∧
      CodesOK L (L.sizes 288 fLL) (L.sizes 32 fD) ∧
      ∀ i ∈ is, i.Valid (L.sizes 288 fLL) (L.sizes 32 fD) := by
  have rep : ∀ n k : Nat, (List.replicate n 0).getD k 0 = 0 := by
    intro n k
    rw [List.getD_eq_getElem?_getD, List.getElem?_replicate]
    split <;> simp
  obtain ⟨fLL, fD, c1, c2, c3, c4, c5, c6, c7, c8, c9⟩ := studyLoopLLD_ok h (List.replicate 288 0)
    (List.replicate 32 0) List.length_replicate List.length_replicate (fun _ _ => rep _ _) (fun _ _ => rep _ _)
  refine ⟨fLL, fD, c1, ⟨hL.sizes_length (by omega) c2, hL.sizes_length (by omega) c3, hL.sizes_accepts (by omega) c2, hL.sizes_accepts (by omega) c3,
    hL.sizes_used (by omega) c2 c8, fun s hs => hL.sizes_unused (by omega) c2 (c6 s hs) (by omega),
    fun s hs => hL.sizes_unused (by omega) c3 (c7 s hs) (by omega)⟩, ?_⟩
  intro i hi
  obtain ⟨d1, d2⟩ := c9 i hi
  have hr := toksAre_range h i hi
  cases i with
  | lit b => exact hL.sizes_used (by omega) c2 d1
  | ref li lx di dx =>
    obtain ⟨r1, r2, r3, r4⟩ := hr
    exact ⟨r1, r2, r3, r4, hL.sizes_used (by omega) c2 d1, hL.sizes_used (by omega) c3 (d2 di rfl)⟩

theorem fixedSizesLL_eq : fixedSizesLL = fixedLL := by decide +kernel
theorem fixedSizesD_eq : fixedSizesD = fixedD := by decide +kernel

theorem fixed_used {s : Nat} (h : s < 288) : Used fixedLL s := by
  have : ∀ s, s < 288 → 0 < fixedLL.getD s 0 := by decide +kernel
  exact this s h

theorem fixedD_used {s : Nat} (h : s < 32) : Used fixedD s := by
  have : ∀ s, s < 32 → 0 < fixedD.getD s 0 := by decide +kernel
  exact this s h

theorem valid_fixed {i : Item} (h : ItemRange i) : i.Valid fixedLL fixedD := by
  cases i with
  | lit b => exact fixed_used (by have := b.toNat_lt; omega)
  | ref li lx di dx =>
    obtain ⟨r1, r2, r3, r4⟩ := h
    exact ⟨r1, r2, r3, r4, fixed_used (by omega), fixedD_used (by omega)⟩

end Flate.Proof
