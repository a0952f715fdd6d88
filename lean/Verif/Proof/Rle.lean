import Verif.Proof.Token

namespace Flate.Proof
open Flate.Spec Flate.Model

/-- symbol and extra value of a code length token -/
def xPair (t : Token) : Nat × Nat := (t.symbolX.1.getD 0, t.symbolX.2.2)

/-- the token stands for a code length symbol with the right number of extra bits -/
def XTok (t : Token) : Prop :=
  ∃ s x, t.symbolX = (some s, clExtra s, x) ∧ s < 19 ∧ x < 2 ^ clExtra s

theorem xTok_pair {t : Token} (h : XTok t) :
    t.symbolX = (some (xPair t).1, clExtra (xPair t).1, (xPair t).2) ∧ (xPair t).1 < 19 ∧
      (xPair t).2 < 2 ^ clExtra (xPair t).1 := by
  obtain ⟨s, x, e, h1, h2⟩ := h
  simp [xPair, e, h1, h2]

theorem clExpand_append (acc : List Nat) (a b : List (Nat × Nat)) :
    clExpand acc (a ++ b) = (clExpand acc a).bind fun acc => clExpand acc b := by
  induction a generalizing acc with
  | nil => rfl
  | cons p a ih =>
    obtain ⟨s, x⟩ := p
    simp only [List.cons_append, clExpand]
    cases clStep acc s x with
    | none => rfl
    | some acc => simp [ih]

/-- the tokens describe the code lengths `i..j-1` -/
def Emits (sizes : List Nat) (i j : Nat) (ts : List Token) : Prop :=
  (∀ t ∈ ts, XTok t) ∧
  ∀ pre, clExpand (pre ++ sizes.take i) (ts.map xPair) = some (pre ++ sizes.take j)

theorem Emits.nil (sizes : List Nat) (i : Nat) : Emits sizes i i [] := ⟨by simp, fun _ => rfl⟩

theorem Emits.append {sizes : List Nat} {i j k : Nat} {a b : List Token} (h1 : Emits sizes i j a)
    (h2 : Emits sizes j k b) : Emits sizes i k (a ++ b) := by
  refine ⟨?_, fun pre => ?_⟩
  · intro t ht
    rcases List.mem_append.1 ht with h | h
    · exact h1.1 t h
    · exact h2.1 t h
  · rw [List.map_append, clExpand_append, h1.2 pre]; exact h2.2 pre

/-- entries `i .. i+n-1` exist and equal `v` -/
def RunAt (sizes : List Nat) (i n v : Nat) : Prop :=
  i + n ≤ sizes.length ∧ ∀ k, i ≤ k → k < i + n → sizes.getD k 0 = v

theorem RunAt.take {sizes : List Nat} {i n v : Nat} (h : RunAt sizes i n v) :
    sizes.take (i + n) = sizes.take i ++ List.replicate n v := by
  apply List.ext_getElem
  · simp; have := h.1; omega
  · intro k h1 h2
    simp only [List.length_take] at h1
    rw [List.getElem_take, List.getElem_append]
    have hk : k < sizes.length := by omega
    split
    · simp
    · rename_i hlt
      simp only [List.length_take] at hlt
      simp only [List.getElem_replicate]
      have := h.2 k (by omega) (by omega)
      rwa [List.getD_eq_getElem _ _ hk] at this

theorem RunAt.split {sizes : List Nat} {i n v m : Nat} (h : RunAt sizes i n v) (hm : m ≤ n) :
    RunAt sizes i m v ∧ RunAt sizes (i + m) (n - m) v := by
  obtain ⟨h1, h2⟩ := h
  exact ⟨⟨by omega, fun k a b => h2 k a (by omega)⟩, ⟨by omega, fun k a b => h2 k (by omega) (by omega)⟩⟩

theorem runAt_sizeRun (sizes : List Nat) (i v : Nat) (hi : i ≤ sizes.length) :
    RunAt sizes i (sizeRunLength (sizes.drop i) v) v := by
  have key : ∀ l : List Nat, sizeRunLength l v ≤ l.length ∧
      ∀ k, k < sizeRunLength l v → l.getD k 0 = v := by
    intro l
    induction l with
    | nil => simp [sizeRunLength]
    | cons x xs ih =>
      simp only [sizeRunLength]
      split
      · refine ⟨by simp; exact ih.1, ?_⟩
        intro k hk
        cases k with
        | zero => simpa
        | succ k => simpa using ih.2 k (by omega)
      · simp
  obtain ⟨a, b⟩ := key (sizes.drop i)
  refine ⟨by simp at a; omega, fun k h1 h2 => ?_⟩
  have := b (k - i) (by omega)
  rw [List.getD_eq_getElem?_getD, List.getElem?_drop, show i + (k - i) = k by omega,
    ← List.getD_eq_getElem?_getD] at this
  exact this

theorem okb {α β : Type} (a : α) (f : α → Partial β) : ((Except.ok a : Partial α) >>= f) = f a := rfl
theorem pureE {α : Type} (a : α) : (pure a : Partial α) = Except.ok a := rfl

theorem treeLen_ok {size : Nat} (h : size < 16) : makeTreeLenToken size = .ok ⟨512 + size, 0⟩ := by
  unfold makeTreeLenToken passert; simp [h]; try rfl

theorem treeDup_ok {n : Nat} (h : 3 ≤ n) (h' : n ≤ 6) : makeTreeDupToken n = .ok ⟨1024 + (n - 3), 0⟩ := by
  unfold makeTreeDupToken passert; simp [h, h']; rfl

theorem emits_len {sizes : List Nat} {i v : Nat} (h : RunAt sizes i 1 v) (hv : v < 16) :
    Emits sizes i (i + 1) [⟨512 + v, 0⟩] := by
  have e : Token.symbolX ⟨512 + v, 0⟩ = (some v, 0, 0) := by
    unfold Token.symbolX
    simp only [ne_eq, not_true, if_false]
    rw [if_neg (by omega), if_pos (by omega)]
    simp
  refine ⟨?_, fun pre => ?_⟩
  · intro t ht
    simp at ht; subst ht
    have hc : clExtra v = 0 := by unfold clExtra; split <;> (try split) <;> (try split) <;> omega
    exact ⟨v, 0, by rw [e, hc], by omega, by rw [hc]; decide⟩
  · simp only [List.map, clExpand, xPair, e, Option.getD_some, clStep, hv, if_true, Option.bind_some]
    rw [h.take]; simp

theorem getLast_take {sizes : List Nat} {i : Nat} (pre : List Nat) (h0 : 1 ≤ i) (h : i ≤ sizes.length) :
    (pre ++ sizes.take i).getLast? = some (sizes.getD (i - 1) 0) := by
  obtain ⟨j, rfl⟩ : ∃ j, i = j + 1 := ⟨i - 1, by omega⟩
  have hj : j < sizes.length := by omega
  rw [show sizes.take (j + 1) = sizes.take j ++ [sizes.getD j 0] by
    rw [List.take_add_one, List.getElem?_eq_getElem hj, List.getD_eq_getElem _ _ hj]; rfl, ← List.append_assoc,
    List.getLast?_concat]
  simp

theorem emits_dup {sizes : List Nat} {i v n : Nat} (h : RunAt sizes i n v) (h1 : 1 ≤ i)
    (hv : sizes.getD (i - 1) 0 = v) (h3 : 3 ≤ n) (h6 : n ≤ 6) :
    Emits sizes i (i + n) [⟨1024 + (n - 3), 0⟩] := by
  have e : Token.symbolX ⟨1024 + (n - 3), 0⟩ = (some 16, 2, n - 3) := by
    unfold Token.symbolX
    simp only [ne_eq, not_true, if_false]
    rw [if_neg (by omega), if_neg (by omega), if_pos (by omega)]
    simp
  refine ⟨?_, fun pre => ?_⟩
  · intro t ht
    simp at ht; subst ht
    exact ⟨16, n - 3, by rw [e]; rfl, by omega, by simp [clExtra]; omega⟩
  · simp only [List.map, clExpand, xPair, e, Option.getD_some, clStep]
    have hl : i ≤ sizes.length := by have := h.1; omega
    rw [getLast_take pre h1 hl, h.take, hv]
    simp; omega

theorem zeroRun_ok {n : Nat} (h : 3 ≤ n) (h' : n ≤ 138) : ∃ t, makeTreeZeroRunToken n = .ok t ∧
    ∀ {sizes : List Nat} {i : Nat}, RunAt sizes i n 0 → Emits sizes i (i + n) [t] := by
  unfold makeTreeZeroRunToken passert
  simp only [ge_iff_le, h, h', decide_true, if_true]
  by_cases hn : n < 11
  · refine ⟨⟨2048 + (n - 3), 0⟩, by simp [hn]; rfl, ?_⟩
    intro sizes i hr
    have e : Token.symbolX ⟨2048 + (n - 3), 0⟩ = (some 17, 3, n - 3) := by
      unfold Token.symbolX
      simp only [ne_eq, not_true, if_false]
      rw [if_neg (by omega), if_neg (by omega), if_neg (by omega), if_pos (by omega)]
      simp
    refine ⟨?_, fun pre => ?_⟩
    · intro t ht
      simp at ht; subst ht
      exact ⟨17, n - 3, by rw [e]; rfl, by omega, by simp [clExtra]; omega⟩
    · simp only [List.map, clExpand, xPair, e, Option.getD_some, clStep]
      rw [hr.take]
      simp; omega
  · refine ⟨⟨4096 + (n - 11), 0⟩, by simp [hn]; rfl, ?_⟩
    intro sizes i hr
    have e : Token.symbolX ⟨4096 + (n - 11), 0⟩ = (some 18, 7, n - 11) := by
      unfold Token.symbolX
      simp only [ne_eq, not_true, if_false]
      rw [if_neg (by omega), if_neg (by omega), if_neg (by omega), if_neg (by omega), if_pos (by omega)]
      simp
    refine ⟨?_, fun pre => ?_⟩
    · intro t ht
      simp at ht; subst ht
      exact ⟨18, n - 11, by rw [e]; rfl, by omega, by simp [clExtra]; omega⟩
    · simp only [List.map, clExpand, xPair, e, Option.getD_some, clStep]
      rw [hr.take]
      simp; omega

theorem dupLoop_spec {sizes : List Nat} {v : Nat} (fuel : Nat) (xt : List Token) (i run : Nat)
    (h : RunAt sizes i run v) (h1 : 1 ≤ i) (hv : sizes.getD (i - 1) 0 = v) (hf : run < fuel) :
    ∃ ts n, n ≤ run ∧ run - n < 9 ∧ dupLoop fuel xt i run = .ok (xt ++ ts, i + n, run - n) ∧
      Emits sizes i (i + n) ts := by
  induction fuel generalizing xt i run with
  | zero => omega
  | succ fuel ih =>
    unfold dupLoop
    split
    · rename_i hr
      rw [treeDup_ok (by omega) (by omega)]
      obtain ⟨ha, hb⟩ := h.split (m := 6) (by omega)
      obtain ⟨ts, n, g1, g2, g3, g4⟩ := ih (xt ++ [⟨1024 + (6 - 3), 0⟩]) (i + 6) (run - 6) hb (by omega)
        (h.2 _ (by omega) (by omega)) (by omega)
      refine ⟨⟨1024 + (6 - 3), 0⟩ :: ts, 6 + n, by omega, by omega, ?_, ?_⟩
      · show dupLoop fuel _ (i + 6) (run - 6) = _
        rw [g3]; simp; omega
      · have := (emits_dup ha h1 hv (by omega) (by omega)).append g4
        simpa [Nat.add_assoc] using this
    · exact ⟨[], 0, by omega, by omega, by simp, Emits.nil _ _⟩

theorem zeroLoop_spec {sizes : List Nat} (fuel : Nat) (xt : List Token) (i run : Nat)
    (h : RunAt sizes i run 0) (hf : run < fuel) :
    ∃ ts n, n ≤ run ∧ run - n < 141 ∧ zeroLoop fuel xt i run = .ok (xt ++ ts, i + n, run - n) ∧
      Emits sizes i (i + n) ts := by
  induction fuel generalizing xt i run with
  | zero => omega
  | succ fuel ih =>
    unfold zeroLoop
    split
    · rename_i hr
      obtain ⟨t, e, ht⟩ := zeroRun_ok (n := 138) (by omega) (by omega)
      rw [e]
      obtain ⟨ha, hb⟩ := h.split (m := 138) (by omega)
      obtain ⟨ts, n, g1, g2, g3, g4⟩ := ih (xt ++ [t]) (i + 138) (run - 138) hb (by omega)
      refine ⟨t :: ts, 138 + n, by omega, by omega, ?_, ?_⟩
      · show zeroLoop fuel _ (i + 138) (run - 138) = _
        rw [g3]; simp; omega
      · have := (ht ha).append g4
        simpa [Nat.add_assoc] using this
    · exact ⟨[], 0, by omega, by omega, by simp, Emits.nil _ _⟩

theorem lenLoop_spec {sizes : List Nat} {v : Nat} (hv : v < 16) (run : Nat) (xt : List Token) (i : Nat)
    (h : RunAt sizes i run v) :
    ∃ ts, lenLoop v run xt i = .ok (xt ++ ts, i + run) ∧ Emits sizes i (i + run) ts := by
  induction run generalizing xt i with
  | zero => exact ⟨[], by simp [lenLoop], Emits.nil _ _⟩
  | succ run ih =>
    unfold lenLoop
    rw [treeLen_ok hv]
    obtain ⟨ha, hb⟩ := h.split (m := 1) (by omega)
    obtain ⟨ts, g1, g2⟩ := ih (xt ++ [⟨512 + v, 0⟩]) (i + 1) hb
    refine ⟨⟨512 + v, 0⟩ :: ts, ?_, ?_⟩
    · show lenLoop v run _ (i + 1) = _
      rw [g1]; simp; omega
    · have := (emits_len ha hv).append g2
      simpa [Nat.add_assoc, Nat.add_comm 1] using this

theorem encodeNonZero_spec {sizes : List Nat} (xt : List Token) (i v : Nat) (hi : i < sizes.length)
    (hv : sizes.getD i 0 = v) (h16 : v < 16) :
    ∃ ts n, n = 1 + sizeRunLength (sizes.drop (i + 1)) v ∧ i + n ≤ sizes.length ∧ encodeNonZero sizes xt i v = .ok (xt ++ ts, i + n) ∧
      Emits sizes i (i + n) ts := by
  unfold encodeNonZero
  rw [treeLen_ok h16]
  have hrun := runAt_sizeRun sizes (i + 1) v (by omega)
  generalize hr : sizeRunLength (sizes.drop (i + 1)) v = run at hrun
  have h0 : Emits sizes i (i + 1) [⟨512 + v, 0⟩] :=
    emits_len ⟨by omega, fun k a b => by rw [show k = i by omega, hv]⟩ h16
  obtain ⟨ts, n, g1, g2, g3, g4⟩ := dupLoop_spec (run + 1) (xt ++ [⟨512 + v, 0⟩]) (i + 1) run hrun (by omega)
    (by simpa using hv) (by omega)
  simp only [okb, hr, g3]
  have hlast : ∀ m, m ≤ run → sizes.getD (i + 1 + m - 1) 0 = v := by
    intro m hm
    by_cases h : m = 0
    · subst h; simpa using hv
    · exact hrun.2 _ (by omega) (by omega)
  have hsub : ∀ a b, a + b ≤ run → RunAt sizes (i + 1 + a) b v := by
    intro a b hab
    exact ⟨by have := hrun.1; omega, fun k x y => hrun.2 k (by omega) (by omega)⟩
  have base := h0.append g4
  have hl := hrun.1
  by_cases c6 : run - n > 6
  · have e4 := base.append (emits_dup (hsub n 4 (by omega)) (by omega) (hlast n (by omega)) (by omega) (by omega))
    by_cases c2 : run - n - 4 > 2
    · have e5 := e4.append (by
        have := emits_dup (hsub (n + 4) (run - n - 4) (by omega)) (by omega) (hlast (n + 4) (by omega))
          (by omega) (by omega)
        simpa [Nat.add_assoc] using this)
      refine ⟨[⟨512 + v, 0⟩] ++ ts ++ [⟨1024 + (4 - 3), 0⟩] ++ [⟨1024 + (run - n - 4 - 3), 0⟩],
        1 + n + 4 + (run - n - 4), by omega, by omega, ?_, ?_⟩
      rotate_left
      · simpa [Nat.add_assoc] using e5
      · simp only [if_pos c6, okb, pureE, if_pos c2, treeDup_ok (n := 4) (by omega) (by omega),
          treeDup_ok (n := run - n - 4) (by omega) (by omega), lenLoop]
        simp; omega
    · obtain ⟨t2, q1, q2⟩ := lenLoop_spec h16 (run - n - 4)
        (xt ++ [⟨512 + v, 0⟩] ++ ts ++ [⟨1024 + (4 - 3), 0⟩]) (i + 1 + n + 4)
        (by have := hsub (n + 4) (run - n - 4) (by omega); simpa [Nat.add_assoc] using this)
      refine ⟨[⟨512 + v, 0⟩] ++ ts ++ [⟨1024 + (4 - 3), 0⟩] ++ t2,
        1 + n + 4 + (run - n - 4), by omega, by omega, ?_, ?_⟩
      rotate_left
      · have := e4.append q2
        simpa [Nat.add_assoc] using this
      · simp only [if_pos c6, okb, pureE, if_neg c2, treeDup_ok (n := 4) (by omega) (by omega), q1]
        simp; omega
  · by_cases c2 : run - n > 2
    · have e5 := base.append
        (emits_dup (hsub n (run - n) (by omega)) (by omega) (hlast n (by omega)) (by omega) (by omega))
      refine ⟨[⟨512 + v, 0⟩] ++ ts ++ [⟨1024 + (run - n - 3), 0⟩], 1 + n + (run - n), by omega, by omega, ?_, ?_⟩
      rotate_left
      · simpa [Nat.add_assoc] using e5
      · simp only [if_neg c6, okb, pureE, if_pos c2,
          treeDup_ok (n := run - n) (by omega) (by omega), lenLoop]
        simp; omega
    · obtain ⟨t2, q1, q2⟩ := lenLoop_spec h16 (run - n) (xt ++ [⟨512 + v, 0⟩] ++ ts) (i + 1 + n)
        (hsub n (run - n) (by omega))
      refine ⟨[⟨512 + v, 0⟩] ++ ts ++ t2, 1 + n + (run - n), by omega, by omega, ?_, ?_⟩
      rotate_left
      · have := base.append q2
        simpa [Nat.add_assoc] using this
      · simp only [if_neg c6, okb, pureE, if_neg c2, q1]
        simp; omega

theorem allZero_iff (l : List Nat) : sizesAllZeroes l = true ↔ ∀ k, l.getD k 0 = 0 := by
  unfold sizesAllZeroes
  simp only [List.all_eq_true, beq_iff_eq]
  constructor
  · intro h k
    rcases Nat.lt_or_ge k l.length with hk | hk
    · rw [List.getD_eq_getElem _ _ hk]; exact h _ (List.getElem_mem hk)
    · rw [List.getD_eq_default _ _ hk]
  · intro h x hx
    obtain ⟨k, hk, rfl⟩ := List.getElem_of_mem hx
    have := h k
    rwa [List.getD_eq_getElem _ _ hk] at this

theorem sizeRun_all {l : List Nat} (h : sizesAllZeroes l = true) : sizeRunLength l 0 = l.length := by
  induction l with
  | nil => rfl
  | cons x xs ih =>
    simp only [sizesAllZeroes, List.all_cons, Bool.and_eq_true, beq_iff_eq] at h
    simp only [sizeRunLength, h.1, if_true, List.length_cons]
    rw [ih h.2]

/-- The tail of zero lengths may only start at the very beginning or at `min` or later. -/
def MinOK (sizes : List Nat) (min : Nat) : Prop :=
  min ≤ sizes.length ∧ ∀ i, i < min → sizesAllZeroes (sizes.drop i) = true → i = 0

theorem encodeZero_spec {sizes : List Nat} {min : Nat} (hm : MinOK sizes min) (xt : List Token) (i : Nat)
    (hi : i < sizes.length) (hv : sizes.getD i 0 = 0)
    (hgo : ¬ (i ≥ min ∧ sizesAllZeroes (sizes.drop i) = true)) :
    ∃ ts n, (1 ≤ n ∧ (i + n = min ∨ sizesAllZeroes (sizes.drop (i + n)) = false)) ∧
      i + n ≤ sizes.length ∧ encodeZero sizes min xt i = .ok (xt ++ ts, i + n) ∧
      Emits sizes i (i + n) ts := by
  unfold encodeZero
  have hrun0 := runAt_sizeRun sizes i 0 (by omega)
  have hpos : 1 ≤ sizeRunLength (sizes.drop i) 0 := by
    have : sizes.drop i = sizes.getD i 0 :: sizes.drop (i + 1) := by
      rw [List.getD_eq_getElem _ _ hi]; exact List.drop_eq_getElem_cons hi
    rw [this, hv]; simp [sizeRunLength]
  have hz : ∃ run, (if i + sizeRunLength (sizes.drop i) 0 > min ∧ sizesAllZeroes (sizes.drop i) = true then min
      else sizeRunLength (sizes.drop i) 0) = run ∧ RunAt sizes i run 0 ∧ 1 ≤ run ∧
      (i + run = min ∨ sizesAllZeroes (sizes.drop (i + run)) = false) := by
    refine ⟨_, rfl, ?_⟩
    split
    · rename_i hc
      have hlt : ¬ i ≥ min := fun h => hgo ⟨h, hc.2⟩
      have : i = 0 := hm.2 i (by omega) hc.2
      have hmin : ¬ i ≥ min := fun h => hgo ⟨h, hc.2⟩
      subst this
      refine ⟨⟨by have := hm.1; omega, fun k _ _ => ?_⟩, by omega, by omega⟩
      have := (allZero_iff _).1 hc.2 k
      simpa using this
    · rename_i hc
      refine ⟨hrun0, hpos, ?_⟩
      by_cases hz : sizesAllZeroes (sizes.drop i) = true
      · have := sizeRun_all hz
        have hm1 := hm.1
        simp only [List.length_drop] at this
        simp only [hz, and_true] at hc
        left; omega
      · right
        cases hz2 : sizesAllZeroes (sizes.drop (i + sizeRunLength (sizes.drop i) 0)) with
        | false => rfl
        | true =>
          exfalso; apply hz
          rw [allZero_iff] at hz2 ⊢
          intro k
          have hget : ∀ a k, (sizes.drop a).getD k 0 = sizes.getD (a + k) 0 := by
            intro a k; simp only [List.getD_eq_getElem?_getD, List.getElem?_drop]
          rw [hget]
          rcases Nat.lt_or_ge k (sizeRunLength (sizes.drop i) 0) with hk | hk
          · exact hrun0.2 _ (by omega) (by omega)
          · have := hz2 (k - sizeRunLength (sizes.drop i) 0)
            rw [hget] at this
            rwa [show i + sizeRunLength (sizes.drop i) 0 + (k - sizeRunLength (sizes.drop i) 0) = i + k by omega] at this
  obtain ⟨run, hreq, hrun, hr1, hr2⟩ := hz
  have hsub : ∀ a b, a + b ≤ run → RunAt sizes (i + a) b 0 := by
    intro a b hab
    exact ⟨by have := hrun.1; omega, fun k x y => hrun.2 k (by omega) (by omega)⟩
  simp only [hreq]
  have hl := hrun.1
  have hconv : ∀ m, m = run → (i + m = min ∨ sizesAllZeroes (sizes.drop (i + m)) = false) := by
    rintro m rfl; exact hr2
  obtain ⟨ts, n, g1, g2, g3, g4⟩ := zeroLoop_spec (run + 1) xt i run hrun (by omega)
  simp only [g3, okb]
  by_cases c6 : run - n > 138
  · obtain ⟨t, e, ht⟩ := zeroRun_ok (n := 136) (by omega) (by omega)
    have e4 := g4.append (ht (hsub n 136 (by omega)))
    have hr3 : RunAt sizes (i + n + 136) (run - n - 136) 0 := by
      have := hsub (n + 136) (run - n - 136) (by omega); simpa [Nat.add_assoc] using this
    by_cases c2 : run - n - 136 > 3
    · obtain ⟨t3, e3, ht3⟩ := zeroRun_ok (n := run - n - 136) (by omega) (by omega)
      have e5 := e4.append (ht3 hr3)
      refine ⟨ts ++ [t] ++ [t3], n + 136 + (run - n - 136), ⟨by omega, hconv _ (by omega)⟩, by omega, ?_, ?_⟩
      rotate_left
      · simpa [Nat.add_assoc] using e5
      · simp only [if_pos c6, e, okb, pureE, if_pos c2, e3, lenLoop]
        simp; omega
    · obtain ⟨t2, q1, q2⟩ := lenLoop_spec (v := 0) (by omega) (run - n - 136)
        (xt ++ ts ++ [t]) (i + n + 136) hr3
      refine ⟨ts ++ [t] ++ t2, n + 136 + (run - n - 136), ⟨by omega, hconv _ (by omega)⟩, by omega, ?_, ?_⟩
      rotate_left
      · have := e4.append q2
        simpa [Nat.add_assoc] using this
      · simp only [if_pos c6, e, okb, pureE, if_neg c2, q1]
        simp; omega
  · by_cases c2 : run - n > 3
    · obtain ⟨t, e, ht⟩ := zeroRun_ok (n := run - n) (by omega) (by omega)
      have e5 := g4.append (ht (hsub n (run - n) (by omega)))
      refine ⟨ts ++ [t], n + (run - n), ⟨by omega, hconv _ (by omega)⟩, by omega, ?_, ?_⟩
      rotate_left
      · simpa [Nat.add_assoc] using e5
      · simp only [if_neg c6, e, okb, pureE, if_pos c2, lenLoop]
        simp; omega
    · obtain ⟨t2, q1, q2⟩ := lenLoop_spec (v := 0) (by omega) (run - n) (xt ++ ts) (i + n)
        (hsub n (run - n) (by omega))
      refine ⟨ts ++ t2, n + (run - n), ⟨by omega, hconv _ (by omega)⟩, by omega, ?_, ?_⟩
      rotate_left
      · have := g4.append q2
        simpa [Nat.add_assoc] using this
      · simp only [if_neg c6, okb, pureE, if_neg c2, q1]
        simp; omega

theorem encodeTreeLoop_spec {sizes : List Nat} {min : Nat} (hm : MinOK sizes min)
    (h16 : ∀ s ∈ sizes, s < 16) (fuel : Nat) (xt : List Token) (i : Nat) (hi : i ≤ sizes.length)
    (hf : sizes.length - i < fuel) :
    ∃ ts n, i ≤ n ∧ n ≤ sizes.length ∧ min ≤ n ∧ encodeTreeLoop sizes min fuel xt i = .ok (xt ++ ts, n) ∧
      Emits sizes i n ts ∧ sizesAllZeroes (sizes.drop n) = true ∧
      (n = min ∨ n = i ∨ sizes.getD (n - 1) 0 ≠ 0) := by
  induction fuel generalizing xt i with
  | zero => omega
  | succ fuel ih =>
    unfold encodeTreeLoop
    split
    · rename_i hlt
      split
      · rename_i hc
        exact ⟨[], i, by omega, hi, hc.1, by simp, Emits.nil _ _, hc.2, by omega⟩
      · rename_i hc
        have step : ∃ ts n, (1 ≤ n ∧ (sizes.getD (i + n - 1) 0 ≠ 0 ∨ i + n = min ∨
              sizesAllZeroes (sizes.drop (i + n)) = false)) ∧ i + n ≤ sizes.length ∧
            (if sizes.getD i 0 ≠ 0 then encodeNonZero sizes xt i (sizes.getD i 0) else encodeZero sizes min xt i) =
              .ok (xt ++ ts, i + n) ∧ Emits sizes i (i + n) ts := by
          split
          · rename_i h0
            obtain ⟨ts, n, a1, a2, a3, a4⟩ := encodeNonZero_spec xt i _ hlt rfl (by
              rw [List.getD_eq_getElem _ _ hlt]; exact h16 _ (List.getElem_mem hlt))
            refine ⟨ts, n, ⟨by omega, .inl ?_⟩, a2, a3, a4⟩
            have hr := runAt_sizeRun sizes (i + 1) (sizes.getD i 0) (by omega)
            by_cases hz : sizeRunLength (sizes.drop (i + 1)) (sizes.getD i 0) = 0
            · rw [show i + n - 1 = i by omega]; exact h0
            · rw [hr.2 _ (by omega) (by omega)]; exact h0
          · rename_i h0
            obtain ⟨ts, n, a1, a2, a3, a4⟩ := encodeZero_spec hm xt i hlt (by omega) hc
            exact ⟨ts, n, ⟨a1.1, .inr a1.2⟩, a2, a3, a4⟩
        obtain ⟨ts, n, a1, a2, a3, a4⟩ := step
        obtain ⟨ts', n', b1, b2, b3, b4, b5, b6, b7⟩ := ih (xt ++ ts) (i + n) a2 (by omega)
        have hlast : n' = min ∨ n' = i ∨ sizes.getD (n' - 1) 0 ≠ 0 := by
          rcases b7 with b7 | b7 | b7
          · exact .inl b7
          · rcases a1.2 with h | h | h
            · right; right; rw [b7]; exact h
            · left; omega
            · rw [b7] at b6; rw [b6] at h; exact absurd h (by simp)
          · exact .inr (.inr b7)
        refine ⟨ts ++ ts', n', by omega, b2, b3, ?_, a4.append b5, b6, hlast⟩
        simp only
        split
        · rename_i h0; rw [if_pos h0] at a3; rw [a3]
          refine Eq.trans b4 ?_
          simp
        · rename_i h0; rw [if_neg h0] at a3; rw [a3]
          refine Eq.trans b4 ?_
          simp
    · rename_i hge
      refine ⟨[], i, by omega, hi, by have := hm.1; omega, by simp, Emits.nil _ _, ?_, by omega⟩
      rw [List.drop_eq_nil_of_le (by omega)]; rfl

/-- analysis.go `encodeTreeTokens`: the tokens describe exactly a prefix of the sizes, at least `min`
long, and the rest is zero -/
theorem encodeTreeTokens_spec {sizes : List Nat} {min : Nat} (hm : MinOK sizes min)
    (h16 : ∀ s ∈ sizes, s < 16) (xt : List Token) :
    ∃ ts n, encodeTreeTokens xt sizes min = .ok (xt ++ ts, n) ∧ min ≤ n ∧ n ≤ sizes.length ∧
      (∀ t ∈ ts, XTok t) ∧ (∀ pre, clExpand pre (ts.map xPair) = some (pre ++ sizes.take n)) ∧
      sizesAllZeroes (sizes.drop n) = true ∧ (n = min ∨ sizes.getD (n - 1) 0 ≠ 0) := by
  obtain ⟨ts, n, _, h2, h3, h4, h5, h6, h7⟩ :=
    encodeTreeLoop_spec hm h16 (sizes.length + 1) xt 0 (by omega) (by omega)
  exact ⟨ts, n, h4, h3, h2, h5.1, fun pre => by simpa using h5.2 pre, h6, by omega⟩

end Flate.Proof
