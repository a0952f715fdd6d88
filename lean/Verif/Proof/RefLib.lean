/-
A concrete library satisfying the contract `HuffLib.Lawful`, showing that the contract can be met and serving as
the library in examples.  Its encoder gives all occurring symbols codes of the same length.
-/
import Verif.Model.HuffLib
import Verif.Proof.Huffman
import Mathlib.Data.Nat.Log

namespace Flate.Proof
open Flate.Spec Flate.Model

instance (lens : List Nat) : Decidable (IsCode lens) := by unfold IsCode; infer_instance
instance (lens : List Nat) : Decidable (IsComplete lens) := by unfold IsComplete; infer_instance
instance (lens : List Nat) (s : Nat) : Decidable (Used lens s) := by unfold Used; infer_instance

/-- number of bits of the codes for `k` symbols -/
def flatLen (k : Nat) : Nat :=
  if k ≤ 2 then 1 else if k ≤ 4 then 2 else if k ≤ 8 then 3 else if k ≤ 16 then 4 else if k ≤ 32 then 5
  else if k ≤ 64 then 6 else if k ≤ 128 then 7 else if k ≤ 256 then 8 else if k ≤ 512 then 9 else Nat.clog 2 k

def refDecode (lens : List Nat) (n b : Nat) : Option Nat × Nat × Nat :=
  match (List.range lens.length).find? fun s => decide (Used lens s ∧ codeBits lens s = natBits n b) with
  | some s => (some s, n, n)
  | none => if (List.range lens.length).any fun s => decide (Used lens s ∧ natBits n b <+: codeBits lens s) then
      (none, n + 1, 15) else (none, 0, 0)

def refSizes (freqs : List Nat) : List Nat :=
  freqs.map fun f => if f = 0 then 0 else flatLen (freqs.countP (0 < ·))

/-- a library which meets the contract -/
def refLib : HuffLib where
  accepts lens := decide (IsCode lens)
  minSize _ := 1
  maxSize _ := 15
  decode := refDecode
  sizes _ freqs := refSizes freqs

theorem flatLen_pos (k : Nat) : 0 < flatLen k := by
  unfold flatLen
  repeat' split
  all_goals first | omega | exact Nat.clog_pos (by omega) (by omega)

theorem le_flatLen (k : Nat) : k ≤ 2 ^ flatLen k := by
  unfold flatLen
  repeat' split
  all_goals first | omega | exact Nat.le_pow_clog (by omega) k

theorem flatLen_le {k n : Nat} (h : k ≤ 2 ^ n) (hn : 0 < n) : flatLen k ≤ n := by
  have key : ∀ c, 2 ^ c < k → c + 1 ≤ n := by
    intro c hc
    rcases Nat.lt_or_ge c n with h1 | h1
    · exact h1
    · have := Nat.pow_le_pow_right (n := 2) (by omega) h1
      omega
  unfold flatLen
  split
  · omega
  split
  · exact key 1 (by omega)
  split
  · exact key 2 (by omega)
  split
  · exact key 3 (by omega)
  split
  · exact key 4 (by omega)
  split
  · exact key 5 (by omega)
  split
  · exact key 6 (by omega)
  split
  · exact key 7 (by omega)
  split
  · exact key 8 (by omega)
  · exact Nat.clog_le_of_le_pow h

theorem refSizes_kraft (freqs : List Nat) (c : Nat) (hc : 0 < c) :
    kraft (freqs.map fun f => if f = 0 then 0 else c) = freqs.countP (0 < ·) * 2 ^ (15 - c) := by
  unfold kraft
  induction freqs with
  | nil => simp
  | cons f r ih =>
    simp only [List.map_cons, List.sum_cons, ih, List.countP_cons]
    by_cases h : f = 0
    · simp [h]
    · have h2 : 0 < f := by omega
      have h3 : c ≠ 0 := by omega
      simp [h, h2, h3]; rw [Nat.add_mul]; omega

theorem refSizes_isCode {freqs : List Nat} (h : freqs.length ≤ 288) : IsCode (refSizes freqs) := by
  have hk : freqs.countP (0 < ·) ≤ 288 := (List.countP_le_length).trans h
  have h9 : flatLen (freqs.countP (0 < ·)) ≤ 9 := flatLen_le (by omega) (by omega)
  refine ⟨?_, ?_⟩
  · intro l hl
    obtain ⟨f, _, rfl⟩ := List.mem_map.mp hl
    split
    · omega
    · exact h9.trans (by omega)
  · unfold refSizes
    rw [refSizes_kraft _ _ (flatLen_pos _)]
    calc _ ≤ 2 ^ flatLen (freqs.countP (0 < ·)) * 2 ^ (15 - flatLen (freqs.countP (0 < ·))) :=
          Nat.mul_le_mul_right _ (le_flatLen _)
      _ = 2 ^ 15 := by rw [← Nat.pow_add]; congr 1; omega

theorem refSizes_lenOf (freqs : List Nat) (s : Nat) :
    lenOf (refSizes freqs) s = if freqs.getD s 0 = 0 then 0 else flatLen (freqs.countP (0 < ·)) := by
  unfold lenOf refSizes
  rw [List.getD_eq_getElem?_getD, List.getD_eq_getElem?_getD, List.getElem?_map]
  cases freqs[s]? <;> simp

theorem find_used {lens : List Nat} {p : Nat → Prop} [DecidablePred p] {s : Nat} (hu : Used lens s) (hp : p s) :
    ∃ t, (List.range lens.length).find? (fun s => decide (Used lens s ∧ p s)) = some t ∧ Used lens t ∧ p t := by
  have : ((List.range lens.length).find? (fun s => decide (Used lens s ∧ p s))).isSome := by
    rw [List.find?_isSome]
    exact ⟨s, List.mem_range.mpr (used_lt hu), by simp [hu, hp]⟩
  obtain ⟨t, ht⟩ := Option.isSome_iff_exists.mp this
  exact ⟨t, ht, by simpa using List.find?_some ht⟩

theorem refLib_lawful : refLib.Lawful where
  accepts_code h := of_decide_eq_true h
  accepts_complete h := decide_eq_true (isComplete_isCode h)
  minSize_le _ h := h
  le_maxSize h _ := lenOf_le (of_decide_eq_true h : IsCode _).1 _
  maxSize_le _ := Nat.le_refl _
  decode_some := by
    intro lens n b s lo hi _ _ h
    simp only [refLib, refDecode] at h
    split at h
    · rename_i t ht
      cases h
      have := List.find?_some ht
      simpa using this
    · split at h <;> cases h
  decode_found := by
    intro lens n b s ha _ hu he
    obtain ⟨t, ht, hut, htt⟩ := find_used (p := fun s => codeBits lens s = natBits n b) hu he
    simp only [refLib, refDecode, ht]
    have : codeBits lens t <+: codeBits lens s := by rw [htt, he]; exact List.prefix_rfl
    exact congrArg some (prefix_free (of_decide_eq_true ha) hut hu this)
  decode_more := by
    intro lens n b lo hi ha hb h hhi
    simp only [refLib, refDecode] at h
    split at h
    · cases h
    · rename_i hn
      split at h
      · cases h
        refine ⟨by omega, fun s hu hp => ?_⟩
        have hl := hp.length_le
        rw [natBits_length, codeBits_length] at hl
        rcases Nat.lt_or_ge n (lenOf lens s) with h1 | h1
        · exact h1
        · exfalso
          have he : codeBits lens s = natBits n b := (hp.eq_of_length (by simp; omega)).symm
          obtain ⟨t, ht, _⟩ := find_used (p := fun s => codeBits lens s = natBits n b) hu he
          rw [ht] at hn; cases hn
      · cases h; exact absurd rfl hhi
  decode_dead := by
    intro lens n b lo ha hb h s hu hp
    simp only [refLib, refDecode] at h
    split at h
    · cases h
    · split at h
      · cases h
      · rename_i hn
        refine hn (List.any_eq_true.mpr ⟨s, List.mem_range.mpr (used_lt hu), ?_⟩)
        simp [hu, hp]
  sizes_length := by
    intro n freqs _ h
    simp [refLib, refSizes, h]
  sizes_used := by
    intro n freqs s _ h hf
    have h0 : freqs.getD s 0 ≠ 0 := by omega
    show 0 < lenOf (refSizes freqs) s
    rw [refSizes_lenOf, if_neg h0]
    exact flatLen_pos _
  sizes_unused := by
    intro n freqs s _ h hf _
    show lenOf (refSizes freqs) s = 0
    rw [refSizes_lenOf, if_pos hf]
  sizes_accepts := by
    intro n freqs hn h
    exact decide_eq_true (refSizes_isCode (by omega))
  sizes_cl := by
    intro freqs h l hl
    obtain ⟨f, _, rfl⟩ := List.mem_map.mp hl
    split
    · omega
    · exact flatLen_le ((List.countP_le_length).trans (by omega)) (by omega)

end Flate.Proof
