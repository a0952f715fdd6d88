import Verif.Spec.Huffman
import Verif.Proof.Bits
import Mathlib.Data.List.GetD

namespace Flate.Proof
open Flate.Spec

@[simp] theorem codeBits_length (lens : List Nat) (s : Nat) : (codeBits lens s).length = lenOf lens s := by
  simp [codeBits]

/-- cumulative Kraft weight of the codes shorter than `n`, scaled -/
def weight (lens : List Nat) : Nat → Nat
  | 0 => 0
  | n + 1 => weight lens n + blCount lens n * 2 ^ (15 - n)

theorem firstCode_weight (lens : List Nat) (n : Nat) (h : n ≤ 15) :
    firstCode lens n * 2 ^ (15 - n) = weight lens n := by
  induction n with
  | zero => simp [firstCode, weight]
  | succ n ih =>
    have e : 2 ^ (15 - n) = 2 * 2 ^ (15 - (n + 1)) := by
      rw [show 15 - n = (15 - (n + 1)) + 1 by omega, Nat.pow_succ, Nat.mul_comm]
    simp only [firstCode, weight]
    rw [← ih (by omega), e, ← Nat.mul_assoc, ← Nat.mul_assoc, ← Nat.add_mul, Nat.mul_comm 2, Nat.add_mul]

theorem weight_mono (lens : List Nat) {m n : Nat} (h : m ≤ n) : weight lens m ≤ weight lens n := by
  induction n with
  | zero => have : m = 0 := by omega
            subst this; exact Nat.le_refl _
  | succ n ih =>
    by_cases e : m = n + 1
    · subst e; exact Nat.le_refl _
    · have := ih (by omega)
      simp only [weight]; omega

theorem weight_cons (a : Nat) (lens : List Nat) (n : Nat) :
    weight (a :: lens) n = weight lens n + (if a ≠ 0 ∧ a < n then 2 ^ (15 - a) else 0) := by
  induction n with
  | zero => simp [weight]
  | succ n ih =>
    simp only [weight, ih, blCount, List.count_cons]
    by_cases h0 : n = 0
    · subst h0
      by_cases ha : a = 0 <;> simp [ha]
    · simp only [h0, if_false, Nat.add_mul]
      by_cases ha : a = n
      · subst ha
        simp [h0]; omega
      · have hb : (a == n) = false := by simp [ha]
        simp only [hb, Bool.false_eq_true, if_false, Nat.zero_mul, Nat.add_zero]
        by_cases h1 : a ≠ 0 ∧ a < n
        · rw [if_pos h1, if_pos ⟨h1.1, by omega⟩]; omega
        · rw [if_neg h1, if_neg (by omega)]; omega

theorem weight_kraft (lens : List Nat) (h : ∀ l ∈ lens, l ≤ 15) : weight lens 16 = kraft lens := by
  induction lens with
  | nil => simp [weight, blCount, kraft]
  | cons a lens ih =>
    have ha := h a (by simp)
    rw [weight_cons, ih (fun l hl => h l (by simp [hl]))]
    unfold kraft
    simp only [List.map_cons, List.sum_cons]
    by_cases h0 : a = 0
    · simp [h0]
    · simp [h0, show a < 16 by omega]; omega

theorem lenOf_le {lens : List Nat} (h : ∀ l ∈ lens, l ≤ 15) (s : Nat) : lenOf lens s ≤ 15 := by
  unfold lenOf
  by_cases hs : s < lens.length
  · rw [List.getD_eq_getElem _ _ hs]; exact h _ (List.getElem_mem hs)
  · rw [List.getD_eq_default _ _ (by omega)]; omega

theorem used_lt {lens : List Nat} {s : Nat} (h : Used lens s) : s < lens.length := by
  by_cases hs : s < lens.length
  · exact hs
  · unfold Used lenOf at h
    rw [List.getD_eq_default _ _ (by omega)] at h; omega

/-- number of earlier symbols of the same length is below the total number -/
theorem count_take_lt {lens : List Nat} {s : Nat} (h : s < lens.length) :
    (lens.take s).count (lenOf lens s) < lens.count (lenOf lens s) := by
  have e : lens = lens.take s ++ lens[s] :: lens.drop (s + 1) := by
    rw [← List.drop_eq_getElem_cons h, List.take_append_drop]
  have hl : lenOf lens s = lens[s] := by unfold lenOf; rw [List.getD_eq_getElem _ _ h]
  rw [hl]
  have c := congrArg (List.count lens[s]) e
  rw [List.count_append, List.count_cons_self] at c
  omega

/-- the interval of scaled code space occupied by a used symbol -/
theorem code_interval {lens : List Nat} (hc : IsCode lens) {s : Nat} (hu : Used lens s) :
    weight lens (lenOf lens s) ≤ codeVal lens s * 2 ^ (15 - lenOf lens s) ∧
    (codeVal lens s + 1) * 2 ^ (15 - lenOf lens s) ≤ weight lens (lenOf lens s + 1) := by
  have h15 := lenOf_le hc.1 s
  have hfw := firstCode_weight lens (lenOf lens s) h15
  have hlt := count_take_lt (used_lt hu)
  have hb : blCount lens (lenOf lens s) = lens.count (lenOf lens s) := by
    unfold blCount; rw [if_neg (by unfold Used at hu; omega)]
  unfold codeVal
  constructor
  · rw [Nat.add_mul, hfw]; omega
  · simp only [weight]
    rw [← hfw, hb, ← Nat.add_mul]
    apply Nat.mul_le_mul_right; omega

theorem weight_le {lens : List Nat} (hc : IsCode lens) {n : Nat} (h : n ≤ 16) : weight lens n ≤ 2 ^ 15 :=
  Nat.le_trans (weight_mono lens h) (weight_kraft lens hc.1 ▸ hc.2)

/-- codes fit their length -/
theorem codeVal_lt {lens : List Nat} (hc : IsCode lens) {s : Nat} (hu : Used lens s) :
    codeVal lens s < 2 ^ lenOf lens s := by
  have h15 := lenOf_le hc.1 s
  have h := (code_interval hc hu).2
  have hw := weight_le hc (n := lenOf lens s + 1) (by omega)
  have e : 2 ^ 15 = 2 ^ lenOf lens s * 2 ^ (15 - lenOf lens s) := by
    rw [← Nat.pow_add]; congr 1; omega
  have : (codeVal lens s + 1) * 2 ^ (15 - lenOf lens s) ≤ 2 ^ lenOf lens s * 2 ^ (15 - lenOf lens s) := by
    omega
  exact Nat.le_of_mul_le_mul_right this (Nat.two_pow_pos _)

theorem codeVal_inj {lens : List Nat} {s t : Nat} (hs : s < lens.length) (ht : t < lens.length)
    (hl : lenOf lens s = lenOf lens t) (hv : codeVal lens s = codeVal lens t) : s = t := by
  unfold codeVal at hv
  rw [hl] at hv
  have hcount : (lens.take s).count (lenOf lens t) = (lens.take t).count (lenOf lens t) := by omega
  have key : ∀ a b, a < b → b ≤ lens.length → lenOf lens a = lenOf lens t →
      (lens.take a).count (lenOf lens t) < (lens.take b).count (lenOf lens t) := by
    intro a b hab hb hla
    have h1 : a < (lens.take b).length := by simp; omega
    have := count_take_lt h1
    have e : lenOf (lens.take b) a = lenOf lens a := by
      unfold lenOf
      rw [List.getD_eq_getElem _ _ h1, List.getD_eq_getElem _ _ (by omega)]; simp
    rw [e, hla, List.take_take, Nat.min_eq_left (by omega)] at this
    exact this
  rcases Nat.lt_trichotomy s t with h | h | h
  · have := key s t h (by omega) hl; omega
  · exact h
  · have := key t s h (by omega) rfl; omega

/-- dropping the last bits of a number's big-endian form divides it -/
theorem take_reverse_natBits (m n v : Nat) (h : m ≤ n) :
    ((natBits n v).reverse).take m = (natBits m (v / 2 ^ (n - m))).reverse := by
  have e : n = (n - m) + m := by omega
  conv => lhs; rw [e, natBits_add, List.reverse_append]
  rw [List.take_append_of_le_length (by simp), List.take_of_length_le (by simp)]

/-- canonical codes are prefix free -/
theorem prefix_free {lens : List Nat} (hc : IsCode lens) {s t : Nat} (hs : Used lens s) (ht : Used lens t)
    (hp : codeBits lens s <+: codeBits lens t) : s = t := by
  have hle : lenOf lens s ≤ lenOf lens t := by
    have := hp.length_le; simpa using this
  have hvs := codeVal_lt hc hs
  have hvt := codeVal_lt hc ht
  have e : codeVal lens s = codeVal lens t / 2 ^ (lenOf lens t - lenOf lens s) := by
    have h1 := List.prefix_iff_eq_take.1 hp
    rw [codeBits_length] at h1
    unfold codeBits at h1
    rw [take_reverse_natBits _ _ _ hle] at h1
    have h2 := List.reverse_inj.1 h1
    apply natBits_inj h2 hvs
    rw [Nat.div_lt_iff_lt_mul (Nat.two_pow_pos _), ← Nat.pow_add]
    rwa [show lenOf lens s + (lenOf lens t - lenOf lens s) = lenOf lens t by omega]
  by_cases hl : lenOf lens s = lenOf lens t
  · apply codeVal_inj (used_lt hs) (used_lt ht) hl
    rw [hl] at e; simpa using e
  · exfalso
    have hlt : lenOf lens s < lenOf lens t := by omega
    have i1 := (code_interval hc hs).2
    have i2 := (code_interval hc ht).1
    have hm := weight_mono lens (show lenOf lens s + 1 ≤ lenOf lens t by omega)
    have h15 := lenOf_le hc.1 t
    have e15 : 2 ^ (15 - lenOf lens s) = 2 ^ (lenOf lens t - lenOf lens s) * 2 ^ (15 - lenOf lens t) := by
      rw [← Nat.pow_add]; congr 1; omega
    rw [e15, ← Nat.mul_assoc] at i1
    have : (codeVal lens s + 1) * 2 ^ (lenOf lens t - lenOf lens s) ≤ codeVal lens t := by
      have := Nat.le_trans i1 (Nat.le_trans hm i2)
      exact Nat.le_of_mul_le_mul_right this (Nat.two_pow_pos _)
    have h3 := Nat.div_add_mod (codeVal lens t) (2 ^ (lenOf lens t - lenOf lens s))
    have h4 := Nat.mod_lt (codeVal lens t) (Nat.two_pow_pos (lenOf lens t - lenOf lens s))
    rw [← e] at h3
    rw [Nat.add_mul, Nat.one_mul, Nat.mul_comm] at this
    omega

/-- two used symbols whose codes both begin the same bit string are equal -/
theorem prefix_unique {lens : List Nat} (hc : IsCode lens) {s t : Nat} (hs : Used lens s) (ht : Used lens t)
    {l : List Bool} (h1 : codeBits lens s <+: l) (h2 : codeBits lens t <+: l) : s = t := by
  rcases Nat.le_total (codeBits lens s).length (codeBits lens t).length with h | h
  · exact prefix_free hc hs ht (List.prefix_of_prefix_length_le h1 h2 h)
  · exact (prefix_free hc ht hs (List.prefix_of_prefix_length_le h2 h1 h)).symm

theorem isComplete_isCode {lens : List Nat} (h : IsComplete lens) : IsCode lens := ⟨h.1, Nat.le_of_eq h.2⟩

theorem fixedLL_complete : IsComplete fixedLL := by
  refine ⟨?_, by decide +kernel⟩
  intro l hl
  simp only [fixedLL, List.mem_append, List.mem_replicate] at hl
  omega

theorem fixedD_complete : IsComplete fixedD := by
  refine ⟨?_, by decide +kernel⟩
  intro l hl
  simp only [fixedD, List.mem_replicate] at hl
  omega

end Flate.Proof
