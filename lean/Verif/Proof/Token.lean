import Verif.Model.Token
import Verif.Spec.Deflate
import Verif.Proof.Huffman
import Mathlib.Data.Nat.Bitwise

namespace Flate.Proof
open Flate.Spec Flate.Model

/-! ### length and distance symbols -/

/-- the length part of a copy token is encoded as RFC 1951 says -/
theorem symbolLL_copy {len dist : Nat} (h3 : 3 ≤ len) (h258 : len ≤ 258) (hd : dist ≠ 0) :
    ∃ li lx, Token.symbolLL ⟨len, dist⟩ = .ok (some (257 + li), lenExtra.getD li 0, lx) ∧
      li < 29 ∧ lx < 2 ^ lenExtra.getD li 0 ∧ refLen li lx = len := by
  have e : Token.symbolLL ⟨len, dist⟩ = Token.symbolLL ⟨len, 1⟩ := by
    unfold Token.symbolLL; simp [hd]
  have check : ∀ l : Nat, l < 259 → 3 ≤ l →
      (match Token.symbolLL ⟨l, 1⟩ with
       | .ok (some s, n, x) => decide (257 ≤ s ∧ s - 257 < 29 ∧ n = lenExtra.getD (s - 257) 0 ∧ x < 2 ^ n ∧
            refLen (s - 257) x = l)
       | _ => false) = true := by decide +kernel
  have c := check len (by omega) h3
  rw [e]
  revert c
  cases Token.symbolLL ⟨len, 1⟩ with
  | error _ => simp
  | ok r =>
    obtain ⟨s, n, x⟩ := r
    cases s with
    | none => simp
    | some s =>
      intro c
      simp only [decide_eq_true_eq] at c
      obtain ⟨c1, c2, c3, c4, c5⟩ := c
      refine ⟨s - 257, x, ?_, c2, c3 ▸ c4, c5⟩
      rw [← c3, show 257 + (s - 257) = s by omega]

theorem symbolLL_lit (b : UInt8) : Token.symbolLL (makeLiteralToken b) = .ok (some b.toNat, 0, 0) := by
  have := b.toNat_lt
  unfold Token.symbolLL makeLiteralToken
  simp only [true_and]
  rw [if_neg (by omega), if_neg (by omega)]
  simp

theorem symbolLL_stop : Token.symbolLL makeStopToken = .ok (some 256, 0, 0) := rfl

theorem log2_bounds {d k : Nat} (hk : bitLen d = k + 1) : 2 ^ k ≤ d ∧ d < 2 ^ (k + 1) := by
  unfold bitLen at hk
  split at hk
  · omega
  · have : Nat.log2 d = k := by omega
    subst this
    exact ⟨Nat.log2_self_le (by assumption), Nat.lt_log2_self⟩

theorem symbolD_copy {len dist : Nat} (h1 : 1 ≤ dist) (h2 : dist ≤ 32768) :
    ∃ di dx, Token.symbolD ⟨len, dist⟩ = .ok (some di, distExtra.getD di 0, dx) ∧
      di < 30 ∧ dx < 2 ^ distExtra.getD di 0 ∧ refDist di dx = dist := by
  by_cases h4 : dist ≤ 4
  · have : dist = 1 ∨ dist = 2 ∨ dist = 3 ∨ dist = 4 := by omega
    rcases this with rfl | rfl | rfl | rfl
    · exact ⟨0, 0, rfl, by decide⟩
    · exact ⟨1, 0, rfl, by decide⟩
    · exact ⟨2, 0, rfl, by decide⟩
    · exact ⟨3, 0, rfl, by decide⟩
  · unfold Token.symbolD
    simp only [show dist ≠ 0 by omega, h4, h2, if_true, if_false]
    have hd0 : dist - 1 ≠ 0 := by omega
    obtain ⟨k, hk⟩ : ∃ k, bitLen (dist - 1) = k + 1 := by
      refine ⟨Nat.log2 (dist - 1), ?_⟩
      unfold bitLen; rw [if_neg hd0]
    obtain ⟨lo, hi⟩ := log2_bounds hk
    have k2 : 2 ≤ k := by
      rcases Nat.lt_or_ge k 2 with hc | hc
      · have : k = 0 ∨ k = 1 := by omega
        rcases this with rfl | rfl <;> simp at hi <;> omega
      · exact hc
    have k14 : k ≤ 14 := by
      rcases Nat.lt_or_ge 14 k with hc | hc
      · have : 2 ^ 15 ≤ 2 ^ k := Nat.pow_le_pow_right (by omega) (by omega)
        omega
      · exact hc
    rw [hk]
    generalize hd : dist - 1 = d at *
    have hand : (d &&& 1 <<< (k + 1 - 2) = 0) ↔ (d / 2 ^ (k - 1)) % 2 = 0 := by
      have e : k + 1 - 2 = k - 1 := by omega
      rw [e, Nat.one_shiftLeft, Nat.and_two_pow]
      rw [show d.testBit (k-1) = decide ((d / 2 ^ (k - 1)) % 2 = 1) from Nat.testBit_eq_decide_div_mod_eq]
      have hp := Nat.two_pow_pos (k - 1)
      by_cases h : d / 2 ^ (k - 1) % 2 = 1
      · simp [h]
      · simp [h]; omega
    have hmask : ∀ n, d &&& (1 <<< n - 1) = d % 2 ^ n := by
      intro n; rw [Nat.one_shiftLeft, Nat.and_two_pow_sub_one_eq_mod]
    simp only [hand, hmask]
    have hdist : dist = d + 1 := by omega
    have cases : k = 2 ∨ k = 3 ∨ k = 4 ∨ k = 5 ∨ k = 6 ∨ k = 7 ∨ k = 8 ∨ k = 9 ∨ k = 10 ∨ k = 11 ∨ k = 12 ∨
      k = 13 ∨ k = 14 := by omega
    rcases cases with rfl | rfl | rfl | rfl | rfl | rfl | rfl | rfl | rfl | rfl | rfl | rfl | rfl <;>
    · split
      · refine ⟨_, _, rfl, by decide, ?_, ?_⟩
        · simp [distExtra]; omega
        · simp [refDist, distBase] at *; omega
      · refine ⟨_, _, rfl, by decide, ?_, ?_⟩
        · simp [distExtra]; omega
        · simp [refDist, distBase] at *; omega

theorem symbolD_lit (n : Nat) : Token.symbolD ⟨n, 0⟩ = .ok (none, 0, 0) := rfl

end Flate.Proof
