/-
C26 and C27, encoding side: length and distance symbols, and the run-length code for code lengths.
-/
import Verif.Proof.Rle

namespace Flate.Props
open Flate.Spec Flate.Model Flate.Proof

/-- For every legal copy length the literal/length symbol, the number of extra bits and their value are
those of the RFC 1951 table. -/
theorem C26_encode_length {len dist : Nat} (h3 : 3 ≤ len) (h258 : len ≤ 258) (hd : dist ≠ 0) :
    ∃ li lx, Token.symbolLL ⟨len, dist⟩ = .ok (some (257 + li), lenExtra.getD li 0, lx) ∧
      li < 29 ∧ lx < 2 ^ lenExtra.getD li 0 ∧ lenBase.getD li 0 + lx = len := symbolLL_copy h3 h258 hd

/-- Likewise for every distance. -/
theorem C26_encode_distance {len dist : Nat} (h1 : 1 ≤ dist) (h2 : dist ≤ 32768) :
    ∃ di dx, Token.symbolD ⟨len, dist⟩ = .ok (some di, distExtra.getD di 0, dx) ∧
      di < 30 ∧ dx < 2 ^ distExtra.getD di 0 ∧ distBase.getD di 0 + dx = dist := symbolD_copy h1 h2

/-- length 258 is sent as symbol 285, as RFC 1951 wants, and never as 284 with extra bits 31 -/
theorem C26_encode_258 (dist : Nat) (hd : dist ≠ 0) : Token.symbolLL ⟨258, dist⟩ = .ok (some 285, 0, 0) := by
  unfold Token.symbolLL; simp [hd]

/-- literals and the end of block -/
theorem C26_encode_literal (b : UInt8) : Token.symbolLL (makeLiteralToken b) = .ok (some b.toNat, 0, 0) ∧
    Token.symbolD (makeLiteralToken b) = .ok (none, 0, 0) := ⟨symbolLL_lit b, symbolD_lit _⟩

/-- every combination of symbol and extra bits of the RFC tables is a legal length or distance -/
theorem C26_tables :
    (∀ li lx, li < 29 → lx < 2 ^ lenExtra.getD li 0 → 3 ≤ lenBase.getD li 0 + lx ∧ lenBase.getD li 0 + lx ≤ 258) ∧
    (∀ di dx, di < 30 → dx < 2 ^ distExtra.getD di 0 → 1 ≤ distBase.getD di 0 + dx ∧ distBase.getD di 0 + dx ≤ 32768) := by
  constructor
  · intro li lx h1 h2
    have : ∀ li, li < 29 → 3 ≤ lenBase.getD li 0 ∧ lenBase.getD li 0 + 2 ^ lenExtra.getD li 0 ≤ 259 := by decide +kernel
    have := this li h1
    omega
  · intro di dx h1 h2
    have : ∀ di, di < 30 → 1 ≤ distBase.getD di 0 ∧ distBase.getD di 0 + 2 ^ distExtra.getD di 0 ≤ 32769 := by decide +kernel
    have := this di h1
    omega

/-- The code lengths are never all zero from a position before `min` on, except from position 0; this is so for
the literal/length codes (the end-of-block symbol 256 has a code and `min` is 257) and the distance codes (`min` is 1). -/
def MinUsed (sizes : List Nat) (min : Nat) : Prop :=
  min ≤ sizes.length ∧ ∀ i, 0 < i → i < min → ∃ k, i ≤ k ∧ 0 < sizes.getD k 0

theorem MinUsed.minOK {sizes : List Nat} {min : Nat} (h : MinUsed sizes min) : MinOK sizes min := by
  refine ⟨h.1, fun i hi hz => ?_⟩
  by_cases h0 : i = 0
  · exact h0
  · obtain ⟨k, h1, h2⟩ := h.2 i (by omega) hi
    have := (allZero_iff _).1 hz (k - i)
    rw [List.getD_eq_getElem?_getD, List.getElem?_drop, show i + (k - i) = k by omega,
      ← List.getD_eq_getElem?_getD] at this
    omega

/-- The run-length tokens, read by the rules of RFC 1951 3.2.7 (`clExpand`) after any code lengths `pre`,
stand for exactly the first `n` of the code lengths, where `n` is at least `min` and all lengths from `n` on are zero. -/
theorem C27_encode {sizes : List Nat} {min : Nat} (hm : MinUsed sizes min) (h16 : ∀ s ∈ sizes, s < 16) (xt : List Token) :
    ∃ ts n, encodeTreeTokens xt sizes min = .ok (xt ++ ts, n) ∧ min ≤ n ∧ n ≤ sizes.length ∧
      (∀ t ∈ ts, ∃ s x, t.symbolX = (some s, clExtra s, x) ∧ s < 19 ∧ x < 2 ^ clExtra s) ∧
      (∀ pre, clExpand pre (ts.map fun t => (t.symbolX.1.getD 0, t.symbolX.2.2)) = some (pre ++ sizes.take n)) ∧
      (∀ k, n ≤ k → sizes.getD k 0 = 0) ∧ (n = min ∨ sizes.getD (n - 1) 0 ≠ 0) := by
  obtain ⟨ts, n, h1, h2, h3, h4, h5, h6, h7⟩ := encodeTreeTokens_spec hm.minOK h16 xt
  refine ⟨ts, n, h1, h2, h3, h4, h5, fun k hk => ?_, h7⟩
  have := (allZero_iff _).1 h6 (k - n)
  rw [List.getD_eq_getElem?_getD, List.getElem?_drop, show n + (k - n) = k by omega,
    ← List.getD_eq_getElem?_getD] at this
  exact this

/-- the fixed code's lengths meet the hypotheses -/
example : MinUsed fixedLL 257 ∧ ∀ s ∈ fixedLL, s < 16 := by
  refine ⟨⟨by decide +kernel, fun i _ h2 => ⟨256, by omega, by decide +kernel⟩⟩, by decide +kernel⟩

/-- The hypothesis is needed: for `0 < i < min` with only zeros from `i` on the loop counts wrongly.  (The Writer
never does this.) -/
example : (encodeTreeTokens [] [1, 1, 1, 0, 0] 4).toOption.map (·.2) = some 7 := by decide +kernel

end Flate.Props
