/-
Ways in which data can be damaged without changing its length, independent of the model.
-/
import Verif.Spec.Checksum

namespace Flate.Spec

/-- `a` and `b` differ at most inside `n` consecutive places -/
def Within {α : Type} (n : Nat) (a b : List α) : Prop :=
  ∃ p u v q, a = p ++ u ++ q ∧ b = p ++ v ++ q ∧ u.length = v.length ∧ u.length ≤ n

/-- The bits of `d` and `d'` (least significant bit of each byte first) differ at most inside a burst of `n` consecutive bits. -/
def Burst (n : Nat) (d d' : List UInt8) : Prop := Within n (bytesBits d) (bytesBits d')

/-- `d` and `d'` differ at most in two bytes, which are `n` places apart -/
def TwoBytes (n : Nat) (d d' : List UInt8) : Prop :=
  ∃ p x m y q x' y', d = p ++ x :: m ++ y :: q ∧ d' = p ++ x' :: m ++ y' :: q ∧ m.length + 1 = n

end Flate.Spec
