import Verif.Spec.Bits

namespace Flate.Proof
open Flate.Spec

@[simp] theorem natBits_length (n v : Nat) : (natBits n v).length = n := by
  induction n generalizing v with
  | zero => rfl
  | succ n ih => simp [natBits, ih]

@[simp] theorem natBits_zero (v : Nat) : natBits 0 v = [] := rfl

theorem testBit_zero_toNat (v : Nat) : (v.testBit 0).toNat = v % 2 := by
  rw [Nat.testBit_zero]
  rcases Nat.mod_two_eq_zero_or_one v with h | h <;> simp [h]

theorem bitsNat_natBits (n v : Nat) : bitsNat (natBits n v) = v % 2 ^ n := by
  induction n generalizing v with
  | zero => simp [natBits, bitsNat, Nat.mod_one]
  | succ n ih =>
    simp only [natBits, bitsNat, ih, testBit_zero_toNat]
    rw [Nat.pow_succ, Nat.mul_comm (2 ^ n) 2, Nat.mod_mul]

theorem bitsNat_natBits_lt {n v : Nat} (h : v < 2 ^ n) : bitsNat (natBits n v) = v := by
  rw [bitsNat_natBits, Nat.mod_eq_of_lt h]

theorem bitsNat_lt (l : List Bool) : bitsNat l < 2 ^ l.length := by
  induction l with
  | nil => simp [bitsNat]
  | cons b l ih =>
    simp only [bitsNat, List.length_cons, Nat.pow_succ]
    have : b.toNat ≤ 1 := Bool.toNat_le b
    omega

theorem natBits_bitsNat (l : List Bool) : natBits l.length (bitsNat l) = l := by
  induction l with
  | nil => rfl
  | cons b l ih =>
    simp only [bitsNat, List.length_cons, natBits]
    have h1 : (b.toNat + 2 * bitsNat l).testBit 0 = b := by
      rw [Nat.testBit_zero]; cases b <;> simp <;> omega
    have h2 : (b.toNat + 2 * bitsNat l) / 2 = bitsNat l := by
      have : b.toNat ≤ 1 := Bool.toNat_le b
      omega
    rw [h1, h2, ih]

theorem bitsNat_append (a b : List Bool) : bitsNat (a ++ b) = bitsNat a + 2 ^ a.length * bitsNat b := by
  induction a with
  | nil => simp [bitsNat]
  | cons x a ih =>
    simp only [List.cons_append, bitsNat, ih, List.length_cons, Nat.pow_succ, Nat.mul_add]
    rw [Nat.mul_comm (2 ^ a.length) 2, Nat.mul_assoc]
    omega

theorem natBits_add (m n v : Nat) : natBits (m + n) v = natBits m v ++ natBits n (v / 2 ^ m) := by
  induction m generalizing v with
  | zero => simp
  | succ m ih =>
    rw [show m + 1 + n = (m + n) + 1 by omega]
    simp only [natBits, ih, List.cons_append]
    rw [Nat.div_div_eq_div_mul, Nat.pow_succ, Nat.mul_comm 2]

theorem natBits_mod (n v : Nat) : natBits n (v % 2 ^ n) = natBits n v := by
  have := natBits_bitsNat (natBits n v)
  rw [natBits_length, bitsNat_natBits] at this
  exact this

theorem natBits_inj {n u v : Nat} (h : natBits n u = natBits n v) (hu : u < 2 ^ n) (hv : v < 2 ^ n) :
    u = v := by
  have := congrArg bitsNat h
  rwa [bitsNat_natBits_lt hu, bitsNat_natBits_lt hv] at this

theorem natBits_eq_map (n v : Nat) : natBits n v = (List.range n).map fun i => v.testBit i := by
  induction n generalizing v with
  | zero => rfl
  | succ n ih =>
    rw [List.range_succ_eq_map]
    simp only [natBits, ih, List.map_cons, List.map_map]
    congr 1
    apply List.map_congr_left
    intro i _
    simp [Nat.testBit_succ]

theorem byteBits_natBits (b : UInt8) : byteBits b = natBits 8 b.toNat := (natBits_eq_map 8 _).symm

@[simp] theorem byteBits_length (b : UInt8) : (byteBits b).length = 8 := by
  rw [byteBits_natBits, natBits_length]

@[simp] theorem bytesBits_nil : bytesBits [] = [] := rfl
@[simp] theorem bytesBits_cons (b : UInt8) (l : List UInt8) :
    bytesBits (b :: l) = byteBits b ++ bytesBits l := rfl
@[simp] theorem bytesBits_append (a b : List UInt8) : bytesBits (a ++ b) = bytesBits a ++ bytesBits b := by
  simp [bytesBits]
@[simp] theorem bytesBits_length (l : List UInt8) : (bytesBits l).length = 8 * l.length := by
  induction l with
  | nil => rfl
  | cons b l ih => simp [ih]; omega

theorem bitsNat_byteBits (b : UInt8) : bitsNat (byteBits b) = b.toNat := by
  rw [byteBits_natBits, bitsNat_natBits_lt b.toNat_lt]

theorem byteBits_inj {a b : UInt8} (h : byteBits a = byteBits b) : a = b := by
  apply UInt8.toNat_inj.1
  rw [← bitsNat_byteBits, h, bitsNat_byteBits]

theorem bytesBits_inj {a b : List UInt8} (h : bytesBits a = bytesBits b) : a = b := by
  induction a generalizing b with
  | nil =>
    have := congrArg List.length h
    simp only [bytesBits_length, List.length_nil] at this
    exact (List.length_eq_zero_iff.1 (by omega)).symm
  | cons x a ih =>
    cases b with
    | nil => have := congrArg List.length h; simp at this
    | cons y b =>
      simp only [bytesBits_cons] at h
      obtain ⟨h1, h2⟩ := List.append_inj h (by simp)
      rw [byteBits_inj h1, ih h2]

@[simp] theorem leBytes_length (n v : Nat) : (leBytes n v).length = n := by
  induction n generalizing v with
  | zero => rfl
  | succ n ih => simp [leBytes, ih]

@[simp] theorem beBytes_length (n v : Nat) : (beBytes n v).length = n := by simp [beBytes]

theorem bytesBits_leBytes (n v : Nat) : bytesBits (leBytes n v) = natBits (8 * n) v := by
  induction n generalizing v with
  | zero => rfl
  | succ n ih =>
    rw [show 8 * (n + 1) = 8 + 8 * n by omega, natBits_add]
    simp only [leBytes, bytesBits_cons, ih, byteBits_natBits]
    rw [UInt8.toNat_ofNat']
    rw [natBits_mod]

theorem leBytes_inj {n u v : Nat} (h : leBytes n u = leBytes n v) (hu : u < 2 ^ (8 * n))
    (hv : v < 2 ^ (8 * n)) : u = v := by
  have := congrArg bytesBits h
  rw [bytesBits_leBytes, bytesBits_leBytes] at this
  exact natBits_inj this hu hv

theorem beBytes_inj {n u v : Nat} (h : beBytes n u = beBytes n v) (hu : u < 2 ^ (8 * n))
    (hv : v < 2 ^ (8 * n)) : u = v := leBytes_inj (List.reverse_inj.1 h) hu hv

/-- every list of `n` bytes is the little-endian form of a number -/
theorem leBytes_surj (l : List UInt8) : ∃ v, v < 2 ^ (8 * l.length) ∧ leBytes l.length v = l := by
  refine ⟨bitsNat (bytesBits l), by simpa using bitsNat_lt (bytesBits l), ?_⟩
  apply bytesBits_inj
  rw [bytesBits_leBytes, ← bytesBits_length, natBits_bitsNat]

theorem padLen_lt (pos : Nat) : padLen pos < 8 := by unfold padLen; omega

theorem padLen_spec (pos : Nat) : (pos + padLen pos) % 8 = 0 := by unfold padLen; omega

end Flate.Proof
