/-
What the two checksums detect for certain.
-/
import Verif.Spec.Damage
import Verif.Proof.Checksum
import Verif.Proof.Bits

namespace Flate.Proof
open Flate.Spec Flate.Model

/-! ### CRC-32 -/

theorem initStep_zero {x : BitVec 32} (h : Crc.initStep x = 0#32) : x = 0#32 := by
  rw [initStep_alt] at h
  have h31 := congrArg (fun y : BitVec 32 => y.getLsbD 31) h
  have hl : x.getLsbD 0 = false := by
    cases hx : x.getLsbD 0 with
    | false => rfl
    | true =>
      rw [hx] at h31
      simp [Crc.poly] at h31
  rw [hl] at h
  apply BitVec.eq_of_getLsbD_eq
  intro i hi
  cases i with
  | zero => simpa using hl
  | succ i =>
    have := congrArg (fun y : BitVec 32 => y.getLsbD i) h
    simp at this
    rw [Nat.add_comm] at this
    simpa using this

theorem initStep_inj {x y : BitVec 32} (h : Crc.initStep x = Crc.initStep y) : x = y := by
  have h1 : Crc.initStep (x ^^^ y) = 0#32 := by rw [initStep_xor, h]; simp
  have := initStep_zero h1
  rwa [BitVec.xor_eq_zero_iff] at this

theorem iter_inj : ∀ (n : Nat) {x y : BitVec 32}, iter n x = iter n y → x = y
  | 0, _, _, h => h
  | n + 1, _, _, h => iter_inj n (initStep_inj h)

theorem crcBit_inj {x y : BitVec 32} {b : Bool} (h : crcBit x b = crcBit y b) : x = y := by
  rw [crcBit_eq, crcBit_eq] at h
  exact (BitVec.xor_right_inj _).1 (by rw [BitVec.xor_comm, initStep_inj h, BitVec.xor_comm])

theorem foldBits_inj : ∀ (l : List Bool) {x y : BitVec 32}, l.foldl crcBit x = l.foldl crcBit y → x = y
  | [], _, _, h => h
  | _ :: l, _, _, h => crcBit_inj (foldBits_inj l h)

theorem foldBits_nat (l : List Bool) (h : l.length ≤ 32) (x : BitVec 32) : l.foldl crcBit x = iter l.length (x ^^^ BitVec.ofNat 32 (bitsNat l)) := by
  have h1 := fold_bits l.length (bitsNat l) x (bitsNat_lt l) h
  rw [← natBits_eq_map, natBits_bitsNat] at h1
  exact h1

theorem foldBits_burst {u v : List Bool} (hl : u.length = v.length) (h32 : u.length ≤ 32) {x : BitVec 32} (h : u.foldl crcBit x = v.foldl crcBit x) : u = v := by
  rw [foldBits_nat u h32, foldBits_nat v (by omega), hl] at h
  have h2 := (BitVec.xor_right_inj _).1 (iter_inj _ h)
  have h3 := congrArg BitVec.toNat h2
  have hlt : ∀ l : List Bool, l.length ≤ 32 → bitsNat l < 2 ^ 32 := fun l h =>
    Nat.lt_of_lt_of_le (bitsNat_lt l) (Nat.pow_le_pow_right (by decide) h)
  rw [BitVec.toNat_ofNat, BitVec.toNat_ofNat, Nat.mod_eq_of_lt (hlt u h32), Nat.mod_eq_of_lt (hlt v (by omega))] at h3
  rw [← natBits_bitsNat u, ← natBits_bitsNat v, h3, hl]

/-- CRC-32 detects every burst of at most 32 bits. -/
theorem crc_burst {d d' : List UInt8} (hb : Burst 32 d d') (h : crc32 d = crc32 d') : d = d' := by
  obtain ⟨p, u, v, q, h1, h2, h3, h4⟩ := hb
  have h5 : (bytesBits d).foldl crcBit (~~~ 0#32) = (bytesBits d').foldl crcBit (~~~ 0#32) := by
    have := congrArg (~~~ ·) h
    simpa [crc32] using this
  rw [h1, h2] at h5
  simp only [List.foldl_append] at h5
  have h6 := foldBits_burst h3 h4 (foldBits_inj q h5)
  subst h6
  exact bytesBits_inj (h1.trans h2.symm)

/-- the bytes which make up the generator polynomial -/
def genBytes : List UInt8 := [0x41, 0x06, 0x71, 0xdb, 0x01]

theorem crcBit_xor (r s : BitVec 32) (a b : Bool) : crcBit (r ^^^ s) (a ^^ b) = crcBit r a ^^^ crcBit s b := by
  rw [crcBit_eq, crcBit_eq, crcBit_eq, ← initStep_xor]
  congr 1
  have : BitVec.ofNat 32 (a ^^ b).toNat = BitVec.ofNat 32 a.toNat ^^^ BitVec.ofNat 32 b.toNat := by cases a <;> cases b <;> rfl
  rw [this]
  ac_rfl

theorem foldBits_xor : ∀ (u w : List Bool) (r s : BitVec 32), u.length = w.length →
    (List.zipWith (· ^^ ·) u w).foldl crcBit (r ^^^ s) = u.foldl crcBit r ^^^ w.foldl crcBit s
  | [], [], _, _, _ => rfl
  | [], _ :: _, _, _, h => by simp at h
  | _ :: _, [], _, _, h => by simp at h
  | a :: u, b :: w, r, s, h => by
    simp only [List.zipWith_cons_cons, List.foldl_cons, crcBit_xor]
    exact foldBits_xor u w _ _ (by simpa using h)

theorem byteBits_xor (a b : UInt8) : byteBits (a ^^^ b) = List.zipWith (· ^^ ·) (byteBits a) (byteBits b) := by
  simp only [byteBits_eq, UInt8.toNat_xor, Nat.testBit_xor, List.zipWith_cons_cons, List.zipWith_nil_left]

theorem bytesBits_xor : ∀ (u w : List UInt8), u.length = w.length → bytesBits (List.zipWith (· ^^^ ·) u w) = List.zipWith (· ^^ ·) (bytesBits u) (bytesBits w)
  | [], [], _ => rfl
  | [], _ :: _, h => by simp at h
  | _ :: _, [], h => by simp at h
  | a :: u, b :: w, h => by
    simp only [List.zipWith_cons_cons, bytesBits_cons, byteBits_xor, bytesBits_xor u w (by simpa using h)]
    rw [List.zipWith_append (by simp)]

/-- ... but not every burst of 33 bits. -/
theorem crc_not33 (p q : List UInt8) {u : List UInt8} (hu : u.length = 5) :
    crc32 (p ++ List.zipWith (· ^^^ ·) u genBytes ++ q) = crc32 (p ++ u ++ q) := by
  unfold crc32
  congr 1
  simp only [bytesBits_append, List.foldl_append]
  congr 1
  generalize (bytesBits p).foldl crcBit (~~~ 0#32) = r
  rw [bytesBits_xor _ _ (by rw [hu]; rfl)]
  have h := foldBits_xor (bytesBits u) (bytesBits genBytes) r 0#32 (by simp [hu, genBytes])
  rw [BitVec.xor_zero] at h
  rw [h]
  have : (bytesBits genBytes).foldl crcBit 0#32 = 0#32 := by decide +kernel
  rw [this, BitVec.xor_zero]

/-! ### Adler-32 -/

theorem natLoop_lin : ∀ (p : List UInt8) (s1 s2 : Nat), natLoop s1 s2 p = (s1 + (natLoop 0 0 p).1, s2 + s1 * p.length + (natLoop 0 0 p).2)
  | [], s1, s2 => by simp [natLoop]
  | b :: p, s1, s2 => by
    simp only [natLoop]
    rw [natLoop_lin p (s1 + b.toNat), natLoop_lin p (0 + b.toNat)]
    simp only [List.length_cons, Nat.mul_add, Nat.add_mul]
    refine Prod.ext ?_ ?_ <;> simp only [] <;> omega

theorem adler_eq {d d' : List UInt8} (h : adler32 d = adler32 d') : (natLoop 1 0 d).1 % 65521 = (natLoop 1 0 d').1 % 65521 ∧ (natLoop 1 0 d).2 % 65521 = (natLoop 1 0 d').2 % 65521 := by
  rw [natLoop_spec, natLoop_spec]
  unfold adler32 at h
  constructor <;> simp only [] <;> omega

theorem adler_of {d d' : List UInt8} (h1 : (natLoop 1 0 d).1 % 65521 = (natLoop 1 0 d').1 % 65521) (h2 : (natLoop 1 0 d).2 % 65521 = (natLoop 1 0 d').2 % 65521) : adler32 d = adler32 d' := by
  rw [natLoop_spec, natLoop_spec] at h1 h2
  unfold adler32
  simp only [] at h1 h2
  rw [h1, h2]

/-- the two sums after two bytes at a distance -/
theorem natLoop_two (p : List UInt8) (x : UInt8) (m : List UInt8) (y : UInt8) (q : List UInt8) : ∃ A B, ∀ (x y : UInt8),
    natLoop 1 0 (p ++ x :: m ++ y :: q) = (A + x.toNat + y.toNat, B + (m.length + 1) * x.toNat + (q.length + 1) * (x.toNat + y.toNat)) := by
  obtain ⟨⟨a1, a2⟩, ha⟩ : ∃ t, t = natLoop 1 0 p := ⟨_, rfl⟩
  obtain ⟨⟨m1, m2⟩, hm⟩ : ∃ t, t = natLoop 0 0 m := ⟨_, rfl⟩
  obtain ⟨⟨q1, q2⟩, hq⟩ : ∃ t, t = natLoop 0 0 q := ⟨_, rfl⟩
  refine ⟨a1 + m1 + q1, a2 + a1 + a1 * m.length + m2 + (a1 + m1) * (q.length + 1) + q2, fun x y => ?_⟩
  rw [List.append_assoc, natLoop_append, ← ha]
  simp only [List.cons_append, natLoop]
  rw [natLoop_append, natLoop_lin m, ← hm]
  simp only [natLoop]
  rw [natLoop_lin q, ← hq]
  simp only [Nat.add_mul, Nat.mul_add]
  refine Prod.ext ?_ ?_ <;> simp only [] <;> first | omega | skip
  simp only [Nat.mul_comm q.length, Nat.mul_comm m.length]
  omega

theorem coprime255 : ∀ k < 256, 0 < k → Nat.Coprime 65521 k := by decide +kernel

theorem two_apart {n a b : Nat} (hn : 0 < n) (hn' : n < 65521) (ha : a < 256) (hb : b < 256) (h : n * a % 65521 = n * b % 65521) : a = b := by
  rcases Nat.lt_trichotomy a b with hlt | rfl | hlt
  · have h1 : 65521 ∣ n * (b - a) := by
      rw [Nat.mul_sub]
      exact Nat.dvd_of_mod_eq_zero (Nat.sub_mod_eq_zero_of_mod_eq h.symm)
    have := (coprime255 (b - a) (by omega) (by omega)).dvd_of_dvd_mul_right h1
    have := Nat.le_of_dvd hn this
    omega
  · rfl
  · have h1 : 65521 ∣ n * (a - b) := by
      rw [Nat.mul_sub]
      exact Nat.dvd_of_mod_eq_zero (Nat.sub_mod_eq_zero_of_mod_eq h)
    have := (coprime255 (a - b) (by omega) (by omega)).dvd_of_dvd_mul_right h1
    have := Nat.le_of_dvd hn this
    omega

/-- Adler-32 detects every change of two bytes which are less than 65521 places apart. -/
theorem adler_two {n : Nat} (hn : n < 65521) {d d' : List UInt8} (hd : TwoBytes n d d') (h : adler32 d = adler32 d') : d = d' := by
  obtain ⟨p, x, m, y, q, x', y', rfl, rfl, rfl⟩ := hd
  obtain ⟨A, B, hAB⟩ := natLoop_two p x m y q
  obtain ⟨h1, h2⟩ := adler_eq h
  rw [hAB, hAB] at h1 h2
  simp only [] at h1 h2
  have k1 := x.toNat_lt
  have k2 := y.toNat_lt
  have k3 := x'.toNat_lt
  have k4 := y'.toNat_lt
  have hs : x.toNat + y.toNat = x'.toNat + y'.toNat := by omega
  rw [hs] at h2
  have hx : x.toNat = x'.toNat := two_apart (n := m.length + 1) (by omega) hn (by omega) (by omega) (by omega)
  have hy : y.toNat = y'.toNat := by omega
  rw [UInt8.toNat_inj.1 hx, UInt8.toNat_inj.1 hy]

/-- Adler-32 detects every change of one byte. -/
theorem adler_one {d d' : List UInt8} (hd : Within 1 d d') (h : adler32 d = adler32 d') : d = d' := by
  obtain ⟨p, u, v, q, rfl, rfl, hl, h1⟩ := hd
  rcases u with _ | ⟨x, _ | ⟨y, u⟩⟩ <;> rcases v with _ | ⟨x', _ | ⟨y', v⟩⟩ <;> simp at hl h1
  · rfl
  obtain ⟨h1, _⟩ := adler_eq h
  rw [natLoop_append, natLoop_append, natLoop_append, natLoop_append, natLoop_lin q, natLoop_lin q (natLoop _ _ [x']).1] at h1
  simp only [natLoop] at h1
  have k1 := x.toNat_lt
  have k3 := x'.toNat_lt
  have hx : x.toNat = x'.toNat := by omega
  rw [UInt8.toNat_inj.1 hx]

/-- ... but not of two bytes 65521 places apart, -/
theorem adler_not65521 (p : List UInt8) {m : List UInt8} (q : List UInt8) {x y : UInt8} (hm : m.length + 1 = 65521) (hx : x.toNat < 255) (hy : 0 < y.toNat) :
    adler32 (p ++ (x + 1) :: m ++ (y - 1) :: q) = adler32 (p ++ x :: m ++ y :: q) := by
  obtain ⟨A, B, hAB⟩ := natLoop_two p x m y q
  have h1 : (x + 1).toNat = x.toNat + 1 := by rw [UInt8.toNat_add]; simp; omega
  have h2 : (y - 1).toNat = y.toNat - 1 := by rw [UInt8.toNat_sub]; simp; have := y.toNat_lt; omega
  apply adler_of <;> rw [hAB, hAB] <;> simp only [h1, h2, hm]
  · omega
  · rw [show x.toNat + 1 + (y.toNat - 1) = x.toNat + y.toNat by omega]
    omega

/-- ... and not of three neighbouring bytes. -/
theorem adler_not3 (p q : List UInt8) {x y z : UInt8} (hx : x.toNat < 255) (hy : 2 ≤ y.toNat) (hz : z.toNat < 255) :
    adler32 (p ++ [x + 1, y - 2, z + 1] ++ q) = adler32 (p ++ [x, y, z] ++ q) := by
  have h1 : (x + 1).toNat = x.toNat + 1 := by rw [UInt8.toNat_add]; simp; omega
  have h2 : (y - 2).toNat = y.toNat - 2 := by rw [UInt8.toNat_sub]; simp; have := y.toNat_lt; omega
  have h3 : (z + 1).toNat = z.toNat + 1 := by rw [UInt8.toNat_add]; simp; omega
  have e : natLoop 1 0 (p ++ [x + 1, y - 2, z + 1] ++ q) = natLoop 1 0 (p ++ [x, y, z] ++ q) := by
    rw [natLoop_append, natLoop_append, natLoop_append, natLoop_append]
    congr 1
    · simp only [natLoop, h1, h2, h3]; omega
    · simp only [natLoop, h1, h2, h3]; omega
  exact adler_of (by rw [e]) (by rw [e])

end Flate.Proof
