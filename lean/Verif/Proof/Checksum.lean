import Verif.Spec.Checksum
import Verif.Model.Checksum

namespace Flate.Proof
open Flate.Spec Flate.Model

/-! ### Adler-32 -/

/-- sums in `Nat`, without any reduction -/
def natLoop : Nat → Nat → List UInt8 → Nat × Nat
  | s1, s2, [] => (s1, s2)
  | s1, s2, c :: p => natLoop (s1 + c.toNat) (s2 + (s1 + c.toNat)) p

theorem natLoop_append (s1 s2 : Nat) (p q : List UInt8) :
    natLoop s1 s2 (p ++ q) = natLoop (natLoop s1 s2 p).1 (natLoop s1 s2 p).2 q := by
  induction p generalizing s1 s2 with
  | nil => rfl
  | cons c p ih => simp [natLoop, ih]

theorem natLoop_bound (p : List UInt8) : ∀ (s1 s2 : Nat),
    (natLoop s1 s2 p).1 ≤ s1 + 255 * p.length ∧
    2 * (natLoop s1 s2 p).2 ≤ 2 * s2 + 2 * s1 * p.length + 255 * p.length * (p.length + 1) := by
  induction p with
  | nil => intro s1 s2; simp [natLoop]
  | cons c p ih =>
    intro s1 s2
    have hc : c.toNat ≤ 255 := by have := c.toNat_lt; omega
    obtain ⟨h1, h2⟩ := ih (s1 + c.toNat) (s2 + (s1 + c.toNat))
    simp only [natLoop, List.length_cons]
    refine ⟨by omega, ?_⟩
    have h3 : c.toNat * p.length ≤ 255 * p.length := Nat.mul_le_mul_right _ hc
    have e1 : 2 * (s1 + c.toNat) * p.length = 2 * s1 * p.length + 2 * (c.toNat * p.length) := by
      rw [Nat.mul_add, Nat.add_mul, Nat.mul_assoc 2 c.toNat]
    have e2 : 255 * (p.length + 1) * (p.length + 1 + 1)
        = 255 * p.length * (p.length + 1) + 2 * 255 * (p.length) + 2 * 255 := by
      simp only [Nat.mul_add, Nat.add_mul]; omega
    have e3 : 2 * s1 * (p.length + 1) = 2 * s1 * p.length + 2 * s1 := by
      rw [Nat.mul_add]; omega
    omega

theorem natLoop_mono (p : List UInt8) : ∀ (s1 s2 : Nat),
    s1 ≤ (natLoop s1 s2 p).1 ∧ s2 ≤ (natLoop s1 s2 p).2 := by
  induction p with
  | nil => intro s1 s2; simp [natLoop]
  | cons c p ih =>
    intro s1 s2
    have := ih (s1 + c.toNat) (s2 + (s1 + c.toNat))
    simp only [natLoop]; omega

theorem natLoop_mod (p : List UInt8) (m : Nat) : ∀ (s1 s2 t1 t2 : Nat),
    s1 % m = t1 % m → s2 % m = t2 % m →
    (natLoop s1 s2 p).1 % m = (natLoop t1 t2 p).1 % m ∧
    (natLoop s1 s2 p).2 % m = (natLoop t1 t2 p).2 % m := by
  induction p with
  | nil => intro s1 s2 t1 t2 h1 h2; exact ⟨h1, h2⟩
  | cons c p ih =>
    intro s1 s2 t1 t2 h1 h2
    have a1 : (s1 + c.toNat) % m = (t1 + c.toNat) % m := by rw [Nat.add_mod, h1, ← Nat.add_mod]
    apply ih
    · exact a1
    · rw [Nat.add_mod, h2, a1, ← Nat.add_mod]

theorem tailLoop_toNat (p : List UInt8) : ∀ (s1 s2 : BitVec 32),
    (natLoop s1.toNat s2.toNat p).1 < 2^32 → (natLoop s1.toNat s2.toNat p).2 < 2^32 →
    (Adler.tailLoop s1 s2 p).1.toNat = (natLoop s1.toNat s2.toNat p).1 ∧
    (Adler.tailLoop s1 s2 p).2.toNat = (natLoop s1.toNat s2.toNat p).2 := by
  induction p with
  | nil => intro s1 s2 _ _; exact ⟨rfl, rfl⟩
  | cons c p ih =>
    intro s1 s2 h1 h2
    simp only [natLoop] at h1 h2
    have m := natLoop_mono p (s1.toNat + c.toNat) (s2.toNat + (s1.toNat + c.toNat))
    have hc : (u32OfByte c).toNat = c.toNat := by
      have := c.toNat_lt
      simp [u32OfByte]
    have e1 : (s1 + u32OfByte c).toNat = s1.toNat + c.toNat := by
      rw [BitVec.toNat_add, hc]; apply Nat.mod_eq_of_lt; omega
    have e2 : (s2 + (s1 + u32OfByte c)).toNat = s2.toNat + (s1.toNat + c.toNat) := by
      rw [BitVec.toNat_add, e1]; apply Nat.mod_eq_of_lt; omega
    simp only [Adler.tailLoop, natLoop]
    rw [← e2, ← e1] at h1 h2 ⊢
    exact ih _ _ h1 h2

theorem unrolledLoop_eq (s1 s2 : BitVec 32) (p : List UInt8) :
    Adler.unrolledLoop s1 s2 p = Adler.tailLoop s1 s2 p := by
  fun_induction Adler.unrolledLoop s1 s2 p with
  | case1 s1 s2 c0 c1 c2 c3 p _ _ _ _ _ _ _ _ ih => rw [ih]; rfl
  | case2 => rfl

theorem chunkLoop_toNat (s1 s2 : BitVec 32) (p : List UInt8) :
    s1.toNat < 65536 → s2.toNat < 65536 → p ≠ [] →
    (Adler.chunkLoop s1 s2 p).1.toNat = (natLoop s1.toNat s2.toNat p).1 % 65521 ∧
    (Adler.chunkLoop s1 s2 p).2.toNat = (natLoop s1.toNat s2.toNat p).2 % 65521 := by
  fun_induction Adler.chunkLoop s1 s2 p with
  | case1 s1 s2 => intro _ _ h; exact absurd rfl h
  | case2 s1 s2 p hp r ih =>
    intro h1 h2 _
    have hlen : (p.take Adler.nmax).length ≤ 5552 := by simp [Adler.nmax]; omega
    have hb := natLoop_bound (p.take Adler.nmax) s1.toNat s2.toNat
    generalize hL : (p.take Adler.nmax).length = L at *
    have q1 : s1.toNat * L ≤ 65535 * 5552 := Nat.mul_le_mul (by omega) hlen
    have q2 : L * (L + 1) ≤ 5552 * 5553 := Nat.mul_le_mul hlen (by omega)
    rw [Nat.mul_assoc 2, Nat.mul_assoc 255] at hb
    have t := tailLoop_toNat (p.take Adler.nmax) s1 s2 (by omega) (by omega)
    rw [← unrolledLoop_eq] at t
    have m1 : (r.1 % Adler.modulus).toNat = (natLoop s1.toNat s2.toNat (p.take Adler.nmax)).1 % 65521 := by
      rw [BitVec.toNat_umod, t.1]; rfl
    have m2 : (r.2 % Adler.modulus).toNat = (natLoop s1.toNat s2.toNat (p.take Adler.nmax)).2 % 65521 := by
      rw [BitVec.toNat_umod, t.2]; rfl
    by_cases hd : p.drop Adler.nmax = []
    · have ht : p.take Adler.nmax = p := by
        have := List.take_append_drop Adler.nmax p
        rw [hd, List.append_nil] at this; exact this
      rw [hd, Adler.chunkLoop]
      simp only [↓reduceDIte]
      rw [ht] at m1 m2
      exact ⟨m1, m2⟩
    · have k := ih (by rw [m1]; omega) (by rw [m2]; omega) hd
      rw [k.1, k.2, m1, m2]
      conv => rhs; rw [← List.take_append_drop Adler.nmax p]
      conv => lhs; rw [← List.take_append_drop Adler.nmax p]
      rw [natLoop_append]
      have := natLoop_mod (p.drop Adler.nmax) 65521
        ((natLoop s1.toNat s2.toNat (p.take Adler.nmax)).1 % 65521)
        ((natLoop s1.toNat s2.toNat (p.take Adler.nmax)).2 % 65521)
        (natLoop s1.toNat s2.toNat (p.take Adler.nmax)).1
        (natLoop s1.toNat s2.toNat (p.take Adler.nmax)).2 (by simp) (by simp)
      simpa using this

/-- packing of the two halves -/
theorem pack_toNat (a b : BitVec 32) (ha : a.toNat < 65536) (hb : b.toNat < 65536) :
    ((b <<< 16) ||| a).toNat = b.toNat * 65536 + a.toNat := by
  rw [BitVec.toNat_or, BitVec.toNat_shiftLeft]
  rw [Nat.shiftLeft_eq, Nat.mod_eq_of_lt (by omega)]
  rw [← Nat.shiftLeft_eq, ← Nat.shiftLeft_add_eq_or_of_lt (by simpa using ha), Nat.shiftLeft_eq]

/-- the invariant of a running Adler-32 state: it is the definition's value for the data so far -/
theorem adler_halves (sum : BitVec 32) :
    (sum &&& 0xffff#32).toNat = sum.toNat % 65536 ∧ (sum >>> 16).toNat = sum.toNat / 65536 := by
  constructor
  · rw [BitVec.toNat_and]
    exact Nat.and_two_pow_sub_one_eq_mod sum.toNat 16
  · rw [BitVec.toNat_ushiftRight, Nat.shiftRight_eq_div_pow]

theorem update_toNat (sum : BitVec 32) (p : List UInt8) (hp : p ≠ []) :
    (Adler.update sum p).toNat =
      (natLoop (sum.toNat % 65536) (sum.toNat / 65536) p).2 % 65521 * 65536 +
      (natLoop (sum.toNat % 65536) (sum.toNat / 65536) p).1 % 65521 := by
  have hs := sum.isLt
  obtain ⟨h1, h2⟩ := adler_halves sum
  have k := chunkLoop_toNat (sum &&& 0xffff#32) (sum >>> 16) p (by omega) (by omega) hp
  simp only [Adler.update]
  rw [pack_toNat _ _ (by omega) (by omega), k.1, k.2, h1, h2]

theorem update_nil (sum : BitVec 32) : Adler.update sum [] = sum := by
  have hs := sum.isLt
  obtain ⟨h1, h2⟩ := adler_halves sum
  apply BitVec.eq_of_toNat_eq
  simp only [Adler.update, Adler.chunkLoop, ↓reduceDIte]
  rw [pack_toNat _ _ (by omega) (by omega), h1, h2]
  omega

theorem natLoop_spec (p : List UInt8) : natLoop 1 0 p = (adlerS1 p, adlerS2 p) := by
  have key : ∀ (q p : List UInt8), natLoop (adlerS1 p) (adlerS2 p) q = (adlerS1 (p ++ q), adlerS2 (p ++ q)) := by
    intro q
    induction q with
    | nil => intro p; simp [natLoop]
    | cons c q ih =>
      intro p
      have e1 : adlerS1 p + c.toNat = adlerS1 (p ++ [c]) := by
        simp [adlerS1]; omega
      have e2 : adlerS2 p + adlerS1 (p ++ [c]) = adlerS2 (p ++ [c]) := by
        simp only [adlerS2, List.length_append, List.length_singleton, List.range_succ, List.map_append,
          List.map_cons, List.map_nil, List.sum_append, List.sum_cons, List.sum_nil, Nat.add_zero]
        rw [List.take_of_length_le (by simp)]
        congr 2
        apply List.map_congr_left
        intro k hk
        have : k < p.length := by simpa using hk
        rw [List.take_append_of_le_length (by omega)]
      simp only [natLoop]
      rw [e1, e2, ih]
      simp
  have := key p []
  simpa [adlerS1, adlerS2] using this

/-- running state after data `d` equals the definition -/
def AdlerIs (sum : BitVec 32) (d : List UInt8) : Prop := sum.toNat = Spec.adler32 d

theorem adler_init : AdlerIs Adler.init [] := by unfold AdlerIs; decide

theorem adler_update {sum : BitVec 32} {d : List UInt8} (h : AdlerIs sum d) (p : List UInt8) :
    AdlerIs (Adler.update sum p) (d ++ p) := by
  by_cases hp : p = []
  · subst hp; rw [update_nil]; simpa using h
  · unfold AdlerIs at *
    rw [update_toNat _ _ hp, h]
    have h1 : Spec.adler32 d % 65536 = adlerS1 d % 65521 := by unfold Spec.adler32; omega
    have h2 : Spec.adler32 d / 65536 = adlerS2 d % 65521 := by unfold Spec.adler32; omega
    rw [h1, h2]
    have m := natLoop_mod p 65521 (adlerS1 d % 65521) (adlerS2 d % 65521) (adlerS1 d) (adlerS2 d)
      (by simp) (by simp)
    have e : natLoop (adlerS1 d) (adlerS2 d) p = (adlerS1 (d ++ p), adlerS2 (d ++ p)) := by
      rw [← natLoop_spec (d ++ p), natLoop_append, natLoop_spec d]
    rw [m.1, m.2, e]
    rfl

/-! ### CRC-32 -/

theorem crcBit_eq (reg : BitVec 32) (b : Bool) :
    crcBit reg b = Crc.initStep (reg ^^^ BitVec.ofNat 32 b.toNat) := by
  have hl : ∀ x : BitVec 32, (x &&& 1#32 = 1#32) ↔ x.getLsbD 0 = true := by
    intro x
    constructor
    · intro h
      have := congrArg (fun y => y.getLsbD 0) h
      simpa using this
    · intro h
      apply BitVec.eq_of_getLsbD_eq
      intro i hi
      simp only [BitVec.getLsbD_and, BitVec.getLsbD_one]
      by_cases h0 : i = 0
      · subst h0; simpa using h
      · simp [h0]
  unfold crcBit Crc.initStep
  have e1 : (reg ^^^ BitVec.ofNat 32 b.toNat).getLsbD 0 = (reg.getLsbD 0 ^^ b) := by
    cases b <;> simp
  have e2 : (reg ^^^ BitVec.ofNat 32 b.toNat) >>> 1 = reg >>> 1 := by
    cases b
    · simp
    · simp [BitVec.ushiftRight_xor_distrib]
  by_cases h : (reg.getLsbD 0 ^^ b) = true
  · rw [if_pos h, if_pos ((hl _).2 (by rw [e1]; exact h)), e2]; rfl
  · rw [if_neg h, if_neg (by rw [hl, e1]; exact h), e2]

theorem initStep_alt (x : BitVec 32) :
    Crc.initStep x = (x >>> 1) ^^^ (if x.getLsbD 0 then Crc.poly else 0#32) := by
  have := crcBit_eq x false
  simp only [Bool.toNat_false] at this
  rw [show x ^^^ BitVec.ofNat 32 0 = x by simp] at this
  rw [← this]
  unfold crcBit
  cases h : x.getLsbD 0
  · rw [if_neg (by simp), if_neg (by simp)]; simp
  · rw [if_pos (by simp), if_pos rfl]; rfl

theorem initStep_xor (x y : BitVec 32) :
    Crc.initStep (x ^^^ y) = Crc.initStep x ^^^ Crc.initStep y := by
  simp only [initStep_alt, BitVec.ushiftRight_xor_distrib, BitVec.getLsbD_xor]
  generalize x.getLsbD 0 = a, y.getLsbD 0 = b
  have hp : ∀ u v : BitVec 32, (u ^^^ Crc.poly) ^^^ (v ^^^ Crc.poly) = u ^^^ v := by
    intro u v
    rw [BitVec.xor_assoc, BitVec.xor_comm v, ← BitVec.xor_assoc Crc.poly]; simp
  cases a <;> cases b <;> simp only [Bool.xor_false, Bool.false_xor, Bool.xor_self, if_true, BitVec.xor_zero,
    Bool.false_eq_true, if_false]
  · rw [BitVec.xor_assoc]
  · rw [BitVec.xor_assoc, BitVec.xor_assoc, BitVec.xor_comm (y >>> 1)]
  · rw [hp]

/-- shifting without feedback when the lowest bit is clear -/
theorem initStep_even (x : BitVec 32) (h : x.getLsbD 0 = false) : Crc.initStep x = x >>> 1 := by
  rw [initStep_alt, h]; simp

def iter (n : Nat) (x : BitVec 32) : BitVec 32 := Nat.repeat Crc.initStep n x

theorem iter_xor (n : Nat) (x y : BitVec 32) : iter n (x ^^^ y) = iter n x ^^^ iter n y := by
  induction n with
  | zero => rfl
  | succ n ih => simp only [iter, Nat.repeat] at *; rw [ih, initStep_xor]

theorem iter_shift (n : Nat) (x : BitVec 32) (h : ∀ i < n, x.getLsbD i = false) :
    iter n x = x >>> n := by
  induction n with
  | zero => simp [iter, Nat.repeat]
  | succ n ih =>
    simp only [iter, Nat.repeat] at *
    rw [ih (fun i hi => h i (by omega)), initStep_even _ (by simp; exact h n (by omega))]
    rw [← BitVec.shiftRight_add]

theorem iter_add (m n : Nat) (x : BitVec 32) : iter m (iter n x) = iter (n + m) x := by
  induction m with
  | zero => rfl
  | succ m ih => show Crc.initStep (iter m (iter n x)) = Crc.initStep (iter (n + m) x); rw [ih]

theorem table0_eq (i : Nat) : Crc.table0 i = iter 8 (BitVec.ofNat 32 i) := rfl

/-- the byte step through the table is eight bit steps -/
theorem byteStep (x : BitVec 32) : Crc.table0 (x &&& 0xff#32).toNat ^^^ (x >>> 8) = iter 8 x := by
  have hx : x = (x &&& 0xff#32) ^^^ (x &&& ~~~ 0xff#32) := by
    apply BitVec.eq_of_getLsbD_eq
    intro i hi
    simp only [BitVec.getLsbD_and, BitVec.getLsbD_xor, BitVec.getLsbD_not]
    cases (x.getLsbD i) <;> cases ((0xff#32).getLsbD i) <;> simp [hi]
  have hff : ∀ i < 8, (0xff#32).getLsbD i = true := by decide
  have h2 : iter 8 (x &&& ~~~ 0xff#32) = x >>> 8 := by
    rw [iter_shift]
    · apply BitVec.eq_of_getLsbD_eq
      intro i hi
      simp only [BitVec.getLsbD_ushiftRight, BitVec.getLsbD_and, BitVec.getLsbD_not]
      by_cases h8 : 8 + i < 32
      · have : (0xff#32).getLsbD (8 + i) = false := by
          have : ∀ j < 24, (0xff#32).getLsbD (8 + j) = false := by decide
          exact this i (by omega)
        rw [this]; simp [h8]
      · rw [BitVec.getLsbD_of_ge x _ (by omega)]; simp
    · intro i hi
      rw [BitVec.getLsbD_and, BitVec.getLsbD_not, hff i hi]; simp
  rw [table0_eq]
  conv => rhs; rw [hx]
  rw [iter_xor, h2]
  simp

theorem byteBits_eq (b : UInt8) : byteBits b =
    [b.toNat.testBit 0, b.toNat.testBit 1, b.toNat.testBit 2, b.toNat.testBit 3,
     b.toNat.testBit 4, b.toNat.testBit 5, b.toNat.testBit 6, b.toNat.testBit 7] := rfl

/-- feeding the `n` low bits of `v` bit by bit is xoring them in and shifting `n` times -/
theorem fold_bits (n : Nat) : ∀ (v : Nat) (reg : BitVec 32), v < 2 ^ n → n ≤ 32 →
    ((List.range n).map fun i => v.testBit i).foldl crcBit reg = iter n (reg ^^^ BitVec.ofNat 32 v) := by
  induction n with
  | zero => intro v reg hv _; simp at hv; subst hv; simp [iter, Nat.repeat]
  | succ n ih =>
    intro v reg hv hn
    rw [List.range_succ_eq_map]
    simp only [List.map_cons, List.map_map, List.foldl_cons]
    have e : ((fun i => v.testBit i) ∘ Nat.succ) = fun i => (v / 2).testBit i := by
      funext i; simp [Nat.testBit_succ]
    rw [e, ih (v / 2) _ (by rw [Nat.pow_succ] at hv; omega) (by omega)]
    rw [crcBit_eq]
    have hv' : BitVec.ofNat 32 v =
        BitVec.ofNat 32 (v.testBit 0).toNat ^^^ (BitVec.ofNat 32 (v / 2) <<< 1) := by
      apply BitVec.eq_of_getLsbD_eq
      intro i hi
      simp only [BitVec.getLsbD_xor, BitVec.getLsbD_ofNat, BitVec.getLsbD_shiftLeft]
      cases i with
      | zero => cases h : v.testBit 0 <;> simp
      | succ i =>
        have : (v.testBit 0).toNat.testBit (i+1) = false := by
          cases v.testBit 0 <;> simp [Nat.testBit_succ]
        simp only [this, Nat.testBit_succ, hi]
        have h31 : i < 32 := by omega
        simp [h31]
    have hev : ((BitVec.ofNat 32 (v / 2)) <<< 1).getLsbD 0 = false := by simp
    have hsh : ((BitVec.ofNat 32 (v / 2)) <<< 1) >>> 1 = BitVec.ofNat 32 (v / 2) := by
      apply BitVec.eq_of_getLsbD_eq
      intro i hi
      simp only [BitVec.getLsbD_ushiftRight, BitVec.getLsbD_shiftLeft, BitVec.getLsbD_ofNat]
      by_cases h1 : 1 + i < 32
      · simp [h1, hi]
      · have hi31 : i = 31 := by omega
        subst hi31
        have : (v / 2).testBit 31 = false := by
          apply Nat.testBit_lt_two_pow
          have : 2 ^ (n+1) ≤ 2 ^ 32 := Nat.pow_le_pow_right (by omega) (by omega)
          omega
        simp [this]
    have step : Crc.initStep (reg ^^^ BitVec.ofNat 32 v) =
        Crc.initStep (reg ^^^ BitVec.ofNat 32 (v.testBit 0).toNat) ^^^ BitVec.ofNat 32 (v / 2) := by
      rw [hv', ← BitVec.xor_assoc, initStep_xor, initStep_even _ hev, hsh]
    rw [← step]
    rw [Nat.add_comm n 1]; exact iter_add n 1 _

theorem fold_byte (b : UInt8) (reg : BitVec 32) :
    (byteBits b).foldl crcBit reg = iter 8 (reg ^^^ u32OfByte b) :=
  fold_bits 8 b.toNat reg b.toNat_lt (by omega)

theorem fold_bytes (p : List UInt8) (reg : BitVec 32) :
    (bytesBits p).foldl crcBit reg = p.foldl (fun r b => iter 8 (r ^^^ u32OfByte b)) reg := by
  induction p generalizing reg with
  | nil => rfl
  | cons b p ih => simp [bytesBits, fold_byte, ← ih]

theorem lowByte_xor (sum : BitVec 32) (ch : UInt8) :
    (sum &&& 0xff#32).toNat ^^^ ch.toNat = ((sum ^^^ u32OfByte ch) &&& 0xff#32).toNat := by
  have hc := ch.toNat_lt
  have e : (u32OfByte ch).toNat = ch.toNat := by simp [u32OfByte]
  rw [BitVec.toNat_and, BitVec.toNat_and, BitVec.toNat_xor, e]
  rw [show (0xff#32).toNat = 2^8 - 1 from rfl]
  rw [Nat.and_two_pow_sub_one_eq_mod, Nat.and_two_pow_sub_one_eq_mod, Nat.xor_mod_two_pow]
  rw [Nat.mod_eq_of_lt hc]

theorem high_xor (sum : BitVec 32) (ch : UInt8) : (sum ^^^ u32OfByte ch) >>> 8 = sum >>> 8 := by
  rw [BitVec.ushiftRight_xor_distrib]
  have : u32OfByte ch >>> 8 = 0#32 := by
    apply BitVec.eq_of_toNat_eq
    have hc := ch.toNat_lt
    rw [BitVec.toNat_ushiftRight]
    simp only [u32OfByte, BitVec.toNat_ofNat, Nat.shiftRight_eq_div_pow]
    omega
  rw [this]; simp

theorem byteLoop_eq (p : List UInt8) (sum : BitVec 32) :
    Crc.byteLoop sum p = p.foldl (fun r b => iter 8 (r ^^^ u32OfByte b)) sum := by
  induction p generalizing sum with
  | nil => rfl
  | cons b p ih =>
    simp only [Crc.byteLoop, List.foldl_cons] at *
    rw [← ih]
    congr 1
    rw [lowByte_xor, ← high_xor sum b, byteStep]

theorem table_eq (j i : Nat) : Crc.table j i = iter (8 * (j + 1)) (BitVec.ofNat 32 i) := by
  induction j with
  | zero => exact table0_eq i
  | succ j ih =>
    simp only [Crc.table]
    rw [byteStep, ih, iter_add]
    congr 1

/-- a register splits into its four bytes -/
theorem split4 (x : BitVec 32) : x =
    BitVec.ofNat 32 (x &&& 0xff#32).toNat
    ^^^ (BitVec.ofNat 32 ((x >>> 8) &&& 0xff#32).toNat <<< 8)
    ^^^ (BitVec.ofNat 32 ((x >>> 16) &&& 0xff#32).toNat <<< 16)
    ^^^ (BitVec.ofNat 32 (x >>> 24).toNat <<< 24) := by
  simp only [BitVec.ofNat_toNat, BitVec.setWidth_eq]
  apply BitVec.eq_of_getLsbD_eq
  intro i hi
  have hff : ∀ i, (0xff#32).getLsbD i = decide (i < 8) := by
    intro i
    by_cases h : i < 32
    · revert i; decide
    · rw [BitVec.getLsbD_of_ge _ _ (by omega)]; simp; omega
  simp only [BitVec.getLsbD_xor, BitVec.getLsbD_and, BitVec.getLsbD_shiftLeft,
    BitVec.getLsbD_ushiftRight, hff]
  by_cases a : i < 8
  · simp [a, hi, show i < 16 by omega, show i < 24 by omega]
  · by_cases b : i < 16
    · have : 8 + (i - 8) = i := by omega
      simp [a, b, hi, this, show i < 24 by omega, show i - 8 < 8 by omega]
    · by_cases c : i < 24
      · have : 16 + (i - 16) = i := by omega
        simp [a, b, c, hi, this]
        simp [show ¬ i - 8 < 8 by omega, show i - 16 < 8 by omega]
      · have : 24 + (i - 24) = i := by omega
        simp [a, b, c, hi, this]
        simp [show ¬ i - 8 < 8 by omega, show ¬ i - 16 < 8 by omega]

/-- `n` byte steps undo a left shift by `8 n` bits when no bit is lost -/
theorem iter_unshift (k : Nat) (v : BitVec 32) (n : Nat) (hv : v.toNat < 256) (hn : n ≤ 24) :
    iter (n + k) (v <<< n) = iter k v := by
  rw [← iter_add, iter_shift n]
  · congr 1
    apply BitVec.eq_of_toNat_eq
    rw [BitVec.toNat_ushiftRight, BitVec.toNat_shiftLeft, Nat.shiftLeft_eq, Nat.shiftRight_eq_div_pow]
    have : v.toNat * 2 ^ n < 2 ^ 32 := by
      calc v.toNat * 2 ^ n < 256 * 2 ^ n := Nat.mul_lt_mul_of_pos_right hv (Nat.two_pow_pos n)
        _ ≤ 256 * 2 ^ 24 := Nat.mul_le_mul_left _ (Nat.pow_le_pow_right (by omega) hn)
    rw [Nat.mod_eq_of_lt this, Nat.mul_div_cancel _ (Nat.two_pow_pos n)]
  · intro i hi
    simp [BitVec.getLsbD_shiftLeft, hi]

theorem le32_xor (b0 b1 b2 b3 : UInt8) : Crc.le32 b0 b1 b2 b3 =
    u32OfByte b0 ^^^ (u32OfByte b1 <<< 8) ^^^ (u32OfByte b2 <<< 16) ^^^ (u32OfByte b3 <<< 24) := by
  unfold Crc.le32
  have hb : ∀ (b : UInt8) (i : Nat), ¬ i < 8 → (u32OfByte b).getLsbD i = false := by
    intro b i hi
    simp only [u32OfByte, BitVec.getLsbD_ofNat]
    have : b.toNat.testBit i = false := by
      apply Nat.testBit_lt_two_pow
      calc b.toNat < 2^8 := b.toNat_lt
        _ ≤ 2^i := Nat.pow_le_pow_right (by omega) (by omega)
    simp [this]
  apply BitVec.eq_of_getLsbD_eq
  intro i hi
  simp only [BitVec.getLsbD_xor, BitVec.getLsbD_or, BitVec.getLsbD_shiftLeft]
  by_cases a : i < 8
  · simp [a, show i < 16 by omega, show i < 24 by omega]
  · by_cases b : i < 16
    · simp [a, b, hb b0 i a, show i < 24 by omega]
    · by_cases c : i < 24
      · simp [a, b, c, hb b0 i a, hb b1 (i-8) (by omega)]
      · simp [a, b, c, hb b0 i a, hb b1 (i-8) (by omega), hb b2 (i-16) (by omega)]

theorem slice8 (sum : BitVec 32) (p0 p1 p2 p3 p4 p5 p6 p7 : UInt8) :
    (Crc.table 0 p7.toNat ^^^ Crc.table 1 p6.toNat ^^^ Crc.table 2 p5.toNat ^^^ Crc.table 3 p4.toNat ^^^
      Crc.table 4 ((sum ^^^ Crc.le32 p0 p1 p2 p3) >>> 24).toNat ^^^
      Crc.table 5 (((sum ^^^ Crc.le32 p0 p1 p2 p3) >>> 16) &&& 0xff#32).toNat ^^^
      Crc.table 6 (((sum ^^^ Crc.le32 p0 p1 p2 p3) >>> 8) &&& 0xff#32).toNat ^^^
      Crc.table 7 ((sum ^^^ Crc.le32 p0 p1 p2 p3) &&& 0xff#32).toNat)
    = [p0, p1, p2, p3, p4, p5, p6, p7].foldl (fun r b => iter 8 (r ^^^ u32OfByte b)) sum := by
  have hb : ∀ b : UInt8, (u32OfByte b).toNat < 256 := by
    intro b; have := b.toNat_lt; simp [u32OfByte]; omega
  have hff : ∀ x : BitVec 32, (x &&& 0xff#32).toNat < 256 := by
    intro x
    rw [BitVec.toNat_and, show (0xff#32).toNat = 2^8 - 1 from rfl, Nat.and_two_pow_sub_one_eq_mod]
    omega
  have h24 : ∀ x : BitVec 32, (x >>> 24).toNat < 256 := by
    intro x; have := x.isLt
    rw [BitVec.toNat_ushiftRight, Nat.shiftRight_eq_div_pow]; omega
  have left : ∀ x : BitVec 32,
      Crc.table 4 (x >>> 24).toNat ^^^ Crc.table 5 ((x >>> 16) &&& 0xff#32).toNat ^^^
      Crc.table 6 ((x >>> 8) &&& 0xff#32).toNat ^^^ Crc.table 7 (x &&& 0xff#32).toNat = iter 64 x := by
    intro x
    simp only [table_eq]
    conv => rhs; rw [split4 x]
    have t : ∀ y : BitVec 32, (BitVec.ofNat 32 y.toNat) = y := by intro y; simp
    simp only [t, iter_xor]
    rw [show (64:Nat) = 8 + 56 from rfl, iter_unshift 56 _ 8 (hff _) (by omega)]
    rw [show (8 + 56 : Nat) = 16 + 48 from rfl, iter_unshift 48 _ 16 (hff _) (by omega)]
    rw [show (16 + 48 : Nat) = 24 + 40 from rfl, iter_unshift 40 _ 24 (h24 _) (by omega)]
    simp only [Nat.reduceMul, Nat.reduceAdd]
    ac_rfl
  have key := left (sum ^^^ Crc.le32 p0 p1 p2 p3)
  have e : iter 64 (sum ^^^ Crc.le32 p0 p1 p2 p3) = iter 64 (sum ^^^ u32OfByte p0) ^^^ iter 56 (u32OfByte p1)
      ^^^ iter 48 (u32OfByte p2) ^^^ iter 40 (u32OfByte p3) := by
    rw [le32_xor, ← BitVec.xor_assoc, ← BitVec.xor_assoc, ← BitVec.xor_assoc]
    simp only [iter_xor]
    rw [show (64:Nat) = 8 + 56 from rfl, iter_unshift 56 _ 8 (hb _) (by omega)]
    rw [show (8 + 56 : Nat) = 16 + 48 from rfl, iter_unshift 48 _ 16 (hb _) (by omega)]
    rw [show (16 + 48 : Nat) = 24 + 40 from rfl, iter_unshift 40 _ 24 (hb _) (by omega)]
  rw [e] at key
  simp only [List.foldl_cons, List.foldl_nil, iter_xor, iter_add, Nat.reduceAdd]
  simp only [BitVec.xor_assoc] at key ⊢
  rw [key]
  simp only [table_eq, iter_xor, Nat.reduceMul, Nat.reduceAdd, u32OfByte]
  ac_rfl

theorem sliceLoop_eq (sum : BitVec 32) (p : List UInt8) :
    Crc.sliceLoop sum p = p.foldl (fun r b => iter 8 (r ^^^ u32OfByte b)) sum := by
  fun_induction Crc.sliceLoop sum p with
  | case1 sum p0 p1 p2 p3 p4 p5 p6 p7 p s1 s2 ih =>
    rw [ih]
    have := slice8 sum p0 p1 p2 p3 p4 p5 p6 p7
    simp only [s2, s1]
    rw [this]
    rfl
  | case2 sum p => exact byteLoop_eq p sum

theorem genericUpdate_eq (sum : BitVec 32) (p : List UInt8) :
    Crc.genericUpdate sum p = ~~~ ((bytesBits p).foldl crcBit (~~~ sum)) := by
  unfold Crc.genericUpdate
  rw [fold_bytes]
  split
  · rename_i h
    have : p = [] := by simpa using h
    subst this; simp
  · split
    · simp only [sliceLoop_eq]
    · simp only [byteLoop_eq]

/-- running CRC state after data `d` equals the definition -/
def CrcIs (sum : BitVec 32) (d : List UInt8) : Prop := sum = Spec.crc32 d

theorem crc_init : CrcIs Crc.init [] := by
  simp [CrcIs, Crc.init, Spec.crc32, bytesBits]

theorem crc_update {sum : BitVec 32} {d : List UInt8} (h : CrcIs sum d) (p : List UInt8) :
    CrcIs (Crc.genericUpdate sum p) (d ++ p) := by
  unfold CrcIs at *
  rw [genericUpdate_eq, h]
  simp [Spec.crc32, bytesBits]

end Flate.Proof
