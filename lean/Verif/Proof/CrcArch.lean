/-
The accelerated CRC-32 code computes the CRC: everything is linear over GF(2), so that it is enough to compare single bits.
-/
import Verif.Model.CrcArch
import Verif.Proof.Checksum
import Verif.Proof.Bits

namespace Flate.Proof.Arch
open Flate.Spec Flate.Model Flate.Model.Arch

/-! ### linear maps -/

/-- additive over GF(2) -/
def Lin {n m : Nat} (f : BitVec n → BitVec m) : Prop := ∀ a b, f (a ^^^ b) = f a ^^^ f b

theorem Lin.zero {n m : Nat} {f : BitVec n → BitVec m} (h : Lin f) : f 0#n = 0#m := by
  have := h 0#n 0#n
  rw [BitVec.xor_self, BitVec.xor_self] at this
  exact this

/-- the lower bits -/
def low {n : Nat} (x : BitVec n) (k : Nat) : BitVec n := (x.setWidth k).setWidth n

theorem low_succ {n : Nat} (x : BitVec n) (k : Nat) : low x (k + 1) = low x k ^^^ (if x.getLsbD k then 1#n <<< k else 0#n) := by
  apply BitVec.eq_of_getLsbD_eq
  intro i hi
  unfold low
  by_cases hk : x.getLsbD k = true
  · rw [if_pos hk]
    simp only [BitVec.getLsbD_xor, BitVec.getLsbD_setWidth, BitVec.getLsbD_shiftLeft, BitVec.getLsbD_one]
    rcases Nat.lt_trichotomy i k with h | h | h
    · simp [h, hi, Nat.lt_succ_of_lt h, Nat.not_le.2 h]
    · subst h
      rw [hk]
      have h0 : 0 < n := by omega
      simp [hi, h0]
    · have h1 : ¬ i < k + 1 := by omega
      have h2 : ¬ i < k := by omega
      have h3 : ¬ i - k = 0 := by omega
      simp [h1, h2, h3]
  · rw [if_neg hk]
    simp only [BitVec.getLsbD_xor, BitVec.getLsbD_setWidth, BitVec.getLsbD_zero, Bool.xor_false]
    rcases Nat.lt_trichotomy i k with h | h | h
    · simp [h, hi, Nat.lt_succ_of_lt h]
    · subst h
      rw [Bool.not_eq_true] at hk
      rw [hk]
      simp
    · have h1 : ¬ i < k + 1 := by omega
      have h2 : ¬ i < k := by omega
      simp [h1, h2]

/-- linear maps which agree on single bits are equal -/
theorem lin_ext {n m : Nat} {f g : BitVec n → BitVec m} (hf : Lin f) (hg : Lin g) (h : ∀ i : Fin n, f (1#n <<< i.1) = g (1#n <<< i.1)) (x : BitVec n) : f x = g x := by
  have key : ∀ k, k ≤ n → f (low x k) = g (low x k) := by
    intro k
    induction k with
    | zero =>
      intro _
      have : low x 0 = 0#n := by unfold low; apply BitVec.eq_of_getLsbD_eq; intro i hi; simp
      rw [this, hf.zero, hg.zero]
    | succ k ih =>
      intro hk
      rw [low_succ, hf, hg, ih (by omega)]
      split
      · rw [h ⟨k, by omega⟩]
      · rw [hf.zero, hg.zero]
  have hx : low x n = x := by unfold low; simp
  rw [← hx]
  exact key n (Nat.le_refl n)

theorem Lin.comp {n m k : Nat} {f : BitVec m → BitVec k} {g : BitVec n → BitVec m} (hf : Lin f) (hg : Lin g) : Lin (fun x => f (g x)) :=
  fun a b => by show f (g (a ^^^ b)) = f (g a) ^^^ f (g b); rw [hg, hf]

theorem xor_swap {n : Nat} (a b c d : BitVec n) : (a ^^^ b) ^^^ (c ^^^ d) = (a ^^^ c) ^^^ (b ^^^ d) := by
  rw [BitVec.xor_assoc, ← BitVec.xor_assoc b, BitVec.xor_comm b c, BitVec.xor_assoc c, ← BitVec.xor_assoc]

theorem Lin.xor {n m : Nat} {f g : BitVec n → BitVec m} (hf : Lin f) (hg : Lin g) : Lin (fun x => f x ^^^ g x) :=
  fun a b => by show f _ ^^^ g _ = _; rw [hf, hg, xor_swap]

theorem lin_id {n : Nat} : Lin (fun x : BitVec n => x) := fun _ _ => rfl
theorem lin_setWidth {n : Nat} (m : Nat) : Lin (fun x : BitVec n => x.setWidth m) := fun a b => BitVec.setWidth_xor
theorem lin_shl {n : Nat} (k : Nat) : Lin (fun x : BitVec n => x <<< k) := fun a b => BitVec.shiftLeft_xor_distrib a b k
theorem lin_shr {n : Nat} (k : Nat) : Lin (fun x : BitVec n => x >>> k) := fun a b => BitVec.ushiftRight_xor_distrib a b k
theorem lin_and {n : Nat} (k : BitVec n) : Lin (fun x : BitVec n => x &&& k) := fun a b => by
  apply BitVec.eq_of_getLsbD_eq; intro i hi
  simp only [BitVec.getLsbD_and, BitVec.getLsbD_xor]
  cases a.getLsbD i <;> cases b.getLsbD i <;> cases k.getLsbD i <;> rfl
theorem lin_zero {n m : Nat} : Lin (fun _ : BitVec n => 0#m) := fun a b => (BitVec.xor_self).symm
theorem lin_reverse {n : Nat} : Lin (fun x : BitVec n => x.reverse) := fun a b => by
  apply BitVec.eq_of_getLsbD_eq; intro i hi
  simp only [BitVec.getLsbD_xor, BitVec.getLsbD_reverse, BitVec.getMsbD_xor]

/-! ### bits of a register -/

/-- the bits of a register, lowest first -/
def vbits {n : Nat} (x : BitVec n) : List Bool := (List.range n).map x.getLsbD

/-- the shift register after the bits of `x` -/
def V {n : Nat} (x : BitVec n) : BitVec 32 := (vbits x).foldl crcBit 0#32

theorem crcBit_xor (a b : BitVec 32) (x y : Bool) : crcBit (a ^^^ b) (x ^^ y) = crcBit a x ^^^ crcBit b y := by
  rw [crcBit_eq, crcBit_eq, crcBit_eq, ← initStep_xor]
  congr 1
  rw [xor_swap]
  congr 1
  cases x <;> cases y <;> decide

theorem fold_xor {α : Type} (f g : α → Bool) : ∀ (l : List α) (a b : BitVec 32),
    (l.map fun i => f i ^^ g i).foldl crcBit (a ^^^ b) = (l.map f).foldl crcBit a ^^^ (l.map g).foldl crcBit b
  | [], _, _ => rfl
  | i :: l, a, b => by
    simp only [List.map_cons, List.foldl_cons, crcBit_xor]
    exact fold_xor f g l _ _

theorem V_lin {n : Nat} : Lin (V (n := n)) := fun a b => by
  unfold V vbits
  have := fold_xor a.getLsbD b.getLsbD (List.range n) 0#32 0#32
  rw [BitVec.xor_self] at this
  rw [← this]
  congr 2
  funext i
  exact BitVec.getLsbD_xor

theorem crcBit_false (r : BitVec 32) : crcBit r false = Crc.initStep r := by rw [crcBit_eq]; simp

theorem iter_succ' (n : Nat) (r : BitVec 32) : iter n (Crc.initStep r) = iter (n + 1) r := by
  have := iter_add n 1 r
  rw [Nat.add_comm 1 n] at this
  exact this

/-- the register and the data separately -/
theorem fold_split : ∀ (l : List Bool) (r : BitVec 32), l.foldl crcBit r = iter l.length r ^^^ l.foldl crcBit 0#32
  | [], r => by simp [iter, Nat.repeat]
  | b :: l, r => by
    rw [List.foldl_cons, List.foldl_cons, fold_split l (crcBit r b), fold_split l (crcBit 0#32 b)]
    have h : crcBit r b = Crc.initStep r ^^^ crcBit 0#32 b := by
      have := crcBit_xor r 0#32 false b
      rw [Bool.false_xor, BitVec.xor_zero, crcBit_false] at this
      exact this
    rw [h, iter_xor, iter_succ', List.length_cons, BitVec.xor_assoc]

theorem iter_lin (k : Nat) : Lin (iter k) := fun a b => iter_xor k a b

@[simp] theorem vbits_length {n : Nat} (x : BitVec n) : (vbits x).length = n := by simp [vbits]

theorem fold_vbits {n : Nat} (x : BitVec n) (r : BitVec 32) : (vbits x).foldl crcBit r = iter n r ^^^ V x := by
  rw [fold_split, vbits_length]; rfl

/-! ### loads -/

theorem load_lt (p : List UInt8) : load p < 2 ^ (8 * p.length) := by
  induction p with
  | nil => simp [load]
  | cons b p ih =>
    have := b.toNat_lt
    rw [load, List.length_cons, Nat.mul_add, Nat.pow_add]
    omega

theorem load_bits (p : List UInt8) : bytesBits p = natBits (8 * p.length) (load p) := by
  induction p with
  | nil => rfl
  | cons b p ih =>
    have hb := b.toNat_lt
    rw [bytesBits_cons, ih, List.length_cons, Nat.mul_add, Nat.add_comm (8 * p.length), natBits_add, byteBits_natBits]
    have h1 : load (b :: p) / 2 ^ (8 * 1) = load p := by rw [load]; omega
    have h2 : natBits (8 * 1) (load (b :: p)) = natBits 8 b.toNat := by
      rw [natBits_eq_map, natBits_eq_map]
      apply List.map_congr_left
      intro i hi
      have hi : i < 8 := by simpa using hi
      have : load (b :: p) % 2 ^ 8 = b.toNat % 2 ^ 8 := by rw [load]; omega
      have h := congrArg (fun x => Nat.testBit x i) this
      simp only [Nat.testBit_mod_two_pow, hi, decide_true, Bool.true_and] at h
      exact h
    rw [h1, h2]

theorem vbits_load {n : Nat} (p : List UInt8) (h : 8 * p.length = n) : vbits (BitVec.ofNat n (load p)) = bytesBits p := by
  rw [load_bits, natBits_eq_map, h]
  unfold vbits
  apply List.map_congr_left
  intro i hi
  have hi : i < n := by simpa using hi
  simp only [BitVec.getLsbD_ofNat, hi, decide_true, Bool.true_and]

/-! ### amd64 -/

theorem fold_ite_right {n : Nat} (c d : Nat → Bool) (t : Nat → BitVec n) : ∀ (l : List Nat) (a b : BitVec n),
    l.foldl (fun acc i => if (c i ^^ d i) then acc ^^^ t i else acc) (a ^^^ b) =
      l.foldl (fun acc i => if c i then acc ^^^ t i else acc) a ^^^ l.foldl (fun acc i => if d i then acc ^^^ t i else acc) b
  | [], _, _ => rfl
  | i :: l, a, b => by
    simp only [List.foldl_cons]
    rw [← fold_ite_right c d t l]
    congr 1
    cases c i <;> cases d i
    · simp
    · simp [BitVec.xor_assoc]
    · simp [BitVec.xor_assoc, BitVec.xor_comm b]
    · simp [xor_swap]

theorem fold_ite_left {n : Nat} (c : Nat → Bool) (t u : Nat → BitVec n) : ∀ (l : List Nat) (a b : BitVec n),
    l.foldl (fun acc i => if c i then acc ^^^ (t i ^^^ u i) else acc) (a ^^^ b) =
      l.foldl (fun acc i => if c i then acc ^^^ t i else acc) a ^^^ l.foldl (fun acc i => if c i then acc ^^^ u i else acc) b
  | [], _, _ => rfl
  | i :: l, a, b => by
    simp only [List.foldl_cons]
    rw [← fold_ite_left c t u l]
    congr 1
    cases c i
    · simp
    · simp [xor_swap]

theorem clmul_left (b : BitVec 64) : Lin (fun a => clmul a b) := fun x y => by
  show clmul (x ^^^ y) b = clmul x b ^^^ clmul y b
  unfold clmul
  rw [← fold_ite_left, BitVec.xor_self]
  simp only [BitVec.setWidth_xor, BitVec.shiftLeft_xor_distrib]

theorem clmul_right (a : BitVec 64) : Lin (fun b => clmul a b) := fun x y => by
  show clmul a (x ^^^ y) = clmul a x ^^^ clmul a y
  unfold clmul
  rw [← fold_ite_right, BitVec.xor_self]
  simp only [BitVec.getLsbD_xor]

theorem lo_lin : Lin lo := lin_setWidth 64
theorem hi_lin : Lin hi := Lin.comp (f := fun x : BitVec 128 => x.setWidth 64) (g := fun x : BitVec 128 => x >>> 64) (lin_setWidth 64) (lin_shr 64)

theorem pclmul_dst (imm : Nat) (src : BitVec 128) : Lin (fun dst => pclmul imm src dst) := fun x y => by
  show pclmul imm src (x ^^^ y) = pclmul imm src x ^^^ pclmul imm src y
  unfold pclmul
  rw [hi_lin, lo_lin]
  cases imm.testBit 0
  · exact clmul_left _ _ _
  · exact clmul_left _ _ _

theorem pclmul_src (imm : Nat) (dst : BitVec 128) : Lin (fun src => pclmul imm src dst) := fun x y => by
  show pclmul imm (x ^^^ y) dst = pclmul imm x dst ^^^ pclmul imm y dst
  unfold pclmul
  rw [hi_lin, lo_lin]
  cases imm.testBit 4
  · exact clmul_right _ _ _
  · exact clmul_right _ _ _

theorem foldX_lin (x0 : BitVec 128) : Lin (foldX x0) := Lin.xor (pclmul_dst 0 x0) (pclmul_dst 0x11 x0)

theorem finish_lin : Lin finish :=
  have h1 : Lin (fun x : BitVec 128 => (x >>> 64) ^^^ pclmul 1 x r4r3) := Lin.xor (lin_shr 64) (pclmul_src 1 r4r3)
  have h2 : Lin (fun x : BitVec 128 => pclmul 0 r5 (x &&& mask32) ^^^ (x >>> 32)) := Lin.xor (Lin.comp (pclmul_dst 0 r5) (lin_and mask32)) (lin_shr 32)
  have h3 : Lin (fun x : BitVec 128 => pclmul 0 rupoly (pclmul 0x10 rupoly (x &&& mask32) &&& mask32) ^^^ x) :=
    Lin.xor (Lin.comp (pclmul_dst 0 rupoly) (Lin.comp (lin_and mask32) (Lin.comp (pclmul_dst 0x10 rupoly) (lin_and mask32)))) lin_id
  have h4 : Lin (fun x : BitVec 128 => (x >>> 32).setWidth 32) := Lin.comp (lin_setWidth 32) (lin_shr 32)
  have h5 := Lin.comp h4 (Lin.comp h3 (Lin.comp h2 h1))
  h5

/-- one step of the small loop: 128 bits further -/
theorem fold128 (x : BitVec 128) : V (foldX r4r3 x) = iter 128 (V x) := by
  refine lin_ext (f := fun x => V (foldX r4r3 x)) (g := fun x => iter 128 (V x)) (Lin.comp V_lin (foldX_lin r4r3)) (Lin.comp (iter_lin 128) V_lin) ?_ x
  decide +kernel

/-- the reduction at the end -/
theorem finish_V (x : BitVec 128) : finish x = V x := by
  refine lin_ext finish_lin V_lin ?_ x
  decide +kernel

/-- one step of the main loop: 512 bits further, which is four steps of the small loop -/
theorem fold512 (x : BitVec 128) : V (foldX r2r1 x) = iter 512 (V x) := by
  have h : iter 512 (V x) = V (foldX r4r3 (foldX r4r3 (foldX r4r3 (foldX r4r3 x)))) := by
    rw [fold128, fold128, fold128, fold128, iter_add, iter_add, iter_add]
  rw [h, ← finish_V, ← finish_V]
  refine lin_ext (f := fun x => finish (foldX r2r1 x)) (g := fun x => finish (foldX r4r3 (foldX r4r3 (foldX r4r3 (foldX r4r3 x)))))
    (Lin.comp finish_lin (foldX_lin r2r1)) (Lin.comp finish_lin (Lin.comp (foldX_lin r4r3) (Lin.comp (foldX_lin r4r3) (Lin.comp (foldX_lin r4r3) (foldX_lin r4r3))))) ?_ x
  decide +kernel

/-- the register put into the data -/
theorem seed_V (s : BitVec 32) : V (s.setWidth 128) = iter 128 s := by
  refine lin_ext (f := fun s : BitVec 32 => V (s.setWidth 128)) (Lin.comp V_lin (lin_setWidth 128)) (iter_lin 128) ?_ s
  decide +kernel

/-- the shift register after the bytes of `p` -/
def F (r : BitVec 32) (p : List UInt8) : BitVec 32 := (bytesBits p).foldl crcBit r

theorem F_append (r : BitVec 32) (p q : List UInt8) : F r (p ++ q) = F (F r p) q := by
  unfold F; rw [bytesBits_append, List.foldl_append]

theorem F_load {n k : Nat} (r : BitVec 32) (p : List UInt8) (hk : k ≤ p.length) (hn : 8 * k = n) :
    F r p = F (iter n r ^^^ V (BitVec.ofNat n (load (p.take k)))) (p.drop k) := by
  conv => lhs; rw [← List.take_append_drop k p]
  rw [F_append]
  congr 1
  unfold F
  rw [← vbits_load (n := n) (p.take k) (by rw [List.length_take, Nat.min_eq_left hk]; exact hn), fold_vbits]

theorem F_128 (r : BitVec 32) (p : List UInt8) (n : Nat) (h : n + 16 ≤ p.length) : F r (p.drop n) = F (iter 128 r ^^^ V (load128 p n)) (p.drop (n + 16)) := by
  rw [F_load (n := 128) (k := 16) r (p.drop n) (by rw [List.length_drop]; omega) rfl, List.drop_drop]
  rfl

theorem loop16_V (x : BitVec 128) (p : List UInt8) (h : p.length % 16 = 0) : V (loop16 x p) = F (V x) p := by
  unfold loop16
  split
  next hp =>
    rw [loop16_V _ (p.drop 16) (by rw [List.length_drop]; omega), V_lin, fold128]
    have h0 := F_128 (V x) p 0 (by omega)
    rw [List.drop_zero, Nat.zero_add] at h0
    rw [h0]
  next hp =>
    have : p = [] := by apply List.eq_nil_of_length_eq_zero; omega
    rw [this]; unfold F; rw [bytesBits_nil, List.foldl_nil]
termination_by p.length
decreasing_by rw [List.length_drop]; omega

/-- the four accumulators -/
def S (x : BitVec 128 × BitVec 128 × BitVec 128 × BitVec 128 × List UInt8) : BitVec 32 :=
  F (iter 384 (V x.1) ^^^ iter 256 (V x.2.1) ^^^ iter 128 (V x.2.2.1) ^^^ V x.2.2.2.1) x.2.2.2.2

theorem iter4 (r a b c d : BitVec 32) : iter 128 (iter 128 (iter 128 (iter 128 r ^^^ a) ^^^ b) ^^^ c) ^^^ d = iter 512 r ^^^ iter 384 a ^^^ iter 256 b ^^^ iter 128 c ^^^ d := by
  simp only [iter_xor, iter_add]

theorem F_512 (r : BitVec 32) (p : List UInt8) (h : 64 ≤ p.length) :
    F r p = F (iter 512 r ^^^ iter 384 (V (load128 p 0)) ^^^ iter 256 (V (load128 p 16)) ^^^ iter 128 (V (load128 p 32)) ^^^ V (load128 p 48)) (p.drop 64) := by
  have h0 := F_128 r p 0 (by omega)
  rw [List.drop_zero] at h0
  rw [h0, F_128 _ p (0 + 16) (by omega), F_128 _ p (0 + 16 + 16) (by omega), F_128 _ p (0 + 16 + 16 + 16) (by omega), iter4]

theorem xor4 (a b c d a' b' c' d' : BitVec 32) :
    (a ^^^ a') ^^^ (b ^^^ b') ^^^ (c ^^^ c') ^^^ (d ^^^ d') = (a ^^^ b ^^^ c ^^^ d) ^^^ a' ^^^ b' ^^^ c' ^^^ d' := by
  apply BitVec.eq_of_getLsbD_eq
  intro i _
  simp only [BitVec.getLsbD_xor]
  generalize a.getLsbD i = a
  generalize b.getLsbD i = b
  generalize c.getLsbD i = c
  generalize d.getLsbD i = d
  generalize a'.getLsbD i = a'
  generalize b'.getLsbD i = b'
  generalize c'.getLsbD i = c'
  generalize d'.getLsbD i = d'
  revert a b c d a' b' c' d'
  decide

theorem loop64_S (x1 x2 x3 x4 : BitVec 128) (p : List UInt8) (h : p.length % 16 = 0) :
    S (loop64 x1 x2 x3 x4 p) = S (x1, x2, x3, x4, p) ∧ (loop64 x1 x2 x3 x4 p).2.2.2.2.length % 16 = 0 := by
  rw [loop64]
  split
  next hp =>
    have ih := loop64_S (foldX r2r1 x1 ^^^ load128 p 0) (foldX r2r1 x2 ^^^ load128 p 16) (foldX r2r1 x3 ^^^ load128 p 32) (foldX r2r1 x4 ^^^ load128 p 48)
      (p.drop 64) (by rw [List.length_drop]; omega)
    refine ⟨ih.1.trans ?_, ih.2⟩
    unfold S
    show F _ (p.drop 64) = F _ p
    rw [F_512 _ p hp]
    congr 1
    simp only [V_lin _ _, fold512, iter_xor, iter_add]
    exact xor4 _ _ _ _ _ _ _ _
  next hp => exact ⟨rfl, h⟩
termination_by p.length
decreasing_by rw [List.length_drop]; omega

theorem ieeeCLMUL_eq (sum : BitVec 32) (p : List UInt8) (h : 64 ≤ p.length) (h16 : p.length % 16 = 0) : ieeeCLMUL sum p = F sum p := by
  have hl := loop64_S (load128 p 0 ^^^ sum.setWidth 128) (load128 p 16) (load128 p 32) (load128 p 48) (p.drop 64) (by rw [List.length_drop]; omega)
  unfold ieeeCLMUL
  generalize loop64 (load128 p 0 ^^^ sum.setWidth 128) (load128 p 16) (load128 p 32) (load128 p 48) (p.drop 64) = y at hl
  obtain ⟨y1, y2, y3, y4, q⟩ := y
  simp only [finish_V]
  rw [loop16_V _ _ hl.2]
  have e : V (foldX r4r3 (foldX r4r3 (foldX r4r3 y1 ^^^ y2) ^^^ y3) ^^^ y4) = iter 384 (V y1) ^^^ iter 256 (V y2) ^^^ iter 128 (V y3) ^^^ V y4 := by
    simp only [V_lin _ _, fold128, iter_xor, iter_add]
  rw [e]
  refine hl.1.trans ?_
  unfold S
  show F _ (p.drop 64) = _
  rw [F_512 sum p h]
  congr 1
  simp only [V_lin _ _, seed_V, iter_xor, iter_add]
  rw [BitVec.xor_comm (iter 384 (V (load128 p 0)))]

theorem amd64Update_eq (sum : BitVec 32) (p : List UInt8) : amd64Update sum p = Crc.genericUpdate sum p := by
  unfold amd64Update
  split
  next h =>
    have hl : (p.take (p.length - p.length % 16)).length = p.length - p.length % 16 := by rw [List.length_take]; omega
    simp only
    rw [ieeeCLMUL_eq _ _ (by rw [hl]; omega) (by rw [hl]; omega), genericUpdate_eq, genericUpdate_eq]
    have e := F_append (~~~ sum) (p.take (p.length - p.length % 16)) (p.drop (p.length - p.length % 16))
    rw [List.take_append_drop] at e
    unfold F at e
    unfold F
    rw [BitVec.not_not, e]
  next h => rfl

/-! ### arm64 -/

theorem polyStep_lin (n : Nat) (poly : BitVec 32) (k : Nat) :
    Lin (fun d : BitVec n => if d.getLsbD (n - 1 - k) then d ^^^ (poly.setWidth n <<< (n - 1 - k - 32)) else d) := fun a b => by
  show (if (a ^^^ b).getLsbD (n - 1 - k) then _ else _) = (if a.getLsbD (n - 1 - k) then _ else _) ^^^ (if b.getLsbD (n - 1 - k) then _ else _)
  rw [BitVec.getLsbD_xor]
  generalize (poly.setWidth n <<< (n - 1 - k - 32)) = t
  cases a.getLsbD (n - 1 - k) <;> cases b.getLsbD (n - 1 - k)
  · simp
  · simp [BitVec.xor_assoc]
  · simp [BitVec.xor_assoc, BitVec.xor_comm b]
  · simp [xor_swap a t b t]

theorem foldl_lin {n : Nat} (f : BitVec n → Nat → BitVec n) (h : ∀ k, Lin (fun d => f d k)) : ∀ l : List Nat, Lin (fun d => l.foldl f d)
  | [] => lin_id
  | k :: l => fun a b => by
    show l.foldl f (f (a ^^^ b) k) = l.foldl f (f a k) ^^^ l.foldl f (f b k)
    rw [show f (a ^^^ b) k = f a k ^^^ f b k from h k a b]
    exact foldl_lin f h l _ _

theorem poly32Mod2_lin (n : Nat) (poly : BitVec 32) : Lin (fun d => poly32Mod2 n d poly) :=
  Lin.comp (f := fun x : BitVec n => x.setWidth 32) (lin_setWidth 32) (foldl_lin _ (polyStep_lin n poly) (List.range (n - 32)))

theorem armCrc_split (size : Nat) (acc : BitVec 32) (val : BitVec size) : armCrc size acc val = armCrc size acc 0#size ^^^ armCrc size 0#32 val := by
  have h0 : ∀ n : Nat, (0#n).reverse = 0#n := fun n => lin_reverse.zero
  have hm := poly32Mod2_lin (32 + size) 0x04c11db7#32
  unfold armCrc
  simp only [h0, BitVec.setWidth_zero, BitVec.zero_shiftLeft, BitVec.xor_zero, BitVec.zero_xor]
  rw [show poly32Mod2 (32 + size) ((acc.reverse.setWidth (32 + size) <<< size) ^^^ (val.reverse.setWidth (32 + size) <<< 32)) 0x04c11db7#32 = _ from hm _ _]
  exact lin_reverse _ _

theorem armCrc_acc_lin (size : Nat) : Lin (fun acc => armCrc size acc 0#size) := fun a b => by
  have h0 : ∀ n : Nat, (0#n).reverse = 0#n := fun n => lin_reverse.zero
  show armCrc size (a ^^^ b) 0#size = armCrc size a 0#size ^^^ armCrc size b 0#size
  unfold armCrc
  simp only [h0, BitVec.setWidth_zero, BitVec.zero_shiftLeft, BitVec.xor_zero]
  rw [show (a ^^^ b).reverse = _ from lin_reverse a b, BitVec.setWidth_xor, BitVec.shiftLeft_xor_distrib]
  rw [show poly32Mod2 (32 + size) (_ ^^^ _) 0x04c11db7#32 = _ from poly32Mod2_lin (32 + size) 0x04c11db7#32 _ _]
  exact lin_reverse _ _

theorem armCrc_val_lin (size : Nat) : Lin (fun val => armCrc size 0#32 val) := fun a b => by
  have h0 : ∀ n : Nat, (0#n).reverse = 0#n := fun n => lin_reverse.zero
  show armCrc size 0#32 (a ^^^ b) = armCrc size 0#32 a ^^^ armCrc size 0#32 b
  unfold armCrc
  simp only [h0, BitVec.setWidth_zero, BitVec.zero_shiftLeft, BitVec.zero_xor]
  rw [show (a ^^^ b).reverse = _ from lin_reverse a b, BitVec.setWidth_xor, BitVec.shiftLeft_xor_distrib]
  rw [show poly32Mod2 (32 + size) (_ ^^^ _) 0x04c11db7#32 = _ from poly32Mod2_lin (32 + size) 0x04c11db7#32 _ _]
  exact lin_reverse _ _

theorem armCrc_of {size : Nat} (ha : ∀ i : Fin 32, armCrc size (1#32 <<< i.1) 0#size = iter size (1#32 <<< i.1))
    (hv : ∀ i : Fin size, armCrc size 0#32 (1#size <<< i.1) = V (1#size <<< i.1)) (acc : BitVec 32) (val : BitVec size) :
    armCrc size acc val = iter size acc ^^^ V val := by
  rw [armCrc_split]
  rw [lin_ext (f := fun a => armCrc size a 0#size) (armCrc_acc_lin size) (iter_lin size) ha acc]
  rw [lin_ext (f := fun v => armCrc size 0#32 v) (armCrc_val_lin size) V_lin hv val]

theorem armCrc8 : ∀ (acc : BitVec 32) (val : BitVec 8), armCrc 8 acc val = iter 8 acc ^^^ V val := armCrc_of (by decide +kernel) (by decide +kernel)
theorem armCrc16 : ∀ (acc : BitVec 32) (val : BitVec 16), armCrc 16 acc val = iter 16 acc ^^^ V val := armCrc_of (by decide +kernel) (by decide +kernel)
theorem armCrc32 : ∀ (acc : BitVec 32) (val : BitVec 32), armCrc 32 acc val = iter 32 acc ^^^ V val := armCrc_of (by decide +kernel) (by decide +kernel)
theorem armCrc64 : ∀ (acc : BitVec 32) (val : BitVec 64), armCrc 64 acc val = iter 64 acc ^^^ V val := armCrc_of (by decide +kernel) (by decide +kernel)

theorem armLoop_eq (r : BitVec 32) (p : List UInt8) : F (armLoop r p).1 (armLoop r p).2 = F r p ∧ (armLoop r p).2.length < 8 := by
  rw [armLoop]
  split
  next h =>
    have ih := armLoop_eq (armCrc 64 r (BitVec.ofNat 64 (load (p.take 8)))) (p.drop 8)
    refine ⟨ih.1.trans ?_, ih.2⟩
    rw [armCrc64]
    exact (F_load (n := 64) (k := 8) r p h rfl).symm
  next h => exact ⟨rfl, by show p.length < 8; omega⟩
termination_by p.length
decreasing_by rw [List.length_drop]; omega

theorem armStep_eq {n bit r11 : Nat} (hc : ∀ (acc : BitVec 32) (val : BitVec (8 * n)), armCrc (8 * n) acc val = iter (8 * n) acc ^^^ V val)
    (x : BitVec 32 × List UInt8) (hl : r11.testBit bit = true → n ≤ x.2.length) :
    F (armStep n bit r11 x).1 (armStep n bit r11 x).2 = F x.1 x.2 ∧ (armStep n bit r11 x).2.length = x.2.length - (if r11.testBit bit then n else 0) := by
  unfold armStep
  split
  next h =>
    rw [hc]
    exact ⟨(F_load (n := 8 * n) (k := n) x.1 x.2 (hl h) rfl).symm, by rw [List.length_drop]⟩
  next h => exact ⟨rfl, rfl⟩

theorem armUpdate_eq (sum : BitVec 32) (p : List UInt8) : armUpdate sum p = F sum p := by
  have h := armLoop_eq sum p
  unfold armUpdate
  generalize armLoop sum p = x at h
  obtain ⟨hx, h8⟩ := h
  have hb : ∀ l : Fin 8, (l.1.testBit 2 = true → 4 ≤ l.1) ∧ (l.1.testBit 1 = true → 2 ≤ l.1 - if l.1.testBit 2 then 4 else 0) ∧
      (l.1.testBit 0 = true → 1 ≤ (l.1 - if l.1.testBit 2 then 4 else 0) - if l.1.testBit 1 then 2 else 0) ∧
      ((l.1 - if l.1.testBit 2 then 4 else 0) - if l.1.testBit 1 then 2 else 0) - (if l.1.testBit 0 then 1 else 0) = 0 := by decide
  have hb := hb ⟨x.2.length, h8⟩
  simp only at hb
  obtain ⟨b2, b1, b0, be⟩ := hb
  have s2 := armStep_eq (n := 4) (bit := 2) (r11 := x.2.length) armCrc32 x b2
  have s1 := armStep_eq (n := 2) (bit := 1) (r11 := x.2.length) armCrc16 (armStep 4 2 x.2.length x) (by rw [s2.2]; exact b1)
  have s0 := armStep_eq (n := 1) (bit := 0) (r11 := x.2.length) armCrc8 (armStep 2 1 x.2.length (armStep 4 2 x.2.length x)) (by rw [s1.2, s2.2]; exact b0)
  have hn : (armStep 1 0 x.2.length (armStep 2 1 x.2.length (armStep 4 2 x.2.length x))).2 = [] := by
    apply List.eq_nil_of_length_eq_zero
    rw [s0.2, s1.2, s2.2]; exact be
  have := s0.1
  rw [s1.1, s2.1, hx, hn] at this
  exact this

theorem arm64Update_eq (sum : BitVec 32) (p : List UInt8) : arm64Update sum p = Crc.genericUpdate sum p := by
  unfold arm64Update
  rw [armUpdate_eq, genericUpdate_eq]
  rfl

theorem update_eq (cpu : Cpu) (sum : BitVec 32) (p : List UInt8) : Arch.update cpu sum p = Crc.genericUpdate sum p := by
  cases cpu with
  | amd64 f => cases f with
    | true => exact amd64Update_eq sum p
    | false => rfl
  | arm64 f => cases f with
    | true => exact arm64Update_eq sum p
    | false => rfl
  | other => rfl

end Flate.Proof.Arch
