/-
Reading compressed data, when everything the source will deliver is in the input buffer (`inputError` is set).
-/
import Verif.Model.Reader
import Verif.Proof.Bits
import Verif.Proof.Huffman
import Verif.Proof.Checksum

namespace Flate.Proof.R
open Flate.Spec Flate.Model Flate.Model.Rd

theorem crc_append (c : BitVec 32) (p q : List UInt8) :
    Crc.genericUpdate (Crc.genericUpdate c p) q = Crc.genericUpdate c (p ++ q) := by
  simp [genericUpdate_eq]

/-- the bits not yet read -/
def vb (i : Inp) : List Bool := natBits i.ibLen i.ibBlock ++ bytesBits i.buf

/-- bytes have been taken from the buffer -/
structure RStep (i i' : Inp) : Prop where
  took : ∃ c, i.buf = c ++ i'.buf ∧ i'.inTotal = i.inTotal + c.length ∧ i'.inStream = i.inStream + c.length ∧
    i'.crc = Crc.genericUpdate i.crc c
  err : i'.inputError = i.inputError
  src : i'.src = i.src

theorem RStep.refl (i : Inp) : RStep i i :=
  ⟨⟨[], by simp, by simp, by simp, by simp [genericUpdate_eq]⟩, rfl, rfl⟩

theorem RStep.trans {i j k : Inp} (h : RStep i j) (h' : RStep j k) : RStep i k := by
  obtain ⟨⟨c, c1, c2, c3, c4⟩, e, s⟩ := h
  obtain ⟨⟨d, d1, d2, d3, d4⟩, e', s'⟩ := h'
  refine ⟨⟨c ++ d, by rw [c1, d1]; simp, by rw [d2, c2]; simp; omega, by rw [d3, c3]; simp; omega, ?_⟩,
    e'.trans e, s'.trans s⟩
  rw [d4, c4, crc_append]

/-- the accumulator holds less than a byte -/
structure Small (i : Inp) : Prop where
  len : i.ibLen ≤ 7
  lt : i.ibBlock < 2 ^ i.ibLen

/-- `i'` is reached from `i` by consuming the bits `b` -/
structure Adv (i : Inp) (b : List Bool) (i' : Inp) : Prop where
  step : RStep i i'
  bits : vb i = b ++ vb i'
  small : Small i'

/-- bits may have been collected, but none consumed -/
structure Hold (i i' : Inp) : Prop where
  step : RStep i i'
  bits : vb i' = vb i
  lt : i'.ibBlock < 2 ^ i'.ibLen

theorem Adv.refl {i : Inp} (h : Small i) : Adv i [] i := ⟨RStep.refl i, rfl, h⟩

theorem Adv.trans {i j k : Inp} {a b : List Bool} (h : Adv i a j) (h' : Adv j b k) : Adv i (a ++ b) k :=
  ⟨h.step.trans h'.step, by rw [h.bits, h'.bits]; simp, h'.small⟩

theorem Hold.refl {i : Inp} (h : i.ibBlock < 2 ^ i.ibLen) : Hold i i := ⟨RStep.refl i, rfl, h⟩
theorem Hold.trans {i j k : Inp} (h : Hold i j) (h' : Hold j k) : Hold i k :=
  ⟨h.step.trans h'.step, by rw [h'.bits, h.bits], h'.lt⟩

/-! ### popping bytes -/

theorem popByte_cons {st : Bool} {i : Inp} {b : UInt8} {r : List UInt8} (h : i.buf = b :: r) :
    popByte st i = (some b, { i with buf := r }) := by
  unfold popByte
  simp only [h, List.isEmpty_cons, Bool.false_eq_true, if_false]

theorem fill_done {st : Bool} {i : Inp} {e : Err} (he : i.inputError = some e) : fill st i = i := by
  unfold fill; simp [he]

theorem popByte_nil {st : Bool} {i : Inp} {e : Err} (he : i.inputError = some e) (h : i.buf = []) :
    popByte st i = (none, i) := by
  unfold popByte
  simp only [h, List.isEmpty_nil, if_true, fill_done he]

theorem popBytes_eq {st : Bool} {e : Err} : ∀ (n : Nat) {i : Inp}, i.inputError = some e →
    popBytes st n i = (i.buf.take n, { i with buf := i.buf.drop n })
  | 0, i, _ => by simp [popBytes]
  | n + 1, i, he => by
    unfold popBytes
    cases hb : i.buf with
    | nil => rw [popByte_nil he hb]; cases i; simp_all
    | cons b r =>
      rw [popByte_cons hb]
      simp only []
      rw [popBytes_eq n (i := { i with buf := r }) he]
      simp

theorem bufRead_eq {st : Bool} {e : Err} (n : Nat) {i : Inp} (he : i.inputError = some e) :
    bufRead st n i = ((i.buf.take n, decide (n ≤ i.buf.length)),
      countIn (i.buf.take n) { Rd.discard i with buf := i.buf.drop n }) := by
  unfold bufRead
  by_cases h0 : n = 0
  · subst h0
    simp [countIn, Rd.discard, genericUpdate_eq]
  · simp only [h0, if_false]
    rw [popBytes_eq (e := e) n (by exact he)]
    simp only [Rd.discard, List.length_take]
    congr 2
    by_cases h : n ≤ i.buf.length
    · simp [h]
    · simp [h]; omega

/-! ### collecting bits -/

theorem natBits_push {n blk : Nat} (ch : UInt8) (h : blk < 2 ^ n) :
    natBits (n + 8) (blk + 2 ^ n * ch.toNat) = natBits n blk ++ byteBits ch := by
  rw [natBits_add, byteBits_natBits]
  congr 1
  · rw [← natBits_mod n (blk + _), Nat.add_mul_mod_self_left, Nat.mod_eq_of_lt h]
  · rw [Nat.add_mul_div_left _ _ (Nat.two_pow_pos n), Nat.div_eq_of_lt h, Nat.zero_add]

theorem push_eq {W n blk : Nat} (ch : UInt8) (h : blk < 2 ^ n) (hW : n + 8 ≤ W) :
    blk ||| ((ch.toNat <<< n) % 2 ^ W) = blk + 2 ^ n * ch.toNat := by
  have hc := ch.toNat_lt
  have h1 : ch.toNat <<< n < 2 ^ W := by
    rw [Nat.shiftLeft_eq]
    calc ch.toNat * 2 ^ n < 2 ^ 8 * 2 ^ n := Nat.mul_lt_mul_of_pos_right hc (Nat.two_pow_pos n)
      _ = 2 ^ (8 + n) := by rw [Nat.pow_add]
      _ ≤ 2 ^ W := Nat.pow_le_pow_right (by omega) (by omega)
  rw [Nat.mod_eq_of_lt h1, Nat.or_comm, ← Nat.shiftLeft_add_eq_or_of_lt h, Nat.shiftLeft_eq, Nat.add_comm, Nat.mul_comm]

theorem push_lt {n blk : Nat} (ch : UInt8) (h : blk < 2 ^ n) : blk + 2 ^ n * ch.toNat < 2 ^ (n + 8) := by
  have hc : ch.toNat ≤ 255 := by have := ch.toNat_lt; omega
  have h2 : 2 ^ n * ch.toNat ≤ 2 ^ n * 255 := Nat.mul_le_mul_left _ hc
  rw [Nat.pow_add]
  omega

theorem bitsFillLoop_eq {W : Nat} {st : Bool} {e : Err} {n : Nat} (hn : n ≤ W - 8) (hW : 8 ≤ W) : ∀ (fuel : Nat) {i : Inp},
    i.inputError = some e → i.ibBlock < 2 ^ i.ibLen → n ≤ i.ibLen + 8 * fuel →
    ∃ i', Hold i i' ∧ ((n ≤ (vb i).length ∧ bitsFillLoop W st n (fuel + 1) i = .ok (true, i') ∧ n ≤ i'.ibLen ∧ i'.ibLen ≤ max i.ibLen (n + 7)) ∨
      ((vb i).length < n ∧ bitsFillLoop W st n (fuel + 1) i = .ok (false, i') ∧ i'.buf = []))
  | 0, i, _, hb, hf => by
    unfold bitsFillLoop
    have : ¬ i.ibLen < n := by omega
    simp only [this, if_false]
    exact ⟨i, Hold.refl hb, Or.inl ⟨by simp [vb]; omega, by rfl, by omega, by omega⟩⟩
  | fuel + 1, i, he, hb, hf => by
    unfold bitsFillLoop
    by_cases hlt : i.ibLen < n
    · simp only [hlt, if_true]
      cases hbuf : i.buf with
      | nil =>
        rw [popByte_nil he hbuf]
        refine ⟨i, Hold.refl hb, Or.inr ⟨by simp [vb, hbuf]; omega, rfl, hbuf⟩⟩
      | cons ch r =>
        rw [popByte_cons hbuf]
        simp only []
        have hp := push_eq (W := W) ch hb (by omega)
        have hl := push_lt ch hb
        have hold : Hold i { countIn [ch] { i with buf := r } with ibBlock := i.ibBlock ||| ((ch.toNat <<< i.ibLen) % 2 ^ W), ibLen := i.ibLen + 8 } := by
          refine ⟨⟨⟨[ch], ?_, rfl, rfl, rfl⟩, rfl, rfl⟩, ?_, ?_⟩
          · simp [countIn, hbuf]
          · simp only [vb, countIn, hp, natBits_push ch hb, hbuf, bytesBits_cons, List.append_assoc]
          · simp only [hp]; exact hl
        obtain ⟨i', h', hr⟩ := bitsFillLoop_eq hn hW fuel (i := { countIn [ch] { i with buf := r } with ibBlock := i.ibBlock ||| ((ch.toNat <<< i.ibLen) % 2 ^ W), ibLen := i.ibLen + 8 })
          he hold.lt (by simp only []; omega)
        refine ⟨i', hold.trans h', ?_⟩
        rw [← hold.bits]
        rcases hr with ⟨a, b, c, d⟩ | hr
        · exact Or.inl ⟨a, b, c, by simp only [] at d; omega⟩
        · exact Or.inr hr
    · simp only [hlt, if_false]
      exact ⟨i, Hold.refl hb, Or.inl ⟨by simp [vb]; omega, by rfl, by omega, by omega⟩⟩

theorem bitsFill_eq {W : Nat} {st : Bool} {e : Err} {n : Nat} (hn : n ≤ W - 8) (hW : 8 ≤ W) {i : Inp}
    (he : i.inputError = some e) (hb : i.ibBlock < 2 ^ i.ibLen) :
    ∃ i', Hold i i' ∧ ((n ≤ (vb i).length ∧ bitsFill W st n i = .ok (true, i') ∧ n ≤ i'.ibLen ∧ i'.ibLen ≤ max i.ibLen (n + 7)) ∨
      ((vb i).length < n ∧ bitsFill W st n i = .ok (false, i') ∧ i'.buf = [])) := by
  obtain ⟨i', h, hr⟩ := bitsFillLoop_eq (st := st) hn hW n he hb (by omega)
  refine ⟨i', h, ?_⟩
  have : bitsFill W st n i = bitsFillLoop W st n (n + 1) i := by
    unfold bitsFill
    rw [Go.bind_apply]
    simp [hn, Go.assert_apply]
  rw [this]; exact hr

theorem bitsPeek_eq {W n : Nat} (hn : n ≤ W - 8) {i : Inp} (h : n ≤ i.ibLen) :
    bitsPeek W n i = .ok (i.ibBlock % 2 ^ n, i) := by
  unfold bitsPeek mask
  simp only [h, if_true]
  by_cases h0 : n = 0
  · subst h0; simp [Nat.mod_one]
  · simp only [h0, if_false]
    by_cases h1 : n ≥ W
    · omega
    · simp only [h1, if_false]
      rw [Nat.and_two_pow_sub_one_eq_mod]

theorem commit_adv {i j : Inp} {n : Nat} (hh : Hold i j) (h : n ≤ j.ibLen) (h7 : j.ibLen ≤ n + 7) :
    bitsCommit n j = .ok ((), { j with ibBlock := j.ibBlock >>> n, ibLen := j.ibLen - n }) ∧
    Adv i (natBits n (j.ibBlock % 2 ^ n)) { j with ibBlock := j.ibBlock >>> n, ibLen := j.ibLen - n } := by
  refine ⟨by unfold bitsCommit; simp [h], ⟨?_, ?_, ?_, ?_⟩⟩
  · exact hh.step.trans ⟨⟨[], by simp, by simp, by simp, by simp [genericUpdate_eq]⟩, rfl, rfl⟩
  · rw [← hh.bits]
    unfold vb
    have : j.ibLen = n + (j.ibLen - n) := by omega
    rw [this, natBits_add, natBits_mod, List.append_assoc, Nat.shiftRight_eq_div_pow, ← this]
  · simp only []; omega
  · simp only []
    have hl := hh.lt
    rw [Nat.shiftRight_eq_div_pow, Nat.div_lt_iff_lt_mul (Nat.two_pow_pos n), ← Nat.pow_add]
    rwa [show j.ibLen - n + n = j.ibLen by omega]

theorem bitsRead_eq {W n : Nat} (hn : n ≤ W - 8) {i j : Inp} (hh : Hold i j) (h : n ≤ j.ibLen) (h7 : j.ibLen ≤ n + 7) :
    ∃ i', bitsRead W n j = .ok (j.ibBlock % 2 ^ n, i') ∧ Adv i (natBits n (j.ibBlock % 2 ^ n)) i' := by
  obtain ⟨h1, h2⟩ := commit_adv hh h h7
  refine ⟨_, ?_, h2⟩
  unfold bitsRead
  rw [Go.bind_ok (bitsPeek_eq hn h), Go.bind_ok h1]
  rfl

/-- filling, then reading: either there are enough bits, or the source is exhausted -/
theorem fillRead_eq {W : Nat} {st : Bool} {e : Err} {n : Nat} (hn : n ≤ W - 8) (hW : 8 ≤ W) {i : Inp}
    (he : i.inputError = some e) (hs : Small i) :
    (n ≤ (vb i).length ∧ ∃ j v i', bitsFill W st n i = .ok (true, j) ∧ bitsRead W n j = .ok (v, i') ∧ v < 2 ^ n ∧
      Adv i (natBits n v) i') ∨
    ((vb i).length < n ∧ ∃ i', bitsFill W st n i = .ok (false, i') ∧ Hold i i' ∧ i'.buf = []) := by
  obtain ⟨j, hj, hr⟩ := bitsFill_eq (st := st) hn hW he hs.lt
  rcases hr with ⟨h1, h2, h3, h4⟩ | ⟨h1, h2, h3⟩
  · have h7 : j.ibLen ≤ n + 7 := by have := hs.len; omega
    obtain ⟨i', h5, h6⟩ := bitsRead_eq hn hj h3 h7
    exact Or.inl ⟨h1, j, _, i', h2, h5, Nat.mod_lt _ (Nat.two_pow_pos n), h6⟩
  · exact Or.inr ⟨h1, j, h2, hj, h3⟩

/-! ### symbols -/

theorem symbolLoop_eq {L : HuffLib} (hL : L.Lawful) {lens : List Nat} (ha : L.accepts lens = true) {W : Nat} {st : Bool}
    {e : Err} (hW : 32 ≤ W) {i0 : Inp} (he : i0.inputError = some e) (hs : Small i0) : ∀ (fuel n : Nat) {i : Inp},
    Hold i0 i → i.ibLen ≤ n + 7 → 0 < fuel → L.maxSize lens + 2 ≤ n + fuel →
    (∀ s, Used lens s → codeBits lens s <+: vb i0 → n ≤ lenOf lens s) →
    (∃ sym i', symbolLoop L W st lens fuel n i = .ok (some sym, i') ∧ Used lens sym ∧ Adv i0 (codeBits lens sym) i') ∨
    (∃ i', symbolLoop L W st lens fuel n i = .ok (none, i') ∧ Hold i0 i' ∧ ∀ s, Used lens s → ¬ codeBits lens s <+: vb i0)
  | 0, n, i, hh, h7, h0, hf, hno => absurd h0 (Nat.lt_irrefl 0)
  | fuel + 1, n, i, hh, h7, h0, hf, hno => by
    have hm := hL.maxSize_le ha
    have hn : L.maxSize lens ≤ 15 := hm
    unfold symbolLoop
    by_cases hle : n ≤ L.maxSize lens
    · simp only [hle, if_true]
      have hei : i.inputError = some e := by rw [hh.step.err, he]
      obtain ⟨j, hj, hr⟩ := bitsFill_eq (n := n) (st := st) (W := W) (by omega) (by omega) hei hh.lt
      have hj0 := hh.trans hj
      rcases hr with ⟨h1, h2, h3, h4⟩ | ⟨h1, h2, h3⟩
      · have h7' : j.ibLen ≤ n + 7 := by omega
        rw [Go.bind_ok h2]
        simp only [Bool.not_true, Bool.false_eq_true, if_false]
        rw [Go.bind_ok (bitsPeek_eq (W := W) (by omega) h3)]
        obtain ⟨hc1, hc2⟩ := commit_adv hj0 h3 h7'
        have hlt : j.ibBlock % 2 ^ n < 2 ^ n := Nat.mod_lt _ (Nat.two_pow_pos n)
        have hpre : natBits n (j.ibBlock % 2 ^ n) <+: vb i0 := by
          rw [hc2.bits]; exact List.prefix_append _ _
        cases hd : L.decode lens n (j.ibBlock % 2 ^ n) with
        | mk o r =>
          obtain ⟨lo, hi⟩ := r
          cases o with
          | some sym =>
            left
            obtain ⟨u, hcode⟩ := hL.decode_some ha hlt hd
            rw [← hcode] at hc2
            refine ⟨sym, _, ?_, u, hc2⟩
            simp only []
            rw [Go.bind_ok hc1]; rfl
          | none =>
            simp only []
            have key : ∀ s, Used lens s → codeBits lens s <+: vb i0 → natBits n (j.ibBlock % 2 ^ n) <+: codeBits lens s := by
              intro s u hp
              exact List.prefix_of_prefix_length_le hpre hp (by simpa using hno s u hp)
            by_cases hz : hi = 0
            · right
              subst hz
              simp only [if_true]
              refine ⟨j, rfl, hj0, fun s u hp => ?_⟩
              exact hL.decode_dead ha hlt hd s u (key s u hp)
            · simp only [hz, if_false]
              obtain ⟨hlo, hmore⟩ := hL.decode_more ha hlt hd hz
              exact symbolLoop_eq hL ha hW he hs fuel lo hj0 (by omega) (by omega) (by omega)
                fun s u hp => hmore s u (key s u hp)
      · right
        rw [Go.bind_ok h2]
        refine ⟨j, rfl, hj0, fun s u hp => ?_⟩
        have := hp.length_le
        have := hno s u hp
        rw [hh.bits] at h1
        simp at *
        omega
    · right
      simp only [hle, if_false]
      refine ⟨i, rfl, hh, fun s u hp => ?_⟩
      have := hno s u hp
      have := hL.le_maxSize ha u
      omega

theorem readSymbolInp_eq {L : HuffLib} (hL : L.Lawful) {lens : List Nat} (ha : L.accepts lens = true) {W : Nat} {st : Bool}
    {e : Err} (hW : 32 ≤ W) {i : Inp} (he : i.inputError = some e) (hs : Small i) :
    (∃ sym i', readSymbolInp L W st lens i = .ok (some sym, i') ∧ Used lens sym ∧ Adv i (codeBits lens sym) i') ∨
    (∃ i', readSymbolInp L W st lens i = .ok (none, i') ∧ Hold i i' ∧ ∀ s, Used lens s → ¬ codeBits lens s <+: vb i) := by
  apply symbolLoop_eq hL ha hW he hs _ _ (Hold.refl hs.lt)
  · have := hs.len; omega
  · omega
  · omega
  · exact fun s u _ => hL.minSize_le ha u

/-! ### strings -/

theorem stringZLoop_eq {st : Bool} {e : Err} : ∀ (fuel : Nat) (acc : List UInt8) {i : Inp}, i.inputError = some e →
    i.buf.length < fuel →
    (∃ str r i', i.buf = str ++ 0 :: r ∧ 0 ∉ str ∧ stringZLoop st fuel acc i = .ok ((acc ++ str, true), i') ∧
      i' = countIn (str ++ [0]) { i with buf := r }) ∨
    (0 ∉ i.buf ∧ ∃ i', stringZLoop st fuel acc i = .ok ((acc ++ i.buf, false), i') ∧ RStep i i' ∧ i'.buf = [])
  | 0, _, i, _, hf => by omega
  | fuel + 1, acc, i, he, hf => by
    unfold stringZLoop
    cases hb : i.buf with
    | nil =>
      right
      rw [popByte_nil he hb]
      exact ⟨by simp, i, by simp, RStep.refl i, hb⟩
    | cons ch r =>
      rw [popByte_cons hb]
      simp only []
      by_cases h0 : ch = 0
      · left
        subst h0
        simp only [if_true]
        exact ⟨[], r, _, rfl, by simp, by rw [List.append_nil]; rfl, rfl⟩
      · simp only [h0, if_false]
        have hstep : RStep i (countIn [ch] { i with buf := r }) := by
          exact ⟨⟨[ch], by simp [countIn, hb], rfl, rfl, rfl⟩, rfl, rfl⟩
        rcases stringZLoop_eq (st := st) fuel (acc ++ [ch]) (i := countIn [ch] { i with buf := r }) he
            (by rw [hb] at hf; simp [countIn] at *; omega) with ⟨str, r', i', h1, h2, h3, h4⟩ | ⟨h1, i', h2, h3, h4⟩
        · left
          refine ⟨ch :: str, r', i', ?_, ?_, ?_, ?_⟩
          · simp only [countIn] at h1
            rw [h1]; rfl
          · simp only [List.mem_cons, not_or]
            exact ⟨fun h => h0 h.symm, h2⟩
          · rw [h3]; simp
          · rw [h4]
            simp only [countIn, List.length_append, List.length_cons, List.length_nil, List.cons_append, Inp.mk.injEq, true_and, and_true]
            refine ⟨by omega, by omega, ?_⟩
            rw [crc_append]; rfl
        · right
          simp only [countIn] at h1 h2
          refine ⟨?_, i', ?_, hstep.trans h3, h4⟩
          · simp only [List.mem_cons, not_or]
            exact ⟨fun h => h0 h.symm, h1⟩
          · simp only [countIn]
            rw [h2]; simp
end Flate.Proof.R
