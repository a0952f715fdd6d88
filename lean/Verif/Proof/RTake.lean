/-
Which bits of the input a function of reader.go has consumed when it succeeds: the same whatever the source, the way it delivers its data, and the
moment of a `Close`.
-/
import Verif.Proof.RHeadEv
import Verif.Proof.RRatio

namespace Flate.Proof.R
open Flate.Spec Flate.Model Flate.Model.Rd

/-- all bits which have not been consumed -/
def tb (i : Inp) : List Bool := natBits i.ibLen i.ibBlock ++ bytesBits (allB i)

/-- `i'` is reached from `i` by consuming exactly the bits `b`. -/
structure Take (i : Inp) (b : List Bool) (i' : Inp) : Prop where
  bits : tb i = b ++ tb i'
  total : i'.inTotal + (allB i').length = i.inTotal + (allB i).length
  small : Small i'

/-- bits may have been collected, but none consumed -/
structure Coll (i i' : Inp) : Prop where
  bits : tb i = tb i'
  total : i'.inTotal + (allB i').length = i.inTotal + (allB i).length
  lt : i'.ibBlock < 2 ^ i'.ibLen

theorem Take.refl {i : Inp} (h : Small i) : Take i [] i := ⟨rfl, rfl, h⟩
theorem Take.trans {i j k : Inp} {a b : List Bool} (h : Take i a j) (h' : Take j b k) : Take i (a ++ b) k :=
  ⟨by rw [h.bits, h'.bits, List.append_assoc], h'.total.trans h.total, h'.small⟩
theorem Coll.refl {i : Inp} (h : i.ibBlock < 2 ^ i.ibLen) : Coll i i := ⟨rfl, rfl, h⟩
theorem Coll.trans {i j k : Inp} (h : Coll i j) (h' : Coll j k) : Coll i k := ⟨h.bits.trans h'.bits, h'.total.trans h.total, h'.lt⟩

theorem pop_block (st : Bool) (i : Inp) : (popByte st i).2.ibBlock = i.ibBlock ∧ (popByte st i).2.inTotal = i.inTotal := by
  have hr : (refill st i).ibBlock = i.ibBlock ∧ (refill st i).inTotal = i.inTotal := by
    unfold refill
    split
    · exact ⟨(fill_frame st i).2.2.2.1, (fill_frame st i).1⟩
    · exact ⟨rfl, rfl⟩
  rw [popByte_def]
  split
  · exact hr
  · exact hr

theorem coll_fillLoop {W : Nat} {st : Bool} {n : Nat} (hn : n ≤ W - 8) (hW : 8 ≤ W) : ∀ (fuel : Nat) {i i' : Inp} {ok : Bool}, i.ibBlock < 2 ^ i.ibLen →
    bitsFillLoop W st n fuel i = .ok (ok, i') → ok = true → Coll i i' ∧ n ≤ i'.ibLen ∧ i'.ibLen ≤ max i.ibLen (n + 7)
  | 0, _, _, _, _, e, _ => by cases e
  | fuel + 1, i, i', ok, hb, e, hok => by
    unfold bitsFillLoop at e
    by_cases hlt : i.ibLen < n
    · rw [if_pos hlt] at e
      rcases popByte_A st i with ⟨b, i1, e1, _, l1, s1, c1⟩ | ⟨i1, e1, _, l1, _⟩
      · obtain ⟨p1, p2⟩ := pop_block st i
        rw [e1] at e p1 p2
        simp only [] at e p1 p2
        have hp := push_eq (W := W) b hb (by omega)
        have hl := push_lt b hb
        have hc : Coll i { countIn [b] i1 with ibBlock := (countIn [b] i1).ibBlock ||| ((b.toNat <<< (countIn [b] i1).ibLen) % 2 ^ W), ibLen := (countIn [b] i1).ibLen + 8 } := by
          have hx : (countIn [b] i1).ibBlock ||| ((b.toNat <<< (countIn [b] i1).ibLen) % 2 ^ W) = i.ibBlock + 2 ^ i.ibLen * b.toNat := by
            show i1.ibBlock ||| ((b.toNat <<< i1.ibLen) % 2 ^ W) = _
            rw [p1, l1, hp]
          refine ⟨?_, ?_, ?_⟩
          · unfold tb
            rw [c1]
            show _ = natBits (i1.ibLen + 8) ((countIn [b] i1).ibBlock ||| ((b.toNat <<< (countIn [b] i1).ibLen) % 2 ^ W)) ++ bytesBits (allB i1)
            rw [hx, l1, natBits_push b hb, bytesBits_cons, List.append_assoc]
          · show i1.inTotal + 1 + (allB i1).length = _
            rw [p2]; omega
          · show (countIn [b] i1).ibBlock ||| ((b.toNat <<< (countIn [b] i1).ibLen) % 2 ^ W) < 2 ^ (i1.ibLen + 8)
            rw [hx, l1]; exact hl
        obtain ⟨h1, h2, h3⟩ := coll_fillLoop hn hW fuel hc.lt e hok
        refine ⟨hc.trans h1, h2, ?_⟩
        have h3' : i'.ibLen ≤ max (i1.ibLen + 8) (n + 7) := h3
        omega
      · rw [e1] at e
        cases e; cases hok
    · rw [if_neg hlt] at e
      cases e
      exact ⟨.refl hb, by omega, by omega⟩

theorem coll_fill {W : Nat} {st : Bool} {n : Nat} (hW : 8 ≤ W) {i i' : Inp} (hb : i.ibBlock < 2 ^ i.ibLen) (e : bitsFill W st n i = .ok (true, i')) :
    Coll i i' ∧ n ≤ i'.ibLen ∧ i'.ibLen ≤ max i.ibLen (n + 7) ∧ n ≤ W - 8 := by
  unfold bitsFill at e
  rw [Go.bind_apply, Go.assert_apply] at e
  by_cases hn : n ≤ W - 8
  · simp only [hn, decide_true, if_true] at e
    obtain ⟨h1, h2, h3⟩ := coll_fillLoop hn hW _ hb e rfl
    exact ⟨h1, h2, h3, hn⟩
  · simp only [hn, decide_false, Bool.false_eq_true, if_false] at e
    cases e

theorem take_commit {i j j' : Inp} {n : Nat} {u : Unit} (hh : Coll i j) (h : n ≤ j.ibLen) (h7 : j.ibLen ≤ n + 7) (e : bitsCommit n j = .ok (u, j')) :
    Take i (natBits n (j.ibBlock % 2 ^ n)) j' := by
  unfold bitsCommit at e
  rw [if_pos h] at e
  cases e
  refine ⟨?_, hh.total, ?_, ?_⟩
  · rw [hh.bits]
    unfold tb
    have : j.ibLen = n + (j.ibLen - n) := by omega
    rw [this, natBits_add, natBits_mod, List.append_assoc, Nat.shiftRight_eq_div_pow, ← this]
    rfl
  · simp only []; omega
  · simp only []
    have hl := hh.lt
    rw [Nat.shiftRight_eq_div_pow, Nat.div_lt_iff_lt_mul (Nat.two_pow_pos n), ← Nat.pow_add]
    rwa [show j.ibLen - n + n = j.ibLen by omega]

theorem take_read {W n v : Nat} (hn : n ≤ W - 8) {i j j' : Inp} (hh : Coll i j) (h : n ≤ j.ibLen) (h7 : j.ibLen ≤ n + 7) (e : bitsRead W n j = .ok (v, j')) :
    v < 2 ^ n ∧ Take i (natBits n v) j' := by
  unfold bitsRead at e
  rw [Go.bind_ok (bitsPeek_eq hn h)] at e
  obtain ⟨u, j1, e1, e2⟩ := Go.bind_eq_ok.1 e
  cases e2
  exact ⟨Nat.mod_lt _ (Nat.two_pow_pos n), take_commit hh h h7 e1⟩

theorem take_symbolLoop {L : HuffLib} (hL : L.Lawful) {lens : List Nat} (ha : L.accepts lens = true) {W : Nat} {st : Bool} (hW : 32 ≤ W) {i0 : Inp} :
    ∀ (fuel n : Nat) {i i' : Inp} {sym : Nat}, Coll i0 i → i.ibLen ≤ n + 7 → symbolLoop L W st lens fuel n i = .ok (some sym, i') →
    Used lens sym ∧ Take i0 (codeBits lens sym) i'
  | 0, _, _, _, _, _, _, e => by cases e
  | fuel + 1, n, i, i', sym, hh, h7, e => by
    have hm := hL.maxSize_le ha
    unfold symbolLoop at e
    by_cases hle : n ≤ L.maxSize lens
    · rw [if_pos hle] at e
      obtain ⟨ok, j, e1, e2⟩ := Go.bind_eq_ok.1 e
      cases ok with
      | false => cases e2
      | true =>
        obtain ⟨c1, c2, c3, _⟩ := coll_fill (by omega) hh.lt e1
        simp only [Bool.not_true, Bool.false_eq_true, if_false] at e2
        rw [Go.bind_ok (bitsPeek_eq (W := W) (by omega) c2)] at e2
        have hj := hh.trans c1
        have hlt : j.ibBlock % 2 ^ n < 2 ^ n := Nat.mod_lt _ (Nat.two_pow_pos n)
        rcases hd : L.decode lens n (j.ibBlock % 2 ^ n) with ⟨o, lo, hi⟩
        rw [hd] at e2
        cases o with
        | some sy =>
          simp only [] at e2
          obtain ⟨u, j1, e3, e4⟩ := Go.bind_eq_ok.1 e2
          cases e4
          obtain ⟨us, hcode⟩ := hL.decode_some ha hlt hd
          exact ⟨us, hcode ▸ take_commit hj c2 (by omega) e3⟩
        | none =>
          simp only [] at e2
          by_cases hz : hi = 0
          · rw [if_pos hz] at e2; cases e2
          · rw [if_neg hz] at e2
            obtain ⟨hlo, _⟩ := hL.decode_more ha hlt hd hz
            exact take_symbolLoop hL ha hW fuel lo hj (by omega) e2
    · rw [if_neg hle] at e; cases e

section
variable {E : Env} {α : Type}

theorem take_symbol (hE : LibOK E) {lens : List Nat} (ha : E.L.accepts lens = true) {s s' : RState} {sym : Nat} (hs : Small s.inp)
    (e : readSymbol E lens s = .ok (some sym, s')) : ∃ i, s' = { s with inp := i } ∧ Used lens sym ∧ Take s.inp (codeBits lens sym) i := by
  unfold readSymbol onInp readSymbolInp at e
  simp only [] at e
  rcases hx : symbolLoop E.L E.W s.out.stopIsForced lens (E.L.maxSize lens + 2) (E.L.minSize lens) s.inp with p | ⟨r, i⟩
  · rw [hx] at e; cases e
  · rw [hx] at e
    cases e
    obtain ⟨h1, h2⟩ := take_symbolLoop hE.lawful ha hE.word _ _ (.refl hs.lt) (by have := hs.len; omega) hx
    exact ⟨i, rfl, h1, h2⟩

/-- `needBits` read its bits, or gave up -/
theorem take_bits (hE : LibOK E) {fl a : α} {n : Nat} {k : Nat → Go RState α} {s s' : RState} (hs : Small s.inp)
    (e : needBits E fl n k s = .ok (a, s')) : (a = fl ∧ s'.events = s.events) ∨
    ∃ v i, v < 2 ^ n ∧ Take s.inp (natBits n v) i ∧ k v { s with inp := i } = .ok (a, s') := by
  have hw := hE.word
  unfold needBits at e
  obtain ⟨ok, s1, e1, e2⟩ := Go.bind_eq_ok.1 e
  unfold onInp at e1
  simp only [] at e1
  rcases hx : bitsFill E.W s.out.stopIsForced n s.inp with p | ⟨b, j⟩
  · rw [hx] at e1; cases e1
  · rw [hx] at e1
    cases e1
    cases ok with
    | false =>
      left
      simp only [Bool.not_false, if_true] at e2
      have h1 : s'.events = _ := noEv_flow.exhausted fl _ _ _ e2
      refine ⟨?_, h1⟩
      unfold exhausted at e2
      obtain ⟨_, _, _, e4⟩ := Go.bind_eq_ok.1 e2
      cases e4; rfl
    | true =>
      right
      simp only [Bool.not_true, Bool.false_eq_true, if_false] at e2
      obtain ⟨v, s2, e3, e4⟩ := Go.bind_eq_ok.1 e2
      unfold onInp at e3
      simp only [] at e3
      rcases hy : bitsRead E.W n j with p | ⟨v', j'⟩
      · rw [hy] at e3; cases e3
      · rw [hy] at e3
        cases e3
        obtain ⟨c1, c2, c3, c4⟩ := coll_fill (by omega) hs.lt hx
        have h7 := hs.len
        obtain ⟨h1, h2⟩ := take_read c4 c1 c2 (by omega) hy
        exact ⟨v, j', h1, h2, e4⟩

theorem take_bits_some (hE : LibOK E) {a : α} {n : Nat} {k : Nat → Go RState (Option α)} {s s' : RState} (hs : Small s.inp)
    (e : needBits E none n k s = .ok (some a, s')) : ∃ v i, v < 2 ^ n ∧ Take s.inp (natBits n v) i ∧ k v { s with inp := i } = .ok (some a, s') := by
  rcases take_bits hE hs e with ⟨h, _⟩ | h
  · cases h
  · exact h

/-! ### the header of a dynamic block -/

theorem take_CL (hE : LibOK E) : ∀ (is sX : List Nat) {s s' : RState} {r : List Nat}, Small s.inp → readCL E is sX s = .ok (some r, s') →
    ∃ vs i, vs.length = is.length ∧ (∀ v ∈ vs, v < 8) ∧ Take s.inp (vs.flatMap (natBits 3)) i ∧ r = setAll is vs sX ∧ s' = { s with inp := i }
  | [], sX, s, s', r, hs, e => by cases e; exact ⟨[], s.inp, rfl, by simp, .refl hs, rfl, rfl⟩
  | i :: is, sX, s, s', r, hs, e => by
    unfold readCL at e
    obtain ⟨v, j, h1, h2, h3⟩ := take_bits_some hE hs e
    obtain ⟨vs, k, g1, g2, g3, g4, g5⟩ := take_CL hE is (sX.set i v) (s := { s with inp := j }) h2.small h3
    refine ⟨v :: vs, k, by simp [g1], ?_, h2.trans g3, g4, g5⟩
    intro x hx
    rcases List.mem_cons.1 hx with rfl | hx
    · exact h1
    · exact g2 x hx

theorem take_X (hE : LibOK E) {sym total : Nat} {acc acc' : List Nat} {s s' : RState} (h19 : sym < 19) (ht : acc.length < total) (hs : Small s.inp)
    (e : decodeX E sym total acc s = .ok (some acc', s')) :
    ∃ x i, x < 2 ^ clExtra sym ∧ clStep acc sym x = some acc' ∧ acc'.length ≤ total ∧ Take s.inp (natBits (clExtra sym) x) i ∧ s' = { s with inp := i } := by
  unfold decodeX at e
  by_cases h16 : sym < 16
  · have : clExtra sym = 0 := by unfold clExtra; rw [if_neg (by omega), if_neg (by omega), if_neg (by omega)]
    rw [if_pos h16, if_pos ht] at e
    cases e
    rw [this]
    exact ⟨0, s.inp, by simp, by unfold clStep; rw [if_pos h16], by simp; omega, .refl hs, rfl⟩
  rw [if_neg h16] at e
  by_cases h1 : sym = 16
  · rw [if_pos h1] at e
    by_cases h0 : acc.length = 0
    · rw [if_pos h0] at e; exact (corrupt_some e).elim
    · rw [if_neg h0] at e
      obtain ⟨v, j, g1, g2, g3⟩ := take_bits_some hE hs e
      have hx : clExtra sym = 2 := by unfold clExtra; rw [if_pos h1]
      by_cases hc : 3 + v > total - acc.length
      · rw [if_pos hc] at g3; exact (corrupt_some g3).elim
      · rw [if_neg hc, if_pos (by omega)] at g3
        cases g3
        rw [hx]
        refine ⟨v, j, g1, ?_, by simp; omega, g2, rfl⟩
        unfold clStep; rw [if_neg h16, if_pos h1, last_getD h0]; rfl
  · rw [if_neg h1] at e
    by_cases h2 : sym = 17
    · rw [if_pos h2] at e
      obtain ⟨v, j, g1, g2, g3⟩ := take_bits_some hE hs e
      have hx : clExtra sym = 3 := by unfold clExtra; rw [if_neg h1, if_pos h2]
      by_cases hc : 3 + v > total - acc.length
      · rw [if_pos hc] at g3; exact (corrupt_some g3).elim
      · rw [if_neg hc] at g3
        cases g3
        rw [hx]
        refine ⟨v, j, g1, ?_, by simp; omega, g2, rfl⟩
        unfold clStep; rw [if_neg h16, if_neg h1, if_pos h2]
    · rw [if_neg h2, if_pos (by omega : sym = 18)] at e
      obtain ⟨v, j, g1, g2, g3⟩ := take_bits_some hE hs e
      have hx : clExtra sym = 7 := by unfold clExtra; rw [if_neg h1, if_neg h2, if_pos (by omega)]
      by_cases hc : 11 + v > total - acc.length
      · rw [if_pos hc] at g3; exact (corrupt_some g3).elim
      · rw [if_neg hc] at g3
        cases g3
        rw [hx]
        refine ⟨v, j, g1, ?_, by simp; omega, g2, rfl⟩
        unfold clStep; rw [if_neg h16, if_neg h1, if_neg h2, if_pos (by omega)]

theorem used19 {cl : List Nat} (hcl : cl.length = 19) {sym : Nat} (u : Used cl sym) : sym < 19 := by
  unfold Used lenOf at u
  rcases Nat.lt_or_ge sym 19 with h | h
  · exact h
  · rw [List.getD_eq_getElem?_getD, List.getElem?_eq_none (by omega)] at u; simp at u

theorem take_lens (hE : LibOK E) {cl : List Nat} (ha : E.L.accepts cl = true) (hcl : cl.length = 19) {total : Nat} :
    ∀ (fuel : Nat) (acc : List Nat) {s s' : RState} {lens : List Nat}, Small s.inp → acc.length ≤ total → lensLoop E cl total fuel acc s = .ok (some lens, s') →
    ∃ rle i, (∀ p ∈ rle, Used cl p.1 ∧ p.2 < 2 ^ clExtra p.1) ∧ clExpand acc rle = some lens ∧ lens.length = total ∧ Take s.inp (rleBits cl rle) i ∧ s' = { s with inp := i }
  | 0, _, _, _, _, _, _, e => by cases e
  | fuel + 1, acc, s, s', lens, hs, hacc, e => by
    unfold lensLoop at e
    by_cases ht : acc.length < total
    · rw [if_pos ht] at e
      obtain ⟨r, s1, e1, e2⟩ := Go.bind_eq_ok.1 e
      cases r with
      | none => exact (corrupt_some e2).elim
      | some sym =>
        obtain ⟨i1, rfl, u1, t1⟩ := take_symbol hE ha hs e1
        obtain ⟨r, s2, e3, e4⟩ := Go.bind_eq_ok.1 e2
        cases r with
        | none => cases e4
        | some acc' =>
          obtain ⟨x, i2, x1, x2, x3, t2, rfl⟩ := take_X hE (used19 hcl u1) ht t1.small e3
          obtain ⟨rle, i3, g1, g2, g3, g4, g5⟩ := take_lens hE ha hcl fuel acc' (s := { s with inp := i2 }) t2.small x3 e4
          refine ⟨(sym, x) :: rle, i3, ?_, ?_, g3, ?_, g5⟩
          · intro p hp
            rcases List.mem_cons.1 hp with rfl | hp
            · exact ⟨u1, x1⟩
            · exact g1 p hp
          · simp only [clExpand, x2, Option.bind_some, g2]
          · have := (t1.trans t2).trans g4
            simpa [rleBits] using this
    · rw [if_neg ht] at e
      cases e
      exact ⟨[], s.inp, by simp, rfl, by omega, .refl hs, rfl⟩

end
end Flate.Proof.R
