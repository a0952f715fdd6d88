/-
What holds of the decompression goroutine whatever the input, the way the source delivers it, and the moment of a
`Close`: it consumes its input in order, reports at most one error, and does not panic, except that a malformed
extra field in a gzip header makes `ExtraData.Parse` panic.
-/
import Verif.Proof.RHuff
import Verif.Proof.Extra

namespace Flate.Proof.R
open Flate.Spec Flate.Model Flate.Model.Rd

/-- bytes which have not been consumed -/
def allB (i : Inp) : List UInt8 := i.buf ++ i.src.bytes

theorem size_eq (i : Inp) : i.size = (allB i).length := by simp [Inp.size, allB]
theorem bits_eq (i : Inp) : i.bits = 8 * (allB i).length + i.ibLen := by rw [Inp.bits, size_eq]

/-- input has been consumed, in order -/
structure StepA (st : Bool) (i i' : Inp) : Prop where
  took : ∃ c, allB i = c ++ allB i' ∧ i'.inTotal = i.inTotal + c.length
  bits : i'.bits ≤ i.bits
  keep : ∀ e, i.inputError = some e → i'.inputError = some e
  srcErr : i'.src.err = i.src.err
  last : i'.inputError = none → i'.src.last = i.src.last
  fin : st = false → i.inputError = none → i'.inputError ≠ none → i'.inputError = some i.src.err ∧
    ((allB i').length < i.src.last.length ∨ allB i' = [])
  full : i'.src.full <:+ i.src.full

theorem StepA.refl (st : Bool) (i : Inp) : StepA st i i :=
  ⟨⟨[], by simp, by simp⟩, Nat.le_refl _, fun _ h => h, rfl, fun _ => rfl, fun _ h h' => absurd h h', List.suffix_refl _⟩

theorem StepA.none {st : Bool} {i i' : Inp} (h : StepA st i i') (hn : i'.inputError = none) : i.inputError = none := by
  cases he : i.inputError with
  | none => rfl
  | some e => rw [h.keep e he] at hn; cases hn

theorem StepA.trans {st st' : Bool} {i j k : Inp} (h : StepA st i j) (h' : StepA st' j k) (hk : st' = false → st = false) :
    StepA st' i k := by
  obtain ⟨c, c1, c2⟩ := h.took
  obtain ⟨d, d1, d2⟩ := h'.took
  refine ⟨⟨c ++ d, by rw [c1, d1]; simp, by rw [d2, c2]; simp; omega⟩, Nat.le_trans h'.bits h.bits, fun e he => h'.keep e (h.keep e he),
    h'.srcErr.trans h.srcErr, fun e => (h'.last e).trans (h.last (h'.none e)), fun e1 e2 e3 => ?_, h'.full.trans h.full⟩
  by_cases hj : j.inputError = Option.none
  · have := h'.fin e1 hj e3
    rw [h.srcErr, h.last hj] at this
    exact this
  · obtain ⟨g1, g2⟩ := h.fin (hk e1) e2 hj
    refine ⟨h'.keep _ g1, ?_⟩
    rcases g2 with g2 | g2
    · left; rw [d1] at g2; simp at g2; omega
    · right; rw [d1] at g2; simp at g2; exact g2.2

theorem StepA.le {st : Bool} {i i' : Inp} (h : StepA st i i') : (allB i').length ≤ (allB i).length := by
  obtain ⟨c, c1, _⟩ := h.took
  rw [c1]; simp

/-! ### operations on the input -/

theorem allB_fill (st : Bool) (i : Inp) : allB (fill st i) = allB i := by
  unfold fill
  split
  · rfl
  · split
    · rfl
    · split
      · rename_i h; simp [allB, Src.bytes, h]
      · rename_i h; simp [allB, Src.bytes, h]

theorem fill_full (st : Bool) (i : Inp) : (fill st i).src.full <:+ i.src.full := by
  unfold fill
  split
  · exact List.suffix_refl _
  · split
    · exact List.suffix_refl _
    · split
      · rename_i h; rw [h]; exact List.suffix_cons _ _
      · exact List.suffix_refl _

theorem fill_frame (st : Bool) (i : Inp) : (fill st i).inTotal = i.inTotal ∧ (fill st i).inStream = i.inStream ∧ (fill st i).crc = i.crc ∧
    (fill st i).ibBlock = i.ibBlock ∧ (fill st i).ibLen = i.ibLen ∧ (fill st i).src.err = i.src.err ∧
    (∀ e, i.inputError = some e → (fill st i).inputError = some e) ∧
    ((fill st i).inputError = none → (fill st i).src.last = i.src.last) ∧
    (st = false → i.inputError = none → (fill st i).inputError ≠ none → (fill st i).inputError = some i.src.err ∧
      (allB (fill st i)).length = i.buf.length + i.src.last.length) := by
  unfold fill
  split
  · rename_i h
    refine ⟨rfl, rfl, rfl, rfl, rfl, rfl, fun _ h => h, fun _ => rfl, fun _ h1 => ?_⟩
    rw [h1] at h; cases h
  · rename_i h
    have hn : i.inputError = none := by simpa using h
    split
    · rename_i hst
      exact ⟨rfl, rfl, rfl, rfl, rfl, rfl, fun e he => (by rw [hn] at he; cases he), fun h => (by cases h), fun h1 => (by rw [h1] at hst; cases hst)⟩
    · split
      · exact ⟨rfl, rfl, rfl, rfl, rfl, rfl, fun _ h => h, fun _ => rfl, fun _ _ h3 => absurd hn h3⟩
      · rename_i hf
        refine ⟨rfl, rfl, rfl, rfl, rfl, rfl, fun e he => (by rw [hn] at he; cases he), fun h => (by cases h), fun _ _ _ => ⟨rfl, ?_⟩⟩
        simp [allB, Src.bytes, hf]

theorem stepA_fillEmpty {st : Bool} {i : Inp} (hb : i.buf = []) (h : (fill st i).buf = []) : StepA st i (fill st i) := by
  obtain ⟨f1, _, _, _, f5, f6, f7, f8, f9⟩ := fill_frame st i
  refine ⟨⟨[], by simp [allB_fill], by simp [f1]⟩, ?_, f7, f6, f8, fun h1 h2 h3 => ?_, fill_full st i⟩
  · rw [bits_eq, bits_eq, allB_fill, f5]
  · refine ⟨(f9 h1 h2 h3).1, Or.inr ?_⟩
    have := (f9 h1 h2 h3).2
    unfold fill at h h3 ⊢
    simp only [h2, Option.isSome_none, Bool.false_eq_true, if_false, h1] at h h3 ⊢
    split at h
    · rename_i hf
      simp [hf] at h
    · rename_i hf
      simp only [hf, allB, Src.bytes] at h ⊢
      simp at h ⊢
      exact ⟨h.1, h.2⟩

/-- the state after the buffer was refilled if necessary -/
def refill (st : Bool) (i : Inp) : Inp := if i.buf.isEmpty then fill st i else i

theorem popByte_def (st : Bool) (i : Inp) : popByte st i = match (refill st i).buf with
    | [] => (none, refill st i)
    | b :: r => (some b, { refill st i with buf := r }) := rfl

theorem popByte_A (st : Bool) (i : Inp) :
    (∃ b i', popByte st i = (some b, i') ∧ StepA st i (countIn [b] i') ∧ i'.ibLen = i.ibLen ∧ (allB i).length = (allB i').length + 1 ∧
      allB i = b :: allB i') ∨
    (∃ i', popByte st i = (none, i') ∧ StepA st i i' ∧ i'.ibLen = i.ibLen ∧ i'.buf = []) := by
  rw [popByte_def]
  by_cases hb : i.buf = []
  · have hr : refill st i = fill st i := by simp [refill, hb]
    rw [hr]
    obtain ⟨f1, f2, f3, f4, f5, f6, f7, f8, f9⟩ := fill_frame st i
    cases h : (fill st i).buf with
    | nil => right; exact ⟨_, rfl, stepA_fillEmpty hb h, f5, h⟩
    | cons b r =>
      left
      have ha : allB i = b :: (r ++ (fill st i).src.bytes) := by
        rw [← allB_fill st i]; simp [allB, h]
      refine ⟨b, _, rfl, ⟨⟨[b], by rw [ha]; simp [allB, countIn], by simp [countIn, f1]⟩, ?_, f7, f6, f8, fun h1 h2 h3 => ?_, fill_full st i⟩, f5, by rw [ha]; simp [allB], by rw [ha]; simp [allB]⟩
      · rw [bits_eq, bits_eq, ha]
        simp [allB, countIn, f5]; omega
      · refine ⟨(f9 h1 h2 h3).1, Or.inl ?_⟩
        have := (f9 h1 h2 h3).2
        rw [allB_fill, ha, hb] at this
        simp [allB, countIn] at this ⊢
        omega
  · have hr : refill st i = i := by
      unfold refill
      rw [if_neg (by simpa using hb)]
    rw [hr]
    cases h : i.buf with
    | nil => exact absurd h hb
    | cons b r =>
      left
      refine ⟨b, _, rfl, ⟨⟨[b], by simp [allB, countIn, h], rfl⟩, ?_, fun _ h => h, rfl, fun _ => rfl, fun h1 h2 h3 => absurd h2 h3, List.suffix_refl _⟩, rfl, by simp [allB, h], by simp [allB, h]⟩
      rw [bits_eq, bits_eq]
      simp [allB, countIn, h]; omega

/-- like `countIn` of `a` first -/
theorem popBytes_A (st : Bool) : ∀ (n : Nat) (i : Inp), ∃ p i', popBytes st n i = (p, i') ∧ StepA st i (countIn p i') ∧ i'.ibLen = i.ibLen ∧
    allB i = p ++ allB i'
  | 0, i => ⟨[], i, rfl, by simpa [countIn, genericUpdate_eq] using StepA.refl st i, rfl, rfl⟩
  | n + 1, i => by
    unfold popBytes
    rcases popByte_A st i with ⟨b, i1, e1, h1, l1, s1, c1⟩ | ⟨i1, e1, h1, l1, _⟩
    · rw [e1]
      simp only []
      obtain ⟨p, i2, e2, h2, l2, c2⟩ := popBytes_A st n i1
      rw [e2]
      refine ⟨b :: p, i2, rfl, ?_, l2.trans l1, by rw [c1, c2]; rfl⟩
      have h2' : StepA st (countIn [b] i1) (countIn (b :: p) i2) := by
        obtain ⟨⟨c, q1, q2⟩, q3, q4, q5, q6, q7, q8⟩ := h2
        refine ⟨⟨c, q1, ?_⟩, q3, q4, q5, q6, q7, q8⟩
        simp [countIn] at q2 ⊢
        have e2' := congrArg List.length q1
        omega
      exact h1.trans h2' id
    · rw [e1]
      exact ⟨[], i1, rfl, by simpa [countIn, genericUpdate_eq] using h1, l1, by
        obtain ⟨c, q1, q2⟩ := h1.took
        have : (popByte st i).2 = i1 := by rw [e1]
        rw [popByte_def] at this
        have ha : allB (refill st i) = allB i := by unfold refill; split; exact allB_fill st i; rfl
        split at this
        · rw [← this, ha]; rfl
        · rename_i b r hb
          rw [popByte_def, hb] at e1
          cases e1⟩

theorem stepA_discard (st : Bool) (i : Inp) : StepA st i (Rd.discard i) :=
  ⟨⟨[], by simp [allB, Rd.discard], by simp [Rd.discard]⟩, by simp [Inp.bits, Inp.size, Rd.discard], fun _ h => h, rfl, fun _ => rfl,
    fun _ h h' => absurd h h', List.suffix_refl _⟩

theorem bufRead_A (st : Bool) (n : Nat) (i : Inp) : ∃ p ok i', bufRead st n i = ((p, ok), i') ∧ StepA st i i' ∧ (ok = true → p.length = n) ∧
    allB i = p ++ allB i' ∧ i'.ibLen = 0 := by
  unfold bufRead
  by_cases h : n = 0
  · simp only [h, if_true]
    exact ⟨[], true, _, rfl, stepA_discard st i, fun _ => rfl, rfl, rfl⟩
  · simp only [h, if_false]
    obtain ⟨p, i', e, hs, hz, c⟩ := popBytes_A st n (Rd.discard i)
    rw [e]
    exact ⟨p, _, _, rfl, (stepA_discard st i).trans hs id, fun h => by simpa using h, by rw [← show allB (Rd.discard i) = allB i from rfl, c]; rfl, hz⟩

theorem stringZLoop_A (st : Bool) : ∀ (fuel : Nat) (acc : List UInt8) (i : Inp), (allB i).length < fuel →
    ∃ p i', stringZLoop st fuel acc i = .ok (p, i') ∧ StepA st i i'
  | 0, _, _, h => by omega
  | fuel + 1, acc, i, h => by
    unfold stringZLoop
    rcases popByte_A st i with ⟨b, i1, e1, h1, l1, s1, c1⟩ | ⟨i1, e1, h1, l1, _⟩
    · rw [e1]
      simp only []
      split
      · exact ⟨_, _, rfl, h1⟩
      · obtain ⟨p, i', e2, h2⟩ := stringZLoop_A st fuel (acc ++ [b]) (countIn [b] i1) (by
          have : allB (countIn [b] i1) = allB i1 := rfl
          rw [this]; omega)
        exact ⟨p, i', e2, h1.trans h2 id⟩
    · rw [e1]; exact ⟨_, _, rfl, h1⟩

theorem bitsFillLoop_A (W : Nat) (st : Bool) (n : Nat) : ∀ (fuel : Nat) (i : Inp), n ≤ i.ibLen + 8 * fuel →
    ∃ ok i', bitsFillLoop W st n (fuel + 1) i = .ok (ok, i') ∧ StepA st i i' ∧ (ok = true → n ≤ i'.ibLen) := by
  intro fuel
  induction fuel with
  | zero =>
    intro i h
    unfold bitsFillLoop
    rw [if_neg (by omega)]
    exact ⟨true, i, rfl, StepA.refl st i, fun _ => by omega⟩
  | succ fuel ih =>
    intro i h
    unfold bitsFillLoop
    by_cases hlt : i.ibLen < n
    · simp only [hlt, if_true]
      rcases popByte_A st i with ⟨b, i1, e1, h1, l1, s1, c1⟩ | ⟨i1, e1, h1, l1, _⟩
      · rw [e1]
        simp only []
        obtain ⟨ok, i', e2, h2, h3⟩ := ih { countIn [b] i1 with ibBlock := (countIn [b] i1).ibBlock ||| ((b.toNat <<< (countIn [b] i1).ibLen) % 2 ^ W), ibLen := (countIn [b] i1).ibLen + 8 }
          (by simp only [countIn]; omega)
        refine ⟨ok, i', e2, ?_, h3⟩
        have h1' : StepA st i { countIn [b] i1 with ibBlock := (countIn [b] i1).ibBlock ||| ((b.toNat <<< (countIn [b] i1).ibLen) % 2 ^ W), ibLen := (countIn [b] i1).ibLen + 8 } := by
          refine ⟨h1.took, ?_, h1.keep, h1.srcErr, h1.last, h1.fin, h1.full⟩
          rw [bits_eq, bits_eq, s1]
          simp [allB, countIn, l1]; omega
        exact h1'.trans h2 id
      · rw [e1]
        exact ⟨false, i1, rfl, h1, fun h => by cases h⟩
    · simp only [hlt, if_false]
      exact ⟨true, i, rfl, StepA.refl st i, fun _ => by omega⟩

theorem bitsFill_A {W : Nat} (st : Bool) {n : Nat} (hn : n ≤ W - 8) (i : Inp) :
    ∃ ok i', bitsFill W st n i = .ok (ok, i') ∧ StepA st i i' ∧ (ok = true → n ≤ i'.ibLen) := by
  obtain ⟨ok, i', e, h⟩ := bitsFillLoop_A W st n n i (by omega)
  refine ⟨ok, i', ?_, h⟩
  unfold bitsFill
  rw [Go.bind_apply]
  simp [hn, Go.assert_apply, e]

theorem bitsCommit_A (st : Bool) {n : Nat} {i : Inp} (h : n ≤ i.ibLen) :
    ∃ i', bitsCommit n i = .ok ((), i') ∧ StepA st i i' ∧ i'.bits + n = i.bits := by
  refine ⟨{ i with ibBlock := i.ibBlock >>> n, ibLen := i.ibLen - n }, by unfold bitsCommit; rw [if_pos h], ⟨⟨[], rfl, rfl⟩, ?_, fun _ h => h, rfl, fun _ => rfl, fun _ h h' => absurd h h', List.suffix_refl _⟩, ?_⟩
  · simp [Inp.bits, Inp.size]
  · simp [Inp.bits, Inp.size]; omega

theorem bitsRead_A {W : Nat} (st : Bool) {n : Nat} (hn : n ≤ W - 8) {i : Inp} (h : n ≤ i.ibLen) :
    ∃ v i', bitsRead W n i = .ok (v, i') ∧ v < 2 ^ n ∧ StepA st i i' ∧ i'.bits + n = i.bits := by
  obtain ⟨i', e, h1, h2⟩ := bitsCommit_A st h
  refine ⟨i.ibBlock % 2 ^ n, i', ?_, Nat.mod_lt _ (Nat.two_pow_pos n), h1, h2⟩
  unfold bitsRead
  rw [Go.bind_ok (bitsPeek_eq hn h), Go.bind_ok e]
  rfl

theorem symbolLoop_A {L : HuffLib} (hL : L.Lawful) {lens : List Nat} (ha : L.accepts lens = true) {W : Nat} (st : Bool)
    (hW : 32 ≤ W) : ∀ (fuel n : Nat) (i : Inp), 0 < fuel → L.maxSize lens + 2 ≤ n + fuel →
    ∃ r i', symbolLoop L W st lens fuel n i = .ok (r, i') ∧ StepA st i i' ∧ ∀ sym, r = some sym → i'.bits < i.bits ∧ Used lens sym
  | 0, _, _, h, _ => absurd h (Nat.lt_irrefl 0)
  | fuel + 1, n, i, h0, hf => by
    have hm := hL.maxSize_le ha
    unfold symbolLoop
    by_cases hle : n ≤ L.maxSize lens
    · simp only [hle, if_true]
      obtain ⟨ok, i1, e1, h1, h2⟩ := bitsFill_A (W := W) st (n := n) (by omega) i
      rw [Go.bind_ok e1]
      cases ok with
      | false => exact ⟨none, i1, rfl, h1, fun _ h => by cases h⟩
      | true =>
        simp only [Bool.not_true, Bool.false_eq_true, if_false]
        rw [Go.bind_ok (bitsPeek_eq (W := W) (by omega) (h2 rfl))]
        have hlt : i1.ibBlock % 2 ^ n < 2 ^ n := Nat.mod_lt _ (Nat.two_pow_pos n)
        cases hd : L.decode lens n (i1.ibBlock % 2 ^ n) with
        | mk o r =>
          obtain ⟨lo, hi⟩ := r
          cases o with
          | some sym =>
            simp only []
            obtain ⟨i2, e2, h3, h4⟩ := bitsCommit_A st (h2 rfl)
            rw [Go.bind_ok e2]
            refine ⟨some sym, i2, rfl, h1.trans h3 id, fun s' hs' => ?_⟩
            cases hs'
            obtain ⟨u, hc⟩ := hL.decode_some ha hlt hd
            refine ⟨?_, u⟩
            have := congrArg List.length hc
            simp at this
            unfold Used at u
            have := h1.bits
            omega
          | none =>
            simp only []
            by_cases hz : hi = 0
            · simp only [hz, if_true]
              exact ⟨none, i1, rfl, h1, fun _ h => by cases h⟩
            · simp only [hz, if_false]
              obtain ⟨hlo, _⟩ := hL.decode_more ha hlt hd hz
              obtain ⟨r, i2, e2, h3, h4⟩ := symbolLoop_A hL ha st hW fuel lo i1 (by omega) (by omega)
              exact ⟨r, i2, e2, h1.trans h3 id, fun s hs => ⟨Nat.lt_of_lt_of_le (h4 s hs).1 h1.bits, (h4 s hs).2⟩⟩
    · simp only [hle, if_false]
      exact ⟨none, i, rfl, StepA.refl st i, fun _ h => by cases h⟩

/-! ### operations on the output -/

def isErr : Act → Bool
  | .data _ => false
  | .err _ => true

theorem actData_append (a b : List Act) : actData (a ++ b) = actData a ++ actData b := by
  induction a with
  | nil => rfl
  | cons x a ih => cases x <;> simp [actData, ih]

/-- data may have been delivered, and at most one error reported -/
structure StepO (o o' : Out) : Prop where
  acts : ∃ l, o'.acts = o.acts ++ l ∧ o'.outTotal = o.outTotal + (actData l).length ∧
    l.countP isErr + o.errorWasSet.toNat ≤ o'.errorWasSet.toNat ∧
    (o'.stopIsForced = false → o'.errorWasSet.toNat = l.countP isErr + o.errorWasSet.toNat ∧
      ∃ q, actData l ++ o'.decodeBuffer = o.decodeBuffer ++ q)
  stop : o.stopIsForced = true → o'.stopIsForced = true

theorem stepO_none {o o' : Out} (h1 : o'.acts = o.acts) (h2 : o'.outTotal = o.outTotal) (h3 : o'.errorWasSet = o.errorWasSet)
    (h4 : o'.stopIsForced = o.stopIsForced) (h5 : o'.stopIsForced = false → ∃ q, o'.decodeBuffer = o.decodeBuffer ++ q) : StepO o o' :=
  ⟨⟨[], by simp [h1], by simp [actData, h2], by simp [h3], fun h => ⟨by simp [h3], by simpa [actData] using h5 h⟩⟩, fun h => by rw [h4]; exact h⟩

theorem StepO.refl (o : Out) : StepO o o := stepO_none rfl rfl rfl rfl fun _ => ⟨[], by simp⟩

theorem StepO.trans {a b c : Out} (h : StepO a b) (h' : StepO b c) : StepO a c := by
  obtain ⟨⟨l, l1, l2, l3, l4⟩, s⟩ := h
  obtain ⟨⟨m, m1, m2, m3, m4⟩, t⟩ := h'
  refine ⟨⟨l ++ m, by rw [m1, l1]; simp, by rw [m2, l2, actData_append]; simp; omega, by rw [List.countP_append]; omega, fun h => ?_⟩, fun e => t (s e)⟩
  have hb : b.stopIsForced = false := by
    cases hb : b.stopIsForced with
    | false => rfl
    | true => rw [t hb] at h; cases h
  obtain ⟨u1, q1, u2⟩ := l4 hb
  obtain ⟨v1, q2, v2⟩ := m4 h
  refine ⟨by rw [List.countP_append]; omega, q1 ++ q2, ?_⟩
  rw [actData_append, List.append_assoc, v2, ← List.append_assoc, u2]
  simp

theorem stepO_closeOut (e : Err) (o : Out) : StepO o (closeOut e o) := by
  unfold closeOut
  cases h : o.errorWasSet
  · exact ⟨⟨[.err e], by simp, by simp [actData], by simp [h, isErr], fun _ => ⟨by simp [h, isErr], [], by simp [actData]⟩⟩, id⟩
  · exact StepO.refl o

theorem stepO_mustFlush (E : Env) (o : Out) : StepO o (mustFlush E o) := by
  unfold mustFlush
  split
  · rename_i hs
    exact stepO_none rfl rfl rfl rfl fun h => by rw [hs] at h; cases h
  · rename_i hs
    simp only []
    split
    · exact stepO_none rfl rfl rfl rfl fun _ => ⟨[], by simp⟩
    · split
      · split
        · exact ⟨⟨[.data _], rfl, by simp [actData, countOut], by simp [isErr]; exact Bool.toNat_le _, by simp⟩, fun _ => rfl⟩
        · exact ⟨⟨[.data _], rfl, by simp [actData, countOut], by simp [isErr, countOut], fun _ => ⟨by simp [isErr, countOut], [], by simp [actData]⟩⟩, id⟩
      · exact ⟨⟨[.data _], rfl, by simp [actData, countOut], by simp [isErr, countOut], fun _ => ⟨by simp [isErr, countOut], [], by simp [actData]⟩⟩, id⟩

theorem stepO_tryFlush (E : Env) (o : Out) : StepO o (tryFlush E o) := by
  unfold tryFlush; split
  · exact stepO_mustFlush E o
  · exact StepO.refl o

theorem mustFlush_buf (E : Env) (o : Out) : (mustFlush E o).decodeBuffer = [] := by
  unfold mustFlush
  split
  · rfl
  · simp only []
    split
    · rename_i h; simpa using h
    · split
      · split <;> rfl
      · rfl

theorem tryFlush_lt (E : Env) (o : Out) : (tryFlush E o).decodeBuffer.length < E.cap := by
  unfold tryFlush; split
  · rw [mustFlush_buf]; exact cap_pos E
  · omega

theorem dbWriteLoop_A (E : Env) : ∀ (fuel : Nat) (p : List UInt8) (o : Out), p.length < fuel →
    ∃ o', dbWriteLoop E fuel p o = .ok o' ∧ StepO o o'
  | 0, _, _, h => by omega
  | fuel + 1, p, o, h => by
    unfold dbWriteLoop
    by_cases hp : p.length > 0
    · simp only [hp, if_true]
      have h2 := tryFlush_lt E o
      generalize hn : min p.length (E.cap - (tryFlush E o).decodeBuffer.length) = n
      obtain ⟨o', h4, h5⟩ := dbWriteLoop_A E fuel (p.drop n) { tryFlush E o with decodeBuffer := (tryFlush E o).decodeBuffer ++ p.take n, window := windowWrite E.o.wbits (tryFlush E o).window (p.take n) }
        (by simp only [List.length_drop]; omega)
      refine ⟨o', h4, (stepO_tryFlush E o).trans ?_⟩
      exact StepO.trans (b := { tryFlush E o with decodeBuffer := (tryFlush E o).decodeBuffer ++ p.take n, window := windowWrite E.o.wbits (tryFlush E o).window (p.take n) }) (stepO_none rfl rfl rfl rfl fun _ => ⟨_, rfl⟩) h5
    · simp only [hp, if_false]
      exact ⟨o, rfl, StepO.refl o⟩

end Flate.Proof.R
