/-
Decoding the blocks of a stream.
-/
import Verif.Proof.RTrees
import Verif.Spec.Trace

namespace Flate.Proof.R
open Flate.Spec Flate.Model Flate.Model.Rd

/-- `readFlateBlock` after the first three bits -/
def blockRest (E : Env) (isFinal : Bool) (bt : BlockType) : Go RState (Option Bool) := do
    sendEvent (.blockBegin bt isFinal)
    let isOK ← readBlockOf E isFinal bt
    if isOK then do
      sendEvent (.blockEnd bt isFinal)
      pure (some isFinal)
    else pure none

theorem block_eq (E : Env) : readFlateBlock E = needBits E none 3 fun out => blockRest E (decide (out % 2 = 1)) (blockTypeOf out) := by
  unfold readFlateBlock blockRest
  rfl

/-- the code lengths which the library accepts -/
abbrev Env.ok (E : Env) : List Nat → Prop := fun l => E.L.accepts l = true

section
variable {E : Env} {e0 : Err} {s : RState}


theorem Nm.same {s1 : RState} (h : Nm e0 s) (hi : s1.inp = s.inp) (ho : s1.out = s.out) : Nm e0 s1 :=
  ⟨by rw [hi]; exact h.err, by rw [ho]; exact h.stop, by rw [hi]; exact h.small⟩

/-- what `readFlateBlock` does with the result of decoding the body of the block -/
theorem block_begin (E : Env) (hs : Small s.inp) (f : Bool) (bt : BlockType) : ∃ s1, s1.inp = s.inp ∧ s1.out = s.out ∧
    (∀ {bits p ks s2}, readBlockOf E f bt s1 = .ok (true, s2) → Ran E s1 bits p ks s2 →
      ∃ s', blockRest E f bt s = .ok (some f, s') ∧ Ran E s bits p ([.blockBegin bt f] ++ ks ++ [.blockEnd bt f]) s') ∧
    (∀ {e0 b p s2}, readBlockOf E f bt s1 = .ok (b, s2) → Broke E e0 s1 p s2 → ∃ r s', blockRest E f bt s = .ok (r, s') ∧ Broke E e0 s p s') ∧
    (∀ {bits p ks s2 b s3}, readBlockOf E f bt s1 = .ok (b, s3) → Ran E s1 bits p ks s2 → Past s2 s3 →
      ∃ r ks s2 s', blockRest E f bt s = .ok (r, s') ∧ Ran E s bits p ks s2 ∧ Past s2 s') := by
  obtain ⟨s1, e1, r1, i1, o1⟩ := ran_event E hs (.blockBegin bt f)
  refine ⟨s1, i1, o1, ?_, ?_, ?_⟩
  · intro bits p ks s2 e2 r2
    obtain ⟨s3, e3, r3, _, _⟩ := ran_event E r2.adv.small (.blockEnd bt f)
    refine ⟨s3, ?_, by simpa using (r1.trans r2).trans r3⟩
    unfold blockRest
    rw [Go.bind_ok e1, Go.bind_ok e2]
    simp only [if_true]
    rw [Go.bind_ok e3]
    rfl
  · intro e0 b p s2 e2 r2
    have r2 := r2.after r1
    cases b with
    | false => exact ⟨none, s2, by unfold blockRest; rw [Go.bind_ok e1, Go.bind_ok e2]; rfl, r2⟩
    | true =>
      obtain ⟨s3, e3, p3⟩ := past_event s2 (.blockEnd bt f)
      refine ⟨some f, s3, ?_, r2.later p3⟩
      unfold blockRest
      rw [Go.bind_ok e1, Go.bind_ok e2]
      simp only [if_true]
      rw [Go.bind_ok e3]
      rfl
  · intro bits p ks s2 b s3 e2 r2 p2
    have r12 := r1.trans r2
    cases b with
    | false => exact ⟨none, _, s2, s3, by unfold blockRest; rw [Go.bind_ok e1, Go.bind_ok e2]; rfl, by simpa using r12, p2⟩
    | true =>
      obtain ⟨s4, e4, p4⟩ := past_event s3 (.blockEnd bt f)
      refine ⟨some f, _, s2, s4, ?_, by simpa using r12, p2.trans p4⟩
      unfold blockRest
      rw [Go.bind_ok e1, Go.bind_ok e2]
      simp only [if_true]
      rw [Go.bind_ok e4]
      rfl

theorem bits3 : ∀ v < 8, natBits 3 v = [decide (v % 2 = 1), decide (v / 2 % 2 = 1), decide (v / 4 = 1)] := by decide

theorem type3 (v : Nat) (h : v < 8) :
    (blockTypeOf v = .stored ∧ natBits 3 v = [decide (v % 2 = 1), false, false]) ∨
    (blockTypeOf v = .static ∧ natBits 3 v = [decide (v % 2 = 1), true, false]) ∨
    (blockTypeOf v = .dynamic ∧ natBits 3 v = [decide (v % 2 = 1), false, true]) ∨
    (blockTypeOf v = .invalid ∧ natBits 3 v = [decide (v % 2 = 1), true, true]) := by
  revert v; decide

theorem prefix_cons {v : Nat} {r b : List Bool} {i i' : Inp} (ha : Adv i (natBits 3 v) i') (h3 : natBits 3 v = r) (hb : b <+: vb i') : r ++ b <+: vb i := by
  rw [ha.bits, h3]
  exact List.prefix_append_right_inj r |>.2 hb


/-- the fixed trees as the Reader announces them -/
def staticTrees : Trees := { ll := fixedSizesLL, d := fixedSizesD }

theorem readStatic_eq (hs : Small s.inp) (f : Bool) : ∃ s1, s1.inp = s.inp ∧ s1.out = s.out ∧
    Ran E s [] [] [.blockTrees .static f staticTrees] s1 ∧ readStatic E f s = decodeHuffmanBlock E fixedLL fixedD s1 := by
  obtain ⟨s1, e1, r1, i1, o1⟩ := ran_event E hs (.blockTrees .static f { ll := fixedSizesLL, d := fixedSizesD })
  refine ⟨s1, i1, o1, r1, ?_⟩
  unfold readStatic
  rw [Go.bind_ok e1, fixedSizesLL_eq, fixedSizesD_eq]

theorem acceptsLL (hE : EnvOK E) : E.L.accepts fixedLL = true := by
  rw [← fixedSizesLL_eq]; exact (accepts_fixed hE.lawful).1
theorem acceptsD (hE : EnvOK E) : E.L.accepts fixedD = true := by
  rw [← fixedSizesD_eq]; exact (accepts_fixed hE.lawful).2

theorem block_sound (hE : EnvOK E) (hs : Nm e0 s) {pos : Nat} (hp : At pos s.inp) {h : List UInt8} (hw : s.out.window = lastN (2 ^ E.o.wbits) h) :
    (∃ final bits p ks s', readFlateBlock E s = .ok (some final, s') ∧ BlockEnc (Env.ok E) (2 ^ E.o.wbits) pos final h bits (h ++ p) ∧
      BlockTrace final ks ∧ Ran E s bits p ks s') ∨
    (∃ r bits p s', readFlateBlock E s = .ok (r, s') ∧ BlockPart (Env.ok E) (2 ^ E.o.wbits) h bits (h ++ p) ∧ bits <+: vb s.inp ∧
      Broke E e0 s p s') := by
  have noth : BlockPart (Env.ok E) (2 ^ E.o.wbits) h [] (h ++ []) := by simpa using BlockPart.nothing
  rw [block_eq]
  rcases needBits_eq hE.word hs (none : Option Bool) (n := 3) (by omega) (fun out => blockRest E (decide (out % 2 = 1)) (blockTypeOf out)) with
    ⟨_, v, i1, hv, a1, e1⟩ | ⟨_, s', e1, f1⟩
  swap
  · right; exact ⟨none, [], [], s', e1, noth, by simp, f1.broke⟩
  rw [e1]
  have n1 := hs.adv a1
  have r1 : Ran E s (natBits 3 v) [] [] { s with inp := i1 } := ⟨a1, .refl _ _, by simp [kinds], rfl, rfl, rfl⟩
  have at1 := hp.adv a1
  rw [natBits_length] at at1
  generalize hf : decide (v % 2 = 1) = f
  rcases type3 v hv with ⟨ht, hb⟩ | ⟨ht, hb⟩ | ⟨ht, hb⟩ | ⟨ht, hb⟩ <;> rw [ht] <;> rw [hf] at hb <;>
    obtain ⟨s1, k1, k2, good, bad, _⟩ := block_begin (s := { s with inp := i1 }) E a1.small f (blockTypeOf v) <;> rw [ht] at good bad <;>
    have ns1 : Nm e0 s1 := n1.same k1 k2 <;> have hw1 : s1.out.window = lastN (2 ^ E.o.wbits) h := (by rw [k2]; exact hw)
  · -- stored
    rcases readStored_sound hE ns1 with ⟨data, i2, o2, d1, d2, d3, d4⟩ | ⟨s2, q1, q2⟩
    · left
      obtain ⟨s', q1, q2⟩ := good (ks := []) d2 ⟨d3, d4, by simp [kinds], rfl, rfl, rfl⟩
      refine ⟨f, _, data, _, s', q1, ?_, .stored, r1.trans q2⟩
      rw [k1]
      have := BlockEnc.stored (ok := Env.ok E) (win := 2 ^ E.o.wbits) (pos := pos) (final := f) (h := h) (natBits i1.ibLen i1.ibBlock) data (by rw [natBits_length]; exact at1) d1
      rw [hb]
      simpa using this
    · right
      obtain ⟨r, s', q1, q2⟩ := bad q1 q2.broke
      exact ⟨r, [], [], s', q1, noth, by simp, q2.after r1⟩
  · -- static
    obtain ⟨s2, k3, k4, t1, t2⟩ := readStatic_eq (E := E) ns1.small f
    have hw2 : s2.out.window = lastN (2 ^ E.o.wbits) h := (by rw [k4]; exact hw1)
    rcases huffBlock_sound hE (acceptsLL hE) (acceptsD hE) (ns1.same k3 k4) hw2 with ⟨is, p, s3, u1, u2, u3, u4, u5⟩ | ⟨is, p, s3, u1, u2, u4, u5, u6⟩
    · left
      obtain ⟨s', q1, q2⟩ := good (t2.trans u1) (t1.trans u5)
      refine ⟨f, _, p, _, s', q1, ?_, .static staticTrees, by simpa using r1.trans q2⟩
      rw [hb]
      simpa using BlockEnc.fixed (ok := Env.ok E) (pos := pos) (final := f) is _ u2 u4
    · right
      obtain ⟨r, s', q1, q2⟩ := bad (t2.trans u1) (u6.after t1)
      refine ⟨r, _, p, s', q1, BlockPart.fixed f is _ u2 u4, prefix_cons a1 hb ?_, by simpa using q2.after r1⟩
      rwa [k3, k1] at u5
  · -- dynamic
    rcases trees_sound hE ns1 f with ⟨hd, tr, s2, v1, v2, v3, v4⟩ | ⟨t, s2, v1, v2, v3⟩
    · have hw2 : s2.out.window = lastN (2 ^ E.o.wbits) h := (by rw [v4]; exact hw1)
      have e2 : readBlockOf E f .dynamic s1 = decodeHuffmanBlock E hd.ll hd.d s2 := (Go.bind_ok v2).trans rfl
      obtain ⟨_, _, _, _, _, _, _, _, _, _, _, _, _, w1, w2⟩ := id v1
      rcases huffBlock_sound hE w1 w2 (ns1.ran v3) hw2 with ⟨is, p, s3, u1, u2, u3, u4, u5⟩ | ⟨is, p, s3, u1, u2, u4, u5, u6⟩
      · left
        obtain ⟨s', q1, q2⟩ := good (e2.trans u1) (v3.trans u5)
        refine ⟨f, _, p, _, s', q1, ?_, .dynamic tr, by simpa using r1.trans q2⟩
        rw [hb]
        simpa using BlockEnc.dynamic (ok := Env.ok E) (pos := pos) (final := f) hd is _ v1 u2 u3 u4
      · right
        obtain ⟨r, s', q1, q2⟩ := bad (e2.trans u1) (u6.after v3)
        refine ⟨r, _, p, s', q1, BlockPart.dynamic f hd is _ v1 u2 u4, ?_, by simpa using q2.after r1⟩
        rw [List.append_assoc]
        refine prefix_cons a1 hb ?_
        have := v3.adv.bits
        rw [k1] at this
        rw [show vb i1 = hd.bits ++ vb s2.inp from this]
        exact List.prefix_append_right_inj _ |>.2 u5
    · right
      have : ∃ b s3, readBlockOf E f .dynamic s1 = .ok (b, s3) ∧ Past s2 s3 := by
        cases t with
        | none => exact ⟨false, s2, (Go.bind_ok v1).trans rfl, .refl _⟩
        | some p =>
          obtain ⟨ll, d⟩ := p
          obtain ⟨w1, w2⟩ := v3 ll d rfl
          rcases (safe_huffBlock (b := true) (X := False) (s := s2) ⟨hE.lawful, hE.word⟩ w1 w2).cases with ⟨b, s3, e, m, _⟩ | ⟨_, x⟩
          · exact ⟨b, s3, (Go.bind_ok v1).trans e, m.past⟩
          · exact x.elim
      obtain ⟨b, s3, x1, x2⟩ := this
      obtain ⟨r, s', q1, q2⟩ := bad x1 (v2.later x2)
      exact ⟨r, [], [], s', q1, noth, by simp, q2.after r1⟩
  · -- invalid
    right
    obtain ⟨s2, q1, q2⟩ := fail_eq .reserved s1 e0
    obtain ⟨r, s', q1, q2⟩ := bad q1 q2.broke
    exact ⟨r, [], [], s', q1, noth, by simp, q2.after r1⟩

/-- the header of a block -/
theorem block_open (hE : EnvOK E) (hs : Nm e0 s) {f b1 b2 : Bool} {r : List Bool} (hb : vb s.inp = [f, b1, b2] ++ r) :
    ∃ bt i1, ([f, b1, b2] = [f, false, false] → bt = .stored) ∧ ([f, b1, b2] = [f, true, false] → bt = .static) ∧ ([f, b1, b2] = [f, false, true] → bt = .dynamic) ∧
      Adv s.inp [f, b1, b2] i1 ∧ vb i1 = r ∧ readFlateBlock E s = blockRest E f bt { s with inp := i1 } := by
  obtain ⟨v, hv, h1, h2, h3, h4, h5⟩ : ∃ v < 8, natBits 3 v = [f, b1, b2] ∧ decide (v % 2 = 1) = f ∧ ([f, b1, b2] = [f, false, false] → blockTypeOf v = .stored) ∧
      ([f, b1, b2] = [f, true, false] → blockTypeOf v = .static) ∧ ([f, b1, b2] = [f, false, true] → blockTypeOf v = .dynamic) := by
    cases f <;> cases b1 <;> cases b2 <;> decide
  rw [← h1] at hb
  obtain ⟨i1, a1, e1⟩ := needBits_ok hE.word hs (none : Option Bool) (n := 3) (by omega) (fun out => blockRest E (decide (out % 2 = 1)) (blockTypeOf out)) (v := v) (by omega) hb
  rw [h2] at e1
  exact ⟨blockTypeOf v, i1, h3, h4, h5, by rw [← h1]; exact a1, List.append_cancel_left (a1.bits.symm.trans hb), by rw [block_eq]; exact e1⟩

theorem expand_grows {win : Nat} : ∀ (is : List Item) {h h' : List UInt8}, expand win h is = some h' → ∃ p, h' = h ++ p
  | [], h, h', e => by cases e; exact ⟨[], by simp⟩
  | .lit b :: is, h, h', e => by
    obtain ⟨p, rfl⟩ := expand_grows is e
    exact ⟨b :: p, by simp⟩
  | .ref li lx di dx :: is, h, h', e => by
    simp only [expand] at e
    split at e
    · obtain ⟨p, rfl⟩ := expand_grows is e
      obtain ⟨q, hq⟩ : ∃ q, lzCopy h (refDist di dx) (refLen li lx) = h ++ q := by
        generalize refLen li lx = n
        clear e
        induction n generalizing h with
        | zero => exact ⟨[], by simp [lzCopy]⟩
        | succ n ih =>
          obtain ⟨q, hq⟩ := ih (h := h ++ [h.getD (h.length - refDist di dx) 0]) (by
            rename_i hc; exact ⟨hc.1, by rw [List.length_append]; omega⟩)
          exact ⟨[h.getD (h.length - refDist di dx) 0] ++ q, by simp only [lzCopy]; rw [hq]; simp⟩
      exact ⟨q ++ p, by rw [hq]; simp⟩
    · cases e

theorem fixed_used256 : Used fixedLL 256 := by unfold Used; decide +kernel

/-- a block which is there is decoded -/
theorem block_ok (hE : EnvOK E) (hs : Nm e0 s) {pos : Nat} (hp : At pos s.inp) {h h' : List UInt8} (hw : s.out.window = lastN (2 ^ E.o.wbits) h)
    {final : Bool} {bits r : List Bool} (hB : BlockEnc (Env.ok E) (2 ^ E.o.wbits) pos final h bits h') (hb : vb s.inp = bits ++ r) :
    ∃ p ks s', h' = h ++ p ∧ readFlateBlock E s = .ok (some final, s') ∧ BlockTrace final ks ∧ Ran E s bits p ks s' := by
  cases hB with
  | stored pad data h1 h2 =>
    obtain ⟨bt, i1, t1, _, _, a1, b1, e1⟩ := block_open hE hs (f := final) (b1 := false) (b2 := false) (r := pad ++ natBits 16 data.length ++ natBits 16 (65535 - data.length) ++ bytesBits data ++ r) (by rw [hb]; simp)
    rw [t1 rfl] at e1
    have r1 : Ran E s [final, false, false] [] [] { s with inp := i1 } := ⟨a1, .refl _ _, by simp [kinds], rfl, rfl, rfl⟩
    obtain ⟨s1, k1, k2, good, _, _⟩ := block_begin (s := { s with inp := i1 }) E a1.small final .stored
    have at1 := hp.adv a1
    obtain ⟨i2, o2, d1, d2, d3⟩ := readStored_ok hE ((hs.adv a1).same k1 k2) (by rw [k1]; exact h1.trans at1.symm) h2 (by rw [k1]; exact b1)
    obtain ⟨s', q1, q2⟩ := good (ks := []) d1 ⟨d2, d3, by simp [kinds], rfl, rfl, rfl⟩
    exact ⟨data, _, s', rfl, e1.trans q1, .stored, by simpa using r1.trans q2⟩
  | fixed is _ h1 h2 =>
    obtain ⟨p, rfl⟩ := expand_grows is h2
    obtain ⟨bt, i1, _, t1, _, a1, b1, e1⟩ := block_open hE hs (f := final) (b1 := true) (b2 := false) (r := dataBits fixedLL fixedD is ++ r) (by rw [hb]; simp)
    rw [t1 rfl] at e1
    have r1 : Ran E s [final, true, false] [] [] { s with inp := i1 } := ⟨a1, .refl _ _, by simp [kinds], rfl, rfl, rfl⟩
    obtain ⟨s1, k1, k2, good, _, _⟩ := block_begin (s := { s with inp := i1 }) E a1.small final .static
    have ns1 : Nm e0 s1 := (hs.adv a1).same k1 k2
    obtain ⟨s2, k3, k4, t1, t2⟩ := readStatic_eq (E := E) ns1.small final
    obtain ⟨s3, u1, u2⟩ := huffBlock_ok hE (acceptsLL hE) (acceptsD hE) (ns1.same k3 k4) (by rw [k4, k2]; exact hw) h1 h2 fixed_used256 (by rw [k3, k1]; exact b1)
    obtain ⟨s', q1, q2⟩ := good (t2.trans u1) (t1.trans u2)
    exact ⟨p, _, s', rfl, e1.trans q1, .static staticTrees, by simpa using r1.trans q2⟩
  | dynamic hd is _ h1 h2 h3 h4 =>
    obtain ⟨p, rfl⟩ := expand_grows is h4
    obtain ⟨bt, i1, _, _, t1, a1, b1, e1⟩ := block_open hE hs (f := final) (b1 := false) (b2 := true) (r := hd.bits ++ (dataBits hd.ll hd.d is ++ r)) (by rw [hb]; simp)
    rw [t1 rfl] at e1
    have r1 : Ran E s [final, false, true] [] [] { s with inp := i1 } := ⟨a1, .refl _ _, by simp [kinds], rfl, rfl, rfl⟩
    obtain ⟨s1, k1, k2, good, _, _⟩ := block_begin (s := { s with inp := i1 }) E a1.small final .dynamic
    have ns1 : Nm e0 s1 := (hs.adv a1).same k1 k2
    obtain ⟨tr, s2, v2, v3, v4, _⟩ := trees_ok hE ns1 final h1 (by rw [k1]; exact b1)
    have e2 : readBlockOf E final .dynamic s1 = decodeHuffmanBlock E hd.ll hd.d s2 := (Go.bind_ok v2).trans rfl
    obtain ⟨_, _, _, _, _, _, _, _, _, _, _, _, _, w1, w2⟩ := id h1
    obtain ⟨s3, u1, u2⟩ := huffBlock_ok hE w1 w2 (ns1.ran v3) (by rw [v4, k2]; exact hw) h2 h4 h3 (List.append_cancel_left (v3.adv.bits.symm.trans (by rw [k1]; exact b1)))
    obtain ⟨s', q1, q2⟩ := good (e2.trans u1) (v3.trans u2)
    exact ⟨p, _, s', rfl, e1.trans q1, .dynamic tr, by simpa using r1.trans q2⟩

/-- the part of a block which is there is decoded -/
theorem block_part (hE : EnvOK E) (hs : Nm e0 s) {h h' : List UInt8} (hw : s.out.window = lastN (2 ^ E.o.wbits) h)
    {bits r : List Bool} (hB : BlockPart (Env.ok E) (2 ^ E.o.wbits) h bits h') (hb : vb s.inp = bits ++ r) :
    ∃ b p ks s1 s', h' = h ++ p ∧ readFlateBlock E s = .ok (b, s') ∧ Ran E s bits p ks s1 ∧ Past s1 s' := by
  cases hB with
  | nothing =>
    rcases (safe_readFlateBlock (b := true) (X := False) (s := s) ⟨hE.lawful, hE.word⟩).cases with ⟨b, s', e, m, _⟩ | ⟨_, x⟩
    · exact ⟨b, [], [], s, s', by simp, e, .refl E hs.small, m.past⟩
    · exact x.elim
  | fixed final is _ h1 h2 =>
    obtain ⟨p, rfl⟩ := expand_grows is h2
    obtain ⟨bt, i1, _, t1, _, a1, b1, e1⟩ := block_open hE hs (f := final) (b1 := true) (b2 := false) (r := is.flatMap (Item.bits fixedLL fixedD) ++ r) (by rw [hb]; simp)
    rw [t1 rfl] at e1
    have r1 : Ran E s [final, true, false] [] [] { s with inp := i1 } := ⟨a1, .refl _ _, by simp [kinds], rfl, rfl, rfl⟩
    obtain ⟨s1, k1, k2, _, _, part⟩ := block_begin (s := { s with inp := i1 }) E a1.small final .static
    have ns1 : Nm e0 s1 := (hs.adv a1).same k1 k2
    obtain ⟨s2, k3, k4, t1, t2⟩ := readStatic_eq (E := E) ns1.small final
    obtain ⟨s3, b, s4, u1, u2, u3⟩ := huffBlock_part hE (acceptsLL hE) (acceptsD hE) (ns1.same k3 k4) (by rw [k4, k2]; exact hw) h1 h2 (by rw [k3, k1]; exact b1)
    obtain ⟨b, ks, s5, s', q1, q2, q3⟩ := part (t2.trans u1) (t1.trans u2) u3
    exact ⟨b, p, _, s5, s', rfl, e1.trans q1, by simpa using r1.trans q2, q3⟩
  | dynamic final hd is _ h1 h2 h4 =>
    obtain ⟨p, rfl⟩ := expand_grows is h4
    obtain ⟨bt, i1, _, _, t1, a1, b1, e1⟩ := block_open hE hs (f := final) (b1 := false) (b2 := true) (r := hd.bits ++ (is.flatMap (Item.bits hd.ll hd.d) ++ r)) (by rw [hb]; simp)
    rw [t1 rfl] at e1
    have r1 : Ran E s [final, false, true] [] [] { s with inp := i1 } := ⟨a1, .refl _ _, by simp [kinds], rfl, rfl, rfl⟩
    obtain ⟨s1, k1, k2, _, _, part⟩ := block_begin (s := { s with inp := i1 }) E a1.small final .dynamic
    have ns1 : Nm e0 s1 := (hs.adv a1).same k1 k2
    obtain ⟨tr, s2, v2, v3, v4, _⟩ := trees_ok hE ns1 final h1 (by rw [k1]; exact b1)
    have e2 : readBlockOf E final .dynamic s1 = decodeHuffmanBlock E hd.ll hd.d s2 := (Go.bind_ok v2).trans rfl
    obtain ⟨_, _, _, _, _, _, _, _, _, _, _, _, _, w1, w2⟩ := id h1
    obtain ⟨s3, b, s4, u1, u2, u3⟩ := huffBlock_part hE w1 w2 (ns1.ran v3) (by rw [v4, k2]; exact hw) h2 h4 (List.append_cancel_left (v3.adv.bits.symm.trans (by rw [k1]; exact b1)))
    obtain ⟨b, ks, s5, s', q1, q2, q3⟩ := part (e2.trans u1) (v3.trans u2) u3
    exact ⟨b, p, _, s5, s', rfl, e1.trans q1, by simpa using r1.trans q2, q3⟩

/-! ### the loop -/

theorem Adv.count {i i' : Inp} {b : List Bool} (h : Adv i b i') : i.bits = b.length + i'.bits := by
  have h1 := congrArg List.length h.bits
  rw [List.length_append, vb_length, vb_length] at h1
  have h2 := h.step.src
  unfold Inp.bits Inp.size
  rw [h2]; omega

theorem enc_pos {ok : List Nat → Prop} {win pos : Nat} {final : Bool} {h h' : List UInt8} {b : List Bool} (hB : BlockEnc ok win pos final h b h') : 0 < b.length := by
  cases hB <;> simp

theorem enc_grows {ok : List Nat → Prop} {win pos : Nat} {final : Bool} {h h' : List UInt8} {b : List Bool} (hB : BlockEnc ok win pos final h b h') : ∃ p, h' = h ++ p := by
  cases hB with
  | stored pad data _ _ => exact ⟨data, rfl⟩
  | fixed is _ _ h => exact expand_grows is h
  | dynamic hd is _ _ _ _ h => exact expand_grows is h

theorem blocks_grow {ok : List Nat → Prop} {win pos : Nat} {h h' : List UInt8} {b : List Bool} (hB : Blocks (BlockEnc ok win) pos h b h') : ∃ p, h' = h ++ p := by
  induction hB with
  | nil => exact ⟨[], by simp⟩
  | cons h1 _ ih =>
    obtain ⟨p, rfl⟩ := enc_grows h1
    obtain ⟨q, rfl⟩ := ih
    exact ⟨p ++ q, by simp⟩

/-- the blocks of a stream, up to the final one -/
def AllBlocks (ok : List Nat → Prop) (win pos : Nat) (h : List UInt8) (bits : List Bool) (h' : List UInt8) : Prop :=
  ∃ bs b h1, Blocks (BlockEnc ok win) pos h bs h1 ∧ BlockEnc ok win (pos + bs.length) true h1 b h' ∧ bits = bs ++ b

/-- some blocks of a stream, and the beginning of another one -/
def SomeBlocks (ok : List Nat → Prop) (win pos : Nat) (h : List UInt8) (bits : List Bool) (h' : List UInt8) : Prop :=
  ∃ bs b h1, Blocks (BlockEnc ok win) pos h bs h1 ∧ BlockPart ok win h1 b h' ∧ bits = bs ++ b

/-- the events for the blocks of a stream -/
def BlocksTrace (ks : List EvKind) : Prop :=
  ∃ (blocks : List (List EvKind)) (last : List EvKind), (∀ b ∈ blocks, BlockTrace false b) ∧ BlockTrace true last ∧ ks = blocks.flatten ++ last

theorem BlocksTrace.cons {b ks : List EvKind} (hb : BlockTrace false b) (h : BlocksTrace ks) : BlocksTrace (b ++ ks) := by
  obtain ⟨bl, last, h1, h2, rfl⟩ := h
  exact ⟨b :: bl, last, fun x hx => by rcases List.mem_cons.1 hx with rfl | h; exacts [hb, h1 x h], h2, by simp⟩

theorem AllBlocks.cons {ok : List Nat → Prop} {win pos : Nat} {h h1 h2 : List UInt8} {b bits : List Bool} (hb : BlockEnc ok win pos false h b h1)
    (h' : AllBlocks ok win (pos + b.length) h1 bits h2) : AllBlocks ok win pos h (b ++ bits) h2 := by
  obtain ⟨bs, c, h3, q1, q2, rfl⟩ := h'
  exact ⟨b ++ bs, c, h3, .cons hb q1, by rw [List.length_append, ← Nat.add_assoc]; exact q2, by simp⟩

theorem SomeBlocks.cons {ok : List Nat → Prop} {win pos : Nat} {h h1 h2 : List UInt8} {b bits : List Bool} (hb : BlockEnc ok win pos false h b h1)
    (h' : SomeBlocks ok win (pos + b.length) h1 bits h2) : SomeBlocks ok win pos h (b ++ bits) h2 := by
  obtain ⟨bs, c, h3, q1, q2, rfl⟩ := h'
  exact ⟨b ++ bs, c, h3, .cons hb q1, q2, by simp⟩

theorem blockLoop_sound (hE : EnvOK E) : ∀ (fuel : Nat) {s : RState} {pos : Nat} {h : List UInt8}, Nm e0 s → At pos s.inp →
    s.out.window = lastN (2 ^ E.o.wbits) h → s.inp.bits < fuel →
    (∃ bits p ks s', blockLoop E fuel s = .ok ((), s') ∧ AllBlocks (Env.ok E) (2 ^ E.o.wbits) pos h bits (h ++ p) ∧
      BlocksTrace ks ∧ Ran E s bits p ks s') ∨
    (∃ bits p s', blockLoop E fuel s = .ok ((), s') ∧ SomeBlocks (Env.ok E) (2 ^ E.o.wbits) pos h bits (h ++ p) ∧ bits <+: vb s.inp ∧
      Broke E e0 s p s')
  | 0, _, _, _, _, _, _, h => by omega
  | fuel + 1, s, pos, h, hs, hp, hw, hf => by
    unfold blockLoop
    rcases block_sound hE hs hp hw with ⟨final, b, p, k, s1, e1, h1, h2, h3⟩ | ⟨r, b, p, s1, e1, h1, h2, h3⟩
    · cases final with
      | true =>
        left
        exact ⟨b, p, k, s1, (Go.bind_ok e1).trans rfl, ⟨[], b, h, .nil _ _, h1, rfl⟩, ⟨[], k, by simp, h2, by simp⟩, h3⟩
      | false =>
        have hc := h3.adv.count
        have hpos := enc_pos h1
        rcases blockLoop_sound hE fuel (hs.ran h3) (hp.adv h3.adv) (h3.emit.window _ hw) (by omega) with
          ⟨bits, q, ks, s2, q1, q2, q3, q4⟩ | ⟨bits, q, s2, q1, q2, q3, q4⟩
        · left
          exact ⟨b ++ bits, p ++ q, k ++ ks, s2, (Go.bind_ok e1).trans q1, .cons h1 (by rw [← List.append_assoc]; exact q2), q3.cons h2, h3.trans q4⟩
        · right
          refine ⟨b ++ bits, p ++ q, s2, (Go.bind_ok e1).trans q1, .cons h1 (by rw [← List.append_assoc]; exact q2), ?_, q4.after h3⟩
          rw [h3.adv.bits]
          exact List.prefix_append_right_inj _ |>.2 q3
    · right
      have hsb : SomeBlocks (Env.ok E) (2 ^ E.o.wbits) pos h b (h ++ p) := ⟨[], b, h, .nil _ _, h1, rfl⟩
      by_cases hr : r = some false
      · subst hr
        have hd : s1.inp.bits < s.inp.bits := by
          rcases (safe_readFlateBlock (b := true) (X := False) (s := s) ⟨hE.lawful, hE.word⟩).cases with ⟨b', s', e, m, q⟩ | ⟨_, x⟩
          · rw [e1] at e; cases e; exact q (by simp)
          · exact x.elim
        rcases (safe_blockLoop (b := true) (X := False) ⟨hE.lawful, hE.word⟩ fuel s1 (by omega)).cases with ⟨_, s2, e, m, _⟩ | ⟨_, x⟩
        · exact ⟨b, p, s2, (Go.bind_ok e1).trans e, hsb, h2, h3.later m.past⟩
        · exact x.elim
      · refine ⟨b, p, s1, (Go.bind_ok e1).trans ?_, hsb, h2, h3⟩
        rcases r with _ | r
        · rfl
        · cases r with
          | false => exact absurd rfl hr
          | true => rfl

theorem blockLoop_ok (hE : EnvOK E) {h' : List UInt8} {b r : List Bool} : ∀ {pos : Nat} {h h1 : List UInt8} {bs : List Bool}, Blocks (BlockEnc (Env.ok E) (2 ^ E.o.wbits)) pos h bs h1 →
    BlockEnc (Env.ok E) (2 ^ E.o.wbits) (pos + bs.length) true h1 b h' →
    ∀ (fuel : Nat) {s : RState}, Nm e0 s → At pos s.inp → s.out.window = lastN (2 ^ E.o.wbits) h → s.inp.bits < fuel → vb s.inp = bs ++ b ++ r →
    ∃ p ks s', h' = h ++ p ∧ blockLoop E fuel s = .ok ((), s') ∧ BlocksTrace ks ∧ Ran E s (bs ++ b) p ks s' := by
  intro pos h h1 bs hbs
  induction hbs with
  | nil pos h =>
    intro hB fuel s hs hp hw hf hb
    cases fuel with
    | zero => omega
    | succ fuel =>
      obtain ⟨p, ks, s', q1, q2, q3, q4⟩ := block_ok hE hs hp hw hB hb
      exact ⟨p, ks, s', q1, by unfold blockLoop; exact (Go.bind_ok q2).trans rfl, ⟨[], ks, by simp, q3, by simp⟩, q4⟩
  | cons h1 _ ih =>
    rename_i pos h h2 h3 c bs _
    intro hB fuel s hs hp hw hf hb
    cases fuel with
    | zero => omega
    | succ fuel =>
      obtain ⟨p, ks, s1, rfl, q2, q3, q4⟩ := block_ok hE hs hp hw h1 (r := bs ++ b ++ r) (by rw [hb]; simp)
      have hc := q4.adv.count
      have hpos := enc_pos h1
      obtain ⟨q, ls, s2, e1, e2, e3, e4⟩ := ih (by rw [List.length_append, ← Nat.add_assoc] at hB; exact hB) fuel (hs.ran q4) (hp.adv q4.adv) (q4.emit.window _ hw) (by omega)
        (List.append_cancel_left (q4.adv.bits.symm.trans (by rw [hb]; simp)))
      refine ⟨p ++ q, ks ++ ls, s2, by rw [e1]; simp, by unfold blockLoop; exact (Go.bind_ok q2).trans e2, e3.cons q3, ?_⟩
      rw [List.append_assoc]
      exact q4.trans e4

theorem blockLoop_part (hE : EnvOK E) {h' : List UInt8} {b r : List Bool} : ∀ {pos : Nat} {h h1 : List UInt8} {bs : List Bool}, Blocks (BlockEnc (Env.ok E) (2 ^ E.o.wbits)) pos h bs h1 →
    BlockPart (Env.ok E) (2 ^ E.o.wbits) h1 b h' →
    ∀ (fuel : Nat) {s : RState}, Nm e0 s → At pos s.inp → s.out.window = lastN (2 ^ E.o.wbits) h → s.inp.bits < fuel → vb s.inp = bs ++ b ++ r →
    ∃ p ks s1 s', h' = h ++ p ∧ blockLoop E fuel s = .ok ((), s') ∧ Ran E s (bs ++ b) p ks s1 ∧ Past s1 s' := by
  intro pos h h1 bs hbs
  induction hbs with
  | nil pos h =>
    intro hB fuel s hs hp hw hf hb
    cases fuel with
    | zero => omega
    | succ fuel =>
      obtain ⟨r, p, ks, s1, s', q1, q2, q3, q4⟩ := block_part hE hs hw hB hb
      by_cases hr : r = some false
      · subst hr
        have hd : s'.inp.bits < s.inp.bits := by
          rcases (safe_readFlateBlock (b := true) (X := False) (s := s) ⟨hE.lawful, hE.word⟩).cases with ⟨b', s'', e, m, q⟩ | ⟨_, x⟩
          · rw [q2] at e; cases e; exact q (by simp)
          · exact x.elim
        rcases (safe_blockLoop (b := true) (X := False) ⟨hE.lawful, hE.word⟩ fuel s' (by omega)).cases with ⟨_, s2, e, m, _⟩ | ⟨_, x⟩
        · exact ⟨p, ks, s1, s2, q1, by unfold blockLoop; exact (Go.bind_ok q2).trans e, q3, q4.trans m.past⟩
        · exact x.elim
      · refine ⟨p, ks, s1, s', q1, ?_, q3, q4⟩
        unfold blockLoop
        refine (Go.bind_ok q2).trans ?_
        rcases r with _ | r
        · rfl
        · cases r with
          | false => exact absurd rfl hr
          | true => rfl
  | cons h1 _ ih =>
    rename_i pos h h2 h3 c bs _
    intro hB fuel s hs hp hw hf hb
    cases fuel with
    | zero => omega
    | succ fuel =>
      obtain ⟨p, ks, s1, rfl, q2, q3, q4⟩ := block_ok hE hs hp hw h1 (r := bs ++ b ++ r) (by rw [hb]; simp)
      have hc := q4.adv.count
      have hpos := enc_pos h1
      obtain ⟨q, ls, s2, s3, e1, e2, e3, e4⟩ := ih hB fuel (hs.ran q4) (hp.adv q4.adv) (q4.emit.window _ hw) (by omega)
        (List.append_cancel_left (q4.adv.bits.symm.trans (by rw [hb]; simp)))
      refine ⟨p ++ q, ks ++ ls, s2, s3, by rw [e1]; simp, by unfold blockLoop; exact (Go.bind_ok q2).trans e2, ?_, e4⟩
      rw [List.append_assoc]
      exact q4.trans e3

end
end Flate.Proof.R
