/-
Decoding the compressed data of a Huffman block.
-/
import Verif.Proof.RVal
import Verif.Proof.Dyn

namespace Flate.Proof.R
open Flate.Spec Flate.Model Flate.Model.Rd

/-- the circumstances in which decompression takes place -/
structure EnvOK (E : Env) : Prop where
  lawful : E.L.Lawful
  word : 32 ≤ E.W
  opn : Env.Open E

theorem lenSym_eq : ∀ li < 29, lenSym (257 + li) = some (lenBase.getD li 0, lenExtra.getD li 0) ∧
    lenExtra.getD li 0 ≤ 5 ∧ 3 ≤ lenBase.getD li 0 ∧ lenBase.getD li 0 + 2 ^ lenExtra.getD li 0 ≤ 259 := by decide

theorem lenSym_none {s : Nat} (h : 286 ≤ s) : lenSym s = none := by
  unfold lenSym
  repeat (first | rw [if_neg (by omega)] | rfl)

theorem distSym_eq : ∀ di < 30, distSym di = some (distBase.getD di 0, distExtra.getD di 0) ∧
    distExtra.getD di 0 ≤ 13 ∧ 1 ≤ distBase.getD di 0 ∧ distBase.getD di 0 + 2 ^ distExtra.getD di 0 ≤ 32769 := by decide

theorem distSym_none {s : Nat} (h : 30 ≤ s) : distSym s = none := by
  unfold distSym logicalNumDCodes
  repeat (first | rw [if_neg (by omega)] | rfl)

theorem copyToken_ok {l d : Nat} (h1 : 3 ≤ l) (h2 : l ≤ 258) (h3 : 1 ≤ d) (h4 : d ≤ 32768) : makeCopyToken l d = .ok ⟨l, d⟩ := by
  unfold makeCopyToken passert
  simp [h1, h2, h3, h4]
  rfl

theorem lift_run {σ α : Type} {x : Partial α} {a : α} (h : x = .ok a) (s : σ) : (Go.lift x : Go σ α) s = .ok (a, s) := by
  subst h; rfl

theorem refLen_range {li lx : Nat} (h : li < 29) (hx : lx < 2 ^ lenExtra.getD li 0) : 3 ≤ refLen li lx ∧ refLen li lx ≤ 258 := by
  obtain ⟨_, _, h1, h2⟩ := lenSym_eq li h
  unfold refLen; omega

theorem refDist_range {di dx : Nat} (h : di < 30) (hx : dx < 2 ^ distExtra.getD di 0) : 1 ≤ refDist di dx ∧ refDist di dx ≤ 32768 := by
  obtain ⟨_, _, h1, h2⟩ := distSym_eq di h
  unfold refDist; omega

section
variable {E : Env} {e0 : Err} {s : RState}

/-! ### a length, a distance -/

theorem decodeLL_tail {li lx : Nat} (h : li < 29) (hx : lx < 2 ^ lenExtra.getD li 0) (s : RState) :
    (do let t ← Go.lift (makeCopyToken (lenBase.getD li 0 + lx) 1); pure (some t) : Go RState (Option Token)) s = .ok (some ⟨refLen li lx, 1⟩, s) := by
  have := refLen_range h hx
  exact Go.bind_ok (lift_run (copyToken_ok this.1 this.2 (by omega) (by omega)) s)

theorem decodeLL_ref (hE : EnvOK E) (hs : Nm e0 s) {li : Nat} (h : li < 29) :
    (∃ lx i', lx < 2 ^ lenExtra.getD li 0 ∧ Adv s.inp (natBits (lenExtra.getD li 0) lx) i' ∧
      decodeLL E (257 + li) s = .ok (some ⟨refLen li lx, 1⟩, { s with inp := i' })) ∨
    ((vb s.inp).length < lenExtra.getD li 0 ∧ ∃ s', decodeLL E (257 + li) s = .ok (none, s') ∧ Failed e0 s s') := by
  obtain ⟨h1, h2, h3, h4⟩ := lenSym_eq li h
  unfold decodeLL
  rw [if_neg (by omega), if_neg (by omega), h1]
  simp only []
  rcases addBits_eq hE.word hs (none : Option Token) (n := lenExtra.getD li 0) (by omega) (lenBase.getD li 0)
      (fun length => do let t ← Go.lift (makeCopyToken length 1); pure (some t)) with ⟨lx, i', g1, g2, g3⟩ | g
  · left
    exact ⟨lx, i', g1, g2, by rw [g3]; exact decodeLL_tail h g1 _⟩
  · right; exact g

theorem decodeLL_ok (hE : EnvOK E) (hs : Nm e0 s) {li lx : Nat} (h : li < 29) (hx : lx < 2 ^ lenExtra.getD li 0) {r : List Bool}
    (hb : vb s.inp = natBits (lenExtra.getD li 0) lx ++ r) :
    ∃ i', Adv s.inp (natBits (lenExtra.getD li 0) lx) i' ∧
      decodeLL E (257 + li) s = .ok (some ⟨refLen li lx, 1⟩, { s with inp := i' }) := by
  obtain ⟨h1, h2, h3, h4⟩ := lenSym_eq li h
  unfold decodeLL
  rw [if_neg (by omega), if_neg (by omega), h1]
  simp only []
  obtain ⟨i', g2, g3⟩ := addBits_ok hE.word hs (none : Option Token) (n := lenExtra.getD li 0) (by omega) (lenBase.getD li 0)
      (fun length => do let t ← Go.lift (makeCopyToken length 1); pure (some t)) hx hb
  exact ⟨i', g2, by rw [g3]; exact decodeLL_tail h hx _⟩

theorem decodeLL_lit {sym : Nat} (h : sym < 256) : decodeLL E sym s = .ok (some ⟨sym, 0⟩, s) := by
  unfold decodeLL; rw [if_pos h]; rfl

theorem decodeLL_stop : decodeLL E 256 s = .ok (some ⟨256, 0⟩, s) := rfl

theorem decodeLL_bad {sym : Nat} (h : 286 ≤ sym) (e0 : Err) : ∃ s', decodeLL E sym s = .ok (none, s') ∧ Failed e0 s s' := by
  unfold decodeLL
  rw [if_neg (by omega), if_neg (by omega), lenSym_none h]
  exact corruptf_bind _ _ _ _

theorem decodeD_tail {len di dx : Nat} (hl : 3 ≤ len) (hl' : len ≤ 258) (h : di < 30) (hx : dx < 2 ^ distExtra.getD di 0) (s : RState) :
    (do let t ← Go.lift (makeCopyToken len (distBase.getD di 0 + dx)); pure (some t) : Go RState (Option Token)) s =
      .ok (some ⟨len, refDist di dx⟩, s) := by
  have := refDist_range h hx
  exact Go.bind_ok (lift_run (copyToken_ok hl hl' this.1 this.2) s)

theorem decodeD_ref (hE : EnvOK E) (hs : Nm e0 s) {di len : Nat} (h : di < 30) (hl : 3 ≤ len) (hl' : len ≤ 258) :
    (∃ dx i', dx < 2 ^ distExtra.getD di 0 ∧ Adv s.inp (natBits (distExtra.getD di 0) dx) i' ∧
      decodeD E di len s = .ok (some ⟨len, refDist di dx⟩, { s with inp := i' })) ∨
    ((vb s.inp).length < distExtra.getD di 0 ∧ ∃ s', decodeD E di len s = .ok (none, s') ∧ Failed e0 s s') := by
  obtain ⟨h1, h2, h3, h4⟩ := distSym_eq di h
  unfold decodeD
  rw [h1]
  simp only []
  rcases addBits_eq hE.word hs (none : Option Token) (n := distExtra.getD di 0) (by omega) (distBase.getD di 0)
      (fun distance => do let t ← Go.lift (makeCopyToken len distance); pure (some t)) with ⟨dx, i', g1, g2, g3⟩ | g
  · left
    exact ⟨dx, i', g1, g2, by rw [g3]; exact decodeD_tail hl hl' h g1 _⟩
  · right; exact g

theorem decodeD_ok (hE : EnvOK E) (hs : Nm e0 s) {di dx len : Nat} (h : di < 30) (hx : dx < 2 ^ distExtra.getD di 0)
    (hl : 3 ≤ len) (hl' : len ≤ 258) {r : List Bool} (hb : vb s.inp = natBits (distExtra.getD di 0) dx ++ r) :
    ∃ i', Adv s.inp (natBits (distExtra.getD di 0) dx) i' ∧
      decodeD E di len s = .ok (some ⟨len, refDist di dx⟩, { s with inp := i' }) := by
  obtain ⟨h1, h2, h3, h4⟩ := distSym_eq di h
  unfold decodeD
  rw [h1]
  simp only []
  obtain ⟨i', g2, g3⟩ := addBits_ok hE.word hs (none : Option Token) (n := distExtra.getD di 0) (by omega) (distBase.getD di 0)
      (fun distance => do let t ← Go.lift (makeCopyToken len distance); pure (some t)) hx hb
  exact ⟨i', g2, by rw [g3]; exact decodeD_tail hl hl' h hx _⟩

theorem decodeD_bad {sym len : Nat} (h : 30 ≤ sym) (e0 : Err) : ∃ s', decodeD E sym len s = .ok (none, s') ∧ Failed e0 s s' := by
  unfold decodeD
  rw [distSym_none h]
  exact corruptf_bind _ _ _ _

/-! ### the loop: every valid encoding is decoded -/

variable {ll d : List Nat}

/-- one item is decoded -/
theorem huffLoop_item (hE : EnvOK E) (hll : E.L.accepts ll = true) (hd : E.L.accepts d = true) (hs : Nm e0 s) {h h' : List UInt8}
    (hw : s.out.window = lastN (2 ^ E.o.wbits) h) {it : Item} (hv : it.Valid ll d) (hx : expand (2 ^ E.o.wbits) h [it] = some h')
    {r : List Bool} (hb : vb s.inp = it.bits ll d ++ r) (fuel : Nat) :
    ∃ i' o' p, huffLoop E ll d (fuel + 1) s = huffLoop E ll d fuel { s with inp := i', out := o' } ∧
      Adv s.inp (it.bits ll d) i' ∧ Emit E s.out p o' ∧ h' = h ++ p := by
  cases it with
  | lit b =>
    simp only [expand, Option.some.injEq] at hx
    simp only [Item.bits] at hb ⊢
    obtain ⟨i', e1, a1⟩ := readSymbol_ok hE.lawful hE.word hll hs hv hb
    obtain ⟨o', e2, m2⟩ := emit_dbWriteByte hE.opn (UInt8.ofNat b.toNat) (s := { s with inp := i' }) hs.stop
    refine ⟨i', o', [b], ?_, a1, by simpa using m2, hx.symm⟩
    conv => lhs; unfold huffLoop
    rw [Go.bind_ok e1]
    simp only []
    rw [Go.bind_ok (decodeLL_lit b.toNat_lt)]
    simp only [if_true]
    have : ¬ (256 ≤ b.toNat) := by have := b.toNat_lt; omega
    simp only [ge_iff_le, this, if_false]
    rw [Go.bind_ok e2]
  | ref li lx di dx =>
    obtain ⟨v1, v2, v3, v4, v5, v6⟩ := hv
    simp only [expand] at hx
    split at hx
    swap
    · cases hx
    rename_i hdist
    simp only [Option.some.injEq] at hx
    simp only [Item.bits, List.append_assoc] at hb ⊢
    have rl := refLen_range v1 v2
    have rd := refDist_range v3 v4
    obtain ⟨i1, e1, a1⟩ := readSymbol_ok hE.lawful hE.word hll hs v5 hb
    have s1 := hs.adv a1
    have b1 : vb i1 = natBits (lenExtra.getD li 0) lx ++ (codeBits d di ++ (natBits (distExtra.getD di 0) dx ++ r)) :=
      List.append_cancel_left (a1.bits.symm.trans hb)
    obtain ⟨i2, a2, e2⟩ := decodeLL_ok hE s1 v1 v2 b1
    have s2 := s1.adv a2
    have b2 : vb i2 = codeBits d di ++ (natBits (distExtra.getD di 0) dx ++ r) :=
      List.append_cancel_left (a2.bits.symm.trans b1)
    obtain ⟨i3, e3, a3⟩ := readSymbol_ok hE.lawful hE.word hd s2 v6 b2
    have s3 := s2.adv a3
    have b3 : vb i3 = natBits (distExtra.getD di 0) dx ++ r := List.append_cancel_left (a3.bits.symm.trans b2)
    obtain ⟨i4, a4, e4⟩ := decodeD_ok hE s3 v3 v4 rl.1 rl.2 b3
    obtain ⟨o', p, e5, m5, c5⟩ := copyMatch_ok (len := refLen li lx) hE.opn rd.1 hdist.1 (s := { s with inp := i4 }) hs.stop hw hdist.2
    refine ⟨i4, o', p, ?_, ?_, m5, by rw [c5]; exact hx.symm⟩
    · conv => lhs; unfold huffLoop
      rw [Go.bind_ok e1]
      simp only []
      rw [Go.bind_ok e2]
      simp only [Nat.one_ne_zero, if_false]
      rw [Go.bind_ok e3]
      simp only []
      rw [Go.bind_ok e4]
      simp only []
      rw [chk_ok e5]
    · have := ((a1.trans a2).trans a3).trans a4
      simpa using this

theorem expand_cons {win : Nat} {h h' : List UInt8} {it : Item} {is : List Item} (hx : expand win h (it :: is) = some h') :
    ∃ h1, expand win h [it] = some h1 ∧ expand win h1 is = some h' := by
  cases it with
  | lit b => exact ⟨h ++ [b], rfl, hx⟩
  | ref li lx di dx =>
    simp only [expand] at hx ⊢
    split at hx
    · rename_i hc; rw [if_pos hc]; exact ⟨_, rfl, hx⟩
    · cases hx

theorem expand_cons' {win : Nat} {h h1 : List UInt8} {it : Item} (is : List Item) (hx : expand win h [it] = some h1) :
    expand win h (it :: is) = expand win h1 is := by
  cases it with
  | lit b => simp only [expand, Option.some.injEq] at hx ⊢; rw [hx]
  | ref li lx di dx =>
    simp only [expand] at hx ⊢
    split at hx
    · rename_i hc; rw [if_pos hc]; simp only [Option.some.injEq] at hx; rw [hx]
    · cases hx

theorem huffLoop_items (hE : EnvOK E) (hll : E.L.accepts ll = true) (hd : E.L.accepts d = true) (fuel : Nat) : ∀ (is : List Item) {s : RState}
    {h h' : List UInt8} {r : List Bool}, Nm e0 s → s.out.window = lastN (2 ^ E.o.wbits) h →
    (∀ i ∈ is, i.Valid ll d) → expand (2 ^ E.o.wbits) h is = some h' → vb s.inp = is.flatMap (Item.bits ll d) ++ r →
    ∃ i' o' p, huffLoop E ll d (fuel + is.length) s = huffLoop E ll d fuel { s with inp := i', out := o' } ∧
      Adv s.inp (is.flatMap (Item.bits ll d)) i' ∧ Emit E s.out p o' ∧ h' = h ++ p
  | [], s, h, h', r, hs, hw, hv, hx, hb => by
    simp only [expand, Option.some.injEq] at hx
    exact ⟨s.inp, s.out, [], rfl, Adv.refl hs.small, Emit.refl _ _, by simp [hx]⟩
  | it :: is, s, h, h', r, hs, hw, hv, hx, hb => by
    obtain ⟨h1, x1, x2⟩ := expand_cons hx
    simp only [List.flatMap_cons, List.append_assoc] at hb
    obtain ⟨i1, o1, p1, e1, a1, m1, rfl⟩ := huffLoop_item hE hll hd hs hw (hv it (by simp)) x1 hb (fuel + is.length)
    have b1 : vb i1 = is.flatMap (Item.bits ll d) ++ r := List.append_cancel_left (a1.bits.symm.trans hb)
    obtain ⟨i2, o2, p2, e2, a2, m2, rfl⟩ := huffLoop_items hE hll hd fuel is (s := { s with inp := i1, out := o1 })
      ((hs.adv a1).out m1.stop) (m1.window _ hw) (fun i hi => hv i (by simp [hi])) x2 b1
    refine ⟨i2, o2, p1 ++ p2, ?_, ?_, m1.trans m2, by simp⟩
    · rw [List.length_cons, ← Nat.add_assoc, e1, e2]
    · simpa using a1.trans a2

theorem huffLoop_end (hE : EnvOK E) (hll : E.L.accepts ll = true) (hs : Nm e0 s) (hu : Used ll 256) {r : List Bool}
    (hb : vb s.inp = codeBits ll 256 ++ r) (fuel : Nat) :
    ∃ i', huffLoop E ll d (fuel + 1) s = .ok (true, { s with inp := i' }) ∧ Adv s.inp (codeBits ll 256) i' := by
  obtain ⟨i', e1, a1⟩ := readSymbol_ok hE.lawful hE.word hll hs hu hb
  refine ⟨i', ?_, a1⟩
  unfold huffLoop
  rw [Go.bind_ok e1]
  simp only []
  rw [Go.bind_ok decodeLL_stop]
  rfl

theorem bits_length_pos {it : Item} (hv : it.Valid ll d) : 1 ≤ (it.bits ll d).length := by
  cases it with
  | lit b => simp only [Item.bits, codeBits_length]; exact hv
  | ref li lx di dx =>
    have := hv.2.2.2.2.1
    unfold Used at this
    simp [Item.bits]; omega

theorem items_length {is : List Item} (hv : ∀ i ∈ is, i.Valid ll d) : is.length ≤ (is.flatMap (Item.bits ll d)).length := by
  induction is with
  | nil => simp
  | cons it is ih =>
    have h1 := bits_length_pos (hv it (by simp))
    have h2 := ih fun i hi => hv i (by simp [hi])
    simp only [List.flatMap_cons, List.length_append, List.length_cons]
    omega

theorem huffLoop_complete (hE : EnvOK E) (hll : E.L.accepts ll = true) (hd : E.L.accepts d = true) (hs : Nm e0 s) {h h' : List UInt8} {r : List Bool}
    (hw : s.out.window = lastN (2 ^ E.o.wbits) h) {is : List Item} (hv : ∀ i ∈ is, i.Valid ll d)
    (hx : expand (2 ^ E.o.wbits) h is = some h') (hu : Used ll 256) (hb : vb s.inp = dataBits ll d is ++ r) {fuel : Nat}
    (hf : (vb s.inp).length < fuel) :
    ∃ i' o' p, huffLoop E ll d fuel s = .ok (true, { s with inp := i', out := o' }) ∧
      Adv s.inp (dataBits ll d is) i' ∧ Emit E s.out p o' ∧ h' = h ++ p := by
  unfold dataBits at hb ⊢
  rw [List.append_assoc] at hb
  have hl := items_length hv
  obtain ⟨f, rfl⟩ : ∃ f, fuel = (f + 1) + is.length := ⟨fuel - is.length - 1, by
    rw [hb] at hf; simp only [List.length_append] at hf; omega⟩
  obtain ⟨i1, o1, p1, e1, a1, m1, rfl⟩ := huffLoop_items hE hll hd (f + 1) is hs hw hv hx hb
  have b1 : vb i1 = codeBits ll 256 ++ r := List.append_cancel_left (a1.bits.symm.trans hb)
  obtain ⟨i2, e2, a2⟩ := huffLoop_end (d := d) hE hll (s := { s with inp := i1, out := o1 }) ((hs.adv a1).out m1.stop) hu b1 f
  exact ⟨i2, o1, p1, e1.trans e2, a1.trans a2, m1, rfl⟩

/-! ### the loop: only valid encodings are decoded -/

/-- The block was not decoded completely: items `is` were, their effect has been delivered, and an error was reported. -/
def Partly (E : Env) (ll d : List Nat) (e0 : Err) (s s' : RState) (h : List UInt8) (is : List Item) (p : List UInt8) : Prop :=
  ∃ j i' o1 e, (∀ i ∈ is, i.Valid ll d) ∧ expand (2 ^ E.o.wbits) h is = some (h ++ p) ∧
    Adv s.inp (is.flatMap (Item.bits ll d)) j ∧ RStep j i' ∧ Emit E s.out p o1 ∧ Bad e0 e ∧
    s' = { s with inp := i', out := closeOut e o1 }

theorem Partly.start {s' : RState} {h : List UInt8} (hs : Nm e0 s) (hf : Failed e0 s s') : Partly E ll d e0 s s' h [] [] := by
  obtain ⟨i', e, h1, h2, rfl⟩ := hf
  exact ⟨s.inp, i', s.out, e, by simp, by simp [expand], Adv.refl hs.small, h1, Emit.refl _ _, h2, rfl⟩

theorem Partly.cons {i1 : Inp} {o1 : Out} {s' : RState} {h p1 p : List UInt8} {it : Item} {is : List Item} (hv : it.Valid ll d)
    (hx : expand (2 ^ E.o.wbits) h [it] = some (h ++ p1)) (ha : Adv s.inp (it.bits ll d) i1) (hm : Emit E s.out p1 o1)
    (hp : Partly E ll d e0 { s with inp := i1, out := o1 } s' (h ++ p1) is p) : Partly E ll d e0 s s' h (it :: is) (p1 ++ p) := by
  obtain ⟨j, i', o2, e, g1, g2, g3, g4, g5, g6, rfl⟩ := hp
  refine ⟨j, i', o2, e, ?_, ?_, ?_, g4, hm.trans g5, g6, rfl⟩
  · intro i hi
    rcases List.mem_cons.1 hi with rfl | hi
    · exact hv
    · exact g1 i hi
  · rw [expand_cons' is hx, g2]; simp
  · simpa using ha.trans g3

theorem huffLoop_sound (hE : EnvOK E) (hll : E.L.accepts ll = true) (hd : E.L.accepts d = true) : ∀ (fuel : Nat) {s : RState} {h : List UInt8},
    Nm e0 s → s.out.window = lastN (2 ^ E.o.wbits) h → (vb s.inp).length < fuel →
    (∃ is p i' o', huffLoop E ll d fuel s = .ok (true, { s with inp := i', out := o' }) ∧ (∀ i ∈ is, i.Valid ll d) ∧ Used ll 256 ∧
      expand (2 ^ E.o.wbits) h is = some (h ++ p) ∧ Adv s.inp (dataBits ll d is) i' ∧ Emit E s.out p o') ∨
    (∃ is p s', huffLoop E ll d fuel s = .ok (false, s') ∧ Partly E ll d e0 s s' h is p)
  | 0, s, h, _, _, hf => by omega
  | fuel + 1, s, h, hs, hw, hf => by
    rcases readSymbol_eq hE.lawful hE.word hll hs with ⟨sym, i1, e1, u1, a1⟩ | ⟨i1, e1, hh, _⟩
    swap
    · right
      obtain ⟨s', e2, f2⟩ := fail_eq .noLitLen { s with inp := i1 } e0
      refine ⟨[], [], s', ?_, Partly.start hs (f2.step hh.step)⟩
      unfold huffLoop
      rw [Go.bind_ok e1]
      exact e2
    have s1 := hs.adv a1
    by_cases h256 : sym < 256
    · -- a literal
      obtain ⟨o1, e2, m1⟩ := emit_dbWriteByte hE.opn (UInt8.ofNat sym) (s := { s with inp := i1 }) hs.stop
      have hb : (UInt8.ofNat sym).toNat = sym := by rw [UInt8.toNat_ofNat']; omega
      have step : huffLoop E ll d (fuel + 1) s = huffLoop E ll d fuel { s with inp := i1, out := o1 } := by
        conv => lhs; unfold huffLoop
        rw [Go.bind_ok e1]
        simp only []
        rw [Go.bind_ok (decodeLL_lit h256)]
        simp only [if_true]
        have : ¬ (256 ≤ sym) := by omega
        simp only [ge_iff_le, this, if_false]
        rw [Go.bind_ok e2]
      have val : (Item.lit (UInt8.ofNat sym)).Valid ll d := by simpa [Item.Valid, hb] using u1
      have hx : expand (2 ^ E.o.wbits) h [.lit (UInt8.ofNat sym)] = some (h ++ [UInt8.ofNat sym]) := rfl
      have ha : Adv s.inp ((Item.lit (UInt8.ofNat sym)).bits ll d) i1 := by simpa [Item.bits, hb] using a1
      have hlen : (vb i1).length < fuel := by
        have := congrArg List.length a1.bits
        simp at this
        unfold Used at u1; omega
      rw [step]
      rcases huffLoop_sound hE hll hd fuel (s := { s with inp := i1, out := o1 }) (s1.out m1.stop) (m1.window _ hw) hlen with
        ⟨is, p, i', o', g1, g2, g3, g4, g5, g6⟩ | ⟨is, p, s', g1, g2⟩
      · left
        refine ⟨.lit (UInt8.ofNat sym) :: is, [UInt8.ofNat sym] ++ p, i', o', g1, ?_, g3, ?_, ?_, m1.trans g6⟩
        · intro i hi
          rcases List.mem_cons.1 hi with rfl | hi
          · exact val
          · exact g2 i hi
        · rw [expand_cons' is hx, g4]; simp
        · simpa [dataBits] using ha.trans g5
      · right
        exact ⟨_, _, s', g1, Partly.cons val hx ha m1 g2⟩
    · by_cases hs256 : sym = 256
      · -- end of block
        left
        subst hs256
        refine ⟨[], [], i1, s.out, ?_, by simp, u1, by simp [expand], by simpa [dataBits] using a1, Emit.refl _ _⟩
        unfold huffLoop
        rw [Go.bind_ok e1]
        simp only []
        rw [Go.bind_ok decodeLL_stop]
        rfl
      · by_cases h286 : 286 ≤ sym
        · right
          obtain ⟨s', e2, f2⟩ := decodeLL_bad (E := E) (s := { s with inp := i1 }) h286 e0
          refine ⟨[], [], s', ?_, Partly.start hs (f2.step a1.step)⟩
          unfold huffLoop
          rw [Go.bind_ok e1]
          simp only []
          rw [Go.bind_ok e2]
          rfl
        · -- a match
          obtain ⟨li, rfl, hli⟩ : ∃ li, sym = 257 + li ∧ li < 29 := ⟨sym - 257, by omega, by omega⟩
          rcases decodeLL_ref hE s1 hli with ⟨lx, i2, l1, a2, e2⟩ | ⟨_, s', e2, f2⟩
          swap
          · right
            refine ⟨[], [], s', ?_, Partly.start hs (f2.step a1.step)⟩
            unfold huffLoop
            rw [Go.bind_ok e1]
            simp only []
            rw [Go.bind_ok e2]
            rfl
          have s2 := s1.adv a2
          have rl := refLen_range hli l1
          rcases readSymbol_eq hE.lawful hE.word hd s2 with ⟨di, i3, e3, u3, a3⟩ | ⟨i3, e3, hh, _⟩
          swap
          · right
            obtain ⟨s', e4, f4⟩ := fail_eq .noDist { s with inp := i3 } e0
            refine ⟨[], [], s', ?_, Partly.start hs (f4.step (a1.step.trans (a2.step.trans hh.step)))⟩
            unfold huffLoop
            rw [Go.bind_ok e1]
            simp only []
            rw [Go.bind_ok e2]
            simp only [Nat.one_ne_zero, if_false]
            rw [Go.bind_ok e3]
            exact e4
          have s3 := s2.adv a3
          have pre : ∀ x, decodeD E di (refLen li lx) { s with inp := i3 } = x →
              huffLoop E ll d (fuel + 1) s = (match x with
                | .ok (none, t) => .ok (false, t)
                | .ok (some t, u) => Go.chk (copyMatch E t.dist t.ll) (huffLoop E ll d fuel) u
                | .error e => .error e) := by
            intro x hx
            conv => lhs; unfold huffLoop
            rw [Go.bind_ok e1]
            simp only []
            rw [Go.bind_ok e2]
            simp only [Nat.one_ne_zero, if_false]
            rw [Go.bind_ok e3]
            simp only []
            rw [Go.bind_apply, hx]
            rcases x with e | ⟨_ | t, u⟩ <;> rfl
          by_cases h30 : 30 ≤ di
          · right
            obtain ⟨s', e4, f4⟩ := decodeD_bad (E := E) (len := refLen li lx) (s := { s with inp := i3 }) h30 e0
            exact ⟨[], [], s', pre _ e4, Partly.start hs (f4.step (a1.step.trans (a2.step.trans a3.step)))⟩
          rcases decodeD_ref hE s3 (di := di) (by omega) rl.1 rl.2 with ⟨dx, i4, l4, a4, e4⟩ | ⟨_, s', e4, f4⟩
          swap
          · right
            have f5 : Failed e0 s s' := Failed.step (s := s) (i := i3) f4 (a1.step.trans (a2.step.trans a3.step))
            exact ⟨[], [], s', pre _ e4, Partly.start hs f5⟩
          have rd := refDist_range (di := di) (by omega) l4
          have e5 := pre _ e4
          simp only [] at e5
          have val : (Item.ref li lx di dx).Valid ll d := ⟨hli, l1, by omega, l4, u1, u3⟩
          have ha : Adv s.inp ((Item.ref li lx di dx).bits ll d) i4 := ((a1.trans a2).trans a3).trans a4
          by_cases hdist : refDist di dx ≤ 2 ^ E.o.wbits ∧ refDist di dx ≤ h.length
          · obtain ⟨o1, p1, e6, m1, c1⟩ := copyMatch_ok (len := refLen li lx) hE.opn rd.1 hdist.1 (s := { s with inp := i4 }) hs.stop hw hdist.2
            rw [chk_ok e6] at e5
            have hx : expand (2 ^ E.o.wbits) h [.ref li lx di dx] = some (h ++ p1) := by
              simp only [expand]; rw [if_pos hdist, c1]
            have hlen : (vb i4).length < fuel := by
              have := congrArg List.length ha.bits
              have := bits_length_pos val
              simp only [List.length_append] at *
              omega
            rw [e5]
            rcases huffLoop_sound hE hll hd fuel (s := { s with inp := i4, out := o1 }) ((hs.adv ha).out m1.stop) (m1.window _ hw) hlen with
              ⟨is, p, i', o', g1, g2, g3, g4, g5, g6⟩ | ⟨is, p, s', g1, g2⟩
            · left
              refine ⟨.ref li lx di dx :: is, p1 ++ p, i', o', g1, ?_, g3, ?_, ?_, m1.trans g6⟩
              · intro i hi
                rcases List.mem_cons.1 hi with rfl | hi
                · exact val
                · exact g2 i hi
              · rw [expand_cons' is hx, g4]; simp
              · simpa [dataBits] using ha.trans g5
            · right
              exact ⟨_, _, s', g1, Partly.cons val hx ha m1 g2⟩
          · right
            obtain ⟨s', e6, f6⟩ := fail_eq _ { s with inp := i4 } e0
            rw [← copyMatch_far (len := refLen li lx) rd.1 (s := { s with inp := i4 }) hw hdist] at e6
            rw [chk_false e6] at e5
            exact ⟨[], [], s', e5, Partly.start hs (f6.step ha.step)⟩

end
end Flate.Proof.R
