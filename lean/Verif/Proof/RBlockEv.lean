/-
The block events of a Reader tell the truth, in every run.
-/
import Verif.Proof.RTake
import Verif.Spec.BlockEvents

namespace Flate.Proof.R
open Flate.Spec Flate.Model Flate.Model.Rd

section
variable {E : Env}

/-- only the output changes -/
def OutOnly (s s' : RState) : Prop := ∃ o, s' = { s with out := o }

theorem outOnly_pre : Pre OutOnly := ⟨fun s => ⟨s.out, rfl⟩, by rintro s _ _ ⟨o, rfl⟩ ⟨o', rfl⟩; exact ⟨o', rfl⟩⟩

theorem outOnly_onOut {α : Type} (f : Out → α × Out) : Keeps OutOnly (onOut f) := by
  intro s a s' e; cases e; exact ⟨_, rfl⟩

theorem outOnly_corruptf (m : Spec.Problem) : Keeps OutOnly (Rd.corruptf m) := by
  intro s a s' e; cases e; exact ⟨_, rfl⟩

theorem outOnly_counts (x y : Nat) : Keeps OutOnly (checkCounts x y) := by
  unfold checkCounts
  have h1 : ∀ (c : Prop) [Decidable c] (m : Spec.Problem), Keeps OutOnly (if c then Rd.corruptf m else Pure.pure ()) := fun c _ m =>
    Keeps.ite (fun _ => outOnly_corruptf m) fun _ => Keeps.pure outOnly_pre _
  exact Keeps.ite (fun _ => Keeps.bind outOnly_pre (outOnly_corruptf _) fun _ => h1 (y > logicalNumDCodes) _) fun _ => h1 (y > logicalNumDCodes) _

theorem outOnly_write (p : List UInt8) : Keeps OutOnly (dbWrite E p) := by
  intro s a s' e
  unfold dbWrite at e
  rcases hx : dbWriteLoop E (p.length + 1) p s.out with x | o
  · rw [hx] at e; cases e
  · rw [hx] at e; cases e; exact ⟨_, rfl⟩

theorem outOnly_writeByte (ch : UInt8) : Keeps OutOnly (dbWriteByte E ch) := outOnly_onOut _

theorem outOnly_fail (m : Spec.Problem) : Keeps OutOnly (Rd.fail m) := Keeps.bind outOnly_pre (outOnly_corruptf m) fun _ => Keeps.pure outOnly_pre _

theorem outOnly_copyLoop (d : Nat) : ∀ n, Keeps OutOnly (Rd.copyLoop E d n)
  | 0 => Keeps.pure outOnly_pre _
  | n + 1 => by
    intro s a s' e
    unfold Rd.copyLoop at e
    split at e
    · exact outOnly_fail _ _ _ _ e
    · exact Keeps.bind outOnly_pre (outOnly_writeByte _) (fun _ => outOnly_copyLoop d n) _ _ _ e

theorem outOnly_copyMatch (d len : Nat) : Keeps OutOnly (Rd.copyMatch E d len) := by
  intro s a s' e
  unfold Rd.copyMatch at e
  split at e
  · exact outOnly_fail _ _ _ _ e
  · refine Keeps.bind outOnly_pre ?_ (fun _ => Keeps.bind outOnly_pre (outOnly_write _) fun _ => outOnly_copyLoop d _) _ _ _ e
    intro s a s' e; cases e; exact ⟨_, rfl⟩

/-! ### the header of a dynamic block -/

theorem loose_ll {lens : List Nat} {n : Nat} (h : n ≤ 288) : padTo physicalNumLLCodes ((lens.take n).take physicalNumLLCodes) = padTo 288 (lens.take n) := by
  rw [List.take_take, show min physicalNumLLCodes n = n by unfold physicalNumLLCodes; omega]; rfl

theorem loose_d {lens : List Nat} {n m : Nat} (hl : lens.length = n + m) (h : m ≤ 32) :
    padTo physicalNumDCodes ((lens.drop n).take physicalNumDCodes) = padTo 32 (lens.drop n) := by
  rw [List.take_of_length_le (by simp [hl, physicalNumDCodes]; omega)]; rfl

theorem take_treesRest (hE : LibOK E) {f : Bool} {numLL numD numX : Nat} (h1 : 257 ≤ numLL) (h2 : numLL ≤ 288) (h3 : 1 ≤ numD) (h4 : numD ≤ 32)
    (h5 : 4 ≤ numX) (h6 : numX ≤ 19) {s s' : RState} {ll d : List Nat} (hs : Small s.inp) (e : treesRest E f numLL numD numX s = .ok (some (ll, d), s')) :
    ∃ (hd : DynHeader) (i : Inp), hd.hlit = numLL ∧ hd.hdist = numD ∧ hd.hclen = numX ∧ hd.Loose (Env.ok E) ∧ ll = hd.ll ∧ d = hd.d ∧
      Take s.inp ((clOrder.take numX).flatMap (fun s => natBits 3 (lenOf hd.cl s)) ++ rleBits hd.cl hd.rle) i ∧
      s' = sent (.blockTrees .dynamic f { codeCount := numX, llCount := numLL, dCount := numD, codeSizes := hd.cl, ll := hd.ll, d := hd.d }) { s with inp := i } := by
  unfold treesRest at e
  obtain ⟨r, s1, e1, e2⟩ := Go.bind_eq_ok.1 e
  cases r with
  | none => cases e2
  | some cl =>
    obtain ⟨vs, i1, g1, g2, t1, rfl, rfl⟩ := take_CL hE _ _ hs e1
    rw [scramble_eq] at g1 e2
    obtain ⟨c1, c2, c3, c4⟩ := cl_facts g1 g2
    generalize setAll (clOrder.take numX) vs (List.replicate 19 0) = cl at c1 c2 c3 c4 e2
    simp only [] at e2
    cases ha : E.L.accepts cl with
    | false => simp only [ha, Bool.not_false, if_true] at e2; exact (corrupt_some e2).elim
    | true =>
      simp only [ha, Bool.not_true, Bool.false_eq_true, if_false] at e2
      obtain ⟨r, s2, e3, e4⟩ := Go.bind_eq_ok.1 e2
      cases r with
      | none => cases e4
      | some lens =>
        obtain ⟨rle, i2, q1, q2, q3, t2, rfl⟩ := take_lens hE ha c1 _ [] (s := { s with inp := i1 }) t1.small (by simp) e3
        simp only [loose_ll h2, loose_d q3 h4] at e4
        cases hl : E.L.accepts (padTo 288 (lens.take numLL)) with
        | false => simp only [hl, Bool.not_false, if_true] at e4; exact (corrupt_some e4).elim
        | true =>
          simp only [hl, Bool.not_true, Bool.false_eq_true, if_false] at e4
          cases hd : E.L.accepts (padTo 32 (lens.drop numLL)) with
          | false => simp only [hd, Bool.not_false, if_true] at e4; exact (corrupt_some e4).elim
          | true =>
            simp only [hd, Bool.not_true, Bool.false_eq_true, if_false] at e4
            cases e4
            refine ⟨⟨numLL, numD, numX, cl, rle, lens⟩, i2, rfl, rfl, rfl, ⟨h1, h2, h3, h4, h5, h6, c1, c2, c3, q1, q2, q3, ha, hl, hd⟩, rfl, rfl, ?_, rfl⟩
            rw [c4]; exact t1.trans t2

theorem take_trees (hE : LibOK E) {f : Bool} {s s' : RState} {ll d : List Nat} (hs : Small s.inp) (e : readDynamicTrees E f s = .ok (some (ll, d), s')) :
    ∃ (hd : DynHeader) (i : Inp) (o : Out), hd.Loose (Env.ok E) ∧ ll = hd.ll ∧ d = hd.d ∧ Take s.inp hd.bits i ∧
      s' = sent (.blockTrees .dynamic f { codeCount := hd.hclen, llCount := hd.hlit, dCount := hd.hdist, codeSizes := hd.cl, ll := hd.ll, d := hd.d }) { s with inp := i, out := o } ∧
      ((257 ≤ hd.hlit ∧ hd.hlit ≤ 286 ∧ hd.hdist ≤ 30 ∧ o = s.out) ∨ (¬ (hd.hlit ≤ 286 ∧ hd.hdist ≤ 30) ∧ o.errorWasSet = true)) := by
  rw [trees_eq] at e
  obtain ⟨v, i1, _, t1, e1⟩ := take_bits_some hE hs e
  rw [and31, and31, and15, Nat.shiftRight_eq_div_pow, Nat.shiftRight_eq_div_pow] at e1
  have r1 : (2 : Nat) ^ 5 = 32 := rfl
  have r2 : (2 : Nat) ^ 10 = 1024 := rfl
  rw [r1, r2] at e1
  obtain ⟨_, s2, e2, e3⟩ := Go.bind_eq_ok.1 e1
  obtain ⟨o, rfl⟩ := outOnly_counts _ _ _ _ _ e2
  obtain ⟨hd, i2, q1, q2, q3, q4, q5, q6, t2, q7⟩ := take_treesRest hE (s := { s with inp := i1, out := o }) (by omega) (by omega) (by omega) (by omega) (by omega) (by omega) t1.small e3
  refine ⟨hd, i2, o, q4, q5, q6, ?_, ?_, ?_⟩
  · have := t1.trans t2
    rw [split14] at this
    unfold DynHeader.bits
    rw [q1, q2, q3, show 257 + v % 32 - 257 = v % 32 by omega, show 1 + v / 32 % 32 - 1 = v / 32 % 32 by omega, show 4 + v / 1024 % 16 - 4 = v / 1024 % 16 by omega]
    simpa [rleBits] using this
  · rw [q7, q1, q2, q3]
  · by_cases hc : 257 + v % 32 ≤ 286 ∧ 1 + v / 32 % 32 ≤ 30
    · left
      rw [checkCounts_ok hc.1 hc.2] at e2
      have : s.out = o := by injection e2 with e2; exact congrArg (fun x : Unit × RState => x.2.out) e2
      exact ⟨by omega, by omega, by omega, this.symm⟩
    · right
      obtain ⟨s3, e4, f⟩ := checkCounts_bad hc { s with inp := i1 } .eof
      rw [e2] at e4
      cases e4
      refine ⟨by rw [q1, q2]; exact hc, ?_⟩
      obtain ⟨i, e, _, _, hf⟩ := f
      have : o = closeOut e s.out := congrArg RState.out hf
      rw [this]; exact closeOut_set _ _

/-! ### compressed data -/

theorem take_addBits (hE : LibOK E) {α : Type} {a : α} {n base : Nat} {k : Nat → Go RState (Option α)} {s s' : RState} (hs : Small s.inp)
    (e : addBits E none n base k s = .ok (some a, s')) : ∃ v i, v < 2 ^ n ∧ Take s.inp (natBits n v) i ∧ k (base + v) { s with inp := i } = .ok (some a, s') := by
  unfold addBits at e
  by_cases h : n ≠ 0
  · rw [if_pos h] at e; exact take_bits_some hE hs e
  · rw [if_neg h] at e
    have : n = 0 := Decidable.not_not.1 h
    subst this
    exact ⟨0, s.inp, by simp, .refl hs, e⟩

theorem take_LL (hE : LibOK E) {sym : Nat} {t : Token} {s s' : RState} (hs : Small s.inp) (e : decodeLL E sym s = .ok (some t, s')) :
    (sym < 256 ∧ t = ⟨sym, 0⟩ ∧ s' = s) ∨ (sym = 256 ∧ t = ⟨256, 0⟩ ∧ s' = s) ∨
    ∃ li lx i, sym = 257 + li ∧ li < 29 ∧ lx < 2 ^ lenExtra.getD li 0 ∧ t = ⟨refLen li lx, 1⟩ ∧ Take s.inp (natBits (lenExtra.getD li 0) lx) i ∧ s' = { s with inp := i } := by
  by_cases h1 : sym < 256
  · left; rw [decodeLL_lit h1] at e; cases e; exact ⟨h1, rfl, rfl⟩
  · by_cases h2 : sym = 256
    · right; left; subst h2; rw [decodeLL_stop] at e; cases e; exact ⟨rfl, rfl, rfl⟩
    · by_cases h3 : 286 ≤ sym
      · obtain ⟨s1, e1, _⟩ := decodeLL_bad (E := E) (s := s) h3 .eof
        rw [e1] at e; cases e
      · right; right
        obtain ⟨li, rfl, hli⟩ : ∃ li, sym = 257 + li ∧ li < 29 := ⟨sym - 257, by omega, by omega⟩
        obtain ⟨q1, _⟩ := lenSym_eq li hli
        unfold decodeLL at e
        rw [if_neg h1, if_neg h2, q1] at e
        simp only [] at e
        obtain ⟨lx, i, g1, g2, g3⟩ := take_addBits hE hs e
        rw [decodeLL_tail hli g1] at g3
        cases g3
        exact ⟨li, lx, i, rfl, hli, g1, rfl, g2, rfl⟩

theorem take_D (hE : LibOK E) {sym len : Nat} {t : Token} {s s' : RState} (hl : 3 ≤ len) (hl' : len ≤ 258) (hs : Small s.inp) (e : decodeD E sym len s = .ok (some t, s')) :
    sym < 30 ∧ ∃ dx i, dx < 2 ^ distExtra.getD sym 0 ∧ Take s.inp (natBits (distExtra.getD sym 0) dx) i ∧ s' = { s with inp := i } := by
  by_cases h3 : 30 ≤ sym
  · obtain ⟨s1, e1, _⟩ := decodeD_bad (E := E) (s := s) (len := len) h3 .eof
    rw [e1] at e; cases e
  · have h : sym < 30 := by omega
    obtain ⟨q1, _⟩ := distSym_eq sym h
    unfold decodeD at e
    rw [q1] at e
    simp only [] at e
    obtain ⟨dx, i, g1, g2, g3⟩ := take_addBits hE hs e
    rw [decodeD_tail hl hl' h g1] at g3
    cases g3
    exact ⟨h, dx, i, g1, g2, rfl⟩

theorem take_huffLoop (hE : LibOK E) {ll d : List Nat} (hll : E.L.accepts ll = true) (hd : E.L.accepts d = true) : ∀ (fuel : Nat) {s s' : RState}, Small s.inp →
    huffLoop E ll d fuel s = .ok (true, s') → ∃ is i o, (∀ it ∈ is, Item.Valid ll d it) ∧ Used ll 256 ∧ Take s.inp (dataBits ll d is) i ∧ s' = { s with inp := i, out := o }
  | 0, _, _, _, e => by cases e
  | fuel + 1, s, s', hs, e => by
    unfold huffLoop at e
    obtain ⟨r, s1, e1, e2⟩ := Go.bind_eq_ok.1 e
    cases r with
    | none =>
      obtain ⟨_, _, _, e3⟩ := Go.bind_eq_ok.1 e2
      cases e3
    | some sym =>
      obtain ⟨i1, rfl, u1, t1⟩ := take_symbol hE hll hs e1
      obtain ⟨r, s2, e3, e4⟩ := Go.bind_eq_ok.1 e2
      cases r with
      | none => cases e4
      | some t =>
        rcases take_LL hE (s := { s with inp := i1 }) t1.small e3 with ⟨h1, rfl, rfl⟩ | ⟨rfl, rfl, rfl⟩ | ⟨li, lx, i2, rfl, hli, hlx, rfl, t2, rfl⟩
        · have h256 : ¬ (sym ≥ 256) := by omega
          simp only [if_true, if_neg h256] at e4
          obtain ⟨_, s3, e5, e6⟩ := Go.bind_eq_ok.1 e4
          obtain ⟨o, rfl⟩ := outOnly_writeByte _ _ _ _ e5
          obtain ⟨is, i, o', g1, g2, g3, g4⟩ := take_huffLoop hE hll hd fuel (s := { s with inp := i1, out := o }) t1.small e6
          have hb : (UInt8.ofNat sym).toNat = sym := by rw [UInt8.toNat_ofNat']; omega
          refine ⟨.lit (UInt8.ofNat sym) :: is, i, o', ?_, g2, ?_, g4⟩
          · intro it hit
            rcases List.mem_cons.1 hit with rfl | hit
            · simpa [Item.Valid, hb] using u1
            · exact g1 it hit
          · have := t1.trans g3
            simpa [dataBits, Item.bits, hb] using this
        · simp only [if_true, ge_iff_le, Nat.le_refl] at e4
          cases e4
          exact ⟨[], i1, s.out, by simp, u1, by simpa [dataBits] using t1, rfl⟩
        · simp only [Nat.one_ne_zero, if_false] at e4
          obtain ⟨r, s3, e5, e6⟩ := Go.bind_eq_ok.1 e4
          cases r with
          | none =>
            obtain ⟨_, _, _, e7⟩ := Go.bind_eq_ok.1 e6
            cases e7
          | some di =>
            obtain ⟨i3, rfl, u3, t3⟩ := take_symbol hE hd (s := { s with inp := i2 }) t2.small e5
            obtain ⟨r, s4, e7, e8⟩ := Go.bind_eq_ok.1 e6
            cases r with
            | none => cases e8
            | some t =>
              obtain ⟨rl1, rl2⟩ := refLen_range hli hlx
              obtain ⟨hdi, dx, i4, hdx, t4, rfl⟩ := take_D hE (s := { s with inp := i3 }) rl1 rl2 t3.small e7
              simp only [] at e8
              unfold Go.chk at e8
              rcases hc : Rd.copyMatch E t.dist t.ll { s with inp := i4 } with p | ⟨b, s5⟩
              · rw [hc] at e8; cases e8
              · rw [hc] at e8
                cases b with
                | false => cases e8
                | true =>
                  obtain ⟨o, rfl⟩ := outOnly_copyMatch _ _ _ _ _ hc
                  simp only [] at e8
                  obtain ⟨is, i, o', g1, g2, g3, g4⟩ := take_huffLoop hE hll hd fuel (s := { s with inp := i4, out := o }) t4.small e8
                  refine ⟨.ref li lx di dx :: is, i, o', ?_, g2, ?_, g4⟩
                  · intro it hit
                    rcases List.mem_cons.1 hit with rfl | hit
                    · exact ⟨hli, hlx, hdi, hdx, u1, u3⟩
                    · exact g1 it hit
                  · have := (((t1.trans t2).trans t3).trans t4).trans g3
                    simpa [dataBits, Item.bits] using this

/-! ### stored blocks -/

theorem take_needBytes {n : Nat} {k : List UInt8 → Go RState Bool} {s s' : RState} (hs : Small s.inp)
    (e : needBytes false n k s = .ok (true, s')) : ∃ p i, p.length = n ∧ i.ibLen = 0 ∧ Take s.inp (natBits s.inp.ibLen s.inp.ibBlock ++ bytesBits p) i ∧ k p { s with inp := i } = .ok (true, s') := by
  unfold needBytes at e
  obtain ⟨⟨p, ok⟩, s1, e1, e2⟩ := Go.bind_eq_ok.1 e
  unfold onInp at e1
  simp only [] at e1
  obtain ⟨p', ok', i', h1, h2, h3, h4, h5⟩ := bufRead_A s.out.stopIsForced n s.inp
  rw [h1] at e1
  cases e1
  cases ok with
  | false =>
    simp only [Bool.not_false, if_true] at e2
    unfold exhausted at e2
    obtain ⟨_, _, _, e4⟩ := Go.bind_eq_ok.1 e2
    cases e4
  | true =>
    have hz : i'.ibBlock = 0 := by
      have hf := flat_bufRead s.out.stopIsForced n s.inp
      rw [h1] at hf
      exact hf.2
    simp only [Bool.not_true, Bool.false_eq_true, if_false] at e2
    refine ⟨p, i', h3 rfl, h5, ⟨?_, ?_, ?_, ?_⟩, e2⟩
    · unfold tb
      rw [h4, h5, bytesBits_append, List.append_assoc]
      simp
    · obtain ⟨c, c1, c2⟩ := h2.took
      rw [c1, List.length_append, c2]; omega
    · omega
    · rw [hz]; exact Nat.two_pow_pos _

theorem take_stored {s s' : RState} (hs : Small s.inp) (e : readStored E s = .ok (true, s')) : ∃ data i o, data.length < 65536 ∧
    Take s.inp (natBits s.inp.ibLen s.inp.ibBlock ++ natBits 16 data.length ++ natBits 16 (65535 - data.length) ++ bytesBits data) i ∧ s' = { s with inp := i, out := o } := by
  unfold readStored at e
  obtain ⟨p, i1, l1, z1, t1, e1⟩ := take_needBytes hs e
  obtain ⟨q, i2, l2, z2, t2, e2⟩ := take_needBytes (s := { s with inp := i1 }) t1.small e1
  simp only [] at e2
  by_cases hc : leVal q ≠ 65535 - leVal p
  · rw [if_pos hc] at e2
    obtain ⟨_, _, _, e4⟩ := Go.bind_eq_ok.1 e2
    cases e4
  rw [if_neg hc] at e2
  obtain ⟨d, i3, l3, z3, t3, e3⟩ := take_needBytes (s := { s with inp := i2 }) t2.small e2
  obtain ⟨_, s4, e4, e5⟩ := Go.bind_eq_ok.1 e3
  obtain ⟨o, rfl⟩ := outOnly_write _ _ _ _ e4
  cases e5
  have hlt := leVal_lt p
  rw [l1] at hlt
  refine ⟨d, i3, o, by rw [l3]; exact hlt, ?_, rfl⟩
  have := (t1.trans t2).trans t3
  simp only [z1, z2, bytesBits_leVal l1, bytesBits_leVal l2, natBits_zero, List.nil_append] at this
  rw [l3, ← Decidable.not_not.1 hc]
  exact this


/-! ### blocks -/

/-- `p` bits of `B` have been consumed -/
structure Here (B : List UInt8) (p : Nat) (i : Inp) : Prop where
  bits : ∃ pre, bytesBits B = pre ++ tb i ∧ pre.length = p
  total : i.inTotal + (allB i).length = B.length
  small : Small i

theorem tb_length (i : Inp) : (tb i).length = i.ibLen + 8 * (allB i).length := by simp [tb]

theorem Here.take {B : List UInt8} {p : Nat} {i i' : Inp} {b : List Bool} (h : Here B p i) (t : Take i b i') : BitsAt B p b ∧ Here B (p + b.length) i' := by
  obtain ⟨pre, h1, h2⟩ := h.bits
  exact ⟨⟨pre, tb i', by rw [h1, t.bits, List.append_assoc], h2⟩, ⟨pre ++ b, by rw [h1, t.bits, List.append_assoc], by rw [List.length_append, h2]⟩, t.total.trans h.total, t.small⟩

theorem Here.pos {B : List UInt8} {p : Nat} {i : Inp} (h : Here B p i) : i.inTotal = (p + 7) / 8 ∧ i.ibLen = padLen p := by
  obtain ⟨pre, h1, h2⟩ := h.bits
  have h3 := congrArg List.length h1
  rw [List.length_append, tb_length, h2, bytesBits_length] at h3
  have := h.total
  have := h.small.len
  unfold padLen
  omega

theorem Here.sent {B : List UInt8} {p : Nat} {s : RState} (h : Here B p s.inp) (k : EvKind) :
    ∃ e, (sent k s).events = s.events ++ [e] ∧ SentAt e k p := ⟨_, rfl, rfl, h.pos.1⟩

/-- the events of the body of a block -/
inductive Body (ok : List Nat → Prop) (B : List UInt8) (p : Nat) (f : Bool) : BlockType → List Event → Option Inp → Prop
  | fail (t : BlockType) : Body ok B p f t [] none
  | tables (t : BlockType) (h : List Bool) (tr : Trees) (e : Event) : BitsAt B p (f :: typeBits t ++ h) → Tables ok t h tr → SentAt e (.blockTrees t f tr) (p + 3 + h.length) → Body ok B p f t [e] none
  | stored (pad : List Bool) (data : List UInt8) (b : List Bool) (i : Inp) :
      b = [f, false, false] ++ pad ++ natBits 16 data.length ++ natBits 16 (65535 - data.length) ++ bytesBits data → pad.length = padLen (p + 3) → data.length < 65536 → BitsAt B p b →
      Here B (p + b.length) i → Body ok B p f .stored [] (some i)
  | coded (t : BlockType) (h : List Bool) (tr : Trees) (is : List Item) (e : Event) (b : List Bool) (i : Inp) :
      b = f :: typeBits t ++ h ++ dataBits tr.ll tr.d is → Tables ok t h tr → (∀ i ∈ is, i.Valid tr.ll tr.d) → Used tr.ll 256 → BitsAt B p b →
      SentAt e (.blockTrees t f tr) (p + 3 + h.length) → Here B (p + b.length) i → Body ok B p f t [e] (some i)

theorem tables_ok {E : Env} (hE : LibOK E) {t : BlockType} {h : List Bool} {tr : Trees} (ht : Tables (Env.ok E) t h tr) : E.L.accepts tr.ll = true ∧ E.L.accepts tr.d = true := by
  cases ht with
  | static => exact ⟨fixedSizesLL_eq ▸ (accepts_fixed hE.lawful).1, fixedSizesD_eq ▸ (accepts_fixed hE.lawful).2⟩
  | dynamic hd hv => exact ⟨hv.2.2.2.2.2.2.2.2.2.2.2.2.2.1, hv.2.2.2.2.2.2.2.2.2.2.2.2.2.2⟩

/-- after the codes -/
theorem body_coded (hE : LibOK E) {B : List UInt8} {p : Nat} {f : Bool} {t : BlockType} {h : List Bool} {tr : Trees} {i0 : Inp} (h0 : Here B p i0) {s s' : RState} {ok : Bool}
    (t0 : Take i0 (f :: typeBits t ++ h) s.inp) (ht : Tables (Env.ok E) t h tr) (hp : (f :: typeBits t ++ h).length = 3 + h.length)
    (e : decodeHuffmanBlock E tr.ll tr.d (sent (.blockTrees t f tr) s) = .ok (ok, s')) :
    ∃ es, s'.events = s.events ++ es ∧ Body (Env.ok E) B p f t es (if ok then some s'.inp else none) := by
  obtain ⟨k1, k2⟩ := h0.take t0
  obtain ⟨ev, v1, v2⟩ := k2.sent (.blockTrees t f tr)
  rw [hp, ← Nat.add_assoc] at v2
  have h1 : s'.events = (sent (.blockTrees t f tr) s).events := noEv_flow.huffBlock E _ _ _ _ _ e
  refine ⟨[ev], h1.trans v1, ?_⟩
  cases ok with
  | false => exact .tables t h tr ev k1 ht v2
  | true =>
    obtain ⟨a1, a2⟩ := tables_ok hE ht
    obtain ⟨is, i, o, g1, g2, g3, rfl⟩ := take_huffLoop hE a1 a2 _ (s := sent (.blockTrees t f tr) s) t0.small e
    obtain ⟨m1, m2⟩ := h0.take (t0.trans g3)
    exact .coded t h tr is ev _ i rfl ht g1 g2 m1 v2 m2

theorem take_body (hE : LibOK E) {B : List UInt8} {p : Nat} {f : Bool} {t : BlockType} {i0 : Inp} (h0 : Here B p i0) {s s' : RState} {ok : Bool}
    (t0 : Take i0 (f :: typeBits t) s.inp) (e : readBlockOf E f t s = .ok (ok, s')) :
    ∃ es, s'.events = s.events ++ es ∧ Body (Env.ok E) B p f t es (if ok then some s'.inp else none) := by
  cases t with
  | stored =>
    have e : readStored E s = .ok (ok, s') := e
    have h1 : s'.events = s.events := noEv_flow.stored E _ _ _ e
    refine ⟨[], by rw [h1]; simp, ?_⟩
    cases ok with
    | false => exact .fail _
    | true =>
      obtain ⟨data, i, o, g1, g2, rfl⟩ := take_stored t0.small e
      obtain ⟨m1, m2⟩ := h0.take (t0.trans g2)
      have := (h0.take t0).2.pos.2
      refine .stored (natBits s.inp.ibLen s.inp.ibBlock) data _ i ?_ (by rw [natBits_length]; exact this) g1 m1 m2
      simp [typeBits]
  | static =>
    have e : readStatic E f s = .ok (ok, s') := e
    unfold readStatic at e
    obtain ⟨_, s1, e1, e2⟩ := Go.bind_eq_ok.1 e
    have : s1 = sent (.blockTrees .static f { ll := fixedLL, d := fixedD }) s := by
      cases e1
      rw [fixedSizesLL_eq, fixedSizesD_eq]; rfl
    subst this
    rw [fixedSizesLL_eq, fixedSizesD_eq] at e2
    refine body_coded hE h0 (t := .static) (h := []) (by simpa using t0) .static (by simp [typeBits]) e2
  | dynamic =>
    have e : readDynamic E f s = .ok (ok, s') := e
    unfold readDynamic at e
    obtain ⟨r, s1, e1, e2⟩ := Go.bind_eq_ok.1 e
    cases r with
    | none =>
      cases e2
      obtain ⟨l, l1, l2, _⟩ := emits_trees E f _ _ _ e1
      have := l2 rfl
      simp only [List.map_eq_nil_iff] at this
      subst this
      exact ⟨[], l1, .fail _⟩
    | some x =>
      obtain ⟨ll, d⟩ := x
      obtain ⟨hd, i, o, q1, rfl, rfl, q4, rfl, _⟩ := take_trees hE t0.small e1
      have := body_coded hE h0 (s := { s with inp := i, out := o }) (t := .dynamic) (h := hd.bits) (t0.trans q4) (.dynamic hd q1) (by simp [typeBits]; omega) e2
      exact this
  | invalid =>
    have h1 : s'.events = s.events := noEv_flow.fail _ _ _ _ e
    have h2 : ok = false := by
      obtain ⟨_, _, _, e4⟩ := Go.bind_eq_ok.1 (show (Rd.fail .reserved) s = .ok (ok, s') from e)
      cases e4; rfl
    subst h2
    exact ⟨[], by rw [h1]; simp, .fail _⟩

theorem take_block (hE : LibOK E) {B : List UInt8} {p : Nat} {s s' : RState} {r : Option Bool} (h : Here B p s.inp) (e : readFlateBlock E s = .ok (r, s')) :
    ∃ es, s'.events = s.events ++ es ∧ (r = none → BlockRun (Env.ok E) B p es) ∧
      ∀ f, r = some f → ∃ q, Here B q s'.inp ∧ ∀ l, (f = true → l = []) → BlockRun (Env.ok E) B q l → BlockRun (Env.ok E) B p (es ++ l) := by
  rw [block_eq] at e
  rcases take_bits hE h.small e with ⟨rfl, h1⟩ | ⟨v, i, hv, t1, e1⟩
  · exact ⟨[], by rw [h1]; simp, fun _ => .nothing p, fun _ h => by cases h⟩
  obtain ⟨t, ht, hb⟩ : ∃ t, blockTypeOf v = t ∧ natBits 3 v = decide (v % 2 = 1) :: typeBits t := by
    rcases type3 v hv with ⟨a, b⟩ | ⟨a, b⟩ | ⟨a, b⟩ | ⟨a, b⟩ <;> exact ⟨_, a, b⟩
  rw [ht] at e1
  rw [hb] at t1
  generalize decide (v % 2 = 1) = f at e1 t1
  unfold blockRest at e1
  obtain ⟨_, s1, e2, e3⟩ := Go.bind_eq_ok.1 e1
  obtain ⟨ok, s2, e4, e5⟩ := Go.bind_eq_ok.1 e3
  have hs1 : s1 = sent (.blockBegin t f) { s with inp := i } := by cases e2; rfl
  subst hs1
  have hl : (f :: typeBits t).length = 3 := by cases t <;> rfl
  obtain ⟨b1, b2⟩ := h.take t1
  rw [hl] at b2
  obtain ⟨ev, v1, v2⟩ := Here.sent (s := { s with inp := i }) b2 (.blockBegin t f)
  obtain ⟨es, k1, k2⟩ := take_body hE h (s := sent (.blockBegin t f) { s with inp := i }) t1 e4
  have hev : s2.events = s.events ++ (ev :: es) := by rw [k1, v1]; simp
  cases ok with
  | false =>
    cases e5
    refine ⟨ev :: es, hev, fun _ => ?_, fun _ h => by cases h⟩
    cases k2 with
    | fail => exact .begun f t ev b1 v2
    | tables _ hd tr e1 g1 g2 g3 => exact .tables f t hd tr ev e1 g1 g2 v2 g3
  | true =>
    obtain ⟨_, s3, e6, e7⟩ := Go.bind_eq_ok.1 e5
    cases e7
    have hs3 : s' = sent (.blockEnd t f) s2 := by cases e6; rfl
    subst hs3
    simp only [if_true] at k2
    generalize hi : some s2.inp = x at k2
    cases k2 with
    | fail => cases hi
    | tables => cases hi
    | stored pad data b j g1 g2 g3 g4 g5 =>
      cases hi
      obtain ⟨ev', w1, w2⟩ := g5.sent (.blockEnd .stored f)
      refine ⟨[ev, ev'], by rw [w1, hev]; simp, fun h => (nomatch h), fun f' hf => ?_⟩
      cases hf
      exact ⟨_, g5, fun l l1 l2 => .stored f pad data ev ev' l b g1 g2 g3 g4 v2 w2 l1 l2⟩
    | coded _ hd tr is e1 b j g1 g2 g3 g4 g5 g6 g7 =>
      cases hi
      obtain ⟨ev', w1, w2⟩ := g7.sent (.blockEnd t f)
      refine ⟨[ev, e1, ev'], by rw [w1, hev]; simp, fun h => (nomatch h), fun f' hf => ?_⟩
      cases hf
      exact ⟨_, g7, fun l l1 l2 => .coded f t hd tr is ev e1 ev' l b g1 g2 g3 g4 g5 v2 g6 w2 l1 l2⟩

theorem take_blockLoop (hE : LibOK E) {B : List UInt8} : ∀ (fuel : Nat) {p : Nat} {s s' : RState} {u : Unit}, Here B p s.inp → blockLoop E fuel s = .ok (u, s') →
    ∃ es, s'.events = s.events ++ es ∧ BlockRun (Env.ok E) B p es
  | 0, _, _, _, _, _, e => by cases e
  | fuel + 1, p, s, s', u, h, e => by
    unfold blockLoop at e
    obtain ⟨r, s1, e1, e2⟩ := Go.bind_eq_ok.1 e
    obtain ⟨es, h1, h2, h3⟩ := take_block hE h e1
    cases r with
    | none => cases e2; exact ⟨es, h1, h2 rfl⟩
    | some f =>
      obtain ⟨q, h4, h5⟩ := h3 f rfl
      cases f with
      | true => cases e2; exact ⟨es, h1, by simpa using h5 [] (fun _ => rfl) (.nothing q)⟩
      | false =>
        obtain ⟨es', g1, g2⟩ := take_blockLoop hE fuel h4 e2
        exact ⟨es ++ es', by rw [g1, h1]; simp, h5 es' (fun h => by cases h) g2⟩


end

/-! ### the whole run -/

/-- events which have to do with a block -/
def isBlockEv : EvKind → Bool
  | .blockBegin _ _ => true
  | .blockTrees _ _ _ => true
  | .blockEnd _ _ => true
  | _ => false

/-- After each StreamHeader event come truthful block events, and then a StreamEnd event; there are no other block events. -/
structure BlockEvs (ok : List Nat → Prop) (B : List UInt8) (evs : List Event) : Prop where
  header : ∀ l e r h, evs = l ++ e :: r → e.kind = .streamHeader h →
    ∃ bks x rest a c, r = bks ++ x :: rest ∧ BlockRun ok B (8 * e.inTotal) bks ∧ x.kind = .streamEnd a c
  all : ∀ e ∈ evs, isBlockEv e.kind = true → ∃ p bks, BlockRun ok B p bks ∧ e ∈ bks

theorem BlockEvs.none {ok : List Nat → Prop} {B : List UInt8} {evs : List Event} (h : ∀ e ∈ evs, e.kind = .streamBegin) : BlockEvs ok B evs :=
  ⟨fun l e r x he hk => (by have := h e (by rw [he]; simp); rw [hk] at this; cases this), fun e he hk => (by rw [h e he] at hk; cases hk)⟩

theorem BlockEvs.append {ok : List Nat → Prop} {B : List UInt8} {a b : List Event} (ha : BlockEvs ok B a) (hb : BlockEvs ok B b) : BlockEvs ok B (a ++ b) := by
  refine ⟨?_, fun e he => (List.mem_append.1 he).elim (ha.all e) (hb.all e)⟩
  intro l e r h he hk
  rcases List.append_eq_append_iff.1 he with ⟨x, x1, x2⟩ | ⟨x, x1, x2⟩
  · exact hb.header x e r h x2 hk
  · cases x with
    | nil => exact hb.header [] e r h (by simpa using x2.symm) hk
    | cons y ys =>
      rw [List.cons_append, List.cons.injEq] at x2
      obtain ⟨rfl, rfl⟩ := x2
      obtain ⟨bks, z, rest, u, v, q1, q2, q3⟩ := ha.header l e ys h x1 hk
      exact ⟨bks, z, rest ++ b, u, v, by rw [q1]; simp, q2, q3⟩

theorem BlockEvs.stream {ok : List Nat → Prop} {B : List UInt8} {e : Event} {bks : List Event} {x : Event} {rest : List Event} {a c : BitVec 32} {h0 : Header} (h0 : e.kind = .streamHeader h0)
    (h1 : BlockRun ok B (8 * e.inTotal) bks) (h2 : x.kind = .streamEnd a c) (h3 : ∀ y ∈ bks ++ x :: rest, ∀ h, y.kind ≠ .streamHeader h)
    (h4 : ∀ y ∈ rest, y.kind = .streamClose) : BlockEvs ok B (e :: (bks ++ x :: rest)) := by
  refine ⟨?_, ?_⟩
  · intro l e' r h he hk
    cases l with
    | nil =>
      simp only [List.nil_append, List.cons.injEq] at he
      obtain ⟨rfl, rfl⟩ := he
      exact ⟨bks, x, rest, a, c, rfl, h1, h2⟩
    | cons y ys =>
      simp only [List.cons_append, List.cons.injEq] at he
      exact absurd hk (h3 e' (by rw [he.2]; simp) h)
  · intro y hy hk
    rcases List.mem_cons.1 hy with rfl | hy
    · rw [h0] at hk; cases hk
    · rcases List.mem_append.1 hy with hy | hy
      · exact ⟨_, bks, h1, hy⟩
      · rcases List.mem_cons.1 hy with rfl | hy
        · rw [h2] at hk; cases hk
        · rw [h4 y hy] at hk; cases hk

/-- what a BlockTrees event says -/
theorem blockRun_trees {ok : List Nat → Prop} {B : List UInt8} {p : Nat} {es : List Event} (h : BlockRun ok B p es) {e : Event} (he : e ∈ es) {t : BlockType} {f : Bool} {tr : Trees}
    (hk : e.kind = .blockTrees t f tr) : ∃ q b, BitsAt B q (f :: typeBits t ++ b) ∧ Tables ok t b tr ∧ e.inTotal = (q + 3 + b.length + 7) / 8 := by
  have pre : ∀ {q : Nat} {x y : List Bool}, BitsAt B q (x ++ y) → BitsAt B q x := by
    rintro q x y ⟨u, v, h1, h2⟩
    exact ⟨u, y ++ v, by rw [h1]; simp, h2⟩
  induction h with
  | nothing => cases he
  | begun f' t' e' _ h2 => rw [List.mem_singleton.1 he, h2.1] at hk; cases hk
  | tables f' t' b tr' e1 e2 h1 h2 h3 h4 =>
    simp only [List.mem_cons, List.not_mem_nil, or_false] at he
    rcases he with rfl | rfl
    · rw [h3.1] at hk; cases hk
    · rw [h4.1] at hk; cases hk; exact ⟨_, b, h1, h2, h4.2⟩
  | stored f' pad data e1 e2 es b _ _ _ _ h5 h6 _ _ ih =>
    simp only [List.mem_cons] at he
    rcases he with rfl | rfl | he
    · rw [h5.1] at hk; cases hk
    · rw [h6.1] at hk; cases hk
    · exact ih he
  | coded f' t' b tr' is e1 e2 e3 es bb h1 h2 _ _ h5 h6 h7 h8 _ _ ih =>
    simp only [List.mem_cons] at he
    rcases he with rfl | rfl | rfl | he
    · rw [h6.1] at hk; cases hk
    · rw [h7.1] at hk; cases hk; exact ⟨_, b, pre (h1 ▸ h5), h2, h7.2⟩
    · rw [h8.1] at hk; cases hk
    · exact ih he

section
variable {E : Env}

/-- what follows the header of a stream -/
theorem take_bodyRest (hE : LibOK E) {B : List UInt8} {p : Nat} {s s' : RState} {b : Bool} (h : Here B p s.inp) (e : bodyRest E s = .ok (b, s')) :
    ∃ bks x rest a c, s'.events = s.events ++ (bks ++ x :: rest) ∧ BlockRun (Env.ok E) B p bks ∧ x.kind = .streamEnd a c ∧ ∀ y ∈ rest, y.kind = .streamClose := by
  unfold bodyRest at e
  obtain ⟨_, s1, e1, e2⟩ := Go.bind_eq_ok.1 e
  cases e1
  obtain ⟨_, s2, e3, e4⟩ := Go.bind_eq_ok.1 e2
  obtain ⟨bks, k1, k2⟩ := take_blockLoop hE _ (s := { s with out := { s.out with adler := Adler.init, crc := Crc.init } }) h e3
  obtain ⟨_, s3, e5, e6⟩ := Go.bind_eq_ok.1 e4
  cases e5
  obtain ⟨l, l1, a, c, l2⟩ := emits_footer _ _ _ e6
  cases l with
  | nil => simp at l2
  | cons x rest =>
    simp only [List.map_cons, List.cons_append, List.cons.injEq] at l2
    refine ⟨bks, x, rest, a, c, ?_, k2, l2.1, fun y hy => ?_⟩
    · rw [l1]
      show s2.events ++ _ = _
      rw [k1]; simp
    · have hm : y.kind ∈ rest.map (·.kind) := List.mem_map.2 ⟨y, hy, rfl⟩
      rw [l2.2] at hm
      cases b with
      | false => simp at hm
      | true => simpa using hm

theorem events_stream (hE : LibOK E) {B : List UInt8} {s s' : RState} {b : Bool} (h : HInv E B s) (e : readStream E s = .ok (b, s')) :
    ∃ es, s'.events = s.events ++ es ∧ BlockEvs (Env.ok E) B es := by
  obtain ⟨f1, f2, f3, f4, f5, f6⟩ := filled_frame s
  have hno : ∀ (ev : Event), ev.kind = .streamBegin → BlockEvs (Env.ok E) B [ev] := fun ev hk =>
    .none fun y hy => by rw [List.mem_singleton.1 hy]; exact hk
  rw [readStream_split] at e
  split at e
  · have h1 : s'.events = (filled s).events := Keeps.bind noEv_flow.toPre (noEv_propagate _) (fun _ => Keeps.pure noEv_flow.toPre _) _ _ _ e
    exact ⟨[], by rw [h1, f5]; simp, .none fun _ he => by cases he⟩
  · unfold Go.chk at e
    rcases hx : headRest E (filled s) with p | ⟨b1, s1⟩
    · rw [hx] at e; cases e
    · rw [hx] at e
      rw [headRest_eq] at hx
      unfold Go.chk at hx
      rcases hy : readHeaderOf E E.o.format (begun E (filled s)) with p | ⟨b2, s2⟩
      · rw [hy] at hx; cases hx
      · rw [hy] at hx
        have h2 : s2.events = (begun E (filled s)).events := noEv_flow.headerOf E _ _ _ _ hy
        obtain ⟨ev, hev, hk⟩ : ∃ ev, s2.events = s.events ++ [ev] ∧ ev.kind = .streamBegin := ⟨_, by rw [h2, ← f5]; rfl, rfl⟩
        cases b2 with
        | false => cases hx; cases e; exact ⟨[ev], hev, hno ev hk⟩
        | true =>
          cases hx
          simp only [] at e
          have hflat : Flat (begun E (filled s)).inp := by
            show Flat (refill s.out.stopIsForced { s.inp with inStream := 0 })
            unfold refill
            split
            · exact flat_fill _ _ h.flat
            · exact h.flat
          have hf2 : Flat s2.inp := flat_headerOf E _ _ _ _ hy hflat
          obtain ⟨p, p1, p2⟩ := h.pos
          obtain ⟨c, c1, c2⟩ : ∃ c, allB s.inp = c ++ allB s2.inp ∧ s2.inp.inTotal = s.inp.inTotal + c.length := by
            rcases (safe_readHeaderOf (b := false) (X := True) (s := begun E (filled s)) E (fun _ => trivial) _ rfl).cases with ⟨r, s3, k1, k2, _⟩ | ⟨k1, _⟩
            · rw [hy] at k1; cases k1
              obtain ⟨c, c1, c2⟩ := k2.inp.took
              refine ⟨c, ?_, ?_⟩
              · rw [← f2]; exact c1
              · rw [c2]
                show (filled s).inp.inTotal + _ = _
                rw [f4]
            · rw [hy] at k1; cases k1
          have hhere : Here B (8 * s2.inp.inTotal) s2.inp := by
            refine ⟨⟨bytesBits (p ++ c), ?_, ?_⟩, ?_, ⟨?_, ?_⟩⟩
            · rw [p1, c1]
              unfold tb
              rw [hf2.1, ← List.append_assoc, bytesBits_append]
              simp
            · rw [bytesBits_length, List.length_append, c2, p2]
            · rw [p1, c1, c2, p2]; simp; omega
            · rw [hf2.1]; omega
            · rw [hf2.1, hf2.2]; simp
          obtain ⟨bks, x, rest, a, d, g1, g2, g3, g4⟩ := take_bodyRest hE (s := sent (.streamHeader s2.header) s2) hhere e
          obtain ⟨l, l1, l2⟩ := body_headless E _ _ _ e
          have hl : l = bks ++ x :: rest := List.append_cancel_left (l1.symm.trans g1)
          obtain ⟨eh, w1, w2, w3⟩ : ∃ eh, (sent (.streamHeader s2.header) s2).events = s2.events ++ [eh] ∧ eh.inTotal = s2.inp.inTotal ∧ eh.kind = .streamHeader s2.header := ⟨_, rfl, rfl, rfl⟩
          refine ⟨[ev] ++ (eh :: (bks ++ x :: rest)), ?_, (hno ev hk).append (.stream w3 (w2 ▸ g2) g3 ?_ g4)⟩
          · rw [g1, w1, hev]; simp
          · intro y hy h hh
            rw [← hl] at hy
            exact l2 h (List.mem_map.2 ⟨y, hy, hh⟩)

theorem events_loop (hE : LibOK E) {B : List UInt8} : ∀ (fuel : Nat) {s s' : RState} {r : Unit}, HInv E B s → streamLoop E fuel s = .ok (r, s') →
    ∃ es, s'.events = s.events ++ es ∧ BlockEvs (Env.ok E) B es
  | 0, _, _, _, _, e => by cases e
  | fuel + 1, s, s', r, h, e => by
    have h0 : BlockEvs (Env.ok E) B [] := .none fun _ he => by cases he
    unfold streamLoop at e
    split at e
    · rcases hx : readStream E s with p | ⟨b, s1⟩
      · rw [hx] at e; cases e
      · rw [hx] at e
        have h1 := hinv_stream hE h hx
        obtain ⟨es, g1, g2⟩ := events_stream hE h hx
        cases b with
        | false => cases e; exact ⟨es, g1, g2⟩
        | true =>
          obtain ⟨es', k1, k2⟩ := events_loop hE fuel h1 e
          exact ⟨es ++ es', by rw [k1, g1]; simp, g2.append k2⟩
    · cases e; exact ⟨[], by simp, h0⟩

theorem events_thread (hE : LibOK E) {src : Src} {closed : Bool} {r : Unit} {s : RState} (e : readThread E (start src closed) = .ok (r, s)) :
    BlockEvs (Env.ok E) src.bytes s.events := by
  have hst : readThread E (start src closed) = ((fun s => streamLoop E (s.inp.size + 2) s : Go RState Unit) >>= fun _ => finishThread) (start src closed) := by
    unfold readThread
    exact Go.bind_ok (Go.modify_apply _ _)
  obtain ⟨_, s1, e1, e2⟩ := Go.bind_eq_ok.1 (hst.symm.trans e)
  have h3 : s.events = s1.events := Keeps.bind noEv_flow.toPre (noEv_flow.onInp fun _ i a i' e => by cases e; exact steady_of rfl rfl (Nat.le_refl _)) (fun _ => noEv_propagate _) _ _ _ e2
  rw [h3]
  obtain ⟨es, g1, g2⟩ := events_loop hE _ (s := start src closed) ⟨⟨rfl, rfl⟩, ⟨[], rfl, rfl⟩, fun _ he => by cases he⟩ e1
  rw [show (start src closed).events = [] from rfl, List.nil_append] at g1
  rw [g1]; exact g2

end
end Flate.Proof.R
