/-
How much a Writer writes: every call which succeeds pays for its output with the input it consumes, 42 bits per block, and the frames.
-/
import Verif.Proof.WRun
import Verif.Spec.Size

namespace Flate.Proof
open Flate.Spec Flate.Model

/-- From `s` to `t`, at most `k` blocks and `z` bytes of headers and footers have been written. -/
def Paid (s t : WState) (k z : Nat) : Prop :=
  (view t).length + 8 * s.inTotal ≤ (view s).length + 8 * t.inTotal + 42 * k + 8 * z

theorem Paid.refl (s : WState) : Paid s s 0 0 := by unfold Paid; omega
theorem Paid.trans {s t u : WState} {k l z y : Nat} (h : Paid s t k z) (j : Paid t u l y) : Paid s u (k + l) (z + y) := by
  unfold Paid at *; omega

/-- all blocks -/
def AnyRel : BlockRel := fun _ _ _ _ _ => True

theorem blockOK_anyRel (L : HuffLib) (o : Options) (lim : Nat) : BlockOK L o lim True AnyRel :=
  { stored := fun _ _ => trivial, data := fun _ => fun _ _ _ => trivial, static := fun _ => fun _ => trivial, mod := fun _ _ _ _ _ _ _ _ => trivial }

theorem Acts.of_ok {f : Go WState Bool} {s t : WState} {p0 p1 : Phase} {Q : WState → Prop} (h : Acts f s p0 p1 Q)
    (e : f s = .ok (true, t)) : ∃ es, Flow s t es ∧ Q t ∧ WInv t := by
  rcases h with ⟨e', _⟩ | ⟨b, t', es, e', fl, ok, _, _⟩
  · rw [e] at e'; cases e'
  · rw [e] at e'; cases e'
    obtain ⟨q, i, _⟩ := ok rfl
    exact ⟨es, fl, q, i⟩

theorem Call.of_ok {f : Go WState Bool} {s t : WState} {n : List UInt8} {p0 p1 : Phase} {Q : WState → Prop} (h : Call f s n p0 p1 Q)
    (e : f s = .ok (true, t)) : ∃ es, Hist s t n es ∧ Q t ∧ WInv t := by
  rcases h with ⟨e', _⟩ | ⟨b, t', es, k, e', _, fl, ok, _, _⟩
  · rw [e] at e'; cases e'
  · rw [e] at e'; cases e'
    obtain ⟨rfl, q, i, _⟩ := ok rfl
    exact ⟨es, fl, q, i⟩

theorem Does.of_ok {f : Go WState Bool} {s t : WState} {bits : List Bool} {ks : List EvKind} (h : Does f s bits ks)
    (e : f s = .ok (true, t)) : Core s t ∧ view t = view s ++ bits ∧ WInv t ∧ t.state = s.state := by
  obtain ⟨b, t', es, e', st, ok, _, _⟩ := h
  rw [e] at e'; cases e'
  exact ⟨st.core, (ok rfl).1.view, (ok rfl).1.inv, (ok rfl).1.state⟩

theorem pad_lt8 (n : Nat) : (padBits n).length < 8 := by simp [padBits, padLen_lt]

theorem stored_paid {s t : WState} (hi : WInv s) {data : List UInt8} (hd : data.length ≤ 65535) {f : Bool}
    (e : writeStoredBlock wBW data f s = .ok (true, t)) :
    Core s t ∧ WInv t ∧ t.state = s.state ∧ (view t).length ≤ (view s).length + 8 * data.length + 42 := by
  obtain ⟨c, v, i, st⟩ := (writeStoredBlock_does hi hd f).of_ok e
  refine ⟨c, i, st, ?_⟩
  rw [v]
  have := pad_lt8 ((view s).length + 3)
  simp only [List.length_append, natBits_length, bytesBits_length, List.length_cons, List.length_nil]
  omega

theorem storeLoop_paid : ∀ (fuel : Nat) {s t : WState}, s.lz.buf.length < fuel → WInv s →
    storeLoop fuel s.lz.buf.length s = .ok (true, t) →
    ∃ k, Paid s t k 0 ∧ t.inTotal = s.inTotal + s.lz.buf.length ∧ k * 61440 < s.lz.buf.length + 61440 := by
  intro fuel
  induction fuel with
  | zero => intro s t h; omega
  | succ fuel ih =>
    intro s t hf hi h
    by_cases h0 : s.lz.buf.length = 0
    · unfold storeLoop at h
      rw [if_pos h0] at h
      cases h
      exact ⟨0, Paid.refl _, by omega, by simp⟩
    · obtain ⟨s1, e, he, hb⟩ := inputBufferRead_spec s storedBlockSize
      have i1 := eat_inv he hi
      have hl : (s.lz.buf.take storedBlockSize).length = min 61440 s.lz.buf.length := by
        rw [List.length_take]; rfl
      have hlen := congrArg List.length he.buf
      rw [List.length_append] at hlen
      have hsub : s.lz.buf.length - (s.lz.buf.take storedBlockSize).length = s1.lz.buf.length := by
        omega
      unfold storeLoop at h
      rw [if_neg h0, Go.bind_ok e, hsub] at h
      obtain ⟨u, h1, h2⟩ := chk_true_inv h
      obtain ⟨c, i, _, v⟩ := stored_paid i1 (by omega) h1
      have hu : u.lz.buf.length = s1.lz.buf.length := by rw [c.lz]
      rw [← hu] at h2
      obtain ⟨k, p, ti, hk⟩ := ih (by omega) i h2
      have hv1 : view s1 = view s := by rw [he.eq]; rfl
      have hin : u.inTotal = s.inTotal + (s.lz.buf.take storedBlockSize).length := by rw [c.inTotal, he.eq]
      have hk1 : (k + 1) * 61440 < s.lz.buf.length + 61440 := by
        rw [Nat.add_mul, Nat.one_mul]
        generalize hB : 61440 = B at *
        have hBp : 0 < B := by omega
        by_cases hlt : s.lz.buf.length < B
        · have hz : u.lz.buf.length = 0 := by omega
          rw [hz, Nat.zero_add] at hk
          have : k = 0 := by
            rcases Nat.eq_zero_or_pos k with h | h
            · exact h
            · have := Nat.mul_le_mul_right B h
              omega
          subst this
          omega
        · omega
      refine ⟨k + 1, ?_, by omega, hk1⟩
      unfold Paid at p ⊢
      rw [hv1] at v
      omega

/-- blocks per `room` bytes -/
def blocksPer (s : WState) : Nat := if usesStore s.o = true ∧ 61440 < s.lz.cap then 2 else 1

theorem compress_paid {L : HuffLib} (hL : L.Lawful) {s t : WState} (hi : WInv s) (hc : Conf s)
    (hcap : s.lz.buf.length ≤ s.lz.cap) (hs : s.state = .openStream) {all : Bool} (h : compressImpl L all s = .ok (true, t)) :
    t = s ∨ ∃ k, Paid s t k 0 ∧ t.inTotal = s.inTotal + s.lz.buf.length ∧ (s.lz.buf.length < room s → k ≤ 1) ∧
      (room s ≤ s.lz.buf.length → k * room s ≤ blocksPer s * s.lz.buf.length) ∧ (all = false → room s ≤ s.lz.buf.length) := by
  by_cases hb : s.lz.buf = []
  · unfold compressImpl at h
    rw [if_pos hb] at h
    cases h
    exact Or.inl rfl
  · have e1 : finishClosing s = .ok (true, s) := by
      unfold finishClosing; rw [if_neg (by rw [hs]; decide)]
    have heq : compressImpl L all s = (if usesStore s.o then compressStore all s else compressSlow L all s) := by
      unfold compressImpl
      rw [if_neg hb, chk_ok e1]
      refine chk_ok ?_
      exact if_neg (by rw [hs]; decide)
    rw [heq] at h
    by_cases hu : usesStore s.o = true
    · have hroom : room s = min s.lz.cap 61440 := by unfold room; rw [if_pos hu]; rfl
      have hq1 : 1 ≤ blocksPer s := by unfold blocksPer; split <;> omega
      rw [if_pos hu] at h
      unfold compressStore at h
      by_cases hw : s.lz.buf.length < storedBlockSize ∧ all = false ∧ s.lz.buf.length < s.lz.cap
      · dsimp only at h
        rw [if_pos hw] at h
        cases h
        exact Or.inl rfl
      · dsimp only at h
        rw [if_neg hw] at h
        obtain ⟨k, p, ti, hk⟩ := storeLoop_paid (s.lz.buf.length + 1) (by omega) hi h
        refine Or.inr ⟨k, p, ti, ?_, ?_, ?_⟩
        · intro hr
          rw [hroom] at hr
          omega
        · intro hr
          by_cases hlt : s.lz.buf.length < 61440 ∨ s.lz.cap ≤ 61440
          · have : k ≤ 1 := by omega
            have h1 := Nat.mul_le_mul_right (room s) this
            have h2 := Nat.mul_le_mul_right s.lz.buf.length hq1
            omega
          · have hq : blocksPer s = 2 := by unfold blocksPer; rw [if_pos ⟨hu, by omega⟩]
            have h1 : k * room s ≤ k * 61440 := Nat.mul_le_mul_left k (by omega)
            rw [hq]
            omega
        · intro ha
          rw [hroom]
          have : ¬ (s.lz.buf.length < 61440 ∧ s.lz.buf.length < s.lz.cap) := fun hh => hw ⟨hh.1, ha, hh.2⟩
          omega
    · have hu' : usesStore s.o = false := by simpa using hu
      have hroom : room s = min s.lz.cap 4096 := by unfold room; rw [if_neg hu]
      have hq : blocksPer s = 1 := by unfold blocksPer; rw [if_neg (fun h => hu h.1)]
      rw [if_neg hu] at h
      unfold compressSlow at h
      by_cases hw : s.lz.buf.length < 4096 ∧ all = false ∧ s.lz.buf.length < s.lz.cap
      · dsimp only at h
        rw [if_pos hw] at h
        cases h
        exact Or.inl rfl
      · dsimp only at h
        rw [if_neg hw] at h
        obtain ⟨ts, is, s1, e, he, hT, hx, _⟩ := tokenLoop_spec (s.lz.buf.length + 1) s [] [] (by omega) hc.lz
        have i1 := eat_inv he hi
        have hW1 : s1.W = s.W := by rw [he.eq]
        rw [Go.bind_ok e] at h
        have h' : compressTokens wBW s.W L s.lz.buf (ts ++ [makeStopToken]) false s1 = .ok (true, t) := h
        refine Or.inr ⟨1, ?_, ?_, fun _ => Nat.le_refl _, fun hr => by rw [hq]; omega, ?_⟩
        · rcases compressTokens_does hL i1 (toks_stop hT) s.lz.buf false with ⟨_, hpan⟩ | ⟨bits, ks, hd, hk, hlong, hpz, henc⟩
          · rw [hW1, h'] at hpan; cases hpan
          · rw [hW1] at hd
            obtain ⟨c, v, _⟩ := hd.of_ok h'
            have hv1 : view s1 = view s := by rw [he.eq]; rfl
            have hin : t.inTotal = s.inTotal + s.lz.buf.length := by rw [c.inTotal, he.eq]
            have := padLen_lt ((view s1).length + 3)
            unfold Paid
            rw [v, hv1, List.length_append]
            omega
        · rcases compressTokens_does hL i1 (toks_stop hT) s.lz.buf false with ⟨_, hpan⟩ | ⟨bits, ks, hd, hk, hlong, hpz, henc⟩
          · rw [hW1, h'] at hpan; cases hpan
          · rw [hW1] at hd
            obtain ⟨c, v, _⟩ := hd.of_ok h'
            rw [c.inTotal, he.eq]
        · intro ha
          rw [hroom]
          have : ¬ (s.lz.buf.length < 4096 ∧ s.lz.buf.length < s.lz.cap) := fun hh => hw ⟨hh.1, ha, hh.2⟩
          omega

theorem blocksPer_congr {s t : WState} (h : t.o = s.o) (hz : t.lz.opts = s.lz.opts) : blocksPer t = blocksPer s := by
  unfold blocksPer; rw [h, cap_congr hz]

/-- what a part of a `Write` costs -/
def Spent (s t : WState) : Prop :=
  ∃ k, Paid s t k 0 ∧ k * room s + blocksPer s * s.inTotal ≤ blocksPer s * t.inTotal

theorem Spent.refl (s : WState) : Spent s s := ⟨0, Paid.refl s, by omega⟩
theorem Spent.trans {s t u : WState} (h : Spent s t) (j : Spent t u) (hr : room t = room s) (hq : blocksPer t = blocksPer s) : Spent s u := by
  obtain ⟨k, p, e⟩ := h
  obtain ⟨l, r, f⟩ := j
  refine ⟨k + l, p.trans r, ?_⟩
  rw [hr, hq] at f
  rw [Nat.add_mul]
  omega

/-- compressing what a `Write` has put into the buffer -/
theorem spent_of {L : HuffLib} (hL : L.Lawful) {s t : WState} (hi : WInv s) (hc : Conf s)
    (hcap : s.lz.buf.length ≤ s.lz.cap) (hs : s.state = .openStream) {all : Bool} (ha : all = true → room s ≤ s.lz.buf.length)
    (h : compressImpl L all s = .ok (true, t)) : Spent s t := by
  rcases compress_paid hL hi hc hcap hs h with rfl | ⟨k, p, ti, _, h2, h3⟩
  · exact Spent.refl _
  · have hr : room s ≤ s.lz.buf.length := by
      cases all with
      | true => exact ha rfl
      | false => exact h3 rfl
    refine ⟨k, p, ?_⟩
    rw [ti, Nat.mul_add]
    have := h2 hr
    omega

theorem accept_full {p : List UInt8} {s : WState} (h : s.lz.buf.length < s.lz.cap) (hp : p ≠ [])
    (ha : (accepted p s == 0 || decide (accepted p s < p.length)) = true) :
    room (accept p s) ≤ (accept p s).lz.buf.length := by
  have hpl : 0 < p.length := List.length_pos_iff.2 hp
  have hn : 0 < accepted p s := by rw [accepted_eq]; omega
  have hlt : accepted p s < p.length := by
    simp only [Bool.or_eq_true, beq_iff_eq, decide_eq_true_eq] at ha
    omega
  have : room (accept p s) ≤ s.lz.cap := room_le (accept p s)
  rw [accept_buf, List.length_append, List.length_take]
  rw [accepted_eq] at hlt ⊢
  omega

theorem accept_paid (p : List UInt8) (s : WState) : view (accept p s) = view s ∧ (accept p s).inTotal = s.inTotal := ⟨rfl, rfl⟩

theorem Spent.accept {p : List UInt8} {s t : WState} (h : Spent (accept p s) t) : Spent s t := h

theorem writeLoop_spent {L : HuffLib} (hL : L.Lawful) : ∀ (fuel : Nat) (p : List UInt8) {s t : WState},
    p.length < fuel → WInv s → Conf s → s.lz.buf.length < room s → s.state = .openStream →
    writeLoopB L fuel p s = .ok (true, t) → Spent s t := by
  intro fuel
  induction fuel with
  | zero => intro p s t h; omega
  | succ fuel ih =>
    intro p s t hf hi hc hcap hs h
    by_cases hp : p = []
    · unfold writeLoopB at h
      rw [if_pos hp] at h
      cases h
      exact Spent.refl _
    · have hlc : s.lz.buf.length < s.lz.cap := Nat.lt_of_lt_of_le hcap (room_le s)
      have hpl : 0 < p.length := List.length_pos_iff.2 hp
      have hn : 0 < accepted p s := by rw [accepted_eq]; omega
      have hle := accepted_le p s
      unfold writeLoopB at h
      rw [if_neg hp] at h
      obtain ⟨v, h0, h1⟩ := chk_true_inv h
      cases h0
      obtain ⟨u, h2, h3⟩ := chk_true_inv h1
      have hu := accept_hist p s
      have hcu : Conf (accept p s) := hu.conf hc rfl
      have iu : WInv (accept p s) := accept_inv hi
      have hcu' := accept_cap (p := p) (Nat.le_of_lt hlc)
      have hsp := spent_of hL iu hcu hcu' hs (accept_full hlc hp) h2
      obtain ⟨es, fl, ⟨c, g, hb⟩, it⟩ := (compressImpl_open hL (blockOK_anyRel L _ _) iu hcu hcu' hs _).of_ok h2
      have hr : room u = room (accept p s) := room_hist fl.hist
      have htcap : u.lz.buf.length < room u := by
        rcases hb with hb | ⟨_, hb, rfl⟩
        · rw [hb]; exact room_pos _
        · exact hb
      have := ih (p.drop (accepted p s)) (by rw [List.length_drop]; omega) it (fl.hist.conf hcu g.header) htcap
        (g.state.trans hs) h3
      exact hsp.accept.trans this hr (blocksPer_congr fl.o fl.lzopts)

/-- a `Write` which opens a stream pays for the header, too -/
theorem writeLoop_opens {L : HuffLib} (hL : L.Lawful) (fuel : Nat) {p : List UInt8} {s t : WState}
    (hf : p.length < fuel) (hi : WInv s) (hc : Conf s) (hb : s.lz.buf = [])
    (hs : s.state = .noStream ∨ s.state = .closedStream) (h0 : s.obLen = 0) (hp : p ≠ [])
    (h : writeLoopB L fuel p s = .ok (true, t)) :
    ∃ k, Paid s t k (headerBytes s.o (fillHeader (accept p s))).length ∧
      k * room s + blocksPer s * s.inTotal ≤ blocksPer s * t.inTotal := by
  cases fuel with
  | zero => omega
  | succ fuel =>
    have hcap : s.lz.buf.length ≤ s.lz.cap := by rw [hb]; simp
    have hcp := cap_pos s.lz
    have hlc : s.lz.buf.length < s.lz.cap := by rw [hb]; exact hcp
    have hpl : 0 < p.length := List.length_pos_iff.2 hp
    have hn : 0 < accepted p s := by rw [accepted_eq]; omega
    have hle := accepted_le p s
    unfold writeLoopB at h
    rw [if_neg hp] at h
    obtain ⟨v, e0, h1⟩ := chk_true_inv h
    cases e0
    obtain ⟨w, h2, h3⟩ := chk_true_inv h1
    have hu := accept_hist p s
    have hca : Conf (accept p s) := hu.conf hc rfl
    have ia : WInv (accept p s) := accept_inv hi
    have hne : (accept p s).lz.buf ≠ [] := by
      rw [accept_buf, hb, List.nil_append]
      intro h
      have := congrArg List.length h
      rw [List.length_take, List.length_nil] at this
      omega
    have hcu' := accept_cap (p := p) hcap
    have e1 : finishClosing (accept p s) = .ok (true, accept p s) := by
      unfold finishClosing
      rw [if_neg]
      show s.state ≠ _
      rcases hs with h | h <;> rw [h] <;> decide
    have h2' := h2
    unfold compressImpl at h2'
    rw [if_neg hne, chk_ok e1] at h2'
    obtain ⟨x, h4, h5⟩ := chk_true_inv h2'
    rw [if_pos (show (accept p s).state = .noStream ∨ (accept p s).state = .closedStream from hs)] at h4
    obtain ⟨es, fl, ho, ix⟩ := (open_acts ia h0 hca hs).of_ok h4
    have hxb : x.lz.buf = (accept p s).lz.buf := by rw [ho.lz]
    have hxc : x.lz.cap = (accept p s).lz.cap := by rw [ho.lz]; rfl
    have hrx : room x = room (accept p s) := room_hist fl.hist
    have hx1 : compressImpl L (accepted p s == 0 || decide (accepted p s < p.length)) x = .ok (true, w) := by
      unfold compressImpl
      rw [if_neg (by rw [hxb]; exact hne), chk_ok (finishClosing_other (by rw [ho.state]; decide))]
      refine (chk_ok (y := _) ?_).trans h5
      exact if_neg (by rw [ho.state]; decide)
    have hcx := ho.conf hca
    have hsp := spent_of hL ix hcx (by rw [hxb, hxc]; exact hcu') ho.state
      (by rw [hrx, hxb]; exact accept_full hlc hp) hx1
    obtain ⟨es', fl', ⟨c, g, hb'⟩, iw⟩ := (compressImpl_open hL (blockOK_anyRel L _ _) ix hcx (by rw [hxb, hxc]; exact hcu') ho.state _).of_ok hx1
    have hrw : room w = room x := room_hist fl'.hist
    have hwcap : w.lz.buf.length < room w := by
      rcases hb' with hb' | ⟨_, hb', rfl⟩
      · rw [hb']; exact room_pos _
      · exact hb'
    have := writeLoop_spent hL fuel (p.drop (accepted p s)) (by rw [List.length_drop]; omega) iw (fl'.hist.conf hcx g.header) hwcap
        (g.state.trans ho.state) h3
    obtain ⟨k, pk, hk⟩ := hsp.trans this hrw (blocksPer_congr fl'.o fl'.lzopts)
    have hxi : x.inTotal = s.inTotal := by
      have h1 := fl.tin
      rw [hxb] at h1
      have : x.inTotal = (accept p s).inTotal := by omega
      exact this
    have hro : room x = room s := hrx.trans (room_hist hu)
    have hqo : blocksPer x = blocksPer s := blocksPer_congr ho.o fl.lzopts
    rw [hro, hqo, hxi] at hk
    refine ⟨k, ?_, hk⟩
    have hvx : (view x).length = (view s).length + 8 * (headerBytes s.o (fillHeader (accept p s))).length := by
      rw [view_zero ho.ob, ho.push, view_zero h0]
      show (bytesBits (pushed s ++ headerBytes s.o _)).length = _
      rw [bytesBits_append, List.length_append, bytesBits_length, bytesBits_length]
    unfold Paid at pk ⊢
    omega

/-! ### Flush -/

theorem Paid.mono {s t : WState} {k l z : Nat} (h : Paid s t k z) (hk : k ≤ l) : Paid s t l z := by
  unfold Paid at *; omega

theorem Same.paid {s t : WState} (h : Same s t) : Paid s t 0 0 := by
  unfold Paid
  rw [h.view, show t.inTotal = s.inTotal by rw [h.eq]]
  omega

theorem compressAll_paid {L : HuffLib} (hL : L.Lawful) {s t : WState} (hi : WInv s) (hc : Conf s)
    (hcap : s.lz.buf.length < room s) (hs : s.state = .openStream) (h : compressImpl L true s = .ok (true, t)) :
    Paid s t 1 0 ∧ WInv t ∧ Conf t ∧ t.state = .openStream ∧ t.lz.buf = [] ∧ t.o = s.o ∧ ∀ d, Sums s d → Sums t d := by
  have hle := Nat.le_trans (Nat.le_of_lt hcap) (room_le s)
  obtain ⟨es, fl, ⟨k, hb⟩, it⟩ := (compressAll_open hL (blockOK_anyRel L _ _) hi hc hcap hs).of_ok h
  refine ⟨?_, it, fl.conf hc k.header, k.state, hb, fl.o, fun d hd => by simpa using k.sums d hd⟩
  rcases compress_paid hL hi hc hle hs h with rfl | ⟨n, p, _, h1, _⟩
  · exact (Paid.refl _).mono (by omega)
  · exact p.mono (h1 hcap)

/-- a block which carries no data -/
theorem guts_paid {s t : WState} (hi : WInv s) {ft : FlushType} (hf : ft ≠ .finishFlush) (h : flushGuts ft s = .ok (true, t)) :
    Paid s t 1 0 := by
  have hst : ∀ {u : WState}, writeStoredBlock wBW [] false s = .ok (true, u) → Paid s u 1 0 := by
    intro u e
    obtain ⟨c, _, _, v⟩ := stored_paid hi (data := []) (by simp) e
    unfold Paid
    rw [c.inTotal]
    simp only [List.length_nil] at v
    omega
  cases ft with
  | finishFlush => exact absurd rfl hf
  | blockFlush => cases h; exact (Paid.refl _).mono (by omega)
  | partialFlush =>
    obtain ⟨c, v, _⟩ := (writeStaticBlock_does hi (is := []) ToksAre.stop false).of_ok h
    unfold Paid
    rw [c.inTotal, v, List.length_append]
    have : ([false, true, false] ++ dataBits fixedLL fixedD []).length ≤ 42 := by decide +kernel
    omega
  | syncFlush => exact hst h
  | fullFlush =>
    obtain ⟨u, h1, h2⟩ := chk_true_inv h
    cases h2
    have := hst h1
    exact this

theorem flush_paid {L : HuffLib} (hL : L.Lawful) {s t : WState} (hi : WInv s) (hc : Conf s)
    (hcap : s.lz.buf.length < room s) (hs : s.state = .openStream) {ft : FlushType} (hf : ft ≠ .finishFlush)
    (h : flushImpl L ft s = .ok (true, t)) : Paid s t 2 0 := by
  rw [flushImpl_eq] at h
  obtain ⟨u, h1, h⟩ := chk_true_inv h
  obtain ⟨p1, iu, _, su, _⟩ := compressAll_paid hL hi hc hcap hs h1
  rw [chk_ok (openIf_open ft su)] at h
  obtain ⟨v, h2, h⟩ := chk_true_inv h
  unfold gutsIf at h2
  rw [if_pos su] at h2
  obtain ⟨es, fl, ⟨w, g, e, _⟩, iv⟩ := (flushGuts_acts (E := AnyRel) (L := L) (blockOK_anyRel L _ _) iu ft hf (fun _ => trivial)).of_ok h2
  have sv : v.state = .openStream := by rw [e]; exact g.state.trans su
  rw [chk_ok (finishClosing_other (by rw [sv]; decide))] at h
  obtain ⟨_, _, sm, _⟩ := (sinkBoth_call iv .opened).of_ok h
  exact (p1.trans (guts_paid iu hf h2)).trans sm.paid

theorem padBits_byte {n : Nat} (h : n % 8 = 0) : padBits n = [] := by
  have : padLen n = 0 := by unfold padLen; omega
  unfold padBits
  rw [this]; rfl

theorem finish_paid {s t : WState} (hi : WInv s) (hc : Conf s) (hs : s.state = .openStream) (hb : s.lz.buf = [])
    {d : List UInt8} (hsum : Sums s d) (h : Go.chk (gutsIf .finishFlush) (Go.chk finishClosing (Go.chk sinkFlush sinkSync)) s = .ok (true, t)) :
    Paid s t 1 (footerBytes s.o d).length := by
  obtain ⟨u, h1, h⟩ := chk_true_inv h
  unfold gutsIf at h1
  rw [if_pos hs] at h1
  obtain ⟨v, h2, h3⟩ := chk_true_inv h1
  cases h3
  obtain ⟨c, iv, sv, vl⟩ := stored_paid hi (data := []) (by simp) h2
  have hz := stored_zero h2 (by simp)
  obtain ⟨w, h4, h⟩ := chk_true_inv h
  let t' : WState := { v with lz := { v.lz with hist := [] }, state := .closingStream }
  have it' : WInv t' := ⟨iv.hW, iv.lt, iv.blk, iv.out⟩
  obtain ⟨c0, hd0, ha, hcr, hin⟩ := hsum
  rw [hb, List.append_nil] at hd0
  subst hd0
  have hfoot := writeFooter_acts (s := t') it' (by show v.o.format ≠ _; rw [c.o]; exact hc.fmt) (d := d)
    (by show AdlerIs v.adler d; rw [c.adler]; exact ha) (by show CrcIs v.crcIn d; rw [c.crcIn]; exact hcr)
    (by show v.inStream = _; rw [c.inStream]; exact hin) rfl
  have hfc : finishClosing t' = Go.chk writeFooter (setState .closedStream) t' := by
    unfold finishClosing; rw [if_pos rfl]
  have h4' : finishClosing t' = .ok (true, w) := h4
  rw [hfc] at h4'
  obtain ⟨es, fl, ⟨_, a2, ⟨q, a3, a4⟩, a5, _⟩, iw⟩ := hfoot.of_ok h4'
  obtain ⟨_, _, sm, _⟩ := (sinkBoth_call iw .idle).of_ok h
  have hvt : view t' = view v := rfl
  have hv8 : (view v).length % 8 = 0 := by rw [view_zero hz]; simp
  have hq : 8 * q.length = (view v).length := by
    have := congrArg List.length a4
    rw [hvt, padBits_byte hv8, List.append_nil, bytesBits_length] at this
    exact this
  have hwv : (view w).length = (view v).length + 8 * (footerBytes s.o d).length := by
    rw [view_zero a2, a3, bytesBits_append, List.length_append, bytesBits_length, bytesBits_length, hq]
    show _ + 8 * (footerBytes v.o d).length = _
    rw [c.o]
  have hwi : w.inTotal = s.inTotal := by
    have h1 := fl.tin
    have h2 : t'.inTotal = s.inTotal := c.inTotal
    rw [a5] at h1
    omega
  refine Paid.trans (k := 1) (l := 0) (y := 0) ?_ sm.paid
  unfold Paid
  simp only [List.length_nil] at vl
  omega

theorem finishOpen_paid {L : HuffLib} (hL : L.Lawful) {s t : WState} (hi : WInv s) (hc : Conf s)
    (hcap : s.lz.buf.length < room s) (hs : s.state = .openStream) {d : List UInt8} (hsum : Sums s d)
    (h : flushImpl L .finishFlush s = .ok (true, t)) : Paid s t 2 (footerBytes s.o d).length := by
  rw [flushImpl_eq] at h
  obtain ⟨u, h1, h⟩ := chk_true_inv h
  obtain ⟨p1, iu, cu, su, bu, ou, hu⟩ := compressAll_paid hL hi hc hcap hs h1
  rw [chk_ok (openIf_open _ su)] at h
  have := finish_paid iu cu su bu (hu d hsum) h
  rw [ou] at this
  have := p1.trans this
  rwa [Nat.zero_add] at this

theorem finishIdle_paid {L : HuffLib} {s t : WState} (hi : WInv s) (hc : Conf s) (hb : s.lz.buf = [])
    (hs : s.state = .noStream) (h0 : s.obLen = 0) (h : flushImpl L .finishFlush s = .ok (true, t)) :
    Paid s t 1 ((headerBytes s.o (fillHeader s)).length + (footerBytes s.o []).length) := by
  rw [flushImpl_eq, chk_ok (compress_empty hb true)] at h
  obtain ⟨x, h4, h⟩ := chk_true_inv h
  unfold openIf at h4
  rw [if_pos ⟨rfl, hs⟩] at h4
  obtain ⟨es, fl, ho, ix⟩ := (open_acts hi h0 hc (Or.inl hs)).of_ok h4
  have hxb : x.lz.buf = [] := by rw [ho.lz]; exact hb
  have hsum' : Sums x [] := by have := ho.sums; rw [hb] at this; exact this
  have p := finish_paid ix (ho.conf hc) ho.state hxb hsum' h
  rw [ho.o] at p
  have hxi : x.inTotal = s.inTotal := by
    have h1 := fl.tin
    rw [hxb, hb] at h1
    simpa using h1
  have hvx : (view x).length = (view s).length + 8 * (headerBytes s.o (fillHeader s)).length := by
    rw [view_zero ho.ob, ho.push, view_zero h0, bytesBits_append, List.length_append, bytesBits_length, bytesBits_length]
  unfold Paid at p ⊢
  omega

theorem flushIdle_paid {L : HuffLib} {s t : WState} (hi : WInv s) (hb : s.lz.buf = [])
    (hs : s.state = .noStream ∨ s.state = .closedStream) {ft : FlushType} (hf : ft = .finishFlush → s.state = .closedStream)
    (h : flushImpl L ft s = .ok (true, t)) : Paid s t 0 0 := by
  obtain ⟨_, _, sm, _⟩ := (flush_idle hi hb hs ft hf).of_ok h
  exact sm.paid

/-! ### histories -/

/-- bytes of headers and footers -/
def frames (o : Options) (a : Abs) : Nat :=
  (a.done.map fun x => (headerBytes o x.1).length + (footerBytes o x.2).length).sum +
    (match a.cur with | none => 0 | some x => (headerBytes o x.1).length)

theorem flushFull_paid {L : HuffLib} (hL : L.Lawful) {E : BlockRel} {base : List UInt8} {s t : WState} {a : Abs}
    (hl : Live E base n0 s a) (ft : FlushType) (h : flushImpl L ft s = .ok (true, t)) :
    ∃ z, frames s.o (a.step (cfgOf s) (.flush ft)) = frames s.o a + z ∧ Paid s t 2 z := by
  obtain ⟨bytes, hs, hb⟩ := hl.body
  cases hc : a.cur with
  | some x =>
    obtain ⟨hh, d⟩ := x
    rw [hc] at hb
    obtain ⟨b1, b2, b3, b4⟩ := hb
    by_cases hf : ft = .finishFlush
    · subst hf
      refine ⟨_, ?_, finishOpen_paid hL hl.inv hl.conf hl.cap b2 b4 h⟩
      have hst : a.step (cfgOf s) (.flush .finishFlush) = { a with done := a.done ++ [(hh, d)], cur := none } := by
        simp only [Abs.step, Abs.finish, hc]
      rw [hst]
      simp only [frames, hc, List.map_append, List.sum_append, List.map_cons, List.map_nil, List.sum_cons, List.sum_nil]
      omega
    · have hst : a.step (cfgOf s) (.flush ft) = a := by
        cases ft <;> first | rfl | exact absurd rfl hf
      exact ⟨0, by rw [hst]; rfl, flush_paid hL hl.inv hl.conf hl.cap b2 hf h⟩
  | none =>
    rw [hc] at hb
    obtain ⟨b1, b2, b3, b4⟩ := hb
    by_cases hf : ft = .finishFlush ∧ s.state = .noStream
    · obtain ⟨rfl, hn⟩ := hf
      have hd : a.done = [] := by
        rcases b4 with b4 | b4
        · exact b4.2
        · rw [b4.1] at hn; cases hn
      refine ⟨_, ?_, (finishIdle_paid hl.inv hl.conf b3 hn b2 h).mono (by omega)⟩
      have hst : a.step (cfgOf s) (.flush .finishFlush) =
          { hdr := newHeader s.o.wbits s.o.clevel a.hdr [], done := [(newHeader s.o.wbits s.o.clevel a.hdr [], [])], cur := none } := by
        simp only [Abs.step, Abs.finish, hc, hd, if_true]; rfl
      have hfh : fillHeader s = newHeader s.o.wbits s.o.clevel a.hdr [] := by
        rw [fillHeader_eq, b3, ← hl.hdr]; rfl
      rw [hst, hfh]
      simp only [frames, hc, hd, List.map_cons, List.map_nil, List.sum_cons, List.sum_nil]
      omega
    · have hs' : s.state = .noStream ∨ s.state = .closedStream := by
        rcases b4 with b4 | b4
        · exact Or.inl b4.1
        · exact Or.inr b4.1
      have hcl : ft = .finishFlush → s.state = .closedStream := by
        intro h1
        rcases hs' with h2 | h2
        · exact absurd ⟨h1, h2⟩ hf
        · exact h2
      have hst : a.step (cfgOf s) (.flush ft) = a := by
        by_cases h1 : ft = .finishFlush
        · subst h1
          have hd : a.done ≠ [] := by
            rcases b4 with b4 | b4
            · exact absurd ⟨rfl, b4.1⟩ hf
            · exact b4.2
          simp only [Abs.step, Abs.finish, hc, if_neg hd]
        · cases ft <;> first | rfl | exact absurd rfl h1
      exact ⟨0, by rw [hst]; rfl, (flushIdle_paid hl.inv b3 hs' hcl h).mono (by omega)⟩

/-- the cost of a call of a live Writer -/
theorem stepOp_paid {L : HuffLib} (hL : L.Lawful) {E : BlockRel} {pf : Prop} {base : List UInt8} {s t : WState} {a : Abs}
    (hl : Live E base n0 s a) (hE : BlockOK L s.o s.lz.maxDist pf E) {op : WOp} (hp : UsesPartial op → pf) {r : WRes}
    (h : stepOp L op s = .ok (r, t)) (hr : r.err = none) :
    ∃ k z, frames s.o (a.step (cfgOf s) op) = frames s.o a + z ∧ Paid s t k z ∧
      k * room s + blocksPer s * s.inTotal ≤ blocksPer s * t.inTotal + 2 * flushes [op] * room s := by
  have hst := live_state hl
  have n1 : s.state ≠ .closed := by rcases hst with h | h | h <;> rw [h] <;> simp
  have n2 : s.state ≠ .error := by rcases hst with h | h | h <;> rw [h] <;> simp
  have hmono : s.inTotal ≤ t.inTotal := by
    rcases stepOp_live hL hl hE op hp with ⟨e, _⟩ | ⟨r', t', es, k, e, hh, _⟩
    · rw [h] at e; cases e
    · rw [h] at e; cases e; exact hh.monoIn.le
  have hmul := Nat.mul_le_mul_left (blocksPer s) hmono
  have herr : s.err = none := hl.err
  cases op with
  | write p =>
    have hw := writeLoop_eq L (2 * p.length + 2) p s
    unfold stepOp wWrite at h
    simp only [if_neg n1, if_neg n2] at h
    rcases hx : writeLoopB L (2 * p.length + 2) p s with e | ⟨b, u⟩
    · rw [hx] at hw; rw [hw] at h; cases h
    · rw [hx] at hw
      rw [hw] at h
      cases b with
      | false =>
        cases h
        rcases write_live hL hl hE p with ⟨e, _⟩ | ⟨b, t', es, k, e, _, _, _, bad, _⟩
        · rw [hx] at e; cases e
        · rw [hx] at e; cases e
          obtain ⟨⟨_, pre, n, _, f3⟩, _⟩ := bad rfl
          rw [show (WRes.write 0 t.err).err = t.err from rfl, f3] at hr
          cases hr
      | true =>
        cases h
        have hfl : flushes [.write p] = 0 := rfl
        rw [hfl]
        obtain ⟨bytes, hs, hb⟩ := hl.body
        by_cases hpe : p = []
        · subst hpe
          unfold writeLoopB at hx
          rw [if_pos rfl] at hx
          cases hx
          exact ⟨0, 0, by simp only [Abs.step, if_true]; rfl, Paid.refl _, by omega⟩
        cases hc : a.cur with
        | some x =>
          obtain ⟨hh, d⟩ := x
          rw [hc] at hb
          obtain ⟨b1, b2, b3, b4⟩ := hb
          obtain ⟨k, pk, hk⟩ := writeLoop_spent hL _ p (by omega) hl.inv hl.conf hl.cap b2 hx
          refine ⟨k, 0, ?_, pk, by omega⟩
          have hst : a.step (cfgOf s) (.write p) = { a with cur := some (hh, d ++ p) } := by
            simp only [Abs.step, if_neg hpe, hc]
          rw [hst]
          simp only [frames, hc]
          rfl
        | none =>
          rw [hc] at hb
          obtain ⟨b1, b2, b3, b4⟩ := hb
          have hs' : s.state = .noStream ∨ s.state = .closedStream := by
            rcases b4 with b4 | b4
            · exact Or.inl b4.1
            · exact Or.inr b4.1
          obtain ⟨k, pk, hk⟩ := writeLoop_opens hL _ (by omega) hl.inv hl.conf b3 hs' b2 hpe hx
          refine ⟨k, _, ?_, pk, by omega⟩
          have hst : a.step (cfgOf s) (.write p) = { a with hdr := newHeader s.o.wbits s.o.clevel a.hdr (p.take (cfgOf s).look), cur := some (newHeader s.o.wbits s.o.clevel a.hdr (p.take (cfgOf s).look), p) } := by
            simp only [Abs.step, if_neg hpe, hc]; rfl
          have hfh : fillHeader (accept p s) = newHeader s.o.wbits s.o.clevel a.hdr (p.take (cfgOf s).look) := by
            rw [fillHeader_eq, accept_look b3]; rw [← hl.hdr]; rfl
          rw [hst, hfh]
          simp only [frames, hc]
          rfl
  | flush ft =>
    unfold stepOp wFlush at h
    simp only [if_neg n1, if_neg n2] at h
    rcases hx : flushImpl L ft s with e | ⟨b, u⟩
    · rw [hx] at h; cases h
    · rw [hx] at h
      have hfl : flushes [.flush ft] = 1 := rfl
      cases b with
      | false =>
        rcases flush_live hL hl hE ft (fun h => hp (by rw [h]; rfl)) with ⟨e, _⟩ | ⟨b, t', es, k, e, _, _, _, bad, _⟩
        · rw [hx] at e; cases e
        · rw [hx] at e; cases e
          obtain ⟨⟨_, pre, n, _, f3⟩, _⟩ := bad rfl
          cases h
          rw [show (WRes.flush t.err).err = t.err from rfl, f3] at hr
          cases hr
      | true =>
        cases h
        obtain ⟨z, hz, pk⟩ := flushFull_paid hL hl ft hx
        exact ⟨2, z, hz, pk, by rw [hfl]; omega⟩
  | setHeader hd =>
    unfold stepOp wSetHeader at h
    have hfl : flushes [.setHeader hd] = 0 := rfl
    have key : Paid s t 0 0 := by
      by_cases hh : headerOK hd = true
      · simp only [hh, if_true] at h; cases h
        unfold Paid view pushed; dsimp only; omega
      · simp only [if_neg hh] at h; cases h; exact Paid.refl _
    refine ⟨0, 0, ?_, key, by omega⟩
    simp only [Abs.step]
    split <;> rfl
  | close =>
    unfold stepOp wClose at h
    simp only [if_neg n1, if_neg n2] at h
    rcases hx : flushImpl L .finishFlush s with e | ⟨b, u⟩
    · rw [hx] at h; cases h
    · rw [hx] at h
      have hfl : flushes [.close] = 1 := rfl
      cases b with
      | false =>
        rcases flush_live hL hl hE .finishFlush (fun h => by cases h) with ⟨e, _⟩ | ⟨b, t', es, k, e, _, _, _, bad, _⟩
        · rw [hx] at e; cases e
        · rw [hx] at e; cases e
          obtain ⟨⟨_, pre, n, _, f3⟩, _⟩ := bad rfl
          cases h
          rw [show (WRes.close u.err).err = u.err from rfl, f3] at hr
          cases hr
      | true =>
        cases h
        obtain ⟨z, hz, pk⟩ := flushFull_paid hL hl .finishFlush hx
        exact ⟨2, z, hz, pk, by rw [hfl]; omega⟩

theorem flushes_cons (op : WOp) (ops : List WOp) : flushes (op :: ops) = flushes [op] + flushes ops := by
  unfold flushes
  rw [← List.length_append, ← List.filter_append]
  rfl

/-- the cost of a history -/
theorem run_paid {L : HuffLib} (hL : L.Lawful) {E : BlockRel} {pf : Prop} {base : List UInt8} :
    ∀ (ops : List WOp) {s t : WState} {a : Abs} {rs : List WRes}, Live E base n0 s a → BlockOK L s.o s.lz.maxDist pf E →
    (∀ op ∈ ops, UsesPartial op → pf) → WOp.close ∉ ops → runOps L ops s = .ok (rs, t) → (∀ r ∈ rs, r.err = none) →
    ∃ k z, frames s.o (ops.foldl (Abs.step (cfgOf s)) a) = frames s.o a + z ∧ Paid s t k z ∧
      k * room s + blocksPer s * s.inTotal ≤ blocksPer s * t.inTotal + 2 * flushes ops * room s := by
  intro ops
  induction ops with
  | nil =>
    intro s t a rs hl _ _ _ h _
    cases h
    exact ⟨0, 0, rfl, Paid.refl _, by omega⟩
  | cons op ops ih =>
    intro s t a rs hl hE hp hc h hr
    obtain ⟨r, u, rs', h1, h2, rfl⟩ := run_cons_inv h
    obtain ⟨k, z, hz, pk, hk⟩ := stepOp_paid hL hl hE (hp op (by simp)) h1 (hr r (by simp))
    rcases stepOp_live hL hl hE op (hp op (by simp)) with ⟨e, hf⟩ | ⟨r', u', es, _, e, hh, ok, _⟩
    · rw [e] at h1; cases h1
    rw [e] at h1
    cases h1
    obtain ⟨_, _, _, h3⟩ := ok (hr r (by simp))
    have hl' := h3 (fun h => hc (by simp [h]))
    obtain ⟨k', z', hz', pk', hk'⟩ := ih hl' (hE.hist hh) (fun op h => hp op (by simp [h])) (fun h => hc (by simp [h])) h2
      (fun x hx => hr x (by simp [hx]))
    rw [cfg_hist hh, hh.o] at hz'
    rw [room_hist hh, blocksPer_congr hh.o hh.lzopts] at hk'
    refine ⟨k + k', z + z', ?_, pk.trans pk', ?_⟩
    · rw [List.foldl_cons, hz', hz]; omega
    · rw [flushes_cons, Nat.mul_add, Nat.add_mul, Nat.add_mul]
      omega

end Flate.Proof
