/-
C10 is false: whatever the Huffman library, with a memory level of 8 or 9 (9 is the default) the Writer panics
on incompressible data.
-/
import Verif.Props.WriterShape

namespace Flate.Props
open Flate.Spec Flate.Model Flate.Proof

/-- all 256 byte values, 256 times over -/
def noise : List UInt8 := (List.replicate 256 ((List.range 256).map UInt8.ofNat)).flatten

theorem noise_length : noise.length = 65536 := by
  have h1 : ∀ n : Nat, ((List.replicate n ((List.range 256).map UInt8.ofNat)).flatten).length = n * 256 := by
    intro n
    induction n with
    | zero => simp
    | succ n ih => rw [List.replicate_succ, List.flatten_cons, List.length_append, ih, List.length_map, List.length_range]; omega
  exact h1 256

/-- the code lengths of the 256 literals, when symbol 256 has a code as well, add up to more than 2048 -/
theorem literal_cost {ll : List Nat} (hc : IsCode ll) (hu : Used ll 256) (hl : ∀ b < 256, Used ll b) :
    2049 ≤ ((List.range 256).map (lenOf ll)).sum := by
  have hlen : 257 ≤ ll.length := used_lt hu
  have hsplit : ll = ll.take 256 ++ (ll.drop 256) := (List.take_append_drop _ _).symm
  have hd : ll.drop 256 = lenOf ll 256 :: ll.drop 257 := by
    rw [List.drop_eq_getElem_cons (by omega)]
    simp [lenOf, List.getD_eq_getElem?_getD, List.getElem?_eq_getElem (show 256 < ll.length by omega)]
  have ht : ll.take 256 = (List.range 256).map (lenOf ll) := by
    apply List.ext_getElem
    · simp; omega
    · intro i h1 h2
      simp at h1
      simp [lenOf, List.getD_eq_getElem?_getD, List.getElem?_eq_getElem (show i < ll.length by omega)]
  have hk : kraft ll = kraft (ll.take 256) + kraft (ll.drop 256) := by
    conv => lhs; rw [hsplit]
    unfold kraft
    rw [List.map_append, List.sum_append]
  have h1 : 1 ≤ kraft (ll.drop 256) := by
    rw [hd]
    unfold kraft
    rw [List.map_cons, List.sum_cons, if_neg (by unfold Used at hu; omega)]
    have : 1 ≤ 2 ^ (15 - lenOf ll 256) := Nat.one_le_two_pow
    omega
  have key : ∀ l : List Nat, (∀ x ∈ l, 1 ≤ x ∧ x ≤ 15) → 1152 * l.length ≤ kraft l + 128 * l.sum := by
    intro l
    induction l with
    | nil => intro _; simp
    | cons x l ih =>
      intro h
      have := ih (fun y hy => h y (by simp [hy]))
      have hx := h x (by simp)
      have hp : ∀ x : Fin 16, 1 ≤ x.val → 1152 ≤ 2 ^ (15 - x.val) + 128 * x.val := by decide
      have hp := hp ⟨x, by omega⟩ hx.1
      dsimp only at hp
      unfold kraft at this ⊢
      rw [List.map_cons, List.sum_cons, List.sum_cons, List.length_cons, if_neg (by omega)]
      omega
  have := key (ll.take 256) (by
    intro x hx
    rw [ht] at hx
    obtain ⟨b, hb, rfl⟩ := List.mem_map.1 hx
    exact ⟨hl b (List.mem_range.1 hb), lenOf_le hc.1 b⟩)
  have h2 := hc.2
  have h3 : (ll.take 256).length = 256 := by rw [List.length_take]; omega
  rw [← ht]
  omega

theorem lits_expand {win : Nat} : ∀ {is : List Item} {h h' : List UInt8}, (∀ i ∈ is, ∃ b, i = .lit b) → expand win h is = some h' →
    ∃ d, is = d.map Item.lit ∧ h' = h ++ d := by
  intro is
  induction is with
  | nil => intro h h' _ e; cases e; exact ⟨[], rfl, by simp⟩
  | cons i is ih =>
    intro h h' hl e
    obtain ⟨b, rfl⟩ := hl i (by simp)
    obtain ⟨d, h1, h2⟩ := ih (fun j hj => hl j (by simp [hj])) e
    exact ⟨b :: d, by rw [h1]; rfl, by rw [h2]; simp⟩

theorem cost_flat {ll d : List Nat} : ∀ (data : List UInt8),
    ((data.map Item.lit).flatMap (Item.bits ll d)).length = (data.map fun b => lenOf ll b.toNat).sum := by
  intro data
  induction data with
  | nil => rfl
  | cons b data ih => simp only [List.map_cons, List.flatMap_cons, List.length_append, List.sum_cons, ih]; rw [Item.bits, codeBits_length]

theorem noise_cost (f : Nat → Nat) : (noise.map fun b => f b.toNat).sum = 256 * ((List.range 256).map f).sum := by
  have h1 : ∀ n : Nat, (((List.replicate n ((List.range 256).map UInt8.ofNat)).flatten).map fun b => f b.toNat).sum =
      n * ((List.range 256).map f).sum := by
    intro n
    induction n with
    | zero => simp
    | succ n ih =>
      rw [List.replicate_succ, List.flatten_cons, List.map_append, List.sum_append, ih, List.map_map]
      have : (List.range 256).map ((fun b : UInt8 => f b.toNat) ∘ UInt8.ofNat) = (List.range 256).map f := by
        apply List.map_congr_left
        intro b hb
        have hb := List.mem_range.1 hb
        simp only [Function.comp]
        congr 1
        rw [UInt8.toNat_ofNat']
        exact Nat.mod_eq_of_lt hb
      rw [this, Nat.succ_mul, Nat.add_comm]
  exact h1 256

theorem noise_mem : ∀ b < 256, UInt8.ofNat b ∈ noise := by
  intro b hb
  unfold noise
  rw [List.mem_flatten]
  exact ⟨_, List.mem_replicate.2 ⟨by decide, rfl⟩, List.mem_map.2 ⟨b, List.mem_range.2 hb, rfl⟩⟩

/-- compressing 64 KiB of evenly distributed bytes in an open stream -/
theorem slow_panics {noise : List UInt8} (noise_length : noise.length = 65536)
    (noise_mem : ∀ b < 256, UInt8.ofNat b ∈ noise)
    (noise_cost : ∀ f : Nat → Nat, (noise.map fun b => f b.toNat).sum = 256 * ((List.range 256).map f).sum)
    {L : HuffLib} (hL : L.Lawful) {u : WState} (iu : WInv u) (hz : LZOK u.lz) (hub : u.lz.buf = noise)
    (hlit : u.lz.opts.maxLen = 0 ∨ ∀ n, u.lz.propose n = none) (all : Bool) : compressSlow L all u = .error tooLong := by
  obtain ⟨ts, is, v, e3, he, hT, hx, hl⟩ := tokenLoop_spec (u.lz.buf.length + 1) u [] [] (by omega) hz
  have hlits : ∀ i ∈ is, ∃ b, i = .lit b := hl hlit
  obtain ⟨d, hd1, hd2⟩ := lits_expand hlits (hx u.lz.hist (List.suffix_refl _))
  have hd3 : d = noise := by rw [hub] at hd2; exact (List.append_cancel_left hd2).symm
  have iv := eat_inv he iu
  have hW : v.W = u.W := by rw [he.eq]
  obtain ⟨hd, hv, hiv, hu, hcase⟩ := compressTokens_cases hL (toks_stop hT) (ge32 iu.hW)
  have hcode : IsCode hd.ll := hL.accepts_code hv.2.2.2.2.2.2.2.2.2.2.2.2.2.1
  have hb256 : ∀ b < 256, Used hd.ll b := by
    intro b hb
    have hin := noise_mem b hb
    have := hiv (.lit (UInt8.ofNat b)) (by rw [hd1, hd3]; exact List.mem_map.2 ⟨_, hin, rfl⟩)
    have e : (UInt8.ofNat b).toNat = b := by rw [UInt8.toNat_ofNat']; exact Nat.mod_eq_of_lt hb
    rw [Item.Valid, e] at this
    exact this
  have hcost := literal_cost hcode hu hb256
  have hbig : u.lz.buf.length * 8 + 35 < (cmdsBits 0 (dynCmds hd is false)).length := by
    rw [hub, noise_length, dyn_bits hv]
    unfold dataBits
    rw [hd1, hd3]
    simp only [List.length_append, cost_flat, noise_cost]
    omega
  unfold compressSlow
  rw [if_neg (by rw [hub, noise_length]; omega), Go.bind_ok e3]
  dsimp only
  rw [List.nil_append, List.nil_append, hcase, if_pos hbig]
  exact writeStoredBlock_panic wBW (by rw [hub, noise_length]; decide) false v

theorem noise_cap {c : Setup} (hm : 8 ≤ c.o.mlevel) : 65536 ≤ c.start.lz.cap := by
  have : c.start.lz.opts.bufBits = c.o.mlevel + 8 := by
    show (hybridOptions c.o).bufBits = _
    unfold hybridOptions; split <;> rfl
  unfold LZ.cap
  rw [this]
  calc 65536 = 2 ^ 16 := rfl
    _ ≤ _ := Nat.pow_le_pow_right (by omega) (by omega)

/-- Not even if it is written in two parts, the first one of which is so short that it is not compressed at once. -/
theorem panics {noise : List UInt8} (noise_length : noise.length = 65536)
    (noise_mem : ∀ b < 256, UInt8.ofNat b ∈ noise)
    (noise_cost : ∀ f : Nat → Nat, (noise.map fun b => f b.toNat).sum = 256 * ((List.range 256).map f).sum)
    {c : Setup} (h : c.OK) (hm : 8 ≤ c.o.mlevel) (hcl : c.o.clevel ≠ 0)
    (hlit : c.o.strategy = .huffmanOnly ∨ ∀ n, c.propose n = none) (hs : ∀ n, c.sink.wfail n = none) :
    runOps c.L [.write noise] c.start = .error (.assert "uncompressed block length exceeds uint16_t") ∧
    ∀ p q, noise = p ++ q → p ≠ [] → p.length < 4096 →
      runOps c.L [.write p, .write q] c.start = .error (.assert "uncompressed block length exceeds uint16_t") := by
  have hf := h.fresh
  have hcap := noise_cap hm
  -- a buffer with room takes everything
  have hw : ∀ (z : LZ) (p : List UInt8), z.cap = c.start.lz.cap → z.buf.length + p.length ≤ 65536 → z.write p = (p.length, { z with buf := z.buf ++ p }) := by
    intro z p hz hp
    unfold LZ.write
    have : min p.length (z.cap - z.buf.length) = p.length := by omega
    rw [this]
    dsimp only
    rw [List.take_length]
  have hstore : ∀ u : WState, u.o = c.o → usesStore u.o = false := by
    intro u e; rw [e]; show (c.o.clevel == 0) = false
    simpa using hcl
  have hlit' : ∀ u : WState, u.lz.opts = c.start.lz.opts → u.lz.propose = c.propose → u.lz.opts.maxLen = 0 ∨ ∀ n, u.lz.propose n = none := by
    intro u e1 e2
    rcases hlit with h | h
    · left; rw [e1]
      show (hybridOptions c.o).maxLen = 0
      unfold hybridOptions; rw [h]
    · right; rw [e2]; exact h
  -- the stream is opened
  have hop : ∀ (p : List UInt8), p ≠ [] → compressImpl c.L false { c.start with lz := { c.start.lz with buf := p } } = .error tooLong ∨
      ∃ u, Opened { c.start with lz := { c.start.lz with buf := p } } u ∧ WInv u ∧
        compressImpl c.L false { c.start with lz := { c.start.lz with buf := p } } = compressSlow c.L false u := by
    intro p hne
    let s0 : WState := { c.start with lz := { c.start.lz with buf := p } }
    have hi0 : WInv s0 := ⟨hf.inv.hW, hf.inv.lt, hf.inv.blk, hf.inv.out⟩
    have hc0 : Conf s0 := hf.conf.of rfl rfl hf.conf.hdr
    have e1 : finishClosing s0 = .ok (true, s0) := rfl
    show compressImpl c.L false s0 = .error tooLong ∨ ∃ u, Opened s0 u ∧ WInv u ∧ compressImpl c.L false s0 = compressSlow c.L false u
    rcases open_acts hi0 hf.ob hc0 (Or.inl hf.state) with ⟨e, hnf⟩ | ⟨b, u, es, e, fl, ok, bad, rel⟩
    · left
      unfold compressImpl
      rw [if_neg (show s0.lz.buf ≠ [] from hne), chk_ok e1]
      refine chk_error ?_
      exact (if_pos (Or.inl rfl)).trans e
    · have hb : b = true := rel hs
      subst hb
      obtain ⟨op, iu, _⟩ := ok rfl
      refine Or.inr ⟨u, op, iu, ?_⟩
      have e2 : (fun s : WState => if s.state = .noStream ∨ s.state = .closedStream then
          Go.chk writeHeader (setState .openStream) s else .ok (true, s)) s0 = .ok (true, u) := (if_pos (Or.inl rfl)).trans e
      unfold compressImpl
      rw [if_neg (show s0.lz.buf ≠ [] from hne), chk_ok e1]
      refine (chk_ok (show _ = Except.ok (true, u) from e2)).trans ?_
      rw [hstore u op.o, if_neg (by simp)]
  have hlzok : ∀ u : WState, u.lz.opts = c.start.lz.opts → LZOK u.lz := fun u e => hf.conf.lz.congr e
  have n1 : c.start.state ≠ .closed := by show WS.noStream ≠ _; simp
  have n2 : c.start.state ≠ .error := by show WS.noStream ≠ _; simp
  -- one call
  have call : ∀ (s : WState) (p : List UInt8) (r : Except Panic (Bool × WState)), p ≠ [] → s.lz.cap = c.start.lz.cap → s.lz.buf.length + p.length ≤ 65536 →
      compressImpl c.L false { s with lz := { s.lz with buf := s.lz.buf ++ p } } = r → ∀ fuel,
      writeLoop c.L (fuel + 2) p s = (match r with
        | .error e => .error e
        | .ok (true, t) => .ok (none, t)
        | .ok (false, t) => .ok (some t.err, t)) := by
    intro s p r hp h1 h2 h3 fuel
    unfold writeLoop
    rw [if_neg hp, hw s.lz p h1 h2]
    dsimp only
    have : (p.length == 0 || decide (p.length < p.length)) = false := by
      have := List.length_pos_iff.2 hp
      simp; exact hp
    rw [this, h3]
    rcases r with e | ⟨b, t⟩
    · rfl
    · cases b with
      | false => rfl
      | true =>
        dsimp only
        rw [List.drop_length]
        unfold writeLoop
        rw [if_pos rfl]
  have hne : noise ≠ [] := by
    intro e; have := congrArg List.length e; rw [noise_length] at this; simp at this
  constructor
  · have hcomp : compressImpl c.L false { c.start with lz := { c.start.lz with buf := noise } } = .error tooLong := by
      rcases hop noise hne with e | ⟨u, op, iu, e⟩
      · exact e
      · rw [e]
        exact slow_panics noise_length noise_mem noise_cost h.lawful iu (hlzok u (by rw [op.lz])) (by rw [op.lz]) (hlit' u (by rw [op.lz]) (by rw [op.lz]; rfl)) false
    have := call c.start noise _ hne rfl (by show 0 + _ ≤ _; omega) hcomp (2 * noise.length)
    unfold runOps stepOp wWrite
    simp only [if_neg n1, if_neg n2, this]
    rfl
  · intro p q hpq hp0 hp
    have hl : p.length + q.length = 65536 := by rw [← noise_length, hpq, List.length_append]
    have hq0 : q ≠ [] := by rintro rfl; simp at hl; omega
    rcases hop p hp0 with e | ⟨u, op, iu, e⟩
    · have := call c.start p _ hp0 rfl (by show 0 + _ ≤ _; omega) e (2 * p.length)
      unfold runOps stepOp wWrite
      simp only [if_neg n1, if_neg n2, this]
      rfl
    · have hub : u.lz.buf = p := by rw [op.lz]
      have huo : u.lz.opts = c.start.lz.opts := by rw [op.lz]
      have hcu : u.lz.cap = c.start.lz.cap := cap_congr huo
      have e' : compressSlow c.L false u = .ok (true, u) := by
        unfold compressSlow
        exact if_pos ⟨by rw [hub]; exact hp, rfl, by rw [hub, hcu]; omega⟩
      have w1 := call c.start p _ hp0 rfl (by show 0 + _ ≤ _; omega) (e.trans e') (2 * p.length)
      have hcomp : compressImpl c.L false { u with lz := { u.lz with buf := u.lz.buf ++ q } } = .error tooLong := by
        let v : WState := { u with lz := { u.lz with buf := u.lz.buf ++ q } }
        show compressImpl c.L false v = _
        have hvb : v.lz.buf = noise := by show u.lz.buf ++ q = noise; rw [hub, hpq]
        have hvs : v.state = .openStream := op.state
        have e1 : finishClosing v = .ok (true, v) := finishClosing_other (by rw [hvs]; simp)
        unfold compressImpl
        rw [if_neg (by rw [hvb]; exact hne), chk_ok e1]
        refine (chk_ok (show _ = Except.ok (true, v) from if_neg (by rw [hvs]; decide))).trans ?_
        rw [hstore v op.o, if_neg (by simp)]
        exact slow_panics (u := v) noise_length noise_mem noise_cost h.lawful ⟨iu.hW, iu.lt, iu.blk, iu.out⟩ (hlzok v huo) hvb (hlit' v huo (by show u.lz.propose = _; rw [op.lz]; rfl)) false
      have w2 := call u q _ hq0 hcu (by rw [hub]; omega) hcomp (2 * q.length)
      have m1 : u.state ≠ .closed := by rw [op.state]; simp
      have m2 : u.state ≠ .error := by rw [op.state]; simp
      unfold runOps stepOp wWrite
      simp only [if_neg n1, if_neg n2, w1]
      unfold runOps stepOp wWrite
      simp only [if_neg m1, if_neg m2, w2]
      rfl

/-- **C10 is false.** For every lawful library, platform and underlying writer which accepts everything, and all valid options with
memory level 8 or 9 and a compression level other than 0: if the match finder finds no matches (as with HuffmanOnlyStrategy), writing
64 KiB of evenly distributed bytes to a new Writer panics. -/
theorem C10_fails {c : Setup} (h : c.OK) (hm : 8 ≤ c.o.mlevel) (hcl : c.o.clevel ≠ 0)
    (hlit : c.o.strategy = .huffmanOnly ∨ ∀ n, c.propose n = none) (hs : ∀ n, c.sink.wfail n = none) :
    runOps c.L [.write noise] c.start = .error (.assert "uncompressed block length exceeds uint16_t") :=
  (panics noise_length noise_mem noise_cost h hm hcl hlit hs).1

/-- The bound of `C10_writes_partial` cannot be improved: the second of two `Write` calls is one byte longer. -/
theorem C10_sharp {c : Setup} (h : c.OK) (hm : 8 ≤ c.o.mlevel) (hcl : c.o.clevel ≠ 0)
    (hlit : c.o.strategy = .huffmanOnly ∨ ∀ n, c.propose n = none) (hs : ∀ n, c.sink.wfail n = none) :
    (noise.drop 4095).length = 61441 ∧
    runOps c.L [.write (noise.take 4095), .write (noise.drop 4095)] c.start = .error (.assert "uncompressed block length exceeds uint16_t") := by
  refine ⟨by rw [List.length_drop, noise_length], (panics noise_length noise_mem noise_cost h hm hcl hlit hs).2 _ _ (List.take_append_drop _ _).symm ?_ ?_⟩
  · intro e
    have := congrArg List.length e
    rw [List.length_take, noise_length] at this
    simp at this
  · rw [List.length_take, noise_length]; decide

/-- in particular with no options at all -/
example : ∀ L W, L.Lawful → (W = 32 ∨ W = 64) →
    runOps L [.write noise] (newWriter W (fun _ => none) {} []) = .error (.assert "uncompressed block length exceeds uint16_t") :=
  fun L W hL hW => C10_fails (c := ⟨L, W, fun _ => none, {}, []⟩) ⟨hL, hW, by simp⟩ (show 8 ≤ (effective []).mlevel by decide) (show (effective []).clevel ≠ 0 by decide) (Or.inr fun _ => rfl) (fun _ => rfl)

end Flate.Props
