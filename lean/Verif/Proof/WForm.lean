/-
Two runs of the Writer which differ in the container format: the compressed data is the same, stream by stream.
-/
import Verif.Proof.WWord

namespace Flate.Proof.Form
open Flate.Spec Flate.Model
open Flate.Proof.Word (Sim SimT Alike)

/-- a finished stream on both sides: the headers differ, the compressed data and what it stands for do not -/
structure Part where
  hdr : List UInt8
  hdr' : List UInt8
  body : List UInt8
  data : List UInt8

def Part.left (O : Options) (p : Part) : List UInt8 := p.hdr ++ p.body ++ footerBytes O p.data
def Part.right (O : Options) (p : Part) : List UInt8 := p.hdr' ++ p.body ++ footerBytes O p.data

/-- the bytes of some acceptable header -/
def IsHd (O : Options) (hd : List UInt8) : Prop := ∃ h, headerOK h = true ∧ hd = headerBytes O h

def InStr (s : WState) : Prop := s.state = .openStream ∨ s.state = .closingStream
def Idle (s : WState) : Prop := s.state = .noStream ∨ s.state = .closedStream

theorem InStr.not_idle {s : WState} (h : InStr s) : ¬ Idle s := by
  rintro (e | e) <;> rcases h with h | h <;> rw [h] at e <;> cases e

variable (O O' : Options) (B B' : List UInt8)

/-- What has been produced: finished streams; then, in a stream, a header and compressed data. -/
structure Cut (ds : List (List UInt8)) (ps : List Part) (hd hd' : List UInt8) (x : List Bool) (s s' : WState) : Prop where
  data : ps.map Part.data = ds
  heads : ∀ p ∈ ps, IsHd O p.hdr ∧ IsHd O' p.hdr'
  left : view s = bytesBits (B ++ ps.flatMap (Part.left O) ++ hd) ++ x
  right : view s' = bytesBits (B' ++ ps.flatMap (Part.right O') ++ hd') ++ x
  opn : InStr s → IsHd O hd ∧ IsHd O' hd'
  idle : Idle s → hd = [] ∧ hd' = [] ∧ x = []

/-- The two states agree, except for the format, the word size, the header, and the underlying writer.  `ds` is the data of the finished streams, `d` that of the
stream in progress including what is still buffered. -/
structure R (ds : List (List UInt8)) (d : List UInt8) (s s' : WState) : Prop where
  inv : WInv s
  inv' : WInv s'
  dep : Proof.Sim.Dep s.sink
  dep' : Proof.Sim.Dep s'.sink
  o : s.o = O
  o' : s'.o = O'
  conf : Conf s
  conf' : Conf s'
  adler : InStr s → s'.adler = s.adler ∧ s'.crcIn = s.crcIn ∧ s'.inStream = s.inStream
  lz : s'.lz = s.lz
  cap : s.lz.buf.length ≤ s.lz.cap
  state : s'.state = s.state
  live : s.state ≠ .error ∧ s.state ≠ .closed
  idle : Idle s → s.obLen = 0 ∧ s'.obLen = 0 ∧ d = s.lz.buf
  sums : InStr s → Sums s d
  clos : s.state = .closingStream → s.lz.buf = []
  none : s.state = .noStream → ds = []
  some : s.state = .closedStream → ds ≠ []
  cut : ∃ ps hd hd' x, Cut O O' B B' ds ps hd hd' x s s'

/-- in a stream; on a byte boundary if `ob` -/
structure RO (ob : Bool) (ds : List (List UInt8)) (d : List UInt8) (s s' : WState) : Prop where
  rel : R O O' B B' ds d s s'
  opn : s.state = .openStream
  ob : ob = true → s.obLen = 0 ∧ s'.obLen = 0

variable {O O' B B'} {ds : List (List UInt8)} {d : List UInt8}

theorem RO.ins {ob : Bool} {s s' : WState} (h : RO O O' B B' ob ds d s s') : InStr s := Or.inl h.opn

theorem RO.forget {ob : Bool} {s s' : WState} (h : RO O O' B B' ob ds d s s') : RO O O' B B' false ds d s s' := ⟨h.rel, h.opn, fun e => nomatch e⟩

theorem R.pads {s s' : WState} (h : R O O' B B' ds d s s') : padBits (view s').length = padBits (view s).length := by
  obtain ⟨ps, hd, hd', x, c⟩ := h.cut
  unfold padBits
  congr 1
  apply padLen_mod
  rw [c.left, c.right, List.length_append, List.length_append, bytesBits_length, bytesBits_length]
  omega

theorem instr_eq {s t : WState} (h : t.state = s.state) : (InStr t ↔ InStr s) ∧ (Idle t ↔ Idle s) := by
  unfold InStr Idle
  rw [h]
  exact ⟨Iff.rfl, Iff.rfl⟩

/-- both produce the same bits -/
theorem RO.out {ob ob' : Bool} {s s' t t' : WState} {bits : List Bool} (h : RO O O' B B' ob ds d s s') (st : Step s t []) (av : Adv s t bits) (st' : Step s' t' [])
    (av' : Adv s' t' bits) (ho : ob' = true → t.obLen = 0 ∧ t'.obLen = 0) : RO O O' B B' ob' ds d t t' := by
  obtain ⟨i1, i2⟩ := instr_eq av.state
  have hr := h.rel
  refine ⟨{
    inv := av.inv
    inv' := av'.inv
    dep := by obtain ⟨a, b, c⟩ := hr.dep; exact ⟨by rw [st.core.wfail]; exact a, by rw [st.core.ffail]; exact b, by rw [st.core.sfail]; exact c⟩
    dep' := by obtain ⟨a, b, c⟩ := hr.dep'; exact ⟨by rw [st'.core.wfail]; exact a, by rw [st'.core.ffail]; exact b, by rw [st'.core.sfail]; exact c⟩
    o := by rw [st.core.o, hr.o]
    o' := by rw [st'.core.o, hr.o']
    conf := hr.conf.of st.core.o (by rw [st.core.lz]) (by rw [st.core.header]; exact hr.conf.hdr)
    conf' := hr.conf'.of st'.core.o (by rw [st'.core.lz]) (by rw [st'.core.header]; exact hr.conf'.hdr)
    adler := fun hi => by
      obtain ⟨a, b, c⟩ := hr.adler (i1.1 hi)
      rw [st.core.adler, st'.core.adler, st.core.crcIn, st'.core.crcIn, st.core.inStream, st'.core.inStream]
      exact ⟨a, b, c⟩
    lz := by rw [st.core.lz, st'.core.lz, hr.lz]
    cap := by rw [st.core.lz]; exact hr.cap
    state := by rw [av.state, av'.state, hr.state]
    live := by rw [av.state]; exact hr.live
    idle := fun e => absurd (i2.1 e) h.ins.not_idle
    sums := fun hi => by
      obtain ⟨c, h1, h2, h3, h4⟩ := hr.sums (i1.1 hi)
      exact ⟨c, by rw [st.core.lz]; exact h1, by rw [st.core.adler]; exact h2, by rw [st.core.crcIn]; exact h3, by rw [st.core.inStream]; exact h4⟩
    clos := by rw [av.state, st.core.lz]; exact hr.clos
    none := by rw [av.state]; exact hr.none
    some := by rw [av.state]; exact hr.some
    cut := ?_ }, av.state.trans h.opn, ho⟩
  obtain ⟨ps, hd, hd', x, c⟩ := hr.cut
  exact ⟨ps, hd, hd', x ++ bits, c.data, c.heads, by rw [av.view, c.left, List.append_assoc], by rw [av'.view, c.right, List.append_assoc],
    fun e => c.opn (i1.1 e), fun e => absurd (i2.1 e) h.ins.not_idle⟩

theorem sim_bitsFlush : SimT (RO O O' B B' false ds d) (RO O O' B B' true ds d) wBitsFlush wBitsFlush := by
  intro s s' a t b t' h e e'
  have hr := h.rel
  obtain ⟨a1, t1, e1, st, ok, _, rel⟩ := wBitsFlush_gen hr.inv.hW (Nat.le_of_lt hr.inv.lt) hr.inv.blk hr.inv.out
  obtain ⟨b1, t1', e1', st', ok', _, rel'⟩ := wBitsFlush_gen hr.inv'.hW (Nat.le_of_lt hr.inv'.lt) hr.inv'.blk hr.inv'.out
  rw [e1] at e; rw [e1'] at e'
  cases e; cases e'
  obtain ⟨av, z⟩ := ok (rel hr.dep.1)
  obtain ⟨av', z'⟩ := ok' (rel' hr.dep'.1)
  rw [hr.pads] at av'
  exact ⟨rel hr.dep.1, rel' hr.dep'.1, h.out st av st' av' (fun _ => ⟨z, z'⟩)⟩

/-- bytes on a byte boundary -/
theorem sim_bufWrite0 (x : List UInt8) : SimT (RO O O' B B' true ds d) (RO O O' B B' true ds d) (wBufWrite x) (wBufWrite x) := by
  intro s s' a t b t' h e e'
  have hr := h.rel
  obtain ⟨o1, o2⟩ := h.ob rfl
  obtain ⟨a1, t1, e1, st, ok, _, rel⟩ := wBufWrite_byteOut hr.inv o1 x
  obtain ⟨b1, t1', e1', st', ok', _, rel'⟩ := wBufWrite_byteOut hr.inv' o2 x
  rw [e1] at e; rw [e1'] at e'
  cases e; cases e'
  obtain ⟨i, g1, g2, g3, z, g5, g6⟩ := ok (rel hr.dep.1)
  obtain ⟨i', g1', g2', g3', z', g5', g6'⟩ := ok' (rel' hr.dep'.1)
  refine ⟨rel hr.dep.1, rel' hr.dep'.1, h.out (bits := bytesBits x) st ⟨i, g1, g2, g3, ?_, _, g5, g6⟩ st' ⟨i', g1', g2', g3', ?_, _, g5', g6'⟩ (fun _ => ⟨z, z'⟩)⟩
  · rw [view_zero z, view_zero o1, g5, bytesBits_append]
  · rw [view_zero z', view_zero o2, g5', bytesBits_append]

theorem bufWrite_flush (x : List UInt8) : wBufWrite x = Go.chk wBitsFlush (wBufWrite x) := by
  unfold wBufWrite
  funext s
  unfold Go.chk
  cases e : wBitsFlush s with
  | error q => rfl
  | ok r =>
    obtain ⟨_ | _, u⟩ := r
    · rfl
    · have : wBitsFlush u = .ok (true, u) := by unfold wBitsFlush; rw [if_pos (wBitsFlush_zero e)]
      simp only [this]

theorem sim_bufWrite (x : List UInt8) : SimT (RO O O' B B' false ds d) (RO O O' B B' true ds d) (wBufWrite x) (wBufWrite x) := by
  rw [bufWrite_flush]
  exact SimT.chk sim_bitsFlush (sim_bufWrite0 x)

theorem sim_bitsWrite (n v : Nat) : SimT (RO O O' B B' false ds d) (RO O O' B B' false ds d) (wBitsWrite n v) (wBitsWrite n v) := by
  intro s s' a t b t' h e e'
  have hr := h.rel
  by_cases hn : n ≤ s.W
  · by_cases hn' : n ≤ s'.W
    · obtain ⟨a1, t1, es, e1, st, ok, _, rel⟩ := wBitsWrite_does hr.inv hn v
      obtain ⟨b1, t1', es', e1', st', ok', _, rel'⟩ := wBitsWrite_does hr.inv' hn' v
      rw [e1] at e; rw [e1'] at e'
      cases e; cases e'
      obtain ⟨av, k⟩ := ok (rel hr.dep.1)
      obtain ⟨av', k'⟩ := ok' (rel' hr.dep'.1)
      have : es = [] := by cases es with | nil => rfl | cons => cases k
      subst this
      have : es' = [] := by cases es' with | nil => rfl | cons => cases k'
      subst this
      exact ⟨rel hr.dep.1, rel' hr.dep'.1, h.out st av st' av' (fun e => nomatch e)⟩
    · unfold wBitsWrite at e'
      rw [if_pos (Nat.le_of_lt hr.inv'.lt), if_neg hn'] at e'
      cases e'
  · unfold wBitsWrite at e
    rw [if_pos (Nat.le_of_lt hr.inv.lt), if_neg hn] at e
    cases e

theorem Cut.congr {ps : List Part} {hd hd' : List UInt8} {x : List Bool} {s s' t t' : WState} (h : Cut O O' B B' ds ps hd hd' x s s') (hv : view t = view s) (hv' : view t' = view s')
    (hs : t.state = s.state) : Cut O O' B B' ds ps hd hd' x t t' :=
  ⟨h.data, h.heads, by rw [hv, h.left], by rw [hv', h.right], fun e => h.opn ((instr_eq hs).1.1 e), fun e => h.idle ((instr_eq hs).2.1 e)⟩

theorem sim_sendEvent {ob : Bool} (k k' : EvKind) : Sim (RO O O' B B' ob ds d) (RO O O' B B' ob ds d) (wSendEvent k) (wSendEvent k') := by
  intro s s' a t b t' h e e'
  cases e; cases e'
  have hr := h.rel
  refine ⟨rfl, ⟨{ hr with
    inv := ⟨hr.inv.hW, hr.inv.lt, hr.inv.blk, hr.inv.out⟩, inv' := ⟨hr.inv'.hW, hr.inv'.lt, hr.inv'.blk, hr.inv'.out⟩
    conf := hr.conf.of rfl rfl hr.conf.hdr, conf' := hr.conf'.of rfl rfl hr.conf'.hdr
    cut := ?_ }, h.opn, h.ob⟩⟩
  obtain ⟨ps, hd, hd', x, c⟩ := hr.cut
  exact ⟨ps, hd, hd', x, c.congr rfl rfl rfl⟩

theorem writers : Alike (RO O O' B B' false ds d) wBW wBW where
  buf p := (sim_bufWrite p).weaken (fun _ _ h => h) (fun _ _ h => h.forget)
  u16 v := (sim_bufWrite (leBytes 2 v)).weaken (fun _ _ h => h) (fun _ _ h => h.forget)
  bits := sim_bitsWrite
  flush := sim_bitsFlush.weaken (fun _ _ h => h) (fun _ _ h => h.forget)
  ev k := sim_sendEvent k k

/-! ### input -/

theorem RO.account {ob : Bool} {s s' : WState} (h : RO O O' B B' ob ds d s s') (p : List UInt8) (z : LZ) (hz : p ++ z.buf = s.lz.buf) (hzo : z.opts = s.lz.opts) :
    RO O O' B B' ob ds d (account p { s with lz := z }) (account p { s' with lz := z }) := by
  have hr := h.rel
  obtain ⟨a1, a2, a3⟩ := hr.adler h.ins
  refine ⟨{ hr with
    inv := ⟨hr.inv.hW, hr.inv.lt, hr.inv.blk, hr.inv.out⟩, inv' := ⟨hr.inv'.hW, hr.inv'.lt, hr.inv'.blk, hr.inv'.out⟩
    conf := hr.conf.of rfl hzo hr.conf.hdr
    conf' := hr.conf'.of rfl (hzo.trans (by rw [hr.lz])) hr.conf'.hdr
    adler := fun _ => by simp only [Model.account, a1, a2, a3, and_self]
    lz := rfl
    cap := ?_
    idle := fun e => absurd e h.ins.not_idle
    sums := fun _ => ?_
    clos := fun e => ?_
    cut := ?_ }, h.opn, h.ob⟩
  · have := hr.cap
    rw [← hz, List.length_append] at this
    show z.buf.length ≤ z.cap
    rw [cap_congr hzo]
    omega
  · obtain ⟨c, h1, h2, h3, h4⟩ := hr.sums h.ins
    refine ⟨c ++ p, by rw [h1, ← hz, List.append_assoc]; rfl, adler_update h2 p, crc_update h3 p, ?_⟩
    show s.inStream + p.length = _
    rw [h4, List.length_append]
  · have := hr.clos e
    rw [← hz] at this
    exact (List.append_eq_nil_iff.1 this).2
  · obtain ⟨ps, hd, hd', x, c⟩ := hr.cut
    exact ⟨ps, hd, hd', x, c.congr rfl rfl rfl⟩

theorem sim_inputRead {ob : Bool} (n : Nat) : Sim (RO O O' B B' ob ds d) (RO O O' B B' ob ds d) (inputBufferRead n) (inputBufferRead n) := by
  intro s s' a t b t' h e e'
  simp only [inputBufferRead] at e e'
  rw [h.rel.lz] at e'
  cases e; cases e'
  exact ⟨rfl, h.account _ _ (List.take_append_drop _ _) rfl⟩

theorem advance_buf (z : LZ) : z.advance.1 ++ z.advance.2.2.buf = z.buf ∧ z.advance.2.2.opts = z.opts := by
  unfold LZ.advance
  simp only []
  split
  · split
    · exact ⟨List.take_append_drop _ _, rfl⟩
    · exact ⟨List.take_append_drop _ _, rfl⟩
  · exact ⟨List.take_append_drop _ _, rfl⟩

theorem sim_inputAdvance {ob : Bool} : Sim (RO O O' B B' ob ds d) (RO O O' B B' ob ds d) inputBufferAdvance inputBufferAdvance := by
  intro s s' a t b t' h e e'
  simp only [inputBufferAdvance] at e e'
  rw [h.rel.lz] at e'
  cases e; cases e'
  exact ⟨rfl, h.account _ _ (advance_buf _).1 (advance_buf _).2⟩

theorem sim_storeLoop : ∀ (fuel av : Nat), SimT (RO O O' B B' false ds d) (RO O O' B B' false ds d) (storeLoop fuel av) (storeLoop fuel av)
  | 0, _ => SimT.panicL _ _
  | fuel + 1, av => by
    unfold storeLoop
    split
    · exact SimT.pure
    · exact SimT.bind (sim_inputRead _) fun p => SimT.chk (Word.sim_stored writers _ _) (sim_storeLoop fuel _)

theorem sim_tokenLoop : ∀ (fuel av : Nat) (bb : List UInt8) (ts : List Token),
    Sim (RO O O' B B' false ds d) (RO O O' B B' false ds d) (tokenLoop fuel av bb ts) (tokenLoop fuel av bb ts)
  | 0, _, _, _ => Sim.panicL _ _
  | fuel + 1, av, bb, ts => by
    unfold tokenLoop
    split
    · exact Sim.pure _
    · refine Sim.bind sim_inputAdvance fun x => ?_
      obtain ⟨p, m⟩ := x
      rcases m with _ | ⟨d, l⟩
      · cases p with
        | nil => exact Sim.panicL _ _
        | cons ch r => exact sim_tokenLoop fuel _ _ _
      · exact Sim.bind (Sim.assert _ _) fun _ => Sim.bind (Sim.assert _ _) fun _ => Sim.bind (Sim.lift _) fun t => sim_tokenLoop fuel _ _ _

theorem sim_compressStore (all : Bool) : SimT (RO O O' B B' false ds d) (RO O O' B B' false ds d) (compressStore all) (compressStore all) := by
  intro s s' a t b t' h e e'
  simp only [compressStore] at e e'
  rw [h.rel.lz] at e'
  by_cases hc : s.lz.buf.length < storedBlockSize ∧ all = false ∧ s.lz.buf.length < s.lz.cap
  · rw [if_pos hc] at e e'
    cases e; cases e'
    exact ⟨rfl, rfl, h⟩
  · rw [if_neg hc] at e e'
    exact sim_storeLoop _ _ _ _ _ _ _ _ h e e'

theorem sim_compressSlow (L : HuffLib) (all : Bool) : SimT (RO O O' B B' false ds d) (RO O O' B B' false ds d) (compressSlow L all) (compressSlow L all) := by
  intro s s' a t b t' h e e'
  simp only [compressSlow] at e e'
  rw [h.rel.lz] at e'
  by_cases hc : s.lz.buf.length < 4096 ∧ all = false ∧ s.lz.buf.length < s.lz.cap
  · rw [if_pos hc] at e e'
    cases e; cases e'
    exact ⟨rfl, rfl, h⟩
  · rw [if_neg hc] at e e'
    refine SimT.bind (sim_tokenLoop _ _ _ _) (fun x => ?_) _ _ _ _ _ _ h e e'
    exact Word.sim_compressTokens writers _ _ _ _ _ _

/-! ### headers and footers -/

theorem acts_ok {f : Go WState Bool} {s : WState} {p0 p1 : Phase} {Q : WState → Prop} (h : Acts f s p0 p1 Q) (hd : Proof.Sim.Dep s.sink) {b : Bool} {t : WState} (e : f s = .ok (b, t)) :
    b = true ∧ Q t ∧ WInv t ∧ t.o = s.o ∧ Proof.Sim.Dep t.sink := by
  rcases h with ⟨h, _⟩ | ⟨b1, t1, es, e1, fl, ok, _, rel⟩
  · rw [h] at e; cases e
  · rw [e1] at e
    cases e
    have hb := rel hd.1
    obtain ⟨q, i, _⟩ := ok hb
    obtain ⟨x, y, z⟩ := hd
    exact ⟨hb, q, i, fl.o, by rw [fl.wfail]; exact x, by rw [fl.ffail]; exact y, by rw [fl.sfail]; exact z⟩

theorem sim_openStream (hdict : O'.dict = O.dict) {s s' t t' : WState} {a b : Bool} (h : R O O' B B' ds d s s') (hs : Idle s)
    (e : Go.chk writeHeader (setState .openStream) s = .ok (a, t)) (e' : Go.chk writeHeader (setState .openStream) s' = .ok (b, t')) :
    a = true ∧ b = true ∧ R O O' B B' ds d t t' ∧ t.state = .openStream ∧ t.lz.buf = s.lz.buf := by
  obtain ⟨z, z', hd⟩ := h.idle hs
  have hs' : Idle s' := (instr_eq h.state).2.2 hs
  obtain ⟨ha, q, i, o, dp⟩ := acts_ok (open_acts h.inv z h.conf hs) h.dep e
  obtain ⟨hb, q', i', o', dp'⟩ := acts_ok (open_acts h.inv' z' h.conf' hs') h.dep' e'
  have hst := q.state
  refine ⟨ha, hb, {
    inv := i, inv' := i', dep := dp, dep' := dp', o := o.trans h.o, o' := o'.trans h.o', conf := q.conf h.conf, conf' := q'.conf h.conf'
    adler := fun _ => ⟨by rw [q.adler, q'.adler], by rw [q.crc, q'.crc], by rw [q.inS, q'.inS]⟩
    lz := by rw [q.lz, q'.lz, h.lz, h.o, h.o', hdict]
    cap := by rw [q.lz]; exact h.cap
    state := by rw [q.state, q'.state]
    live := by rw [hst]; exact ⟨fun e => (by cases e), fun e => (by cases e)⟩
    idle := fun e => by rcases e with e | e <;> rw [hst] at e <;> cases e
    sums := fun _ => by rw [hd]; exact q.sums
    clos := fun e => by rw [hst] at e; cases e
    none := fun e => by rw [hst] at e; cases e
    some := fun e => by rw [hst] at e; cases e
    cut := ?_ }, hst, by rw [q.lz]⟩
  obtain ⟨ps, hd, hd', x, c⟩ := h.cut
  obtain ⟨rfl, rfl, rfl⟩ := c.idle hs
  refine ⟨ps, headerBytes O (fillHeader s), headerBytes O' (fillHeader s'), [], c.data, c.heads, ?_, ?_, fun _ => ⟨⟨_, fillHeader_ok h.conf.hdr, rfl⟩, ⟨_, fillHeader_ok h.conf'.hdr, rfl⟩⟩,
    fun e => by rcases e with e | e <;> rw [hst] at e <;> cases e⟩
  · have := c.left
    rw [view_zero z, List.append_nil, List.append_nil] at this
    rw [view_zero q.ob, q.push, bytesBits_inj this, h.o, List.append_nil]
  · have := c.right
    rw [view_zero z', List.append_nil, List.append_nil] at this
    rw [view_zero q'.ob, q'.push, bytesBits_inj this, h.o', List.append_nil]

theorem split_front {q pre : List UInt8} {y : List Bool} (h : bytesBits q = bytesBits pre ++ y) : ∃ r, q = pre ++ r ∧ bytesBits r = y := by
  have hl := congrArg List.length h
  simp only [List.length_append, bytesBits_length] at hl
  have h2 : bytesBits (q.take pre.length) ++ bytesBits (q.drop pre.length) = bytesBits pre ++ y := by rw [← bytesBits_append, List.take_append_drop]; exact h
  have h3 := List.append_inj h2 (by simp only [bytesBits_length, List.length_take]; omega)
  refine ⟨q.drop pre.length, ?_, h3.2⟩
  have h4 := bytesBits_inj h3.1
  calc q = q.take pre.length ++ q.drop pre.length := (List.take_append_drop _ _).symm
    _ = pre ++ q.drop pre.length := by rw [h4]

theorem sim_finishClosing {s s' t t' : WState} {a b : Bool} (h : R O O' B B' ds d s s') (hs : s.state = .closingStream) (e : finishClosing s = .ok (a, t))
    (e' : finishClosing s' = .ok (b, t')) : a = true ∧ b = true ∧ R O O' B B' (ds ++ [d]) [] t t' ∧ t.state = .closedStream ∧ t.lz.buf = [] := by
  have hs' : s'.state = .closingStream := h.state.trans hs
  unfold finishClosing at e e'
  rw [if_pos hs] at e
  rw [if_pos hs'] at e'
  have hin : InStr s := Or.inr hs
  have hb0 := h.clos hs
  obtain ⟨a1, a2, a3⟩ := h.adler hin
  obtain ⟨c, hc, hc1, hc2, hc3⟩ := h.sums hin
  rw [hb0, List.append_nil] at hc
  subst hc
  obtain ⟨ha, ⟨q1, q2, ⟨q, q3, q4⟩, q5, q6, q7⟩, i, o, dp⟩ := acts_ok (writeFooter_acts h.inv h.conf.fmt hc1 hc2 hc3 hs) h.dep e
  obtain ⟨hb, ⟨q1', q2', ⟨q', q3', q4'⟩, q5', q6', q7'⟩, i', o', dp'⟩ := acts_ok (writeFooter_acts h.inv' h.conf'.fmt (by rw [a1]; exact hc1) (by rw [a2]; exact hc2) (by rw [a3]; exact hc3) hs') h.dep' e'
  refine ⟨ha, hb, {
    inv := i, inv' := i', dep := dp, dep' := dp', o := o.trans h.o, o' := o'.trans h.o'
    conf := h.conf.of o (by rw [q5]) (by rw [q6]; exact h.conf.hdr)
    conf' := h.conf'.of o' (by rw [q5']) (by rw [q6']; exact h.conf'.hdr)
    adler := fun e => by rcases e with e | e <;> rw [q1] at e <;> cases e
    lz := by rw [q5, q5', h.lz]
    cap := by rw [q5]; exact h.cap
    state := by rw [q1, q1']
    live := by rw [q1]; exact ⟨fun e => (by cases e), fun e => (by cases e)⟩
    idle := fun _ => ⟨q2, q2', by rw [q5, hb0]⟩
    sums := fun e => by rcases e with e | e <;> rw [q1] at e <;> cases e
    clos := fun e => by rw [q1] at e; cases e
    none := fun e => by rw [q1] at e; cases e
    some := fun _ => by simp
    cut := ?_ }, q1, by rw [q5, hb0]⟩
  obtain ⟨ps, hd, hd', x, k⟩ := h.cut
  rw [h.pads, k.right, List.append_assoc] at q4'
  rw [k.left, List.append_assoc] at q4
  obtain ⟨r, r1, r2⟩ := split_front q4
  obtain ⟨r', r1', r2'⟩ := split_front q4'
  rw [k.left, ← r2] at r2'
  have := bytesBits_inj r2'
  subst this
  obtain ⟨g1, g2⟩ := k.opn hin
  refine ⟨ps ++ [⟨hd, hd', r', d⟩], [], [], [], by simp [k.data], ?_, ?_, ?_, fun e => (by rcases e with e | e <;> rw [q1] at e <;> cases e), fun _ => ⟨rfl, rfl, rfl⟩⟩
  · intro p hp
    rcases List.mem_append.1 hp with hp | hp
    · exact k.heads p hp
    · rw [List.mem_singleton] at hp; subst hp; exact ⟨g1, g2⟩
  · rw [view_zero q2, q3, r1, h.o]
    simp [Part.left]
  · rw [view_zero q2', q3', r1', h.o']
    simp [Part.right]

/-! ### the methods -/

/-- between two calls: not at the end of a stream -/
structure Btw (O O' : Options) (B B' : List UInt8) (ds : List (List UInt8)) (d : List UInt8) (s s' : WState) : Prop where
  rel : R O O' B B' ds d s s'
  st : s.state ≠ .closingStream

theorem Btw.cases {s s' : WState} (h : Btw O O' B B' ds d s s') : Idle s ∨ s.state = .openStream := by
  have h1 := h.st
  have ⟨h2, h3⟩ := h.rel.live
  unfold Idle
  cases e : s.state <;> simp_all

theorem RO.btw {ob : Bool} {s s' : WState} (h : RO O O' B B' ob ds d s s') : Btw O O' B B' ds d s s' := ⟨h.rel, by rw [h.opn]; exact fun e => (by cases e)⟩

theorem sim_body {L : HuffLib} (hp : usesStore O' = usesStore O) (all : Bool) {s s' t t' : WState} {a b : Bool} (h : RO O O' B B' false ds d s s')
    (e : (if usesStore s.o then compressStore all s else compressSlow L all s) = .ok (a, t)) (e' : (if usesStore s'.o then compressStore all s' else compressSlow L all s') = .ok (b, t')) :
    a = true ∧ b = true ∧ RO O O' B B' false ds d t t' := by
  rw [h.rel.o', hp] at e'
  rw [h.rel.o] at e
  by_cases hu : usesStore O = true
  · rw [if_pos hu] at e e'
    exact sim_compressStore all _ _ _ _ _ _ h e e'
  · rw [if_neg hu] at e e'
    exact sim_compressSlow L all _ _ _ _ _ _ h e e'

theorem chk_if {q : WState → Prop} [DecidablePred q] {f g : Go WState Bool} {x : WState} (h : ¬ q x) :
    Go.chk (fun s => if q s then f s else .ok (true, s)) g x = g x := by
  unfold Go.chk
  simp only [if_neg h]

theorem sim_compressImpl {L : HuffLib} (hL : L.Lawful) (hdict : O'.dict = O.dict) (hp : usesStore O' = usesStore O) (all : Bool) {s s' t t' : WState} {a b : Bool}
    (h : Btw O O' B B' ds d s s') (e : compressImpl L all s = .ok (a, t)) (e' : compressImpl L all s' = .ok (b, t')) :
    a = true ∧ b = true ∧ Btw O O' B B' ds d t t' ∧ (s.lz.buf ≠ [] → t.state = .openStream) ∧ (s.lz.buf = [] → t = s) ∧ (all = true → t.lz.buf = []) := by
  by_cases hb : s.lz.buf = []
  · have hb' : s'.lz.buf = [] := by rw [h.rel.lz]; exact hb
    rw [compress_empty hb] at e
    rw [compress_empty hb'] at e'
    cases e; cases e'
    exact ⟨rfl, rfl, h, fun x => absurd hb x, fun _ => rfl, fun _ => hb⟩
  · have hr := h.rel
    have hb' : s'.lz.buf ≠ [] := by rw [hr.lz]; exact hb
    have f1 : finishClosing s = .ok (true, s) := finishClosing_other h.st
    have f2 : finishClosing s' = .ok (true, s') := finishClosing_other (by rw [hr.state]; exact h.st)
    have hE : BlockOK L s.o s.lz.maxDist True (BlockEnc (fun l => L.accepts l = true) s.lz.maxDist) := blockOK_any _ _ _ (Nat.le_refl _)
    -- what is left over
    have last : a = true ∧ t.state = .openStream ∧ (all = true → t.lz.buf = []) := by
      rcases h.cases with hi | ho
      · obtain ⟨ha, ⟨u, c, hu, g, hx⟩, _⟩ := acts_ok (compressImpl_idle hL hE hr.inv hr.conf hr.cap hi (hr.idle hi).1 hb all) hr.dep e
        exact ⟨ha, by rw [g.state, hu.state], fun k => by rcases hx with hx | ⟨hx, _⟩; exacts [hx, by rw [k] at hx; cases hx]⟩
      · obtain ⟨ha, ⟨c, g, hx⟩, _⟩ := acts_ok (compressImpl_open hL hE hr.inv hr.conf hr.cap ho all) hr.dep e
        exact ⟨ha, by rw [g.state, ho], fun k => by rcases hx with hx | ⟨hx, _⟩; exacts [hx, by rw [k] at hx; cases hx]⟩
    unfold compressImpl at e e'
    rw [if_neg hb, chk_ok f1] at e
    rw [if_neg hb', chk_ok f2] at e'
    have fin : ∀ {t t' : WState} {a b : Bool}, a = true ∧ b = true ∧ RO O O' B B' false ds d t t' → b = true ∧ Btw O O' B B' ds d t t' := fun h => ⟨h.2.1, h.2.2.btw⟩
    rcases h.cases with hi | ho
    · rcases Word.chk_inv e with ⟨v, e1, e2⟩ | ⟨_, e1⟩ <;> rcases Word.chk_inv e' with ⟨v', e1', e2'⟩ | ⟨_, e1'⟩
      all_goals
        rw [hr.state] at e1'
        rw [if_pos (show s.state = .noStream ∨ s.state = .closedStream from hi)] at e1 e1'
        obtain ⟨g1, g2, h1, hst, hbf⟩ := sim_openStream hdict hr hi e1 e1'
      · obtain ⟨hb1, hb2⟩ := fin (sim_body hp all ⟨h1, hst, fun e => (nomatch e)⟩ e2 e2')
        exact ⟨last.1, hb1, hb2, fun _ => last.2.1, fun x => absurd x hb, last.2.2⟩
      · cases g2
      · cases g1
      · cases g1
    · have n1 : ¬ (s.state = .noStream ∨ s.state = .closedStream) := InStr.not_idle (Or.inl ho)
      have n2 : ¬ (s'.state = .noStream ∨ s'.state = .closedStream) := by rw [hr.state]; exact n1
      have e := (chk_if (q := fun s => s.state = .noStream ∨ s.state = .closedStream) (f := Go.chk writeHeader (setState .openStream)) n1).symm.trans e
      have e' := (chk_if (q := fun s => s.state = .noStream ∨ s.state = .closedStream) (f := Go.chk writeHeader (setState .openStream)) n2).symm.trans e'
      obtain ⟨hb1, hb2⟩ := fin (sim_body hp all ⟨hr, ho, fun e => (nomatch e)⟩ e e')
      exact ⟨last.1, hb1, hb2, fun _ => last.2.1, fun x => absurd x hb, last.2.2⟩

theorem R.sink {s s' : WState} (h : R O O' B B' ds d s s') {k k' : Sink} (h1 : k.out = s.sink.out) (h2 : k'.out = s'.sink.out) (dp : Proof.Sim.Dep k) (dp' : Proof.Sim.Dep k') :
    R O O' B B' ds d { s with sink := k } { s' with sink := k' } := { h with
  inv := ⟨h.inv.hW, h.inv.lt, h.inv.blk, h.inv.out⟩, inv' := ⟨h.inv'.hW, h.inv'.lt, h.inv'.blk, h.inv'.out⟩
  dep := dp, dep' := dp', conf := h.conf.of rfl rfl h.conf.hdr, conf' := h.conf'.of rfl rfl h.conf'.hdr
  cut := by
    obtain ⟨ps, hd, hd', x, c⟩ := h.cut
    exact ⟨ps, hd, hd', x, c.congr (by simp only [Proof.view, Proof.pushed, h1]) (by simp only [Proof.view, Proof.pushed, h2]) rfl⟩ }

/-- `Flush` and `Sync` of the underlying writer -/
theorem sim_sinks {s s' t t' : WState} {a b : Bool} (h : R O O' B B' ds d s s') (e : Go.chk sinkFlush sinkSync s = .ok (a, t)) (e' : Go.chk sinkFlush sinkSync s' = .ok (b, t')) :
    a = true ∧ b = true ∧ R O O' B B' ds d t t' ∧ t.state = s.state := by
  obtain ⟨k, e1, g1, g2⟩ := Word.sinkFlush_dep h.dep
  obtain ⟨k', e1', g1', g2'⟩ := Word.sinkFlush_dep h.dep'
  rw [chk_ok e1] at e
  rw [chk_ok e1'] at e'
  obtain ⟨m, e2, m1, m2⟩ := Word.sinkSync_dep (s := { s with sink := k }) g2
  obtain ⟨m', e2', m1', m2'⟩ := Word.sinkSync_dep (s := { s' with sink := k' }) g2'
  rw [e2] at e
  rw [e2'] at e'
  cases e; cases e'
  exact ⟨rfl, rfl, h.sink (m1.trans g1) (m1'.trans g1') m2 m2', rfl⟩

theorem R.setHist {s s' : WState} (h : R O O' B B' ds d s s') : R O O' B B' ds d ({ s with lz := { s.lz with hist := [] } } : WState) ({ s' with lz := { s'.lz with hist := [] } } : WState) := { h with
  inv := ⟨h.inv.hW, h.inv.lt, h.inv.blk, h.inv.out⟩, inv' := ⟨h.inv'.hW, h.inv'.lt, h.inv'.blk, h.inv'.out⟩
  conf := h.conf.of rfl rfl h.conf.hdr, conf' := h.conf'.of rfl rfl h.conf'.hdr
  lz := by simp only [h.lz]
  cut := by
    obtain ⟨ps, hd, hd', x, c⟩ := h.cut
    exact ⟨ps, hd, hd', x, c.congr rfl rfl rfl⟩ }

/-- flushes in the middle of a stream -/
theorem sim_flushGuts (ft : FlushType) (hf : ft ≠ .finishFlush) : SimT (RO O O' B B' false ds d) (RO O O' B B' false ds d) (flushGuts ft) (flushGuts ft) := by
  cases ft
  · exact SimT.pure
  · exact Word.sim_static writers _ _
  · exact Word.sim_stored writers _ _
  · refine SimT.chk (Word.sim_stored writers _ _) fun s s' a t b t' h e e' => ?_
    cases e; cases e'
    exact ⟨rfl, rfl, ⟨h.rel.setHist, h.opn, fun e => (nomatch e)⟩⟩
  · exact absurd rfl hf

theorem sim_finishGuts {s s' t t' : WState} {a b : Bool} (h : RO O O' B B' false ds d s s') (hb : s.lz.buf = []) (e : flushGuts .finishFlush s = .ok (a, t))
    (e' : flushGuts .finishFlush s' = .ok (b, t')) : a = true ∧ b = true ∧ R O O' B B' ds d t t' ∧ t.state = .closingStream := by
  unfold flushGuts at e e'
  have hst := (writeStoredBlock_does h.rel.inv (data := []) (by simp) true).acts (p0 := .opened) (p1 := .last) (runPh_block .stored) (blockTrace_noBegin .stored)
  rcases Word.chk_inv e with ⟨v, e1, e2⟩ | ⟨_, e1⟩ <;> rcases Word.chk_inv e' with ⟨v', e1', e2'⟩ | ⟨_, e1'⟩
  all_goals obtain ⟨g1, g2, g⟩ := Word.sim_stored writers _ _ _ _ _ _ _ _ h e1 e1'
  · cases e2; cases e2'
    obtain ⟨_, ⟨c1, _⟩, _⟩ := acts_ok hst h.rel.dep e1
    have hvb : v.lz.buf = [] := by rw [c1.lz]; exact hb
    have hr := g.rel.setHist
    refine ⟨rfl, rfl, { hr with
      inv := ⟨hr.inv.hW, hr.inv.lt, hr.inv.blk, hr.inv.out⟩, inv' := ⟨hr.inv'.hW, hr.inv'.lt, hr.inv'.blk, hr.inv'.out⟩
      conf := hr.conf.of rfl rfl hr.conf.hdr, conf' := hr.conf'.of rfl rfl hr.conf'.hdr
      adler := fun _ => hr.adler (Or.inl g.opn)
      state := rfl
      live := ⟨fun e => (by cases e), fun e => (by cases e)⟩
      idle := fun e => (by rcases e with e | e <;> cases e)
      sums := fun _ => hr.sums (Or.inl g.opn)
      clos := fun _ => hvb
      none := fun e => (by cases e)
      some := fun e => (by cases e)
      cut := ?_ }, rfl⟩
    obtain ⟨ps, hd, hd', x, c⟩ := hr.cut
    exact ⟨ps, hd, hd', x, c.data, c.heads, c.left, c.right, fun _ => c.opn (Or.inl g.opn), fun e => (by rcases e with e | e <;> cases e)⟩
  · cases g2
  · cases g1
  · cases g1

/-! ### calls -/

/-- the two Writers between calls, after streams as described by `g` -/
structure At (O O' : Options) (B B' : List UInt8) (g : Segs) (s s' : WState) : Prop where
  rel : R O O' B B' g.done (g.cur.getD []) s s'
  cur : match g.cur with
    | none => Idle s
    | some _ => s.state = .openStream

theorem At.btw {g : Segs} {s s' : WState} (h : At O O' B B' g s s') : Btw O O' B B' g.done (g.cur.getD []) s s' := by
  refine ⟨h.rel, fun e => ?_⟩
  have := h.cur
  cases hg : g.cur with
  | none => rw [hg] at this; exact InStr.not_idle (Or.inr e) this
  | some x => rw [hg] at this; dsimp only at this; rw [e] at this; cases this

/-- the end of a stream all of whose data has been consumed -/
theorem finish_both {s s' t t' : WState} {a b : Bool} (h : R O O' B B' ds d s s') (hs : s.state = .openStream) (hb : s.lz.buf = [])
    (e : Go.chk (fun s => if s.state = .openStream then flushGuts .finishFlush s else .ok (true, s)) (Go.chk finishClosing <| Go.chk sinkFlush sinkSync) s = .ok (a, t))
    (e' : Go.chk (fun s => if s.state = .openStream then flushGuts .finishFlush s else .ok (true, s)) (Go.chk finishClosing <| Go.chk sinkFlush sinkSync) s' = .ok (b, t')) :
    a = true ∧ b = true ∧ R O O' B B' (ds ++ [d]) [] t t' ∧ Idle t := by
  rcases Word.chk_inv e with ⟨v, e1, e2⟩ | ⟨_, e1⟩ <;> rcases Word.chk_inv e' with ⟨v', e1', e2'⟩ | ⟨_, e1'⟩
  all_goals
    rw [if_pos hs] at e1
    rw [if_pos (h.state.trans hs)] at e1'
    obtain ⟨g1, g2, g3, g4⟩ := sim_finishGuts ⟨h, hs, fun e => (nomatch e)⟩ hb e1 e1'
  · rcases Word.chk_inv e2 with ⟨w, e3, e4⟩ | ⟨_, e3⟩ <;> rcases Word.chk_inv e2' with ⟨w', e3', e4'⟩ | ⟨_, e3'⟩
    all_goals obtain ⟨k1, k2, k3, k4, k5⟩ := sim_finishClosing g3 g4 e3 e3'
    · obtain ⟨m1, m2, m3, m4⟩ := sim_sinks k3 e4 e4'
      exact ⟨m1, m2, m3, Or.inr (m4.trans k4)⟩
    · cases k2
    · cases k1
    · cases k1
  · cases g2
  · cases g1
  · cases g1

theorem flush_at {L : HuffLib} (hL : L.Lawful) (hdict : O'.dict = O.dict) (hp : usesStore O' = usesStore O) (ft : FlushType) {g : Segs} {s s' t t' : WState} {a b : Bool}
    (h : At O O' B B' g s s') (e : flushImpl L ft s = .ok (a, t)) (e' : flushImpl L ft s' = .ok (b, t')) : a = true ∧ b = true ∧ At O O' B B' (g.step (.flush ft)) t t' := by
  unfold flushImpl at e e'
  rcases Word.chk_inv e with ⟨u, e1, e2⟩ | ⟨_, e1⟩ <;> rcases Word.chk_inv e' with ⟨u', e1', e2'⟩ | ⟨_, e1'⟩
  all_goals obtain ⟨q1, q2, hq, q4, q5, q6⟩ := sim_compressImpl hL hdict hp true h.btw e1 e1'
  rotate_left
  · cases q2
  · cases q1
  · cases q1
  have hub := q6 rfl
  have hcur := h.cur
  have hu : u.state = s.state := by
    by_cases hb : s.lz.buf = []
    · rw [q5 hb]
    · cases hg : g.cur with
      | none =>
        rw [hg] at hcur
        have := (h.rel.idle hcur).2.2
        rw [hg] at this
        exact absurd this.symm hb
      | some x => rw [hg] at hcur; rw [q4 hb]; exact hcur.symm
  have hr := hq.rel
  clear e e' e1 e1'
  have skip : ∀ {x y : WState} {c : Bool} {f : Go WState Bool}, x.state ≠ .noStream ∨ ft ≠ .finishFlush →
      Go.chk (fun s => if ft = .finishFlush ∧ s.state = .noStream then Go.chk writeHeader (setState .openStream) s else .ok (true, s)) f x = .ok (c, y) → f x = .ok (c, y) := by
    intro x y c f hx hf
    rw [chk_if (q := fun s => ft = .finishFlush ∧ s.state = .noStream) (fun k => by rcases hx with hx | hx; exacts [hx k.2, hx k.1])] at hf
    exact hf
  have plain : ∀ {x x' y y' : WState} {c c' : Bool}, R O O' B B' g.done (g.cur.getD []) x x' → x.state = s.state →
      (x.state = .openStream → ft ≠ .finishFlush) →
      Go.chk (fun s => if s.state = .openStream then flushGuts ft s else .ok (true, s)) (Go.chk finishClosing <| Go.chk sinkFlush sinkSync) x = .ok (c, y) →
      Go.chk (fun s => if s.state = .openStream then flushGuts ft s else .ok (true, s)) (Go.chk finishClosing <| Go.chk sinkFlush sinkSync) x' = .ok (c', y') →
      c = true ∧ c' = true ∧ At O O' B B' g y y' := by
    intro x x' y y' c c' hx hxs hf k k'
    have go : ∀ {v v' : WState}, R O O' B B' g.done (g.cur.getD []) v v' → v.state = s.state → Go.chk finishClosing (Go.chk sinkFlush sinkSync) v = .ok (c, y) →
        Go.chk finishClosing (Go.chk sinkFlush sinkSync) v' = .ok (c', y') → c = true ∧ c' = true ∧ At O O' B B' g y y' := by
      intro v v' hv hvs k k'
      have hnc : v.state ≠ .closingStream := by rw [hvs]; exact h.btw.st
      rw [chk_ok (finishClosing_other hnc)] at k
      rw [chk_ok (finishClosing_other (by rw [hv.state]; exact hnc))] at k'
      obtain ⟨m1, m2, m3, m4⟩ := sim_sinks hv k k'
      refine ⟨m1, m2, m3, ?_⟩
      have e0 : y.state = s.state := m4.trans hvs
      cases hg : g.cur with
      | none => rw [hg] at hcur; exact (instr_eq e0).2.2 hcur
      | some z => rw [hg] at hcur; exact e0.trans hcur
    by_cases ho : x.state = .openStream
    · rcases Word.chk_inv k with ⟨v, k1, k2⟩ | ⟨_, k1⟩ <;> rcases Word.chk_inv k' with ⟨v', k1', k2'⟩ | ⟨_, k1'⟩
      all_goals
        rw [if_pos ho] at k1
        rw [if_pos (hx.state.trans ho)] at k1'
        obtain ⟨g1, g2, g3⟩ := sim_flushGuts ft (hf ho) _ _ _ _ _ _ ⟨hx, ho, fun e => (nomatch e)⟩ k1 k1'
      · exact go g3.rel (by rw [g3.opn, ← hxs, ho]) k2 k2'
      · cases g2
      · cases g1
      · cases g1
    · rw [chk_if (q := fun s => s.state = .openStream) ho] at k
      rw [chk_if (q := fun s => s.state = .openStream) (fun z => ho (hx.state.symm.trans z))] at k'
      exact go hx hxs k k'
  by_cases hf : ft = .finishFlush
  · subst hf
    show a = true ∧ b = true ∧ At O O' B B' g.finish t t'
    cases hg : g.cur with
    | some x =>
      rw [hg] at hcur
      have hn : u.state ≠ .noStream := by rw [hu, hcur]; exact fun e => (by cases e)
      have e2 := skip (Or.inl hn) e2
      have e2' := skip (Or.inl (by rw [hr.state]; exact hn)) e2'
      obtain ⟨m1, m2, m3, m4⟩ := finish_both hr (hu.trans hcur) hub e2 e2'
      refine ⟨m1, m2, ?_⟩
      rw [hg] at m3
      have e0 : g.finish = ⟨g.done ++ [x], none⟩ := by unfold Segs.finish; rw [hg]
      rw [e0]
      exact ⟨m3, m4⟩
    | none =>
      rw [hg] at hcur
      rcases hcur with hn | hn
      · have hd := h.rel.none hn
        have e0 : g.finish = ⟨[[]], none⟩ := by unfold Segs.finish; rw [hg]; simp only []; rw [if_pos hd]
        have hun := hu.trans hn
        rcases Word.chk_inv e2 with ⟨v, e3, e4⟩ | ⟨_, e3⟩ <;> rcases Word.chk_inv e2' with ⟨v', e3', e4'⟩ | ⟨_, e3'⟩
        all_goals
          rw [if_pos ⟨rfl, hun⟩] at e3
          rw [if_pos ⟨rfl, hr.state.trans hun⟩] at e3'
          obtain ⟨k1, k2, k3, k4, k5⟩ := sim_openStream hdict hr (Or.inl hun) e3 e3'
        · obtain ⟨m1, m2, m3, m4⟩ := finish_both k3 k4 (k5.trans hub) e4 e4'
          rw [hg, hd] at m3
          rw [e0]
          exact ⟨m1, m2, m3, m4⟩
        · cases k2
        · cases k1
        · cases k1
      · have hd := h.rel.some hn
        have e0 : g.finish = g := by unfold Segs.finish; rw [hg]; simp only []; rw [if_neg hd]
        have hnn : u.state ≠ .noStream := by rw [hu, hn]; exact fun e => (by cases e)
        have e2 := skip (Or.inl hnn) e2
        have e2' := skip (Or.inl (by rw [hr.state]; exact hnn)) e2'
        rw [e0]
        exact plain hr hu (fun k => by rw [hu, hn] at k; cases k) e2 e2'
  · have e0 : g.step (.flush ft) = g := by cases ft <;> first | rfl | exact absurd rfl hf
    rw [e0]
    exact plain hr hu (fun _ => hf) (skip (Or.inr hf) e2) (skip (Or.inr hf) e2')

/-- data enters the buffer -/
theorem Btw.accept {s s' : WState} (h : Btw O O' B B' ds d s s') (p : List UInt8) :
    Btw O O' B B' ds (d ++ p.take (accepted p s)) (accept p s) { s' with lz := (s.lz.write p).2 } := by
  have hr := h.rel
  refine ⟨{ hr with
    inv := ⟨hr.inv.hW, hr.inv.lt, hr.inv.blk, hr.inv.out⟩, inv' := ⟨hr.inv'.hW, hr.inv'.lt, hr.inv'.blk, hr.inv'.out⟩
    conf := hr.conf.of rfl rfl hr.conf.hdr, conf' := hr.conf'.of rfl (by rw [hr.lz]; rfl) hr.conf'.hdr
    lz := rfl
    cap := accept_cap hr.cap
    idle := fun e => ?_
    sums := fun e => ?_
    clos := fun e => absurd e h.st
    cut := ?_ }, h.st⟩
  · obtain ⟨a, b, c⟩ := hr.idle e
    exact ⟨a, b, by rw [accept_buf, c]⟩
  · exact (hr.sums e).accept p
  · obtain ⟨ps, hd, hd', x, c⟩ := hr.cut
    exact ⟨ps, hd, hd', x, c.congr rfl rfl rfl⟩

theorem writeLoop_at {L : HuffLib} (hL : L.Lawful) (hdict : O'.dict = O.dict) (hp : usesStore O' = usesStore O) : ∀ (fuel : Nat) (p d : List UInt8) (s s' t t' : WState)
    (a b : Option (Option Err)), Btw O O' B B' ds d s s' → writeLoop L fuel p s = .ok (a, t) → writeLoop L fuel p s' = .ok (b, t') →
    a = none ∧ b = none ∧ Btw O O' B B' ds (d ++ p) t t' ∧ (p = [] → t = s) ∧ (s.state = .openStream → t.state = .openStream) ∧ (p ≠ [] → s.lz.buf = [] → t.state = .openStream)
  | 0, _, _, _, _, _, _, _, _, _, e, _ => nomatch e
  | fuel + 1, p, d, s, s', t, t', a, b, h, e, e' => by
    simp only [writeLoop] at e e'
    rw [h.rel.lz] at e'
    by_cases hpe : p = []
    · rw [if_pos hpe] at e e'
      cases e; cases e'
      subst hpe
      exact ⟨rfl, rfl, by rw [List.append_nil]; exact h, fun _ => rfl, id, fun k => absurd rfl k⟩
    · rw [if_neg hpe] at e e'
      have hz := h.accept p
      generalize hall : (((s.lz.write p).1 == 0) || decide ((s.lz.write p).1 < p.length)) = all at e e'
      cases e1 : compressImpl L all { s with lz := (s.lz.write p).2 } with
      | error q => rw [e1] at e; cases e
      | ok r =>
        cases e1' : compressImpl L all { s' with lz := (s.lz.write p).2 } with
        | error q => rw [e1'] at e'; cases e'
        | ok r' =>
          obtain ⟨x, u⟩ := r
          obtain ⟨x', u'⟩ := r'
          obtain ⟨rfl, rfl, hu, hs, hs2, _⟩ := sim_compressImpl hL hdict hp all hz e1 e1'
          rw [e1] at e; rw [e1'] at e'
          obtain ⟨h1, h2, h3, h4, h5, h6⟩ := writeLoop_at hL hdict hp fuel _ _ _ _ _ _ _ _ hu e e'
          refine ⟨h1, h2, ?_, fun k => absurd k hpe, fun k => h5 ?_, fun _ k => h5 (hs ?_)⟩
          · have : d ++ List.take (accepted p s) p ++ List.drop (s.lz.write p).1 p = d ++ p := by
              rw [List.append_assoc]; congr 1; exact List.take_append_drop _ _
            rw [this] at h3
            exact h3
          · by_cases hb : (s.lz.write p).2.buf = []
            · rw [hs2 hb]; exact k
            · exact hs hb
          · show s.lz.buf ++ p.take (min p.length (s.lz.cap - s.lz.buf.length)) ≠ []
            rw [k, List.nil_append, List.length_nil]
            have := cap_pos s.lz
            intro hc
            have hl := congrArg List.length hc
            have : p.length ≠ 0 := fun z => hpe (List.length_eq_zero_iff.1 z)
            rw [List.length_take, List.length_nil] at hl
            omega

theorem write_at {L : HuffLib} (hL : L.Lawful) (hdict : O'.dict = O.dict) (hp : usesStore O' = usesStore O) {fuel : Nat} {p : List UInt8} {g : Segs} {s s' t t' : WState}
    {a b : Option (Option Err)} (h : At O O' B B' g s s') (e : writeLoop L fuel p s = .ok (a, t)) (e' : writeLoop L fuel p s' = .ok (b, t')) :
    a = none ∧ b = none ∧ At O O' B B' (g.step (.write p)) t t' := by
  obtain ⟨h1, h2, h3, h4, h5, h6⟩ := writeLoop_at hL hdict hp _ _ _ _ _ _ _ _ _ h.btw e e'
  refine ⟨h1, h2, ?_⟩
  have hc := h.cur
  by_cases hpe : p = []
  · subst hpe
    have : t = s := h4 rfl
    subst this
    have e0 : g.step (.write []) = g := by simp [Segs.step]
    rw [e0]
    rw [List.append_nil] at h3
    exact ⟨h3.rel, hc⟩
  · have e0 : g.step (.write p) = { g with cur := some (g.cur.getD [] ++ p) } := by simp only [Segs.step, if_neg hpe]
    rw [e0]
    refine ⟨h3.rel, ?_⟩
    show t.state = .openStream
    cases hg : g.cur with
    | some x => rw [hg] at hc; exact h5 hc
    | none =>
      rw [hg] at hc
      have := (h.rel.idle hc).2.2
      rw [hg] at this
      exact h6 hpe this.symm

/-- both have been closed -/
def Done (O O' : Options) (B B' : List UInt8) (g : Segs) (s s' : WState) : Prop :=
  ∃ u u', At O O' B B' g u u' ∧ g.cur = none ∧ s = { u with state := .closed } ∧ s' = { u' with state := .closed }

theorem At.head1 {g : Segs} {s s' : WState} (h : At O O' B B' g s s') (x : Header) (hx : headerOK x = true) : At O O' B B' g { s with header := x } s' :=
  ⟨{ h.rel with
    inv := ⟨h.rel.inv.hW, h.rel.inv.lt, h.rel.inv.blk, h.rel.inv.out⟩
    conf := h.rel.conf.of rfl rfl hx
    cut := by
      obtain ⟨ps, hd, hd', x, c⟩ := h.rel.cut
      exact ⟨ps, hd, hd', x, c.congr rfl rfl rfl⟩ }, h.cur⟩

theorem At.head2 {g : Segs} {s s' : WState} (h : At O O' B B' g s s') (x : Header) (hx : headerOK x = true) : At O O' B B' g s { s' with header := x } :=
  ⟨{ h.rel with
    inv' := ⟨h.rel.inv'.hW, h.rel.inv'.lt, h.rel.inv'.blk, h.rel.inv'.out⟩
    conf' := h.rel.conf'.of rfl rfl hx
    cut := by
      obtain ⟨ps, hd, hd', x, c⟩ := h.rel.cut
      exact ⟨ps, hd, hd', x, c.congr rfl rfl rfl⟩ }, h.cur⟩

/-- is it `SetHeader`? -/
def isHead : WOp → Bool
  | .setHeader _ => true
  | _ => false

theorem step_head1 {L : HuffLib} {op : WOp} (ho : isHead op = true) {g : Segs} {s s' t : WState} {r : WRes} (h : At O O' B B' g s s') (e : stepOp L op s = .ok (r, t)) :
    At O O' B B' g t s' := by
  cases op with
  | setHeader x =>
    simp only [stepOp, wSetHeader] at e
    by_cases hx : headerOK x = true
    · rw [if_pos hx] at e; cases e; exact h.head1 x hx
    · rw [if_neg hx] at e; cases e; exact h
  | _ => cases ho

theorem step_head2 {L : HuffLib} {op : WOp} (ho : isHead op = true) {g : Segs} {s s' t' : WState} {r : WRes} (h : At O O' B B' g s s') (e : stepOp L op s' = .ok (r, t')) :
    At O O' B B' g s t' := by
  cases op with
  | setHeader x =>
    simp only [stepOp, wSetHeader] at e
    by_cases hx : headerOK x = true
    · rw [if_pos hx] at e; cases e; exact h.head2 x hx
    · rw [if_neg hx] at e; cases e; exact h
  | _ => cases ho

theorem At.live {g : Segs} {s s' : WState} (h : At O O' B B' g s s') : (s.state ≠ .error ∧ s.state ≠ .closed) ∧ s'.state ≠ .error ∧ s'.state ≠ .closed := by
  have := h.rel.live
  rw [h.rel.state]
  exact ⟨this, this⟩

/-- `Write` and `Flush` -/
theorem step_at {L : HuffLib} (hL : L.Lawful) (hdict : O'.dict = O.dict) (hp : usesStore O' = usesStore O) {op : WOp} (ho : isHead op = false) (hc : op ≠ .close) {g : Segs}
    {s s' t t' : WState} {r r' : WRes} (h : At O O' B B' g s s') (e : stepOp L op s = .ok (r, t)) (e' : stepOp L op s' = .ok (r', t')) : At O O' B B' (g.step op) t t' := by
  obtain ⟨hl, hl'⟩ := h.live
  cases op with
  | write p =>
    simp only [stepOp, wWrite, if_neg hl.1, if_neg hl.2, if_neg hl'.1, if_neg hl'.2] at e e'
    cases e1 : writeLoop L (2 * p.length + 2) p s with
    | error q => rw [e1] at e; cases e
    | ok x =>
      cases e1' : writeLoop L (2 * p.length + 2) p s' with
      | error q => rw [e1'] at e'; cases e'
      | ok x' =>
        obtain ⟨a, v⟩ := x
        obtain ⟨a', v'⟩ := x'
        obtain ⟨rfl, rfl, hv⟩ := write_at hL hdict hp h e1 e1'
        rw [e1] at e; rw [e1'] at e'
        cases e; cases e'
        exact hv
  | flush ft =>
    simp only [stepOp, wFlush, if_neg hl.1, if_neg hl.2, if_neg hl'.1, if_neg hl'.2] at e e'
    cases e1 : flushImpl L ft s with
    | error q => rw [e1] at e; cases e
    | ok x =>
      cases e1' : flushImpl L ft s' with
      | error q => rw [e1'] at e'; cases e'
      | ok x' =>
        obtain ⟨a, v⟩ := x
        obtain ⟨a', v'⟩ := x'
        obtain ⟨rfl, rfl, hv⟩ := flush_at hL hdict hp ft h e1 e1'
        rw [e1] at e; rw [e1'] at e'
        cases e; cases e'
        exact hv
  | setHeader x => cases ho
  | close => exact absurd rfl hc

theorem finish_none (g : Segs) : g.finish.cur = none := by
  unfold Segs.finish
  split
  · rfl
  · split
    · rfl
    · assumption

theorem close_at {L : HuffLib} (hL : L.Lawful) (hdict : O'.dict = O.dict) (hp : usesStore O' = usesStore O) {g : Segs} {s s' t t' : WState} {r r' : WRes} (h : At O O' B B' g s s')
    (e : stepOp L .close s = .ok (r, t)) (e' : stepOp L .close s' = .ok (r', t')) : Done O O' B B' g.finish t t' := by
  obtain ⟨hl, hl'⟩ := h.live
  simp only [stepOp, wClose, if_neg hl.1, if_neg hl.2, if_neg hl'.1, if_neg hl'.2] at e e'
  cases e1 : flushImpl L .finishFlush s with
  | error q => rw [e1] at e; cases e
  | ok x =>
    cases e1' : flushImpl L .finishFlush s' with
    | error q => rw [e1'] at e'; cases e'
    | ok x' =>
      obtain ⟨a, v⟩ := x
      obtain ⟨a', v'⟩ := x'
      obtain ⟨rfl, rfl, hv⟩ := flush_at hL hdict hp .finishFlush h e1 e1'
      rw [e1] at e; rw [e1'] at e'
      cases e; cases e'
      exact ⟨v, v', hv, finish_none g, rfl, rfl⟩

theorem run_inv {L : HuffLib} {op : WOp} {ops : List WOp} {s t : WState} {rs : List WRes} (e : runOps L (op :: ops) s = .ok (rs, t)) :
    ∃ r u rs', stepOp L op s = .ok (r, u) ∧ runOps L ops u = .ok (rs', t) ∧ rs = r :: rs' := by
  simp only [runOps] at e
  cases e1 : stepOp L op s with
  | error q => rw [e1] at e; cases e
  | ok x =>
    obtain ⟨r, u⟩ := x
    rw [e1] at e
    simp only [] at e
    cases e2 : runOps L ops u with
    | error q => rw [e2] at e; cases e
    | ok y =>
      obtain ⟨rs', v⟩ := y
      rw [e2] at e
      cases e
      exact ⟨r, u, rs', rfl, e2, rfl⟩

/-- the calls which matter for the data -/
def calls (ops : List WOp) : List WOp := ops.filter fun op => !isHead op

/-- `Write`s and `Flush`es -/
theorem run_at {L : HuffLib} (hL : L.Lawful) (hdict : O'.dict = O.dict) (hp : usesStore O' = usesStore O) : ∀ (n : Nat) (ops ops' : List WOp) (g : Segs) (s s' t t' : WState)
    (rs rs' : List WRes), ops.length + ops'.length ≤ n → calls ops' = calls ops → .close ∉ ops → .close ∉ ops' → At O O' B B' g s s' → runOps L ops s = .ok (rs, t) →
    runOps L ops' s' = .ok (rs', t') → At O O' B B' (ops.foldl Segs.step g) t t'
  | n, [], [], g, s, s', t, t', rs, rs', _, _, _, _, h, e, e' => by cases e; cases e'; exact h
  | 0, op :: ops, ops', g, s, s', t, t', rs, rs', hn, _, _, _, _, _, _ => by simp at hn
  | 0, [], op :: ops', g, s, s', t, t', rs, rs', hn, _, _, _, _, _, _ => by simp at hn
  | n + 1, op :: ops, ops', g, s, s', t, t', rs, rs', hn, hc, hx, hx', h, e, e' => by
    simp only [List.length_cons] at hn
    cases ho : isHead op with
    | true =>
      obtain ⟨r, u, rs1, e1, e2, _⟩ := run_inv e
      have hc' : calls ops' = calls ops := by rw [hc]; unfold calls; rw [List.filter_cons_of_neg (by simp [ho])]
      have := run_at hL hdict hp n ops ops' g _ _ _ _ _ _ (by omega) hc' (fun k => hx (List.mem_cons_of_mem _ k)) hx' (step_head1 ho h e1) e2 e'
      have e0 : g.step op = g := by cases op <;> first | rfl | cases ho
      rw [List.foldl_cons, e0]
      exact this
    | false =>
      cases ops' with
      | nil =>
        unfold calls at hc
        rw [List.filter_cons_of_pos (by simp [ho])] at hc
        cases hc
      | cons op' ops' =>
        simp only [List.length_cons] at hn
        cases ho' : isHead op' with
        | true =>
          obtain ⟨r, u, rs1, e1, e2, _⟩ := run_inv e'
          have hc' : calls ops' = calls (op :: ops) := by rw [← hc]; unfold calls; rw [List.filter_cons_of_neg (by simp [ho'])]
          exact run_at hL hdict hp n (op :: ops) ops' g _ _ _ _ _ _ (by simp only [List.length_cons]; omega) hc' hx (fun k => hx' (List.mem_cons_of_mem _ k)) (step_head2 ho' h e1) e e2
        | false =>
          unfold calls at hc
          rw [List.filter_cons_of_pos (a := op') (by simp [ho']), List.filter_cons_of_pos (a := op) (by simp [ho])] at hc
          obtain ⟨rfl, hc2⟩ := List.cons.inj hc
          obtain ⟨r, u, rs1, e1, e2, _⟩ := run_inv e
          obtain ⟨r', u', rs1', e1', e2', _⟩ := run_inv e'
          rw [List.foldl_cons]
          exact run_at hL hdict hp n ops ops' _ _ _ _ _ _ _ (by omega) hc2 (fun k => hx (List.mem_cons_of_mem _ k)) (fun k => hx' (List.mem_cons_of_mem _ k))
            (step_at hL hdict hp ho (fun k => hx (by rw [k]; exact List.mem_cons_self ..)) h e1 e1') e2 e2'
  | n + 1, [], op' :: ops', g, s, s', t, t', rs, rs', hn, hc, hx, hx', h, e, e' => by
    simp only [List.length_cons] at hn
    cases ho' : isHead op' with
    | false =>
      unfold calls at hc
      rw [List.filter_cons_of_pos (by simp [ho'])] at hc
      cases hc
    | true =>
      obtain ⟨r, u, rs1, e1, e2, _⟩ := run_inv e'
      have hc' : calls ops' = calls [] := by rw [← hc]; unfold calls; rw [List.filter_cons_of_neg (by simp [ho'])]
      exact run_at hL hdict hp n [] ops' g _ _ _ _ _ _ (by omega) hc' hx (fun k => hx' (List.mem_cons_of_mem _ k)) (step_head2 ho' h e1) e e2

end Flate.Proof.Form
