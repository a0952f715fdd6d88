/-
The Writer between API calls: idle, or in the middle of a stream.
-/
import Verif.Proof.WHead

namespace Flate.Proof
open Flate.Spec Flate.Model

theorem Acts.congr {f g : Go WState Bool} {s : WState} {p0 p1 : Phase} {Q : WState → Prop} (h : Acts g s p0 p1 Q)
    (e : f s = g s) : Acts f s p0 p1 Q := by
  unfold Acts at h ⊢
  rw [e]; exact h

theorem chk_true_inv {x y : Go WState Bool} {s t : WState} (h : Go.chk x y s = .ok (true, t)) :
    ∃ u, x s = .ok (true, u) ∧ y u = .ok (true, t) := by
  unfold Go.chk at h
  cases hx : x s with
  | error e => rw [hx] at h; cases h
  | ok r =>
    obtain ⟨b, u⟩ := r
    rw [hx] at h
    cases b with
    | false => cases h
    | true => exact ⟨u, rfl, h⟩

theorem wBitsFlush_zero {s t : WState} (h : wBitsFlush s = .ok (true, t)) : t.obLen = 0 := by
  unfold wBitsFlush at h
  split at h
  · rename_i h0; cases h; exact h0
  · obtain ⟨b, u, e, _, o1, _⟩ := outWrite_any ((leBytes (s.W / 8) s.obBlock).take ((s.obLen + 7) / 8))
      { s with obLen := 0, obBlock := 0 }
    rw [e] at h
    cases h
    exact o1

theorem wBufWrite_zero {s t : WState} {p : List UInt8} (h : wBufWrite p s = .ok (true, t)) : t.obLen = 0 := by
  obtain ⟨u, h1, h2⟩ := chk_true_inv h
  obtain ⟨b, v, e, _, o1, _⟩ := outWrite_any p u
  rw [e] at h2
  cases h2
  rw [o1]; exact wBitsFlush_zero h1

theorem stored_zero {s t : WState} {data : List UInt8} {f : Bool}
    (h : writeStoredBlock wBW data f s = .ok (true, t)) (hd : data.length ≤ 65535) : t.obLen = 0 := by
  rw [writeStoredBlock_eq wBW hd] at h
  unfold storedCmds run at h
  obtain ⟨_, _, h⟩ := chk_true_inv h
  unfold run at h
  obtain ⟨_, _, h⟩ := chk_true_inv h
  unfold run at h
  obtain ⟨_, _, h⟩ := chk_true_inv h
  unfold run at h
  obtain ⟨_, _, h⟩ := chk_true_inv h
  unfold run at h
  obtain ⟨_, _, h⟩ := chk_true_inv h
  unfold run at h
  obtain ⟨u, h1, h⟩ := chk_true_inv h
  have := wBufWrite_zero h1
  have e : run wBW [Cmd.ev (.blockEnd .stored f)] u = .ok (true, { u with events := u.events ++ [⟨wEvent u (.blockEnd .stored f), u.sink.out.length, u.lz.buf.length⟩] }) := rfl
  rw [e] at h
  cases h
  exact this

/-! ### kinds of blocks -/

/-- What kinds of block the Writer may produce; `pf` says whether `PartialFlush` is used. -/
structure BlockOK (L : HuffLib) (o : Options) (lim : Nat) (pf : Prop) (E : BlockRel) : Prop where
  stored : ∀ {pos f h b h'}, StoredEnc pos f h b h' → PadZero pos b → E pos f h b h'
  data : usesStore o = false → ∀ {pos f h b h'}, BlockEnc (fun l => L.accepts l = true) lim pos f h b h' →
    NotLonger pos h b h' → PadZero pos b → E pos f h b h'
  static : pf → ∀ {pos f h b h'}, EmptyStatic pos f h b h' → E pos f h b h'
  mod : ∀ pos pos' f h b h', pos % 8 = pos' % 8 → E pos f h b h' → E pos' f h b h'

theorem padLen_mod {a b : Nat} (h : a % 8 = b % 8) : padLen a = padLen b := by unfold padLen; rw [h]

theorem storedEnc_mod {pos pos' : Nat} {f : Bool} {h : List UInt8} {b : List Bool} {h' : List UInt8}
    (hp : pos % 8 = pos' % 8) (e : StoredEnc pos f h b h') : StoredEnc pos' f h b h' := by
  obtain ⟨pad, data, h1, h2, h3, h4⟩ := e
  exact ⟨pad, data, by rw [h1]; exact padLen_mod (by omega), h2, h3, h4⟩

theorem blockEnc_mod {ok : List Nat → Prop} {win pos pos' : Nat} {f : Bool} {h : List UInt8} {b : List Bool}
    {h' : List UInt8} (hp : pos % 8 = pos' % 8) (e : BlockEnc ok win pos f h b h') : BlockEnc ok win pos' f h b h' := by
  cases e with
  | stored pad data h1 h2 => exact .stored pad data (by rw [h1]; exact padLen_mod (by omega)) h2
  | fixed is h' h1 h2 => exact .fixed is h' h1 h2
  | dynamic hd is h' h1 h2 h3 h4 => exact .dynamic hd is h' h1 h2 h3 h4

theorem blockEnc_stored {ok : List Nat → Prop} {win pos : Nat} {f : Bool} {h : List UInt8} {b : List Bool}
    {h' : List UInt8} (e : StoredEnc pos f h b h') : BlockEnc ok win pos f h b h' := by
  obtain ⟨pad, data, h1, h2, rfl, rfl⟩ := e
  exact .stored pad data h1 h2

theorem blockEnc_static {ok : List Nat → Prop} {win pos : Nat} {f : Bool} {h : List UInt8} {b : List Bool}
    {h' : List UInt8} (e : EmptyStatic pos f h b h') : BlockEnc ok win pos f h b h' := by
  obtain ⟨rfl, rfl, rfl⟩ := e
  exact .fixed [] _ (by simp) rfl

theorem expand_mono {win win' : Nat} (hw : win ≤ win') : ∀ {is : List Item} {x y : List UInt8}, expand win x is = some y →
    expand win' x is = some y := by
  intro is
  induction is with
  | nil => intro x y h; exact h
  | cons i is ih =>
    intro x y h
    cases i with
    | lit b => exact ih h
    | ref li lx di dx =>
      simp only [expand] at h ⊢
      split at h
      · rename_i hc
        rw [if_pos ⟨Nat.le_trans hc.1 hw, hc.2⟩]
        exact ih h
      · cases h

theorem blockEnc_win {ok : List Nat → Prop} {win win' pos : Nat} (hw : win ≤ win') {f : Bool} {h : List UInt8}
    {b : List Bool} {h' : List UInt8} (e : BlockEnc ok win pos f h b h') : BlockEnc ok win' pos f h b h' := by
  cases e with
  | stored pad data h1 h2 => exact .stored pad data h1 h2
  | fixed is h' h1 h2 => exact .fixed is h' h1 (expand_mono hw h2)
  | dynamic hd is h' h1 h2 h3 h4 => exact .dynamic hd is h' h1 h2 h3 (expand_mono hw h4)

/-- any block RFC 1951 allows, with distances up to `win` -/
theorem blockOK_any (L : HuffLib) (o : Options) {lim win : Nat} (pf : Prop) (h : lim ≤ win) :
    BlockOK L o lim pf (BlockEnc (fun l => L.accepts l = true) win) :=
  { stored := fun e _ => blockEnc_stored e
    data := fun _ => fun e _ _ => blockEnc_win h e
    static := fun _ => fun e => blockEnc_static e
    mod := fun _ _ _ _ _ _ hp e => blockEnc_mod hp e }

/-- any such block, as long as it is not longer than a stored one -/
theorem blockOK_short (L : HuffLib) (o : Options) {lim win : Nat} (pf : Prop) (h : lim ≤ win) :
    BlockOK L o lim pf (fun pos f h b h' => BlockEnc (fun l => L.accepts l = true) win pos f h b h' ∧ NotLonger pos h b h') :=
  { stored := fun e _ => ⟨blockEnc_stored e, by
      obtain ⟨pad, data, h1, h2, rfl, rfl⟩ := e
      simp [NotLonger, h1, bytesBits_length]; omega⟩
    data := fun _ => fun e n _ => ⟨blockEnc_win h e, n⟩
    static := fun _ => fun e => ⟨blockEnc_static e, by
      obtain ⟨rfl, rfl, rfl⟩ := e
      have : (dataBits fixedLL fixedD []).length = 7 := by decide +kernel
      simp [NotLonger, this]; omega⟩
    mod := fun pos pos' _ _ _ _ hp e => ⟨blockEnc_mod hp e.1, by
      have := e.2
      unfold NotLonger at this ⊢
      rw [padLen_mod (a := pos + 3) (b := pos' + 3) (by omega)] at this
      exact this⟩ }

/-- any such block, with zeros where a decoder skips bits -/
theorem blockOK_padZero (L : HuffLib) (o : Options) {lim win : Nat} (pf : Prop) (h : lim ≤ win) :
    BlockOK L o lim pf (fun pos f h b h' => BlockEnc (fun l => L.accepts l = true) win pos f h b h' ∧ PadZero pos b) :=
  { stored := fun e z => ⟨blockEnc_stored e, z⟩
    data := fun _ => fun e _ z => ⟨blockEnc_win h e, z⟩
    static := fun _ => fun e => ⟨blockEnc_static e, by obtain ⟨rfl, rfl, rfl⟩ := e; exact padZero_static _ _ _⟩
    mod := fun _ _ _ _ _ _ hp e => ⟨blockEnc_mod hp e.1, PadZero.mod hp e.2⟩ }

/-- stored blocks only -/
theorem blockOK_stored (L : HuffLib) {o : Options} (lim : Nat) (h : usesStore o = true) :
    BlockOK L o lim False StoredEnc :=
  { stored := fun e _ => e
    data := fun h' => absurd (h.symm.trans h') (by simp)
    static := fun f => f.elim
    mod := fun _ _ _ _ _ _ hp e => storedEnc_mod hp e }

/-- stored blocks, and empty static ones -/
theorem blockOK_stored_static (L : HuffLib) {o : Options} (lim : Nat) (pf : Prop) (h : usesStore o = true) :
    BlockOK L o lim pf (fun pos f h b h' => StoredEnc pos f h b h' ∨ EmptyStatic pos f h b h') :=
  { stored := fun e _ => Or.inl e
    data := fun h' => absurd (h.symm.trans h') (by simp)
    static := fun _ => fun e => Or.inr e
    mod := fun _ _ _ _ _ _ hp e => e.imp (storedEnc_mod hp) id }

theorem blocks_mod {E : BlockRel} (hm : ∀ pos pos' f h b h', pos % 8 = pos' % 8 → E pos f h b h' → E pos' f h b h')
    {pos : Nat} {h h' : List UInt8} {bs : List Bool} (hb : Blocks E pos h bs h') :
    ∀ {pos' : Nat}, pos % 8 = pos' % 8 → Blocks E pos' h bs h' := by
  induction hb with
  | nil pos h => intro _ _; exact .nil _ _
  | cons hx _ ih => intro pos' hp; exact .cons (hm _ _ _ _ _ _ hp hx) (ih (by omega))

/-! ### in the middle of a stream -/

/-- Behind the bytes `pre`, the Writer has produced blocks which, starting from the history `h0`, give
`d` except for what is still buffered. -/
def OpenAt (E : BlockRel) (s : WState) (pre h0 d : List UInt8) : Prop :=
  ∃ bs c, view s = bytesBits pre ++ bs ∧ Blocks E 0 h0 bs (h0 ++ c) ∧ s.lz.hist <:+ h0 ++ c ∧ d = c ++ s.lz.buf

/-- the checksums and the length of the consumed part of the stream's data `d` -/
def Sums (s : WState) (d : List UInt8) : Prop :=
  ∃ c, d = c ++ s.lz.buf ∧ AdlerIs s.adler c ∧ CrcIs s.crcIn c ∧ s.inStream = c.length

theorem OpenAt.grow {E : BlockRel} (hm : ∀ pos pos' f h b h', pos % 8 = pos' % 8 → E pos f h b h' → E pos' f h b h')
    {s t : WState} {pre h0 d c : List UInt8} (h : OpenAt E s pre h0 d) (g : Grow E s t c) : OpenAt E t pre h0 d := by
  obtain ⟨bs, c0, hv, hb, hs, hd⟩ := h
  obtain ⟨b2, hv2, f2⟩ := g.bits
  obtain ⟨hb2, hs2⟩ := f2 _ hs
  refine ⟨bs ++ b2, c0 ++ c, by rw [hv2, hv, List.append_assoc], ?_, ?_, ?_⟩
  · rw [← List.append_assoc]
    refine blocks_append hb (blocks_mod hm hb2 ?_)
    rw [hv]; simp
  · rw [← List.append_assoc]; exact hs2
  · rw [hd, g.buf, List.append_assoc]

theorem Sums.grow {E : BlockRel} {s t : WState} {d c : List UInt8} (h : Sums s d) (g : Grow E s t c) : Sums t d := by
  obtain ⟨c0, hd, ha, hc, hi⟩ := h
  exact ⟨c0 ++ c, by rw [hd, g.buf, List.append_assoc], g.adler _ ha, g.crc _ hc, by rw [g.inStr, hi, List.length_append]⟩

/-- configuration of a Writer -/
structure Conf (s : WState) : Prop where
  fmt : s.o.format ≠ .default
  wb1 : 8 ≤ s.o.wbits
  wb2 : s.o.wbits ≤ 15
  lz : LZOK s.lz
  hdr : headerOK s.header = true

theorem Conf.of {s t : WState} (h : Conf s) (ho : t.o = s.o) (hl : t.lz.opts = s.lz.opts)
    (hh : headerOK t.header = true) : Conf t :=
  ⟨by rw [ho]; exact h.fmt, by rw [ho]; exact h.wb1, by rw [ho]; exact h.wb2, h.lz.congr hl, hh⟩

theorem cap_congr {z z' : LZ} (h : z'.opts = z.opts) : z'.cap = z.cap := by unfold LZ.cap; rw [h]

/-- what `compressImpl` does in an open stream -/
theorem compressImpl_open {L : HuffLib} (hL : L.Lawful) {E : BlockRel} {pf : Prop} {s : WState}
    (hE : BlockOK L s.o s.lz.maxDist pf E) (hi : WInv s) (hc : Conf s) (hcap : s.lz.buf.length ≤ s.lz.cap)
    (hs : s.state = .openStream) (all : Bool) :
    Acts (compressImpl L all) s .opened .opened (fun t => ∃ c, Grow E s t c ∧
      (t.lz.buf = [] ∨ (all = false ∧ s.lz.buf.length < room s ∧ t = s))) := by
  by_cases hb : s.lz.buf = []
  · exact Acts.done hi ⟨[], Grow.refl s, Or.inl hb⟩ (by unfold compressImpl; rw [if_pos hb])
  · have e1 : finishClosing s = .ok (true, s) := by
      unfold finishClosing; rw [if_neg (by rw [hs]; decide)]
    have heq : compressImpl L all s = (if usesStore s.o then compressStore all s else compressSlow L all s) := by
      unfold compressImpl
      rw [if_neg hb, chk_ok e1]
      refine chk_ok ?_
      exact if_neg (by rw [hs]; decide)
    by_cases hu : usesStore s.o = true
    · exact (compressStore_acts hE.stored hi hu all).congr (by rw [heq, if_pos hu])
    · have hu' : usesStore s.o = false := by simpa using hu
      exact (compressSlow_acts hL (hE.data hu') hi hc.lz hcap hu' all).congr (by rw [heq, if_neg hu])

/-- a stream has been opened -/
structure Opened (s u : WState) : Prop where
  state : u.state = .openStream
  inv : WInv u
  ob : u.obLen = 0
  push : pushed u = pushed s ++ headerBytes s.o (fillHeader s)
  header : u.header = fillHeader s
  lz : u.lz = { s.lz with hist := s.o.dict.getD [] }
  adler : u.adler = Adler.init
  crc : u.crcIn = Crc.init
  inS : u.inStream = 0
  num : u.numStreams = s.numStreams + 1
  o : u.o = s.o

theorem open_acts {s : WState} (hi : WInv s) (h0 : s.obLen = 0) (hc : Conf s)
    (hs : s.state = .noStream ∨ s.state = .closedStream) :
    Acts (Go.chk writeHeader (setState .openStream)) s .idle .opened (fun t => Opened s t) := by
  have := writeHeader_acts hi h0 hc.fmt hc.hdr (by rcases hs with h | h <;> rw [h] <;> simp) (by rcases hs with h | h <;> rw [h] <;> simp)
  rcases this with h | ⟨b, t, es, e, fl, ok, bad, rel⟩
  · exact Or.inl h
  · refine Or.inr ⟨b, t, es, e, fl, ?_, bad, rel⟩
    intro hb
    obtain ⟨⟨a1, a2, a3, a4, a5, a6, a7, a8, a9⟩, i, r⟩ := ok hb
    exact ⟨⟨a1, i, a2, by rw [a3, a4], a4, a5, a6, a7, a8, a9, fl.o⟩, i, r⟩

theorem Opened.conf {s u : WState} (h : Opened s u) (hc : Conf s) : Conf u :=
  hc.of h.o (by rw [h.lz]) (by rw [h.header]; exact fillHeader_ok hc.hdr)

theorem view_zero {s : WState} (h : s.obLen = 0) : view s = bytesBits (pushed s) := by
  unfold view; rw [h]; simp

/-- `OpenAt` for a stream just begun -/
theorem Opened.openAt {E : BlockRel} {s u : WState} (h : Opened s u) :
    OpenAt E u (pushed s ++ headerBytes s.o (fillHeader s)) (s.o.dict.getD []) s.lz.buf := by
  refine ⟨[], [], ?_, ?_, ?_, ?_⟩
  · rw [view_zero h.ob, h.push, List.append_nil]
  · rw [List.append_nil]; exact .nil _ _
  · rw [h.lz, List.append_nil]; exact List.suffix_refl _
  · rw [h.lz]; rfl

theorem Opened.sums {s u : WState} (h : Opened s u) : Sums u s.lz.buf :=
  ⟨[], by rw [h.lz]; rfl, by rw [h.adler]; exact adler_init, by rw [h.crc]; exact crc_init, by rw [h.inS]; rfl⟩

/-- what `compressImpl` does between streams -/
theorem compressImpl_idle {L : HuffLib} (hL : L.Lawful) {E : BlockRel} {pf : Prop} {s : WState}
    (hE : BlockOK L s.o s.lz.maxDist pf E) (hi : WInv s) (hc : Conf s) (hcap : s.lz.buf.length ≤ s.lz.cap)
    (hs : s.state = .noStream ∨ s.state = .closedStream) (h0 : s.obLen = 0) (hb : s.lz.buf ≠ []) (all : Bool) :
    Acts (compressImpl L all) s .idle .opened (fun t => ∃ u c, Opened s u ∧ Grow E u t c ∧
      (t.lz.buf = [] ∨ (all = false ∧ s.lz.buf.length < room s ∧ t = u))) := by
  have e1 : finishClosing s = .ok (true, s) := by
    unfold finishClosing; rw [if_neg (by rcases hs with h | h <;> rw [h] <;> decide)]
  have heq : compressImpl L all s = Go.chk (Go.chk writeHeader (setState .openStream)) (fun s =>
      if usesStore s.o then compressStore all s else compressSlow L all s) s := by
    unfold compressImpl
    rw [if_neg hb, chk_ok e1]
    conv => lhs; unfold Go.chk
    dsimp only
    rw [if_pos hs]
    conv => rhs; unfold Go.chk
  refine Acts.congr ?_ heq
  refine (open_acts hi h0 hc hs).chk ?_
  intro u es fl iu hu
  have hub : u.lz.buf = s.lz.buf := by rw [hu.lz]
  have huc : u.lz.cap = s.lz.cap := by rw [hu.lz]; rfl
  have hur : room u = room s := by unfold room; rw [hu.o, huc]
  have hE' : BlockOK L u.o u.lz.maxDist pf E := by
    rw [hu.o, maxDist_congr fl.lzopts]; exact hE
  have hc' := hu.conf hc
  have key : Acts (fun s => if usesStore s.o then compressStore all s else compressSlow L all s) u .opened .opened
      (fun t => ∃ c, Grow E u t c ∧ (t.lz.buf = [] ∨ (all = false ∧ u.lz.buf.length < room u ∧ t = u))) := by
    by_cases hx : usesStore u.o = true
    · exact (compressStore_acts hE'.stored iu hx all).congr (if_pos hx)
    · have hx' : usesStore u.o = false := by simpa using hx
      exact (compressSlow_acts hL (hE'.data hx') iu hc'.lz (by rw [hub, huc]; exact hcap) hx' all).congr
        (if_neg hx)
  refine key.mono ?_
  rintro t es' _ ⟨c, g, h⟩
  refine ⟨u, c, hu, g, h.imp id ?_⟩
  rintro ⟨h1, h2, h3⟩
  exact ⟨h1, by rw [← hub, ← hur]; exact h2, h3⟩

/-! ### flushes -/

/-- an empty non-final block as growth of the stream -/
theorem grow_empty {E : BlockRel} {s t : WState} {bits : List Bool} (hc : Core s t) (hs : t.state = s.state)
    (hv : view t = view s ++ bits) (hE : ∀ h, E (view s).length false h bits h) : Grow E s t [] := by
  have := grow_block (Eat.refl s) hc hs hv (E := E) (fun h _ => by rw [List.append_nil]; exact hE h)
  exact this

/-- what a flush other than FinishFlush adds to an open stream -/
theorem flushGuts_acts {L : HuffLib} {E : BlockRel} {pf : Prop} {s : WState}
    (hE : BlockOK L s.o s.lz.maxDist pf E) (hi : WInv s) (ft : FlushType) (hf : ft ≠ .finishFlush)
    (hp : ft = .partialFlush → pf) :
    Acts (flushGuts ft) s .opened .opened (fun t => ∃ u, Grow E s u [] ∧
      t = { u with lz := { u.lz with hist := t.lz.hist } } ∧ (t.lz.hist = u.lz.hist ∨ t.lz.hist = []) ∧
      (ft = .fullFlush → t.lz.hist = []) ∧ (ft = .syncFlush ∨ ft = .fullFlush → t.obLen = 0)) := by
  have hstored : Acts (writeStoredBlock wBW [] false) s .opened .opened (fun t => Grow E s t [] ∧ t.obLen = 0) := by
    have h1 := (writeStoredBlock_does hi (data := []) (by simp) false).acts (p0 := .opened) (p1 := .opened)
      (runPh_block .stored) (blockTrace_noBegin .stored)
    rcases h1 with h | ⟨b, t, es, e, fl, ok, bad, rel⟩
    · exact Or.inl h
    · refine Or.inr ⟨b, t, es, e, fl, ?_, bad, rel⟩
      intro hb
      subst hb
      obtain ⟨⟨c1, c2, c3, _⟩, r⟩ := ok rfl
      refine ⟨⟨grow_empty c1 c2 c3 ?_, stored_zero e (by simp)⟩, r⟩
      intro h
      exact hE.stored ⟨padBits ((view s).length + 3), [], by simp [padBits], by simp, by simp, by simp⟩ (padZero_stored _ _ _ _ _)
  cases ft with
  | finishFlush => exact absurd rfl hf
  | blockFlush =>
    exact Acts.done hi ⟨s, Grow.refl s, rfl, Or.inl rfl, by simp, by simp⟩ rfl
  | partialFlush =>
    have h1 := (writeStaticBlock_does hi (is := []) ToksAre.stop false).acts (p0 := .opened) (p1 := .opened)
      (runPh_block (evs_static [] false)) (blockTrace_noBegin (evs_static [] false))
    refine Acts.mono h1 ?_
    rintro t es fl ⟨c1, c2, c3, _⟩
    refine ⟨t, grow_empty c1 c2 c3 ?_, rfl, Or.inl rfl, by simp, by simp⟩
    intro h
    exact hE.static (hp rfl) ⟨rfl, rfl, rfl⟩
  | syncFlush =>
    refine hstored.mono ?_
    rintro t es fl ⟨g, z⟩
    exact ⟨t, g, rfl, Or.inl rfl, by simp, fun _ => z⟩
  | fullFlush =>
    refine hstored.chk ?_
    rintro t es fl it ⟨g, z⟩
    refine Or.inr ⟨true, { t with lz := { t.lz with hist := [] } }, [], rfl, ?_, fun _ => ?_, by simp, fun _ => rfl⟩
    · have hr := Flow.refl t
      exact ⟨rfl, rfl, rfl, rfl, rfl, rfl, rfl, rfl, rfl, rfl, List.prefix_refl _, List.prefix_refl _,
        List.prefix_refl _, rfl, rfl, by simp, by simp, by simp, by simp, Nat.le_refl _, Nat.le_refl _, rfl,
        hr.offs, hr.feed, by simp⟩
    · exact ⟨⟨t, g, rfl, Or.inr rfl, fun _ => rfl, fun _ => z⟩, ⟨it.hW, it.lt, it.blk, it.out⟩, rfl, rfl, rfl⟩

/-- forgetting history keeps `OpenAt` -/
theorem OpenAt.forget {E : BlockRel} {u t : WState} {pre h0 d : List UInt8} (h : OpenAt E u pre h0 d)
    (e : t = { u with lz := { u.lz with hist := t.lz.hist } }) (hh : t.lz.hist = u.lz.hist ∨ t.lz.hist = []) :
    OpenAt E t pre h0 d := by
  obtain ⟨bs, c, hv, hb, hs, hd⟩ := h
  have hv' : view t = view u := by rw [e]; rfl
  have hbuf : t.lz.buf = u.lz.buf := by rw [e]
  refine ⟨bs, c, by rw [hv', hv], hb, ?_, by rw [hbuf]; exact hd⟩
  rcases hh with hh | hh
  · rw [hh]; exact hs
  · rw [hh]; exact List.nil_suffix

theorem Sums.forget {u t : WState} {d : List UInt8} (h : Sums u d)
    (e : t = { u with lz := { u.lz with hist := t.lz.hist } }) : Sums t d := by
  obtain ⟨c, h1, h2, h3, h4⟩ := h
  exact ⟨c, by rw [e]; exact h1, by rw [e]; exact h2, by rw [e]; exact h3, by rw [e]; exact h4⟩

/-- Finishing an open stream whose data has all been consumed: final block, padding, footer. -/
theorem finish_acts {L : HuffLib} {E : BlockRel} {pf : Prop} {s : WState} (hE : BlockOK L s.o s.lz.maxDist pf E)
    (hi : WInv s) (hc : Conf s) (hs : s.state = .openStream) (hb : s.lz.buf = []) {d : List UInt8} (hsum : Sums s d) :
    Acts (Go.chk (flushGuts .finishFlush) finishClosing) s .opened .idle (fun t =>
      t.state = .closedStream ∧ t.obLen = 0 ∧ t.lz = { s.lz with hist := [] } ∧ t.header = s.header ∧
      t.numStreams = s.numStreams ∧
      ∀ pre h0 d', OpenAt E s pre h0 d' → ∃ body, pushed t = pre ++ body ++ footerBytes s.o d ∧ DeflateOf E h0 body d') := by
  obtain ⟨c0, hd0, ha, hcr, hin⟩ := hsum
  rw [hb, List.append_nil] at hd0
  subst hd0
  have h1 := (writeStoredBlock_does hi (data := []) (by simp) true).acts (p0 := .opened) (p1 := .last)
      (runPh_block .stored) (blockTrace_noBegin .stored)
  refine Acts.congr (h1.chk ?_) (congrFun (chk_assoc (writeStoredBlock wBW [] true) (fun s =>
    .ok (true, { s with lz := { s.lz with hist := [] }, state := .closingStream })) finishClosing) s)
  rintro t es fl it ⟨c1, c2, c3, _⟩
  let t' : WState := { t with lz := { t.lz with hist := [] }, state := .closingStream }
  have it' : WInv t' := ⟨it.hW, it.lt, it.blk, it.out⟩
  have hstep : Acts (fun s => .ok (true, { s with lz := { s.lz with hist := [] }, state := .closingStream })) t .last .last
      (fun u => u = t') := by
    refine Or.inr ⟨true, t', [], rfl, ?_, fun _ => ⟨rfl, it', rfl, rfl, rfl⟩, by simp, fun _ => rfl⟩
    have hr := Flow.refl t
    exact ⟨rfl, rfl, rfl, rfl, rfl, rfl, rfl, rfl, rfl, rfl, List.prefix_refl _, List.prefix_refl _,
      List.prefix_refl _, rfl, rfl, by simp [t'], by simp, by simp, by simp, Nat.le_refl _, Nat.le_refl _, rfl,
      hr.offs, fun A h => ⟨h.closing (c2.trans hs), by simp⟩, by simp⟩
  refine hstep.chk ?_
  rintro u es' fl' iu rfl
  have hfoot := writeFooter_acts (s := t') it' (by show t.o.format ≠ _; rw [c1.o]; exact hc.fmt) (d := d)
    (by show AdlerIs t.adler d; rw [c1.adler]; exact ha) (by show CrcIs t.crcIn d; rw [c1.crcIn]; exact hcr)
    (by show t.inStream = _; rw [c1.inStream]; exact hin) rfl
  have hfc : finishClosing t' = Go.chk writeFooter (setState .closedStream) t' := by
    unfold finishClosing; rw [if_pos rfl]
  refine (hfoot.congr hfc).mono ?_
  rintro v es'' fl'' ⟨a1, a2, ⟨q, a3, a4⟩, a5, a6, a7⟩
  refine ⟨a1, a2, ?_, ?_, ?_, ?_⟩
  · rw [a5]; show { t.lz with hist := [] } = _; rw [c1.lz]
  · rw [a6]; exact c1.header
  · rw [a7]; exact c1.numStreams
  · rintro pre h0 d' ⟨bs, c, hv, hbk, hsf, hd⟩
    rw [hb, List.append_nil] at hd
    subst hd
    have hvt : view t' = view t := rfl
    -- the body
    have hpl : (padBits (view t').length).length < 8 := by simp [padBits, padLen_lt]
    generalize padBits (view t').length = pp at a4 hpl
    rw [hvt, c3, hv] at a4
    have hlen : pre.length ≤ q.length := by
      have := congrArg List.length a4
      simp at this; omega
    have hq : q = pre ++ q.drop pre.length := by
      have h2 : bytesBits (q.take pre.length) = bytesBits pre := by
        have h3 := congrArg (List.take (8 * pre.length)) a4
        rw [← List.take_append_drop pre.length q, bytesBits_append, List.take_append_of_le_length (by simp; omega)] at h3
        rw [List.take_of_length_le (by simp; omega)] at h3
        rw [h3]
        simp only [List.append_assoc]
        rw [List.take_append_of_le_length (by simp), List.take_of_length_le (by simp)]
      have h3 := bytesBits_inj h2
      conv => lhs; rw [← List.take_append_drop pre.length q, h3]
    refine ⟨q.drop pre.length, by rw [a3, ← hq]; show _ = _ ++ footerBytes s.o d; show _ ++ footerBytes t.o d = _; rw [c1.o], ?_⟩
    refine ⟨bs, [true, false, false] ++ padBits ((view s).length + 3) ++ natBits 16 0 ++ natBits 16 (65535 - 0) ++ bytesBits [],
      pp, h0 ++ d', hbk, hE.mod (view s).length _ _ _ _ _ (by rw [hv]; simp)
        (hE.stored ⟨padBits ((view s).length + 3), [], by simp [padBits], by simp, rfl, by simp⟩ (padZero_stored _ _ _ _ _)), ?_, hpl⟩
    rw [hq, bytesBits_append] at a4
    simp only [List.append_assoc] at a4
    have := List.append_cancel_left a4
    rw [this, hv]
    simp

end Flate.Proof
