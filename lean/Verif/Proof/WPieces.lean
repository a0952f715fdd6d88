/-
The sizes of the pieces in which a Writer passes its output on: a traversal of all functions of the Writer.
-/
import Verif.Proof.WLog
import Verif.Proof.WRun

namespace Flate.Proof.Pieces
open Flate.Spec Flate.Model
open Flate.Proof.R (Keeps Pre)

/-- what stays true while no call of the underlying writer fails -/
structure Inv (W0 B : Nat) (O : Options) (cur : List UInt8) (s : WState) : Prop where
  out : s.output = []
  W : s.W = W0
  B : s.outBits = B
  o : s.o = O
  hdr : headerOK s.header = true
  lz : LZOK s.lz
  buf : s.lz.buf <:+ cur

/-- a piece: not empty, not larger than the buffer, and not larger than a machine word unless `X` -/
def Small (W0 B : Nat) (X : List UInt8 → Prop) (w : List UInt8) : Prop := w ≠ [] ∧ w.length ≤ 2 ^ B ∧ (w.length ≤ W0 / 8 ∨ X w)

structure Pc (W0 B : Nat) (O : Options) (X : List UInt8 → Prop) (cur : List UInt8) (s t : WState) : Prop where
  errs : s.sink.errs <+: t.sink.errs
  log : t.sink.errs = s.sink.errs → Inv W0 B O cur s → Inv W0 B O cur t ∧ ∃ l, t.sink.log = s.sink.log ++ l ∧ ∀ w, SinkCall.write w ∈ l → Small W0 B X w

variable {W0 B : Nat} {O : Options} {X : List UInt8 → Prop} {cur : List UInt8}

theorem pc_pre : Pre (Pc W0 B O X cur) := by
  refine ⟨fun s => ⟨List.prefix_refl _, fun _ h => ⟨h, [], by simp, by simp⟩⟩, ?_⟩
  rintro s t u ⟨a1, a2⟩ ⟨b1, b2⟩
  refine ⟨a1.trans b1, fun h i => ?_⟩
  have ht := prefix_eq_of a1 b1 h
  obtain ⟨i1, l1, e1, k1⟩ := a2 ht i
  obtain ⟨i2, l2, e2, k2⟩ := b2 (h.trans ht.symm) i1
  refine ⟨i2, l1 ++ l2, by rw [e2, e1]; simp, fun w hw => ?_⟩
  rcases List.mem_append.1 hw with h | h
  · exact k1 w h
  · exact k2 w h

/-- nothing is written -/
theorem pc_same {s t : WState} (h : t.sink = s.sink) (hi : Inv W0 B O cur s → Inv W0 B O cur t) : Pc W0 B O X cur s t := by
  refine ⟨by rw [h]; exact List.prefix_refl _, fun _ i => ⟨hi i, [], by rw [h]; simp, by simp⟩⟩

theorem pc_flush {s t : WState} {a : Bool} (e : outputBufferFlush s = .ok (a, t)) (hi : t.sink.errs = s.sink.errs → Small W0 B X s.output ∧ Inv W0 B O cur { s with output := [] }) :
    s.sink.errs <+: t.sink.errs ∧ (t.sink.errs = s.sink.errs → s.output ≠ [] → Inv W0 B O cur t ∧ ∃ l, t.sink.log = s.sink.log ++ l ∧ ∀ w, SinkCall.write w ∈ l → Small W0 B X w) := by
  unfold outputBufferFlush sinkWrite at e
  by_cases h : s.output = []
  · rw [if_pos h] at e; cases e; exact ⟨List.prefix_refl _, fun _ hn => absurd h hn⟩
  · rw [if_neg h] at e
    rcases hw : s.sink.wfail s.sink.nWrites with _ | ⟨k, x⟩
    · rw [hw] at e; cases e
      refine ⟨List.prefix_refl _, fun _ _ => ?_⟩
      obtain ⟨h1, h2⟩ := hi rfl
      refine ⟨⟨rfl, h2.W, h2.B, h2.o, h2.hdr, h2.lz, h2.buf⟩, [.write s.output], rfl, fun w hw => ?_⟩
      simp only [List.mem_singleton, SinkCall.write.injEq] at hw
      subst hw; exact h1
    · rw [hw] at e; cases e
      refine ⟨List.prefix_append _ _, fun hn => ?_⟩
      exact absurd (congrArg List.length hn) (by simp)

theorem infix_take {p w : List UInt8} {n : Nat} (h : w <:+: p.take n) : w <:+: p := h.trans (List.take_prefix _ _).isInfix
theorem infix_drop {p w : List UInt8} {n : Nat} (h : w <:+: p.drop n) : w <:+: p := h.trans (List.drop_suffix _ _).isInfix

/-- bytes which may be written in pieces of any size -/
def May (W0 : Nat) (X : List UInt8 → Prop) (p : List UInt8) : Prop := p.length ≤ W0 / 8 ∨ ∀ w, w <:+: p → X w

theorem May.drop {p : List UInt8} (h : May W0 X p) (n : Nat) : May W0 X (p.drop n) := by
  rcases h with h | h
  · exact Or.inl (by rw [List.length_drop]; omega)
  · exact Or.inr fun w hw => h w (infix_drop hw)

theorem May.take {p : List UInt8} (h : May W0 X p) (n : Nat) : (p.take n).length ≤ W0 / 8 ∨ X (p.take n) := by
  rcases h with h | h
  · exact Or.inl (by rw [List.length_take]; omega)
  · exact Or.inr (h _ (List.take_prefix _ _).isInfix)

theorem pc_outLoop : ∀ (fuel : Nat) (p : List UInt8), May W0 X p → Keeps (Pc W0 B O X cur) (outLoop fuel p)
  | 0, _, _ => R.Keeps.panic _
  | fuel + 1, p, hp => by
    intro s a t e
    simp only [outLoop] at e
    by_cases h0 : p = []
    · rw [if_pos h0] at e; cases e; exact pc_pre.refl _
    rw [if_neg h0] at e
    -- the first piece
    generalize hn : min p.length (2 ^ s.outBits - s.output.length) = nn at e
    generalize hu : ({ s with output := s.output ++ p.take nn, crcOut := Crc.genericUpdate s.crcOut (p.take nn), outTotal := s.outTotal + nn, outStream := s.outStream + nn } : WState) = u at e
    have hus : u.sink = s.sink := by rw [← hu]
    unfold Go.chk at e
    rcases hf : outputBufferFlush u with x | ⟨b, v⟩
    · rw [hf] at e; cases e
    rw [hf] at e
    have step : Pc W0 B O X cur s v := by
      have hlem := fun hi => pc_flush (W0 := W0) (B := B) (O := O) (X := X) (cur := cur) hf hi
      by_cases hi : Inv W0 B O cur s
      · have hne : nn ≠ 0 := by
          have hp0 : 0 < p.length := List.length_pos_iff.2 h0
          have h2 : 0 < 2 ^ s.outBits := Nat.pow_pos (by omega)
          generalize 2 ^ s.outBits = z at hn h2
          rw [hi.out] at hn; simp at hn; omega
        have hout : u.output = p.take nn := by rw [← hu]; show s.output ++ _ = _; rw [hi.out]; rfl
        have hone : u.output ≠ [] := by
          rw [hout]; intro hh
          have := congrArg List.length hh
          rw [List.length_take, List.length_nil] at this
          have hp0 : 0 < p.length := List.length_pos_iff.2 h0
          omega
        obtain ⟨x1, x2⟩ := hlem fun _ => by
          refine ⟨⟨hone, ?_, by rw [hout]; exact hp.take _⟩, ?_⟩
          · rw [hout, List.length_take, ← hi.B, ← hn, hi.out]; simp; omega
          · rw [← hu]; exact ⟨rfl, hi.W, hi.B, hi.o, hi.hdr, hi.lz, hi.buf⟩
        rw [hus] at x1 x2
        exact ⟨x1, fun h _ => x2 h hone⟩
      · refine ⟨?_, fun _ h => absurd h hi⟩
        have := (wr_flush u b v hf).errs
        rw [hus] at this; exact this
    cases b with
    | false => cases e; exact step
    | true => exact pc_pre.trans _ _ _ step (pc_outLoop fuel _ (hp.drop nn) v a t e)

theorem pc_after {α : Type} {f : Go WState α} (h : Keeps (Pc W0 B O X cur) f) {s s' t : WState} {a : α} (e : f s' = .ok (a, t)) (he : s'.sink = s.sink)
    (hi : Inv W0 B O cur s → Inv W0 B O cur s') : Pc W0 B O X cur s t :=
  pc_pre.trans _ _ _ (pc_same he hi) (h s' a t e)

theorem pc_bitsFlush : Keeps (Pc W0 B O X cur) wBitsFlush := by
  intro s a t e
  unfold wBitsFlush at e
  by_cases h : s.obLen = 0
  · rw [if_pos h] at e; cases e; exact pc_pre.refl _
  rw [if_neg h] at e
  by_cases hi : Inv W0 B O cur s
  · refine pc_after (pc_outLoop _ _ (Or.inl ?_)) e rfl fun i => ⟨i.out, i.W, i.B, i.o, i.hdr, i.lz, i.buf⟩
    rw [List.length_take, leBytes_length, hi.W]; omega
  · refine ⟨?_, fun _ h => absurd h hi⟩
    exact (wr_after (wr_outLoop _ _) (s := s) e rfl).errs

theorem pc_bufWrite {p : List UInt8} (hp : May W0 X p) : Keeps (Pc W0 B O X cur) (wBufWrite p) := R.Keeps.chk pc_pre pc_bitsFlush (pc_outLoop _ _ hp)

theorem pc_modify {f : WState → WState} (h : ∀ s, (f s).sink = s.sink) (hi : ∀ s, Inv W0 B O cur s → Inv W0 B O cur (f s)) : Keeps (Pc W0 B O X cur) (Go.modify f) := by
  intro s a t e; cases e; exact pc_same (h s) (hi s)

theorem pc_get : Keeps (Pc W0 B O X cur) (Go.get : Go WState WState) := by
  intro s a t e; cases e; exact pc_pre.refl _

theorem pc_bitsLoop : ∀ fuel n b, Keeps (Pc W0 B O X cur) (bitsLoop fuel n b)
  | 0, _, _ => R.Keeps.panic _
  | fuel + 1, n, b => by
    intro s a t e
    simp only [bitsLoop] at e
    by_cases hn : n = 0
    · rw [if_pos hn] at e; cases e; exact pc_pre.refl _
    · rw [if_neg hn] at e
      split at e
      · exact pc_after (R.Keeps.chk pc_pre pc_bitsFlush (pc_bitsLoop fuel _ _)) e rfl fun i => ⟨i.out, i.W, i.B, i.o, i.hdr, i.lz, i.buf⟩
      · exact pc_after (pc_bitsLoop fuel _ _) e rfl fun i => ⟨i.out, i.W, i.B, i.o, i.hdr, i.lz, i.buf⟩

theorem pc_bitsWrite (n b : Nat) : Keeps (Pc W0 B O X cur) (wBitsWrite n b) := by
  intro s a t e
  unfold wBitsWrite at e
  split at e
  · split at e
    · exact pc_bitsLoop _ _ _ s a t e
    · cases e
  · cases e

theorem pc_event (k : EvKind) : Keeps (Pc W0 B O X cur) (wSendEvent k) := pc_modify (fun _ => rfl) fun _ i => ⟨i.out, i.W, i.B, i.o, i.hdr, i.lz, i.buf⟩

theorem pc_ev (k : EvKind) : Keeps (Pc W0 B O X cur) (evStep wBW k) :=
  R.Keeps.bind pc_pre (pc_event k) fun _ => R.Keeps.pure pc_pre _

theorem pc_forAll {α : Type} {f : α → Go WState Bool} (h : ∀ a, Keeps (Pc W0 B O X cur) (f a)) : ∀ l, Keeps (Pc W0 B O X cur) (forAll f l)
  | [] => R.Keeps.pure pc_pre _
  | _ :: l => R.Keeps.chk pc_pre (h _) (pc_forAll h l)

theorem pc_extra (n b : Nat) : Keeps (Pc W0 B O X cur) (extraWrite wBW n b) := by
  unfold extraWrite; split
  · exact pc_bitsWrite _ _
  · exact R.Keeps.pure pc_pre _

theorem pc_encodeLLD (ll d : List Nat) (t : Token) : Keeps (Pc W0 B O X cur) (encodeLLD wBW ll d t) := by
  unfold encodeLLD
  refine R.Keeps.bind pc_pre (R.Keeps.lift pc_pre _) fun x => R.Keeps.bind pc_pre (R.Keeps.lift pc_pre _) fun y => ?_
  obtain ⟨x1, x2, x3⟩ := x
  obtain ⟨y1, y2, y3⟩ := y
  cases x1 with
  | none => exact R.Keeps.pure pc_pre _
  | some s =>
    refine R.Keeps.chk pc_pre (pc_bitsWrite _ _) (R.Keeps.chk pc_pre (pc_extra _ _) ?_)
    cases y1 with
    | none => exact R.Keeps.pure pc_pre _
    | some sd => exact R.Keeps.chk pc_pre (pc_bitsWrite _ _) (pc_extra _ _)

theorem pc_encodeX (cl : List Nat) (t : Token) : Keeps (Pc W0 B O X cur) (encodeX wBW cl t) := by
  unfold encodeX
  split
  · exact R.Keeps.pure pc_pre _
  · exact R.Keeps.chk pc_pre (pc_bitsWrite _ _) (pc_extra _ _)

theorem may_short {p : List UInt8} (hW : W0 = 32 ∨ W0 = 64) (h : p.length ≤ 4) : May W0 X p := Or.inl (by rcases hW with rfl | rfl <;> omega)

theorem pc_stored (hW : W0 = 32 ∨ W0 = 64) {d : List UInt8} (hd : May W0 X d) (f : Bool) : Keeps (Pc W0 B O X cur) (writeStoredBlock wBW d f) :=
  R.Keeps.bind pc_pre (R.Keeps.assert pc_pre _ _) fun _ =>
  R.Keeps.chk pc_pre (pc_ev _) <| R.Keeps.chk pc_pre (pc_bitsWrite _ _) <| R.Keeps.chk pc_pre pc_bitsFlush <|
  R.Keeps.chk pc_pre (pc_bufWrite (may_short hW (by simp))) <| R.Keeps.chk pc_pre (pc_bufWrite (may_short hW (by simp))) <|
  R.Keeps.chk pc_pre (pc_bufWrite hd) (pc_ev _)

theorem pc_assertStop (ts : List Token) : Keeps (Pc W0 B O X cur) (assertStop ts : Go WState Unit) :=
  R.Keeps.bind pc_pre (R.Keeps.assert pc_pre _ _) fun _ => R.Keeps.bind pc_pre (R.Keeps.lift pc_pre _) fun _ => R.Keeps.assert pc_pre _ _

theorem pc_static (ts : List Token) (f : Bool) : Keeps (Pc W0 B O X cur) (writeStaticBlock wBW ts f) :=
  R.Keeps.bind pc_pre (pc_assertStop _) fun _ =>
  R.Keeps.chk pc_pre (pc_ev _) <| R.Keeps.chk pc_pre (pc_bitsWrite _ _) <| R.Keeps.chk pc_pre (pc_ev _) <|
  R.Keeps.chk pc_pre (pc_forAll (pc_encodeLLD _ _) _) (pc_ev _)

theorem pc_dynamic (L : HuffLib) (a b : List Nat) (ts : List Token) (f : Bool) : Keeps (Pc W0 B O X cur) (writeDynamicBlock wBW L a b ts f) :=
  R.Keeps.bind pc_pre (pc_assertStop _) fun _ =>
  R.Keeps.chk pc_pre (pc_ev _) <| R.Keeps.chk pc_pre (pc_bitsWrite _ _) <|
  R.Keeps.bind pc_pre (R.Keeps.lift pc_pre _) fun _ => R.Keeps.bind pc_pre (R.Keeps.lift pc_pre _) fun _ =>
  R.Keeps.bind pc_pre (R.Keeps.lift pc_pre _) fun _ =>
  R.Keeps.chk pc_pre (pc_bitsWrite _ _) <| R.Keeps.chk pc_pre (pc_bitsWrite _ _) <| R.Keeps.chk pc_pre (pc_bitsWrite _ _) <|
  R.Keeps.chk pc_pre (pc_forAll (fun _ => pc_bitsWrite _ _) _) <| R.Keeps.chk pc_pre (pc_forAll (pc_encodeX _) _) <|
  R.Keeps.chk pc_pre (pc_ev _) <| R.Keeps.chk pc_pre (pc_forAll (pc_encodeLLD _ _) _) (pc_ev _)

theorem pc_tokens (hW : W0 = 32 ∨ W0 = 64) (L : HuffLib) (W : Nat) {d : List UInt8} (hd : May W0 X d) (ts : List Token) (f : Bool) :
    Keeps (Pc W0 B O X cur) (compressTokens wBW W L d ts f) := by
  refine R.Keeps.bind pc_pre (R.Keeps.lift pc_pre _) fun x => R.Keeps.bind pc_pre (R.Keeps.lift pc_pre _) fun y =>
    R.Keeps.bind pc_pre (R.Keeps.lift pc_pre _) fun z => ?_
  refine R.Keeps.ite (fun _ => pc_stored hW hd _) fun _ => R.Keeps.ite (fun _ => pc_static _ _) fun _ => pc_dynamic _ _ _ _ _

/-- what is said about `X`: all parts of the data and of a header may be written -/
structure Covers (O : Options) (X : List UInt8 → Prop) (cur : List UInt8) : Prop where
  data : ∀ w, w <:+: cur → X w
  head : ∀ h w, headerOK h = true → w <:+: headerBytes O h → X w

theorem pc_noInv {α : Type} {f : Go WState α} (h : Keeps Wr f) {s t : WState} {a : α} (e : f s = .ok (a, t)) (hi : ¬ Inv W0 B O cur s) : Pc W0 B O X cur s t :=
  ⟨(h s a t e).errs, fun _ i => absurd i hi⟩

theorem pc_storeLoop (hW : W0 = 32 ∨ W0 = 64) (hX : Covers O X cur) : ∀ fuel n, Keeps (Pc W0 B O X cur) (storeLoop fuel n)
  | 0, _ => R.Keeps.panic _
  | fuel + 1, n => by
    intro s a t e
    by_cases hi : Inv W0 B O cur s
    · unfold storeLoop at e
      split at e
      · cases e; exact pc_pre.refl _
      · rw [Go.bind_eq_ok] at e
        obtain ⟨b, u, e1, e2⟩ := e
        have hb : b = s.lz.buf.take storedBlockSize := by cases e1; rfl
        have hu : u.sink = s.sink ∧ Inv W0 B O cur u := by
          cases e1
          exact ⟨rfl, ⟨hi.out, hi.W, hi.B, hi.o, hi.hdr, hi.lz.congr rfl, (List.drop_suffix _ _).trans hi.buf⟩⟩
        refine pc_pre.trans _ _ _ (pc_same hu.1 fun _ => hu.2) (R.Keeps.chk pc_pre (pc_stored hW (Or.inr ?_) _) (pc_storeLoop hW hX fuel _) u a t e2)
        intro w hw
        rw [hb] at hw
        exact hX.data w ((infix_take hw).trans hi.buf.isInfix)
    · exact pc_noInv (wr_storeLoop _ _) e hi

theorem pc_store (hW : W0 = 32 ∨ W0 = 64) (hX : Covers O X cur) (b : Bool) : Keeps (Pc W0 B O X cur) (compressStore b) := by
  intro s a t e
  unfold compressStore at e
  dsimp only at e
  split at e
  · cases e; exact pc_pre.refl _
  · exact pc_storeLoop hW hX _ _ s a t e

theorem pc_slow (hW : W0 = 32 ∨ W0 = 64) (hX : Covers O X cur) (L : HuffLib) (b : Bool) : Keeps (Pc W0 B O X cur) (compressSlow L b) := by
  intro s a t e
  by_cases hi : Inv W0 B O cur s
  · unfold compressSlow at e
    dsimp only at e
    split at e
    · cases e; exact pc_pre.refl _
    · rw [Go.bind_eq_ok] at e
      obtain ⟨x, u, e1, e2⟩ := e
      obtain ⟨ts, is, v, f1, eat, _⟩ := tokenLoop_spec (s.lz.buf.length + 1) s [] [] (Nat.lt_succ_self _) hi.lz
      rw [f1] at e1
      cases e1
      have hu : u.sink = s.sink ∧ Inv W0 B O cur u := by
        have q := eat.eq
        have ho : LZOK u.lz := hi.lz.congr eat.opts
        have hb : u.lz.buf <:+ cur := by
          have := eat.buf
          exact (show u.lz.buf <:+ s.lz.buf from ⟨_, this.symm⟩).trans hi.buf
        refine ⟨by rw [q], ⟨by rw [q]; exact hi.out, by rw [q]; exact hi.W, by rw [q]; exact hi.B, by rw [q]; exact hi.o, by rw [q]; exact hi.hdr, ho, hb⟩⟩
      refine pc_pre.trans _ _ _ (pc_same hu.1 fun _ => hu.2) (pc_tokens hW _ _ (Or.inr ?_) _ _ u a t e2)
      intro w hw
      exact hX.data w (List.IsInfix.trans hw hi.buf.isInfix)
  · exact pc_noInv (wr_slow L b) e hi

theorem gz_parts {o : Options} (h : Header) (hf : o.format = .gzip) : gzipHeaderBytes o h <:+: headerBytes o h ∧
    (h.extra ≠ [] → extraAsBytes h.extra <:+: headerBytes o h) ∧ (h.fileName ≠ [] → h.fileName ++ [0] <:+: headerBytes o h) ∧ (h.comment ≠ [] → h.comment ++ [0] <:+: headerBytes o h) := by
  have hm : (gzHd o h).main <:+: headerBytes o h := by
    unfold headerBytes; rw [hf]
    unfold GzHeader.bytes
    exact (List.prefix_append _ _).isInfix
  rw [gzMain] at hm
  refine ⟨?_, fun hx => ?_, fun hx => ?_, fun hx => ?_⟩
  · refine List.IsInfix.trans ?_ hm
    simp only [List.append_assoc]
    exact (List.prefix_append _ _).isInfix
  · refine List.IsInfix.trans ?_ hm
    rw [if_neg hx]
    exact ⟨gzipHeaderBytes o h ++ leBytes 2 (extraAsBytes h.extra).length, (if h.fileName = [] then [] else h.fileName ++ [0]) ++ (if h.comment = [] then [] else h.comment ++ [0]), by simp⟩
  · refine List.IsInfix.trans ?_ hm
    rw [if_neg hx]
    exact ⟨_, _, rfl⟩
  · refine List.IsInfix.trans ?_ hm
    rw [if_neg hx]
    exact (List.suffix_append _ _).isInfix

theorem pc_stringZ {p : List UInt8} (h0 : 0 ∉ p) (hp : May W0 X (p ++ [0])) : Keeps (Pc W0 B O X cur) (wBufWriteStringZ p) := by
  unfold wBufWriteStringZ
  split
  · exact pc_bufWrite hp
  · rename_i i hi
    exfalso
    have := List.idxOf?_eq_none_iff.2 h0
    rw [this] at hi; cases hi

theorem pc_headGzip (hW : W0 = 32 ∨ W0 = 64) (hX : Covers O X cur) (hf : O.format = .gzip) : Keeps (Pc W0 B O X cur) writeHeaderGZIP := by
  intro s a t e
  by_cases hi : Inv W0 B O cur s
  · obtain ⟨p1, p2, p3, p4⟩ := gz_parts (o := s.o) s.header (by rw [hi.o]; exact hf)
    rw [hi.o] at p2 p3 p4
    have ok := hi.hdr
    have n0 : 0 ∉ s.header.fileName ∧ 0 ∉ s.header.comment := by
      have := ok
      unfold headerOK at this
      simp only [Bool.and_eq_true, Bool.not_eq_true', List.contains_eq_mem, decide_eq_false_iff_not] at this
      exact ⟨this.1.1.1.1.1.1.1.1.2, this.1.1.1.1.2⟩
    unfold writeHeaderGZIP at e
    refine pc_after (R.Keeps.chk pc_pre (pc_bufWrite (Or.inr fun w hw => hX.head _ w ok (by rw [← hi.o]; exact hw.trans p1))) <| R.Keeps.chk pc_pre ?_ <|
      R.Keeps.chk pc_pre ?_ <| R.Keeps.chk pc_pre ?_ <| fun s a t e => pc_bufWrite (may_short hW (by simp)) s a t e) e rfl
      fun i => ⟨i.out, i.W, i.B, i.o, i.hdr, i.lz, i.buf⟩
    · unfold gzExtra
      split
      · exact R.Keeps.pure pc_pre _
      · rename_i hx
        exact R.Keeps.chk pc_pre (pc_bufWrite (may_short hW (by simp))) (pc_bufWrite (Or.inr fun w hw => hX.head _ w ok (hw.trans (p2 hx))))
    · unfold gzString
      split
      · exact R.Keeps.pure pc_pre _
      · rename_i hx
        exact pc_stringZ n0.1 (Or.inr fun w hw => hX.head _ w ok (hw.trans (p3 hx)))
    · unfold gzString
      split
      · exact R.Keeps.pure pc_pre _
      · rename_i hx
        exact pc_stringZ n0.2 (Or.inr fun w hw => hX.head _ w ok (hw.trans (p4 hx)))
  · exact pc_noInv wr_headGzip e hi

theorem pc_header (hW : W0 = 32 ∨ W0 = 64) (hX : Covers O X cur) : Keeps (Pc W0 B O X cur) writeHeader := by
  intro s a t e
  by_cases hi : Inv W0 B O cur s
  · rw [writeHeader_eq] at e
    have hh : Inv W0 B O cur (headed s) := ⟨hi.out, hi.W, hi.B, hi.o, fillHeader_ok hi.hdr, hi.lz.congr rfl, hi.buf⟩
    refine pc_pre.trans _ _ _ (pc_same (t := headed s) rfl fun _ => hh) ((R.Keeps.chk pc_pre ?_ ?_) (headed s) a t e)
    · rw [hi.o]
      cases hf : O.format with
      | raw => exact R.Keeps.pure pc_pre _
      | zlib =>
        intro s a t e
        by_cases hi : Inv W0 B O cur s
        · have e : wBufWrite (zlibHeaderBytes s.o) s = .ok (a, t) := e
          rw [hi.o] at e
          refine pc_bufWrite (Or.inr fun w hw => hX.head s.header w hi.hdr ?_) s a t e
          unfold headerBytes; rw [hf]; exact hw
        · exact pc_noInv wr_headZlib e hi
      | gzip => exact pc_headGzip hW hX hf
      | default => exact R.Keeps.panic _
    · intro s a t e
      cases e
      exact pc_same rfl fun i => ⟨i.out, i.W, i.B, i.o, i.hdr, i.lz, i.buf⟩
  · exact pc_noInv wr_header e hi

theorem pc_footer (hW : W0 = 32 ∨ W0 = 64) : Keeps (Pc W0 B O X cur) writeFooter := by
  refine R.Keeps.chk pc_pre pc_bitsFlush <| R.Keeps.bind pc_pre pc_get fun s => R.Keeps.bind pc_pre (pc_event _) fun _ => ?_
  refine R.Keeps.chk pc_pre ?_ <| R.Keeps.bind pc_pre (pc_event _) fun _ => R.Keeps.pure pc_pre _
  cases s.o.format with
  | raw => exact R.Keeps.pure pc_pre _
  | zlib => exact pc_bufWrite (may_short hW (by simp))
  | gzip => exact R.Keeps.bind pc_pre (pc_bufWrite (may_short hW (by simp))) fun _ => R.Keeps.bind pc_pre pc_get fun _ =>
      R.Keeps.bind pc_pre (pc_bufWrite (may_short hW (by simp))) fun _ => R.Keeps.pure pc_pre _
  | default => exact R.Keeps.panic _

theorem pc_setState (x : WS) : Keeps (Pc W0 B O X cur) (setState x) := by
  intro s a t e; cases e; exact pc_same rfl fun i => ⟨i.out, i.W, i.B, i.o, i.hdr, i.lz, i.buf⟩

theorem pc_closing (hW : W0 = 32 ∨ W0 = 64) : Keeps (Pc W0 B O X cur) finishClosing := by
  intro s a t e
  unfold finishClosing at e
  split at e
  · exact R.Keeps.chk pc_pre (pc_footer hW) (pc_setState _) s a t e
  · cases e; exact pc_pre.refl _

theorem pc_open (hW : W0 = 32 ∨ W0 = 64) (hX : Covers O X cur) {P : WState → Prop} [DecidablePred P] :
    Keeps (Pc W0 B O X cur) (fun s => if P s then Go.chk writeHeader (setState .openStream) s else .ok (true, s)) := by
  intro s a t e
  dsimp only at e
  split at e
  · exact R.Keeps.chk pc_pre (pc_header hW hX) (pc_setState _) s a t e
  · cases e; exact pc_pre.refl _

theorem pc_compress (hW : W0 = 32 ∨ W0 = 64) (hX : Covers O X cur) (L : HuffLib) (b : Bool) : Keeps (Pc W0 B O X cur) (compressImpl L b) := by
  intro s a t e
  unfold compressImpl at e
  split at e
  · cases e; exact pc_pre.refl _
  · refine (R.Keeps.chk pc_pre (pc_closing hW) <| R.Keeps.chk pc_pre (pc_open hW hX (P := fun s => s.state = .noStream ∨ s.state = .closedStream)) ?_) s a t e
    intro s a t e
    dsimp only at e
    split at e
    · exact pc_store hW hX _ s a t e
    · exact pc_slow hW hX _ _ s a t e

theorem pc_hist {s : WState} {x : WS} : Inv W0 B O cur s → Inv W0 B O cur ({ s with lz := { s.lz with hist := [] }, state := x } : WState) :=
  fun i => ⟨i.out, i.W, i.B, i.o, i.hdr, i.lz.congr rfl, i.buf⟩

theorem pc_guts (hW : W0 = 32 ∨ W0 = 64) (f : FlushType) : Keeps (Pc W0 B O X cur) (flushGuts f) := by
  cases f
  · exact R.Keeps.pure pc_pre _
  · exact pc_static _ _
  · exact pc_stored hW (may_short hW (by simp)) _
  · exact R.Keeps.chk pc_pre (pc_stored hW (may_short hW (by simp)) _) (fun s a t e => by cases e; exact pc_same rfl fun i => pc_hist (x := s.state) i)
  · exact R.Keeps.chk pc_pre (pc_stored hW (may_short hW (by simp)) _) (fun s a t e => by cases e; exact pc_same rfl fun i => pc_hist i)

theorem pc_first (hW : W0 = 32 ∨ W0 = 64) (hX : Covers O X cur) (L : HuffLib) (f : FlushType) : Keeps (Pc W0 B O X cur) (flushFirst L f) := by
  refine R.Keeps.chk pc_pre (pc_compress hW hX _ _) <| R.Keeps.chk pc_pre (pc_open hW hX (P := fun s => f = .finishFlush ∧ s.state = .noStream)) <|
    R.Keeps.chk pc_pre ?_ (pc_closing hW)
  intro s a t e
  dsimp only at e
  split at e
  · exact pc_guts hW _ s a t e
  · cases e; exact pc_pre.refl _

theorem pc_tail {s t : WState} {b : Bool} (e : Go.chk sinkFlush sinkSync s = .ok (b, t)) : Pc W0 B O X cur s t := by
  obtain ⟨_, _, _, h4, l, h5, h6, _, _⟩ := tail_calls e
  have hw : ∀ w, SinkCall.write w ∉ l := by
    intro w hm
    have := h6.subset hm
    unfold tailCalls at this
    split at this <;> split at this <;> simp at this
  have hi : Inv W0 B O cur s → Inv W0 B O cur t := by
    intro i
    have hs : ∀ {s t : WState} {b : Bool}, sinkFlush s = .ok (b, t) → Inv W0 B O cur s → Inv W0 B O cur t := by
      intro s t b e i
      unfold sinkFlush at e
      split at e
      · dsimp only at e
        split at e <;> cases e <;> exact ⟨i.out, i.W, i.B, i.o, i.hdr, i.lz, i.buf⟩
      · cases e; exact i
    have hy : ∀ {s t : WState} {b : Bool}, sinkSync s = .ok (b, t) → Inv W0 B O cur s → Inv W0 B O cur t := by
      intro s t b e i
      unfold sinkSync at e
      split at e
      · dsimp only at e
        split at e
        · split at e <;> cases e <;> exact ⟨i.out, i.W, i.B, i.o, i.hdr, i.lz, i.buf⟩
        · cases e; exact ⟨i.out, i.W, i.B, i.o, i.hdr, i.lz, i.buf⟩
      · cases e; exact i
    unfold Go.chk at e
    rcases h : sinkFlush s with x | ⟨a, u⟩
    · rw [h] at e; cases e
    · rw [h] at e
      have iu := hs h i
      cases a with
      | false => cases e; exact iu
      | true => exact hy e iu
  exact ⟨h4, fun _ i => ⟨hi i, l, h5, fun w hm => absurd hm (hw w)⟩⟩

theorem pc_flushImpl (hW : W0 = 32 ∨ W0 = 64) (hX : Covers O X cur) (L : HuffLib) (f : FlushType) : Keeps (Pc W0 B O X cur) (flushImpl L f) := by
  rw [flushImpl_tail]
  exact R.Keeps.chk pc_pre (pc_first hW hX L f) fun s a t e => pc_tail e

/-- one relation for different data -/
structure Pd (W0 B : Nat) (O : Options) (X : List UInt8 → Prop) (cur cur' : List UInt8) (s t : WState) : Prop where
  errs : s.sink.errs <+: t.sink.errs
  log : t.sink.errs = s.sink.errs → Inv W0 B O cur s → Inv W0 B O cur' t ∧ ∃ l, t.sink.log = s.sink.log ++ l ∧ ∀ w, SinkCall.write w ∈ l → Small W0 B X w

theorem Pc.pd {s t : WState} (h : Pc W0 B O X cur s t) : Pd W0 B O X cur cur s t := ⟨h.errs, h.log⟩

theorem pd_trans {a b c : List UInt8} {s t u : WState} (h : Pd W0 B O X a b s t) (k : Pd W0 B O X b c t u) : Pd W0 B O X a c s u := by
  obtain ⟨a1, a2⟩ := h
  obtain ⟨b1, b2⟩ := k
  refine ⟨a1.trans b1, fun h i => ?_⟩
  have ht := prefix_eq_of a1 b1 h
  obtain ⟨i1, l1, e1, k1⟩ := a2 ht i
  obtain ⟨i2, l2, e2, k2⟩ := b2 (h.trans ht.symm) i1
  refine ⟨i2, l1 ++ l2, by rw [e2, e1]; simp, fun w hw => ?_⟩
  rcases List.mem_append.1 hw with h | h
  · exact k1 w h
  · exact k2 w h

theorem suffix_append {a b p : List UInt8} (h : a <:+ b) : a ++ p <:+ b ++ p := by
  obtain ⟨x, rfl⟩ := h
  exact ⟨x, by simp⟩

theorem pd_writeLoop (hW : W0 = 32 ∨ W0 = 64) {L : HuffLib} : ∀ (fuel : Nat) (p cur : List UInt8) (s t : WState), Covers O X (cur ++ p) → writeLoop L fuel p s = .ok (none, t) →
    Pd W0 B O X cur (cur ++ p) s t := by
  intro fuel
  induction fuel with
  | zero => intro p cur s t _ e; cases e
  | succ fuel ih =>
    intro p cur s t hX e
    simp only [writeLoop] at e
    by_cases hp : p = []
    · rw [if_pos hp] at e; cases e; subst hp; rw [List.append_nil]; exact (pc_pre.refl s).pd
    rw [if_neg hp] at e
    generalize hall : ((s.lz.write p).1 == 0 || decide ((s.lz.write p).1 < p.length)) = al at e
    generalize hN : (s.lz.write p).1 = N at *
    have hz : (s.lz.write p).2 = { s.lz with buf := s.lz.buf ++ p.take N } := by rw [← hN]; rfl
    rcases hc : compressImpl L al { s with lz := (s.lz.write p).2 } with x | ⟨b, u⟩
    · rw [hc] at e; cases e
    · rw [hc] at e
      have d1 : Pd W0 B O X cur (cur ++ p.take N) s ({ s with lz := (s.lz.write p).2 } : WState) :=
        ⟨List.prefix_refl _, fun _ i => ⟨⟨i.out, i.W, i.B, i.o, i.hdr, i.lz.congr (by rw [hz]), by rw [hz]; exact suffix_append i.buf⟩, [], by simp, by simp⟩⟩
      have hX1 : Covers O X (cur ++ p.take N) := by
        refine ⟨fun w hw => hX.data w (List.IsInfix.trans hw ?_), hX.head⟩
        exact ⟨[], p.drop N, by simp⟩
      have d2 := (pc_compress hW hX1 (B := B) L al _ _ _ hc).pd
      cases b with
      | false => cases e
      | true =>
        have hap : cur ++ p.take N ++ p.drop N = cur ++ p := by rw [List.append_assoc, List.take_append_drop]
        have d3 := ih (p.drop N) (cur ++ p.take N) u t (by rw [hap]; exact hX) e
        rw [hap] at d3
        exact pd_trans d1 (pd_trans d2 d3)

/-- one call, which accepts everything if it is a `Write` -/
theorem pd_step (hW : W0 = 32 ∨ W0 = 64) {L : HuffLib} {op : WOp} {cur : List UInt8} {s t : WState} {r : WRes} (hX : Covers O X (cur ++ opData op)) (e : stepOp L op s = .ok (r, t))
    (hr : ∀ p, op = .write p → r = .write p.length none) : Pd W0 B O X cur (cur ++ opData op) s t := by
  cases op with
  | write p =>
    have hr := hr p rfl
    have hX : Covers O X (cur ++ p) := hX
    show Pd W0 B O X cur (cur ++ p) s t
    have hx : p = [] → Pd W0 B O X cur (cur ++ p) s s := by
      rintro rfl
      rw [List.append_nil]; exact (pc_pre.refl _).pd
    subst hr
    unfold stepOp wWrite at e
    dsimp only at e
    by_cases h1 : s.state = .closed
    · simp [if_pos h1] at e
    by_cases h2 : s.state = .error
    · simp only [if_neg h1, if_pos h2] at e
      have : t = s ∧ p.length = 0 := by
        simp only [Except.ok.injEq, Prod.mk.injEq, WRes.write.injEq] at e
        exact ⟨e.2.symm, e.1.1.symm⟩
      rw [this.1]
      exact hx (List.length_eq_zero_iff.1 this.2)
    simp only [if_neg h1, if_neg h2] at e
    rcases hl : writeLoop L (2 * p.length + 2) p s with x | ⟨_ | er', u⟩
    · rw [hl] at e; cases e
    · rw [hl] at e; cases e; exact pd_writeLoop hW _ _ _ _ _ hX hl
    · rw [hl] at e
      have hp : p = [] := by
        simp only [Except.ok.injEq, Prod.mk.injEq, WRes.write.injEq] at e
        exact List.length_eq_zero_iff.1 e.1.1.symm
      subst hp
      simp [writeLoop] at hl
  | setHeader hd =>
    show Pd W0 B O X cur (cur ++ []) s t
    rw [List.append_nil]
    have ht : t = s ∨ (headerOK hd = true ∧ t = { s with header := hd }) := by
      unfold stepOp wSetHeader at e
      dsimp only at e
      cases hk : headerOK hd <;> simp only [hk] at e
      · simp only [Bool.false_eq_true, if_false, Except.ok.injEq, Prod.mk.injEq] at e
        exact Or.inl e.2.symm
      · simp only [if_true, Except.ok.injEq, Prod.mk.injEq] at e
        exact Or.inr ⟨rfl, e.2.symm⟩
    rcases ht with rfl | ⟨hk, rfl⟩
    · exact (pc_pre.refl _).pd
    · have : Pc W0 B O X cur s ({ s with header := hd } : WState) := pc_same rfl fun i => ⟨i.out, i.W, i.B, i.o, hk, i.lz, i.buf⟩
      exact this.pd
  | flush ft =>
    show Pd W0 B O X cur (cur ++ []) s t
    have hX : Covers O X (cur ++ []) := hX
    rw [List.append_nil] at hX ⊢
    unfold stepOp wFlush at e
    dsimp only at e
    by_cases h1 : s.state = .closed
    · simp only [if_pos h1] at e; cases e; exact (pc_pre.refl _).pd
    by_cases h2 : s.state = .error
    · simp only [if_neg h1, if_pos h2] at e; cases e; exact (pc_pre.refl _).pd
    simp only [if_neg h1, if_neg h2] at e
    rcases hl : flushImpl L ft s with x | ⟨b, u⟩
    · rw [hl] at e; cases e
    · have := pc_flushImpl hW hX (B := B) L ft _ _ _ hl
      rw [hl] at e
      cases b <;> cases e <;> exact this.pd
  | close =>
    show Pd W0 B O X cur (cur ++ []) s t
    have hX : Covers O X (cur ++ []) := hX
    rw [List.append_nil] at hX ⊢
    unfold stepOp wClose at e
    dsimp only at e
    by_cases h1 : s.state = .closed
    · simp only [if_pos h1] at e; cases e; exact (pc_pre.refl _).pd
    by_cases h2 : s.state = .error
    · simp only [if_neg h1, if_pos h2] at e; cases e
      refine Pc.pd ?_
      exact pc_same rfl fun i => ⟨i.out, i.W, i.B, i.o, i.hdr, i.lz, i.buf⟩
    simp only [if_neg h1, if_neg h2] at e
    rcases hl : flushImpl L .finishFlush s with x | ⟨b, u⟩
    · rw [hl] at e; cases e
    · have := pc_flushImpl hW hX (B := B) L .finishFlush _ _ _ hl
      rw [hl] at e
      cases b <;> cases e
      · refine Pc.pd (pc_pre.trans _ u _ this ?_)
        exact pc_same rfl fun i => ⟨i.out, i.W, i.B, i.o, i.hdr, i.lz, i.buf⟩
      · refine Pc.pd (pc_pre.trans _ u _ this ?_)
        exact pc_same rfl fun i => ⟨i.out, i.W, i.B, i.o, i.hdr, i.lz, i.buf⟩

end Flate.Proof.Pieces
