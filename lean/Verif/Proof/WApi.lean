/-
Sequences of API calls of the Writer refine the abstract machine of Spec/Api.lean.
-/
import Verif.Proof.WCall
import Verif.Model.WriterApi

namespace Flate.Proof
open Flate.Spec Flate.Model

/-! ### headers -/

theorem isText_iff (p : List UInt8) : isText p = true ↔ Textual p := by
  unfold isText Textual
  rw [List.all_eq_true]
  constructor
  · intro h b hb
    have := h b hb
    simp only [Bool.not_eq_true', Bool.or_eq_false_iff, decide_eq_false_iff_not, Bool.and_eq_false_iff,
      beq_eq_false_iff_ne, UInt8.lt_iff_toNat_lt] at this
    obtain ⟨⟨h1, h2⟩, h3⟩ := this
    have h4 : b.toNat ≠ 127 := fun h => h3 (UInt8.toNat_inj.1 (by rw [h]; rfl))
    have e1 : (9 : UInt8).toNat = 9 := rfl
    have e2 : (13 : UInt8).toNat = 13 := rfl
    have e3 : (32 : UInt8).toNat = 32 := rfl
    simp only [e1, e2, e3, GT.gt, UInt8.lt_iff_toNat_lt] at h1 h2
    omega
  · intro h b hb
    have := h b hb
    simp only [Bool.not_eq_true', Bool.or_eq_false_iff, decide_eq_false_iff_not, Bool.and_eq_false_iff,
      beq_eq_false_iff_ne, UInt8.lt_iff_toNat_lt]
    have e1 : (9 : UInt8).toNat = 9 := rfl
    have e2 : (13 : UInt8).toNat = 13 := rfl
    have e3 : (32 : UInt8).toNat = 32 := rfl
    have e4 : (127 : UInt8).toNat = 127 := rfl
    simp only [e1, e2, e3, GT.gt, UInt8.lt_iff_toNat_lt]
    refine ⟨⟨by omega, by omega⟩, ?_⟩
    intro h; rw [h, e4] at this; omega

theorem extraLen (recs : List ExtraRec) :
    (extraAsBytes recs).length = (recs.map fun r => 4 + r.bytes.length).sum := by
  unfold extraAsBytes
  induction recs with
  | nil => rfl
  | cons r rs ih =>
    rw [List.flatMap_cons, List.length_append, ih]
    simp [leBytes]
    omega

theorem headerOK_iff (h : Header) : headerOK h = true ↔ HeaderOK h := by
  constructor
  · intro hh
    obtain ⟨a, b, c, d, e, f, g, k, l, m⟩ := headerOK_spec hh
    rw [extraLen] at m
    exact ⟨a, fun x hx => ⟨fun h => b (h ▸ hx), fun h => c (h ▸ hx), fun h => d (h ▸ hx)⟩, e,
      fun x hx h => f (h ▸ hx), g, k, l, m⟩
  · intro hh
    unfold headerOK
    simp only [Bool.and_eq_true, decide_eq_true_eq, Bool.not_eq_true', List.contains_eq_mem, decide_eq_false_iff_not,
      List.all_eq_true]
    refine ⟨⟨⟨⟨⟨⟨⟨⟨⟨hh.name, fun h => (hh.nameChars _ h).1 rfl⟩, fun h => (hh.nameChars _ h).2.1 rfl⟩,
      fun h => (hh.nameChars _ h).2.2 rfl⟩, hh.comment⟩, fun h => hh.commentChars _ h rfl⟩, ?_⟩, hh.os⟩, hh.recs⟩, ?_⟩
    · cases ht : h.lastModified with
      | none => rfl
      | some t =>
        have := hh.time t ht
        simp only [Bool.not_eq_true', decide_eq_false_iff_not]
        omega
    · rw [extraLen]; exact hh.total

theorem fillHeader_eq (s : WState) :
    fillHeader s = newHeader s.o.wbits s.o.clevel s.header (s.lz.buf.take 4096) := by
  unfold fillHeader newHeader
  by_cases h : Textual (s.lz.buf.take 4096)
  · rw [if_pos h, if_pos ((isText_iff _).2 h)]
  · rw [if_neg h, if_neg (fun h' => h ((isText_iff _).1 h'))]

/-! ### complete streams -/

/-- a stream as the Writer produces it, with header `hd.1` and data `hd.2` -/
def WStream (E : BlockRel) (o : Options) (b : List UInt8) (hd : Header × List UInt8) : Prop :=
  headerOK hd.1 = true ∧ ∃ body, DeflateOf E (o.dict.getD []) body hd.2 ∧
    b = headerBytes o hd.1 ++ body ++ footerBytes o hd.2

/-- the container of a Writer's format -/
def container : Format → Container
  | .raw => .raw
  | .zlib => .zlib
  | .gzip => .gzip
  | .default => .zlib

theorem WStream.stream {E : BlockRel} {o : Options} {b : List UInt8} {hd : Header × List UInt8} (h : WStream E o b hd)
    (hf : o.format ≠ .default) (w1 : 8 ≤ o.wbits) (w2 : o.wbits ≤ 15) :
    StreamOf E (2 ^ o.wbits) o.dict (container o.format) b hd.2 := by
  obtain ⟨hh, body, hb, e⟩ := h
  subst e
  unfold headerBytes footerBytes container StreamOf
  cases hx : o.format with
  | default => exact absurd hx hf
  | raw => simpa using hb
  | zlib =>
    refine ⟨o.wbits - 8, zlibHeaderBytes o, body, zlibHeader_ok w1 w2, ?_, hb, rfl⟩
    rw [Nat.sub_add_cancel w1]
  | gzip =>
    refine ⟨gzHd o hd.1, gzHd_extra hh, body, gzHd_valid hh, hb, ?_⟩
    simp

theorem streamsOf_map {α β : Type} {S : List UInt8 → α → Prop} {T : List UInt8 → β → Prop} {f : α → β}
    (h : ∀ b a, S b a → T b (f a)) {bytes : List UInt8} {segs : List α} (hs : StreamsOf S bytes segs) :
    StreamsOf T bytes (segs.map f) := by
  induction hs with
  | nil => exact .nil
  | snoc _ hb ih => rw [List.map_append]; exact .snoc ih (h _ _ hb)

/-! ### the invariant -/

/-- configuration of the abstract machine -/
def cfgOf (s : WState) : AbsCfg := ⟨s.o.wbits, s.o.clevel, min 4096 s.lz.cap⟩

/-- A usable Writer: after `base`, complete streams and possibly the beginning of another, as in the abstract state. -/
structure Live (E : BlockRel) (base : List UInt8) (n0 : Nat) (s : WState) (a : Abs) : Prop where
  inv : WInv s
  conf : Conf s
  err : s.err = none
  cap : s.lz.buf.length < room s
  hdr : s.header = a.hdr
  num : s.numStreams = n0 + a.done.length + a.cur.toList.length
  body : ∃ bytes, StreamsOf (WStream E s.o) bytes a.done ∧
    match a.cur with
    | none => s.sink.out = base ++ bytes ∧ s.obLen = 0 ∧ s.lz.buf = [] ∧
        (s.state = .noStream ∧ a.done = [] ∨ s.state = .closedStream ∧ a.done ≠ [])
    | some (h, d) => headerOK h = true ∧ s.state = .openStream ∧
        OpenAt E s (base ++ bytes ++ headerBytes s.o h) (s.o.dict.getD []) d ∧ Sums s d

/-- phase of the event protocol -/
def phaseOf (a : Abs) : Phase := match a.cur with | none => .idle | some _ => .opened

/-- A closed Writer, whose last `Close` succeeded. -/
structure Closed (E : BlockRel) (base : List UInt8) (n0 : Nat) (s : WState) (a : Abs) : Prop where
  state : s.state = .closed
  err : s.err = none
  ob : s.obLen = 0
  buf : s.lz.buf = []
  inv : WInv s
  hdr : headerOK s.header = true
  num : s.numStreams = n0 + a.done.length
  out : ∃ bytes, StreamsOf (WStream E s.o) bytes a.done ∧ s.sink.out = base ++ bytes

theorem out_pushed {s : WState} (h : WInv s) : pushed s = s.sink.out := by unfold pushed; rw [h.out, List.append_nil]

theorem Live.write_open {E : BlockRel} {base : List UInt8} {s t : WState} {a : Abs} {h : Header} {d p : List UInt8}
    {k : List UInt8} {es : List Sent} (hl : Live E base n0 s a) (ha : a.cur = some (h, d)) (hh : Hist s t k es) (it : WInv t)
    (er : t.err = s.err) (kp : Keep E s t p) : Live E base n0 t { a with cur := some (h, d ++ p) } := by
  obtain ⟨bytes, hs, hb⟩ := hl.body
  rw [ha] at hb
  obtain ⟨b1, b2, b3, b4⟩ := hb
  refine ⟨it, hh.conf hl.conf kp.header, er.trans hl.err, kp.cap, kp.header.trans hl.hdr,
    by have := hl.num; rw [ha] at this; rw [kp.num, this]; rfl, bytes, by rw [hh.o]; exact hs, ?_⟩
  exact ⟨b1, kp.state, by rw [hh.o]; exact kp.openAt _ _ _ b3, kp.sums _ b4⟩

theorem Live.ended {E : BlockRel} {base : List UInt8} {s t : WState} {a : Abs} {h : Header} {d : List UInt8}
    {k : List UInt8} {es : List Sent} (hl : Live E base n0 s a) (ha : a.cur = some (h, d)) (hh : Hist s t k es) (it : WInv t)
    (er : t.err = s.err) (en : Ended E s t d) : Live E base n0 t { a with done := a.done ++ [(h, d)], cur := none } := by
  obtain ⟨bytes, hs, hb⟩ := hl.body
  rw [ha] at hb
  obtain ⟨b1, b2, b3, b4⟩ := hb
  obtain ⟨body, e1, e2⟩ := en.openAt _ _ _ b3
  refine ⟨it, hh.conf hl.conf en.header, er.trans hl.err, by rw [en.buf]; exact room_pos _, en.header.trans hl.hdr,
    by have := hl.num; rw [ha] at this; rw [en.num, this]; simp; omega,
    bytes ++ (headerBytes s.o h ++ body ++ footerBytes s.o d), ?_, ?_⟩
  · rw [hh.o]; exact .snoc hs ⟨b1, body, e2, rfl⟩
  · refine ⟨?_, en.ob, en.buf, Or.inr ⟨en.state, by simp⟩⟩
    rw [← out_pushed it, e1]; simp

theorem Live.opened {E : BlockRel} {base : List UInt8} {s u t : WState} {a : Abs} {k : List UInt8} {es : List Sent}
    (hl : Live E base n0 s a) (ha : a.cur = none) {p : List UInt8}
    (hp : (accept p s).lz.buf.take 4096 = p.take (cfgOf s).look) (ho : Opened (accept p s) u) (kp : Keep E u t (p.drop (accepted p s)))
    (hh : Hist s t k es) (it : WInv t) (er : t.err = s.err) :
    Live E base n0 t { a with hdr := newHeader s.o.wbits s.o.clevel a.hdr (p.take (cfgOf s).look), cur := some (newHeader s.o.wbits s.o.clevel a.hdr (p.take (cfgOf s).look), p) } := by
  obtain ⟨bytes, hs, hb⟩ := hl.body
  rw [ha] at hb
  obtain ⟨b1, b2, b3, b4⟩ := hb
  have hfh : fillHeader (accept p s) = newHeader s.o.wbits s.o.clevel a.hdr (p.take (cfgOf s).look) := by
    rw [fillHeader_eq, hp]; rw [← hl.hdr]; rfl
  have hca : Conf (accept p s) := (accept_hist p s).conf hl.conf rfl
  have hth : t.header = fillHeader (accept p s) := kp.header.trans ho.header
  have hdat : (accept p s).lz.buf ++ p.drop (accepted p s) = p := by
    rw [accept_buf, b3, List.nil_append, List.take_append_drop]
  refine ⟨it, hl.conf.of hh.o hh.lzopts (by rw [hth]; exact fillHeader_ok hca.hdr), er.trans hl.err, kp.cap,
    by rw [hth, hfh], by have := hl.num; rw [ha] at this; rw [kp.num, ho.num]; show s.numStreams + 1 = _; rw [this]; simp, bytes, by rw [hh.o]; exact hs, ?_⟩
  refine ⟨by rw [← hfh]; exact fillHeader_ok hca.hdr, kp.state, ?_, ?_⟩
  · have := kp.openAt _ _ _ (ho.openAt (E := E))
    rw [hfh, hdat] at this
    have e1 : pushed (accept p s) = base ++ bytes := by
      show pushed s = _
      rw [out_pushed hl.inv, b1]
    rw [e1] at this
    rw [hh.o]
    exact this
  · have := kp.sums _ ho.sums
    rw [hdat] at this
    exact this

theorem accept_look {p : List UInt8} {s : WState} (hb : s.lz.buf = []) :
    (accept p s).lz.buf.take 4096 = p.take (cfgOf s).look := by
  rw [accept_buf, hb, List.nil_append, List.take_take, accepted_eq, hb]
  show List.take (min 4096 (min p.length (s.lz.cap - 0))) p = List.take (min 4096 s.lz.cap) p
  rw [Nat.sub_zero]
  by_cases h : p.length ≤ min 4096 s.lz.cap
  · rw [List.take_of_length_le h, List.take_of_length_le (by omega)]
  · congr 1; omega

/-- the data handed over by a call -/
def opData : WOp → List UInt8
  | .write p => p
  | _ => []

/-- result of one call -/
def CallRes (E : BlockRel) (base : List UInt8) (n0 : Nat) (s : WState) (a : Abs) (op : WOp) (r : WRes) (t : WState)
    (es : List Sent) (k : List UInt8) : Prop :=
  Hist s t k es ∧
  (r.err = none → t.sink.errs = s.sink.errs ∧ runPh (phaseOf a) (kinds es) = some (phaseOf (a.step (cfgOf s) op)) ∧
    (op = .close → Closed E base n0 t (a.step (cfgOf s) op)) ∧
    (op ≠ .close → Live E base n0 t (a.step (cfgOf s) op))) ∧
  (∀ e, r.err = some e → (∃ p, runPh (phaseOf a) (kinds es) = some p) ∧
    (∃ pre n, t.sink.errs = s.sink.errs ++ pre ++ [n] ∧ e = .io n) ∧
    (op = .close → t.state = .closed ∧ t.err = none) ∧ (op ≠ .close → t.state = .error ∧ t.err = some e)) ∧
  (Dependable s → r.err = none) ∧ k <+: opData op ∧ (r.err = none → k = opData op)

theorem live_state {E : BlockRel} {base : List UInt8} {s : WState} {a : Abs} (hl : Live E base n0 s a) :
    s.state = .noStream ∨ s.state = .openStream ∨ s.state = .closedStream := by
  obtain ⟨bytes, _, hb⟩ := hl.body
  cases hc : a.cur with
  | none =>
    rw [hc] at hb
    rcases hb.2.2.2 with h | h
    · exact Or.inl h.1
    · exact Or.inr (Or.inr h.1)
  | some x =>
    rw [hc] at hb
    exact Or.inr (Or.inl hb.2.1)

theorem flush_live {L : HuffLib} (hL : L.Lawful) {E : BlockRel} {pf : Prop} {base : List UInt8} {s : WState} {a : Abs}
    (hl : Live E base n0 s a) (hE : BlockOK L s.o s.lz.maxDist pf E) (ft : FlushType) (hp : ft = .partialFlush → pf) :
    Call (flushImpl L ft) s [] (phaseOf a) (phaseOf (a.step (cfgOf s) (.flush ft)))
      (fun t => WInv t → t.err = s.err → ∀ es, Hist s t [] es → Live E base n0 t (a.step (cfgOf s) (.flush ft))) := by
  obtain ⟨bytes, hs, hb⟩ := hl.body
  cases hc : a.cur with
  | some x =>
    obtain ⟨h, d⟩ := x
    have hph : phaseOf a = .opened := by unfold phaseOf; rw [hc]
    have hb' := hb
    rw [hc] at hb'
    obtain ⟨b1, b2, b3, b4⟩ := hb'
    by_cases hf : ft = .finishFlush
    · subst hf
      have hst : a.step (cfgOf s) (.flush .finishFlush) = { a with done := a.done ++ [(h, d)], cur := none } := by
        simp only [Abs.step, Abs.finish, hc]
      rw [hst, hph]
      refine (finish_open hL hE hl.inv hl.conf hl.cap b2 b4).mono ?_
      intro t es _ en it er es' hh
      exact hl.ended hc hh it er en
    · have hst : a.step (cfgOf s) (.flush ft) = a := by
        cases ft <;> first | rfl | exact absurd rfl hf
      rw [hst, hph]
      refine (flush_open hL hE hl.inv hl.conf hl.cap b2 ft hf hp).mono ?_
      rintro t es _ ⟨k, _⟩ it er es' hh
      have := hl.write_open hc hh it er k
      rw [List.append_nil, ← hc] at this
      exact this
  | none =>
    have hph : phaseOf a = .idle := by unfold phaseOf; rw [hc]
    have hb' := hb
    rw [hc] at hb'
    obtain ⟨b1, b2, b3, b4⟩ := hb'
    have hsame : ∀ t, Same s t → WInv t → t.err = s.err → ∀ es, Hist s t [] es → Live E base n0 t a := by
      intro t sm it er es hh
      have e := sm.eq
      refine ⟨it, hh.conf hl.conf (by rw [e]), er.trans hl.err, by rw [e]; exact hl.cap, by rw [e]; exact hl.hdr, by rw [e]; exact hl.num, bytes,
        by rw [e]; exact hs, ?_⟩
      rw [hc]
      exact ⟨by rw [sm.out]; exact b1, by rw [e]; exact b2, by rw [e]; exact b3, by rw [e]; exact b4⟩
    by_cases hf : ft = .finishFlush ∧ s.state = .noStream
    · obtain ⟨hf, hns⟩ := hf
      subst hf
      have hdone : a.done = [] := by
        rcases b4 with b4 | b4
        · exact b4.2
        · rw [hns] at b4; exact absurd b4.1 (by simp)
      have hst : a.step (cfgOf s) (.flush .finishFlush) = { hdr := newHeader s.o.wbits s.o.clevel a.hdr [], done := [(newHeader s.o.wbits s.o.clevel a.hdr [], [])], cur := none } := by
        simp only [Abs.step, Abs.finish, hc, if_pos hdone]; rfl
      rw [hst, hph]
      refine (finish_idle hE hl.inv hl.conf b3 hns b2).mono ?_
      rintro t es _ ⟨u, ho, en⟩ it er es' hh
      have hfh : fillHeader s = newHeader s.o.wbits s.o.clevel a.hdr [] := by
        rw [fillHeader_eq, b3, hl.hdr]; rfl
      obtain ⟨body, e1, e2⟩ := en.openAt _ _ _ ho.openAt
      have hby : bytes = [] := by
        rw [hdone] at hs
        generalize hg : ([] : List (Header × List UInt8)) = g at hs
        cases hs with
        | nil => rfl
        | snoc _ _ => exact absurd hg (by simp)
      rw [b3] at e2
      rw [hby, List.append_nil] at b1
      refine ⟨it, ⟨by rw [hh.o]; exact hl.conf.fmt, by rw [hh.o]; exact hl.conf.wb1, by rw [hh.o]; exact hl.conf.wb2,
        hl.conf.lz.congr hh.lzopts, by rw [en.header]; exact (ho.conf hl.conf).hdr⟩, er.trans hl.err, by rw [en.buf]; exact room_pos _,
        by rw [en.header, ho.header, hfh], by have := hl.num; rw [hc, hdone] at this; rw [en.num, ho.num, this]; rfl, headerBytes s.o (fillHeader s) ++ body ++ footerBytes s.o [], ?_, ?_⟩
      · rw [hh.o]
        have := StreamsOf.snoc (S := WStream E s.o) .nil (b := headerBytes s.o (fillHeader s) ++ body ++ footerBytes s.o [])
          (d := (fillHeader s, [])) ⟨fillHeader_ok hl.conf.hdr, body, e2, rfl⟩
        rw [hfh] at this ⊢
        exact this
      · refine ⟨?_, en.ob, en.buf, Or.inr ⟨en.state, by simp⟩⟩
        rw [← out_pushed it, e1, ho.o, out_pushed hl.inv, b1]; simp
    · have hst : a.step (cfgOf s) (.flush ft) = a := by
        cases ft with
        | finishFlush =>
          have hd : a.done ≠ [] := by
            rcases b4 with b4 | b4
            · exact absurd ⟨rfl, b4.1⟩ hf
            · exact b4.2
          simp only [Abs.step, Abs.finish, hc, if_neg hd]
        | _ => rfl
      rw [hst, hph]
      have hs' : s.state = .noStream ∨ s.state = .closedStream := by
        rcases b4 with b4 | b4
        · exact Or.inl b4.1
        · exact Or.inr b4.1
      refine (flush_idle hl.inv b3 hs' ft ?_).mono fun t es _ sm => hsame t sm
      intro h1
      rcases b4 with b4 | b4
      · exact absurd ⟨h1, b4.1⟩ hf
      · exact b4.1

theorem close_step (c : AbsCfg) (a : Abs) : a.step c .close = a.step c (.flush .finishFlush) := rfl

theorem finish_cur (c : AbsCfg) (a : Abs) : (a.finish c).cur = none := by
  unfold Abs.finish
  cases h : a.cur with
  | some x => rfl
  | none => dsimp only; split <;> simp [h]

/-- `Flush` -/
theorem stepFlush {L : HuffLib} (hL : L.Lawful) {E : BlockRel} {pf : Prop} {base : List UInt8} {s : WState} {a : Abs}
    (hl : Live E base n0 s a) (hE : BlockOK L s.o s.lz.maxDist pf E) (ft : FlushType) (hp : ft = .partialFlush → pf) :
    (stepOp L (.flush ft) s = .error tooLong ∧ ¬ Fit s 0) ∨
    ∃ r t es k, stepOp L (.flush ft) s = .ok (r, t) ∧ CallRes E base n0 s a (.flush ft) r t es k := by
  have hst := live_state hl
  have n1 : s.state ≠ .closed := by rcases hst with h | h | h <;> rw [h] <;> simp
  have n2 : s.state ≠ .error := by rcases hst with h | h | h <;> rw [h] <;> simp
  rcases flush_live hL hl hE ft hp with ⟨e, hf⟩ | ⟨b, t, es, k, e, hk, hh, ok, bad, rel⟩
  · refine Or.inl ⟨?_, hf⟩
    unfold stepOp wFlush
    simp only [if_neg n1, if_neg n2, e]
  · have hk0 : k = [] := List.prefix_nil.1 hk
    subst hk0
    cases b with
    | true =>
      refine Or.inr ⟨.flush none, t, es, [], ?_, hh, ?_, ?_, fun _ => rfl, List.nil_prefix, fun _ => rfl⟩
      · unfold stepOp wFlush; simp only [if_neg n1, if_neg n2, e]
      · intro _
        obtain ⟨_, q, it, er, ee, ph⟩ := ok rfl
        exact ⟨ee, ph, by simp, fun _ => q it er es hh⟩
      · intro e' he; cases he
    | false =>
      obtain ⟨⟨f1, pre, n, f2, f3⟩, hph⟩ := bad rfl
      refine Or.inr ⟨.flush t.err, t, es, [], ?_, hh, ?_, ?_, fun d => absurd (rel d) (by simp), List.nil_prefix, fun _ => rfl⟩
      · unfold stepOp wFlush; simp only [if_neg n1, if_neg n2, e]
      · intro h; rw [show (WRes.flush t.err).err = t.err from rfl, f3] at h; cases h
      · intro e' he
        have he : t.err = some e' := he
        rw [f3] at he
        cases he
        exact ⟨hph, ⟨pre, n, f2, rfl⟩, by simp, fun _ => ⟨f1, f3⟩⟩

theorem hist_setState {s t : WState} {k : List UInt8} {es : List Sent} (h : Hist s t k es) {x : WS} (hx : x ≠ .openStream)
    (hy : x ≠ .closingStream) (e : Option Err) :
    Hist s { t with state := x, err := e } k es :=
  ⟨h.W, h.o, h.outBits, h.lzopts, h.propose, h.wfail, h.ffail, h.sfail, h.hasFlush, h.hasSync, h.out, h.errs, h.pfx,
   h.tot, h.tin, h.ev, h.evOut, h.evIn1, h.evIn2, h.evFmt, h.monoOut, h.monoIn, h.monoNum, h.offs,
   fun A hA => ⟨(h.feed A hA).1.other hx hy e, (h.feed A hA).2⟩, h.heads⟩

/-- `Close` -/
theorem stepClose {L : HuffLib} (hL : L.Lawful) {E : BlockRel} {pf : Prop} {base : List UInt8} {s : WState} {a : Abs}
    (hl : Live E base n0 s a) (hE : BlockOK L s.o s.lz.maxDist pf E) :
    (stepOp L .close s = .error tooLong ∧ ¬ Fit s 0) ∨
    ∃ r t es k, stepOp L .close s = .ok (r, t) ∧ CallRes E base n0 s a .close r t es k := by
  have hst := live_state hl
  have n1 : s.state ≠ .closed := by rcases hst with h | h | h <;> rw [h] <;> simp
  have n2 : s.state ≠ .error := by rcases hst with h | h | h <;> rw [h] <;> simp
  rcases flush_live hL hl hE .finishFlush (by simp) with ⟨e, hf⟩ | ⟨b, t, es, k, e, hk, hh, ok, bad, rel⟩
  · refine Or.inl ⟨?_, hf⟩
    unfold stepOp wClose
    simp only [if_neg n1, if_neg n2, e]
  · have hk0 : k = [] := List.prefix_nil.1 hk
    subst hk0
    cases b with
    | true =>
      obtain ⟨_, q, it, er, ee, ph⟩ := ok rfl
      have hlt := q it er es hh
      refine Or.inr ⟨.close none, { t with state := .closed }, es, [], ?_, ?_, ?_, ?_, fun _ => rfl, List.nil_prefix, fun _ => rfl⟩
      · unfold stepOp wClose; simp only [if_neg n1, if_neg n2, e]
      · exact hist_setState hh (x := .closed) (by simp) (by simp) t.err
      · intro _
        refine ⟨ee, ph, fun _ => ?_, by simp⟩
        obtain ⟨bytes, hs, hb⟩ := hlt.body
        have hcur : (a.step (cfgOf s) (.flush .finishFlush)).cur = none := finish_cur _ _
        rw [hcur] at hb
        exact ⟨rfl, hlt.err, hb.2.1, hb.2.2.1, ⟨it.hW, it.lt, it.blk, it.out⟩, hlt.conf.hdr, by have := hlt.num; rw [hcur] at this; exact this, bytes, hs, hb.1⟩
      · intro e' he; cases he
    | false =>
      obtain ⟨⟨f1, pre, n, f2, f3⟩, hph⟩ := bad rfl
      refine Or.inr ⟨.close t.err, { t with state := .closed, err := none }, es, [], ?_, hist_setState hh (x := .closed) (by simp) (by simp) none, ?_, ?_,
        fun d => absurd (rel d) (by simp), List.nil_prefix, fun _ => rfl⟩
      · unfold stepOp wClose; simp only [if_neg n1, if_neg n2, e]
      · intro h; rw [show (WRes.close t.err).err = t.err from rfl, f3] at h; cases h
      · intro e' he
        have he : t.err = some e' := he
        rw [f3] at he
        cases he
        exact ⟨hph, ⟨pre, n, f2, rfl⟩, fun _ => ⟨rfl, rfl⟩, by simp⟩

/-- `SetHeader` -/
theorem stepSetHeader {L : HuffLib} {E : BlockRel} {base : List UInt8} {s : WState} {a : Abs}
    (hl : Live E base n0 s a) (h : Header) :
    ∃ r t, stepOp L (.setHeader h) s = .ok (r, t) ∧ CallRes E base n0 s a (.setHeader h) r t [] [] := by
  have hr : ∀ t, t = { s with header := t.header } → Hist s t [] [] := by
    intro t e
    have hr := Flow.refl s
    rw [e]
    exact Flow.hist ⟨rfl, rfl, rfl, rfl, rfl, rfl, rfl, rfl, rfl, rfl, List.prefix_refl _, List.prefix_refl _,
        List.prefix_refl _, rfl, rfl, by simp, by simp, by simp, by simp, Nat.le_refl _, Nat.le_refl _, rfl, hr.offs, hr.feed, by simp⟩
  unfold stepOp wSetHeader
  by_cases hh : headerOK h = true
  · refine ⟨.header true, { s with header := h }, by simp only [hh, if_true], hr _ rfl, fun _ => ⟨rfl, ?_, by simp, fun _ => ?_⟩,
      by simp [WRes.err], fun _ => rfl, List.nil_prefix, fun _ => rfl⟩
    · simp only [Abs.step, if_pos ((headerOK_iff h).1 hh)]; rfl
    · simp only [Abs.step, if_pos ((headerOK_iff h).1 hh)]
      exact ⟨⟨hl.inv.hW, hl.inv.lt, hl.inv.blk, hl.inv.out⟩, ⟨hl.conf.fmt, hl.conf.wb1, hl.conf.wb2, hl.conf.lz, hh⟩, hl.err,
        hl.cap, rfl, hl.num, hl.body⟩
  · have hst : a.step (cfgOf s) (.setHeader h) = a := by
      simp only [Abs.step, if_neg (fun x => hh ((headerOK_iff h).2 x))]
    refine ⟨.header false, s, by simp only [if_neg hh], hr _ rfl, fun _ => ⟨rfl, ?_, by simp, fun _ => ?_⟩,
      by simp [WRes.err], fun _ => rfl, List.nil_prefix, fun _ => rfl⟩
    · rw [hst]; rfl
    · rw [hst]; exact hl

/-- the loop of `Write` -/
theorem write_live {L : HuffLib} (hL : L.Lawful) {E : BlockRel} {pf : Prop} {base : List UInt8} {s : WState} {a : Abs}
    (hl : Live E base n0 s a) (hE : BlockOK L s.o s.lz.maxDist pf E) (p : List UInt8) :
    Call (writeLoopB L (2 * p.length + 2) p) s p (phaseOf a) (phaseOf (a.step (cfgOf s) (.write p)))
      (fun t => WInv t → t.err = s.err → ∀ es k, Hist s t k es → Live E base n0 t (a.step (cfgOf s) (.write p))) := by
  by_cases hpe : p = []
  · subst hpe
    have hst : a.step (cfgOf s) (.write []) = a := by simp only [Abs.step, if_true]
    rw [hst]
    exact Call.done hl.inv (fun _ _ _ _ _ => hl) (by unfold writeLoopB; rw [if_pos rfl])
  obtain ⟨bytes, hs, hb⟩ := hl.body
  cases hc : a.cur with
  | some x =>
    obtain ⟨h, d⟩ := x
    have hph : phaseOf a = .opened := by unfold phaseOf; rw [hc]
    rw [hc] at hb
    obtain ⟨b1, b2, b3, b4⟩ := hb
    have hst : a.step (cfgOf s) (.write p) = { a with cur := some (h, d ++ p) } := by
      simp only [Abs.step, if_neg hpe, hc]
    rw [hst, hph]
    refine (writeLoop_open hL _ p s (by omega) hE hl.inv hl.conf hl.cap b2).mono ?_
    intro t es _ kp it er es' k' hh
    exact hl.write_open hc hh it er kp
  | none =>
    have hph : phaseOf a = .idle := by unfold phaseOf; rw [hc]
    rw [hc] at hb
    obtain ⟨b1, b2, b3, b4⟩ := hb
    have hst : a.step (cfgOf s) (.write p) = { a with hdr := newHeader s.o.wbits s.o.clevel a.hdr (p.take (cfgOf s).look), cur := some (newHeader s.o.wbits s.o.clevel a.hdr (p.take (cfgOf s).look), p) } := by
      simp only [Abs.step, if_neg hpe, hc]; rfl
    rw [hst, hph]
    have hs' : s.state = .noStream ∨ s.state = .closedStream := by
      rcases b4 with b4 | b4
      · exact Or.inl b4.1
      · exact Or.inr b4.1
    refine (writeLoop_idle hL _ (by omega) hE hl.inv hl.conf b3 hs' b2 hpe).mono ?_
    rintro t es _ ⟨u, ho, kp⟩ it er es' k' hh
    exact hl.opened hc (accept_look b3) ho kp hh it er

/-- `Write` -/
theorem stepWrite {L : HuffLib} (hL : L.Lawful) {E : BlockRel} {pf : Prop} {base : List UInt8} {s : WState} {a : Abs}
    (hl : Live E base n0 s a) (hE : BlockOK L s.o s.lz.maxDist pf E) (p : List UInt8) :
    (stepOp L (.write p) s = .error tooLong ∧ ¬ Fit s p.length) ∨
    ∃ n e t es k, stepOp L (.write p) s = .ok (.write n e, t) ∧ CallRes E base n0 s a (.write p) (.write n e) t es k ∧
      (e = none → n = p.length ∧ k = p) ∧ (e ≠ none → n = 0 ∧ k <+: p) := by
  have hst := live_state hl
  have n1 : s.state ≠ .closed := by rcases hst with h | h | h <;> rw [h] <;> simp
  have n2 : s.state ≠ .error := by rcases hst with h | h | h <;> rw [h] <;> simp
  have hw := writeLoop_eq L (2 * p.length + 2) p s
  rcases write_live hL hl hE p with ⟨e, hf⟩ | ⟨b, t, es, k, e, hk, hh, ok, bad, rel⟩
  · refine Or.inl ⟨?_, hf⟩
    rw [e] at hw
    unfold stepOp wWrite
    simp only [if_neg n1, if_neg n2, hw]
  · rw [e] at hw
    cases b with
    | true =>
      obtain ⟨hkn, q, it, er, ee, ph⟩ := ok rfl
      refine Or.inr ⟨p.length, none, t, es, k, ?_, ⟨hh, ?_, ?_, fun _ => rfl, hk, fun _ => hkn⟩, fun _ => ⟨rfl, hkn⟩, by simp⟩
      · unfold stepOp wWrite; simp only [if_neg n1, if_neg n2, hw]
      · intro _
        exact ⟨ee, ph, by simp, fun _ => q it er es k hh⟩
      · intro e' he; cases he
    | false =>
      obtain ⟨⟨f1, pre, n, f2, f3⟩, hph⟩ := bad rfl
      refine Or.inr ⟨0, t.err, t, es, k, ?_, ⟨hh, ?_, ?_, fun d => absurd (rel d) (by simp), hk, fun h => absurd h (by simp [WRes.err, f3])⟩, ?_, fun _ => ⟨rfl, hk⟩⟩
      · unfold stepOp wWrite; simp only [if_neg n1, if_neg n2, hw]
      · intro h; rw [show (WRes.write 0 t.err).err = t.err from rfl, f3] at h; cases h
      · intro e' he
        have he : t.err = some e' := he
        rw [f3] at he
        cases he
        exact ⟨hph, ⟨pre, n, f2, rfl⟩, by simp, fun _ => ⟨f1, f3⟩⟩
      · intro h; rw [f3] at h; cases h

/-- does the sequence of calls use `PartialFlush`? -/
def UsesPartial (op : WOp) : Prop := op = .flush .partialFlush

/-- any call of a live Writer -/
theorem stepOp_live {L : HuffLib} (hL : L.Lawful) {E : BlockRel} {pf : Prop} {base : List UInt8} {s : WState} {a : Abs}
    (hl : Live E base n0 s a) (hE : BlockOK L s.o s.lz.maxDist pf E) (op : WOp) (hp : UsesPartial op → pf) :
    (stepOp L op s = .error tooLong ∧ ¬ Fit s (opData op).length) ∨
    ∃ r t es k, stepOp L op s = .ok (r, t) ∧ CallRes E base n0 s a op r t es k := by
  cases op with
  | write p =>
    rcases stepWrite hL hl hE p with h | ⟨n, e, t, es, k, h1, h2, _⟩
    · exact Or.inl h
    · exact Or.inr ⟨_, t, es, k, h1, h2⟩
  | flush ft => exact stepFlush hL hl hE ft fun h => hp (by rw [h]; rfl)
  | setHeader h =>
    obtain ⟨r, t, h1, h2⟩ := stepSetHeader (L := L) hl h
    exact Or.inr ⟨r, t, [], [], h1, h2⟩
  | close => exact stepClose hL hl hE

/-! ### dead Writers -/

/-- a call of a Writer which has failed or has been closed -/
theorem stepOp_dead {L : HuffLib} (s : WState) (h : s.state = .closed ∨ (s.state = .error ∧ ∃ e, s.err = some e)) (op : WOp) :
    ∃ r t, stepOp L op s = .ok (r, t) ∧ t = { s with header := t.header, state := t.state, err := t.err } ∧
      (t.state = .closed ∨ (t.state = .error ∧ ∃ e, t.err = some e)) ∧
      (s.state = .closed → t.state = .closed ∧ t.err = s.err ∧ ((∀ x, op ≠ .setHeader x) → r.err = some .closed)) ∧
      (s.state = .error → ((∀ x, op ≠ .setHeader x) → r.err = s.err) ∧
        (op = .close → t.state = .closed) ∧ (op ≠ .close → t.state = .error ∧ t.err = s.err)) ∧
      (∀ p, op = .write p → ∃ e, r = .write 0 (some e)) := by
  rcases h with h | ⟨h, e0, h0⟩
  · cases op with
    | write p => exact ⟨.write 0 (some .closed), s, by unfold stepOp wWrite; simp only [if_pos h], rfl, Or.inl h,
        fun _ => ⟨h, rfl, fun _ => rfl⟩, fun x => (by rw [h] at x; cases x), fun _ _ => ⟨_, rfl⟩⟩
    | flush ft => exact ⟨.flush (some .closed), s, by unfold stepOp wFlush; simp only [if_pos h], rfl, Or.inl h,
        fun _ => ⟨h, rfl, fun _ => rfl⟩, fun x => (by rw [h] at x; cases x), by simp⟩
    | close => exact ⟨.close (some .closed), s, by unfold stepOp wClose; simp only [if_pos h], rfl, Or.inl h,
        fun _ => ⟨h, rfl, fun _ => rfl⟩, fun x => (by rw [h] at x; cases x), by simp⟩
    | setHeader hd =>
      by_cases hh : headerOK hd = true
      · exact ⟨.header true, { s with header := hd }, by unfold stepOp wSetHeader; simp only [if_pos hh], rfl, Or.inl h,
          fun _ => ⟨h, rfl, fun hx => absurd rfl (hx hd)⟩, fun x => (by rw [h] at x; cases x), by simp⟩
      · exact ⟨.header false, s, by unfold stepOp wSetHeader; simp only [if_neg hh], rfl, Or.inl h,
          fun _ => ⟨h, rfl, fun hx => absurd rfl (hx hd)⟩, fun x => (by rw [h] at x; cases x), by simp⟩
  · have n1 : s.state ≠ .closed := by rw [h]; simp
    cases op with
    | write p => exact ⟨.write 0 s.err, s, by unfold stepOp wWrite; simp only [if_neg n1, if_pos h], rfl, Or.inr ⟨h, e0, h0⟩,
        fun x => absurd x n1, fun _ => ⟨fun _ => rfl, by simp, fun _ => ⟨h, rfl⟩⟩, fun _ _ => ⟨e0, by rw [h0]⟩⟩
    | flush ft => exact ⟨.flush s.err, s, by unfold stepOp wFlush; simp only [if_neg n1, if_pos h], rfl, Or.inr ⟨h, e0, h0⟩,
        fun x => absurd x n1, fun _ => ⟨fun _ => rfl, by simp, fun _ => ⟨h, rfl⟩⟩, by simp⟩
    | close => exact ⟨.close s.err, { s with state := .closed, err := none }, by unfold stepOp wClose; simp only [if_neg n1, if_pos h], rfl, Or.inl rfl,
        fun x => absurd x n1, fun _ => ⟨fun _ => rfl, fun _ => rfl, by simp⟩, by simp⟩
    | setHeader hd =>
      by_cases hh : headerOK hd = true
      · exact ⟨.header true, { s with header := hd }, by unfold stepOp wSetHeader; simp only [if_pos hh], rfl, Or.inr ⟨h, e0, h0⟩,
          fun x => absurd x n1, fun _ => ⟨fun hx => absurd rfl (hx hd), by simp, fun _ => ⟨h, rfl⟩⟩, by simp⟩
      · exact ⟨.header false, s, by unfold stepOp wSetHeader; simp only [if_neg hh], rfl, Or.inr ⟨h, e0, h0⟩,
          fun x => absurd x n1, fun _ => ⟨fun hx => absurd rfl (hx hd), by simp, fun _ => ⟨h, rfl⟩⟩, by simp⟩

end Flate.Proof
