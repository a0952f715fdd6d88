/-
Flushing: C11, C13.
-/
import Verif.Props.WriterHeader

namespace Flate.Props
open Flate.Spec Flate.Model Flate.Proof

theorem bytesBits_split {out pre : List UInt8} {bs : List Bool} (h : bytesBits out = bytesBits pre ++ bs) (hm : bs.length % 8 = 0) :
    ∃ body, out = pre ++ body ∧ bs = bytesBits body := by
  have hl := congrArg List.length h
  simp only [bytesBits_length, List.length_append] at hl
  have h2 : bytesBits (out.take pre.length) ++ bytesBits (out.drop pre.length) = bytesBits pre ++ bs := by
    rw [← bytesBits_append, List.take_append_drop]; exact h
  have h3 := List.append_inj h2 (by simp only [bytesBits_length, List.length_take]; omega)
  refine ⟨out.drop pre.length, ?_, h3.2.symm⟩
  have h4 := bytesBits_inj h3.1
  calc out = out.take pre.length ++ out.drop pre.length := (List.take_append_drop _ _).symm
    _ = pre ++ out.drop pre.length := by rw [h4]

theorem headerBytes_of {o : Options} (hf : OptsFull o) {h : Header} (hk : headerOK h = true) :
    HeaderOf (2 ^ o.wbits) o.dict (container o.format) (headerBytes o h) := by
  unfold headerBytes container
  cases hx : o.format with
  | default => exact absurd hx hf.format
  | raw => rfl
  | zlib => exact ⟨o.wbits - 8, zlibHeader_ok hf.wbits.1 hf.wbits.2, by rw [Nat.sub_add_cancel hf.wbits.1]⟩
  | gzip => exact ⟨gzHd o h, gzHd_extra hk, gzHd_valid hk, rfl⟩

theorem footerBytes_of {o : Options} (hf : OptsFull o) (d : List UInt8) : footerBytes o d = footerOf d (container o.format) := by
  unfold footerBytes container footerOf
  cases hx : o.format with
  | default => exact absurd hx hf.format
  | raw => rfl
  | zlib => rfl
  | gzip => rfl

/-- the stream in progress of a history without errors -/
theorem cur_open {c : Setup} (h : c.OK) {E : BlockRel} {pf : Prop} (hE : BlockOK c.L c.start.o c.start.lz.maxDist pf E)
    {ops : List WOp} (hp : ∀ op ∈ ops, UsesPartial op → pf) (hc : WOp.close ∉ ops) {rs : List WRes} {s : WState}
    (hr : c.Runs ops rs s) (he : NoErr rs) {d : List UInt8} (hd : (segsOf ops).cur = some d) :
    ∃ hd bytes es k, Hist c.start s k es ∧ Live E c.sink.out 0 s (absOf (cfgOf c.start) ops) ∧
      (absOf (cfgOf c.start) ops).cur = some (hd, d) ∧ headerOK hd = true ∧ s.state = .openStream ∧
      StreamsOf (StreamOf E (2 ^ c.o.wbits) c.o.dict (container c.o.format)) bytes (segsOf ops).done ∧
      OpenAt E s (c.sink.out ++ bytes ++ headerBytes c.o hd) (c.o.dict.getD []) d ∧ Sums s d := by
  obtain ⟨es, k, hh, hl, _⟩ := run_good h.lawful ops (h.live E) hE hp hc hr he
  have hsg := abs_segs (cfgOf c.start) ops {}
  have hcur : ∃ hd, (absOf (cfgOf c.start) ops).cur = some (hd, d) := by
    have h2 : (Abs.segs (ops.foldl (Abs.step (cfgOf c.start)) {})).cur = some d := by
      rw [hsg]; exact hd
    obtain ⟨x, hx, hy⟩ := Option.map_eq_some_iff.1 h2
    exact ⟨x.1, by rw [show d = x.2 from hy.symm]; exact hx⟩
  obtain ⟨hd', hx⟩ := hcur
  obtain ⟨bytes, hs, hb⟩ := hl.body
  rw [show (List.foldl (Abs.step (cfgOf c.start)) {} ops).cur = some (hd', d) from hx] at hb
  obtain ⟨b1, b2, b3, b4⟩ := hb
  rw [hh.o] at b3 hs
  have hf := h.full
  refine ⟨hd', bytes, es, k, hh, hl, hx, b1, b2, ?_, b3, b4⟩
  have := streamsOf_map (f := Prod.snd) (fun b a hx => WStream.stream hx hf.format hf.wbits.1 hf.wbits.2) hs
  rw [segs_done] at this
  exact this

/-- an open stream whose accumulator is empty -/
theorem openAt_bytes {E : BlockRel} {s : WState} (hi : WInv s) (h0 : s.obLen = 0) (hb : s.lz.buf = [])
    {pre h d : List UInt8} (ho : OpenAt E s pre h d) :
    ∃ body, s.sink.out = pre ++ body ∧ Blocks E 0 h (bytesBits body) (h ++ d) := by
  obtain ⟨bs, c, h1, h2, h3, h4⟩ := ho
  rw [view_zero h0, out_pushed hi] at h1
  have hm : bs.length % 8 = 0 := by
    have := congrArg List.length h1
    simp only [bytesBits_length, List.length_append] at this
    omega
  obtain ⟨body, e1, e2⟩ := bytesBits_split h1 hm
  refine ⟨body, e1, ?_⟩
  rw [hb, List.append_nil] at h4
  rw [← e2, h4]; exact h2

/-- a successful flush of an open stream -/
theorem flush_step {L : HuffLib} (hL : L.Lawful) {E : BlockRel} {pf : Prop} {base : List UInt8} {s t : WState} {a : Abs}
    {hd : Header} {d : List UInt8} (hl : Live E base n0 s a) (hc : a.cur = some (hd, d)) (hE : BlockOK L s.o s.lz.maxDist pf E)
    {ft : FlushType} (hf : ft ≠ .finishFlush) (hp : ft = .partialFlush → pf) {r : WRes}
    (e : stepOp L (.flush ft) s = .ok (r, t)) (hr : r.err = none) :
    Keep E s t [] ∧ t.lz.buf = [] ∧ (ft = .fullFlush → t.lz.hist = []) ∧ (ft = .syncFlush ∨ ft = .fullFlush → t.obLen = 0) ∧ WInv t := by
  have hst := live_state hl
  have n1 : s.state ≠ .closed := by rcases hst with h | h | h <;> rw [h] <;> simp
  have n2 : s.state ≠ .error := by rcases hst with h | h | h <;> rw [h] <;> simp
  obtain ⟨bytes, hs, hb⟩ := hl.body
  rw [hc] at hb
  obtain ⟨b1, b2, b3, b4⟩ := hb
  unfold stepOp wFlush at e
  simp only [if_neg n1, if_neg n2] at e
  rcases flush_open hL hE hl.inv hl.conf hl.cap b2 ft hf hp with ⟨e', _⟩ | ⟨b, u, es, k, e', hk, hh, ok, bad, rel⟩
  · rw [e'] at e; cases e
  · rw [e'] at e
    cases b with
    | true =>
      cases e
      obtain ⟨_, ⟨q1, q2, q3, q4⟩, it, _⟩ := ok rfl
      exact ⟨q1, q2, q3, q4, it⟩
    | false =>
      cases e
      obtain ⟨⟨_, _, _, _, f3⟩, _⟩ := bad rfl
      rw [show (WRes.flush t.err).err = t.err from rfl, f3] at hr
      cases hr

/-- **C11.** When `Flush(SyncFlush)` (or `FullFlush`) returns nil while a stream is open, what the underlying writer has received
ends on a byte boundary with a complete block, and decodes to everything written so far. -/
theorem C11_sync {c : Setup} (h : c.OK) {ops : List WOp} (hc : WOp.close ∉ ops) {ft : FlushType}
    (hft : ft = .syncFlush ∨ ft = .fullFlush) {rs : List WRes} {t : WState} (hr : c.Runs (ops ++ [.flush ft]) rs t) (he : NoErr rs)
    {d : List UInt8} (hd : (segsOf ops).cur = some d) :
    ∃ bytes hdr body, t.sink.out = c.sink.out ++ bytes ++ hdr ++ body ∧
      StreamsOf (Stream c.ok (2 ^ c.o.wbits) c.o.dict (container c.o.format)) bytes (segsOf ops).done ∧
      HeaderOf (2 ^ c.o.wbits) c.o.dict (container c.o.format) hdr ∧
      Blocks (BlockEnc c.ok (2 ^ c.o.wbits)) 0 (c.o.dict.getD []) (bytesBits body) (c.o.dict.getD [] ++ d) := by
  obtain ⟨rs1, s, rs2, h1, h2, rfl⟩ := run_append_inv hr
  obtain ⟨hd', bytes, es, k, hh, hl, hcur, hk, hst, hs, ho, hsum⟩ :=
    cur_open h (h.any True) (fun _ _ _ => trivial) hc h1 (fun r x => he r (by simp [x])) hd
  obtain ⟨r, u, rs', h3, h4, rfl⟩ := run_cons_inv h2
  cases h4
  have hnf : ft ≠ .finishFlush := by rcases hft with rfl | rfl <;> simp
  obtain ⟨kp, hb, _, h0, it⟩ := flush_step h.lawful hl hcur ((h.any True).hist hh) hnf (fun _ => trivial) h3 (he r (by simp))
  have := kp.openAt _ _ _ ho
  rw [List.append_nil] at this
  obtain ⟨body, e1, e2⟩ := openAt_bytes it (h0 hft) hb this
  exact ⟨bytes, headerBytes c.o hd', body, e1, hs, headerBytes_of h.full hk, e2⟩

example : ∃ rs t, (demo [.format .zlib, .mlevel 1]).Runs ([.write [1, 2], .flush .blockFlush, .write [3]] ++ [.flush .syncFlush]) rs t ∧ NoErr rs :=
  (demo_ok (by decide)).run_ok (Or.inr (by decide)) (demo_sink _) (by simp)
example : (segsOf [.write [1, 2], .flush .blockFlush, .write [3]]).cur = some [1, 2, 3] := by decide

/-! ### C13 -/

/-- in the middle of a stream, calls which keep it open add their data to whatever is known of the stream -/
theorem run_keep {L : HuffLib} (hL : L.Lawful) {E : BlockRel} {base : List UInt8} : ∀ (ops : List WOp) {s t : WState}
    {a : Abs} {hd : Header} {d : List UInt8} {rs : List WRes}, Live E base n0 s a → a.cur = some (hd, d) →
    BlockOK L s.o s.lz.maxDist True E →
    (∀ op ∈ ops, (∃ p, op = .write p) ∨ ∃ ft, op = .flush ft ∧ ft ≠ .finishFlush) → runOps L ops s = .ok (rs, t) → NoErr rs →
    ∃ a' k es, Hist s t k es ∧ Live E base n0 t a' ∧ a'.cur = some (hd, d ++ writtenData ops) ∧ a'.done = a.done ∧
      (∀ pre h0 d', OpenAt E s pre h0 d' → OpenAt E t pre h0 (d' ++ writtenData ops)) := by
  intro ops
  induction ops with
  | nil =>
    intro s t a hd d rs hl hc _ _ h _
    cases h
    exact ⟨a, [], [], (Flow.refl s).hist, hl, by rw [hc]; simp [writtenData], rfl, fun _ _ _ x => by simpa [writtenData] using x⟩
  | cons op ops ih =>
    intro s t a hd d rs hl hc hE hx h he
    obtain ⟨r, u, rs', h1, h2, rfl⟩ := run_cons_inv h
    have hx' := fun o (ho : o ∈ ops) => hx o (by simp [ho])
    have hr := he r (by simp)
    have he' : NoErr rs' := fun x y => he x (by simp [y])
    rcases stepOp_live hL hl hE op (fun _ => trivial) with ⟨e, _⟩ | ⟨r', u', es, k, e, hh, ok, bad, dep⟩
    · rw [e] at h1; cases h1
    rw [e] at h1
    cases h1
    obtain ⟨_, _, _, h3⟩ := ok hr
    have keep : ∃ p, Keep E s u p ∧ a.step (cfgOf s) op = { a with cur := some (hd, d ++ p) } ∧ op ≠ .close ∧
        p ++ writtenData ops = writtenData (op :: ops) := by
      rcases hx op (by simp) with ⟨p, rfl⟩ | ⟨ft, rfl, hft⟩
      · refine ⟨p, ?_, ?_, by simp, by simp [writtenData]⟩
        · obtain ⟨bytes, hs, hb⟩ := hl.body
          rw [hc] at hb
          obtain ⟨b1, b2, b3, b4⟩ := hb
          have n1 : s.state ≠ .closed := by rw [b2]; simp
          have n2 : s.state ≠ .error := by rw [b2]; simp
          unfold stepOp wWrite at e
          have hw := writeLoop_eq L (2 * p.length + 2) p s
          rcases writeLoop_open hL (2 * p.length + 2) p s (by omega) hE hl.inv hl.conf hl.cap b2 with ⟨e', _⟩ | ⟨b, v, es, k, e', hk, hh, ok, bad2, rel⟩
          · rw [e'] at hw
            simp only [if_neg n1, if_neg n2, hw] at e
            cases e
          · rw [e'] at hw
            cases b with
            | true =>
              simp only [if_neg n1, if_neg n2, hw] at e
              cases e
              exact (ok rfl).2.1
            | false =>
              simp only [if_neg n1, if_neg n2, hw] at e
              cases e
              obtain ⟨⟨_, _, _, _, f3⟩, _⟩ := bad2 rfl
              rw [show (WRes.write 0 u.err).err = u.err from rfl, f3] at hr
              cases hr
        · simp only [Abs.step]
          split
          · rename_i h0; subst h0; rw [List.append_nil, ← hc]
          · rw [hc]
      · refine ⟨[], (flush_step hL hl hc hE hft (fun _ => trivial) e hr).1, ?_, by simp, by simp [writtenData]⟩
        have : a.step (cfgOf s) (.flush ft) = a := by cases ft <;> first | rfl | exact absurd rfl hft
        rw [this, List.append_nil, ← hc]
    obtain ⟨p, kp, hst, hne, hpw⟩ := keep
    have hl' := h3 hne
    rw [hst] at hl'
    obtain ⟨a', k', es', hh', hl'', hc', hd', ho'⟩ := ih hl' rfl (hE.hist hh) hx' h2 he'
    refine ⟨a', k ++ k', es ++ es', hh.trans hh', hl'', ?_, hd', ?_⟩
    · rw [hc', List.append_assoc, hpw]
    · intro pre h0 d' x
      have := ho' pre h0 _ (kp.openAt _ _ _ x)
      rw [List.append_assoc, hpw] at this
      exact this

/-- ending an open stream -/
theorem finish_step {L : HuffLib} (hL : L.Lawful) {E : BlockRel} {pf : Prop} {base : List UInt8} {s t : WState} {a : Abs}
    {hd : Header} {d : List UInt8} (hl : Live E base n0 s a) (hc : a.cur = some (hd, d)) (hE : BlockOK L s.o s.lz.maxDist pf E)
    {op : WOp} (hop : op = .close ∨ op = .flush .finishFlush) {r : WRes}
    (e : stepOp L op s = .ok (r, t)) (hr : r.err = none) :
    ∀ pre h0 d', OpenAt E s pre h0 d' → ∃ body, t.sink.out = pre ++ body ++ footerBytes s.o d ∧ DeflateOf E h0 body d' := by
  have hst := live_state hl
  have n1 : s.state ≠ .closed := by rcases hst with h | h | h <;> rw [h] <;> simp
  have n2 : s.state ≠ .error := by rcases hst with h | h | h <;> rw [h] <;> simp
  obtain ⟨bytes, hs, hb⟩ := hl.body
  rw [hc] at hb
  obtain ⟨b1, b2, b3, b4⟩ := hb
  rcases finish_open hL hE hl.inv hl.conf hl.cap b2 b4 with ⟨e', _⟩ | ⟨b, u, es, k, e', hk, hh, ok, bad, rel⟩
  · rcases hop with rfl | rfl
    · unfold stepOp wClose at e
      simp only [if_neg n1, if_neg n2, e'] at e
      cases e
    · unfold stepOp wFlush at e
      simp only [if_neg n1, if_neg n2, e'] at e
      cases e
  cases b with
  | false =>
    obtain ⟨⟨_, _, _, _, f3⟩, _⟩ := bad rfl
    rcases hop with rfl | rfl
    · unfold stepOp wClose at e
      simp only [if_neg n1, if_neg n2, e'] at e
      cases e
      rw [show (WRes.close u.err).err = u.err from rfl, f3] at hr
      cases hr
    · unfold stepOp wFlush at e
      simp only [if_neg n1, if_neg n2, e'] at e
      cases e
      rw [show (WRes.flush t.err).err = t.err from rfl, f3] at hr
      cases hr
  | true =>
    obtain ⟨_, en, it, _⟩ := ok rfl
    have hout : t.sink.out = u.sink.out := by
      rcases hop with rfl | rfl
      · unfold stepOp wClose at e
        simp only [if_neg n1, if_neg n2, e'] at e
        cases e
        rfl
      · unfold stepOp wFlush at e
        simp only [if_neg n1, if_neg n2, e'] at e
        cases e
        rfl
    intro pre h0 d' x
    obtain ⟨body, q1, q2⟩ := en.openAt pre h0 d' x
    exact ⟨body, by rw [hout, ← out_pushed it]; exact q1, q2⟩

/-- **C13.** What is emitted after a successful `Flush(FullFlush)` of an open stream is, up to the stream's footer, by itself a
complete DEFLATE stream (beginning on a byte boundary with a block header) which decodes, without any history or dictionary, to what
was written since the flush. -/
theorem C13_full {c : Setup} (h : c.OK) {ops ops2 : List WOp} (hc : WOp.close ∉ ops)
    {rs1 rs2 : List WRes} {s t : WState} (hr : c.Runs (ops ++ [.flush .fullFlush]) rs1 s) (he : NoErr rs1)
    {d : List UInt8} (hd : (segsOf ops).cur = some d)
    (hfst : ∀ op ∈ ops2, (∃ p, op = .write p) ∨ ∃ ft, op = .flush ft ∧ ft ≠ .finishFlush)
    {op : WOp} (hop : op = .close ∨ op = .flush .finishFlush)
    (hr2 : runOps c.L (ops2 ++ [op]) s = .ok (rs2, t)) (he2 : NoErr rs2) :
    ∃ body, t.sink.out = s.sink.out ++ body ++ footerOf (d ++ writtenData ops2) (container c.o.format) ∧
      Deflate c.ok (2 ^ c.o.wbits) [] body (writtenData ops2) := by
  obtain ⟨rs1', s0, rsx, h1, h2, rfl⟩ := run_append_inv hr
  obtain ⟨hd', bytes, es, k, hh, hl, hcur, hk, hst, hs, ho, hsum⟩ :=
    cur_open h (h.any True) (fun _ _ _ => trivial) hc h1 (fun r x => he r (by simp [x])) hd
  obtain ⟨r, u, rs', h3, h4, rfl⟩ := run_cons_inv h2
  cases h4
  have hE0 := (h.any True).hist hh
  have hre := he r (by simp)
  obtain ⟨kp, hb, hh0, h0, it⟩ := flush_step h.lawful hl hcur hE0 (by simp) (fun _ => trivial) h3 hre
  obtain ⟨r0, s0', es0, k0, e0, c1, c2, _, _⟩ := (stepOp_live h.lawful hl hE0 (.flush .fullFlush) (fun _ => trivial)).resolve_left
    (by rintro ⟨e, _⟩; rw [e] at h3; cases h3)
  rw [h3] at e0
  cases e0
  have hl' := (c2 hre).2.2.2 (by simp)
  have hst' : Abs.step (cfgOf s0) (absOf (cfgOf c.start) ops) (.flush .fullFlush) = absOf (cfgOf c.start) ops := rfl
  rw [hst'] at hl'
  have hOpen : OpenAt (BlockEnc c.ok (2 ^ c.o.wbits)) s s.sink.out [] [] := by
    refine ⟨[], [], ?_, .nil _ _, ?_, ?_⟩
    · rw [view_zero (h0 (Or.inr rfl)), out_pushed it, List.append_nil]
    · rw [hh0 rfl]; exact List.suffix_refl _
    · rw [hb]; rfl
  obtain ⟨rsa, v, rsb, g1, g2, rfl⟩ := run_append_inv hr2
  have hE1 := hE0.hist c1
  obtain ⟨a', k', es', hh', hl'', hc', hdone, hcar⟩ := run_keep h.lawful ops2 hl' hcur hE1 hfst g1 (fun x y => he2 x (by simp [y]))
  obtain ⟨r', w, rs'', g3, g4, rfl⟩ := run_cons_inv g2
  cases g4
  have := finish_step h.lawful hl'' hc' (hE1.hist hh') hop g3 (he2 r' (by simp)) _ _ _ (hcar _ _ _ hOpen)
  rw [List.nil_append, hh'.o, c1.o, hh.o, c.start_o, footerBytes_of h.full] at this
  exact this

/-- histories as in C13 exist -/
theorem Setup.OK.run_two {c : Setup} (h : c.OK) (hs : c.Small) (hd : c.SinkOK) {ops ops2 : List WOp} (hc : WOp.close ∉ ops) (hc2 : WOp.close ∉ ops2) :
    ∃ rs1 s rs2 t, c.Runs ops rs1 s ∧ NoErr rs1 ∧ runOps c.L (ops2 ++ [.close]) s = .ok (rs2, t) ∧ NoErr rs2 := by
  obtain ⟨rs, t, hr, he⟩ := h.run_close_ok (ops := ops ++ ops2) hs hd (by simp [hc, hc2])
  rw [List.append_assoc] at hr
  obtain ⟨rs1, s, rs2, h1, h2, rfl⟩ := run_append_inv hr
  exact ⟨rs1, s, rs2, t, h1, fun r x => he r (by simp [x]), h2, fun r x => he r (by simp [x])⟩

example : ∃ rs1 s rs2 t, (demo [.format .gzip, .mlevel 1, .dict (some [9])]).Runs ([.write [1, 2, 3]] ++ [.flush .fullFlush]) rs1 s ∧ NoErr rs1 ∧
    runOps refLib ([.write [1, 2, 3, 4], .flush .partialFlush] ++ [.close]) s = .ok (rs2, t) ∧ NoErr rs2 :=
  (demo_ok (by decide)).run_two (Or.inr (by decide)) (demo_sink _) (by simp) (by simp)

end Flate.Props
