/-
The Writer's output: C02, C14, C24 (Writer), C25 (Writer), C32.
-/
import Verif.Props.Session

namespace Flate.Props
open Flate.Spec Flate.Model Flate.Proof

theorem segs_done (cf : AbsCfg) (h : Header) (ops : List WOp) :
    (ops.foldl (Abs.step cf) { hdr := h }).done.map Prod.snd = (segsOf ops).done := by
  have := abs_segs cf ops { hdr := h }
  have h2 : Abs.segs ({ hdr := h } : Abs) = {} := rfl
  rw [h2] at this
  exact congrArg Segs.done this

/-- output of a successful history, for any kind of blocks -/
theorem out_streams {c : Setup} (h : c.OK) {E : BlockRel} {pf : Prop} (hE : BlockOK c.L c.start.o c.start.lz.maxDist pf E)
    {ops : List WOp} (hp : ∀ op ∈ ops, UsesPartial op → pf) (hc : WOp.close ∉ ops) {rs : List WRes} {t : WState}
    (hr : c.Runs (ops ++ [.close]) rs t) (he : NoErr rs) :
    ∃ bytes, t.sink.out = c.sink.out ++ bytes ∧
      StreamsOf (StreamOf E (2 ^ c.o.wbits) c.o.dict (container c.o.format)) bytes (segsOf (ops ++ [.close])).done := by
  obtain ⟨es, k, hh, cl, _⟩ := run_close h.lawful (h.live E) hE hp hc hr he
  obtain ⟨bytes, hs, ho⟩ := cl.out
  refine ⟨bytes, ho, ?_⟩
  have hf := h.full
  rw [hh.o] at hs
  have := streamsOf_map (f := Prod.snd) (fun b a hx => WStream.stream hx hf.format hf.wbits.1 hf.wbits.2) hs
  rw [segs_done] at this
  exact this

/-- **C02.** After a history of successful calls ending with `Close`, what has been delivered is a sequence of
complete, well-formed streams of the chosen format, holding exactly what was written (cut at `FinishFlush` calls). -/
theorem C02_conforming {c : Setup} (h : c.OK) {ops : List WOp} (hc : WOp.close ∉ ops) {rs : List WRes} {t : WState}
    (hr : c.Runs (ops ++ [.close]) rs t) (he : NoErr rs) :
    ∃ bytes, t.sink.out = c.sink.out ++ bytes ∧
      StreamsOf (Stream c.ok (2 ^ c.o.wbits) c.o.dict (container c.o.format)) bytes (segsOf (ops ++ [.close])).done :=
  out_streams h (h.any True) (fun _ _ _ => trivial) hc hr he

/-- non-vacuity: two streams, gzip, with all kinds of flushes and a dictionary -/
example : ∃ rs t, (demo [.format .gzip, .mlevel 1, .dict (some [1, 2, 3])]).Runs
    ([.write [1, 2, 3, 1, 2, 3], .flush .syncFlush, .write [7], .flush .partialFlush, .flush .finishFlush, .write [9], .flush .fullFlush]
      ++ [.close]) rs t ∧ NoErr rs :=
  (demo_ok (by decide)).run_close_ok (Or.inr (by decide)) (demo_sink _) (by simp)

example : (segsOf ([.write [1, 2, 3, 1, 2, 3], .flush .syncFlush, .write [7], .flush .partialFlush, .flush .finishFlush, .write [9], .flush .fullFlush]
      ++ [.close])).done = [[1, 2, 3, 1, 2, 3, 7], [9]] := by decide

/-! ### complete codes -/

theorem blockEnc_ok {p q : List Nat → Prop} (hpq : ∀ l, p l → q l) {win pos : Nat} {f : Bool} {h : List UInt8}
    {b : List Bool} {h' : List UInt8} (e : BlockEnc p win pos f h b h') : BlockEnc q win pos f h b h' := by
  cases e with
  | stored pad data h1 h2 => exact .stored pad data h1 h2
  | fixed is h' h1 h2 => exact .fixed is h' h1 h2
  | dynamic hd is h' h1 h2 h3 h4 =>
    refine .dynamic hd is h' ?_ h2 h3 h4
    obtain ⟨a, b, c, d, e, f, g, i, j, k, l, m, n, o, p⟩ := h1
    exact ⟨a, b, c, d, e, f, g, i, j, k, l, m, hpq _ n, hpq _ o, hpq _ p⟩

theorem blocks_imp {E F : BlockRel} (hE : ∀ pos f h b h', E pos f h b h' → F pos f h b h') {pos : Nat} {h h' : List UInt8}
    {bs : List Bool} (hb : Blocks E pos h bs h') : Blocks F pos h bs h' := by
  induction hb with
  | nil pos h => exact .nil _ _
  | cons hx _ ih => exact .cons (hE _ _ _ _ _ hx) ih

theorem deflate_imp {E F : BlockRel} (hE : ∀ pos f h b h', E pos f h b h' → F pos f h b h') {dict bytes data : List UInt8}
    (hd : DeflateOf E dict bytes data) : DeflateOf F dict bytes data := by
  obtain ⟨bs, b, pad, h, h1, h2, h3, h4⟩ := hd
  exact ⟨bs, b, pad, h, blocks_imp hE h1, hE _ _ _ _ _ h2, h3, h4⟩

theorem stream_imp {E F : BlockRel} (hE : ∀ pos f h b h', E pos f h b h' → F pos f h b h') {win : Nat}
    {dict : Option (List UInt8)} {c : Container} {bytes data : List UInt8} (hs : StreamOf E win dict c bytes data) :
    StreamOf F win dict c bytes data := by
  cases c with
  | raw => exact deflate_imp hE hs
  | zlib =>
    obtain ⟨cinfo, hdr, body, h1, h2, h3, h4⟩ := hs
    exact ⟨cinfo, hdr, body, h1, h2, deflate_imp hE h3, h4⟩
  | gzip =>
    obtain ⟨hd, h0, body, h1, h2, h3⟩ := hs
    exact ⟨hd, h0, body, h1, deflate_imp hE h2, h3⟩

theorem streams_imp {α : Type} {S T : List UInt8 → α → Prop} (h : ∀ b a, S b a → T b a) {bytes : List UInt8} {segs : List α}
    (hs : StreamsOf S bytes segs) : StreamsOf T bytes segs := by
  have := streamsOf_map (f := id) h hs
  rwa [List.map_id] at this

/-- The Writer depends on the library's encoder only. -/
theorem runOps_congr {L L' : HuffLib} (h : L.sizes = L'.sizes) : ∀ (ops : List WOp), runOps L ops = runOps L' ops := by
  have h1 : ∀ {σ : Type} (bw : BitWriter σ) a b ts f, writeDynamicBlock bw L a b ts f = writeDynamicBlock bw L' a b ts f := by
    intro σ bw a b ts f; unfold writeDynamicBlock; rw [h]
  have h2 : ∀ W d ts f, compressTokens wBW W L d ts f = compressTokens wBW W L' d ts f := by
    intro W d ts f; unfold compressTokens; simp only [h, h1]
  have h3 : ∀ b, compressSlow L b = compressSlow L' b := by
    intro b; unfold compressSlow; simp only [h2]; rfl
  have h4 : ∀ b, compressImpl L b = compressImpl L' b := by
    intro b; unfold compressImpl; simp only [h3]; rfl
  have h5 : ∀ ft, flushImpl L ft = flushImpl L' ft := by
    intro ft; unfold flushImpl; rw [h4]
  have h6 : ∀ n p, writeLoop L n p = writeLoop L' n p := by
    intro n
    induction n with
    | zero => intro p; rfl
    | succ n ih => intro p; unfold writeLoop; simp only [h4, ih]; rfl
  have h7 : ∀ op, stepOp L op = stepOp L' op := by
    intro op
    cases op <;> simp only [stepOp, wWrite, wFlush, wClose, h5, h6] <;> rfl
  intro ops
  induction ops with
  | nil => rfl
  | cons op ops ih => unfold runOps; rw [ih, h7]

/-- the same library with a pickier decoder, which insists on complete codes -/
def strict (L : HuffLib) : HuffLib := { L with accepts := fun lens => decide (IsComplete lens) }

theorem strict_lawful {L : HuffLib} (hL : L.Lawful) (hc : ∀ n freqs, n ≤ 288 → freqs.length = n → IsComplete (L.sizes n freqs)) :
    (strict L).Lawful where
  accepts_code h := isComplete_isCode (of_decide_eq_true h)
  accepts_complete h := decide_eq_true h
  minSize_le h := hL.minSize_le (hL.accepts_complete (of_decide_eq_true h))
  le_maxSize h := hL.le_maxSize (hL.accepts_complete (of_decide_eq_true h))
  maxSize_le h := hL.maxSize_le (hL.accepts_complete (of_decide_eq_true h))
  decode_some h := hL.decode_some (hL.accepts_complete (of_decide_eq_true h))
  decode_found h := hL.decode_found (hL.accepts_complete (of_decide_eq_true h))
  decode_more h := hL.decode_more (hL.accepts_complete (of_decide_eq_true h))
  decode_dead h := hL.decode_dead (hL.accepts_complete (of_decide_eq_true h))
  sizes_length := hL.sizes_length
  sizes_used := hL.sizes_used
  sizes_unused := hL.sizes_unused
  sizes_accepts h1 h2 := decide_eq_true (hc _ _ h1 h2)
  sizes_cl := hL.sizes_cl

/-- **C02**, for decoders which insist on complete codes: if the library's encoder makes complete codes, so does the Writer. -/
theorem C02_complete {c : Setup} (h : c.OK)
    (hl : ∀ n freqs, n ≤ 288 → freqs.length = n → IsComplete (c.L.sizes n freqs))
    {ops : List WOp} (hc : WOp.close ∉ ops) {rs : List WRes} {t : WState}
    (hr : c.Runs (ops ++ [.close]) rs t) (he : NoErr rs) :
    ∃ bytes, t.sink.out = c.sink.out ++ bytes ∧
      StreamsOf (Stream IsComplete (2 ^ c.o.wbits) c.o.dict (container c.o.format)) bytes (segsOf (ops ++ [.close])).done := by
  have h' : ({ c with L := strict c.L } : Setup).OK := ⟨strict_lawful h.lawful hl, h.word, h.valid⟩
  have hr' : ({ c with L := strict c.L } : Setup).Runs (ops ++ [.close]) rs t := by
    unfold Setup.Runs at hr ⊢
    rw [← hr]
    exact congrFun (runOps_congr (L := strict c.L) (L' := c.L) rfl _) _
  obtain ⟨bytes, ho, hs⟩ := C02_conforming h' hc hr' he
  refine ⟨bytes, ho, streams_imp (fun b a => stream_imp (fun _ _ _ _ _ => blockEnc_ok ?_)) hs⟩
  intro l hx
  exact of_decide_eq_true hx

/-- **C02**, whatever the library's decoder accepts: at the least, all codes are prefix codes of at most 15 bits. -/
theorem C02_prefix_codes {c : Setup} (h : c.OK) {ops : List WOp} (hc : WOp.close ∉ ops) {rs : List WRes} {t : WState}
    (hr : c.Runs (ops ++ [.close]) rs t) (he : NoErr rs) :
    ∃ bytes, t.sink.out = c.sink.out ++ bytes ∧
      StreamsOf (Stream IsCode (2 ^ c.o.wbits) c.o.dict (container c.o.format)) bytes (segsOf (ops ++ [.close])).done := by
  obtain ⟨bytes, ho, hs⟩ := C02_conforming h hc hr he
  exact ⟨bytes, ho, streams_imp (fun b a => stream_imp (fun _ _ _ _ _ => blockEnc_ok fun l hx => h.lawful.accepts_code hx)) hs⟩

/-! ### C14 -/

theorem sinkFlush_out (s : WState) : ∃ b t, sinkFlush s = .ok (b, t) ∧ t.sink.out = s.sink.out ∧ t.events = s.events := by
  unfold sinkFlush
  split
  · dsimp only; split <;> exact ⟨_, _, rfl, rfl, rfl⟩
  · exact ⟨_, _, rfl, rfl, rfl⟩

theorem sinkSync_out (s : WState) : ∃ b t, sinkSync s = .ok (b, t) ∧ t.sink.out = s.sink.out ∧ t.events = s.events := by
  unfold sinkSync
  split
  · dsimp only
    split
    · split <;> exact ⟨_, _, rfl, rfl, rfl⟩
    · exact ⟨_, _, rfl, rfl, rfl⟩
  · exact ⟨_, _, rfl, rfl, rfl⟩

theorem sinkBoth_out (s : WState) : ∃ b t, Go.chk sinkFlush sinkSync s = .ok (b, t) ∧ t.sink.out = s.sink.out ∧ t.events = s.events := by
  obtain ⟨b, t, e, h1, h2⟩ := sinkFlush_out s
  cases b with
  | false => exact ⟨false, t, chk_false e, h1, h2⟩
  | true =>
    obtain ⟨b, u, e', h3, h4⟩ := sinkSync_out t
    exact ⟨b, u, by rw [chk_ok e]; exact e', h3.trans h1, h4.trans h2⟩

/-- **C14.** The output is one complete stream per data segment between `FinishFlush` calls; a Writer never
written to produces one empty stream. -/
theorem C14_segments {c : Setup} (h : c.OK) {ops : List WOp} (hc : WOp.close ∉ ops) {rs : List WRes} {t : WState}
    (hr : c.Runs (ops ++ [.close]) rs t) (he : NoErr rs) :
    ∃ bytes, t.sink.out = c.sink.out ++ bytes ∧
      StreamsOf (Stream c.ok (2 ^ c.o.wbits) c.o.dict (container c.o.format)) bytes (segsOf (ops ++ [.close])).done :=
  C02_conforming h hc hr he

/-- a sequence of one stream is a stream -/
theorem streams_one {α : Type} {S : List UInt8 → α → Prop} {bytes : List UInt8} {d : α} (h : StreamsOf S bytes [d]) :
    S bytes d := by
  generalize hg : [d] = g at h
  cases h with
  | nil => cases hg
  | snoc hs hb =>
    rename_i b0 b segs d'
    have := List.append_eq_singleton_iff.1 hg.symm
    rcases this with ⟨h1, h2⟩ | ⟨h1, h2⟩
    · subst h1
      generalize hn : ([] : List α) = n at hs
      cases hs with
      | nil => rw [List.nil_append]; cases h2; exact hb
      | snoc _ _ => simp at hn
    · cases h2

theorem streams_two {α : Type} {S : List UInt8 → α → Prop} {bytes : List UInt8} {d e : α} (h : StreamsOf S bytes [d, e]) :
    ∃ a b, bytes = a ++ b ∧ S a d ∧ S b e := by
  generalize hg : [d, e] = g at h
  cases h with
  | nil => cases hg
  | snoc hs hb =>
    rename_i b0 b segs d'
    have h1 : segs ++ [d'] = [d] ++ [e] := hg.symm
    obtain ⟨h2, h3⟩ := List.append_inj' h1 rfl
    cases h3
    subst h2
    exact ⟨b0, b, rfl, streams_one hs, hb⟩

/-- `Close` on a Writer never written to emits one complete empty stream. -/
theorem C14_empty {c : Setup} (h : c.OK) {rs : List WRes} {t : WState} (hr : c.Runs [.close] rs t) (he : NoErr rs) :
    ∃ bytes, t.sink.out = c.sink.out ++ bytes ∧ Stream c.ok (2 ^ c.o.wbits) c.o.dict (container c.o.format) bytes [] := by
  obtain ⟨bytes, ho, hs⟩ := C02_conforming h (ops := []) (by simp) hr he
  exact ⟨bytes, ho, streams_one hs⟩

/-- `Write`, `FinishFlush`, `Write`, `Close` emit exactly two complete streams. -/
theorem C14_two {c : Setup} (h : c.OK) {p q : List UInt8} (hp : p ≠ []) (hq : q ≠ []) {rs : List WRes} {t : WState}
    (hr : c.Runs [.write p, .flush .finishFlush, .write q, .close] rs t) (he : NoErr rs) :
    ∃ a b, t.sink.out = c.sink.out ++ a ++ b ∧ Stream c.ok (2 ^ c.o.wbits) c.o.dict (container c.o.format) a p ∧
      Stream c.ok (2 ^ c.o.wbits) c.o.dict (container c.o.format) b q := by
  obtain ⟨bytes, ho, hs⟩ := C02_conforming h (ops := [.write p, .flush .finishFlush, .write q]) (by simp) hr he
  have : (segsOf ([.write p, .flush .finishFlush, .write q] ++ [WOp.close])).done = [p, q] := by
    simp [segsOf, Segs.step, Segs.finish, hp, hq]
  rw [this] at hs
  obtain ⟨a, b, rfl, h1, h2⟩ := streams_two hs
  exact ⟨a, b, by rw [ho, List.append_assoc], h1, h2⟩

/-- `Close` after a successful `FinishFlush` emits nothing more (and succeeds if the underlying writer does). -/
theorem C14_close_after_finish {c : Setup} (h : c.OK) {ops : List WOp} (hc : WOp.close ∉ ops) {rs : List WRes} {t : WState}
    (hr : c.Runs (ops ++ [.flush .finishFlush]) rs t) (he : NoErr rs) :
    ∃ r u, stepOp c.L .close t = .ok (r, u) ∧ u.sink.out = t.sink.out ∧ u.events = t.events := by
  have hc' : WOp.close ∉ ops ++ [.flush .finishFlush] := by simp [hc]
  obtain ⟨es, k, hh, hl, _⟩ := run_good h.lawful _ (h.live _) (h.any True) (fun _ _ _ => trivial) hc' hr he
  obtain ⟨bytes, _, hb⟩ := hl.body
  rw [List.foldl_append] at hb
  have hcur : (List.foldl (Abs.step (cfgOf c.start)) (List.foldl (Abs.step (cfgOf c.start)) {} ops) [.flush .finishFlush]).cur = none :=
    finish_cur _ _
  rw [hcur] at hb
  obtain ⟨_, h1, h2, h3⟩ := hb
  have hdone : (List.foldl (Abs.step (cfgOf c.start)) (List.foldl (Abs.step (cfgOf c.start)) {} ops) [.flush .finishFlush]).done ≠ [] := by
    show (Abs.finish _ _).done ≠ []
    unfold Abs.finish
    split
    · simp
    · split
      · simp
      · assumption
  have hst : t.state = .closedStream := by
    rcases h3 with h3 | h3
    · exact absurd h3.2 hdone
    · exact h3.1
  have n1 : t.state ≠ .closed := by rw [hst]; simp
  have n2 : t.state ≠ .error := by rw [hst]; simp
  have e : flushImpl c.L .finishFlush t = Go.chk sinkFlush sinkSync t := by
    rw [flushImpl_eq]
    have e2 : openIf .finishFlush t = .ok (true, t) := by
      unfold openIf; rw [if_neg]; rw [hst]; simp
    have e3 : gutsIf .finishFlush t = .ok (true, t) := by
      unfold gutsIf; rw [if_neg]; rw [hst]; simp
    have e4 : finishClosing t = .ok (true, t) := finishClosing_other (by rw [hst]; simp)
    rw [chk_ok (compress_empty h2 true), chk_ok e2, chk_ok e3, chk_ok e4]
  obtain ⟨b, v, e', ev1, ev2⟩ := sinkBoth_out t
  have : ∃ r u, stepOp c.L .close t = .ok (r, u) ∧ u.sink = v.sink ∧ u.events = v.events := by
    unfold stepOp wClose
    simp only [if_neg n1, if_neg n2, e, e']
    cases b
    · exact ⟨_, _, rfl, rfl, rfl⟩
    · exact ⟨_, _, rfl, rfl, rfl⟩
  obtain ⟨r, u, a1, a2, a3⟩ := this
  exact ⟨r, u, a1, by rw [a2, ev1], by rw [a3, ev2]⟩

end Flate.Props
