/-
Headers of the Writer's streams: C24 (Writer), C48, the Writer's half of C21, and C22.
-/
import Verif.Props.WriterOutput

namespace Flate.Props
open Flate.Spec Flate.Model Flate.Proof

/-! ### C24 -/

/-- **C24** (Writer).  Every zlib stream starts with a header with CM = 8, CINFO = window bits - 8, a 16-bit value divisible
by 31, and FDICT and the dictionary's Adler-32 exactly when a dictionary is set (`ZlibHeader`). -/
theorem C24_writer {c : Setup} (h : c.OK) (hf : c.o.format = .zlib) {ops : List WOp} (hc : WOp.close ∉ ops)
    {rs : List WRes} {t : WState} (hr : c.Runs (ops ++ [.close]) rs t) (he : NoErr rs) :
    ∃ bytes, t.sink.out = c.sink.out ++ bytes ∧
      StreamsOf (fun b d => ∃ hdr body, ZlibHeader c.o.dict (c.o.wbits - 8) hdr ∧
        Deflate c.ok (2 ^ c.o.wbits) (c.o.dict.getD []) body d ∧ b = hdr ++ body ++ beBytes 4 (adler32 d))
        bytes (segsOf (ops ++ [.close])).done := by
  obtain ⟨es, k, hh, cl, _⟩ := run_close h.lawful (h.live _) (h.any True) (fun _ _ _ => trivial) hc hr he
  obtain ⟨bytes, hs, ho⟩ := cl.out
  refine ⟨bytes, ho, ?_⟩
  have hfull := h.full
  rw [hh.o] at hs
  have := streamsOf_map (f := Prod.snd) (T := fun b d => ∃ hdr body, ZlibHeader c.o.dict (c.o.wbits - 8) hdr ∧
        Deflate c.ok (2 ^ c.o.wbits) (c.o.dict.getD []) body d ∧ b = hdr ++ body ++ beBytes 4 (adler32 d)) ?_ hs
  · rw [segs_done] at this
    exact this
  · rintro b a ⟨_, body, hb, e⟩
    refine ⟨zlibHeaderBytes c.o, body, zlibHeader_ok hfull.wbits.1 hfull.wbits.2, hb, ?_⟩
    rw [e, c.start_o]
    unfold headerBytes footerBytes
    rw [hf]

example : ∃ rs t, (demo [.format .zlib, .mlevel 2, .wbits 9, .dict (some [4, 5])]).Runs ([.write [4, 5, 6]] ++ [.close]) rs t ∧ NoErr rs :=
  (demo_ok (by decide)).run_close_ok (Or.inr (by decide)) (demo_sink _) (by simp)

/-! ### gzip headers -/

/-- how much of the first `Write` of a stream is looked at to tell text from binary data -/
def Setup.cfg (c : Setup) : AbsCfg := ⟨c.o.wbits, c.o.clevel, min 4096 (2 ^ (c.o.mlevel + 8))⟩

theorem Setup.cfg_eq (c : Setup) : cfgOf c.start = c.cfg := by
  unfold cfgOf Setup.cfg
  have : c.start.lz.cap = 2 ^ (c.o.mlevel + 8) := by
    show 2 ^ (hybridOptions c.o).bufBits = _
    unfold hybridOptions; split <;> rfl
  rw [this]; rfl

theorem gzHd_of {o : Options} {h : Header} (hh : HeaderOK h) (h0 : h.osType ≠ 0) : GzOf h (gzHd o h) := by
  refine ⟨?_, ?_, ?_, ?_, rfl, rfl⟩
  · simp [gzHd]
  · unfold gzHd
    refine ⟨fun e => by simp [e], fun t e => ?_⟩
    have := hh.time t e
    simp only [e]
    omega
  · have := hh.os
    show ((osTypeEncode h.osType).getD 0xff).toNat = _
    unfold osTypeEncode
    rw [if_pos ⟨by omega, this⟩]
    show (UInt8.ofNat (h.osType - 1)).toNat = _
    rw [UInt8.toNat_ofNat_of_lt' (by show _ < 256; omega)]
  · show (if h.extra = [] then none else some (extraAsBytes h.extra)) = _
    rw [extraAsBytes_eq hh.recs]

/-- streams' headers always have an operating system -/
theorem abs_os (cf : AbsCfg) (ops : List WOp) : ∀ x ∈ (absOf cf ops).done, x.1.osType ≠ 0 := by
  have hn : ∀ w l h f, (newHeader w l h f).osType ≠ 0 := by
    intro w l h f; show (if h.osType = 0 then 4 else h.osType) ≠ 0; split <;> omega
  have key : ∀ (ops : List WOp) (a : Abs), (∀ x ∈ a.done, x.1.osType ≠ 0) → (∀ x, a.cur = some x → x.1.osType ≠ 0) →
      ∀ x ∈ (ops.foldl (Abs.step cf) a).done, x.1.osType ≠ 0 := by
    intro ops
    induction ops with
    | nil => intro a h1 _; exact h1
    | cons op ops ih =>
      intro a h1 h2
      have hfin : (∀ x ∈ (a.finish cf).done, x.1.osType ≠ 0) ∧ (∀ x, (a.finish cf).cur = some x → x.1.osType ≠ 0) := by
        refine ⟨?_, fun x hx => by rw [finish_cur] at hx; cases hx⟩
        unfold Abs.finish
        split
        · rename_i y hy
          intro x hx
          rcases List.mem_append.1 hx with hx | hx
          · exact h1 x hx
          · rw [List.mem_singleton] at hx; subst hx; exact h2 _ hy
        · split
          · intro x hx
            rw [List.mem_singleton] at hx; subst hx; exact hn _ _ _ _
          · exact h1
      have hstep : (∀ x ∈ (a.step cf op).done, x.1.osType ≠ 0) ∧ (∀ x, (a.step cf op).cur = some x → x.1.osType ≠ 0) := by
        cases op with
        | close => exact hfin
        | flush ft =>
          cases ft with
          | finishFlush => exact hfin
          | _ => exact ⟨h1, h2⟩
        | setHeader h =>
          simp only [Abs.step]
          split <;> exact ⟨h1, h2⟩
        | write p =>
          simp only [Abs.step]
          split
          · exact ⟨h1, h2⟩
          · split
            · rename_i hd d hc
              exact ⟨h1, fun x hx => by cases hx; exact h2 (hd, d) hc⟩
            · exact ⟨h1, fun x hx => by cases hx; exact hn _ _ _ _⟩
      exact ih _ hstep.1 hstep.2
  exact key ops {} (by simp) (by simp)

/-- The gzip members produced by a successful history, with their headers. -/
theorem gzip_members {c : Setup} (h : c.OK) (hf : c.o.format = .gzip) {ops : List WOp} (hc : WOp.close ∉ ops)
    {rs : List WRes} {t : WState} (hr : c.Runs (ops ++ [.close]) rs t) (he : NoErr rs) :
    ∃ bytes, t.sink.out = c.sink.out ++ bytes ∧
      StreamsOf (fun b (hd : Header × List UInt8) => ∃ g, GzOf hd.1 g ∧ (∀ e, g.extra = some e → ExtraOK e) ∧
        GzMember (BlockEnc c.ok (2 ^ c.o.wbits)) c.o.dict g b hd.2) bytes (absOf c.cfg (ops ++ [.close])).done := by
  obtain ⟨es, k, hh, cl, _⟩ := run_close h.lawful (h.live _) (h.any True) (fun _ _ _ => trivial) hc hr he
  obtain ⟨bytes, hs, ho⟩ := cl.out
  refine ⟨bytes, ho, ?_⟩
  rw [hh.o, c.cfg_eq] at hs
  have hos := abs_os c.cfg (ops ++ [.close])
  have key : ∀ {bytes : List UInt8} {l : List (Header × List UInt8)}, (∀ x ∈ l, x.1.osType ≠ 0) →
      StreamsOf (WStream (BlockEnc c.ok (2 ^ c.o.wbits)) c.start.o) bytes l →
      StreamsOf (fun b (hd : Header × List UInt8) => ∃ g, GzOf hd.1 g ∧ (∀ e, g.extra = some e → ExtraOK e) ∧
        GzMember (BlockEnc c.ok (2 ^ c.o.wbits)) c.o.dict g b hd.2) bytes l := by
    intro bytes l hl hs
    induction hs with
    | nil => exact .nil
    | snoc _ hb ih =>
      rename_i x _
      refine .snoc (ih fun y hy => hl y (by simp [hy])) ?_
      obtain ⟨hk, body, hd, e⟩ := hb
      refine ⟨gzHd c.o _, gzHd_of ((headerOK_iff _).1 hk) (hl _ (by simp)), gzHd_extra hk, body, gzHd_valid hk, hd, ?_⟩
      rw [e, c.start_o]
      unfold headerBytes footerBytes
      rw [hf]; simp
  exact key hos hs

/-- the data written by a sequence of calls -/
def writtenData (ops : List WOp) : List UInt8 := ops.flatMap fun op => match op with | .write p => p | _ => []

/-- the data of the first non-empty `Write` -/
def firstData (ops : List WOp) : List UInt8 :=
  (ops.findSome? fun op => match op with | .write p => if p = [] then none else some p | _ => none).getD []

/-- the abstract machine on a history with a single stream -/
theorem abs_open (cf : AbsCfg) : ∀ (ops : List WOp) (a : Abs) (hd : Header) (d : List UInt8),
    (∀ op ∈ ops, (∃ p, op = .write p) ∨ ∃ ft, op = .flush ft ∧ ft ≠ .finishFlush) → a.cur = some (hd, d) →
    (ops.foldl (Abs.step cf) a) = { a with cur := some (hd, d ++ writtenData ops) } := by
  intro ops
  induction ops with
  | nil => intro a hd d _ hc; simp [writtenData, ← hc]
  | cons op ops ih =>
    intro a hd d hx hc
    rw [List.foldl_cons]
    rcases hx op (by simp) with ⟨p, rfl⟩ | ⟨ft, rfl, hft⟩
    · have hst : a.step cf (.write p) = { a with cur := some (hd, d ++ p) } := by
        simp only [Abs.step]
        split
        · rename_i h0; subst h0; rw [List.append_nil, ← hc]
        · rw [hc]
      rw [hst, ih _ hd (d ++ p) (fun o ho => hx o (by simp [ho])) rfl]
      simp [writtenData]
    · have hst : a.step cf (.flush ft) = a := by
        cases ft <;> first | rfl | exact absurd rfl hft
      rw [hst, ih _ hd d (fun o ho => hx o (by simp [ho])) hc]
      simp [writtenData]

theorem abs_from (cf : AbsCfg) : ∀ (ops : List WOp) (a : Abs), a.cur = none → a.done = [] →
    (∀ op ∈ ops, (∃ p, op = .write p) ∨ ∃ ft, op = .flush ft ∧ ft ≠ .finishFlush) →
    (Abs.finish cf (ops.foldl (Abs.step cf) a)).done = [(newHeader cf.wbits cf.clevel a.hdr ((firstData ops).take cf.look), writtenData ops)] := by
  intro ops
  induction ops with
  | nil =>
    intro a hc hd _
    simp only [List.foldl_nil, Abs.finish, hc, hd, if_true, writtenData, firstData]
    simp
  | cons op ops ih =>
    intro a hc hd hx
    rw [List.foldl_cons]
    have hx' := fun o (ho : o ∈ ops) => hx o (by simp [ho])
    rcases hx op (by simp) with ⟨p, rfl⟩ | ⟨ft, rfl, hft⟩
    · by_cases hp : p = []
      · subst hp
        have hst : a.step cf (.write []) = a := by simp [Abs.step]
        rw [hst, ih a hc hd hx']
        simp [writtenData, firstData]
      · have hst : a.step cf (.write p) = { a with hdr := newHeader cf.wbits cf.clevel a.hdr (p.take cf.look), cur := some (newHeader cf.wbits cf.clevel a.hdr (p.take cf.look), p) } := by
          simp only [Abs.step, if_neg hp, hc]
        rw [hst, abs_open cf ops _ _ _ hx' rfl]
        simp [Abs.finish, hd, writtenData, firstData, hp]
    · have hst : a.step cf (.flush ft) = a := by
        cases ft <;> first | rfl | exact absurd rfl hft
      rw [hst, ih a hc hd hx']
      simp [writtenData, firstData]

theorem abs_single (cf : AbsCfg) {hd : Header} (hk : HeaderOK hd) {ops : List WOp}
    (hx : ∀ op ∈ ops, (∃ p, op = .write p) ∨ ∃ ft, op = .flush ft ∧ ft ≠ .finishFlush) :
    (absOf cf ([.setHeader hd] ++ ops ++ [.close])).done =
      [(newHeader cf.wbits cf.clevel hd ((firstData ops).take cf.look), writtenData ops)] := by
  unfold absOf
  rw [List.append_assoc, List.foldl_append, List.foldl_append]
  have : List.foldl (Abs.step cf) {} [WOp.setHeader hd] = { hdr := hd } := by
    simp [Abs.step, hk]
  rw [this]
  exact abs_from cf ops { hdr := hd } rfl rfl hx

/-- **C21** (Writer's half).  When `SetHeader h` is accepted before the first `Write`, the gzip member says what `h` says, with
an unknown operating system replaced by Unix and an unknown data type by the detected one. -/
theorem C21_writer {c : Setup} (h : c.OK) (hf : c.o.format = .gzip) {hd : Header} (hk : HeaderOK hd)
    {ops : List WOp} (hfst : ∀ op ∈ ops, (∃ p, op = .write p) ∨ ∃ ft, op = .flush ft ∧ ft ≠ .finishFlush)
    {rs : List WRes} {t : WState} (hr : c.Runs ([.setHeader hd] ++ ops ++ [.close]) rs t) (he : NoErr rs) :
    ∃ b g hd', t.sink.out = c.sink.out ++ b ∧ GzOf hd' g ∧ (∀ e, g.extra = some e → ExtraOK e) ∧
      GzMember (BlockEnc c.ok (2 ^ c.o.wbits)) c.o.dict g b (writtenData ops) ∧
      hd'.fileName = hd.fileName ∧ hd'.comment = hd.comment ∧ hd'.lastModified = hd.lastModified ∧ hd'.extra = hd.extra ∧
      hd'.osType = (if hd.osType = 0 then 4 else hd.osType) ∧
      (hd.dataType ≠ .unknown → hd'.dataType = hd.dataType) ∧
      (hd.dataType = .unknown → hd'.dataType = if Textual ((firstData ops).take (min 4096 (2 ^ (c.o.mlevel + 8)))) then .text else .binary) := by
  have hcl : WOp.close ∉ [.setHeader hd] ++ ops := by
    intro hx
    rcases List.mem_append.1 hx with hx | hx
    · simp at hx
    · rcases hfst _ hx with ⟨p, hp⟩ | ⟨ft, hp, _⟩ <;> cases hp
  obtain ⟨bytes, ho, hs⟩ := gzip_members h hf hcl hr he
  rw [abs_single c.cfg hk hfst] at hs
  obtain ⟨g, h1, h2, h3⟩ := streams_one hs
  refine ⟨bytes, g, _, ho, h1, h2, h3, rfl, rfl, rfl, rfl, rfl, ?_, ?_⟩
  · intro hne; simp only [newHeader, if_neg hne]
  · intro heq; simp only [newHeader, if_pos heq]; rfl

example : ∃ rs t, (demo [.format .gzip, .mlevel 1]).Runs ([.setHeader { fileName := [97], comment := [98], lastModified := some 5, osType := 3, extra := [⟨1, 2, [3]⟩] }] ++ [.write [4, 5, 6], .flush .syncFlush] ++ [.close]) rs t ∧ NoErr rs :=
  (demo_ok (by decide)).run_close_ok (Or.inr (by decide)) (demo_sink _) (by simp)
example : HeaderOK { fileName := [97], comment := [98], lastModified := some 5, osType := 3, extra := [⟨1, 2, [3]⟩] } :=
  (headerOK_iff _).1 (by decide)

/-! ### C48 -/

theorem streams_last {α : Type} {S : List UInt8 → α → Prop} {bytes : List UInt8} {l : List α} {d : α}
    (h : StreamsOf S bytes (l ++ [d])) : ∃ a b, bytes = a ++ b ∧ StreamsOf S a l ∧ S b d := by
  generalize hg : l ++ [d] = g at h
  cases h with
  | nil => simp at hg
  | snoc hs hb =>
    rename_i b0 b segs d'
    obtain ⟨h2, h3⟩ := List.append_inj' hg rfl
    cases h3
    subst h2
    exact ⟨b0, b, rfl, hs, hb⟩

/-- **C48**, partial: the FTEXT flag of the *first* stream of a Writer without `SetHeader` is set exactly when the beginning
(at most 4096 bytes) of the data first written is text.  (Missing: later streams; see `C48_sticky`.) -/
theorem C48_first_partial {c : Setup} (h : c.OK) (hf : c.o.format = .gzip)
    {ops : List WOp} (hfst : ∀ op ∈ ops, (∃ p, op = .write p) ∨ ∃ ft, op = .flush ft ∧ ft ≠ .finishFlush)
    {rs : List WRes} {t : WState} (hr : c.Runs (ops ++ [.close]) rs t) (he : NoErr rs) :
    ∃ b g, t.sink.out = c.sink.out ++ b ∧ GzMember (BlockEnc c.ok (2 ^ c.o.wbits)) c.o.dict g b (writtenData ops) ∧
      (g.text = true ↔ Textual ((firstData ops).take (min 4096 (2 ^ (c.o.mlevel + 8))))) := by
  have hcl : WOp.close ∉ ops := by
    intro hx
    rcases hfst _ hx with ⟨p, hp⟩ | ⟨ft, hp, _⟩ <;> cases hp
  obtain ⟨bytes, ho, hs⟩ := gzip_members h hf hcl hr he
  have hab : (absOf c.cfg (ops ++ [.close])).done = [(newHeader c.cfg.wbits c.cfg.clevel {} ((firstData ops).take c.cfg.look), writtenData ops)] := by
    unfold absOf
    rw [List.foldl_append]
    exact abs_from c.cfg ops {} rfl rfl hfst
  rw [hab] at hs
  obtain ⟨g, h1, _, h3⟩ := streams_one hs
  refine ⟨bytes, g, ho, h3, ?_⟩
  rw [h1.text]
  by_cases hx : Textual ((firstData ops).take c.cfg.look)
  · simp only [newHeader, if_pos hx, if_true, true_iff]; exact hx
  · simp only [newHeader, if_neg hx, if_true]
    exact ⟨fun h => (by cases h), fun h => absurd h hx⟩

/-- The same for any stream whose header was set (with an unknown data type) just before it. -/
theorem C48_after_SetHeader_partial {c : Setup} (h : c.OK) (hf : c.o.format = .gzip) {ops0 ops : List WOp} {hd : Header}
    (hk : HeaderOK hd) (hu : hd.dataType = .unknown) (hc0 : WOp.close ∉ ops0) (hcur : (segsOf ops0).cur = none)
    {p : List UInt8} (hp : p ≠ [])
    (hfst : ∀ op ∈ ops, (∃ p, op = .write p) ∨ ∃ ft, op = .flush ft ∧ ft ≠ .finishFlush)
    {rs : List WRes} {t : WState} (hr : c.Runs (ops0 ++ [.setHeader hd, .write p] ++ ops ++ [.close]) rs t) (he : NoErr rs) :
    ∃ a b g, t.sink.out = c.sink.out ++ a ++ b ∧
      GzMember (BlockEnc c.ok (2 ^ c.o.wbits)) c.o.dict g b (p ++ writtenData ops) ∧
      (g.text = true ↔ Textual (p.take (min 4096 (2 ^ (c.o.mlevel + 8))))) := by
  have hcl : WOp.close ∉ ops0 ++ [.setHeader hd, .write p] ++ ops := by
    intro hx
    simp only [List.mem_append, hc0, false_or] at hx
    rcases hx with hx | hx
    · simp at hx
    · rcases hfst _ hx with ⟨p, hp⟩ | ⟨ft, hp, _⟩ <;> cases hp
  obtain ⟨bytes, ho, hs⟩ := gzip_members h hf hcl hr he
  have hab : (absOf c.cfg (ops0 ++ [.setHeader hd, .write p] ++ ops ++ [.close])).done =
      (absOf c.cfg ops0).done ++ [(newHeader c.cfg.wbits c.cfg.clevel hd (p.take c.cfg.look), p ++ writtenData ops)] := by
    unfold absOf
    rw [List.foldl_append, List.foldl_append, List.foldl_append]
    have hcur' : (List.foldl (Abs.step c.cfg) {} ops0).cur = none := by
      have := congrArg Segs.cur (abs_segs c.cfg ops0 {})
      have h2 : (ops0.foldl Segs.step (Abs.segs {})).cur = none := hcur
      rw [h2] at this
      exact Option.map_eq_none_iff.1 this
    have hst : List.foldl (Abs.step c.cfg) (List.foldl (Abs.step c.cfg) {} ops0) [.setHeader hd, .write p] =
        { hdr := newHeader c.cfg.wbits c.cfg.clevel hd (p.take c.cfg.look), done := (List.foldl (Abs.step c.cfg) {} ops0).done, cur := some (newHeader c.cfg.wbits c.cfg.clevel hd (p.take c.cfg.look), p) } := by
      generalize List.foldl (Abs.step c.cfg) {} ops0 = a at hcur' ⊢
      simp [Abs.step, hk, hp, hcur']
    rw [hst, abs_open c.cfg ops _ _ _ hfst rfl]
    rfl
  rw [hab] at hs
  obtain ⟨a, b, rfl, _, g, h1, _, h3⟩ := streams_last hs
  refine ⟨a, b, g, by rw [ho, List.append_assoc], h3, ?_⟩
  rw [h1.text]
  by_cases hx : Textual (p.take c.cfg.look)
  · simp only [newHeader, if_pos hx, if_pos hu, true_iff]; exact hx
  · simp only [newHeader, if_neg hx, if_pos hu]
    exact ⟨fun h => (by cases h), fun h => absurd h hx⟩

/-- **C48 fails** for later streams: the data type detected for the first stream sticks, so binary data written after
a text stream is marked as text. -/
theorem C48_sticky {c : Setup} (h : c.OK) (hf : c.o.format = .gzip) {rs : List WRes} {t : WState}
    (hr : c.Runs ([.write [65], .flush .finishFlush, .write [0]] ++ [.close]) rs t) (he : NoErr rs) :
    ∃ a b g, t.sink.out = c.sink.out ++ a ++ b ∧ GzMember (BlockEnc c.ok (2 ^ c.o.wbits)) c.o.dict g b [0] ∧
      g.text = true ∧ ¬ Textual [0] := by
  obtain ⟨bytes, ho, hs⟩ := gzip_members h hf (by simp) hr he
  have hl : ∃ n, c.cfg.look = n + 1 := ⟨c.cfg.look - 1, by
    have : 0 < 2 ^ (c.o.mlevel + 8) := Nat.two_pow_pos _
    show min 4096 _ = min 4096 _ - 1 + 1; omega⟩
  obtain ⟨n, hn⟩ := hl
  have ht : Textual [65] := by decide
  have hab : (absOf c.cfg ([.write [65], .flush .finishFlush, .write [0]] ++ [.close])).done =
      [(newHeader c.cfg.wbits c.cfg.clevel {} [65], [65]),
       (newHeader c.cfg.wbits c.cfg.clevel (newHeader c.cfg.wbits c.cfg.clevel {} [65]) [0], [0])] := by
    simp [absOf, Abs.step, Abs.finish, hn]
  rw [hab] at hs
  obtain ⟨a, b, rfl, _, g, h1, _, h3⟩ := streams_two hs
  refine ⟨a, b, g, by rw [ho, List.append_assoc], h3, ?_, by decide⟩
  rw [h1.text]
  simp [newHeader, ht]

example : ∃ rs t, (demo [.format .gzip, .mlevel 1]).Runs ([.write [65], .flush .finishFlush, .write [0]] ++ [.close]) rs t ∧ NoErr rs :=
  (demo_ok (by decide)).run_close_ok (Or.inr (by decide)) (demo_sink _) (by simp)

/-! ### C22 -/

/-- **C22.** `SetHeader` accepts exactly the representable headers (`HeaderOK`), in every state of the Writer; it never
panics; an accepted header is in force afterwards, a rejected one changes nothing. -/
theorem C22_setHeader (h : Header) (s : WState) :
    (HeaderOK h → wSetHeader h s = .ok (true, { s with header := h })) ∧ (¬ HeaderOK h → wSetHeader h s = .ok (false, s)) := by
  constructor
  · intro hh; unfold wSetHeader; rw [if_pos ((headerOK_iff h).2 hh)]
  · intro hh; unfold wSetHeader; rw [if_neg (fun x => hh ((headerOK_iff h).1 x))]

example : HeaderOK { fileName := [97, 98], extra := [⟨1, 2, [3, 4]⟩] } ∧ ¬ HeaderOK { fileName := [97, 0x2f] } :=
  ⟨(headerOK_iff _).1 (by decide), fun h => absurd ((headerOK_iff _).2 h) (by decide)⟩

end Flate.Props
