/-
Writer and Reader together: C01, C21.
-/
import Verif.Props.Reading
import Verif.Props.WriterShape
import Verif.Props.Extra

namespace Flate.Props
open Flate.Spec Flate.Model Flate.Model.Rd Flate.Proof Flate.Proof.R

/-! ### larger windows accept more -/

theorem expand_win {w w' : Nat} (hw : w ≤ w') : ∀ {is : List Item} {h h' : List UInt8}, expand w h is = some h' → expand w' h is = some h' := by
  intro is
  induction is with
  | nil => intro h h' e; exact e
  | cons i is ih =>
    intro h h' e
    cases i with
    | lit b => exact ih e
    | ref li lx di dx =>
      unfold expand at e ⊢
      split at e
      · rename_i hc
        rw [if_pos ⟨by omega, hc.2⟩]
        exact ih e
      · cases e

theorem blockEnc_win {ok : List Nat → Prop} {w w' : Nat} (hw : w ≤ w') {pos : Nat} {f : Bool} {h : List UInt8} {b : List Bool} {h' : List UInt8}
    (e : BlockEnc ok w pos f h b h') : BlockEnc ok w' pos f h b h' := by
  cases e with
  | stored pad data h1 h2 => exact .stored pad data h1 h2
  | fixed is h' h1 h2 => exact .fixed is h' h1 (expand_win hw h2)
  | dynamic hd is h' h1 h2 h3 h4 => exact .dynamic hd is h' h1 h2 h3 (expand_win hw h4)

theorem stream_win {ok : List Nat → Prop} {w w' : Nat} (hw : w ≤ w') {dict : Option (List UInt8)} {k : Container} {b d : List UInt8}
    (h : Spec.Stream ok w dict k b d) : Spec.Stream ok w' dict k b d := by
  have h2 := stream_imp (F := BlockEnc ok w') (fun _ _ _ _ _ => blockEnc_win hw) h
  cases k with
  | raw => exact h2
  | gzip => exact h2
  | zlib =>
    obtain ⟨cinfo, hdr, body, h1, h3, h4⟩ := h2
    exact ⟨cinfo, hdr, body, h1, by omega, h4⟩

/-! ### the Reader for a Writer's output -/

/-- The Reader `r` suits the Writer `c`: same library, same format and dictionary, a window which is at least as large. -/
structure Suits (c : Setup) (r : RSetup) : Prop where
  lib : r.L = c.L
  format : r.o.format = fmtOf (container c.o.format)
  dict : r.o.dict = c.o.dict
  window : c.o.wbits ≤ r.o.wbits

theorem Suits.stream {c : Setup} {r : RSetup} (h : Suits c r) {k : Container} {b d : List UInt8} (hs : Spec.Stream c.ok (2 ^ c.o.wbits) c.o.dict k b d) : r.Stream k b d := by
  have := stream_win (Nat.pow_le_pow_right (by decide : 0 < 2) h.window) hs
  unfold RSetup.Stream RSetup.ok
  rw [h.dict, h.lib]
  exact this

/-- calls which do not end the stream -/
def Continues : WOp → Prop
  | .write _ => True
  | .flush t => t ≠ .finishFlush
  | .setHeader _ => True
  | .close => False

theorem segs_open : ∀ {ops : List WOp}, (∀ op ∈ ops, Continues op) → ∀ (s : Segs), s.done = [] →
    (ops.foldl Segs.step s).finish.done = [s.cur.getD [] ++ writtenData ops] := by
  intro ops
  induction ops with
  | nil =>
    intro _ s hd
    simp only [List.foldl_nil, Segs.finish, writtenData]
    cases s.cur with
    | none => simp [hd]
    | some d => simp [hd]
  | cons op ops ih =>
    intro h s hd
    have h' : ∀ o ∈ ops, Continues o := fun o ho => h o (by simp [ho])
    rw [List.foldl_cons]
    have hop := h op (by simp)
    cases op with
    | write p =>
      by_cases hp : p = []
      · subst hp
        rw [show s.step (.write []) = s by simp [Segs.step], ih h' s hd]
        simp [writtenData]
      · rw [show s.step (.write p) = { s with cur := some (s.cur.getD [] ++ p) } by simp [Segs.step, hp]]
        refine (ih h' { s with cur := some (s.cur.getD [] ++ p) } hd).trans ?_
        simp [writtenData]
    | flush t =>
      have : s.step (.flush t) = s := by cases t <;> first | rfl | exact absurd rfl hop
      rw [this, ih h' s hd]
      simp [writtenData]
    | setHeader x =>
      rw [show s.step (.setHeader x) = s from rfl, ih h' s hd]
      simp [writtenData]
    | close => exact hop.elim

theorem segs_single {ops : List WOp} (h : ∀ op ∈ ops, Continues op) : (segsOf (ops ++ [.close])).done = [writtenData ops] := by
  unfold segsOf
  rw [List.foldl_append]
  exact segs_open h {} rfl

theorem streamsOf_single {α : Type} {S : List UInt8 → α → Prop} {bytes : List UInt8} {d : α} (h : StreamsOf S bytes [d]) : S bytes d := by
  generalize hl : [d] = l at h
  cases h with
  | nil => simp at hl
  | snoc h1 h2 =>
    rename_i b0 b segs d'
    have : segs = [] ∧ d' = d := by
      rcases segs with _ | ⟨x, segs⟩
      · simpa using hl.symm
      · exfalso
        have := congrArg List.length hl
        simp at this
    obtain ⟨rfl, rfl⟩ := this
    have : b0 = [] := by
      generalize hl2 : ([] : List α) = l at h1
      cases h1 with
      | nil => rfl
      | snoc _ _ => simp at hl2
    subst this
    simpa using h2

theorem streamsOf_list {α : Type} {S : List UInt8 → α → Prop} {bytes : List UInt8} {ds : List α} (h : StreamsOf S bytes ds) :
    ∃ ps : List (List UInt8 × α), bytes = ps.flatMap Prod.fst ∧ ds = ps.map Prod.snd ∧ ∀ p ∈ ps, S p.1 p.2 := by
  induction h with
  | nil => exact ⟨[], rfl, rfl, by simp⟩
  | snoc h1 h2 ih =>
    obtain ⟨ps, rfl, rfl, h3⟩ := ih
    rename_i b d
    refine ⟨ps ++ [(b, d)], by simp, by simp, ?_⟩
    intro p hp
    rcases List.mem_append.1 hp with hp | hp
    · exact h3 p hp
    · obtain rfl := List.mem_singleton.1 hp; exact h2

theorem continues_close {ops : List WOp} (h : ∀ op ∈ ops, Continues op) : WOp.close ∉ ops := fun hx => h _ hx

/-! ### C01 -/

/-- **C01.** Whatever is written, in whatever pieces, interleaved with whatever `SetHeader` and `Flush` calls other than `FinishFlush`, and then closed successfully: a
suitable Reader, to which the bytes received by the underlying writer are presented in whatever pieces, delivers exactly the bytes written and then the end of file. -/
theorem C01_round_trip {c : Setup} (h : c.OK) {ops : List WOp} (hops : ∀ op ∈ ops, Continues op) {rs : List WRes} {t : WState} (hr : c.Runs (ops ++ [.close]) rs t) (he : NoErr rs)
    (h0 : c.sink.out = []) {r : RSetup} (hok : r.OK) (hs : Suits c r) {src : Src} (hsrc : src.bytes = t.sink.out) :
    r.Delivers src (writtenData ops) src.err := by
  obtain ⟨bytes, ho, hst⟩ := C02_conforming h (continues_close hops) hr he
  rw [segs_single hops] at hst
  rw [h0, List.nil_append] at ho
  refine C03_decodes hok (k := container c.o.format) (Or.inl hs.format) ?_
  rw [hsrc, ho]
  exact hs.stream (streamsOf_single hst)

/-- the beginning of a gzip or zlib stream is recognised -/
theorem autodetect_of {E : BlockRel} {win : Nat} {dict : Option (List UInt8)} {k : Container} (hk : k ≠ .raw) {b data : List UInt8} (h : StreamOf E win dict k b data) : autodetect b = k := by
  obtain ⟨hdr, body, k1, _, k3⟩ := streamOf_iff.1 h
  rw [k3]
  cases k with
  | raw => exact absurd rfl hk
  | gzip =>
    obtain ⟨g, _, _, rfl⟩ := k1
    simp [GzHeader.bytes, GzHeader.main, autodetect]
  | zlib =>
    obtain ⟨ci, ⟨cmf, flg, z1, z2, z3, z4⟩, _⟩ := k1
    have hx : autodetect (cmf :: flg :: (hdr.drop 2 ++ body ++ footerOf data .zlib)) = .zlib := by
      show (if cmf = 0x1f ∧ flg = 0x8b then Container.gzip else if cmf.toNat % 16 = 8 ∧ (cmf.toNat * 256 + flg.toNat) % 31 = 0 then .zlib else .raw) = .zlib
      have hne : ¬ (cmf = 0x1f ∧ flg = 0x8b) := by
        rintro ⟨rfl, rfl⟩
        revert z1; decide
      rw [if_neg hne, if_pos ⟨z1, z3⟩]
    rcases hdict : dict with _ | d
    · rw [hdict] at z4; simp only [] at z4
      rw [z4.2] at hx ⊢
      simpa using hx
    · rw [hdict] at z4; simp only [] at z4
      rw [z4.2] at hx ⊢
      simpa using hx

theorem autodetect_stream {r : RSetup} {k : Container} (hk : k ≠ .raw) {b data : List UInt8} (h : r.Stream k b data) : autodetect b = k :=
  autodetect_of hk (show StreamOf _ _ _ _ _ _ from h)

/-- **C01** with a Reader which recognises the format: gzip and zlib. -/
theorem C01_autodetect {c : Setup} (h : c.OK) (hf : c.o.format ≠ .raw) {ops : List WOp} (hops : ∀ op ∈ ops, Continues op) {rs : List WRes} {t : WState} (hr : c.Runs (ops ++ [.close]) rs t) (he : NoErr rs)
    (h0 : c.sink.out = []) {r : RSetup} (hok : r.OK) (hL : r.L = c.L) (hfmt : r.o.format = .default) (hd : r.o.dict = c.o.dict) (hw : c.o.wbits ≤ r.o.wbits)
    {src : Src} (hsrc : src.bytes = t.sink.out) (h2 : 2 ≤ src.first.length) :
    r.Delivers src (writtenData ops) src.err := by
  obtain ⟨bytes, ho, hst⟩ := C02_conforming h (continues_close hops) hr he
  rw [segs_single hops] at hst
  rw [h0, List.nil_append] at ho
  have hst := streamsOf_single hst
  have hst' : r.Stream (container c.o.format) src.bytes (writtenData ops) := by
    have := stream_win (Nat.pow_le_pow_right (by decide : 0 < 2) hw) hst
    unfold RSetup.Stream RSetup.ok
    rw [hd, hL, hsrc, ho]
    exact this
  refine C03_decodes hok (k := container c.o.format) (Or.inr ⟨hfmt, ?_, Or.inr h2⟩) hst'
  refine autodetect_stream ?_ hst'
  cases hc : c.o.format <;> rw [hc] at hf <;> first | exact absurd rfl hf | (intro hx; cases hx)

/-- the data of all streams is what was written -/
theorem segs_written {ops : List WOp} (hc : WOp.close ∉ ops) : (segsOf (ops ++ [.close])).done.flatten = writtenData ops := by
  have key : ∀ (ops : List WOp) (s : Segs), WOp.close ∉ ops →
      (ops.foldl Segs.step s).done.flatten ++ (ops.foldl Segs.step s).cur.getD [] = s.done.flatten ++ s.cur.getD [] ++ writtenData ops := by
    intro ops
    induction ops with
    | nil => intro s _; simp [writtenData]
    | cons op ops ih =>
      intro s hc
      rw [List.foldl_cons, ih _ (fun hx => hc (by simp [hx]))]
      have hfin : s.finish.done.flatten ++ s.finish.cur.getD [] = s.done.flatten ++ s.cur.getD [] := by
        unfold Segs.finish
        cases hcur : s.cur with
        | some d => simp
        | none =>
          by_cases hd : s.done = []
          · simp [hd]
          · simp [hd, hcur]
      cases op with
      | write p =>
        by_cases hp : p = []
        · subst hp; simp [Segs.step, writtenData]
        · simp [Segs.step, hp, writtenData]
      | flush t =>
        cases t
        case finishFlush => rw [show s.step (.flush .finishFlush) = s.finish from rfl, hfin]; simp [writtenData]
        all_goals simp [Segs.step, writtenData]
      | setHeader x => simp [Segs.step, writtenData]
      | close => exact absurd (by simp) hc
  have h1 := key ops {} hc
  unfold segsOf
  rw [List.foldl_append]
  show (Segs.finish (ops.foldl Segs.step {})).done.flatten = _
  simp only [List.flatten_nil, List.nil_append, Option.getD_none] at h1
  rw [← h1]
  generalize ops.foldl Segs.step {} = s
  unfold Segs.finish
  cases hcur : s.cur with
  | some d => simp
  | none =>
    by_cases hd : s.done = []
    · simp [hd]
    · simp [hd]

/-- **C01, with FinishFlush.** If the writing was cut into several streams by `Flush(FinishFlush)`, a suitable Reader delivers all of the data, provided the source reports its
end separately (or with a last piece that is not longer than the last stream).  `C07_fails` shows that this proviso is needed. -/
theorem C01_finish_partial {c : Setup} (h : c.OK) {ops : List WOp} (hc : WOp.close ∉ ops) {rs : List WRes} {t : WState} (hr : c.Runs (ops ++ [.close]) rs t) (he : NoErr rs)
    (h0 : c.sink.out = []) {r : RSetup} (hok : r.OK) (hs : Suits c r) {src : Src} (hsrc : src.bytes = t.sink.out) (hlast : src.last = []) :
    r.Delivers src (writtenData ops) src.err := by
  obtain ⟨bytes, ho, hst⟩ := C02_conforming h hc hr he
  rw [h0, List.nil_append] at ho
  obtain ⟨ps, h1, h2, h3⟩ := streamsOf_list hst
  rw [← segs_written hc, h2]
  have hS : ∀ p ∈ ps, r.Stream (container c.o.format) p.1 p.2 := fun p hp => hs.stream (h3 p hp)
  obtain ⟨p1, p2, e1, e2, e3, _⟩ := C07_some hok hs.format hS (by rw [hsrc, ho, h1])
  by_cases hp : p2 = []
  · subst hp
    rw [List.append_nil] at e1
    rw [e1]
    simpa [List.flatMap] using e2
  · have := e3 hp
    rw [hlast] at this
    simp at this

/-- non-vacuity of C01: gzip with a dictionary, several calls; the Reader gets everything in one piece -/
example : ∃ rs t, (demo [.format .gzip, .mlevel 1, .dict (some [1, 2, 3])]).Runs
      ([.write [1, 2, 3, 1, 2, 3], .flush .syncFlush, .write [7], .flush .partialFlush, .write [9]] ++ [.close]) rs t ∧ NoErr rs ∧
    (rdemo [.format .gzip, .dict (some [1, 2, 3])]).Delivers ⟨[], t.sink.out, .eof⟩ [1, 2, 3, 1, 2, 3, 7, 9] .eof := by
  obtain ⟨rs, t, hr, he⟩ := (demo_ok (opts := [.format .gzip, .mlevel 1, .dict (some [1, 2, 3])]) (by decide)).run_close_ok (Or.inr (by decide)) (demo_sink _)
    (ops := [.write [1, 2, 3, 1, 2, 3], .flush .syncFlush, .write [7], .flush .partialFlush, .write [9]]) (by simp)
  exact ⟨rs, t, hr, he, C01_round_trip (demo_ok (by decide)) (by simp [Continues]) hr he rfl (r := rdemo [.format .gzip, .dict (some [1, 2, 3])]) (rdemo_ok (by decide)) ⟨rfl, rfl, rfl, by decide⟩ (src := ⟨[], t.sink.out, .eof⟩) rfl⟩

/-! ### C21 -/

/-- the header determines the report -/
theorem gz_report_unique {g g' : GzHeader} (hx : ∀ e, g.extra = some e → ExtraOK e) (hv : g.Valid) (hx' : ∀ e, g'.extra = some e → ExtraOK e) (hv' : g'.Valid)
    {r r' : List UInt8} (h : g.bytes ++ r = g'.bytes ++ r') : gzReport g = gzReport g' := by
  let s : RState := { inp := { src := ⟨[], [], .eof⟩, inputError := some .eof, buf := g.bytes ++ r } }
  have h1 := gz_ok (s := s) (e0 := .eof) rfl rfl hx hv (r := r) rfl
  have h2 := gz_ok (s := s) (e0 := .eof) rfl rfl hx' hv' (r := r') h
  rw [h1] at h2
  have h3 : (true, ({ s with inp := takeIn g.bytes r { s.inp with crc := Crc.init }, header := gzReport g, actualFormat := .gzip } : RState)) =
    (true, { s with inp := takeIn g'.bytes r' { s.inp with crc := Crc.init }, header := gzReport g', actualFormat := .gzip }) := by injection h2
  exact congrArg (fun x : Bool × RState => x.2.header) h3

/-- what the Reader reports for a header which says what `h` says -/
theorem report_of {h : Header} {g : GzHeader} (hg : GzOf h g) (hx : ∀ r ∈ h.extra, r.bytes.length < 65536) (h1 : 1 ≤ h.osType) (h2 : h.osType ≤ 14) :
    (gzReport g).fileName = h.fileName ∧ (gzReport g).comment = h.comment ∧ (gzReport g).extra = h.extra ∧ (gzReport g).osType = h.osType ∧
    (gzReport g).dataType = (if h.dataType = .text then .text else .binary) ∧
    (gzReport g).lastModified = (if h.lastModified = some 0 then none else h.lastModified) := by
  refine ⟨?_, ?_, ?_, ?_, ?_, ?_⟩
  · show g.name.getD [] = _
    rw [hg.name]
    split
    · rename_i e; rw [e]; rfl
    · rfl
  · show g.comment.getD [] = _
    rw [hg.comment]
    split
    · rename_i e; rw [e]; rfl
    · rfl
  · show gotExtra g.extra = _
    rw [hg.extra]
    split
    · rename_i e; rw [e]; rfl
    · have := C23_round_trip hx []
      rw [C23_format hx] at this
      simp only [gotExtra, this]
  · show osDecode g.os = _
    unfold osDecode
    rw [hg.os, if_pos (by omega)]
    omega
  · show (if g.text then DataType.text else .binary) = _
    by_cases ht : h.dataType = .text
    · rw [if_pos (hg.text.2 ht), if_pos ht]
    · rw [if_neg (fun h' => ht (hg.text.1 h')), if_neg ht]
  · show (if g.mtime ≠ 0 then some (g.mtime : Int) else none) = _
    cases ht : h.lastModified with
    | none => rw [hg.mtime.1 ht]; simp
    | some t =>
      have h3 := hg.mtime.2 t ht
      by_cases h0 : g.mtime = 0
      · have : t = 0 := by omega
        subst this
        simp [h0]
      · have : t ≠ 0 := by omega
        simp [h0, h3, this]

/-- **C21.** For every header accepted by `SetHeader`: a suitable Reader decompressing the gzip output reports, in the `StreamHeaderEvent` (the second event), the same file name, comment, extra data records,
modification time (except that the Unix epoch itself reads back as unset), operating system (Unix if it was unknown), and data type (the detected one if it was unknown). -/
theorem C21_round_trip {c : Setup} (h : c.OK) (hf : c.o.format = .gzip) {hd : Header} (hk : HeaderOK hd)
    {ops : List WOp} (hfst : ∀ op ∈ ops, (∃ p, op = .write p) ∨ ∃ ft, op = .flush ft ∧ ft ≠ .finishFlush)
    {rs : List WRes} {t : WState} (hr : c.Runs ([.setHeader hd] ++ ops ++ [.close]) rs t) (he : NoErr rs)
    (h0 : c.sink.out = []) {r : RSetup} (hok : r.OK) (hs : Suits c r) {src : Src} (hsrc : src.bytes = t.sink.out) :
    ∃ (s : RState) (got : Header) (rest : List EvKind), r.Runs src s ∧ s.events.map (·.kind) = .streamBegin :: .streamHeader got :: rest ∧ (∀ x, EvKind.streamHeader x ∉ rest) ∧
      got.fileName = hd.fileName ∧ got.comment = hd.comment ∧ got.extra = hd.extra ∧
      got.lastModified = (if hd.lastModified = some 0 then none else hd.lastModified) ∧
      got.osType = (if hd.osType = 0 then 4 else hd.osType) ∧
      (hd.dataType ≠ .unknown → got.dataType = hd.dataType) ∧
      (hd.dataType = .unknown → got.dataType = if Textual ((firstData ops).take (min 4096 (2 ^ (c.o.mlevel + 8)))) then .text else .binary) := by
  obtain ⟨b, g, hd', k1, k2, k3, k4, k5, k6, k7, k8, k9, k10, k11⟩ := C21_writer h hf hk hfst hr he
  rw [h0, List.nil_append] at k1
  have hcont : container c.o.format = .gzip := by rw [hf]; rfl
  have hS : r.Stream .gzip src.bytes (writtenData ops) := by
    rw [hsrc, k1]
    exact hs.stream ⟨g, k3, k4⟩
  have hfmt : r.o.format = fmtOf .gzip := by rw [hs.format, hcont]
  have ht : detect r.env.o.format src.first = .gzip := by show detect r.o.format src.first = _; rw [hfmt]; exact detect_fmtOf _ _
  obtain ⟨s, ds, it, q1, q2, q3, ⟨_, ⟨hdr, q4, q5⟩, q6⟩, q7, q8, q9, q10⟩ := read_stream hok ht hS rfl
  rw [q9] at q5
  obtain ⟨g', g1, g2, g3, g4⟩ := q5
  obtain ⟨x, hx⟩ := q4
  obtain ⟨body, v1, v2, v3⟩ := k4
  have hrep : gzReport g' = gzReport g := by
    refine gz_report_unique g1 g2 k3 v1 (r := x) (r' := body ++ leBytes 4 (crc32 (writtenData ops)).toNat ++ leBytes 4 ((writtenData ops).length % 2 ^ 32)) ?_
    rw [← g3, hx, q7, hsrc, k1, v3]; simp
  have hrec : ∀ r ∈ hd'.extra, r.bytes.length < 65536 := by
    intro r hr
    rw [k8] at hr
    have := hk.recs r hr
    omega
  have hos := hk.os
  obtain ⟨r1, r2, r3, r4, r5, r6⟩ := report_of k2 hrec (by rw [k9]; split <;> omega) (by rw [k9]; split <;> omega)
  obtain ⟨bks, a, cc, ⟨bl, last, b1, b2, b3⟩, _, _, b4⟩ := q6
  refine ⟨s, it.h, bks ++ endEvents a cc, q1, ?_, ?_, ?_⟩
  · show kinds s = _
    rw [q10, b4]; simp
  · intro x hx
    have hb : ∀ {f : Bool} {b : List EvKind}, BlockTrace f b → EvKind.streamHeader x ∉ b := by
      intro f b hb; cases hb <;> simp
    rcases List.mem_append.1 hx with hx | hx
    · rw [b3] at hx
      rcases List.mem_append.1 hx with hx | hx
      · obtain ⟨y, y1, y2⟩ := List.mem_flatten.1 hx
        exact hb (b1 y y1) y2
      · exact hb b2 hx
    · simp [endEvents] at hx
  · rw [g4, hrep]
    refine ⟨by rw [r1, k5], by rw [r2, k6], by rw [r3, k8], by rw [r6, k7], by rw [r4, k9], fun hn => ?_, fun hn => ?_⟩
    · rw [r5, k10 hn]
      cases hdt : hd.dataType
      · exact absurd hdt hn
      · rfl
      · rfl
    · rw [r5, k11 hn]
      split <;> simp

/-- non-vacuity of C21 -/
example : ∃ rs t s got, (demo [.format .gzip, .mlevel 1]).Runs ([.setHeader { fileName := [97], extra := [⟨65, 66, [1, 2]⟩], lastModified := some 77 }] ++ [.write [1, 2]] ++ [.close]) rs t ∧ NoErr rs ∧
    (rdemo [.format .gzip]).Runs ⟨[], t.sink.out, .eof⟩ s ∧ EvKind.streamHeader got ∈ s.events.map (·.kind) ∧ got.extra = [⟨65, 66, [1, 2]⟩] ∧ got.lastModified = some 77 := by
  obtain ⟨rs, t, hr, he⟩ := (demo_ok (opts := [.format .gzip, .mlevel 1]) (by decide)).run_close_ok (Or.inr (by decide)) (demo_sink _)
    (ops := [.setHeader { fileName := [97], extra := [⟨65, 66, [1, 2]⟩], lastModified := some 77 }] ++ [.write [1, 2]]) (by simp)
  obtain ⟨s, got, rest, q1, q2, _, _, _, q3, q4, _⟩ := C21_round_trip (demo_ok (by decide)) rfl ⟨by decide, by decide, by decide, by decide, by simp, by decide, by decide, by decide⟩
    (ops := [.write [1, 2]]) (by simp) hr he rfl (r := rdemo [.format .gzip]) (rdemo_ok (by decide)) ⟨rfl, rfl, rfl, by decide⟩ (src := ⟨[], t.sink.out, .eof⟩) rfl
  exact ⟨rs, t, s, got, hr, he, q1, by rw [q2]; simp, q3, by rw [q4]; rfl⟩

end Flate.Props
