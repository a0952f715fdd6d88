/-
C100: the compressed data does not depend on the container format around it.
-/
import Verif.Proof.WForm
import Verif.Props.Platform

namespace Flate.Props
open Flate.Spec Flate.Model Flate.Proof

/-- Two uses of Writers which may differ in the format, in the compression level (as long as both compress or neither does), in the platform and in the underlying writer,
but not in the other options. -/
structure SameData (c c' : Setup) : Prop where
  lib : c'.L = c.L
  finder : c'.propose = c.propose
  wbits : c'.o.wbits = c.o.wbits
  mlevel : c'.o.mlevel = c.o.mlevel
  strategy : c'.o.strategy = c.o.strategy
  dict : c'.o.dict = c.o.dict
  level : c'.o.clevel = 0 ↔ c.o.clevel = 0

/-- the calls of `Write` and `Flush` among `ops`, in order -/
def dataCalls (ops : List WOp) : List WOp := ops.filter fun op => match op with
  | .setHeader _ => false
  | _ => true

/-- one stream in two containers -/
structure TwoForms where
  hdr : List UInt8
  hdr' : List UInt8
  body : List UInt8
  data : List UInt8

theorem dataCalls_eq (ops : List WOp) : dataCalls ops = Form.calls ops := by
  unfold dataCalls Form.calls
  congr 1
  funext op
  cases op <;> rfl

theorem start_at {c c' : Setup} (h : c.OK) (h' : c'.OK) (hs : c.SinkOK) (hs' : c'.SinkOK) (hu : SameData c c') :
    Form.At c.o c'.o c.sink.out c'.sink.out {} c.start c'.start := by
  have hf := h.fresh
  have hf' := h'.fresh
  have hl : c'.start.lz = c.start.lz := by
    show ({ opts := hybridOptions c'.o, propose := c'.propose } : LZ) = { opts := hybridOptions c.o, propose := c.propose }
    have : hybridOptions c'.o = hybridOptions c.o := by unfold hybridOptions; rw [hu.wbits, hu.mlevel, hu.strategy]
    rw [this, hu.finder]
  have i1 : ¬ Form.InStr c.start := by rintro (e | e) <;> cases e
  refine ⟨{
    inv := hf.inv, inv' := hf'.inv, dep := sinkOK_dep hs, dep' := sinkOK_dep hs', o := rfl, o' := rfl
    conf := (h.live (fun _ _ _ _ _ => True)).conf, conf' := (h'.live (fun _ _ _ _ _ => True)).conf
    adler := fun e => absurd e i1
    lz := hl
    cap := Nat.zero_le _
    state := rfl
    live := ⟨fun e => (by cases e), fun e => (by cases e)⟩
    idle := fun _ => ⟨rfl, rfl, rfl⟩
    sums := fun e => absurd e i1
    clos := fun e => (by cases e)
    none := fun _ => rfl
    some := fun e => (by cases e)
    cut := ⟨[], [], [], [], rfl, by simp, ?_, ?_, fun e => absurd e i1, fun _ => ⟨rfl, rfl, rfl⟩⟩ }, Or.inl rfl⟩
  · show bytesBits (c.sink.out ++ []) ++ natBits 0 0 = _
    simp [natBits]
  · show bytesBits (c'.sink.out ++ []) ++ natBits 0 0 = _
    simp [natBits]

theorem usesStore_same {c c' : Setup} (hu : SameData c c') : usesStore c'.o = usesStore c.o := by
  unfold usesStore
  by_cases e : c.o.clevel = 0
  · rw [e, hu.level.2 e]
  · have : c'.o.clevel ≠ 0 := fun k => e (hu.level.1 k)
    rw [beq_false_of_ne e, beq_false_of_ne this]

/-- in terms of the specification -/
theorem cut_spec {c c' : Setup} (h : c.OK) (h' : c'.OK) {ds : List (List UInt8)} {ps : List Form.Part} (hd : ps.map Form.Part.data = ds)
    (hh : ∀ p ∈ ps, Form.IsHd c.o p.hdr ∧ Form.IsHd c'.o p.hdr') :
    ∃ qs : List TwoForms, qs.map TwoForms.data = ds ∧
      (∀ q ∈ qs, HeaderOf (2 ^ c.o.wbits) c.o.dict (container c.o.format) q.hdr ∧ HeaderOf (2 ^ c'.o.wbits) c'.o.dict (container c'.o.format) q.hdr') ∧
      ps.flatMap (Form.Part.left c.o) = qs.flatMap (fun q => q.hdr ++ q.body ++ footerOf q.data (container c.o.format)) ∧
      ps.flatMap (Form.Part.right c'.o) = qs.flatMap (fun q => q.hdr' ++ q.body ++ footerOf q.data (container c'.o.format)) := by
  refine ⟨ps.map fun p => ⟨p.hdr, p.hdr', p.body, p.data⟩, by rw [List.map_map]; exact hd, ?_, ?_, ?_⟩
  · intro q hq
    obtain ⟨p, hp, rfl⟩ := List.mem_map.1 hq
    obtain ⟨⟨x, k, e⟩, y, k', e'⟩ := hh p hp
    exact ⟨by rw [show _ = _ from e]; exact headerBytes_of h.full k, by rw [show _ = _ from e']; exact headerBytes_of h'.full k'⟩
  · rw [List.flatMap_map]
    congr 1
    funext p
    simp only [Form.Part.left, footerBytes_of h.full]
  · rw [List.flatMap_map]
    congr 1
    funext p
    simp only [Form.Part.right, footerBytes_of h'.full]

theorem run_last {L : HuffLib} {ops : List WOp} {op : WOp} {s t : WState} {rs : List WRes} (e : runOps L (ops ++ [op]) s = .ok (rs, t)) :
    ∃ rs1 u r, runOps L ops s = .ok (rs1, u) ∧ stepOp L op u = .ok (r, t) ∧ rs = rs1 ++ [r] := by
  obtain ⟨rs1, u, rs2, h1, h2, rfl⟩ := run_append_inv e
  obtain ⟨r, v, rs3, h3, h4, rfl⟩ := run_cons_inv h2
  cases h4
  exact ⟨rs1, u, r, h1, h3, rfl⟩

/-- **C100.** Two Writers with the same options apart from the format and the level (both compressing, or both not), given the same calls of `Write` and `Flush` and then
closed: their outputs consist of the same streams, each with the same compressed data, between a header and a footer of the respective format. -/
theorem C100_streams {c c' : Setup} (h : c.OK) (h' : c'.OK) (hs : c.SinkOK) (hs' : c'.SinkOK) (hu : SameData c c') {ops ops' : List WOp} (hc : WOp.close ∉ ops) (hc' : WOp.close ∉ ops')
    (hsame : dataCalls ops' = dataCalls ops) {rs rs' : List WRes} {t t' : WState} (hr : c.Runs (ops ++ [.close]) rs t) (hr' : c'.Runs (ops' ++ [.close]) rs' t') :
    ∃ qs : List TwoForms, qs.map TwoForms.data = (segsOf (ops ++ [.close])).done ∧
      (∀ q ∈ qs, HeaderOf (2 ^ c.o.wbits) c.o.dict (container c.o.format) q.hdr ∧ HeaderOf (2 ^ c'.o.wbits) c'.o.dict (container c'.o.format) q.hdr') ∧
      t.sink.out = c.sink.out ++ qs.flatMap (fun q => q.hdr ++ q.body ++ footerOf q.data (container c.o.format)) ∧
      t'.sink.out = c'.sink.out ++ qs.flatMap (fun q => q.hdr' ++ q.body ++ footerOf q.data (container c'.o.format)) := by
  unfold Setup.Runs at hr hr'
  rw [hu.lib] at hr'
  obtain ⟨_, u, _, e1, e2, _⟩ := run_last hr
  obtain ⟨_, u', _, e1', e2', _⟩ := run_last hr'
  rw [dataCalls_eq, dataCalls_eq] at hsame
  have hat := Form.run_at h.lawful hu.dict (usesStore_same hu) _ ops ops' _ _ _ _ _ _ _ (Nat.le_refl _) hsame hc hc' (start_at h h' hs hs' hu) e1 e1'
  obtain ⟨v, v', hv, hcur, rfl, rfl⟩ := Form.close_at h.lawful hu.dict (usesStore_same hu) hat e2 e2'
  obtain ⟨ps, hd, hd', x, k⟩ := hv.rel.cut
  have hi := hv.cur
  rw [hcur] at hi
  obtain ⟨rfl, rfl, rfl⟩ := k.idle hi
  obtain ⟨z, z', _⟩ := hv.rel.idle hi
  have l := k.left
  have r := k.right
  rw [view_zero z, List.append_nil, List.append_nil] at l
  rw [view_zero z', List.append_nil, List.append_nil] at r
  have l := bytesBits_inj l
  have r := bytesBits_inj r
  rw [out_pushed hv.rel.inv] at l
  rw [out_pushed hv.rel.inv'] at r
  obtain ⟨qs, q1, q2, q3, q4⟩ := cut_spec h h' k.data k.heads
  refine ⟨qs, ?_, q2, by rw [← q3]; exact l, by rw [← q4]; exact r⟩
  rw [q1]
  unfold segsOf
  rw [List.foldl_append]
  rfl

/-- **C100 (one stream).** In particular, a zlib or gzip file with a single stream is a header, the bytes which a Writer of raw DEFLATE data would have written, and a footer. -/
theorem C100_wrap {c c' : Setup} (h : c.OK) (h' : c'.OK) (hs : c.SinkOK) (hs' : c'.SinkOK) (hu : SameData c c') (hraw : c.o.format = .raw) (hnew : c.sink.out = []) (hnew' : c'.sink.out = [])
    {ops ops' : List WOp} (hc : WOp.close ∉ ops) (hc' : WOp.close ∉ ops') (hsame : dataCalls ops' = dataCalls ops) {data : List UInt8} (h1 : (segsOf (ops ++ [.close])).done = [data])
    {rs rs' : List WRes} {t t' : WState} (hr : c.Runs (ops ++ [.close]) rs t) (hr' : c'.Runs (ops' ++ [.close]) rs' t') :
    ∃ hdr, HeaderOf (2 ^ c'.o.wbits) c'.o.dict (container c'.o.format) hdr ∧ t'.sink.out = hdr ++ t.sink.out ++ footerOf data (container c'.o.format) := by
  obtain ⟨qs, q1, q2, q3, q4⟩ := C100_streams h h' hs hs' hu hc hc' hsame hr hr'
  rw [h1] at q1
  match qs, q1 with
  | [q], q1 =>
    obtain ⟨a, b⟩ := q2 q (by simp)
    rw [hraw] at a q3
    have a : q.hdr = [] := a
    simp only [List.map_cons, List.map_nil, List.cons.injEq, and_true] at q1
    subst q1
    refine ⟨q.hdr', b, ?_⟩
    rw [q4, q3, hnew, hnew']
    simp [footerOf, container, a]

/-- **C100 (along the way).** Whenever both Writers have delivered everything they hold, for instance after `Flush(SyncFlush)`, the same is true of what has been written so far. -/
theorem C100_sofar {c c' : Setup} (h : c.OK) (h' : c'.OK) (hs : c.SinkOK) (hs' : c'.SinkOK) (hu : SameData c c') {ops ops' : List WOp} (hc : WOp.close ∉ ops) (hc' : WOp.close ∉ ops')
    (hsame : dataCalls ops' = dataCalls ops) {op : WOp} (ho : Settles op) (hoc : op ≠ .close) {rs rs' : List WRes} {t t' : WState} (hr : c.Runs (ops ++ [op]) rs t)
    (hr' : c'.Runs (ops' ++ [op]) rs' t') (he : NoErr rs) (he' : NoErr rs') :
    ∃ (qs : List TwoForms) (hd hd' body : List UInt8), qs.map TwoForms.data = (segsOf (ops ++ [op])).done ∧
      (∀ q ∈ qs, HeaderOf (2 ^ c.o.wbits) c.o.dict (container c.o.format) q.hdr ∧ HeaderOf (2 ^ c'.o.wbits) c'.o.dict (container c'.o.format) q.hdr') ∧
      t.sink.out = c.sink.out ++ qs.flatMap (fun q => q.hdr ++ q.body ++ footerOf q.data (container c.o.format)) ++ hd ++ body ∧
      t'.sink.out = c'.sink.out ++ qs.flatMap (fun q => q.hdr' ++ q.body ++ footerOf q.data (container c'.o.format)) ++ hd' ++ body ∧
      match (segsOf (ops ++ [op])).cur with
      | none => hd = [] ∧ hd' = [] ∧ body = []
      | some _ => HeaderOf (2 ^ c.o.wbits) c.o.dict (container c.o.format) hd ∧ HeaderOf (2 ^ c'.o.wbits) c'.o.dict (container c'.o.format) hd' := by
  have z := settled h hc ho hr he
  have z' := settled h' hc' ho hr' he'
  unfold Setup.Runs at hr hr'
  rw [hu.lib] at hr'
  rw [dataCalls_eq, dataCalls_eq] at hsame
  have hcalls : Form.calls (ops' ++ [op]) = Form.calls (ops ++ [op]) := by
    unfold Form.calls at hsame ⊢
    rw [List.filter_append, List.filter_append, hsame]
  have hat := Form.run_at h.lawful hu.dict (usesStore_same hu) _ (ops ++ [op]) (ops' ++ [op]) _ _ _ _ _ _ _ (Nat.le_refl _) hcalls (by simp [hc, Ne.symm hoc]) (by simp [hc', Ne.symm hoc])
    (start_at h h' hs hs' hu) hr hr'
  have hat : Form.At c.o c'.o c.sink.out c'.sink.out (segsOf (ops ++ [op])) t t' := hat
  obtain ⟨ps, hd, hd', x, k⟩ := hat.rel.cut
  have l := k.left
  have r := k.right
  rw [view_zero z, out_pushed hat.rel.inv] at l
  rw [view_zero z', out_pushed hat.rel.inv'] at r
  obtain ⟨b, l1, l2⟩ := Form.split_front l
  obtain ⟨b', r1, r2⟩ := Form.split_front r
  have := bytesBits_inj (r2.trans l2.symm)
  subst this
  obtain ⟨qs, q1, q2, q3, q4⟩ := cut_spec h h' k.data k.heads
  refine ⟨qs, hd, hd', b', q1, q2, by rw [← q3]; exact l1, by rw [← q4]; exact r1, ?_⟩
  have hcur := hat.cur
  split
  · rename_i hg
    rw [hg] at hcur
    obtain ⟨a, b, c⟩ := k.idle hcur
    refine ⟨a, b, bytesBits_inj (l2.trans c)⟩
  · rename_i hg
    rw [hg] at hcur
    obtain ⟨⟨x, m, e⟩, y, m', e'⟩ := k.opn (Or.inl hcur)
    exact ⟨by rw [e]; exact headerBytes_of h.full m, by rw [e']; exact headerBytes_of h'.full m'⟩

/-- the calls of the example -/
def rawCalls : List WOp := [.write [1, 2, 3], .flush .syncFlush, .write [4]]

/-- the same calls after a `SetHeader` -/
def gzCalls : List WOp := [.setHeader { fileName := [65] }, .write [1, 2, 3], .flush .syncFlush, .write [4]]

/-- such uses: the same data in the raw and in the gzip format, with different headers and levels -/
example : ∃ (rs rs' : List WRes) (t t' : WState) (hdr : List UInt8),
    (demo [.format .raw, .mlevel 1, .clevel 3]).Runs (rawCalls ++ [.close]) rs t ∧
    (demo32 [.format .gzip, .mlevel 1, .clevel 9]).Runs (gzCalls ++ [.close]) rs' t' ∧
    HeaderOf (2 ^ (demo32 [.format .gzip, .mlevel 1, .clevel 9]).o.wbits) (demo32 [.format .gzip, .mlevel 1, .clevel 9]).o.dict
      (container (demo32 [.format .gzip, .mlevel 1, .clevel 9]).o.format) hdr ∧
    t'.sink.out = hdr ++ t.sink.out ++ footerOf [1, 2, 3, 4] (container (demo32 [.format .gzip, .mlevel 1, .clevel 9]).o.format) := by
  have h := demo_ok (opts := [.format .raw, .mlevel 1, .clevel 3]) (by decide)
  have h' := demo32_ok (opts := [.format .gzip, .mlevel 1, .clevel 9]) (by decide)
  have hs := demo_sink [.format .raw, .mlevel 1, .clevel 3]
  have hs' : (demo32 [.format .gzip, .mlevel 1, .clevel 9]).SinkOK := demo_sink [.format .gzip, .mlevel 1, .clevel 9]
  have hu : SameData (demo [.format .raw, .mlevel 1, .clevel 3]) (demo32 [.format .gzip, .mlevel 1, .clevel 9]) :=
    ⟨rfl, rfl, by decide, by decide, by decide, by decide, by decide⟩
  have hc : WOp.close ∉ rawCalls := by simp [rawCalls]
  have hc' : WOp.close ∉ gzCalls := by simp [gzCalls]
  have hd : dataCalls gzCalls = dataCalls rawCalls := rfl
  have hseg : (segsOf (rawCalls ++ [.close])).done = [[1, 2, 3, 4]] := by decide +kernel
  have hraw : (demo [.format .raw, .mlevel 1, .clevel 3]).o.format = .raw := by decide
  obtain ⟨rs, t, hr, _⟩ := h.run_close_fits hs (ops := rawCalls) (Or.inl (Or.inr (by decide))) hc
  obtain ⟨rs', t', hr', _⟩ := h'.run_close_fits hs' (ops := gzCalls) (Or.inl (Or.inr (by decide))) hc'
  obtain ⟨hdr, a, b⟩ := C100_wrap h h' hs hs' hu hraw rfl rfl hc hc' hd hseg hr hr'
  exact ⟨rs, rs', t, t', hdr, hr, hr', a, b⟩

end Flate.Props
