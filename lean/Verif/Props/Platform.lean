/-
C82: what a Writer writes does not depend on the platform's word size, nor on the underlying writer as long as it does not fail.
-/
import Verif.Proof.WWord
import Verif.Props.WriterShape

namespace Flate.Props
open Flate.Spec Flate.Model Flate.Proof

/-- The same use of a Writer on different platforms: the word size may differ, and so may the underlying writer, which has received the same before. -/
structure SameUse (c c' : Setup) : Prop where
  lib : c'.L = c.L
  finder : c'.propose = c.propose
  opts : c'.opts = c.opts
  out : c'.sink.out = c.sink.out

/-- what a tracer is told, apart from the number of bytes delivered so far -/
def told (e : Sent) : EvKind × Nat × Nat × Nat × Format := (e.ev.kind, e.ev.inTotal, e.ev.inStream, e.ev.numStreams, e.ev.format)

theorem sinkOK_dep {c : Setup} (h : c.SinkOK) : Sim.Dep c.sink := ⟨h.1, h.2.1, fun n e he => by rw [h.2.2 n e he]; rfl⟩

theorem start_both {c c' : Setup} (h : c.OK) (h' : c'.OK) (hs : c.SinkOK) (hs' : c'.SinkOK) (hu : SameUse c c') : Word.Both c.start c'.start := by
  refine Or.inl ?_
  have hf := h.fresh
  have hf' := h'.fresh
  have ho : c'.start.o = c.start.o := by rw [Setup.start_o, Setup.start_o, Setup.o, Setup.o, hu.opts]
  constructor
  case inv => exact hf.inv
  case inv' => exact hf'.inv
  case dep => exact sinkOK_dep hs
  case dep' => exact sinkOK_dep hs'
  case o => exact ho
  case lz => show (newWriter _ _ _ _).lz = (newWriter _ _ _ _).lz; simp only [newWriter, hu.opts, hu.finder]
  case view => show bytesBits (c'.sink.out ++ []) ++ natBits 0 0 = bytesBits (c.sink.out ++ []) ++ natBits 0 0; rw [hu.out]
  case live => exact ⟨fun e => (by cases e), fun e => (by cases e)⟩
  case idle => exact fun _ => ⟨rfl, rfl⟩
  case ob => intro e; cases e
  case crc => intro e; cases e
  case opn => intro e; cases e
  all_goals rfl

/-- the run on one of the two platforms -/
theorem both_facts {s s' : WState} (h : Word.Both s s') : view s' = view s ∧ WInv s ∧ WInv s' ∧ s'.events.map Word.seen = s.events.map Word.seen := by
  rcases h with h | ⟨u, u', h, rfl, rfl⟩
  · exact ⟨h.view, h.inv, h.inv', h.evs⟩
  · exact ⟨h.view, ⟨h.inv.hW, h.inv.lt, h.inv.blk, h.inv.out⟩, ⟨h.inv'.hW, h.inv'.lt, h.inv'.blk, h.inv'.out⟩, h.evs⟩

theorem word64 {s : WState} (h : WInv s) : s.obLen < 64 := by have := h.lt; rcases h.hW with e | e <;> omega

/-- of two numbers of bytes with fewer than 64 bits missing, the difference is small -/
theorem comparable {a b : List UInt8} {x y : List Bool} (h : bytesBits b ++ y = bytesBits a ++ x) (hx : x.length < 64) (hy : y.length < 64) :
    (a <+: b ∨ b <+: a) ∧ a.length < b.length + 8 ∧ b.length < a.length + 8 := by
  have hl := congrArg List.length h
  simp only [List.length_append, bytesBits_length] at hl
  refine ⟨?_, by omega, by omega⟩
  have key : ∀ {a b : List UInt8} {x y : List Bool}, bytesBits b ++ y = bytesBits a ++ x → a.length ≤ b.length → a <+: b := by
    intro a b x y h hle
    have h1 : bytesBits a <+: bytesBits b ++ y := ⟨x, h.symm⟩
    have h2 : bytesBits a = (bytesBits b).take (bytesBits a).length := by
      have := List.prefix_iff_eq_take.1 h1
      rw [List.take_append_of_le_length (by simp only [bytesBits_length]; omega)] at this
      exact this
    have h3 : bytesBits b = bytesBits (b.take a.length) ++ bytesBits (b.drop a.length) := by rw [← bytesBits_append, List.take_append_drop]
    have h4 : (bytesBits (b.take a.length)).length = (bytesBits a).length := by simp only [bytesBits_length, List.length_take]; omega
    rw [h3, List.take_append_of_le_length (by omega), ← h4, List.take_length] at h2
    rw [bytesBits_inj h2]
    exact List.take_prefix _ _
  by_cases hle : a.length ≤ b.length
  · exact Or.inl (key h hle)
  · exact Or.inr (key h.symm (by omega))

/-- **C82 (at any time).** On platforms of different word sizes, the same calls return the same, the tracers are sent the same events (except for the counts of bytes delivered),
and what the underlying writer has received is the same, except that on one platform up to seven bytes at the end may still be held back. -/
theorem C82_same {c c' : Setup} (h : c.OK) (h' : c'.OK) (hs : c.SinkOK) (hs' : c'.SinkOK) (hu : SameUse c c') {ops : List WOp} {rs rs' : List WRes} {t t' : WState}
    (hr : c.Runs ops rs t) (hr' : c'.Runs ops rs' t') :
    rs' = rs ∧ t'.events.map told = t.events.map told ∧
    (t.sink.out <+: t'.sink.out ∨ t'.sink.out <+: t.sink.out) ∧ t.sink.out.length < t'.sink.out.length + 8 ∧ t'.sink.out.length < t.sink.out.length + 8 := by
  unfold Setup.Runs at hr hr'
  rw [hu.lib] at hr'
  obtain ⟨h1, h2⟩ := (start_both h h' hs hs' hu).run hr hr'
  obtain ⟨hv, i, i', hev⟩ := both_facts h2
  refine ⟨h1, ?_, ?_⟩
  · have e : told = (fun x : Event × Nat => (x.1.kind, x.1.inTotal, x.1.inStream, x.1.numStreams, x.1.format)) ∘ Word.seen := rfl
    rw [e, ← List.map_map, ← List.map_map, hev]
  · unfold view at hv
    rw [out_pushed i, out_pushed i'] at hv
    exact comparable hv (by rw [natBits_length]; exact word64 i) (by rw [natBits_length]; exact word64 i')

/-- `Close`, and all flushes but `BlockFlush` and `PartialFlush` -/
def Settles : WOp → Prop
  | .flush .syncFlush => True
  | .flush .fullFlush => True
  | .flush .finishFlush => True
  | .close => True
  | _ => False

/-- nothing is held back after such a call -/
theorem settled {c : Setup} (h : c.OK) {ops : List WOp} (hc : WOp.close ∉ ops) {op : WOp} (ho : Settles op) {rs : List WRes} {t : WState} (hr : c.Runs (ops ++ [op]) rs t)
    (he : NoErr rs) : t.obLen = 0 := by
  by_cases hcl : op = .close
  · subst hcl
    obtain ⟨es, k, _, hcd, _⟩ := run_close h.lawful (h.live _) (h.any True) (fun _ _ _ => trivial) hc hr he
    exact hcd.ob
  · have hc' : WOp.close ∉ ops ++ [op] := by simp [hc, Ne.symm hcl]
    obtain ⟨es, k, hh, hl, _⟩ := run_good h.lawful _ (h.live _) (h.any True) (fun _ _ _ => trivial) hc' hr he
    obtain ⟨bytes, _, hb⟩ := hl.body
    rcases hcur : (List.foldl (Abs.step (cfgOf c.start)) {} (ops ++ [op])).cur with _ | ⟨hd, d⟩
    · rw [hcur] at hb
      exact hb.2.1
    · obtain ⟨rs1, s, rs2, h1, h2, rfl⟩ := run_append_inv hr
      obtain ⟨es1, k1, hh1, hl1, _⟩ := run_good h.lawful ops (h.live _) (h.any True) (fun _ _ _ => trivial) hc h1 (fun r x => he r (by simp [x]))
      obtain ⟨r, u, rs', h3, h4, rfl⟩ := run_cons_inv h2
      cases h4
      rw [List.foldl_append] at hcur
      simp only [List.foldl_cons, List.foldl_nil] at hcur
      have hfin : ∀ (a : Abs) (x : AbsCfg), (a.finish x).cur = none := by
        intro a x
        unfold Abs.finish
        rcases e : a.cur with _ | y
        · simp only []
          split <;> first | rfl | exact e
        · rfl
      cases op with
      | write p => exact ho.elim
      | setHeader x => exact ho.elim
      | close => exact absurd rfl hcl
      | flush ft =>
        cases ft with
        | blockFlush => exact ho.elim
        | partialFlush => exact ho.elim
        | syncFlush => exact (flush_step h.lawful hl1 hcur ((h.any True).hist hh1) (by simp) (fun _ => trivial) h3 (he r (by simp))).2.2.2.1 (Or.inl rfl)
        | fullFlush => exact (flush_step h.lawful hl1 hcur ((h.any True).hist hh1) (by simp) (fun _ => trivial) h3 (he r (by simp))).2.2.2.1 (Or.inr rfl)
        | finishFlush =>
          rw [show Abs.step (cfgOf c.start) (List.foldl (Abs.step (cfgOf c.start)) {} ops) (.flush .finishFlush) = Abs.finish (cfgOf c.start) (List.foldl (Abs.step (cfgOf c.start)) {} ops) from rfl, hfin] at hcur
          cases hcur

/-- **C82 (when it counts).** After `Close`, or a `Flush` other than `BlockFlush` and `PartialFlush`, the bytes received by the underlying writer are the same on all platforms. -/
theorem C82_delivered {c c' : Setup} (h : c.OK) (h' : c'.OK) (hs : c.SinkOK) (hs' : c'.SinkOK) (hu : SameUse c c') {ops : List WOp} (hc : WOp.close ∉ ops) {op : WOp} (ho : Settles op)
    {rs rs' : List WRes} {t t' : WState} (hr : c.Runs (ops ++ [op]) rs t) (hr' : c'.Runs (ops ++ [op]) rs' t') (he : NoErr rs) : t'.sink.out = t.sink.out := by
  have e1 : rs' = rs := (C82_same h h' hs hs' hu hr hr').1
  subst e1
  have z := settled h hc ho hr he
  have z' := settled h' hc ho hr' he
  unfold Setup.Runs at hr hr'
  rw [hu.lib] at hr'
  obtain ⟨hv, i, i', _⟩ := both_facts ((start_both h h' hs hs' hu).run hr hr').2
  unfold view at hv
  rw [out_pushed i, out_pushed i', z, z'] at hv
  simp only [natBits, List.append_nil] at hv
  exact bytesBits_inj hv

/-- **C82 (compressed files).** Compressing the same data in the same way gives the same file on all platforms. -/
theorem C82_files {c c' : Setup} (h : c.OK) (h' : c'.OK) (hs : c.SinkOK) (hs' : c'.SinkOK) (hu : SameUse c c') {ops : List WOp} (hf : c.Fits ops) (hc : WOp.close ∉ ops) :
    ∃ rs t t', c.Runs (ops ++ [.close]) rs t ∧ c'.Runs (ops ++ [.close]) rs t' ∧ NoErr rs ∧ t'.sink.out = t.sink.out := by
  have hf' : c'.Fits ops := by
    rcases hf with hf | hf
    · exact Or.inl (by unfold Setup.Small Setup.o at hf ⊢; rw [hu.opts]; exact hf)
    · exact Or.inr hf
  obtain ⟨rs, t, hr, he⟩ := h.run_close_fits hs hf hc
  obtain ⟨rs', t', hr', _⟩ := h'.run_close_fits hs' hf' hc
  have e1 : rs' = rs := (C82_same h h' hs hs' hu hr hr').1
  subst e1
  exact ⟨rs', t, t', hr, hr', he, C82_delivered h h' hs hs' hu hc (op := .close) trivial hr hr' he⟩

/-- an ordinary use on a 32 bit platform -/
def demo32 (opts : List Opt) : Setup := { demo opts with W := 32 }

example (opts : List Opt) : SameUse (demo opts) (demo32 opts) := ⟨rfl, rfl, rfl, rfl⟩

theorem demo32_ok {opts : List Opt} (h : ∀ x ∈ opts, x.valid = true) : (demo32 opts).OK := ⟨refLib_lawful, Or.inl rfl, h⟩

/-- such uses exist -/
example : ∃ rs t t', (demo [.format .gzip, .mlevel 1]).Runs ([.write [1, 2, 3], .flush .partialFlush, .write [4]] ++ [.close]) rs t ∧
    (demo32 [.format .gzip, .mlevel 1]).Runs ([.write [1, 2, 3], .flush .partialFlush, .write [4]] ++ [.close]) rs t' ∧ NoErr rs ∧ t'.sink.out = t.sink.out := by
  have h := demo_ok (opts := [.format .gzip, .mlevel 1]) (by decide)
  have h' := demo32_ok (opts := [.format .gzip, .mlevel 1]) (by decide)
  have hs := demo_sink [.format .gzip, .mlevel 1]
  have hs' : (demo32 [.format .gzip, .mlevel 1]).SinkOK := demo_sink [.format .gzip, .mlevel 1]
  have hu : SameUse (demo [.format .gzip, .mlevel 1]) (demo32 [.format .gzip, .mlevel 1]) := ⟨rfl, rfl, rfl, rfl⟩
  have hf : (demo [.format .gzip, .mlevel 1]).Fits [.write [1, 2, 3], .flush .partialFlush, .write [4]] := Or.inl (Or.inr (by decide))
  exact C82_files h h' hs hs' hu hf (by simp)

/-- The exceptions made in C82 are necessary: after `Flush(PartialFlush)`, more has been delivered on a 32 bit platform than on a 64 bit platform. -/
theorem C82_early : ∃ opts ops t t' rs, (demo opts).OK ∧ (demo32 opts).OK ∧ (demo opts).Runs (ops ++ [.flush .partialFlush]) rs t ∧ (demo32 opts).Runs (ops ++ [.flush .partialFlush]) rs t' ∧
    NoErr rs ∧ t.sink.out.length = 8 ∧ t'.sink.out.length = 12 := by
  have e : ((demo [.format .raw, .mlevel 1]).eval [.write (List.replicate 12 7), .flush .partialFlush]).map (fun x => (x.1, x.2.1.length)) = some ([.write 12 none, .flush none], 8) := by decide +kernel
  have e' : ((demo32 [.format .raw, .mlevel 1]).eval [.write (List.replicate 12 7), .flush .partialFlush]).map (fun x => (x.1, x.2.1.length)) = some ([.write 12 none, .flush none], 12) := by decide +kernel
  obtain ⟨⟨a, b, ks⟩, h1, h2⟩ := Option.map_eq_some_iff.1 e
  obtain ⟨⟨a', b', ks'⟩, h1', h2'⟩ := Option.map_eq_some_iff.1 e'
  obtain ⟨t, r, o, _⟩ := Setup.eval_runs h1
  obtain ⟨t', r', o', _⟩ := Setup.eval_runs h1'
  simp only [Prod.mk.injEq] at h2 h2'
  obtain ⟨rfl, h2⟩ := h2
  obtain ⟨rfl, h2'⟩ := h2'
  exact ⟨[.format .raw, .mlevel 1], [.write (List.replicate 12 7)], t, t', _, demo_ok (by decide), demo32_ok (by decide), r, r', by simp [NoErr, WRes.err], by rw [o]; exact h2, by rw [o']; exact h2'⟩

end Flate.Props
