/-
C103: the output determines the data.
-/
import Verif.Props.RoundTrip

namespace Flate.Props
open Flate.Spec Flate.Model Flate.Model.Rd Flate.Proof Flate.Proof.R

/-- Sequences of streams: if one is an initial part of another, then so are the contents. -/
theorem pairs_prefix {E : Env} (hE : EnvOK E) {k : Container} : ∀ {ps ps' : List (List UInt8 × List UInt8)} {r : List UInt8},
    (∀ p ∈ ps, Spec.Stream (Env.ok E) (2 ^ E.o.wbits) E.o.dict k p.1 p.2) → (∀ p ∈ ps', Spec.Stream (Env.ok E) (2 ^ E.o.wbits) E.o.dict k p.1 p.2) →
    ps'.flatMap Prod.fst = ps.flatMap Prod.fst ++ r → ∃ more, ps' = ps ++ more := by
  intro ps
  induction ps with
  | nil => intro ps' r _ _ _; exact ⟨ps', rfl⟩
  | cons p ps ih =>
    intro ps' r h h' e
    cases ps' with
    | nil =>
      simp only [List.flatMap_nil, List.flatMap_cons, List.append_assoc] at e
      exact absurd (List.append_eq_nil_iff.1 e.symm).1 (stream_ne (h p (by simp)))
    | cons p' ps' =>
      simp only [List.flatMap_cons, List.append_assoc] at e
      obtain ⟨e1, e2⟩ := stream_unique hE (h' p' (by simp)) (h p (by simp)) e
      rw [e1] at e
      obtain ⟨more, rfl⟩ := ih (fun q hq => h q (by simp [hq])) (fun q hq => h' q (by simp [hq])) (List.append_cancel_left e)
      exact ⟨more, by rw [show p' = p from Prod.ext e1 e2]; rfl⟩

/-- what a Writer's calls, up to and including `Close`, have added to its output -/
def Setup.Output (c : Setup) (ops : List WOp) (bytes : List UInt8) : Prop :=
  WOp.close ∉ ops ∧ ∃ rs t, c.Runs (ops ++ [.close]) rs t ∧ NoErr rs ∧ t.sink.out = c.sink.out ++ bytes

/-- **C103.** If the output of a Writer is the beginning of the output of another (same format, same dictionary), then the streams which the first has been given are the first
streams which the other has been given. -/
theorem C103_prefix {c c' : Setup} (h : c.OK) (h' : c'.OK) (hL : c'.L = c.L) (hf : container c'.o.format = container c.o.format) (hd : c'.o.dict = c.o.dict)
    {ops ops' : List WOp} {bytes bytes' : List UInt8} (ho : c.Output ops bytes) (ho' : c'.Output ops' bytes') (hp : bytes <+: bytes') :
    (segsOf (ops ++ [.close])).done <+: (segsOf (ops' ++ [.close])).done := by
  obtain ⟨hc, rs, t, hr, he, hb⟩ := ho
  obtain ⟨hc', rs', t', hr', he', hb'⟩ := ho'
  obtain ⟨b, e1, s1⟩ := C02_conforming h hc hr he
  obtain ⟨b', e2, s2⟩ := C02_conforming h' hc' hr' he'
  obtain rfl : b = bytes := List.append_cancel_left (e1.symm.trans hb)
  obtain rfl : b' = bytes' := List.append_cancel_left (e2.symm.trans hb')
  obtain ⟨ps, p1, p2, p3⟩ := streamsOf_list s1
  obtain ⟨ps', q1, q2, q3⟩ := streamsOf_list s2
  obtain ⟨r, rfl⟩ := hp
  have hwin : ∃ w, c.o.wbits ≤ w ∧ c'.o.wbits ≤ w := ⟨max c.o.wbits c'.o.wbits, Nat.le_max_left .., Nat.le_max_right ..⟩
  obtain ⟨w, w1, w2⟩ := hwin
  let E : Env := ⟨c.L, c.W, ⟨.raw, 0, w, c.o.dict, []⟩, fun _ => none, id⟩
  have hE : EnvOK E := ⟨h.lawful, by rcases h.word with e | e <;> · show 32 ≤ c.W; omega, fun _ => rfl⟩
  obtain ⟨more, rfl⟩ := pairs_prefix hE (k := container c.o.format) (ps := ps) (ps' := ps') (r := r)
    (fun p hp => stream_win (Nat.pow_le_pow_right (by decide : 0 < 2) w1) (p3 p hp))
    (fun p hp => by
      have := stream_win (Nat.pow_le_pow_right (by decide : 0 < 2) w2) (q3 p hp)
      rw [hf, hd] at this
      unfold Setup.ok at this
      rw [hL] at this
      exact this)
    (by rw [← q1, ← p1])
  rw [p2, q2]
  exact ⟨more.map Prod.snd, by simp⟩

/-- **C103.** Equal outputs (same format, same dictionary) come from equal data, cut into streams at the same places. -/
theorem C103_equal {c c' : Setup} (h : c.OK) (h' : c'.OK) (hL : c'.L = c.L) (hf : container c'.o.format = container c.o.format) (hd : c'.o.dict = c.o.dict)
    {ops ops' : List WOp} {bytes : List UInt8} (ho : c.Output ops bytes) (ho' : c'.Output ops' bytes) :
    (segsOf (ops ++ [.close])).done = (segsOf (ops' ++ [.close])).done :=
  (C103_prefix h h' hL hf hd ho ho' (List.prefix_refl _)).eq_of_length_le
    (C103_prefix h' h hL.symm hf.symm hd.symm ho' ho (List.prefix_refl _)).length_le

/-- **C103, one stream.** If the data differ, then neither output is the beginning of the other. -/
theorem C103_single {c c' : Setup} (h : c.OK) (h' : c'.OK) (hL : c'.L = c.L) (hf : container c'.o.format = container c.o.format) (hd : c'.o.dict = c.o.dict)
    {ops ops' : List WOp} (hs : ∀ op ∈ ops, Continues op) (hs' : ∀ op ∈ ops', Continues op) {bytes bytes' : List UInt8} (ho : c.Output ops bytes) (ho' : c'.Output ops' bytes')
    (hne : writtenData ops ≠ writtenData ops') : ¬ bytes <+: bytes' ∧ ¬ bytes' <+: bytes := by
  constructor
  · intro hp
    have := C103_prefix h h' hL hf hd ho ho' hp
    rw [segs_single hs, segs_single hs', List.prefix_cons_iff] at this
    simp at this
    exact hne this
  · intro hp
    have := C103_prefix h' h hL.symm hf.symm hd.symm ho' ho hp
    rw [segs_single hs, segs_single hs', List.prefix_cons_iff] at this
    simp at this
    exact hne this.symm

/-- A history without errors has an output. -/
theorem output_exists {c : Setup} (h : c.OK) {ops : List WOp} (hc : WOp.close ∉ ops) (hr : ∃ rs t, c.Runs (ops ++ [.close]) rs t ∧ NoErr rs) : ∃ bytes, c.Output ops bytes := by
  obtain ⟨rs, t, hr, he⟩ := hr
  obtain ⟨bytes, e, -⟩ := C02_conforming h hc hr he
  exact ⟨bytes, hc, rs, t, hr, he, e⟩

/-- non-vacuity: two Writers with different levels and window sizes, several streams -/
example : ∃ b b', (demo [.format .gzip, .clevel 9, .mlevel 1, .dict (some [1, 2, 3])]).Output [.write [1, 2, 3, 1, 2, 3], .flush .finishFlush, .write [7]] b ∧
    (demo [.format .gzip, .mlevel 1, .wbits 9, .dict (some [1, 2, 3])]).Output [.write [1, 2], .flush .syncFlush, .write [3, 1, 2, 3], .flush .finishFlush, .write [7]] b' := by
  obtain ⟨b, hb⟩ := output_exists (demo_ok (by decide)) (by simp)
    ((demo_ok (by decide)).run_close_ok (Or.inr (by decide)) (demo_sink _) (by simp) :
      ∃ rs t, (demo [.format .gzip, .clevel 9, .mlevel 1, .dict (some [1, 2, 3])]).Runs ([.write [1, 2, 3, 1, 2, 3], .flush .finishFlush, .write [7]] ++ [.close]) rs t ∧ NoErr rs)
  obtain ⟨b', hb'⟩ := output_exists (demo_ok (by decide)) (by simp)
    ((demo_ok (by decide)).run_close_ok (Or.inr (by decide)) (demo_sink _) (by simp) :
      ∃ rs t, (demo [.format .gzip, .mlevel 1, .wbits 9, .dict (some [1, 2, 3])]).Runs
        ([.write [1, 2], .flush .syncFlush, .write [3, 1, 2, 3], .flush .finishFlush, .write [7]] ++ [.close]) rs t ∧ NoErr rs)
  exact ⟨b, b', hb, hb'⟩

def farData : List UInt8 := [1, 2, 3, 4, 5, 6, 7, 8, 9, 10, 11, 12, 13, 14, 15, 16, 17, 18, 19, 20]

/-- a raw Writer whose match finder first finds twenty bytes in the dictionary -/
def far (d : List UInt8) : Setup := { demo [.format .raw, .mlevel 1, .clevel 9, .dict (some d)] with propose := fun i => if i = 0 then some (20, 20) else none }

/-- The dictionary matters: without it, the output does not determine the data. -/
theorem C103_dictionary : ∃ (c c' : Setup) (ops ops' : List WOp) (bytes : List UInt8), c.OK ∧ c'.OK ∧ c'.L = c.L ∧ c'.o.format = c.o.format ∧ c.Output ops bytes ∧ c'.Output ops' bytes ∧
    (segsOf (ops ++ [.close])).done ≠ (segsOf (ops' ++ [.close])).done := by
  refine ⟨far farData, far farData.reverse, [.write farData], [.write farData.reverse], [194, 38, 6, 8, 0, 0, 255, 255], ⟨refLib_lawful, Or.inr rfl, by decide⟩, ⟨refLib_lawful, Or.inr rfl, by decide⟩, rfl, rfl, ?_, ?_, by decide⟩
  · have : ((far farData).eval [.write farData, .close]).map (fun x => (x.1, x.2.1)) =
        some ([.write 20 none, .close none], [194, 38, 6, 8, 0, 0, 255, 255]) := by decide +kernel
    obtain ⟨⟨a, b, ks⟩, h1, h2⟩ := Option.map_eq_some_iff.1 this
    cases h2
    obtain ⟨t, r, e, _⟩ := Setup.eval_runs h1
    exact ⟨by simp, _, t, r, by simp [NoErr, WRes.err], e⟩
  · have : ((far farData.reverse).eval [.write farData.reverse, .close]).map (fun x => (x.1, x.2.1)) =
        some ([.write 20 none, .close none], [194, 38, 6, 8, 0, 0, 255, 255]) := by decide +kernel
    obtain ⟨⟨a, b, ks⟩, h1, h2⟩ := Option.map_eq_some_iff.1 this
    cases h2
    obtain ⟨t, r, e, _⟩ := Setup.eval_runs h1
    exact ⟨by simp, _, t, r, by simp [NoErr, WRes.err], e⟩

end Flate.Props
