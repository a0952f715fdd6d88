/-
C84: the memory level, and the sizes of the slices in which matches are copied, do not influence what a Reader makes of its input.
-/
import Verif.Proof.RLevel
import Verif.Props.ReaderPlatform
import Verif.Props.ReaderFlush
import Verif.Props.Chunking

namespace Flate.Props
open Flate.Spec Flate.Model Flate.Model.Rd Flate.Proof Flate.Proof.R

/-- Readers for the same purpose: memory level, tracers, platform, and the behaviour of the window's `LookupSlice` may differ. -/
structure SameTask (c c' : RSetup) : Prop where
  lib : c'.L = c.L
  format : c'.o.format = c.o.format
  window : c'.o.wbits = c.o.wbits
  dict : c'.o.dict = c.o.dict

/-- what a tracer is told, apart from the numbers of bytes delivered -/
def toldR (e : Event) : EvKind × Nat × Nat × Nat × Format := (e.kind, e.inTotal, e.inStream, e.numStreams, e.format)

theorem early_before : ∀ l : List Act, Lev.early l = dataBefore l
  | [] => rfl
  | .data p :: r => by show p ++ Lev.early r = p ++ dataBefore r; rw [early_before r]
  | .err _ :: _ => rfl

/-- all environments of the same task, on the platform of the first -/
theorem same_env {c c' : RSetup} (h : SameTask c c') : Lev.Same c.env { c'.env with W := c.W } := ⟨h.lib, rfl, h.format, h.window, h.dict, fun _ => rfl, fun _ => rfl⟩

theorem other_word {c c' : RSetup} (h : c.OK) (h' : c'.OK) (src : Src) : readThread { c'.env with W := c.W } (start src false) = readThread c'.env (start src false) :=
  C83_thread h'.lawful h'.word h.word (.new c'.opts src false) (fun _ => none) c'.clip

/-- **C84 (same pieces of input).** If memory levels differ, and slices of the window have other lengths, the goroutine consumes the same input, decompresses the same data, reports the
same error, and sends the same events (apart from the counts of bytes delivered); the data delivered before the error are the same, except that in one case more of them may be
delivered after it. -/
theorem C84_same {c c' : RSetup} (h : c.OK) (h' : c'.OK) (hu : SameTask c c') {src : Src} {s : RState} (hr : c.Runs src s) :
    ∃ s', c'.Runs src s' ∧ s'.inp = s.inp ∧ actData s'.out.acts = actData s.out.acts ∧ actErr s'.out.acts = actErr s.out.acts ∧
      s'.events.map toldR = s.events.map toldR ∧ s'.numStreams = s.numStreams ∧
      (dataBefore s.out.acts <+: dataBefore s'.out.acts ∨ dataBefore s'.out.acts <+: dataBefore s.out.acts) := by
  have h1 := Lev.sl_thread (same_env hu) _ _ (Lev.sl_start (2 ^ c.env.o.wbits) src)
  unfold RSetup.Runs at hr
  rw [hr] at h1
  obtain ⟨s', e, g⟩ := h1
  rw [other_word h h'] at e
  obtain ⟨z, z'⟩ := g.out.empty rfl
  refine ⟨s', e, g.inp, ?_, Lev.actErr_errs g.out.ers, ?_, g.num, ?_⟩
  · have := g.out.dat
    rw [z, z', List.append_nil, List.append_nil] at this
    exact this.symm
  · have e1 : toldR = (fun x : Event => (x.kind, x.inTotal, x.inStream, x.numStreams, x.format)) ∘ Lev.brief := rfl
    rw [e1, ← List.map_map, ← List.map_map, g.ev]
  · rw [← early_before, ← early_before]
    by_cases he : actErr s.out.acts = none
    · have he' : actErr s'.out.acts = none := by rw [Lev.actErr_errs g.out.ers]; exact he
      rw [Lev.early_all he, Lev.early_all he']
      exact Lev.cmp_of_append g.out.dat
    · exact g.out.cmp he

/-- It panics in the same cases. -/
theorem C84_panics {c c' : RSetup} (h : c.OK) (h' : c'.OK) (hu : SameTask c c') {src : Src} {p : Panic} (hr : readThread c.env (start src false) = .error p) :
    readThread c'.env (start src false) = .error p := by
  have h1 := Lev.sl_thread (same_env hu) _ _ (Lev.sl_start (2 ^ c.env.o.wbits) src)
  rw [hr] at h1
  rw [← other_word h h']
  exact h1

theorem before_append : ∀ (a b : List Act), a.countP isErr = 1 → dataBefore (a ++ b) = dataBefore a ∧ actErr (a ++ b) = actErr a
  | [], _, h => by simp at h
  | .data p :: r, b, h => by
    obtain ⟨h1, h2⟩ := before_append r b (by simpa [isErr] using h)
    exact ⟨by show p ++ dataBefore (r ++ b) = p ++ dataBefore r; rw [h1], h2⟩
  | .err _ :: _, _, _ => ⟨rfl, rfl⟩

/-- **C84 (any pieces of input).** The verdict on an input which is not valid: the same error is reported, whatever the memory level, the slices, the platform and the pieces in which
the input arrives; the data delivered before it agree as far as they go. -/
theorem C84_verdict {c c' : RSetup} (h : c.OK) (h' : c'.OK) (hu : SameTask c c') {k : Container} (hk : c.o.format = fmtOf k) {src src' : Src} (hb : src.bytes = src'.bytes)
    (he : src.err = src'.err) (h0 : src.bytes ≠ []) (hn : ∀ S data r, c.Stream k S data → src.bytes ≠ S ++ r) {s s' : RState} (hr : c.Runs src s) (hr' : c'.Runs src' s') :
    actErr s'.out.acts = actErr s.out.acts ∧ (dataBefore s.out.acts <+: dataBefore s'.out.acts ∨ dataBefore s'.out.acts <+: dataBefore s.out.acts) := by
  obtain ⟨t, g1, _, _, g3, _, _, g4⟩ := C84_same h h' hu hr
  have hn' : ∀ S data r, c'.Stream k S data → src.bytes ≠ S ++ r := by
    intro S data r hS
    refine hn S data r ?_
    unfold RSetup.Stream RSetup.ok at hS ⊢
    rw [hu.lib, hu.window, hu.dict] at hS
    exact hS
  obtain ⟨acts, post, post', q1, q2, q3, _, _⟩ := C06_partial h' (by rw [hu.format]; exact hk) hb he h0 hn' g1 hr'
  obtain ⟨b1, b2⟩ := before_append acts post q3
  obtain ⟨b3, b4⟩ := before_append acts post' q3
  rw [q2, b3, b4, ← b2, ← b1, ← q1]
  exact ⟨g3, g4⟩

/-- **C84 (window size).** A Reader with a larger window reads each stream which one with a smaller window reads, with the same result; whatever the other parameters. -/
theorem C84_window {c c' : RSetup} (h : c.OK) (h' : c'.OK) (hl : c'.L = c.L) (hd : c'.o.dict = c.o.dict) (hw : c.o.wbits ≤ c'.o.wbits) {k : Container} {src : Src} {data : List UInt8}
    (ht : c.Takes k src) (ht' : c'.Takes k src) (hS : c.Stream k src.bytes data) : c.Delivers src data src.err ∧ c'.Delivers src data src.err := by
  refine ⟨C03_decodes h ht hS, C03_decodes h' ht' ?_⟩
  have := stream_win (Nat.pow_le_pow_right (by decide : 0 < 2) hw) hS
  unfold RSetup.Stream RSetup.ok
  rw [hl, hd]
  exact this

/-! Two Readers, one with a decode buffer of 128 bytes and slices of one byte, the other with 32 KiB and complete slices: 259 bytes, then the input ends too early; the first Reader has
delivered 256 of them by then, the second none. -/

def tiny : RSetup := ⟨refLib, 32, fun _ => 1, [.format .raw, .mlevel 1]⟩

theorem tiny_ok : tiny.OK := ⟨refLib_lawful, Or.inl rfl, by simp [tiny, Opt.valid]⟩

theorem tiny_task : SameTask tiny (rdemo [.format .raw]) := ⟨rfl, rfl, rfl, rfl⟩

def cut : Src := ⟨[], [0x4a, 28, 5], .eof⟩

/-- no stream begins so -/
theorem cut_invalid (S data r : List UInt8) (hS : tiny.Stream .raw S data) : cut.bytes ≠ S ++ r := by
  intro e
  have hd : tiny.Delivers ⟨[], S, .eof⟩ data .eof := C03_decodes (src := ⟨[], S, .eof⟩) tiny_ok (Or.inl rfl) (by simpa [Src.bytes] using hS)
  obtain ⟨s, ds, h1, h2, _⟩ := hd
  have h3 : actErr s.out.acts = some .eof := by
    rw [h2]
    clear * -
    induction ds with
    | nil => rfl
    | cons d ds ih => simpa [actErr] using ih
  have hp : S = [] ∨ S = [0x4a] ∨ S = [0x4a, 28] ∨ S = [0x4a, 28, 5] := by
    have : S <+: [0x4a, 28, 5] := ⟨r, e.symm⟩
    rw [List.prefix_cons_iff] at this
    rcases this with h | ⟨t, rfl, h⟩
    · exact Or.inl h
    rw [List.prefix_cons_iff] at h
    rcases h with rfl | ⟨t, rfl, h⟩
    · exact Or.inr (Or.inl rfl)
    rw [List.prefix_cons_iff] at h
    rcases h with rfl | ⟨t, rfl, h⟩
    · exact Or.inr (Or.inr (Or.inl rfl))
    · rw [List.prefix_nil] at h
      rw [h]
      exact Or.inr (Or.inr (Or.inr rfl))
  have key : ∀ w ∈ [[0x4a], [0x4a, 28], [0x4a, 28, (5 : UInt8)]], (acts? (readThread tiny.env (start ⟨[], w, .eof⟩ false))).map actErr ≠ some (some .eof) := by decide +kernel
  rcases hp with rfl | h
  · exact stream_ne hS rfl
  · refine key S (by rcases h with rfl | rfl | rfl <;> simp) ?_
    unfold RSetup.Runs at h1
    rw [h1]
    exact congrArg some h3

theorem cut_tiny : (acts? (readThread tiny.env (start cut false))).map (fun l => ((dataBefore l).length, (actData l).length)) = some (256, 259) := by decide +kernel

theorem cut_large : (acts? (readThread (rdemo [.format .raw]).env (start cut false))).map (fun l => ((dataBefore l).length, (actData l).length)) = some (0, 259) := by decide +kernel

example : ∃ s s', tiny.Runs cut s ∧ (rdemo [.format .raw]).Runs cut s' ∧ actErr s'.out.acts = actErr s.out.acts ∧ actData s'.out.acts = actData s.out.acts ∧
    (dataBefore s.out.acts).length = 256 ∧ (dataBefore s'.out.acts).length = 0 := by
  have h2 := cut_large
  have h1 := cut_tiny
  rcases hr : readThread tiny.env (start cut false) with p | ⟨⟨⟩, s⟩
  · rw [hr] at h1; cases h1
  rw [hr] at h1
  obtain ⟨s', g1, _, g2, g3, _⟩ := C84_same tiny_ok (rdemo_ok (by simp [Opt.valid])) tiny_task (show tiny.Runs cut s from hr)
  have g1' := g1
  unfold RSetup.Runs at g1'
  rw [g1'] at h2
  have k1 := congrArg Prod.fst (Option.some.inj h1)
  have k2 := congrArg Prod.fst (Option.some.inj h2)
  exact ⟨s, s', hr, g1, g3, g2, k1, k2⟩

/-- the input in other pieces -/
example {s s' : RState} (hr : tiny.Runs cut s) (hr' : (rdemo [.format .raw]).Runs ⟨[(0x4a, [28])], [5], .eof⟩ s') : actErr s'.out.acts = actErr s.out.acts := by
  have hb : cut.bytes = Src.bytes ⟨[(0x4a, [28])], [5], .eof⟩ := by decide
  have hf : tiny.o.format = fmtOf .raw := by decide
  have he : cut.err = Src.err ⟨[(0x4a, [28])], [5], .eof⟩ := rfl
  have h0 : cut.bytes ≠ [] := by decide
  exact (C84_verdict tiny_ok (rdemo_ok (by simp [Opt.valid])) tiny_task hf hb he h0 cut_invalid hr hr').1

end Flate.Props
