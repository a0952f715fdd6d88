/-
Common vocabulary of the theorems about the Writer.
-/
import Verif.Proof.WRun
import Verif.Proof.RefLib

namespace Flate.Props
open Flate.Spec Flate.Model Flate.Proof

/-- The circumstances in which a Writer is used: the Huffman library, the platform's word size, the match finder's
choices, the underlying writer (which may fail at any time), and the options given to `NewWriter`. -/
structure Setup where
  L : HuffLib
  W : Nat
  propose : Nat → Option (Nat × Nat)
  sink : Sink
  opts : List Opt

/-- a lawful library, a 32 or 64 bit platform, and valid options -/
structure Setup.OK (c : Setup) : Prop where
  lawful : c.L.Lawful
  word : c.W = 32 ∨ c.W = 64
  valid : ∀ x ∈ c.opts, x.valid = true

/-- the Writer returned by `NewWriter` -/
def Setup.start (c : Setup) : WState := newWriter c.W c.propose c.sink c.opts

/-- the options in force, defaults filled in -/
def Setup.o (c : Setup) : Options := effective c.opts

/-- After `NewWriter`, the calls `ops` return `rs` and leave the Writer in state `t`. -/
def Setup.Runs (c : Setup) (ops : List WOp) (rs : List WRes) (t : WState) : Prop := runOps c.L ops c.start = .ok (rs, t)

/-- no call has returned an error -/
def NoErr (rs : List WRes) : Prop := ∀ r ∈ rs, r.err = none

/-- the underlying writer never fails (`EINVAL` from `Sync` is not a failure) -/
def Setup.SinkOK (c : Setup) : Prop :=
  (∀ n, c.sink.wfail n = none) ∧ (∀ n, c.sink.ffail n = none) ∧ (∀ n e, c.sink.sfail n = some e → e = 22)

/-- a configuration for which the Writer cannot panic: no compression, or a memory level of at most 7 -/
def Setup.Small (c : Setup) : Prop := c.o.clevel = 0 ∨ c.o.mlevel ≤ 7

/-- the same, or no single `Write` is longer than 61440 bytes -/
def Setup.Fits (c : Setup) (ops : List WOp) : Prop := c.Small ∨ ∀ p, WOp.write p ∈ ops → p.length ≤ 61440

/-- what the decoder of the library accepts -/
def Setup.ok (c : Setup) : List Nat → Prop := fun lens => c.L.accepts lens = true

theorem Setup.OK.fresh {c : Setup} (h : c.OK) : Fresh c.start := newWriter_fresh h.word c.propose c.sink h.valid

theorem Setup.OK.full {c : Setup} (h : c.OK) : OptsFull c.o := writerDefaults_full (apply_ok optsOK_init h.valid)

theorem Setup.start_o (c : Setup) : c.start.o = c.o := rfl
theorem Setup.start_out (c : Setup) : c.start.sink.out = c.sink.out := rfl

theorem Setup.OK.live {c : Setup} (h : c.OK) (E : BlockRel) : Live E c.sink.out 0 c.start {} := h.fresh.live E

theorem Setup.OK.any {c : Setup} (h : c.OK) (pf : Prop) :
    BlockOK c.L c.start.o c.start.lz.maxDist pf (BlockEnc c.ok (2 ^ c.o.wbits)) :=
  blockOK_any _ _ _ (maxDist_window h.full rfl)

theorem Setup.Small.fit {c : Setup} (h : c.Small) (ops : List WOp) : FitOps c.start ops := by
  rcases h with h | h
  · left; show (c.o.clevel == 0) = true; rw [h]; rfl
  · right; left
    show (hybridOptions c.o).bufBits ≤ 15
    unfold hybridOptions; split <;> simp <;> omega

theorem Setup.Fits.fit {c : Setup} {ops : List WOp} (h : c.Fits ops) : FitOps c.start ops := by
  rcases h with h | h
  · exact h.fit ops
  · refine Or.inr (Or.inr fun op ho => ?_)
    cases op with
    | write p => exact h p ho
    | _ => exact Nat.zero_le _

theorem Setup.SinkOK.dep {c : Setup} (h : c.SinkOK) : Dependable c.start := by
  refine ⟨h.1, h.2.1, fun n e he => ?_⟩
  rw [h.2.2 n e he]; rfl

/-- such histories exist: nothing fails unless the underlying writer does -/
theorem Setup.OK.run_fits {c : Setup} (h : c.OK) (hd : c.SinkOK) {ops : List WOp} (hs : c.Fits ops) (hc : WOp.close ∉ ops) :
    ∃ rs t, c.Runs ops rs t ∧ NoErr rs := by
  rcases run_any h.lawful ops (h.live _) (h.any True) (fun _ _ _ => trivial) with ⟨_, hf⟩ | ⟨rs, t, _, _, e, _, _, _, _, dep⟩
  · exact absurd hs.fit hf
  · exact ⟨rs, t, e, dep hd.dep hc⟩

theorem Setup.OK.run_close_fits {c : Setup} (h : c.OK) (hd : c.SinkOK) {ops : List WOp} (hs : c.Fits ops) (hc : WOp.close ∉ ops) :
    ∃ rs t, c.Runs (ops ++ [.close]) rs t ∧ NoErr rs := by
  obtain ⟨rs, t, e, he⟩ := h.run_fits hd hs hc
  obtain ⟨es, k, hh, hl, _⟩ := run_good h.lawful ops (h.live _) (h.any True) (fun _ _ _ => trivial) hc e he
  rcases stepClose h.lawful hl ((h.any True).hist hh) with ⟨_, hf⟩ | ⟨r, u, _, _, e', _, _, _, dep, _⟩
  · have h1 : c.Fits (ops ++ [.close]) := hs.imp id fun h p hp => h p (by simpa using hp)
    exact absurd ((h1.fit.hist hh).fit hl (op := .close) (by simp)) hf
  · refine ⟨rs ++ [r], u, run_append_ok e (run_cons e' rfl), ?_⟩
    intro x hx
    rcases List.mem_append.1 hx with hx | hx
    · exact he x hx
    · rw [List.mem_singleton] at hx; subst hx; exact dep (dependable_of_hist hh hd.dep)

theorem Setup.OK.run_ok {c : Setup} (h : c.OK) (hs : c.Small) (hd : c.SinkOK) {ops : List WOp} (hc : WOp.close ∉ ops) :
    ∃ rs t, c.Runs ops rs t ∧ NoErr rs := h.run_fits hd (Or.inl hs) hc

theorem Setup.OK.run_close_ok {c : Setup} (h : c.OK) (hs : c.Small) (hd : c.SinkOK) {ops : List WOp} (hc : WOp.close ∉ ops) :
    ∃ rs t, c.Runs (ops ++ [.close]) rs t ∧ NoErr rs := h.run_close_fits hd (Or.inl hs) hc

/-- an ordinary setup, for examples -/
def demo (opts : List Opt) : Setup := ⟨refLib, 64, fun _ => some (1, 3), {}, opts⟩

theorem demo_ok {opts : List Opt} (h : ∀ x ∈ opts, x.valid = true) : (demo opts).OK := ⟨refLib_lawful, Or.inr rfl, h⟩
theorem demo_sink (opts : List Opt) : (demo opts).SinkOK := ⟨fun _ => rfl, fun _ => rfl, fun _ _ h => by cases h⟩

end Flate.Props
