/-
C68, C69: what the block events of a Reader say.
-/
import Verif.Proof.RCounts
import Verif.Props.ReaderHeader

namespace Flate.Props
open Flate.Spec Flate.Model Flate.Model.Rd Flate.Proof Flate.Proof.R

/-! ### C68 -/

/-- **C68.** In every run, whatever the input, also if an error occurs and whenever `Close` is called: between the StreamHeader event of a stream and its StreamEnd event there are exactly the
events which describe the blocks found in the input, one after the other without a gap, starting with the byte after the header.  Types, final marks and codes are those in the input; BlockBegin is
sent when the three bits which begin the block have been read, BlockTrees when the codes have been read, BlockEnd when the block is complete and correct (up to distances), always with the
`InputBytesTotal` which this means; nothing follows a final block. -/
theorem C68_blocks {c : RSetup} (h : c.OK) {src : Src} {stop : Nat → Option Nat} {closed : Bool} {s : RState}
    (hr : readThread (c.envStop stop) (start src closed) = .ok ((), s)) {l r : List Event} {e : Event} (he : s.events = l ++ e :: r) {hd : Header} (hk : e.kind = .streamHeader hd) :
    ∃ bks x rest a k, r = bks ++ x :: rest ∧ BlockRun (fun l => c.L.accepts l = true) src.bytes (8 * e.inTotal) bks ∧ x.kind = .streamEnd a k :=
  (events_thread (E := c.envStop stop) ⟨h.env.lawful, h.env.word⟩ hr).header l e r hd he hk

/-- **C68**, trees: the codes in a BlockTrees event are those which the bits in the input describe; the event is sent when exactly these have been read. -/
theorem C68_trees {c : RSetup} (h : c.OK) {src : Src} {stop : Nat → Option Nat} {closed : Bool} {s : RState}
    (hr : readThread (c.envStop stop) (start src closed) = .ok ((), s)) {e : Event} (he : e ∈ s.events) {t : BlockType} {f : Bool} {tr : Trees} (hk : e.kind = .blockTrees t f tr) :
    ∃ p b, BitsAt src.bytes p (f :: typeBits t ++ b) ∧ Tables (fun l => c.L.accepts l = true) t b tr ∧ e.inTotal = (p + 3 + b.length + 7) / 8 := by
  obtain ⟨p, bks, h1, h2⟩ := (events_thread (E := c.envStop stop) ⟨h.env.lawful, h.env.word⟩ hr).all e he (by rw [hk]; rfl)
  exact blockRun_trees h1 h2 hk

/-! ### C69 -/

/-- the codes which a header describes -/
def treesOf (hd : DynHeader) : Trees := { codeCount := hd.hclen, llCount := hd.hlit, dCount := hd.hdist, codeSizes := hd.cl, ll := hd.ll, d := hd.d }

/-- **C69, partial.** If the Reader reports the end of the input, and no error, then every BlockTrees event of a dynamic block describes a header which RFC 1951 permits, and which is in the input.
(Without this condition it is not so, see `C69_fails`.) -/
theorem C69_partial {c : RSetup} (h : c.OK) {src : Src} {stop : Nat → Option Nat} {closed : Bool} {s : RState}
    (hr : readThread (c.envStop stop) (start src closed) = .ok ((), s)) (heof : actErr s.out.acts = some .eof)
    {e : Event} (he : e ∈ s.events) {f : Bool} {tr : Trees} (hk : e.kind = .blockTrees .dynamic f tr) :
    ∃ hd p, hd.Valid (fun l => c.L.accepts l = true) ∧ tr = treesOf hd ∧ BitsAt src.bytes p ([f, false, true] ++ hd.bits) := by
  obtain ⟨p, b, h1, h2, _⟩ := C68_trees h hr he hk
  obtain ⟨h3, h4⟩ := counts_thread hr heof e he f tr hk
  cases h2 with
  | dynamic hd hl =>
    obtain ⟨q1, q2, q3, q4, q5⟩ := hl
    exact ⟨hd, p, ⟨q1, h3, q3, h4, q5⟩, rfl, h1⟩

/-- a dynamic block with HLIT = 31, that is 288 literal/length codes, and the literal 0 -/
def tooMany : List UInt8 := [253, 192, 129, 8, 0, 0, 0, 0, 160, 253, 169, 71, 89]

/-- the events of a run which have to do with trees and ends of blocks: dynamic BlockTrees or not, number of literal/length codes, bytes read -/
def treeEv (e : Event) : Option (Bool × Nat × Nat) := match e.kind with
  | .blockTrees .dynamic _ tr => some (true, tr.llCount, e.inTotal)
  | .blockEnd _ _ => some (false, 0, e.inTotal)
  | _ => none

def runTrees (r : Except Panic (Unit × RState)) : Option (List (Bool × Nat × Nat) × Bool × List UInt8) := match r with
  | .ok (_, s) => some (s.events.filterMap treeEv, actErr s.out.acts == some (.corrupt 3 3 (.hlit 288 286)), actData s.out.acts)
  | .error _ => none

theorem tooMany_run : runTrees (readThread (rdemo [.format .raw]).env (start ⟨[], tooMany, .eof⟩ false)) = some ([(true, 288, 13), (false, 0, 13)], true, [0]) := by decide +kernel

/-- **C69 is false.** A dynamic block with more literal/length codes than RFC 1951 permits is found corrupt, but the Reader goes on with it: it announces its trees, with 288 codes, decodes its data and
announces its end. -/
theorem C69_fails : ∃ (c : RSetup) (src : Src) (s : RState), c.OK ∧ readThread c.env (start src false) = .ok ((), s) ∧
    (∃ e ∈ s.events, ∃ f tr, e.kind = .blockTrees .dynamic f tr ∧ ∀ hd : DynHeader, hd.Valid (fun l => c.L.accepts l = true) → tr ≠ treesOf hd) ∧
    (∃ e ∈ s.events, ∃ t f, e.kind = .blockEnd t f) ∧ actErr s.out.acts ≠ some .eof := by
  have hrun := tooMany_run
  cases hx : readThread (rdemo [.format .raw]).env (start ⟨[], tooMany, .eof⟩ false) with
  | error p => rw [hx] at hrun; cases hrun
  | ok r =>
    obtain ⟨_, s⟩ := r
    rw [hx] at hrun
    simp only [runTrees, Option.some.injEq, Prod.mk.injEq] at hrun
    obtain ⟨h1, h2, _⟩ := hrun
    have hm : ∀ y ∈ [(true, 288, 13), (false, 0, 13)], ∃ e ∈ s.events, treeEv e = some y := by
      intro y hy
      rw [← h1] at hy
      exact List.mem_filterMap.1 hy
    refine ⟨_, _, s, rdemo_ok (by simp [Opt.valid]), hx, ?_, ?_, fun h => by rw [h] at h2; cases h2⟩
    · obtain ⟨e, e1, e2⟩ := hm (true, 288, 13) (by simp)
      refine ⟨e, e1, ?_⟩
      unfold treeEv at e2
      split at e2
      · rename_i f tr hk
        simp only [Option.some.injEq, Prod.mk.injEq] at e2
        refine ⟨f, tr, hk, fun hd hv ht => ?_⟩
        have h3 := hv.2.1
        have h4 := e2.2.1
        rw [ht] at h4
        simp only [treesOf] at h4
        omega
      · simp at e2
      · cases e2
    · obtain ⟨e, e1, e2⟩ := hm (false, 0, 13) (by simp)
      refine ⟨e, e1, ?_⟩
      unfold treeEv at e2
      split at e2
      · simp at e2
      · rename_i t f hk
        exact ⟨t, f, hk⟩
      · cases e2

/-! ### examples -/

/-- the kinds of the events with the positions: stored, static, dynamic, invalid are 0 to 3 -/
def evBits (e : Event) : Option (Nat × Nat) := match e.kind with
  | .blockBegin .stored _ => some (0, e.inTotal)
  | .blockBegin .static _ => some (1, e.inTotal)
  | .blockBegin .dynamic _ => some (2, e.inTotal)
  | .blockBegin .invalid _ => some (3, e.inTotal)
  | .blockTrees _ _ _ => some (4, e.inTotal)
  | .blockEnd _ _ => some (5, e.inTotal)
  | _ => none

def runBits (r : Except Panic (Unit × RState)) : Option (List (Nat × Nat)) := match r with
  | .ok (_, s) => some (s.events.filterMap evBits)
  | .error _ => none

/-- A stored block with one byte, an empty static one, which ends within a byte, and the beginning of an invalid one, in the same byte. -/
example : runBits (readThread (rdemo [.format .raw]).env (start ⟨[], [0, 1, 0, 254, 255, 65, 2, 28], .eof⟩ false)) =
    some [(0, 1), (5, 6), (1, 7), (4, 7), (5, 8), (3, 8)] := by decide +kernel

end Flate.Props
