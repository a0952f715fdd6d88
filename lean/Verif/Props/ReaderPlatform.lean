/-
C83: a Reader does the same on 32-bit and on 64-bit platforms.
-/
import Verif.Proof.RWord
import Verif.Props.ReaderReset

namespace Flate.Props
open Flate.Spec Flate.Model Flate.Model.Rd Flate.Proof Flate.Proof.R

theorem thread_word {L : HuffLib} (hL : L.Lawful) {W W' : Nat} (hW : W = 32 ∨ W = 64) (hW' : W' = 32 ∨ W' = 64) (o : ROptions) (stop : Nat → Option Nat) (clip : Nat → Nat)
    {s : RState} (hs : Word.Fine s.inp) : readThread ⟨L, W', o, stop, clip⟩ s = readThread ⟨L, W, o, stop, clip⟩ s :=
  (Word.ind_thread (E := ⟨L, W, o, stop, clip⟩) (w := W') ⟨hL, by show 32 ≤ W; omega⟩ (by omega) s hs).1

theorem flat_fine {i : Inp} (h : Flat i) : Word.Fine i := ⟨by rw [h.1]; decide, by rw [h.1, h.2]; decide⟩

/-- **C83 (histories).** A Reader can get in the same states on all platforms, in the course of its use for any number of sources (with `Close` and `Reset`). -/
theorem C83_same {L : HuffLib} (hL : L.Lawful) {W W' : Nat} (hW : W = 32 ∨ W = 64) (hW' : W' = 32 ∨ W' = 64) {opts : List Opt} {o : ROptions} {s : RState} :
    Idle L W opts o s ↔ Idle L W' opts o s := by
  have key : ∀ {W W' : Nat}, (W = 32 ∨ W = 64) → (W' = 32 ∨ W' = 64) → Idle L W opts o s → Idle L W' opts o s := by
    intro W W' hW hW' h
    induction h with
    | new opts src closed => exact .new opts src closed
    | ended stop clip h1 e ih => exact .ended stop clip ih ((thread_word hL hW hW' _ stop clip (flat_fine h1.flat)).trans e)
    | reset opts src closed _ ih => exact .reset opts src closed ih
  exact ⟨key hW hW', key hW' hW⟩

/-- **C83 (one source).** From any of these states the goroutine does the same on all platforms: it consumes the same input, delivers the same data and the same error, in the same
pieces, sends the same events, and panics in the same cases; also when `Close` intervenes. -/
theorem C83_thread {L : HuffLib} (hL : L.Lawful) {W W' : Nat} (hW : W = 32 ∨ W = 64) (hW' : W' = 32 ∨ W' = 64) {opts : List Opt} {o : ROptions} {s : RState} (h : Idle L W opts o s)
    (stop : Nat → Option Nat) (clip : Nat → Nat) : readThread ⟨L, W', o, stop, clip⟩ s = readThread ⟨L, W, o, stop, clip⟩ s :=
  thread_word hL hW hW' o stop clip (flat_fine h.flat)

/-- In particular for a new Reader. -/
theorem C83_delivers {c c' : RSetup} (h : c.OK) (h' : c'.OK) (hl : c'.L = c.L) (hc : c'.clip = c.clip) (ho : c'.opts = c.opts) {src : Src} :
    (∀ s, c'.Runs src s ↔ c.Runs src s) ∧ ∀ d e, c'.Delivers src d e ↔ c.Delivers src d e := by
  have key : readThread c'.env (start src false) = readThread c.env (start src false) := by
    have := C83_thread h.lawful h.word h'.word (.new c.opts src false) (fun _ => none) c.clip
    unfold RSetup.env RSetup.o
    rw [hl, hc, ho]
    exact this
  have hr : ∀ s, c'.Runs src s ↔ c.Runs src s := fun s => by unfold RSetup.Runs; rw [key]
  exact ⟨hr, fun d e => by unfold RSetup.Delivers; simp only [hr]⟩

/-- a dynamic block, read on a 32-bit platform; hence on all -/
def dynBlock : List UInt8 := [5, 193, 1, 1, 0, 0, 0, 128, 144, 173, 250, 63, 34, 16, 161, 66, 128, 170, 64, 164, 4, 0, 133, 80, 8, 128, 0, 170, 136, 12]

theorem dynBlock_runs : (acts? (readThread ⟨refLib, 32, .new [.format .raw], fun _ => none, fun _ => 300⟩ (start ⟨[], dynBlock, .eof⟩ false))).map actData = some [97, 97, 97, 98, 97, 97, 98, 97, 97, 97, 98, 98, 98, 97, 97, 97, 98, 97, 97, 97, 97, 97, 97, 97, 98, 98, 98, 98, 98, 97, 97, 97, 97, 97, 98, 97, 97, 98, 97, 98, 98, 97, 98, 97, 97, 97, 97, 97, 97, 97, 97, 97, 97, 97, 97, 98, 98, 97, 97, 97, 98, 97, 97, 97, 98, 98, 97, 97, 97, 98, 97, 97, 97, 97, 97, 97, 97, 97, 97, 97, 98, 97, 97, 97, 97, 97, 97, 97, 97, 98, 98, 98, 98, 97, 97, 98, 97, 97, 98, 97] := by decide +kernel

example : (acts? (readThread (rdemo [.format .raw]).env (start ⟨[], dynBlock, .eof⟩ false))).map actData = some [97, 97, 97, 98, 97, 97, 98, 97, 97, 97, 98, 98, 98, 97, 97, 97, 98, 97, 97, 97, 97, 97, 97, 97, 98, 98, 98, 98, 98, 97, 97, 97, 97, 97, 98, 97, 97, 98, 97, 98, 98, 97, 98, 97, 97, 97, 97, 97, 97, 97, 97, 97, 97, 97, 97, 98, 98, 97, 97, 97, 98, 97, 97, 97, 98, 98, 97, 97, 97, 98, 97, 97, 97, 97, 97, 97, 97, 97, 97, 97, 98, 97, 97, 97, 97, 97, 97, 97, 97, 98, 98, 98, 98, 97, 97, 98, 97, 97, 98, 97] :=
  (congrArg (fun x => (acts? x).map actData) (C83_thread refLib_lawful (Or.inl rfl) (Or.inr rfl) (.new [.format .raw] _ false) _ _)).trans dynBlock_runs

end Flate.Props
