/-
C78: options are snapshots of their arguments; the accessors of Writers and Readers report them, as copies.
-/
import Verif.Proof.Share
import Verif.Props.Session
import Verif.Props.RSession

namespace Flate.Props
open Flate.Model
open Flate.Spec.Snap (Query Act Seen World)

/-- Whatever a program does with options, Writers, Readers and its own arrays: what it sees is what it would see if no memory was shared (`Spec.Snap`): options have the value their argument had when
they were made, accessors report the last option of each kind which the object was given, or the default, and the arrays they return are new ones. -/
theorem C78_accessors (acts : List Act) : Share.St.run {} acts = World.run {} acts :=
  Proof.Share.run_same ⟨by simp, by simp, rfl, by simp, by simp, rfl, .nil, .nil⟩ acts

/-- the program of the example: the array of the dictionary is changed after it was given to two Writers, and so is the result of `Dict()` -/
def prying : List Act := [.makeBytes [1, 2, 3], .withDict (some 0), .withFormat .gzip, .newWriter 7 [0, 1], .pokeByte 0 1 9, .lookBytes 0, .ask 0 .dict, .pokeByte 1 0 8, .lookBytes 1,
  .ask 0 .dict, .ask 0 .format, .ask 0 .clevel, .ask 0 .mlevel, .newReader 5 [0], .ask 1 .dict, .ask 1 .format, .ask 1 .clevel, .withDict none, .reset 0 6 [2], .ask 0 .dict, .ask 0 .format,
  .ask 0 .underlying, .withWindow 7, .makeTracers [4], .withTracers (some 0), .reset 1 5 [3], .pokeTracer 0 0 2, .ask 1 .tracers]

example : World.run {} prying = [.done, .done, .done, .done, .done, .bytes [1, 9, 3], .dict (some [1, 2, 3]), .done, .bytes [8, 2, 3],
    .dict (some [1, 2, 3]), .format .gzip, .level 6, .memory 9, .done, .dict (some [1, 2, 3]), .format .default, .nothing, .done, .done, .dict none, .format .gzip,
    .underlying 6, .refused, .done, .done, .done, .done, .tracers [4]] := by decide

/-- the effective options of the Writer model (`Setup`, used by all theorems about Writers) are those the accessors report -/
theorem C78_writer {c : Setup} (u : Nat) :
    let x : Spec.Snap.Obj := ⟨true, c.opts, u⟩
    c.start.o.format = Spec.Snap.fmt x ∧ c.start.o.clevel = Spec.Snap.level x ∧ c.start.o.mlevel = Spec.Snap.memory x ∧ c.start.o.wbits = Spec.Snap.window x ∧
      c.start.o.dict = Spec.Snap.dictOf x ∧ c.start.o.tracers = Spec.Snap.tracersOf x ∧
      c.start.o.strategy = Spec.Snap.last (fun | .strategy s => some s | _ => none) .default c.opts ∧
      c.start.o.method = Spec.Snap.last (fun | .method m => some m | _ => none) .default c.opts := by
  have h : c.start.o = Proof.Share.eff ⟨true, c.opts, u⟩ := by
    have h0 : c.start.o = (Options.apply {} c.opts).writerDefaults := rfl
    rw [h0, Proof.Share.apply_eq, Proof.Share.eff_writer]
    rfl
  rw [h]
  exact ⟨rfl, rfl, rfl, rfl, rfl, rfl, rfl, rfl⟩

/-- and so are those of the Reader model -/
theorem C78_reader {c : RSetup} (u : Nat) :
    let x : Spec.Snap.Obj := ⟨false, c.opts, u⟩
    c.o.format = Spec.Snap.fmt x ∧ c.o.mlevel = Spec.Snap.memory x ∧ c.o.wbits = Spec.Snap.window x ∧ c.o.dict = Spec.Snap.dictOf x := by
  have h : ∀ o : Options, o = (Options.apply {} c.opts).readerDefaults → o.format = Spec.Snap.fmt ⟨false, c.opts, u⟩ ∧ o.mlevel = Spec.Snap.memory ⟨false, c.opts, u⟩ ∧
      o.wbits = Spec.Snap.window ⟨false, c.opts, u⟩ ∧ o.dict = Spec.Snap.dictOf ⟨false, c.opts, u⟩ := by
    rintro o rfl
    rw [Proof.Share.apply_eq]
    refine ⟨(Proof.Share.fmt_reader _ _).symm, (Proof.Share.memory_eq _ _ _).symm, (Proof.Share.window_eq _ _ _).symm, ?_⟩
    exact (Proof.Share.last_eq Proof.Share.fD none c.opts).symm
  exact h _ rfl

end Flate.Props
