/-
Concrete sources: the hypotheses of the theorems of `Props/Chunking.lean` can be met.
-/
import Verif.Props.ReadExamples

namespace Flate.Props
open Flate.Spec Flate.Model Flate.Model.Rd Flate.Proof Flate.Proof.R

/-- the gzip stream of "AB" in one piece -/
def onePiece : Src := ⟨[], storedGz [65, 66], .eof⟩
/-- the same, first 10 bytes, then 12, then nothing but `io.EOF` -/
def twoPieces : Src := ⟨[(0x1f, (storedGz [65, 66]).tail.take 9), (1, (storedGz [65, 66]).drop 11)], [], .eof⟩

/-- C06, a valid stream: both sources are read, and give the same -/
example : ∃ s s', (rdemo [.format .gzip, .mlevel 1]).Runs onePiece s ∧ (rdemo [.format .gzip, .mlevel 1]).Runs twoPieces s' ∧
    actData s.out.acts = actData s'.out.acts ∧ actErr s.out.acts = actErr s'.out.acts ∧ actData s.out.acts = [65, 66] := by
  have hS : (rdemo [.format .gzip, .mlevel 1]).Stream .gzip onePiece.bytes [65, 66] := by
    rw [show onePiece.bytes = storedGz [65, 66] by simp [onePiece, Src.bytes]]; exact storedGz_stream (by decide) _
  have h1 : (acts? (readThread (rdemo [.format .gzip, .mlevel 1]).env (start onePiece false))) = some [.data [65, 66], .err .eof] := by decide +kernel
  have h2 : (acts? (readThread (rdemo [.format .gzip, .mlevel 1]).env (start twoPieces false))).isSome = true := by decide +kernel
  obtain ⟨as, h2⟩ := Option.isSome_iff_exists.1 h2
  obtain ⟨s, r1, a1⟩ := acts?_some h1
  obtain ⟨s', r2, _⟩ := acts?_some h2
  have := C06_valid (c := rdemo [.format .gzip, .mlevel 1]) (rdemo_ok (by decide)) (k := .gzip) rfl (src := onePiece) (src' := twoPieces) (by decide +kernel) rfl hS r1 r2
  exact ⟨s, s', r1, r2, this.1, this.2, by rw [a1]; rfl⟩

/-- the first 20 bytes in one piece, and in two -/
def cutOne : Src := ⟨[], (storedGz [65, 66]).take 20, .eof⟩
def cutTwo : Src := ⟨[(0x1f, (storedGz [65, 66]).tail.take 9)], ((storedGz [65, 66]).take 20).drop 10, .eof⟩

/-- C06, a truncated stream, in one piece and in two -/
example : ∃ s s', (rdemo [.format .gzip, .mlevel 1]).Runs cutOne s ∧
    (rdemo [.format .gzip, .mlevel 1]).Runs cutTwo s' ∧
    s.out.acts = s'.out.acts ∧ s.events = s'.events := by
  have h1 : (acts? (readThread (rdemo [.format .gzip, .mlevel 1]).env (start cutOne false))).isSome = true := by decide +kernel
  have h2 : (acts? (readThread (rdemo [.format .gzip, .mlevel 1]).env (start cutTwo false))).isSome = true := by
    decide +kernel
  obtain ⟨as, h1⟩ := Option.isSome_iff_exists.1 h1
  obtain ⟨as', h2⟩ := Option.isSome_iff_exists.1 h2
  obtain ⟨s, r1, _⟩ := acts?_some h1
  obtain ⟨s', r2, _⟩ := acts?_some h2
  refine ⟨s, s', r1, r2, ?_⟩
  exact C06_truncated (c := rdemo [.format .gzip, .mlevel 1]) (rdemo_ok (by decide)) (k := .gzip) rfl (src := cutOne) (src' := cutTwo) (by decide +kernel) rfl
    (S := storedGz [65, 66]) (data := [65, 66]) (x := (storedGz [65, 66]).drop 20) (storedGz_stream (by decide) _) (by decide +kernel) (by decide +kernel) r1 r2

/-- C06, corrupt input: two bytes with which no gzip stream begins, in one piece and in two -/
example : ∃ s s', (rdemo [.format .gzip, .mlevel 1]).Runs ⟨[], [7, 7], .eof⟩ s ∧ (rdemo [.format .gzip, .mlevel 1]).Runs ⟨[(7, [])], [7], .eof⟩ s' ∧
    ∃ (acts post post' : List Act), s.out.acts = acts ++ post ∧ s'.out.acts = acts ++ post' ∧ acts.countP isErr = 1 ∧ post.countP isErr = 0 ∧ post'.countP isErr = 0 := by
  have h1 : (acts? (readThread (rdemo [.format .gzip, .mlevel 1]).env (start ⟨[], [7, 7], .eof⟩ false))).isSome = true := by decide +kernel
  have h2 : (acts? (readThread (rdemo [.format .gzip, .mlevel 1]).env (start ⟨[(7, [])], [7], .eof⟩ false))).isSome = true := by decide +kernel
  obtain ⟨as, h1⟩ := Option.isSome_iff_exists.1 h1
  obtain ⟨as', h2⟩ := Option.isSome_iff_exists.1 h2
  obtain ⟨s, r1, _⟩ := acts?_some h1
  obtain ⟨s', r2, _⟩ := acts?_some h2
  refine ⟨s, s', r1, r2, ?_⟩
  refine C06_partial (c := rdemo [.format .gzip, .mlevel 1]) (rdemo_ok (by decide)) (k := .gzip) rfl rfl rfl (by decide) ?_ r1 r2
  rintro S data r ⟨hd, _, p, _, _, rfl⟩ he
  simp [Src.bytes, GzHeader.bytes, GzHeader.main] at he

/-- C08: the first stream of a source which hands over two bytes at once -/
example : readStream (rdemo []).env (start onePiece false) = readStream { (rdemo []).env with o := { (rdemo []).o with format := .gzip } } (start onePiece false) :=
  C08_first (c := rdemo []) rfl (src := onePiece) (Or.inl (by decide +kernel)) (by decide +kernel)

end Flate.Props
