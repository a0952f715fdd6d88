/-
Concrete streams: hypotheses of the theorems about the Reader are satisfiable, and counterexamples to C06, C08, C09, C46 and C47.
-/
import Verif.Props.Chunking

namespace Flate.Props
open Flate.Spec Flate.Model Flate.Model.Rd Flate.Proof Flate.Proof.R

/-- one stored block -/
def storedRaw (d : List UInt8) : List UInt8 := [1] ++ leBytes 2 d.length ++ leBytes 2 (65535 - d.length) ++ d

/-- the same in a gzip member -/
def storedGz (d : List UInt8) : List UInt8 :=
  [0x1f, 0x8b, 8, 0, 0, 0, 0, 0, 0, 255] ++ storedRaw d ++ leBytes 4 (crc32 d).toNat ++ leBytes 4 (d.length % 2 ^ 32)

theorem storedRaw_deflate {d dict : List UInt8} (h : d.length < 65536) (ok : List Nat → Prop) (win : Nat) : DeflateOf (BlockEnc ok win) dict (storedRaw d) d := by
  refine ⟨[], _, [], dict, .nil _ _, .stored (List.replicate 5 false) d rfl h, ?_, by simp⟩
  unfold storedRaw
  rw [bytesBits_append, bytesBits_append, bytesBits_append, bytesBits_leBytes, bytesBits_leBytes]
  have : bytesBits [1] = [true, false, false] ++ List.replicate 5 false := by decide
  rw [this]
  simp

theorem storedRaw_stream {d : List UInt8} (h : d.length < 65536) (c : RSetup) : c.Stream .raw (storedRaw d) d := storedRaw_deflate h _ _

theorem storedGz_stream {d : List UInt8} (h : d.length < 65536) (c : RSetup) : c.Stream .gzip (storedGz d) d := by
  refine ⟨⟨false, false, 0, 0, 255, none, none, none⟩, by simp, storedRaw d, ⟨by simp, by simp, by simp, by simp⟩, storedRaw_deflate h _ _, ?_⟩
  rfl

/-! ### the hypotheses can be met -/

/-- C03: a gzip stream, recognised as such, in two pieces -/
example : (rdemo [.mlevel 1]).Delivers ⟨[(0x1f, (storedGz [65, 66]).tail.take 9)], (storedGz [65, 66]).drop 10, .eof⟩ [65, 66] .eof :=
  C03_decodes (rdemo_ok (by decide)) (k := .gzip) (Or.inr ⟨rfl, rfl, Or.inr (by decide)⟩)
    (by rw [show Src.bytes _ = storedGz [65, 66] by decide +kernel]; exact storedGz_stream (by decide) _)

/-- C05: a truncated stream -/
example : ∃ s e, (rdemo [.format .gzip]).Runs ⟨[], (storedGz [65, 66]).take 20, .eof⟩ s ∧ actErr s.out.acts = some e ∧ e ≠ .eof :=
  C05_truncated (rdemo_ok (by decide)) (k := .gzip) (S := storedGz [65, 66]) (x := (storedGz [65, 66]).drop 20) (Or.inl rfl) (storedGz_stream (by decide) _)
    (by simp [Src.bytes]) (by decide +kernel) (by decide +kernel)

/-- C07: two streams in one piece; only the first one is read -/
example : (rdemo [.format .gzip]).Delivers ⟨[], storedGz [65] ++ storedGz [66], .eof⟩ [65] .eof := by
  have := C07_fails (c := rdemo [.format .gzip]) (rdemo_ok (by decide)) (k := .gzip) rfl (e := .eof) (p := (storedGz [65], [65])) (ps := [(storedGz [66], [66])])
    (by intro q hq; simp at hq; rcases hq with rfl | rfl <;> exact storedGz_stream (by decide) _)
  simpa using this

/-- C07: the same two streams, `io.EOF` comes by itself; both are read -/
example : ∃ src, src.bytes = storedGz [65] ++ storedGz [66] ∧ (rdemo [.format .gzip]).Delivers src [65, 66] .eof := by
  refine ⟨⟨[(0x1f, (storedGz [65] ++ storedGz [66]).tail)], [], .eof⟩, by simp [Src.bytes, storedGz], ?_⟩
  have := C07_partial (c := rdemo [.format .gzip]) (rdemo_ok (by decide)) (k := .gzip) rfl (src := ⟨[(0x1f, (storedGz [65] ++ storedGz [66]).tail)], [], .eof⟩)
    (ps := [(storedGz [65], [65])]) (q := (storedGz [66], [66]))
    (by intro q hq; simp at hq; rcases hq with rfl | rfl <;> exact storedGz_stream (by decide) _) (by simp [Src.bytes, storedGz]) (by simp)
  simpa using this

/-! ### counterexamples -/

/-- one piece of 128 bytes: a byte which is no valid beginning of a block, followed by a valid stream -/
def badThenGood : List UInt8 := 7 :: storedRaw (List.replicate 122 65)

/-- **C06 is false** for corrupt input: if the source reports `io.EOF` after, instead of together with, its 128 bytes (which fill the input buffer),
the Reader goes on after the error, and delivers data. -/
theorem C06_fails : ∃ (src src' : Src) (s s' : RState), (rdemo [.format .raw, .mlevel 1]).Fills src ∧ (rdemo [.format .raw, .mlevel 1]).Fills src' ∧
    src.bytes = src'.bytes ∧ src.err = src'.err ∧ (rdemo [.format .raw, .mlevel 1]).Runs src s ∧ (rdemo [.format .raw, .mlevel 1]).Runs src' s' ∧
    actData s.out.acts ≠ actData s'.out.acts := by
  have h1 : acts? (readThread (rdemo [.format .raw, .mlevel 1]).env (start ⟨[(7, storedRaw (List.replicate 122 65))], [], .eof⟩ false)) =
    some [.err (.corrupt 1 1 .reserved), .data (List.replicate 122 65)] := by decide +kernel
  have h2 : acts? (readThread (rdemo [.format .raw, .mlevel 1]).env (start ⟨[], badThenGood, .eof⟩ false)) =
    some [.err (.corrupt 1 1 .reserved)] := by decide +kernel
  obtain ⟨s, r1, a1⟩ := acts?_some h1
  obtain ⟨s', r2, a2⟩ := acts?_some h2
  refine ⟨⟨[(7, storedRaw (List.replicate 122 65))], [], .eof⟩, ⟨[], badThenGood, .eof⟩, s, s', ?_, ?_, by decide +kernel, rfl, r1, r2, ?_⟩
  · constructor
    · decide +kernel
    · simp
  · constructor
    · simp
    · decide +kernel
  · rw [a1, a2]; simp [actData]

/-- **C46 is false**: after an error, the goroutine decodes what follows as if a new stream began there, and delivers that. -/
theorem C46_fails : ∃ (src : Src) (s : RState), (rdemo [.format .raw, .mlevel 1]).Fills src ∧ (rdemo [.format .raw, .mlevel 1]).Runs src s ∧
    s.out.acts = [.err (.corrupt 1 1 .reserved), .data (List.replicate 122 65)] ∧
    (∀ S data r, (rdemo [.format .raw, .mlevel 1]).Stream .raw S data → src.bytes ≠ S ++ r) := by
  have h1 : acts? (readThread (rdemo [.format .raw, .mlevel 1]).env (start ⟨[(7, storedRaw (List.replicate 122 65))], [], .eof⟩ false)) =
    some [.err (.corrupt 1 1 .reserved), .data (List.replicate 122 65)] := by decide +kernel
  obtain ⟨s, r1, a1⟩ := acts?_some h1
  refine ⟨_, s, ?_, r1, a1, ?_⟩
  · constructor
    · decide +kernel
    · simp
  · intro S data r hS hb
    have hd : ∀ b, detect (rdemo [.format .raw, .mlevel 1]).env.o.format b = .raw := fun b => rfl
    have h : (rdemo [.format .raw, .mlevel 1]).OK := rdemo_ok (by decide)
    rcases stream_step h.env (calm_start ⟨[(7, storedRaw (List.replicate 122 65))], [], .eof⟩) with ⟨g1, _⟩ | ⟨it, s1, g1, g2, _, g4, g5, _, g3⟩ | ⟨b, c', p, s1, g1, _, g2, _, g4, _, g6, g5⟩ | ⟨g1, _⟩
    · simp [allB, Src.bytes, start] at g1
    · obtain ⟨s2, hr, ha⟩ : ∃ s2, readStream (rdemo [.format .raw, .mlevel 1]).env (start ⟨[(7, storedRaw (List.replicate 122 65))], [], .eof⟩ false) = .ok (true, s2) ∧ s2.out.errorWasSet = true := by
        have : (match readStream (rdemo [.format .raw, .mlevel 1]).env (start ⟨[(7, storedRaw (List.replicate 122 65))], [], .eof⟩ false) with | .ok (b, s) => b && s.out.errorWasSet | .error _ => false) = true := by decide +kernel
        split at this
        · rename_i b s e
          simp at this
          exact ⟨s, by rw [e, this.1], this.2⟩
        · cases this
      rw [g4] at hr; cases hr
      have : (nrm s1).out.errorWasSet = (nrm (start _ false)).out.errorWasSet := g5.set
      have : s1.out.errorWasSet = false := this
      rw [this] at ha; cases ha
    · subst g1
      exact g6 S data r hS hb
    · have : (match readStream (rdemo [.format .raw, .mlevel 1]).env (start ⟨[(7, storedRaw (List.replicate 122 65))], [], .eof⟩ false) with | .ok (b, s) => b && s.out.errorWasSet | .error _ => false) = true := by decide +kernel
      rw [g1] at this
      cases this

/-- 127 bytes of a raw stream, then a gzip stream -/
def rawThenGz : List UInt8 := storedRaw (List.replicate 122 65) ++ storedGz [66]

/-- **C08 is false** of later streams: when only one byte of a gzip stream is left in the input buffer, it is taken for a raw stream. -/
theorem C08_fails : ∃ (src : Src) (s : RState), (rdemo [.mlevel 1]).Fills src ∧ src.bytes = storedRaw (List.replicate 122 65) ++ storedGz [66] ∧
    autodetect (storedGz [66]) = .gzip ∧ (rdemo [.mlevel 1]).Runs src s ∧ ∃ a b m, actErr s.out.acts = some (.corrupt a b m) := by
  have h1 : (acts? (readThread (rdemo [.mlevel 1]).env (start ⟨[(1, (rawThenGz.take 128).tail)], rawThenGz.drop 128, .eof⟩ false))).map actErr =
    some (some (.corrupt 128 1 .reserved)) := by decide +kernel
  obtain ⟨as, h2, h3⟩ := Option.map_eq_some_iff.1 h1
  obtain ⟨s, r1, a1⟩ := acts?_some h2
  refine ⟨_, s, ?_, by decide +kernel, rfl, r1, 128, 1, .reserved, by rw [a1]; exact h3⟩
  constructor <;> decide +kernel

/-- **C47 is false**: when the source fails in the middle of a Huffman code, the Reader reports corrupt input. -/
theorem C47_fails : ∃ (src : Src) (s : RState), (rdemo [.format .raw, .mlevel 1]).Fills src ∧ (∃ m, src.err = .io m) ∧ (rdemo [.format .raw, .mlevel 1]).Runs src s ∧
    (∃ x S data, (rdemo [.format .raw, .mlevel 1]).Stream .raw S data ∧ src.bytes ++ x = S ∧ x ≠ []) ∧ ∃ a b m, actErr s.out.acts = some (.corrupt a b m) := by
  have h1 : acts? (readThread (rdemo [.format .raw, .mlevel 1]).env (start ⟨[], [3], .io 5⟩ false)) =
    some [.err (.corrupt 1 1 .noLitLen)] := by decide +kernel
  obtain ⟨s, r1, a1⟩ := acts?_some h1
  refine ⟨_, s, ⟨by simp, by decide⟩, ⟨5, rfl⟩, r1, ⟨[0], [3, 0], [], ?_, rfl, by simp⟩, 1, 1, .noLitLen, by rw [a1]; rfl⟩
  refine ⟨[], _, List.replicate 6 false, [], .nil _ _, .fixed [] _ (by simp) rfl, ?_, by simp⟩
  decide +kernel

/-- a gzip header with an extra field holding one record which claims to have 65535 bytes -/
def badExtra : List UInt8 := [0x1f, 0x8b, 8, 4, 0, 0, 0, 0, 0, 255, 5, 0, 65, 65, 255, 255, 0]

/-- **C09 is false**: a malformed extra field makes the goroutine panic. -/
theorem C09_fails : (rdemo [.format .gzip]).Fills ⟨[], badExtra, .eof⟩ ∧ readThread (rdemo [.format .gzip]).env (start ⟨[], badExtra, .eof⟩ false) = .error .bounds := by
  refine ⟨⟨by simp, by decide⟩, ?_⟩
  have h : acts? (readThread (rdemo [.format .gzip]).env (start ⟨[], badExtra, .eof⟩ false)) = none := by decide +kernel
  have hE : EnvOK (rdemo [.format .gzip]).env := (rdemo_ok (by decide) : (rdemo [.format .gzip]).OK).env
  rcases safe_readThread (X := True) (E := (rdemo [.format .gzip]).env) ⟨hE.lawful, hE.word⟩ ⟨[], badExtra, .eof⟩ false (fun _ => trivial) with ⟨s, e, _⟩ | ⟨e, _⟩
  · rw [e] at h; cases h
  · exact e

end Flate.Props
