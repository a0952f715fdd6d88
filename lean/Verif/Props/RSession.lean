/-
Common vocabulary of the theorems about the Reader.
-/
import Verif.Proof.RRun
import Verif.Props.WriterOutput

namespace Flate.Props
open Flate.Spec Flate.Model Flate.Model.Rd Flate.Proof Flate.Proof.R

/-- The circumstances in which a Reader is used: the Huffman library, the platform's word size, the lengths of the slices which
`Window.LookupSlice` returns, and the options given to `NewReader`. -/
structure RSetup where
  L : HuffLib
  W : Nat
  clip : Nat → Nat
  opts : List Opt

/-- a lawful library, a 32 or 64 bit platform, and valid options -/
structure RSetup.OK (c : RSetup) : Prop where
  lawful : c.L.Lawful
  word : c.W = 32 ∨ c.W = 64
  valid : ∀ x ∈ c.opts, x.valid = true

/-- the options in force, defaults filled in -/
def RSetup.o (c : RSetup) : ROptions := ROptions.new c.opts

/-- the Reader's parameters, if nobody calls `Close` -/
def RSetup.env (c : RSetup) : Env := ⟨c.L, c.W, c.o, fun _ => none, c.clip⟩

/-- what the decoder of the library accepts -/
def RSetup.ok (c : RSetup) : List Nat → Prop := fun lens => c.L.accepts lens = true

/-- a complete stream, of container format `k`, as this Reader should accept it -/
def RSetup.Stream (c : RSetup) (k : Container) (bytes data : List UInt8) : Prop := Spec.Stream c.ok (2 ^ c.o.wbits) c.o.dict k bytes data

/-- the background goroutine of a new Reader for `src` runs to its end, leaving the state `s` -/
def RSetup.Runs (c : RSetup) (src : Src) (s : RState) : Prop := readThread c.env (start src false) = .ok ((), s)

/-- The goroutine delivers the bytes `d` and then reports the error `e` (`.eof` is the normal end), and this is all it delivers.
(What calls of `Read` return in consequence is the subject of `Props/Conc.lean`.) -/
def RSetup.Delivers (c : RSetup) (src : Src) (d : List UInt8) (e : Err) : Prop :=
  ∃ (s : RState) (ds : List (List UInt8)), c.Runs src s ∧ s.out.acts = ds.map .data ++ [.err e] ∧ ds.flatten = d

/-- The contract of `Buffer.ReadFrom`: it returns nil only when the buffer is full.  Theorems are proved without this
assumption; it is satisfied by the counterexamples. -/
def RSetup.Fills (c : RSetup) (src : Src) : Prop :=
  (∀ p ∈ src.full, (p.1 :: p.2).length = 2 ^ (c.o.mlevel + 6)) ∧ src.last.length ≤ 2 ^ (c.o.mlevel + 6)

/-- The Reader takes the input for a stream of container format `k`: this format was asked for, or autodetection was, the input
looks like it, and its first two bytes come together. -/
def RSetup.Takes (c : RSetup) (k : Container) (src : Src) : Prop :=
  c.o.format = fmtOf k ∨ c.o.format = .default ∧ autodetect src.bytes = k ∧ (k = .raw ∨ 2 ≤ src.first.length)

theorem RSetup.OK.env {c : RSetup} (h : c.OK) : EnvOK c.env :=
  ⟨h.lawful, by rcases h.word with e | e <;> · show 32 ≤ c.W; omega, fun _ => rfl⟩

theorem mod16 : ∀ v < 256, v &&& 0x0f = v % 16 := by decide +kernel

theorem detect_auto (l : List UInt8) : detect .default l = autodetect l := by
  rcases l with _ | ⟨p0, _ | ⟨p1, r⟩⟩
  · rfl
  · rfl
  · simp only [detect, autodetect, mod16 _ p0.toNat_lt]

theorem first_prefix (src : Src) : src.first <+: src.bytes := by
  rcases src with ⟨_ | ⟨⟨b, bs⟩, cs⟩, last, err⟩
  · simp [Src.first, Src.bytes]
  · simp [Src.first, Src.bytes]

theorem autodetect_prefix {p l : List UInt8} (h : p <+: l) (h2 : 2 ≤ p.length) : autodetect p = autodetect l := by
  obtain ⟨r, rfl⟩ := h
  rcases p with _ | ⟨p0, _ | ⟨p1, p⟩⟩
  · simp at h2
  · simp at h2
  · rfl

theorem autodetect_short {p l : List UInt8} (h : p <+: l) (h2 : autodetect l = .raw) : autodetect p = .raw := by
  rcases p with _ | ⟨p0, _ | ⟨p1, p⟩⟩
  · rfl
  · rfl
  · exact (autodetect_prefix h (by simp)).trans h2

theorem RSetup.Takes.det {c : RSetup} {k : Container} {src : Src} (h : c.Takes k src) : detect c.env.o.format src.first = k := by
  rcases h with h | ⟨h, h1, h2⟩
  · show detect c.o.format _ = k; rw [h]; exact detect_fmtOf _ _
  · show detect c.o.format _ = k
    rw [h, detect_auto]
    rcases h2 with rfl | h2
    · exact autodetect_short (first_prefix src) h1
    · rw [autodetect_prefix (first_prefix src) h2]; exact h1

/-- An ordinary Reader, for examples: small buffers, all slices complete. -/
def rdemo (opts : List Opt) : RSetup := ⟨refLib, 64, fun _ => 300, opts⟩

theorem rdemo_ok {opts : List Opt} (h : ∀ x ∈ opts, x.valid = true) : (rdemo opts).OK := ⟨refLib_lawful, Or.inr rfl, h⟩

/-- the actions of a run, for examples -/
def acts? (x : Except Panic (Unit × RState)) : Option (List Act) := match x with
  | .ok (_, s) => some s.out.acts
  | .error _ => none

theorem acts?_some {c : RSetup} {src : Src} {as : List Act} (h : acts? (readThread c.env (start src false)) = some as) :
    ∃ s, c.Runs src s ∧ s.out.acts = as := by
  unfold RSetup.Runs
  generalize readThread c.env (start src false) = x at h
  rcases x with e | ⟨⟨⟩, s⟩
  · cases h
  · cases h; exact ⟨s, rfl, rfl⟩

end Flate.Props
