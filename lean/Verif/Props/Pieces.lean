/-
C101: the pieces in which a Writer passes its output on.
-/
import Verif.Proof.WPieces
import Verif.Props.WriterFlush
import Verif.Props.WriterShape
import Verif.Props.Format

namespace Flate.Props
open Flate.Spec Flate.Model Flate.Proof

/-- all the data given to `Write`, in order -/
def givenData : List WOp → List UInt8
  | [] => []
  | .write p :: ops => p ++ givenData ops
  | _ :: ops => givenData ops

theorem givenData_append (a b : List WOp) : givenData (a ++ b) = givenData a ++ givenData b := by
  induction a with
  | nil => rfl
  | cons op a ih => cases op <;> simp [givenData, ih]

theorem givenData_one (op : WOp) : givenData [op] = opData op := by cases op <;> simp [givenData, opData]

/-- what may be said of a piece: it is not empty, is not larger than the output buffer, and if it is larger than a machine word, it is a part of the
data given to `Write` or of the header of a stream -/
def PieceOK (c : Setup) (data w : List UInt8) : Prop :=
  w ≠ [] ∧ w.length ≤ 2 ^ (c.o.mlevel + 7) ∧
  (w.length ≤ c.W / 8 ∨ w <:+: data ∨ ∃ hdr, HeaderOf (2 ^ c.o.wbits) c.o.dict (container c.o.format) hdr ∧ w <:+: hdr)

/-- what `Pieces.Small` is used with -/
def Long (c : Setup) (data : List UInt8) : List UInt8 → Prop := fun w => w <:+: data ∨ ∃ hdr, HeaderOf (2 ^ c.o.wbits) c.o.dict (container c.o.format) hdr ∧ w <:+: hdr

theorem Long.mono {c : Setup} {a b w : List UInt8} (h : Long c a w) : Long c (a ++ b) w := by
  rcases h with h | h
  · exact Or.inl (h.trans (List.prefix_append _ _).isInfix)
  · exact Or.inr h

theorem forall₂_last {α β : Type} {R : α → β → Prop} {x : α} {y : β} : ∀ {a : List α} {b : List β}, List.Forall₂ R (a ++ [x]) (b ++ [y]) → R x y
  | [], [], .cons h _ => h
  | [], _ :: b, .cons _ h => by cases b <;> cases h
  | _ :: a, [], .cons _ h => by cases a <;> cases h
  | _ :: _, _ :: _, .cons _ h => forall₂_last h

theorem write_all {c : Setup} (h : c.OK) {ops : List WOp} {op : WOp} {rs : List WRes} {r : WRes} {t : WState} (hr : c.Runs (ops ++ [op]) (rs ++ [r]) t) (hn : r.err = none) :
    ∀ p, op = .write p → r = .write p.length none := by
  intro p hp
  rcases forall₂_last (C18_write h hr) p hp with k | ⟨e, k⟩
  · exact k
  · rw [k] at hn; cases hn

theorem run_pieces {c : Setup} (h : c.OK) (n : Nat) : ∀ (ops : List WOp), ops.length = n → ∀ (rs : List WRes) (t : WState), c.Runs ops rs t → NoErr rs →
    Pieces.Inv c.W (c.o.mlevel + 7) c.o (givenData ops) t ∧
    ∃ l, t.sink.log = c.sink.log ++ l ∧ ∀ w, SinkCall.write w ∈ l → Pieces.Small c.W (c.o.mlevel + 7) (Long c (givenData ops)) w := by
  induction n with
  | zero =>
    intro ops hl rs t hr hn
    obtain rfl := List.eq_nil_of_length_eq_zero hl
    cases hr
    exact ⟨⟨rfl, rfl, rfl, rfl, rfl, lzok_hybrid h.full rfl, List.suffix_refl _⟩, [], by show c.sink.log = _; simp, by simp⟩
  | succ n ih =>
    intro ops hl rs t hr hn
    rcases List.eq_nil_or_concat ops with rfl | ⟨ops, op, rfl⟩
    · cases hl
    have hlen : ops.length = n := by simpa using hl
    simp only [List.concat_eq_append] at hr ⊢
    obtain ⟨rs1, u, r, h1, h2, rfl⟩ := run_last hr
    have hnr : r.err = none := hn r (by simp)
    obtain ⟨i1, l1, e1, k1⟩ := ih ops hlen rs1 u h1 fun r hr => hn r (by simp [hr])
    have hX : Pieces.Covers c.o (Long c (givenData (ops ++ [op]))) (givenData ops ++ opData op) := by
      rw [givenData_append, givenData_one]
      exact ⟨fun w hw => Or.inl hw, fun hd w hk hw => Or.inr ⟨_, headerBytes_of h.full hk, hw⟩⟩
    obtain ⟨i2, l2, e2, k2⟩ := (Pieces.pd_step (B := c.o.mlevel + 7) (O := c.o) h.word hX h2 (write_all h hr hnr)).log (C15_no_false_success h h1 h2 hnr) i1
    rw [givenData_append, givenData_one]
    refine ⟨i2, l1 ++ l2, by rw [e2, e1]; simp, fun w hw => ?_⟩
    rcases List.mem_append.1 hw with hw | hw
    · obtain ⟨a, b, d⟩ := k1 w hw
      exact ⟨a, b, d.imp id Long.mono⟩
    · have := k2 w hw
      rw [givenData_append, givenData_one] at this
      exact this

/-- **C101, what holds.** While no call fails, no piece passed to the underlying writer is empty or larger than the output buffer, and a piece larger than a machine word is
a contiguous part of the data given to `Write` or of a header: compressed data never comes in larger pieces than a word. -/
theorem C101_partial {c : Setup} (h : c.OK) {ops : List WOp} {rs : List WRes} {t : WState} (hr : c.Runs ops rs t) (hn : NoErr rs) :
    ∃ l, t.sink.log = c.sink.log ++ l ∧ ∀ w, SinkCall.write w ∈ l → PieceOK c (givenData ops) w := by
  obtain ⟨-, l, e, k⟩ := run_pieces h _ ops rfl rs t hr hn
  exact ⟨l, e, k⟩

/-- **The property as stated:** within one call, every piece but the last fills the output buffer. -/
def FillsBuffer (c : Setup) (ops : List WOp) (op : WOp) : Prop :=
  ∀ rs s r t, c.Runs ops rs s → stepOp c.L op s = .ok (r, t) →
    ∀ a b w v, t.sink.log = s.sink.log ++ a ++ [.write w] ++ b → SinkCall.write v ∈ b → w.length = 2 ^ (c.o.mlevel + 7)

/-- 200 times the same byte, compressed with an output buffer of 256 bytes -/
def scat : Setup := ⟨refLib, 64, fun _ => none, {}, [.format .raw, .mlevel 1]⟩
def scatData : List UInt8 := List.replicate 200 97
def scatOps : List WOp := [.write scatData]

theorem scat_ok : scat.OK := ⟨refLib_lawful, Or.inr rfl, by decide⟩

/-- the sizes of the pieces written -/
def pieceSizes (log : List SinkCall) : List Nat := log.filterMap fun x => match x with
  | .write w => some w.length
  | _ => none

/-- the calls of the underlying writer after `Write`, and after `Write` and `Close` -/
def scatLogs : Option (List SinkCall × List SinkCall) :=
  match runOps scat.L scatOps scat.start with
  | .ok (_, s) => match stepOp scat.L .close s with
    | .ok (_, t) => some (s.sink.log, t.sink.log)
    | _ => none
  | _ => none

theorem scat_logs : scatLogs = some ([], [.write [4, 192, 1, 9, 0, 0, 0, 0], .write [160, 172, 246, 47, 33, 0, 0, 0], .write [0, 0, 0, 0, 0, 0, 0, 0],
    .write [0, 0, 0, 0, 0, 0, 0, 0], .write [0, 0, 0, 0, 0, 0, 3], .write [0, 0], .write [255, 255]]) := by decide +kernel

/-- **C101 is false of the code.** 43 bytes of output, less than the 256 bytes of the buffer, are written in seven calls within one `Close`. -/
theorem C101_fails : ¬ ∀ (c : Setup) (ops : List WOp) (op : WOp), c.OK → FillsBuffer c ops op := by
  intro h
  have hf := h scat scatOps .close scat_ok
  have hl := scat_logs
  unfold scatLogs at hl
  rcases e1 : runOps scat.L scatOps scat.start with x | ⟨rs, s⟩
  · rw [e1] at hl; cases hl
  rw [e1] at hl
  rcases e2 : stepOp scat.L .close s with x | ⟨r, t⟩
  · simp only [e2] at hl; cases hl
  simp only [e2, Option.some.injEq, Prod.mk.injEq] at hl
  obtain ⟨hs, ht⟩ := hl
  have := hf rs s r t e1 e2 [] _ [4, 192, 1, 9, 0, 0, 0, 0] [255, 255] (by rw [hs, ht]; rfl) (by decide)
  exact absurd this (by decide)

/-- the hypotheses of `C101_partial` are met -/
example : ∃ rs t, scat.Runs (scatOps ++ [.close]) rs t ∧ NoErr rs ∧ t.sink.log.length = 7 := by
  have hd : (match runOps scat.L (scatOps ++ [.close]) scat.start with
    | .ok (rs, t) => rs.all (fun r => r.err.isNone) && t.sink.log.length == 7
    | _ => false) = true := by decide +kernel
  rcases e : runOps scat.L (scatOps ++ [.close]) scat.start with x | ⟨rs, t⟩
  · rw [e] at hd; cases hd
  · rw [e] at hd
    simp only [Bool.and_eq_true, List.all_eq_true, beq_iff_eq] at hd
    exact ⟨rs, t, e, fun r hr => by simpa using hd.1 r hr, hd.2⟩

end Flate.Props
