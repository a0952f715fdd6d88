/-
C49 (Reader): extracting bit fields from the source.
-/
import Verif.Props.RSession
import Verif.Props.WriterShape

namespace Flate.Props
open Flate.Spec Flate.Model Flate.Model.Rd Flate.Proof Flate.Proof.R

/-- what the Reader can ask of its input -/
inductive Req where
  /-- the next `n` bits -/
  | bits (n : Nat)
  /-- `n` whole bytes, from the next byte boundary on -/
  | bytes (n : Nat)

/-- The answers, for input bits `bs` of which `pos` have been consumed, and the position reached; `none` if there are too
few. -/
def extract (bs : List Bool) : Nat → List Req → Option (List (List Bool) × Nat)
  | pos, [] => some ([], pos)
  | pos, .bits n :: r =>
    if pos + n ≤ bs.length then (extract bs (pos + n) r).map fun x => ((bs.drop pos).take n :: x.1, x.2) else none
  | pos, .bytes n :: r =>
    let q := pos + padLen pos
    if q + 8 * n ≤ bs.length then (extract bs (q + 8 * n) r).map fun x => ((bs.drop q).take (8 * n) :: x.1, x.2) else none

/-- `inputBufferRead` of `n` bytes -/
def bytesReq (n : Nat) : Go Inp (List UInt8 × Bool) := fun i => .ok (bufRead false n i)

/-- the Reader's functions for these: `inputBitsFill` and `inputBitsRead`, `inputBufferRead` -/
def getReqs (W : Nat) : List Req → Go Inp (Option (List (List Bool)))
  | [] => pure (some [])
  | .bits n :: r => do
    let ok ← bitsFill W false n
    if !ok then pure none
    else do
      let v ← bitsRead W n
      let l ← getReqs W r
      pure (l.map (natBits n v :: ·))
  | .bytes n :: r => do
    let x ← bytesReq n
    if !x.2 then pure none
    else do
      let l ← getReqs W r
      pure (l.map (bytesBits x.1 :: ·))

theorem ci_getReqs (W : Nat) : ∀ fs, Ci (getReqs W fs)
  | [] => ci_pure _
  | .bits n :: r => by
    unfold getReqs
    refine (ci_bitsFill W n).bind fun ok => ?_
    split
    · exact ci_pure _
    · exact (ci_bitsRead W n).bind fun v => (ci_getReqs W r).bind fun l => ci_pure _
  | .bytes n :: r => by
    unfold getReqs
    refine Ci.bind (fun i => ?_) fun x => ?_
    · show Except.ok (bufRead false n (norm i)) = _
      rw [(norm_bufRead n i).1]; rfl
    · split
      · exact ci_pure _
      · exact (ci_getReqs W r).bind fun l => ci_pure _

/-- the input, of which `bs` are all bits, has been consumed up to bit `pos` -/
structure At (bs : List Bool) (pos : Nat) (i : Inp) : Prop where
  err : ∃ e, i.inputError = some e
  small : Small i
  rest : vb i = bs.drop pos
  le : pos ≤ bs.length
  cnt : 8 * i.inTotal = pos + i.ibLen

theorem At.adv {bs : List Bool} {pos : Nat} {i i' : Inp} {b : List Bool} (h : At bs pos i) (ha : Adv i b i') : At bs (pos + b.length) i' := by
  have hb := ha.bits
  obtain ⟨⟨c, c1, c2, _⟩, e1, _⟩ := ha.step
  have hl := congrArg List.length hb
  have hr := congrArg List.length h.rest
  simp only [vb, List.length_append, natBits_length, bytesBits_length, c1, List.length_drop] at hl hr
  have hc := h.cnt
  have hle := h.le
  refine ⟨by rw [e1]; exact h.err, ha.small, ?_, by omega, by rw [c2]; omega⟩
  rw [h.rest] at hb
  rw [← List.drop_drop, hb, List.drop_left]

theorem At.pad {bs : List Bool} {pos : Nat} {i : Inp} (h : At bs pos i) : padLen pos = i.ibLen := by
  have := h.cnt
  have := h.small.len
  unfold padLen; omega

theorem getReqs_at {W : Nat} (hW : 8 ≤ W) {bs : List Bool} : ∀ (fs : List Req) {pos : Nat} {i : Inp}, (∀ n, .bits n ∈ fs → n ≤ W - 8) → At bs pos i →
    (∃ l p i', extract bs pos fs = some (l, p) ∧ getReqs W fs i = .ok (some l, i') ∧ At bs p i') ∨
    (∃ i', extract bs pos fs = none ∧ getReqs W fs i = .ok (none, i'))
  | [], pos, i, _, h => Or.inl ⟨[], pos, i, rfl, rfl, h⟩
  | .bits n :: r, pos, i, hf, h => by
    obtain ⟨e, he⟩ := h.err
    have hr := congrArg List.length h.rest
    simp only [List.length_drop] at hr
    unfold extract getReqs
    have hle := h.le
    rcases fillRead_eq (st := false) (hf n (by simp)) hW he h.small with ⟨h1, j, v, i', e1, e2, h2, h3⟩ | ⟨h1, i', e1, _⟩
    · rw [Go.bind_ok e1, if_pos (by omega)]
      simp only [Bool.not_true, Bool.false_eq_true, if_false]
      rw [Go.bind_ok e2]
      have ha := h.adv h3
      rw [natBits_length] at ha
      have hv : (bs.drop pos).take n = natBits n v := by
        rw [← h.rest, h3.bits, List.take_left' (by simp)]
      rcases getReqs_at hW r (fun m hm => hf m (by simp [hm])) ha with ⟨l, p, i2, g1, g2, g3⟩ | ⟨i2, g1, g2⟩
      · left
        refine ⟨natBits n v :: l, p, i2, by rw [g1, hv]; rfl, ?_, g3⟩
        rw [Go.bind_ok g2]; rfl
      · right
        exact ⟨i2, by rw [g1]; rfl, by rw [Go.bind_ok g2]; rfl⟩
    · right
      rw [Go.bind_ok e1, if_neg (by omega)]
      exact ⟨i', rfl, rfl⟩
  | .bytes n :: r, pos, i, hf, h => by
    obtain ⟨e, he⟩ := h.err
    have hr := congrArg List.length h.rest
    simp only [List.length_drop, vb, List.length_append, natBits_length, bytesBits_length] at hr
    have hp := h.pad
    have hle := h.le
    unfold extract getReqs
    simp only []
    have e1 : bytesReq n i = .ok ((i.buf.take n, decide (n ≤ i.buf.length)), takeIn (i.buf.take n) (i.buf.drop n) i) := by
      show Except.ok _ = _
      rw [bufRead_eq n he]; rfl
    rw [Go.bind_ok e1]
    by_cases hn : n ≤ i.buf.length
    · rw [if_pos (by rw [hp]; omega)]
      simp only [hn, decide_true, Bool.not_true, Bool.false_eq_true, if_false]
      have hadv := takeIn_adv (i := i) (List.take_append_drop n i.buf).symm
      have ha := h.adv hadv
      have hlen : (natBits i.ibLen i.ibBlock ++ bytesBits (i.buf.take n)).length = padLen pos + 8 * n := by
        simp [hp]; omega
      rw [hlen, ← Nat.add_assoc] at ha
      have hv : (bs.drop (pos + padLen pos)).take (8 * n) = bytesBits (i.buf.take n) := by
        rw [← List.drop_drop, ← h.rest, hadv.bits, List.append_assoc, List.drop_left' (by simp [hp]), List.take_left' (by simp; omega)]
      rcases getReqs_at hW r (fun m hm => hf m (by simp [hm])) ha with ⟨l, p, i2, g1, g2, g3⟩ | ⟨i2, g1, g2⟩
      · left
        refine ⟨bytesBits (i.buf.take n) :: l, p, i2, by rw [g1, hv]; rfl, ?_, g3⟩
        rw [Go.bind_ok g2]; rfl
      · right
        exact ⟨i2, by rw [g1]; rfl, by rw [Go.bind_ok g2]; rfl⟩
    · right
      rw [if_neg (by rw [hp]; omega)]
      simp only [hn, decide_false, Bool.not_false, if_true]
      exact ⟨_, trivial, rfl⟩

/-- **C49 (Reader).** On a 32 or 64 bit platform, for every source however it delivers its bytes and every sequence of requests (of at most 24
bits): the answers are exactly the consecutive bits of the source's bytes, least significant bit first, and the number of bytes
consumed is the least one which contains the bits asked for.  If there are too few bits, the Reader notices. -/
theorem C49_reader {W : Nat} (hW : W = 32 ∨ W = 64) (src : Src) {fs : List Req} (hf : ∀ n, .bits n ∈ fs → n ≤ 24) :
    (∃ l p i, extract (bytesBits src.bytes) 0 fs = some (l, p) ∧ getReqs W fs { src := src } = .ok (some l, i) ∧ i.inTotal = (p + 7) / 8) ∨
    (∃ i, extract (bytesBits src.bytes) 0 fs = none ∧ getReqs W fs { src := src } = .ok (none, i)) := by
  have hat : At (bytesBits src.bytes) 0 (norm { src := src }) := by
    refine ⟨⟨_, rfl⟩, ⟨by show 0 ≤ 7; omega, by show 0 < 1; omega⟩, ?_, by omega, rfl⟩
    simp [vb, norm]
  have hc := ci_getReqs W fs { src := src }
  rcases getReqs_at (W := W) (by omega) fs (fun n h => by have := hf n h; omega) hat with ⟨l, p, i', g1, g2, g3⟩ | ⟨i', g1, g2⟩
  · left
    rw [hc] at g2
    generalize getReqs W fs { src := src } = x at g2 ⊢
    rcases x with e | ⟨a, i⟩
    · cases g2
    · cases g2
      refine ⟨l, p, i, g1, rfl, ?_⟩
      have h1 := g3.cnt
      have h2 := g3.small.len
      have e1 : (norm i).inTotal = i.inTotal := rfl
      rw [e1] at h1
      omega
  · right
    rw [hc] at g2
    generalize getReqs W fs { src := src } = x at g2 ⊢
    rcases x with e | ⟨a, i⟩
    · cases g2
    · cases g2
      exact ⟨i, g1, rfl⟩

/-! ### the inverse of the Writer -/

/-- the requests which ask for what was put out (alignment is left to the next request for bytes) -/
def reqsOf : List Field → List Req
  | [] => []
  | .bits n _ :: r => .bits n :: reqsOf r
  | .align :: r => .bytes 0 :: reqsOf r
  | .bytes p :: r => .bytes p.length :: reqsOf r

/-- what should come back -/
def valsOf : List Field → List (List Bool)
  | [] => []
  | .bits n v :: r => natBits n v :: valsOf r
  | .align :: r => [] :: valsOf r
  | .bytes p :: r => bytesBits p :: valsOf r

theorem packed_prefix (fs : List Field) (acc : List Bool) : acc <+: packed acc fs := by
  rw [packed_cmds]; exact List.prefix_append _ _

theorem take_drop_prefix {a b l : List Bool} (h : (a ++ b) <+: l) : (l.drop a.length).take b.length = b ∧ a.length + b.length ≤ l.length := by
  obtain ⟨c, rfl⟩ := h
  simp

theorem extract_packed (fs : List Field) : ∀ (acc l : List Bool), packed acc fs <+: l → extract l acc.length (reqsOf fs) = some (valsOf fs, (packed acc fs).length) := by
  induction fs with
  | nil => intro acc l _; rfl
  | cons f fs ih =>
    intro acc l h
    cases f with
    | bits n v =>
      have h1 := take_drop_prefix ((packed_prefix fs (acc ++ natBits n v)).trans h)
      have h2 := ih (acc ++ natBits n v) l h
      rw [natBits_length] at h1
      rw [List.length_append, natBits_length] at h2
      simp only [reqsOf, extract, valsOf, packed]
      rw [if_pos h1.2, h2, h1.1]; rfl
    | align =>
      have h0 := (packed_prefix fs (acc ++ List.replicate (padLen acc.length) false)).trans h
      have h1 := h0.length_le
      have h2 := ih (acc ++ List.replicate (padLen acc.length) false) l h
      rw [List.length_append, List.length_replicate] at h1 h2
      simp only [reqsOf, extract, valsOf, packed]
      rw [if_pos (by omega), Nat.mul_zero, Nat.add_zero, h2]; rfl
    | bytes p =>
      have h1 := take_drop_prefix ((packed_prefix fs (acc ++ List.replicate (padLen acc.length) false ++ bytesBits p)).trans h)
      have h2 := ih (acc ++ List.replicate (padLen acc.length) false ++ bytesBits p) l h
      simp only [List.length_append, List.length_replicate, bytesBits_length] at h1 h2
      simp only [reqsOf, extract, valsOf, packed]
      rw [if_pos (by omega), h2, h1.1]; rfl

/-- **C49.** What a Writer puts out (on a reliable underlying writer which has received nothing before), a Reader gets back, on whatever
platforms, however the source cuts the bytes in pieces and whatever follows them; and it consumes no byte more. -/
theorem C49_inverse {s : WState} (hi : WInv s) (hr : Reliable s) (h0 : s.obLen = 0) (he : s.sink.out = []) {W : Nat} (hW : W = 32 ∨ W = 64)
    {fs : List Field} (hf : ∀ n v, .bits n v ∈ fs → n ≤ 24) (src : Src) {t : WState} (hp : putFields (fs ++ [.align]) s = .ok (true, t))
    (hsrc : t.sink.out <+: src.bytes) :
    ∃ i, getReqs W (reqsOf fs) { src := src } = .ok (some (valsOf fs), i) ∧ i.inTotal = t.sink.out.length := by
  obtain ⟨t', left, h1, h2, _, h4⟩ := C49_writer hi hr h0 (fs := fs ++ [.align]) fun n v h => by
    have := ge32 hi.hW
    have := hf n v (by simpa using h)
    omega
  rw [hp] at h1
  cases h1
  rw [h4 fs [] (Or.inl rfl), he, List.append_nil] at h2
  have happ : ∀ (fs : List Field) (acc : List Bool), packed acc (fs ++ [.align]) = packed acc fs ++ List.replicate (padLen (packed acc fs).length) false := by
    intro fs
    induction fs with
    | nil => intro acc; rfl
    | cons f fs ih => intro acc; cases f <;> exact ih _
  have hbb : bytesBits ([] : List UInt8) = [] := rfl
  rw [happ, hbb] at h2
  have hpre : packed [] fs <+: bytesBits src.bytes := by
    obtain ⟨x, hx⟩ := hsrc
    rw [← hx, bytesBits_append, h2, List.append_assoc]
    exact List.prefix_append _ _
  have hx := extract_packed fs [] _ hpre
  rcases C49_reader hW src (fs := reqsOf fs) (by
    have : ∀ fs : List Field, ∀ n, .bits n ∈ reqsOf fs → ∃ v, .bits n v ∈ fs := by
      intro fs
      induction fs with
      | nil => intro n h; cases h
      | cons f fs ih =>
        intro n h
        cases f with
        | bits m v =>
          simp only [reqsOf, List.mem_cons, Req.bits.injEq] at h
          rcases h with rfl | h
          · exact ⟨v, by simp⟩
          · obtain ⟨w, hw⟩ := ih n h; exact ⟨w, by simp [hw]⟩
        | align =>
          simp only [reqsOf, List.mem_cons, reduceCtorEq, false_or] at h
          obtain ⟨w, hw⟩ := ih n h; exact ⟨w, by simp [hw]⟩
        | bytes p =>
          simp only [reqsOf, List.mem_cons, reduceCtorEq, false_or] at h
          obtain ⟨w, hw⟩ := ih n h; exact ⟨w, by simp [hw]⟩
    intro n h
    obtain ⟨v, hv⟩ := this fs n h
    exact hf n v hv) with ⟨l, p, i, g1, g2, g3⟩ | ⟨i, g1, _⟩
  · rw [show (0 : Nat) = ([] : List Bool).length from rfl, hx] at g1
    cases g1
    refine ⟨i, g2, ?_⟩
    rw [g3]
    have hl := congrArg List.length h2
    simp only [bytesBits_length, List.length_append, List.length_replicate] at hl
    have h8 := padLen_spec (packed [] fs).length
    have h9 := padLen_lt (packed [] fs).length
    omega
  · rw [show (0 : Nat) = ([] : List Bool).length from rfl, hx] at g1
    cases g1

/-- the demonstration Writer meets the hypotheses about the Writer -/
example : WInv wit.start ∧ Reliable wit.start ∧ wit.start.obLen = 0 ∧ wit.start.sink.out = [] := ⟨wit_ok.fresh.inv, fun _ => rfl, rfl, rfl⟩

/-- three fields, read from a source which delivers a byte at a time -/
example : extract (bytesBits [0xd5, 0x03, 0x41]) 0 [.bits 3, .bits 7, .bytes 1] = some ([natBits 3 5, natBits 7 122, natBits 8 0x41], 24) := by decide +kernel

end Flate.Props
