/-
The size of a Writer's output: C77.
-/
import Verif.Proof.WSize
import Verif.Props.WriterDelay
import Verif.Props.WriterHeader
import Verif.Props.WriterEvents

namespace Flate.Props
open Flate.Spec Flate.Model Flate.Proof

/-- how long the header of a stream is -/
def headLen (o : Options) (h : Header) : Nat :=
  match o.format with
  | .zlib => 2 + (if o.dict = none then 0 else 4)
  | .gzip => 12 + (if h.extra = [] then 0 else 2 + (h.extra.map fun r => 4 + r.bytes.length).sum) +
      (if h.fileName = [] then 0 else h.fileName.length + 1) + (if h.comment = [] then 0 else h.comment.length + 1)
  | _ => 0

/-- how long the footer of a stream is -/
def footLen (o : Options) : Nat :=
  match o.format with
  | .zlib => 4
  | .gzip => 8
  | _ => 0

/-- headers and footers of the streams of a history -/
def framing (o : Options) (a : Abs) : Nat :=
  (a.done.map fun x => headLen o x.1 + footLen o).sum + (match a.cur with | none => 0 | some x => headLen o x.1)

/-- how many blocks carry data, at most, if `n` bytes are written: each holds at least `maxHeld` bytes, except that at level 0 a buffer
of more than 61440 bytes may take two -/
def dataBlocks (o : Options) (n : Nat) : Nat := (if o.clevel = 0 ∧ 8 ≤ o.mlevel then 2 else 1) * n / maxHeld o

theorem headLen_eq (o : Options) (h : Header) : (headerBytes o h).length = headLen o h := by
  unfold headerBytes headLen
  cases o.format with
  | raw => rfl
  | default => rfl
  | zlib =>
    dsimp only
    unfold zlibHeaderBytes
    cases o.dict <;> simp
  | gzip =>
    dsimp only
    unfold GzHeader.bytes GzHeader.main gzHd
    simp only [List.length_append, leBytes_length, List.length_cons, List.length_nil, if_true]
    by_cases h1 : h.extra = [] <;> by_cases h2 : h.fileName = [] <;> by_cases h3 : h.comment = [] <;>
      simp [h1, h2, h3, extraLen] <;> omega

theorem footLen_eq (o : Options) (d : List UInt8) : (footerBytes o d).length = footLen o := by
  unfold footerBytes footLen
  cases o.format <;> simp

theorem frames_eq (o : Options) (a : Abs) : frames o a = framing o a := by
  unfold frames framing
  simp only [headLen_eq, footLen_eq]
  cases a.cur <;> rfl

theorem blocksPer_start (c : Setup) : blocksPer c.start = if c.o.clevel = 0 ∧ 8 ≤ c.o.mlevel then 2 else 1 := by
  have hb : (hybridOptions c.o).bufBits = c.o.mlevel + 8 := by
    unfold hybridOptions
    cases c.o.strategy <;> rfl
  have hc : c.start.lz.cap = 2 ^ (c.o.mlevel + 8) := by
    rw [← hb]; rfl
  have hu : usesStore c.start.o = true ↔ c.o.clevel = 0 := by
    rw [c.start_o]; unfold usesStore; simp
  have h8 : 61440 < c.start.lz.cap ↔ 8 ≤ c.o.mlevel := by
    rw [hc]
    constructor
    · intro h
      by_cases h7 : c.o.mlevel + 8 ≤ 15
      · have : 2 ^ (c.o.mlevel + 8) ≤ 2 ^ 15 := Nat.pow_le_pow_right (by omega) h7
        omega
      · omega
    · intro h
      have : 2 ^ 16 ≤ 2 ^ (c.o.mlevel + 8) := Nat.pow_le_pow_right (by omega) (by omega)
      omega
  unfold blocksPer
  simp only [hu, h8]

theorem maxHeld_pos (o : Options) : 0 < maxHeld o := by
  unfold maxHeld
  have : 0 < 2 ^ (o.mlevel + 8) := Nat.pow_pos (by omega)
  split <;> omega

/-- from the Writer's accounts to bytes -/
theorem size_of {c : Setup} {t : WState} {k z n f : Nat} (hin : t.inTotal ≤ n) (hp : Paid c.start t k z)
    (hk : k * room c.start + blocksPer c.start * c.start.inTotal ≤ blocksPer c.start * t.inTotal + 2 * f * room c.start) :
    (pushed t).length ≤ c.sink.out.length + z + n + 42 * (dataBlocks c.o n + 2 * f) / 8 := by
  have h0 : c.start.inTotal = 0 := rfl
  have hv0 : (view c.start).length = 8 * c.sink.out.length := by
    rw [view_zero rfl, bytesBits_length]
    show 8 * (c.sink.out ++ []).length = _
    rw [List.append_nil]
  have hvt : 8 * (pushed t).length ≤ (view t).length := by
    unfold view; rw [List.length_append, bytesBits_length]; omega
  rw [room_held (c := c) rfl rfl, h0, Nat.mul_zero, Nat.add_zero, blocksPer_start c] at hk
  have hm := maxHeld_pos c.o
  have hkb : k ≤ dataBlocks c.o n + 2 * f := by
    unfold dataBlocks
    have h1 := Nat.mul_le_mul_left (if c.o.clevel = 0 ∧ 8 ≤ c.o.mlevel then 2 else 1) hin
    rw [← Nat.add_mul_div_right _ _ hm, Nat.le_div_iff_mul_le hm]
    omega
  have h42 := Nat.mul_le_mul_left 42 hkb
  unfold Paid at hp
  omega

/-- **C77**, while the Writer is in use: what it has passed on is not longer than the headers and footers, the data, and 42 bits for
each block, of which there are at most `dataBlocks` for the data and two for every `Flush`. -/
theorem C77_so_far {c : Setup} (h : c.OK) {ops : List WOp} (hc : WOp.close ∉ ops) {rs : List WRes} {t : WState}
    (hr : c.Runs ops rs t) (he : NoErr rs) :
    t.sink.out.length ≤ c.sink.out.length + framing c.o (absOf c.cfg ops) + (writtenData ops).length +
      42 * (dataBlocks c.o (writtenData ops).length + 2 * flushes ops) / 8 := by
  obtain ⟨es, x, hh, hl, _, _, hx⟩ := run_good h.lawful ops (h.live _) (h.any True) (fun _ _ _ => trivial) hc hr he
  obtain ⟨k, z, hz, hp, hk⟩ := run_paid h.lawful ops (h.live _) (h.any True) (fun _ _ _ => trivial) hc hr he
  rw [frames_eq, frames_eq, c.cfg_eq, c.start_o] at hz
  have hin : t.inTotal ≤ (writtenData ops).length := by
    have h1 := hh.tin
    have h2 : c.start.inTotal = 0 := rfl
    have h3 : c.start.lz.buf = [] := rfl
    rw [h2, h3, hx, offered_eq] at h1
    simp only [List.length_nil] at h1
    omega
  have := size_of hin hp hk
  rw [← out_pushed hl.inv]
  have hz' : framing c.o (absOf c.cfg ops) = z := hz.trans (Nat.zero_add _)
  rw [hz']
  exact this

/-- **C77.** All output of a Writer, from `NewWriter` to `Close`, is not longer than the headers and footers of its streams, the data,
and 42 bits for each block, of which there are at most `dataBlocks` for the data and two for every `Flush` and for `Close`. -/
theorem C77_closed {c : Setup} (h : c.OK) {ops : List WOp} (hc : WOp.close ∉ ops) {rs : List WRes} {t : WState}
    (hr : c.Runs (ops ++ [.close]) rs t) (he : NoErr rs) :
    t.sink.out.length ≤ c.sink.out.length + framing c.o (absOf c.cfg (ops ++ [.close])) + (writtenData ops).length +
      42 * (dataBlocks c.o (writtenData ops).length + 2 * (flushes ops + 1)) / 8 := by
  obtain ⟨rs1, u, rs2, h1, h2, rfl⟩ := run_append_inv hr
  have he1 : NoErr rs1 := fun r hx => he r (by simp [hx])
  obtain ⟨es, x, hh, hl, _, _, hx⟩ := run_good h.lawful ops (h.live _) (h.any True) (fun _ _ _ => trivial) hc h1 he1
  obtain ⟨k, z, hz, hp, hk⟩ := run_paid h.lawful ops (h.live _) (h.any True) (fun _ _ _ => trivial) hc h1 he1
  obtain ⟨r, v, rs', h3, h4, rfl⟩ := run_cons_inv h2
  cases h4
  have hE : BlockOK c.L u.o u.lz.maxDist True _ := (h.any True).hist hh
  obtain ⟨k', z', hz', hp', hk'⟩ := stepOp_paid h.lawful hl hE (fun _ => trivial) h3 (he r (by simp))
  rcases stepOp_live h.lawful hl hE .close (fun _ => trivial) with ⟨e, _⟩ | ⟨r', u', es', x', e, hh', ok, _, _, _, hx'⟩
  · rw [h3] at e; cases e
  rw [h3] at e
  cases e
  obtain ⟨_, _, hcl, _⟩ := ok (he r (by simp))
  have hcl := hcl rfl
  have hin : t.inTotal ≤ (writtenData ops).length := by
    have h1 := (hh.trans hh').tin
    have h2 : c.start.inTotal = 0 := rfl
    have h3 : c.start.lz.buf = [] := rfl
    rw [h2, h3, hx, hx' (he r (by simp)), offered_eq] at h1
    simp only [List.length_nil, List.length_append, opData] at h1
    omega
  rw [cfg_hist hh, hh.o, hz, frames_eq, frames_eq, c.cfg_eq, c.start_o] at hz'
  rw [room_hist hh, blocksPer_congr hh.o hh.lzopts] at hk'
  have hf1 : flushes [.close] = 1 := rfl
  have := size_of (f := flushes ops + 1) hin (hp.trans hp') (by
    rw [hf1] at hk'
    rw [Nat.add_mul, Nat.mul_add, Nat.add_mul]
    omega)
  rw [← out_pushed hcl.inv]
  have hz2 : framing c.o (absOf c.cfg (ops ++ [.close])) = z + z' := by
    unfold absOf
    rw [List.foldl_append]
    refine hz'.trans ?_
    show 0 + z + z' = _
    omega
  rw [hz2]
  exact this

/-! concrete cases: `zlib` at memory level 1 and level 0, where a block holds 512 bytes -/

example : ∃ rs t, (demo [.format .zlib, .mlevel 1]).Runs ([.write [1, 2], .flush .syncFlush, .write [3, 3, 3]] ++ [.close]) rs t ∧ NoErr rs :=
  (demo_ok (by decide)).run_close_ok (Or.inr (by decide)) (demo_sink _) (by simp)

/-- one non-empty `Write` and `Close`: one stream -/
theorem one_stream (cf : AbsCfg) {p : List UInt8} (hp : p ≠ []) :
    (absOf cf ([.write p] ++ [.close])).cur = none ∧ ∃ x, (absOf cf ([.write p] ++ [.close])).done = [x] := by
  refine ⟨finish_cur _ _, (newHeader cf.wbits cf.clevel {} (p.take cf.look), p), ?_⟩
  simp only [absOf, List.cons_append, List.nil_append, List.foldl_cons, List.foldl_nil, Abs.step, if_neg hp, Abs.finish]

/-- **C77**, a case near the bound: 512 bytes become 528, and the bound is 533. -/
theorem C77_near : delayed.OK ∧ (∃ t, delayed.Runs ([.write (List.replicate 512 7)] ++ [.close]) [.write 512 none, .close none] t ∧
      t.sink.out.length = 528) ∧
    0 + framing delayed.o (absOf delayed.cfg ([.write (List.replicate 512 7)] ++ [.close])) + 512 +
      42 * (dataBlocks delayed.o 512 + 2 * (flushes [.write (List.replicate 512 7)] + 1)) / 8 = 533 := by
  refine ⟨delayed_ok, ?_, ?_⟩
  · have : (delayed.eval ([.write (List.replicate 512 7)] ++ [.close])).map (fun x => (x.1, x.2.1.length)) =
        some ([.write 512 none, .close none], 528) := by decide +kernel
    obtain ⟨⟨a, b, ks⟩, h1, h2⟩ := Option.map_eq_some_iff.1 this
    obtain ⟨t, r, e, _⟩ := Setup.eval_runs h1
    simp only [Prod.mk.injEq] at h2
    obtain ⟨h2, h3⟩ := h2
    rw [h2] at r
    exact ⟨t, r, by rw [e]; exact h3⟩
  · have hfr : framing delayed.o (absOf delayed.cfg ([.write (List.replicate 512 7)] ++ [.close])) = 6 := by
      obtain ⟨h1, x, h2⟩ := one_stream delayed.cfg (p := List.replicate 512 7) (by decide)
      unfold framing
      rw [h1, h2]
      rfl
    rw [hfr]
    decide +kernel

end Flate.Props
