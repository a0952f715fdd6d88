/-
Bounded delay of a Writer: C75.
-/
import Verif.Props.WriterShape

namespace Flate.Props
open Flate.Spec Flate.Model Flate.Proof

/-- A Writer with these options holds back less than this many bytes: the size `2^(mlevel+8)` of its buffer,
but not more than 61440, or 4096 if it compresses. -/
def maxHeld (o : Options) : Nat := min (2 ^ (o.mlevel + 8)) (if o.clevel = 0 then 61440 else 4096)

theorem room_held {c : Setup} {s : WState} (ho : s.o = c.o) (hl : s.lz.opts = c.start.lz.opts) : room s = maxHeld c.o := by
  have hb : (hybridOptions c.o).bufBits = c.o.mlevel + 8 := by
    unfold hybridOptions
    cases c.o.strategy <;> rfl
  have hc : s.lz.cap = 2 ^ (c.o.mlevel + 8) := by
    rw [← hb]; unfold LZ.cap; rw [hl]; rfl
  unfold room maxHeld usesStore storedBlockSize
  rw [hc, ho]
  by_cases h : c.o.clevel = 0
  · simp only [h, if_true]; simp
  · rw [if_neg h, if_neg (by simpa using h)]

/-- **C75.** At any time while a stream is open, what the underlying writer has received, with fewer bits than a machine word has,
is the streams finished so far, the header, and complete blocks encoding everything written to the stream except for
fewer than `maxHeld` bytes. -/
theorem C75_held {c : Setup} (h : c.OK) {ops : List WOp} (hc : WOp.close ∉ ops) {rs : List WRes} {t : WState}
    (hr : c.Runs ops rs t) (he : NoErr rs) {d : List UInt8} (hd : (segsOf ops).cur = some d) :
    ∃ e held bytes hdr bs left, d = e ++ held ∧ held.length < maxHeld c.o ∧
      bytesBits t.sink.out ++ left = bytesBits (c.sink.out ++ bytes ++ hdr) ++ bs ∧ left.length < c.W ∧
      StreamsOf (Stream c.ok (2 ^ c.o.wbits) c.o.dict (container c.o.format)) bytes (segsOf ops).done ∧
      HeaderOf (2 ^ c.o.wbits) c.o.dict (container c.o.format) hdr ∧
      Blocks (BlockEnc c.ok (2 ^ c.o.wbits)) 0 (c.o.dict.getD []) bs (c.o.dict.getD [] ++ e) := by
  obtain ⟨hd', bytes, es, k, hh, hl, hcur, hk, hst, hs, ho, hsum⟩ :=
    cur_open h (h.any True) (fun _ _ _ => trivial) hc hr he hd
  obtain ⟨bs, cc, v1, v2, v3, v4⟩ := ho
  refine ⟨cc, t.lz.buf, bytes, headerBytes c.o hd', bs, natBits t.obLen t.obBlock, v4, ?_, ?_, ?_, hs, headerBytes_of h.full hk, v2⟩
  · rw [← room_held hh.o hh.lzopts]; exact hl.cap
  · rw [← v1, view, out_pushed hl.inv]
  · rw [natBits_length]
    have hW : t.W = c.W := hh.W
    rw [← hW]; exact hl.inv.lt

example : ∃ rs t, (demo [.format .zlib, .mlevel 1]).Runs [.write [1, 2], .flush .finishFlush, .write [3, 3, 3], .write [4]] rs t ∧ NoErr rs :=
  (demo_ok (by decide)).run_ok (Or.inr (by decide)) (demo_sink _) (by simp)
example : (segsOf [.write [1, 2], .flush .finishFlush, .write [3, 3, 3], .write [4]]).cur = some [3, 3, 3, 4] := rfl

/-! the bound is exact: with memory level 1 (a buffer of 512 bytes), 511 bytes are held back completely and 512 bytes not at all -/

def delayed : Setup := ⟨refLib, 64, fun _ => none, {}, [.format .zlib, .clevel 0, .mlevel 1]⟩
theorem delayed_ok : delayed.OK := ⟨refLib_lawful, Or.inr rfl, by decide⟩

/-- **C75**, exact: at memory level 1, of a first `Write` of 511 bytes nothing but the header is passed on, and of a first `Write` of 512
bytes everything. -/
theorem C75_exact : delayed.OK ∧ maxHeld delayed.o = 512 ∧
    (∃ t, delayed.Runs [.write (List.replicate 511 7)] [.write 511 none] t ∧ t.sink.out = [0x78, 0x01]) ∧
    ∃ t, delayed.Runs [.write (List.replicate 512 7)] [.write 512 none] t ∧
      t.sink.out = [0x78, 0x01, 0x00, 0x00, 0x02, 0xff, 0xfd] ++ List.replicate 512 7 := by
  refine ⟨delayed_ok, by decide, ?_, ?_⟩
  · have : (delayed.eval [.write (List.replicate 511 7)]).map (fun x => (x.1, x.2.1)) =
        some ([.write 511 none], [0x78, 0x01]) := by decide +kernel
    obtain ⟨⟨a, b, ks⟩, h1, h2⟩ := Option.map_eq_some_iff.1 this
    cases h2
    obtain ⟨t, r, e, _⟩ := Setup.eval_runs h1
    exact ⟨t, r, e⟩
  · have : (delayed.eval [.write (List.replicate 512 7)]).map (fun x => (x.1, x.2.1)) =
        some ([.write 512 none], [0x78, 0x01, 0x00, 0x00, 0x02, 0xff, 0xfd] ++ List.replicate 512 7) := by decide +kernel
    obtain ⟨⟨a, b, ks⟩, h1, h2⟩ := Option.map_eq_some_iff.1 this
    cases h2
    obtain ⟨t, r, e, _⟩ := Setup.eval_runs h1
    exact ⟨t, r, e⟩

end Flate.Props
