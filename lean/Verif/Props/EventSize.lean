/-
C99: what a Reader has to hold of its input.
-/
import Verif.Props.BlockEvents
import Verif.Props.ReaderHeader
import Verif.Props.ReadExamples

namespace Flate.Props
open Flate.Spec Flate.Model Flate.Model.Rd Flate.Proof Flate.Proof.R

theorem extraRecs_size : ∀ l : List ((UInt8 × UInt8) × List UInt8), (extraRecs l).length = (l.map fun r => r.2.length + 4).sum
  | [] => rfl
  | ((a, b), d) :: r => by
    simp only [extraRecs, List.length_append, List.map_cons, List.sum_cons, extraRecs_size r, leBytes_length, List.length_cons, List.length_nil]
    omega

/-- **C99 (what is bounded).** In every event of every run, whatever the input: extra data take up at most 65535 bytes, the code lengths are at most 19, 288 and 32 numbers; the name and the comment
of a gzip header are the only parts without a limit of their own, and together are shorter than the part of the input which belongs to the header. -/
theorem C99_partial {c : RSetup} (h : c.OK) {src : Src} {stop : Nat → Option Nat} {closed : Bool} {s : RState}
    (hr : readThread (c.envStop stop) (start src closed) = .ok ((), s)) {e : Event} (he : e ∈ s.events) :
    (∀ hd, e.kind = .streamHeader hd → (hd.extra.map fun r => r.bytes.length + 4).sum ≤ 65535 ∧ hd.fileName.length + hd.comment.length ≤ e.inStream) ∧
    (∀ t f tr, e.kind = .blockTrees t f tr → tr.codeSizes.length ≤ 19 ∧ tr.ll.length ≤ 288 ∧ tr.d.length ≤ 32) := by
  refine ⟨fun hd hk => ?_, fun t f tr hk => ?_⟩
  · obtain ⟨h1, h2, k, _, _, _, hs⟩ := C59_header h hr he hk
    have hlen : ((src.bytes.take e.inTotal).drop (e.inTotal - e.inStream)).length = e.inStream := by
      rw [List.length_drop, List.length_take]; omega
    cases k with
    | raw => rw [show hd = { compressLevel := -1 } from hs]; exact ⟨Nat.zero_le _, Nat.zero_le _⟩
    | zlib =>
      obtain ⟨_, _, _, _, rfl⟩ := hs
      exact ⟨Nat.zero_le _, Nat.zero_le _⟩
    | gzip =>
      obtain ⟨g, hv, hb, hg⟩ := hs
      constructor
      · cases hx : g.extra with
        | none => rw [hg.noExtra hx]; exact Nat.zero_le _
        | some x =>
          obtain ⟨stray, _, h4⟩ := hg.extra x hx
          have h5 := hv.2.1 x hx
          rw [h4, List.length_append, extraRecs_size, List.map_map] at h5
          have : ((fun r => r.2.length + 4) ∘ fun r : ExtraRec => ((r.id0, r.id1), r.bytes)) = fun r => r.bytes.length + 4 := rfl
          rw [this] at h5
          omega
      · rw [hb] at hlen
        rw [← hlen, hg.name, hg.comment]
        unfold GzHeader.bytes GzHeader.main
        cases g.name <;> cases g.comment <;> simp <;> omega
  · obtain ⟨p, b, _, ht, _⟩ := C68_trees h hr he hk
    cases ht with
    | static => exact ⟨Nat.zero_le _, by decide +kernel, by decide +kernel⟩
    | dynamic hd hl =>
      obtain ⟨_, a2, _, a4, _, _, a7, _, _, _, _, a12, _⟩ := hl
      refine ⟨by show hd.cl.length ≤ 19; rw [a7], ?_, ?_⟩
      · show (padTo 288 _).length ≤ _
        unfold padTo
        simp
        omega
      · show (padTo 32 _).length ≤ _
        unfold padTo
        simp
        omega

/-- a gzip stream with this name, whose data is empty -/
def longNameGz (name : List UInt8) : List UInt8 :=
  (GzHeader.mk false false 0 0 255 none (some name) none).bytes ++ storedRaw [] ++ leBytes 4 (crc32 []).toNat ++ leBytes 4 (([] : List UInt8).length % 2 ^ 32)

/-- **C99 fails.** Whatever the options: for every name, however long, there is a valid gzip stream, with which the Reader sends an event with the whole of this name, and delivers no data at all. -/
theorem C99_fails {c : RSetup} (h : c.OK) (hf : c.o.format = .gzip) (name : List UInt8) (h0 : 0 ∉ name) :
    ∃ (s : RState) (hd : Header), c.Stream .gzip (longNameGz name) [] ∧ c.Runs ⟨[], longNameGz name, .eof⟩ s ∧ EvKind.streamHeader hd ∈ s.events.map (·.kind) ∧ hd.fileName = name ∧
      actData s.out.acts = [] := by
  have hv : (GzHeader.mk false false 0 0 255 none (some name) none).Valid := ⟨by show 0 < 2 ^ 32; decide, by simp, fun n hn => by cases hn; exact h0, by simp⟩
  have hS : c.Stream .gzip (longNameGz name) [] := ⟨_, by simp, storedRaw [], hv, storedRaw_deflate (by decide) _ _, rfl⟩
  have ht : detect c.env.o.format (Src.first ⟨[], longNameGz name, .eof⟩) = .gzip := by show detect c.o.format _ = _; rw [hf]; exact detect_fmtOf .gzip _
  obtain ⟨s, ds, it, q1, q2, q3, ⟨_, ⟨hdr, q4, q5⟩, q6⟩, q7, q8, q9, q10⟩ := read_stream h ht hS (src := ⟨[], longNameGz name, .eof⟩) rfl
  rw [q9] at q5
  obtain ⟨g', g1, g2, g3, g4⟩ := q5
  obtain ⟨x, hx⟩ := q4
  have hrep : gzReport g' = gzReport (GzHeader.mk false false 0 0 255 none (some name) none) := by
    refine gz_report_unique g1 g2 (by simp) hv (r := x) (r' := storedRaw [] ++ leBytes 4 (crc32 []).toNat ++ leBytes 4 (([] : List UInt8).length % 2 ^ 32)) ?_
    rw [← g3, hx, q7]; unfold longNameGz; simp
  obtain ⟨bks, a, cc, _, _, _, b4⟩ := q6
  refine ⟨s, it.h, hS, q1, ?_, by rw [g4, hrep]; rfl, ?_⟩
  · show _ ∈ kinds s
    rw [q10, b4]; simp
  · rw [q2]
    have : ∀ l : List (List UInt8), actData (l.map Act.data ++ [.err .eof]) = l.flatten := fun l => by
      induction l with
      | nil => rfl
      | cons a l ih => simp_all [actData]
    rw [this, q3]

/-- a name of a million bytes, with the smallest buffers -/
example : ∃ (s : RState) (hd : Header), EvKind.streamHeader hd ∈ s.events.map (·.kind) ∧ hd.fileName.length = 1000000 := by
  obtain ⟨s, hd, _, _, h1, h2, _⟩ := C99_fails (c := rdemo [.format .gzip, .mlevel 1, .wbits 8]) (rdemo_ok (by decide)) rfl (List.replicate 1000000 97) (fun h => absurd (List.eq_of_mem_replicate h) (by decide))
  exact ⟨s, hd, h1, by rw [h2, List.length_replicate]⟩

end Flate.Props
