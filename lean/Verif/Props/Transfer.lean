/-
Headers which a Reader reports and a Writer is given: C67.
-/
import Verif.Props.ReaderHeader
import Verif.Props.ReadExamples

namespace Flate.Props
open Flate.Spec Flate.Model Flate.Model.Rd Flate.Proof Flate.Proof.R

/-- What stands in the way of giving a Writer a header found in a stream: long names and comments, path separators, the last representable time. -/
structure Portable (h : Header) : Prop where
  name : h.fileName.length < 256
  comment : h.comment.length < 256
  path : (0x2f : UInt8) ∉ h.fileName ∧ (0x5c : UInt8) ∉ h.fileName
  time : h.lastModified ≠ some (2 ^ 32 - 1)

theorem extraRecs_length (rs : List ((UInt8 × UInt8) × List UInt8)) : (extraRecs rs).length = (rs.map fun r => 4 + r.2.length).sum := by
  induction rs with
  | nil => rfl
  | cons r rs ih =>
    obtain ⟨⟨a, b⟩, d⟩ := r
    simp only [extraRecs, List.length_append, ih, List.map_cons, List.sum_cons]
    simp [leBytes]

theorem le_sum {l : List Nat} {x : Nat} (h : x ∈ l) : x ≤ l.sum := by
  induction l with
  | nil => cases h
  | cons a l ih =>
    rw [List.sum_cons]
    rcases List.mem_cons.1 h with rfl | h
    · omega
    · have := ih h; omega

/-- for a header which was read, `SetHeader`'s conditions amount to `Portable` -/
theorem says_ok {k : Container} {hdr : List UInt8} {h : Header} (hs : HeaderSays k hdr h) : HeaderOK h ↔ Portable h := by
  constructor
  · intro hh
    refine ⟨hh.name, hh.comment, ⟨fun hx => (hh.nameChars _ hx).2.1 rfl, fun hx => (hh.nameChars _ hx).2.2 rfl⟩, fun ht => ?_⟩
    have := (hh.time _ ht).2
    omega
  · intro hp
    have hblank : ∀ (h : Header), h.fileName = [] → h.comment = [] → h.lastModified = none → h.osType = 0 → h.extra = [] → HeaderOK h := by
      intro h h1 h2 h3 h4 h5
      refine ⟨by simp [h1], by simp [h1], by simp [h2], by simp [h2], by simp [h3], by omega, by simp [h5], by simp [h5]⟩
    cases k with
    | raw => have hs : h = _ := hs; subst hs; exact hblank _ rfl rfl rfl rfl rfl
    | zlib =>
      obtain ⟨_, _, _, _, hs⟩ := hs
      subst hs; exact hblank _ rfl rfl rfl rfl rfl
    | gzip =>
      obtain ⟨g, ⟨v1, v2, v3, v4⟩, _, hs⟩ := hs
      have hx : (h.extra.map fun r => 4 + r.bytes.length).sum ≤ 65535 := by
        rcases hg : g.extra with _ | e
        · rw [hs.noExtra hg]; simp
        · obtain ⟨stray, _, he⟩ := hs.extra e hg
          have hl := congrArg List.length he
          have := v2 e hg
          rw [List.length_append, extraRecs_length, List.map_map] at hl
          have : ((fun r : (UInt8 × UInt8) × List UInt8 => 4 + r.2.length) ∘ fun r : ExtraRec => ((r.id0, r.id1), r.bytes)) = fun r => 4 + r.bytes.length := rfl
          rw [this] at hl
          omega
      refine ⟨hp.name, fun b hb => ⟨?_, ?_, ?_⟩, hp.comment, fun b hb => ?_, fun t ht => ?_, ?_, fun r hr => ?_, hx⟩
      · rintro rfl
        rw [hs.name] at hb
        rcases hg : g.name with _ | n
        · rw [hg] at hb; simp at hb
        · rw [hg] at hb; exact v3 n hg hb
      · rintro rfl; exact hp.path.1 hb
      · rintro rfl; exact hp.path.2 hb
      · rintro rfl
        rw [hs.comment] at hb
        rcases hg : g.comment with _ | n
        · rw [hg] at hb; simp at hb
        · rw [hg] at hb; exact v4 n hg hb
      · have hne := hp.time
        rw [hs.mtime] at ht hne
        split at ht
        · cases ht
        · rename_i h0
          rw [if_neg h0] at hne
          cases ht
          have : g.mtime ≠ 2 ^ 32 - 1 := by rintro e; apply hne; rw [e]; rfl
          omega
      · rw [hs.os]; split <;> omega
      · have := le_sum (List.mem_map_of_mem (f := fun r : ExtraRec => 4 + r.bytes.length) hr)
        omega

theorem runs_setHeader (c : Setup) (hd : Header) (rs : List WRes) (t : WState) : c.Runs [.setHeader hd] rs t ↔
    rs = [.header (headerOK hd)] ∧ t = if headerOK hd then { c.start with header := hd } else c.start := by
  have : runOps c.L [.setHeader hd] c.start = .ok ([.header (headerOK hd)], if headerOK hd then { c.start with header := hd } else c.start) := by
    simp only [runOps, stepOp, wSetHeader]
    cases headerOK hd <;> rfl
  unfold Setup.Runs
  rw [this]
  constructor
  · intro h; cases h; exact ⟨rfl, rfl⟩
  · rintro ⟨rfl, rfl⟩; rfl

/-- **C67 (what holds).** A header which a Reader reports, in any run, is accepted by a Writer's `SetHeader` if and only if the file name and the comment have fewer than 256
bytes, the name has no path separators and the time is not the last one of 32 bits; the other fields, the extra data in particular, are never a reason to reject it.
(The property itself is false: `C67_fails`.) -/
theorem C67_partial {r : RSetup} (h : r.OK) {src : Src} {stop : Nat → Option Nat} {closed : Bool} {s : RState}
    (hr : readThread (r.envStop stop) (start src closed) = .ok ((), s)) {e : Event} (he : e ∈ s.events) {hd : Header} (hk : e.kind = .streamHeader hd)
    {c : Setup} {rs : List WRes} {t : WState} (hw : c.Runs [.setHeader hd] rs t) : rs = [.header true] ↔ Portable hd := by
  obtain ⟨_, _, k, _, _, _, hs⟩ := C59_header h hr he hk
  rw [← says_ok hs, ← headerOK_iff]
  rw [runs_setHeader] at hw
  rw [hw.1]
  simp

/-- a gzip stream without content whose header has the file name `a/b` -/
def pathSrc : Src := ⟨[], [0x1f, 0x8b, 8, 8, 0, 0, 0, 0, 0, 3, 97, 47, 98, 0] ++ [1, 0, 0, 255, 255] ++ [0, 0, 0, 0, 0, 0, 0, 0], .eof⟩

/-- the run ends well and some header in it is not acceptable -/
def rejects (r : Except Panic (Unit × RState)) : Bool := match r with
  | .ok (_, s) => (actErr s.out.acts == some .eof) && s.events.any fun e => match e.kind with | .streamHeader h => !headerOK h | _ => false
  | .error _ => false

/-- **C67 is false**: copying a gzip stream's header fails for a valid stream (which is decompressed without complaint). -/
theorem C67_fails : ∃ (s : RState) (e : Event) (hd : Header) (rs : List WRes) (t : WState), (rdemo [.format .gzip]).Runs pathSrc s ∧ actErr s.out.acts = some .eof ∧ e ∈ s.events ∧
    e.kind = .streamHeader hd ∧ (demo [.format .gzip]).Runs [.setHeader hd] rs t ∧ rs = [.header false] := by
  have h : rejects (readThread (rdemo [.format .gzip]).env (start pathSrc false)) = true := by decide +kernel
  unfold RSetup.Runs
  rcases hx : readThread (rdemo [.format .gzip]).env (start pathSrc false) with p | ⟨u, s⟩
  · rw [hx] at h; cases h
  · rw [hx] at h
    simp only [rejects, Bool.and_eq_true, List.any_eq_true, beq_iff_eq] at h
    obtain ⟨h1, e, he, h2⟩ := h
    rcases hk : e.kind with _ | hd | _ | _ | _ | _ | _ <;> rw [hk] at h2 <;> try cases h2
    simp only [Bool.not_eq_true'] at h2
    exact ⟨s, e, hd, _, _, rfl, h1, he, hk, (runs_setHeader _ _ _ _).2 ⟨rfl, rfl⟩, by rw [h2]⟩

/-- the first header of a run, with the result of `SetHeader` -/
example : runHeaders (readThread (rdemo [.format .gzip]).env (start pathSrc false)) = some [({ fileName := [97, 47, 98], dataType := .binary, osType := 4, compressLevel := -1 }, 14, 14)] := by
  decide +kernel

/-- a portable header: `a/b` replaced by `b` -/
example : Portable { fileName := [98], dataType := .binary, osType := 4, compressLevel := -1 } := ⟨by decide, by decide, by decide, by decide⟩

end Flate.Props
