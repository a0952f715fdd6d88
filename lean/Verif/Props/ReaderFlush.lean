/-
What a Reader makes of the output of a Writer which was flushed but not closed: C61.
-/
import Verif.Proof.RFlush
import Verif.Props.WriterFlush
import Verif.Props.RoundTrip

namespace Flate.Props
open Flate.Spec Flate.Model Flate.Model.Rd Flate.Proof Flate.Proof.R

/-- the data which the actions deliver before the first error is reported -/
def dataBefore : List Act → List UInt8
  | .data d :: as => d ++ dataBefore as
  | _ => []

theorem before_data (ds : List (List UInt8)) (e : Err) (post : List Act) : dataBefore (ds.map Act.data ++ .err e :: post) = ds.flatten := by
  induction ds with
  | nil => rfl
  | cons d ds ih => simp [dataBefore, ih]

theorem blocks_empty {E : BlockRel} (hE : ∀ pos f h b h', E pos f h b h' → b ≠ []) {pos : Nat} {h h' : List UInt8} {b : List Bool} (hb : Blocks E pos h b h') (h0 : b = []) : h' = h := by
  cases hb with
  | nil => rfl
  | cons h1 _ => exact absurd (List.append_eq_nil_iff.1 h0).1 (hE _ _ _ _ _ h1)

theorem blockEnc_ne {ok : List Nat → Prop} {w pos : Nat} {f : Bool} {h : List UInt8} {b : List Bool} {h' : List UInt8} (e : BlockEnc ok w pos f h b h') : b ≠ [] := by
  cases e <;> simp

/-- **C61 (what holds).** After a successful `SyncFlush` or `FullFlush`, a Reader to which exactly the bytes received by the underlying writer are presented delivers everything written
so far; then the error with which its source ends (`io.ErrUnexpectedEOF` for `io.EOF`) is reported.  But up to `2 ^ (MemoryLevel + 6)` bytes of the data are delivered only after the
source has ended, not before: see `C61_fails`. -/
theorem C61_partial {c : Setup} (h : c.OK) {ops : List WOp} (hc : WOp.close ∉ ops) {ft : FlushType} (hft : ft = .syncFlush ∨ ft = .fullFlush) {rs : List WRes} {t : WState}
    (hr : c.Runs (ops ++ [.flush ft]) rs t) (he : NoErr rs) {d : List UInt8} (hd : (segsOf ops).cur = some d) (hdone : (segsOf ops).done = []) (h1 : d ≠ [])
    (h0 : c.sink.out = []) {r : RSetup} (hok : r.OK) (hs : Suits c r) {src : Src} (hsrc : src.bytes = t.sink.out) :
    ∃ s : RState, r.Runs src s ∧ actData s.out.acts = d ∧ actErr s.out.acts = some (if src.err = .eof then .unexpectedEOF else src.err) ∧
      d.length ≤ (dataBefore s.out.acts).length + 2 ^ (r.o.mlevel + 6) := by
  obtain ⟨bytes, hdr, body, k1, k2, k3, k4⟩ := C11_sync h hc hft hr he hd
  rw [hdone] at k2
  have hbytes : bytes = [] := by
    generalize hx : ([] : List (List UInt8)) = x at k2
    cases k2 with
    | nil => rfl
    | snoc _ _ => simp at hx
  subst hbytes
  rw [h0] at k1
  have hw := Nat.pow_le_pow_right (by decide : 0 < 2) hs.window
  have hb : src.bytes = hdr ++ body := by rw [hsrc, k1]; simp
  have hne : src.bytes ≠ [] := by
    rw [hb]
    intro hx
    have hbody := (List.append_eq_nil_iff.1 hx).2
    rw [hbody] at k4
    have := blocks_empty (fun _ _ _ _ _ => blockEnc_ne) k4 rfl
    exact h1 (by simpa using this)
  have hhd : HeaderOf (2 ^ r.o.wbits) r.o.dict (container c.o.format) hdr := by
    rw [hs.dict]
    revert k3
    cases container c.o.format with
    | raw => exact id
    | gzip => exact id
    | zlib => rintro ⟨ci, a, b⟩; exact ⟨ci, a, by omega⟩
  have hbl : Blocks (BlockEnc r.ok (2 ^ r.o.wbits)) 0 (r.o.dict.getD []) (bytesBits body) (r.o.dict.getD [] ++ d) := by
    rw [hs.dict]
    unfold RSetup.ok
    rw [hs.lib]
    exact blocks_imp (fun _ _ _ _ _ => blockEnc_win hw) k4
  obtain ⟨s, ds, db, e1, e2, e3, e4⟩ := run_cut hok.env (src := src) (c := container c.o.format) (RSetup.Takes.det (Or.inl hs.format)) hb hne hhd hbl
  refine ⟨s, e1, ?_, ?_, ?_⟩
  · rw [e2, ← e3]
    clear e2 e3
    induction ds with
    | nil => by_cases hx : db = [] <;> simp [hx, actData]
    | cons a ds ih => simp only [List.map_cons, List.cons_append, actData, ih, List.flatten_cons, List.append_assoc]
  · rw [e2]
    clear e2 e3
    induction ds with
    | nil => simp [actErr, propErr]
    | cons a ds ih => simpa [actErr] using ih
  · rw [e2, before_data, ← e3]
    simp only [List.length_append]
    have : db.length ≤ 2 ^ (r.o.mlevel + 6) := e4
    omega

/-- the hypotheses are met: see also `C61_fails`, whose Reader gets the output of a real session -/
example : ∃ rs t, (demo [.format .gzip, .mlevel 1]).Runs ([.write [1, 2], .flush .blockFlush, .write [3]] ++ [.flush .syncFlush]) rs t ∧ NoErr rs ∧
    (segsOf [.write [1, 2], .flush .blockFlush, .write [3]]).cur = some [1, 2, 3] ∧ (segsOf [.write [1, 2], .flush .blockFlush, .write [3]]).done = [] ∧
    Suits (demo [.format .gzip, .mlevel 1]) (rdemo [.format .gzip, .mlevel 3]) := by
  obtain ⟨rs, t, h1, h2⟩ := (demo_ok (opts := [.format .gzip, .mlevel 1]) (by decide)).run_ok (Or.inr (by decide)) (demo_sink _)
    (ops := [.write [1, 2], .flush .blockFlush, .write [3]] ++ [.flush .syncFlush]) (by simp)
  exact ⟨rs, t, h1, h2, by decide, by decide, rfl, by decide, by decide, by decide⟩

/-- a session which flushes 118 bytes: results are all nil, and the output -/
def flushedOut (x : Except Panic (List WRes × WState)) : Option (Bool × List UInt8) := match x with
  | .ok (rs, t) => some (rs.all fun r => r.err.isNone, t.sink.out)
  | .error _ => none

/-- 118 bytes in a stored block, then an empty stored block -/
def flushed118 : List UInt8 := [0, 118, 0, 137, 255] ++ List.replicate 118 65 ++ [0, 0, 0, 255, 255]

/-- **C61 is false**: a Writer has 118 bytes written and then flushed; the Reader is given all of the 128 bytes of output, which just fill its input buffer, before its source fails.  It
delivers none of the data before it asks the source for more: all is delivered only after the source's error.  (With a connection as the source, this is the point where the Reader waits
for ever if the other side, having flushed, waits for an answer.) -/
theorem C61_fails : ∃ (c : Setup) (r : RSetup) (rs : List WRes) (t : WState) (src : Src) (s : RState), c.OK ∧ r.OK ∧ Suits c r ∧
    c.Runs [.write (List.replicate 118 65), .flush .syncFlush] rs t ∧ NoErr rs ∧ src.bytes = t.sink.out ∧ r.Fills src ∧ r.Runs src s ∧ dataBefore s.out.acts = [] ∧
    actData s.out.acts = List.replicate 118 65 := by
  have h1 : flushedOut (runOps (demo [.format .raw, .clevel 0, .mlevel 1]).L [.write (List.replicate 118 65), .flush .syncFlush] (demo [.format .raw, .clevel 0, .mlevel 1]).start) =
    some (true, flushed118) := by decide +kernel
  have h2 : acts? (readThread (rdemo [.format .raw, .mlevel 1]).env (start ⟨[(0, flushed118.tail)], [], .io 5⟩ false)) =
    some [.err (.io 5), .data (List.replicate 118 65)] := by decide +kernel
  obtain ⟨s, r1, a1⟩ := acts?_some h2
  obtain ⟨rs, t, e1, e2, e3⟩ : ∃ rs t, (demo [.format .raw, .clevel 0, .mlevel 1]).Runs [.write (List.replicate 118 65), .flush .syncFlush] rs t ∧ NoErr rs ∧ t.sink.out = flushed118 := by
    unfold Setup.Runs
    revert h1
    generalize runOps _ _ _ = x
    intro h1
    rcases x with e | ⟨rs, t⟩
    · cases h1
    · simp only [flushedOut, Option.some.injEq, Prod.mk.injEq, List.all_eq_true, Option.isNone_iff_eq_none] at h1
      exact ⟨rs, t, rfl, h1.1, h1.2⟩
  refine ⟨_, _, rs, t, _, s, demo_ok (by decide), rdemo_ok (by decide), ⟨rfl, by decide, by decide, by decide⟩, e1, e2, ?_, ?_, r1, ?_, ?_⟩
  · rw [e3]; decide +kernel
  · constructor
    · decide +kernel
    · simp
  · rw [a1]; rfl
  · rw [a1]; simp [actData]

end Flate.Props
