/-
C86: where the Reader says the input is corrupt.
-/
import Verif.Props.Reading
import Verif.Proof.RPosRun

namespace Flate.Props
open Flate.Spec Flate.Model Flate.Model.Rd Flate.Proof Flate.Proof.R

/-- The input `cur` does not begin with a complete valid stream of container format `k`. -/
def RSetup.NoneAt (c : RSetup) (k : Container) (cur : List UInt8) : Prop := ∀ S data r, c.Stream k S data → cur ≠ S ++ r

/-- The Reader may take `cur` for a stream of container format `k`: the format was asked for, or it was recognised from the first bytes. -/
def RSetup.MayTake (c : RSetup) (k : Container) (cur : List UInt8) : Prop :=
  c.o.format = fmtOf k ∨ c.o.format = .default ∧ ∃ p, p ≠ [] ∧ p <+: cur ∧ autodetect p = k

/-- as below, with whatever else is known -/
theorem corrupt_at {c : RSetup} (h : c.OK) {X : Container → Spec.Problem → List UInt8 → Nat → Prop} (hX : Pos.Says c.env X) {src : Src} {s : RState} (hr : c.Runs src s) (hsrc : ∀ t i p, src.err ≠ .corrupt t i p)
    {total inStream : Nat} {problem : Spec.Problem} (he : actErr s.out.acts = some (.corrupt total inStream problem)) :
    ∃ done cur datas k, src.bytes = done ++ cur ∧
      StreamsOf (fun b d => ∃ k, (c.o.format = fmtOf k ∨ c.o.format = .default) ∧ c.Stream k b d) done datas ∧
      total = done.length + inStream ∧ total ≤ src.bytes.length ∧ c.MayTake k cur ∧ (∀ k', c.Takes k' src → done = [] → k = k') ∧ c.NoneAt k cur ∧
      (total < src.bytes.length → ∀ x, c.NoneAt k (cur.take inStream ++ x)) ∧ X k problem cur inStream := by
  obtain ⟨l, r, k, h1, _, h2, h3, h4, h5, h6, h7, h8⟩ := Pos.run_pos h.env hX src hsrc hr he
  obtain ⟨done, u1, u2, u3⟩ := items_streams h1
  have hl : src.bytes.length = done.length + r.length := by rw [u1]; simp
  refine ⟨done, r, l.map (·.data), k, u1, by simpa using u3 [] [] .nil, by rw [h2, u2]; omega, by rw [h2, ← u2]; omega, ?_, fun k' ht hd => ?_, h6, fun hlt => h7 ?_, h8⟩
  · obtain ⟨p, p1, p2, p3⟩ := h4
    have p3 : k = detect c.o.format p := p3
    cases hf : c.o.format
    · right
      rw [hf, detect_auto] at p3
      exact ⟨hf, p, p1, p2, p3.symm⟩
    all_goals
      left
      rw [hf] at p3
      rw [p3]; rw [hf]; rfl
  · rw [← ht.det]
    refine h5 ?_
    rcases l with _ | ⟨it, l⟩
    · rfl
    · exfalso
      have hv : it.Valid c.env := by
        generalize hw : src.bytes = w at h1
        cases h1 with
        | cons hv _ _ => exact hv
      refine stream_ne hv.1 ?_
      rw [hd] at u2
      have := congrArg List.length u2
      simp at this
      exact List.length_eq_zero_iff.1 (by omega)
  · rw [h2, ← u2, hl] at hlt; omega

/-- **C86.** When the Reader reports a `CorruptInputError` with `OffsetTotal` = `total` and `OffsetStream` = `inStream`: the input before the offset
`total - inStream` consists of complete valid streams; the stream which begins there is not valid; and unless everything there was had been consumed, what lies before the
offset reported is already wrong: whatever bytes would follow the first `inStream` bytes of this stream, they would not make it valid. -/
theorem C86_position {c : RSetup} (h : c.OK) {src : Src} {s : RState} (hr : c.Runs src s) (hsrc : ∀ t i p, src.err ≠ .corrupt t i p)
    {total inStream : Nat} {problem : Spec.Problem} (he : actErr s.out.acts = some (.corrupt total inStream problem)) :
    ∃ done cur datas k, src.bytes = done ++ cur ∧
      StreamsOf (fun b d => ∃ k, (c.o.format = fmtOf k ∨ c.o.format = .default) ∧ c.Stream k b d) done datas ∧
      total = done.length + inStream ∧ total ≤ src.bytes.length ∧ c.MayTake k cur ∧ (∀ k', c.Takes k' src → done = [] → k = k') ∧ c.NoneAt k cur ∧
      (total < src.bytes.length → ∀ x, c.NoneAt k (cur.take inStream ++ x)) := by
  obtain ⟨done, cur, datas, k, h1, h2, h3, h4, h5, h6, h7, h8, _⟩ := corrupt_at h (X := fun _ _ _ _ => True) (fun _ _ _ _ _ _ _ _ _ _ _ _ => trivial) hr hsrc he
  exact ⟨done, cur, datas, k, h1, h2, h3, h4, h5, h6, h7, h8⟩

/-- The second of two streams begins with an invalid block: `OffsetTotal` is 6, `OffsetStream` is 1, and two bytes follow which were not looked at. -/
example : ∃ s, (rdemo [.format .raw]).Runs ⟨[(1, [0, 0, 255, 255, 7, 9, 9])], [], .eof⟩ s ∧ actErr s.out.acts = some (.corrupt 6 1 .reserved) := by
  have h := acts?_some (c := rdemo [.format .raw]) (src := ⟨[(1, [0, 0, 255, 255, 7, 9, 9])], [], .eof⟩) (as := [.err (.corrupt 6 1 .reserved)]) (by decide +kernel)
  obtain ⟨s, h1, h2⟩ := h
  exact ⟨s, h1, by rw [h2]; rfl⟩

/-- The theorem applied to this input: no raw stream whatever begins with the byte 7. -/
example : ∀ x, (rdemo [.format .raw]).NoneAt .raw ([7] ++ x) := by
  have hsrc : ∀ t i p, (Src.mk [(1, [0, 0, 255, 255, 7, 9, 9])] [] .eof).err ≠ .corrupt t i p := by intro t i p h; cases h
  have h := acts?_some (c := rdemo [.format .raw]) (src := ⟨[(1, [0, 0, 255, 255, 7, 9, 9])], [], .eof⟩) (as := [.err (.corrupt 6 1 .reserved)]) (by decide +kernel)
  obtain ⟨s, h1, h2⟩ := h
  obtain ⟨done, cur, datas, k, b1, b2, b3, b4, b5, _, _, b6⟩ := C86_position (rdemo_ok (by simp [Opt.valid])) h1 hsrc (by rw [h2]; rfl)
  have hk : k = .raw := by
    rcases b5 with h | ⟨h, _⟩
    · have h : Format.raw = fmtOf k := h
      cases k <;> simp [fmtOf] at h ⊢
    · exact absurd (show Format.raw = Format.default from h) (by decide)
  subst hk
  have b1 : [1, 0, 0, 255, 255] ++ [7, 9, 9] = done ++ cur := b1
  obtain ⟨rfl, rfl⟩ := List.append_inj b1 (by simp; omega)
  intro x
  exact b6 (by decide) x

end Flate.Props
