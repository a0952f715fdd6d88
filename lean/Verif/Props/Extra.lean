/-
C23: the gzip extra field.
-/
import Verif.Proof.Extra
import Verif.Model.Writer

namespace Flate.Props
open Flate.Spec Flate.Model Flate.Proof

/-- `Parse(AsBytes(x)) = x` for all record lists whose payloads are below 64 KiB (whatever capacity the slice has). -/
theorem C23_round_trip {recs : List ExtraRec} (h : ∀ r ∈ recs, r.bytes.length < 65536) (spare : List UInt8) :
    parseExtra (extraAsBytes recs) spare = .ok recs := by
  have e : extraAsBytes recs = extraRecs (recs.map recOf) ++ [] := by
    rw [List.append_nil]
    clear spare
    induction recs with
    | nil => rfl
    | cons r rs ih =>
      have := ih fun x hx => h x (List.mem_cons_of_mem _ hx)
      unfold extraAsBytes at this ⊢
      rw [List.flatMap_cons, this, List.map_cons, recOf, extraRecs, Nat.mod_eq_of_lt (h r List.mem_cons_self)]
  unfold parseExtra
  rw [e]
  refine parse_recs (by decide) recs _ h ?_
  have := extraRecs_length (recs.map recOf)
  simp at this ⊢; omega

/-- `AsBytes` writes the format of RFC 1952. -/
theorem C23_format {recs : List ExtraRec} (h : ∀ r ∈ recs, r.bytes.length < 65536) :
    extraAsBytes recs = extraRecs (recs.map fun r => ((r.id0, r.id1), r.bytes)) := by
  induction recs with
  | nil => rfl
  | cons r rs ih =>
    have := ih fun x hx => h x (List.mem_cons_of_mem _ hx)
    unfold extraAsBytes at this ⊢
    rw [List.flatMap_cons, this, List.map_cons, extraRecs, Nat.mod_eq_of_lt (h r List.mem_cons_self)]

/-- The true part of "Parse never panics": on a well-formed field (records, then at most three stray bytes) it
returns the records. -/
theorem C23_parse_partial {raw : List UInt8} (h : ExtraOK raw) :
    ∃ rs stray, parseExtra raw [] = .ok rs ∧ raw = extraRecs (rs.map fun r => ((r.id0, r.id1), r.bytes)) ++ stray ∧ stray.length < 4 := by
  rcases parseExtra_spec raw with ⟨rs, e, _, stray, h1, h2⟩ | ⟨_, h'⟩
  · exact ⟨rs, stray, e, h1, h2⟩
  · exact absurd h h'

/-- The claim is false of the code: `Parse` panics on every field which is not well formed. -/
theorem C23_fails {raw : List UInt8} (h : ¬ ExtraOK raw) : parseExtra raw [] = .error .bounds := by
  rcases parseExtra_spec raw with ⟨_, _, h', _⟩ | ⟨e, _⟩
  · exact absurd h' h
  · exact e

/-- four bytes are enough -/
theorem C23_fails_example : parseExtra [0x41, 0x42, 1, 0] [] = .error .bounds := rfl

/-- And when the slice has spare capacity it reads outside its argument. -/
theorem C23_reads_outside : parseExtra [0x41, 0x42, 1, 0] [0x99] = .ok [⟨0x41, 0x42, [0x99]⟩] := rfl

/-- two records and a stray byte -/
example : ExtraOK ([0x41, 0x42, 1, 0, 7] ++ [0x43, 0x44, 2, 0, 8, 9] ++ [1]) :=
  ⟨[((0x41, 0x42), [7]), ((0x43, 0x44), [8, 9])], [1], by decide, by decide, by decide⟩

end Flate.Props
