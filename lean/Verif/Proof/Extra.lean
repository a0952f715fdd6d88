import Verif.Model.Extra
import Verif.Spec.Container
import Verif.Proof.Bits

namespace Flate.Proof
open Flate.Spec Flate.Model

/-- the record as the specification writes it -/
def recOf (r : ExtraRec) : (UInt8 × UInt8) × List UInt8 := ((r.id0, r.id1), r.bytes)

theorem leBytes_two (a b : UInt8) : leBytes 2 (a.toNat + 256 * b.toNat) = [a, b] := by
  have ha := a.toNat_lt
  have hb := b.toNat_lt
  simp only [leBytes]
  congr 1
  · apply UInt8.toNat.inj; simp
  · congr 1
    apply UInt8.toNat.inj
    simp [show (a.toNat + 256 * b.toNat) / 256 = b.toNat by omega]

/-- a record with its length field in front is parsed -/
theorem parse_cons {spare d rest : List UInt8} (a b : UInt8) (hd : d.length < 65536) (fuel : Nat) :
    parseExtraLoop spare (fuel + 1) ([a, b] ++ leBytes 2 d.length ++ d ++ rest) =
      (parseExtraLoop spare fuel rest).bind fun rs => .ok (⟨a, b, d⟩ :: rs) := by
  have e : leBytes 2 d.length = [UInt8.ofNat d.length, UInt8.ofNat (d.length / 256)] := rfl
  rw [e]
  simp only [List.cons_append, List.nil_append, parseExtraLoop]
  have h1 : (UInt8.ofNat d.length).toNat + 256 * (UInt8.ofNat (d.length / 256)).toNat = d.length := by simp; omega
  rw [h1, if_pos (by simp; omega), if_pos (by simp)]
  simp only [List.append_assoc, List.take_left, List.drop_left]
  rfl

theorem parse_short {spare rest : List UInt8} (h : rest.length < 4) (fuel : Nat) : parseExtraLoop spare fuel rest = .ok [] := by
  cases fuel with
  | zero => rfl
  | succ n =>
    match rest, h with
    | [], _ => rfl
    | [_], _ => rfl
    | [_, _], _ => rfl
    | [_, _, _], _ => rfl
    | _ :: _ :: _ :: _ :: _, h => simp at h; omega

theorem parse_recs {spare stray : List UInt8} (hs : stray.length < 4) : ∀ (rs : List ExtraRec) (fuel : Nat),
    (∀ r ∈ rs, r.bytes.length < 65536) → rs.length ≤ fuel →
    parseExtraLoop spare fuel (extraRecs (rs.map recOf) ++ stray) = .ok rs
  | [], fuel, _, _ => parse_short hs fuel
  | r :: rs, 0, _, h => by simp at h
  | r :: rs, fuel + 1, h, hf => by
    have ih := parse_recs (spare := spare) hs rs fuel (fun x hx => h x (List.mem_cons_of_mem _ hx)) (by simp at hf; omega)
    rw [List.map_cons, recOf, extraRecs, List.append_assoc, parse_cons _ _ (h r List.mem_cons_self), ih]
    rfl

theorem extraRecs_length (rs : List ((UInt8 × UInt8) × List UInt8)) : rs.length ≤ (extraRecs rs).length := by
  induction rs with
  | nil => exact Nat.le_refl _
  | cons r rs ih =>
    obtain ⟨⟨a, b⟩, d⟩ := r
    simp only [extraRecs, List.length_append, List.length_cons]
    omega

/-- without spare capacity: either the bytes are a well-formed extra field, and are parsed as such, or `Parse` panics -/
theorem parse_total : ∀ (fuel : Nat) (raw : List UInt8), raw.length ≤ fuel →
    (∃ rs stray, parseExtraLoop [] fuel raw = .ok rs ∧ raw = extraRecs (rs.map recOf) ++ stray ∧ stray.length < 4 ∧
      ∀ r ∈ rs, r.bytes.length < 65536) ∨
    parseExtraLoop [] fuel raw = .error .bounds := by
  intro fuel
  induction fuel with
  | zero =>
    intro raw h
    refine Or.inl ⟨[], raw, rfl, by simp [extraRecs], by omega, fun _ h => absurd h List.not_mem_nil⟩
  | succ n ih =>
    intro raw h
    match raw, h with
    | [], _ => exact Or.inl ⟨[], [], rfl, rfl, by decide, fun _ h => absurd h List.not_mem_nil⟩
    | [x], _ => exact Or.inl ⟨[], [x], rfl, rfl, by simp, fun _ h => absurd h List.not_mem_nil⟩
    | [x, y], _ => exact Or.inl ⟨[], [x, y], rfl, rfl, by simp, fun _ h => absurd h List.not_mem_nil⟩
    | [x, y, z], _ => exact Or.inl ⟨[], [x, y, z], rfl, rfl, by simp, fun _ h => absurd h List.not_mem_nil⟩
    | a :: b :: l0 :: l1 :: rest, h =>
      by_cases hl : l0.toNat + 256 * l1.toNat ≤ rest.length
      · have e : a :: b :: l0 :: l1 :: rest =
            [a, b] ++ leBytes 2 (rest.take (l0.toNat + 256 * l1.toNat)).length ++ rest.take (l0.toNat + 256 * l1.toNat) ++
              rest.drop (l0.toNat + 256 * l1.toNat) := by
          rw [List.length_take, Nat.min_eq_left hl, leBytes_two]
          simp
        have h0 := l0.toNat_lt
        have h1 := l1.toNat_lt
        have hd : (rest.take (l0.toNat + 256 * l1.toNat)).length < 65536 := by
          rw [List.length_take]; omega
        have h' : (rest.drop (l0.toNat + 256 * l1.toNat)).length ≤ n := by
          simp at h ⊢; omega
        rw [e, parse_cons _ _ hd]
        rcases ih _ h' with ⟨rs, stray, h1, h2, h3, h4⟩ | h1
        · left
          refine ⟨⟨a, b, rest.take (l0.toNat + 256 * l1.toNat)⟩ :: rs, stray, by rw [h1]; rfl, ?_, h3, ?_⟩
          · rw [List.map_cons, recOf, extraRecs, List.append_assoc _ _ stray, ← h2]
          · intro r hr
            rcases List.mem_cons.1 hr with rfl | hr
            · exact hd
            · exact h4 r hr
        · right; rw [h1]; rfl
      · right
        simp only [parseExtraLoop]
        rw [if_neg (by simp; omega)]

theorem parseExtra_ok {raw : List UInt8} (h : ExtraOK raw) : ∃ rs, parseExtra raw [] = .ok rs := by
  obtain ⟨recs, stray, h1, h2, h3⟩ := h
  have e : recs = (recs.map fun x => (⟨x.1.1, x.1.2, x.2⟩ : ExtraRec)).map recOf := by
    rw [List.map_map]; simp [Function.comp_def, recOf]
  refine ⟨recs.map fun x => ⟨x.1.1, x.1.2, x.2⟩, ?_⟩
  unfold parseExtra
  have hl : (recs.map fun x => (⟨x.1.1, x.1.2, x.2⟩ : ExtraRec)).length ≤ raw.length := by
    rw [h2, List.length_map, List.length_append]; have := extraRecs_length recs; omega
  have := parse_recs (spare := []) h3 (recs.map fun x => ⟨x.1.1, x.1.2, x.2⟩) raw.length (by
    intro r hr
    obtain ⟨x, hx, rfl⟩ := List.mem_map.1 hr
    exact h1 x hx) hl
  rw [← e, ← h2] at this
  exact this

theorem parseExtra_spec (raw : List UInt8) :
    (∃ rs, parseExtra raw [] = .ok rs ∧ ExtraOK raw ∧ ∃ stray, raw = extraRecs (rs.map recOf) ++ stray ∧ stray.length < 4) ∨
    (parseExtra raw [] = .error .bounds ∧ ¬ ExtraOK raw) := by
  rcases parse_total raw.length raw (Nat.le_refl _) with ⟨rs, stray, h1, h2, h3, h4⟩ | h
  · left
    refine ⟨rs, h1, ⟨rs.map recOf, stray, ?_, h2, h3⟩, stray, h2, h3⟩
    intro r hr
    obtain ⟨x, hx, rfl⟩ := List.mem_map.1 hr
    exact h4 x hx
  · right
    refine ⟨h, fun hok => ?_⟩
    obtain ⟨rs, e⟩ := parseExtra_ok hok
    rw [parseExtra, h] at e
    cases e

end Flate.Proof
