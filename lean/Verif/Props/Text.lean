/-
C37 and C38: text forms of option values and checksums.
-/
import Verif.Model.Text

namespace Flate.Props
open Flate.Model.Text

/-- a non-empty string of decimal digits -/
def IsDec (s : List Char) : Prop := s ≠ [] ∧ ∀ c ∈ s, '0' ≤ c ∧ c ≤ '9'

/-- its value -/
def decVal (s : List Char) : Nat := s.foldl (fun n c => 10 * n + (c.toNat - '0'.toNat)) 0

/-- `s` is the word `w` in upper, lower or mixed case -/
def Spells (s w : List Char) : Prop := s.map Char.toLower = w

theorem le_foldl (s : List Char) (n : Nat) : n ≤ s.foldl (fun n c => 10 * n + (c.toNat - '0'.toNat)) n := by
  induction s generalizing n with
  | nil => exact Nat.le_refl _
  | cons c s ih => exact Nat.le_trans (show n ≤ 10 * n + (c.toNat - '0'.toNat) by omega) (ih _)

theorem digit_dec {c : Char} {d : Nat} (h : digit? c = some d) (hd : d < 10) : ('0' ≤ c ∧ c ≤ '9') ∧ d = c.toNat - '0'.toNat := by
  unfold digit? at h
  split at h
  · rename_i hc; cases h; exact ⟨hc, rfl⟩
  · split at h
    · cases h; omega
    · cases h

theorem digit_of_dec {c : Char} (h : '0' ≤ c ∧ c ≤ '9') : digit? c = some (c.toNat - '0'.toNat) ∧ c.toNat - '0'.toNat < 10 := by
  unfold digit?
  rw [if_pos h]
  have h1 : c.toNat ≤ '9'.toNat := h.2
  have h3 : '9'.toNat = 57 := rfl
  have h4 : '0'.toNat = 48 := rfl
  exact ⟨rfl, by omega⟩

theorem parseLoop_dec (m : Nat) (s : List Char) (n v : Nat) (hn : n ≤ m) :
    parseLoop 10 m n s = some v ↔
      (∀ c ∈ s, '0' ≤ c ∧ c ≤ '9') ∧ s.foldl (fun n c => 10 * n + (c.toNat - '0'.toNat)) n = v ∧ v ≤ m := by
  induction s generalizing n with
  | nil =>
    simp only [parseLoop, List.foldl_nil, Option.some.injEq]
    constructor
    · intro h; subst h; exact ⟨fun _ h => absurd h List.not_mem_nil, rfl, hn⟩
    · exact fun h => h.2.1
  | cons c s ih =>
    simp only [parseLoop, List.foldl_cons]
    constructor
    · intro h
      cases hd : digit? c with
      | none => rw [hd] at h; cases h
      | some d =>
        rw [hd] at h
        simp only at h
        split at h
        · cases h
        · split at h
          · cases h
          · have hc := digit_dec hd (by omega)
            obtain ⟨h1, h2, h3⟩ := (ih (n * 10 + d) (by omega)).1 h
            refine ⟨?_, ?_, h3⟩
            · intro x hx
              rcases List.mem_cons.1 hx with rfl | hx
              · exact hc.1
              · exact h1 x hx
            · rw [← h2, hc.2, Nat.mul_comm]
    · rintro ⟨h1, h2, h3⟩
      have hc := digit_of_dec (h1 c List.mem_cons_self)
      rw [hc.1]
      simp only
      have hle := le_foldl s (10 * n + (c.toNat - '0'.toNat))
      rw [if_neg (by omega), if_neg (by omega)]
      refine (ih _ (by omega)).2 ⟨fun x hx => h1 x (List.mem_cons_of_mem _ hx), ?_, h3⟩
      rw [← h2, Nat.mul_comm]

theorem parseUint_dec (s : List Char) (b v : Nat) :
    parseUint s 10 b = some v ↔ IsDec s ∧ decVal s = v ∧ v ≤ 2 ^ b - 1 := by
  unfold parseUint IsDec decVal
  cases s with
  | nil => simp
  | cons c s =>
    rw [if_neg (by simp), parseLoop_dec _ _ _ _ (Nat.zero_le _)]
    constructor
    · rintro ⟨a, b, c⟩; exact ⟨⟨by simp, a⟩, b, c⟩
    · rintro ⟨⟨_, a⟩, b, c⟩; exact ⟨a, b, c⟩

theorem not_dec_of_spells {s w : List Char} (h : Spells s w) (hw : w.head?.any Char.isAlpha = true) : ¬ IsDec s := by
  rintro ⟨h1, h2⟩
  cases s with
  | nil => exact h1 rfl
  | cons c s =>
    unfold Spells at h
    rw [← h] at hw
    simp only [List.map_cons, List.head?_cons, Option.any_some] at hw
    obtain ⟨a, b⟩ := h2 c List.mem_cons_self
    have b : c.toNat ≤ 57 := b
    have : ∀ n : Nat, n ≤ 57 → 48 ≤ n → (Char.toLower (Char.ofNat n)).isAlpha = false := by decide +kernel
    have a : 48 ≤ c.toNat := a
    have := this c.toNat b a
    rw [Char.ofNat_toNat] at this
    rw [this] at hw
    cases hw

theorem spells_iff (s w : List Char) : equalFold s w = true ↔ Spells s w := by simp [equalFold, Spells]

/-- `CompressLevel.Parse` succeeds exactly for "default", "none" (in any case) and decimal numbers 0 to 9, with
the value named. -/
theorem C37_clevel_parse (s : List Char) (v : Int) :
    clevelParse s = (true, v) ↔ (Spells s strDefault ∧ v = -1) ∨ (Spells s strNone ∧ v = 0) ∨
      (IsDec s ∧ decVal s ≤ 9 ∧ v = decVal s) := by
  unfold clevelParse
  by_cases h1 : equalFold s strDefault = true
  · rw [if_pos h1]
    have h1 := (spells_iff _ _).1 h1
    have hn := not_dec_of_spells h1 rfl
    have h2 : ¬ Spells s strNone := by intro h2; unfold Spells at h1 h2; rw [h1] at h2; exact absurd h2 (by decide)
    simp [h1, hn, h2, eq_comm]
  · rw [if_neg h1]
    have h1' : ¬ Spells s strDefault := fun h => h1 ((spells_iff _ _).2 h)
    by_cases h2 : equalFold s strNone = true
    · rw [if_pos h2]
      have h2 := (spells_iff _ _).1 h2
      have hn := not_dec_of_spells h2 rfl
      simp [h1', h2, hn, eq_comm]
    · rw [if_neg h2]
      have h2' : ¬ Spells s strNone := fun h => h2 ((spells_iff _ _).2 h)
      cases hp : parseUint s 10 8 with
      | none =>
        simp only [h1', h2', false_and, false_or]
        constructor
        · intro h; cases h
        · rintro ⟨a, b, c⟩
          rw [(parseUint_dec s 8 (decVal s)).2 ⟨a, rfl, by omega⟩] at hp; cases hp
      | some u =>
        obtain ⟨a, b, c⟩ := (parseUint_dec s 8 u).1 hp
        simp only [h1', h2', false_and, false_or]
        subst b
        split
        · constructor
          · intro h; cases h
          · rintro ⟨_, h, _⟩; omega
        · simp [a, eq_comm]; omega

/-- otherwise it fails and stores the default -/
theorem C37_clevel_total (s : List Char) : clevelParse s = (false, -1) ∨ ∃ v, clevelParse s = (true, v) ∧ -1 ≤ v ∧ v ≤ 9 := by
  cases h : clevelParse s with
  | mk ok v =>
    cases ok with
    | true =>
      right
      refine ⟨v, rfl, ?_⟩
      rcases (C37_clevel_parse s v).1 h with ⟨_, rfl⟩ | ⟨_, rfl⟩ | ⟨_, hv, rfl⟩ <;> omega
    | false =>
      left
      unfold clevelParse at h
      split at h
      · cases h
      · split at h
        · cases h
        · split at h
          · cases h; rfl
          · split at h
            · cases h; rfl
            · cases h

theorem C37_clevel_round_trip {c : Int} (h1 : -1 ≤ c) (h2 : c ≤ 9) : clevelParse (clevelString c) = (true, c) := by
  have : ∀ n : Nat, n < 11 → clevelParse (clevelString ((n : Int) - 1)) = (true, (n : Int) - 1) := by decide +kernel
  have := this (c + 1).toNat (by omega)
  rwa [show (((c + 1).toNat : Nat) : Int) - 1 = c by omega] at this

/-- `MemoryLevel.Parse`: "default", or a decimal number 0 to 9 (0, too, means the default). -/
theorem C37_mlevel_parse (s : List Char) (v : Nat) :
    mlevelParse s = (true, v) ↔ (Spells s strDefault ∧ v = 0) ∨ (IsDec s ∧ decVal s ≤ 9 ∧ v = decVal s) := by
  unfold mlevelParse
  by_cases h1 : equalFold s strDefault = true
  · rw [if_pos h1]
    have h1 := (spells_iff _ _).1 h1
    have hn := not_dec_of_spells h1 rfl
    simp [h1, hn, eq_comm]
  · rw [if_neg h1]
    have h1' : ¬ Spells s strDefault := fun h => h1 ((spells_iff _ _).2 h)
    cases hp : parseUint s 10 8 with
    | none =>
      simp only [h1', false_and, false_or]
      constructor
      · intro h; cases h
      · rintro ⟨a, b, c⟩
        rw [(parseUint_dec s 8 (decVal s)).2 ⟨a, rfl, by omega⟩] at hp; cases hp
    | some u =>
      obtain ⟨a, b, c⟩ := (parseUint_dec s 8 u).1 hp
      simp only [h1', false_and, false_or]
      subst b
      split
      · constructor
        · intro h; cases h
        · rintro ⟨_, h, _⟩; omega
      · simp [a, eq_comm]; omega

theorem C37_mlevel_total (s : List Char) : mlevelParse s = (false, 0) ∨ ∃ v, mlevelParse s = (true, v) ∧ v ≤ 9 := by
  cases h : mlevelParse s with
  | mk ok v =>
    cases ok with
    | true =>
      right
      refine ⟨v, rfl, ?_⟩
      rcases (C37_mlevel_parse s v).1 h with ⟨_, rfl⟩ | ⟨_, hv, rfl⟩ <;> omega
    | false =>
      left
      unfold mlevelParse at h
      split at h
      · cases h
      · split at h
        · cases h; rfl
        · split at h
          · cases h; rfl
          · cases h

theorem C37_mlevel_round_trip {m : Nat} (h : m ≤ 9) : mlevelParse (mlevelString m) = (true, m) := by
  have : ∀ n : Nat, n < 10 → mlevelParse (mlevelString n) = (true, n) := by decide +kernel
  exact this m (by omega)

/-- `WindowBits.Parse`: "default", or a decimal number 8 to 15. -/
theorem C37_wbits_parse (s : List Char) (v : Nat) :
    wbitsParse s = (true, v) ↔ (Spells s strDefault ∧ v = 0) ∨ (IsDec s ∧ 8 ≤ decVal s ∧ decVal s ≤ 15 ∧ v = decVal s) := by
  unfold wbitsParse
  by_cases h1 : equalFold s strDefault = true
  · rw [if_pos h1]
    have h1 := (spells_iff _ _).1 h1
    have hn := not_dec_of_spells h1 rfl
    simp [h1, hn, eq_comm]
  · rw [if_neg h1]
    have h1' : ¬ Spells s strDefault := fun h => h1 ((spells_iff _ _).2 h)
    cases hp : parseUint s 10 8 with
    | none =>
      simp only [h1', false_and, false_or]
      constructor
      · intro h; cases h
      · rintro ⟨a, b, c, _⟩
        rw [(parseUint_dec s 8 (decVal s)).2 ⟨a, rfl, by omega⟩] at hp; cases hp
    | some u =>
      obtain ⟨a, b, c⟩ := (parseUint_dec s 8 u).1 hp
      simp only [h1', false_and, false_or]
      subst b
      split
      · constructor
        · intro h; cases h
        · rintro ⟨_, h, _⟩; omega
      · split
        · constructor
          · intro h; cases h
          · rintro ⟨_, _, h, _⟩; omega
        · simp [a, eq_comm]; omega

theorem C37_wbits_total (s : List Char) :
    wbitsParse s = (false, 0) ∨ ∃ v, wbitsParse s = (true, v) ∧ (v = 0 ∨ (8 ≤ v ∧ v ≤ 15)) := by
  cases h : wbitsParse s with
  | mk ok v =>
    cases ok with
    | true =>
      right
      refine ⟨v, rfl, ?_⟩
      rcases (C37_wbits_parse s v).1 h with ⟨_, rfl⟩ | ⟨_, h8, hv, rfl⟩ <;> omega
    | false =>
      left
      unfold wbitsParse at h
      split at h
      · cases h
      · split at h
        · cases h; rfl
        · split at h
          · cases h; rfl
          · split at h
            · cases h; rfl
            · cases h

theorem C37_wbits_round_trip {w : Nat} (h : w = 0 ∨ (8 ≤ w ∧ w ≤ 15)) : wbitsParse (wbitsString w) = (true, w) := by
  have : ∀ n : Nat, n < 16 → (n = 0 ∨ 8 ≤ n) → wbitsParse (wbitsString n) = (true, n) := by decide +kernel
  exact this w (by omega) (by omega)

/-- some spellings -/
example : clevelParse ['N', 'o', 'n', 'E'] = (true, 0) ∧ clevelParse ['0', '0', '7'] = (true, 7) ∧
    clevelParse ['1', '0'] = (false, -1) ∧ clevelParse ['-', '1'] = (false, -1) ∧
    wbitsParse ['1', '5'] = (true, 15) ∧ wbitsParse ['7'] = (false, 0) := by decide +kernel

/-! ### checksums -/

theorem digit_hex {d : Nat} (h : d < 16) : digit? (hexDigit d) = some d := by
  have : ∀ d, d < 16 → digit? (hexDigit d) = some d := by decide +kernel
  exact this d h

theorem parseLoop_append (base m : Nat) (a b : List Char) (n k : Nat) (h : parseLoop base m n a = some k) :
    parseLoop base m n (a ++ b) = parseLoop base m k b := by
  induction a generalizing n with
  | nil => cases h; rfl
  | cons c a ih =>
    simp only [List.cons_append, parseLoop] at h ⊢
    cases hd : digit? c with
    | none => rw [hd] at h; cases h
    | some d =>
      rw [hd] at h
      simp only at h ⊢
      split at h
      · cases h
      · split at h
        · cases h
        · rename_i h1 h2
          rw [if_neg h1, if_neg h2]; exact ih _ h

theorem parse_hexFixed (m : Nat) : ∀ k v, v < 16 ^ k → v ≤ m → parseLoop 16 m 0 (hexFixed k v) = some v
  | 0, v, h, _ => by
    have : v = 0 := by simp at h; exact h
    subst this; rfl
  | k + 1, v, h, hm => by
    have ih := parse_hexFixed m k (v / 16) (by rw [Nat.pow_succ] at h; omega) (by omega)
    rw [hexFixed, parseLoop_append _ _ _ _ _ _ ih]
    simp only [parseLoop, digit_hex (show v % 16 < 16 by omega)]
    rw [if_neg (by omega), if_neg (by omega), show v / 16 * 16 + v % 16 = v by omega]

theorem hexFixed_length : ∀ k v, (hexFixed k v).length = k
  | 0, _ => rfl
  | k + 1, v => by simp [hexFixed, hexFixed_length k]

theorem hexFixed_chars : ∀ k v, ∀ c ∈ hexFixed k v, c ≠ '"' ∧ c ≠ '\\' ∧ ' ' ≤ c
  | 0, _ => fun c h => absurd h List.not_mem_nil
  | k + 1, v => by
    intro c h
    rw [hexFixed] at h
    rcases List.mem_append.1 h with h | h
    · exact hexFixed_chars k _ c h
    · rw [List.mem_singleton] at h
      subst h
      have : ∀ d, d < 16 → hexDigit d ≠ '"' ∧ hexDigit d ≠ '\\' ∧ ' ' ≤ hexDigit d := by decide +kernel
      exact this _ (by omega)

/-- The JSON form of a checksum reads back as the same checksum. -/
theorem C38_round_trip (c : BitVec 32) : checksumUnmarshal (checksumMarshal c) = some c := by
  have hq : jsonUnquote (checksumMarshal c) = some (checksumString c) := by
    unfold checksumMarshal jsonQuote jsonUnquote
    simp only [List.cons_append, List.nil_append]
    rw [if_pos]
    · simp
    · refine ⟨by simp, ?_⟩
      rw [List.dropLast_concat, List.all_eq_true]
      intro x hx
      simp only [decide_eq_true_eq]
      unfold checksumString at hx
      rcases List.mem_append.1 hx with hx | hx
      · rcases List.mem_cons.1 hx with rfl | hx
        · decide
        · rw [List.mem_singleton] at hx; subst hx; decide
      · exact hexFixed_chars _ _ x hx
  unfold checksumUnmarshal
  rw [hq]
  simp only [checksumString, List.cons_append, List.nil_append, trim0x]
  have hne : (hexFixed 8 c.toNat).isEmpty = false := by
    cases h : hexFixed 8 c.toNat with
    | nil => have := hexFixed_length 8 c.toNat; rw [h] at this; cases this
    | cons _ _ => rfl
  have hc := c.isLt
  unfold parseUint
  rw [hne, if_neg (by simp), parse_hexFixed _ 8 c.toNat (by omega) (by omega)]
  simp

/-- The text is "0x" and eight lower case hexadecimal digits: different checksums have different texts. -/
theorem C38_injective {a b : BitVec 32} (h : checksumMarshal a = checksumMarshal b) : a = b := by
  have := C38_round_trip a
  rw [h, C38_round_trip b] at this
  exact (Option.some.inj this).symm

example : checksumMarshal 0xbeef#32 = ['"', '0', 'x', '0', '0', '0', '0', 'b', 'e', 'e', 'f', '"'] := by decide +kernel

end Flate.Props
