/-
Strings, bytes, checksums and times which `Model/Log.lean` writes can be read (`Spec/Json.lean`).
-/
import Verif.Proof.Json

namespace Flate.Proof.Js
open Flate.Model Flate.Model.Text Flate.Model.Enum Flate.Model.Log Flate.Spec

/-! ### strings -/

theorem char_eq {c : Char} {n : Nat} (h : c.toNat = n) : c = Char.ofNat n := by rw [← h]; exact (Char.ofNat_toNat c).symm

theorem hex_low : ∀ n, n < 128 → hexChar '0' '0' (hexDigit (n / 16)) (hexDigit (n % 16)) = some (Char.ofNat n) := by decide +kernel

/-- the character which stands for an invalid byte -/
def bad : Char := Char.ofNat 0xFFFD

theorem spells_escape (html : Bool) (o : Option Char) : Spells (escape html o) [o.getD bad] := by
  cases o with
  | none => exact spells_hex (by decide)
  | some c =>
    unfold escape
    dsimp only [Option.getD_some]
    by_cases h1 : c = '"' ∨ c = '\\'
    · rw [if_pos h1]
      refine spells_esc (by unfold escapeChar; rw [if_pos (by tauto)]) ?_
      rcases h1 with rfl | rfl <;> decide
    rw [if_neg h1]
    by_cases h2 : c = '\n'
    · rw [if_pos h2, h2]; exact spells_esc (by decide) (by decide)
    rw [if_neg h2]
    by_cases h3 : c = '\r'
    · rw [if_pos h3, h3]; exact spells_esc (by decide) (by decide)
    rw [if_neg h3]
    by_cases h4 : c = '\t'
    · rw [if_pos h4, h4]; exact spells_esc (by decide) (by decide)
    rw [if_neg h4]
    by_cases h5 : c < ' ' ∨ (html = true ∧ (c = '<' ∨ c = '>' ∨ c = '&'))
    · rw [if_pos h5]
      have hl : c.toNat < 128 := by
        rcases h5 with h | ⟨_, rfl | rfl | rfl⟩
        · have : c.toNat < 32 := h
          omega
        all_goals decide
      have := hex_low _ hl
      rw [Char.ofNat_toNat] at this
      exact spells_hex this
    rw [if_neg h5]
    by_cases h6 : c.toNat = 0x2028 ∨ c.toNat = 0x2029
    · rw [if_pos h6]
      rcases h6 with h | h
      · rw [char_eq h]; exact spells_hex (by decide +kernel)
      · rw [char_eq h]; exact spells_hex (by decide +kernel)
    rw [if_neg h6]
    exact spells_plain ⟨fun e => h1 (.inl e), fun e => h1 (.inr e), fun e => h5 (.inl e)⟩

theorem spells_runes (html : Bool) : ∀ l : List (Option Char), Spells (l.flatMap (escape html)) (l.map (·.getD bad))
  | [] => spells_nil
  | o :: l => by
    rw [List.flatMap_cons, List.map_cons]
    exact spells_append (s := [o.getD bad]) (spells_escape html o) (spells_runes html l)

/-- what becomes of a string -/
def shown (b : List UInt8) : List Char := (runes b).map (·.getD bad)

theorem reads_string (html : Bool) (b : List UInt8) : Reads (jsonString html b) (.str (shown b)) := reads_str (spells_runes html _)

theorem toNat_small {n : Nat} (h : n < 256) : (UInt8.ofNat n).toNat = n := by simp; omega

theorem runes_char (c : Char) (rest : List UInt8) : runes (String.utf8EncodeChar c ++ rest) = some c :: runes rest := by
  have hv : c.toNat.isValidChar := c.valid
  have hc : ∀ n, c.toNat = n → Char.ofNat n = c := fun n h => (char_eq h).symm
  unfold String.utf8EncodeChar
  dsimp only
  rw [show c.val.toNat = c.toNat from rfl]
  have hb : c.toNat < 1114112 := by unfold Nat.isValidChar at hv; omega
  by_cases h1 : c.toNat ≤ 127
  · rw [if_pos h1, List.singleton_append, runes]
    have e : (UInt8.ofNat c.toNat).toNat = c.toNat := toNat_small (by omega)
    have : decodeRune (UInt8.ofNat c.toNat) rest = (some c, 0) := by
      unfold decodeRune
      rw [e, if_pos (by omega), hc _ rfl]
    rw [this]; rfl
  rw [if_neg h1]
  by_cases h2 : c.toNat ≤ 2047
  · rw [if_pos h2, List.cons_append, runes]
    have e1 : (UInt8.ofNat (c.toNat / 64 % 32 + 192)).toNat = c.toNat / 64 % 32 + 192 := toNat_small (by omega)
    have e2 : (UInt8.ofNat (c.toNat % 64 + 128)).toNat = c.toNat % 64 + 128 := toNat_small (by omega)
    have : decodeRune (UInt8.ofNat (c.toNat / 64 % 32 + 192)) ([UInt8.ofNat (c.toNat % 64 + 128)] ++ rest) = (some c, 1) := by
      unfold decodeRune
      simp only [e1, e2, List.singleton_append]
      rw [if_neg (by omega), if_pos (by omega), if_pos (by simp; omega), hc _ (by omega)]
    rw [this]; rfl
  rw [if_neg h2]
  by_cases h3 : c.toNat ≤ 65535
  · rw [if_pos h3, List.cons_append, runes]
    have e1 : (UInt8.ofNat (c.toNat / 4096 % 16 + 224)).toNat = c.toNat / 4096 % 16 + 224 := toNat_small (by omega)
    have e2 : (UInt8.ofNat (c.toNat / 64 % 64 + 128)).toNat = c.toNat / 64 % 64 + 128 := toNat_small (by omega)
    have e3 : (UInt8.ofNat (c.toNat % 64 + 128)).toNat = c.toNat % 64 + 128 := toNat_small (by omega)
    have ev : ((c.toNat / 4096 % 16 + 224 - 224) * 64 + (c.toNat / 64 % 64 + 128 - 128)) * 64 + (c.toNat % 64 + 128 - 128) = c.toNat := by omega
    have : decodeRune (UInt8.ofNat (c.toNat / 4096 % 16 + 224)) ([UInt8.ofNat (c.toNat / 64 % 64 + 128), UInt8.ofNat (c.toNat % 64 + 128)] ++ rest) =
        (some c, 2) := by
      unfold decodeRune
      simp only [e1, e2, e3, List.cons_append, ev]
      rw [if_neg (by omega), if_neg (by omega), if_pos (by omega), if_pos ⟨by simp; omega, by simp; omega, by omega, hv⟩, hc _ rfl]
    rw [this]; rfl
  · rw [if_neg h3, List.cons_append, runes]
    have e1 : (UInt8.ofNat (c.toNat / 262144 % 8 + 240)).toNat = c.toNat / 262144 % 8 + 240 := toNat_small (by omega)
    have e2 : (UInt8.ofNat (c.toNat / 4096 % 64 + 128)).toNat = c.toNat / 4096 % 64 + 128 := toNat_small (by omega)
    have e3 : (UInt8.ofNat (c.toNat / 64 % 64 + 128)).toNat = c.toNat / 64 % 64 + 128 := toNat_small (by omega)
    have e4 : (UInt8.ofNat (c.toNat % 64 + 128)).toNat = c.toNat % 64 + 128 := toNat_small (by omega)
    have ev : (((c.toNat / 262144 % 8 + 240 - 240) * 64 + (c.toNat / 4096 % 64 + 128 - 128)) * 64 + (c.toNat / 64 % 64 + 128 - 128)) * 64 +
      (c.toNat % 64 + 128 - 128) = c.toNat := by omega
    have : decodeRune (UInt8.ofNat (c.toNat / 262144 % 8 + 240)) ([UInt8.ofNat (c.toNat / 4096 % 64 + 128), UInt8.ofNat (c.toNat / 64 % 64 + 128),
        UInt8.ofNat (c.toNat % 64 + 128)] ++ rest) = (some c, 3) := by
      unfold decodeRune
      simp only [e1, e2, e3, e4, List.cons_append, ev]
      rw [if_neg (by omega), if_neg (by omega), if_neg (by omega), if_pos ⟨by omega, by simp; omega, by simp; omega, by simp; omega, by omega, hv⟩, hc _ rfl]
    rw [this]; rfl

theorem runes_utf8 : ∀ s : List Char, runes (s.flatMap String.utf8EncodeChar) = s.map some
  | [] => by rw [List.flatMap_nil, runes]; rfl
  | c :: s => by rw [List.flatMap_cons, runes_char, runes_utf8 s]; rfl

theorem shown_utf8 {b : List UInt8} {s : List Char} (h : IsUtf8 b s) : shown b = s := by
  unfold shown
  rw [h, runes_utf8, List.map_map]
  exact List.map_id s

/-! ### base64 -/

theorem b64 : ∀ n, n < 64 → base64Val (base64Digit n) = some n ∧ base64Digit n ≠ '=' ∧ base64Digit n ≠ '"' ∧ base64Digit n ≠ '\\' ∧ ¬ base64Digit n < ' ' := by
  decide +kernel

theorem u8 {a : UInt8} {n : Nat} (h : n = a.toNat) : UInt8.ofNat n = a := by rw [h]; exact UInt8.ofNat_toNat

theorem read_base64 : ∀ b : List UInt8, readBase64 (base64 b) = some b
  | [] => rfl
  | [a] => by
    have := a.toNat_lt
    rw [base64, readBase64]
    rw [(b64 _ (by omega : a.toNat / 4 < 64)).1, (b64 _ (by omega : a.toNat % 4 * 16 < 64)).1]
    simp only
    rw [u8 (by omega : a.toNat / 4 * 4 + a.toNat % 4 * 16 / 16 = a.toNat)]
  | [a, b] => by
    have := a.toNat_lt
    have := b.toNat_lt
    rw [base64]
    have h3 := b64 _ (by omega : b.toNat % 16 * 4 < 64)
    rw [readBase64]
    · rw [(b64 _ (by omega : a.toNat / 4 < 64)).1, (b64 _ (by omega : a.toNat % 4 * 16 + b.toNat / 16 < 64)).1, h3.1]
      simp only
      rw [u8 (by omega : a.toNat / 4 * 4 + (a.toNat % 4 * 16 + b.toNat / 16) / 16 = a.toNat),
        u8 (by omega : (a.toNat % 4 * 16 + b.toNat / 16) % 16 * 16 + b.toNat % 16 * 4 / 4 = b.toNat)]
    · exact fun e => absurd e h3.2.1
  | a :: b :: c :: r => by
    have := a.toNat_lt
    have := b.toNat_lt
    have := c.toNat_lt
    have ih := read_base64 r
    rw [base64]
    have h4 := b64 _ (by omega : c.toNat % 64 < 64)
    rw [readBase64]
    · rw [(b64 _ (by omega : a.toNat / 4 < 64)).1, (b64 _ (by omega : a.toNat % 4 * 16 + b.toNat / 16 < 64)).1,
        (b64 _ (by omega : b.toNat % 16 * 4 + c.toNat / 64 < 64)).1, h4.1, ih]
      simp only
      rw [u8 (by omega : a.toNat / 4 * 4 + (a.toNat % 4 * 16 + b.toNat / 16) / 16 = a.toNat),
        u8 (by omega : (a.toNat % 4 * 16 + b.toNat / 16) % 16 * 16 + (b.toNat % 16 * 4 + c.toNat / 64) / 4 = b.toNat),
        u8 (by omega : (b.toNat % 16 * 4 + c.toNat / 64) % 4 * 64 + c.toNat % 64 = c.toNat)]
    · exact fun _ e => absurd e h4.2.1
    · exact fun e => absurd e h4.2.1

theorem base64_plain : ∀ (b : List UInt8), ∀ c ∈ base64 b, Plain c := by
  have k : ∀ n, n < 64 → Plain (base64Digit n) := fun n h => (b64 n h).2.2
  have e : Plain '=' := by unfold Plain; decide
  intro b
  induction b using base64.induct with
  | case1 => intro c hc; cases hc
  | case2 a =>
    have := a.toNat_lt
    intro c hc
    simp only [base64, List.mem_cons, List.not_mem_nil, or_false] at hc
    rcases hc with rfl | rfl | rfl | rfl
    · exact k _ (by omega)
    · exact k _ (by omega)
    · exact e
    · exact e
  | case3 a b =>
    have := a.toNat_lt
    have := b.toNat_lt
    intro c hc
    simp only [base64, List.mem_cons, List.not_mem_nil, or_false] at hc
    rcases hc with rfl | rfl | rfl | rfl
    · exact k _ (by omega)
    · exact k _ (by omega)
    · exact k _ (by omega)
    · exact e
  | case4 a b c r ih =>
    have := a.toNat_lt
    have := b.toNat_lt
    have := c.toNat_lt
    intro x hx
    simp only [base64, List.mem_cons] at hx
    rcases hx with rfl | rfl | rfl | rfl | h
    · exact k _ (by omega)
    · exact k _ (by omega)
    · exact k _ (by omega)
    · exact k _ (by omega)
    · exact ih x h

theorem reads_bytes (isNil : Bool) (b : List UInt8) : ∃ j, Reads (jsonBytes isNil b) j ∧ j.bytes = some b := by
  unfold jsonBytes
  by_cases h : b = [] ∧ isNil = true
  · rw [if_pos h, h.1]; exact ⟨.null, reads_null, rfl⟩
  · rw [if_neg h]; exact ⟨.str (base64 b), reads_word (base64_plain b), read_base64 b⟩

/-! ### checksums -/

theorem hex_digit : ∀ d, d < 16 → hexVal (hexDigit d) = some d ∧ hexDigit d ≠ '"' ∧ hexDigit d ≠ '\\' ∧ ¬ hexDigit d < ' ' := by decide +kernel

theorem hex8 (v : Nat) : hexFixed 8 v = [hexDigit (v / 268435456 % 16), hexDigit (v / 16777216 % 16), hexDigit (v / 1048576 % 16), hexDigit (v / 65536 % 16),
    hexDigit (v / 4096 % 16), hexDigit (v / 256 % 16), hexDigit (v / 16 % 16), hexDigit (v % 16)] := by
  simp only [hexFixed, List.nil_append, List.cons_append, Nat.div_div_eq_div_mul]

theorem read_checksum (c : BitVec 32) : readChecksum (checksumString c) = some c.toNat := by
  have hl : c.toNat < 4294967296 := c.isLt
  have k : ∀ n, hexVal (hexDigit (n % 16)) = some (n % 16) := fun n => (hex_digit _ (Nat.mod_lt _ (by decide))).1
  unfold checksumString
  rw [hex8]
  show readChecksum ['0', 'x', _, _, _, _, _, _, _, _] = _
  unfold readChecksum
  simp only [List.mapM_cons, List.mapM_nil, k, Option.pure_def, Option.bind_eq_bind, Option.bind_some, List.foldl_cons, List.foldl_nil]
  congr 1
  generalize c.toNat = v at hl
  omega

theorem reads_checksum (c : BitVec 32) : Reads (checksumMarshal c) (.str (checksumString c)) := by
  refine reads_word fun x hx => ?_
  unfold checksumString at hx
  rw [hex8] at hx
  have k : ∀ n, Plain (hexDigit (n % 16)) := fun n => (hex_digit _ (Nat.mod_lt _ (by decide))).2
  simp only [List.cons_append, List.nil_append, List.mem_cons, List.not_mem_nil, or_false] at hx
  rcases hx with rfl | rfl | rfl | rfl | rfl | rfl | rfl | rfl | rfl | rfl
  · unfold Plain; decide
  · unfold Plain; decide
  all_goals exact k _

/-! ### times -/

theorem two_digits (n : Nat) : two (Char.ofNat ('0'.toNat + n / 10 % 10)) (Char.ofNat ('0'.toNat + n % 10)) = some (n % 100) := by
  have key : ∀ a, a < 10 → ∀ b, b < 10 → two (Char.ofNat ('0'.toNat + a)) (Char.ofNat ('0'.toNat + b)) = some (10 * a + b) := by decide +kernel
  rw [key _ (Nat.mod_lt _ (by decide)) _ (Nat.mod_lt _ (by decide))]
  congr 1
  omega

theorem digit_plain (n : Nat) : Plain (Char.ofNat ('0'.toNat + n % 10)) := by
  have key : ∀ a, a < 10 → Char.ofNat ('0'.toNat + a) ≠ '"' ∧ Char.ofNat ('0'.toNat + a) ≠ '\\' ∧ ¬ Char.ofNat ('0'.toNat + a) < ' ' := by decide +kernel
  exact key _ (Nat.mod_lt _ (by decide))

theorem daysBefore_parts (a b c d : Nat) (hb : b ≤ 3) (hc : c ≤ 24) (hd : d ≤ 3) :
    daysBefore (400 * a + 100 * b + 4 * c + d + 1) = 146097 * a + 36524 * b + 1461 * c + 365 * d := by
  unfold daysBefore
  have e : ((400 * a + 100 * b + 4 * c + d + 1 : Nat) : Int) - 1 = 400 * a + 100 * b + 4 * c + d := by omega
  rw [e]
  have e1 : (400 * (a : Int) + 100 * b + 4 * c + d) / 4 = 100 * a + 25 * b + c := by omega
  have e2 : (400 * (a : Int) + 100 * b + 4 * c + d) / 100 = 4 * a + b := by omega
  have e3 : (400 * (a : Int) + 100 * b + 4 * c + d) / 400 = a := by omega
  rw [e1, e2, e3]
  omega

theorem yearDay_parts (D : Nat) : ∃ a b c d : Nat, b ≤ 3 ∧ c ≤ 24 ∧ d ≤ 3 ∧ (yearDay D).1 = 400 * a + 100 * b + 4 * c + d + 1 ∧
    D = 146097 * a + 36524 * b + 1461 * c + 365 * d + (yearDay D).2 ∧
    (yearDay D).2 ≤ 365 ∧ ((yearDay D).2 = 365 → d = 3 ∧ (c = 24 → b = 3)) := by
  unfold yearDay
  refine ⟨D / 146097, min (D % 146097 / 36524) 3, (D % 146097 - 36524 * min (D % 146097 / 36524) 3) / 1461,
    min ((D % 146097 - 36524 * min (D % 146097 / 36524) 3) % 1461 / 365) 3, ?_⟩
  dsimp only
  have h1 : min (D % 146097 / 36524) 3 * 36524 ≤ D % 146097 ∧ D % 146097 - 36524 * min (D % 146097 / 36524) 3 ≤ 36524 ∧
    (D % 146097 - 36524 * min (D % 146097 / 36524) 3 = 36524 → min (D % 146097 / 36524) 3 = 3) := by omega
  have hb : min (D % 146097 / 36524) 3 ≤ 3 := Nat.min_le_right _ _
  have h2 : D = 146097 * (D / 146097) + D % 146097 := (Nat.div_add_mod _ _).symm
  generalize D / 146097 = a at *
  generalize min (D % 146097 / 36524) 3 = b at *
  generalize D % 146097 = r at *
  have h3 : r = 36524 * b + (r - 36524 * b) := by omega
  generalize r - 36524 * b = s at *
  refine ⟨hb, by omega, by omega, rfl, by omega, by omega, by omega⟩

theorem yearDay_spec (D : Nat) : 1 ≤ (yearDay D).1 ∧ daysBefore (yearDay D).1 + (yearDay D).2 = D ∧
    (yearDay D).2 < (if isLeap (yearDay D).1 then 366 else 365) ∧ 365 * (yearDay D).1 ≤ D + 365 := by
  obtain ⟨a, b, c, d, hb, hc, hd, e1, e2, h1, h2⟩ := yearDay_parts D
  generalize (yearDay D).1 = y at *
  generalize (yearDay D).2 = yd at *
  subst e1
  refine ⟨by omega, by rw [daysBefore_parts a b c d hb hc hd]; omega, ?_, by omega⟩
  by_cases h : yd = 365
  · obtain ⟨rfl, h3⟩ := h2 h
    have : isLeap (400 * a + 100 * b + 4 * c + 3 + 1) = true := by
      unfold isLeap
      simp only [decide_eq_true_eq]
      by_cases h4 : c = 24
      · have := h3 h4
        omega
      · omega
    rw [if_pos this]
    omega
  · split <;> omega

theorem monthDay_spec {y yd : Nat} (h : yd < (if isLeap y then 366 else 365)) : 1 ≤ (monthDay y yd).1 ∧ (monthDay y yd).1 ≤ 12 ∧ 1 ≤ (monthDay y yd).2 ∧
    (monthDay y yd).2 ≤ (monthLengths y).getD ((monthDay y yd).1 - 1) 0 ∧
    ((monthLengths y).take ((monthDay y yd).1 - 1)).sum + (monthDay y yd).2 = yd + 1 := by
  have hl : leap y = isLeap y := rfl
  unfold monthDay cumulative monthLengths
  rw [hl]
  generalize isLeap y = b at h
  cases b
  · revert yd
    decide +kernel
  · revert yd
    decide +kernel

/-- offsets of less than a day -/
def Zoned (E : LogEnv) : Prop := ∀ t, -1440 < E.zone t ∧ E.zone t < 1440

theorem read_zone {off : Int} (h1 : -1440 < off) (h2 : off < 1440) :
    readZone (if off = 0 then ['Z'] else (if off < 0 then '-' else '+') :: twoDigits (off.natAbs / 60) ++ ':' :: twoDigits (off.natAbs % 60)) = some off := by
  by_cases h : off = 0
  · rw [if_pos h, h]; rfl
  · rw [if_neg h]
    unfold twoDigits
    simp only [List.cons_append, List.nil_append]
    by_cases hn : off < 0
    · rw [if_pos hn, readZone, two_digits, two_digits]
      simp only
      rw [if_pos (by omega), if_neg (by decide), if_pos trivial]
      congr 1
      omega
    · rw [if_neg hn, readZone, two_digits, two_digits]
      simp only
      rw [if_pos (by omega), if_pos trivial]
      congr 1
      omega

/-- a time after the beginning of the year 1 and before the year 10000, in whatever zone, can be written, and what is written says it -/
theorem read_timeText {E : LogEnv} (hz : Zoned E) {t : Int} (h0 : -62135510400 ≤ t) (h1 : t ≤ 250000000000) :
    ∃ s, timeText E t = some s ∧ readTime s = some t ∧ ∀ c ∈ s, Plain c := by
  obtain ⟨z1, z2⟩ := hz t
  unfold timeText
  have hpos : ¬ t + 60 * E.zone t + 86400 * (unixDay : Int) < 0 := by unfold unixDay; omega
  simp only
  rw [if_neg hpos]
  obtain ⟨y1, y2, y3, y4⟩ := yearDay_spec ((t + 60 * E.zone t + 86400 * (unixDay : Int)).toNat / 86400)
  have hy : (yearDay ((t + 60 * E.zone t + 86400 * (unixDay : Int)).toNat / 86400)).1 ≤ 9999 := by unfold unixDay at y4 ⊢; omega
  obtain ⟨m1, m2, m3, m4, m5⟩ := monthDay_spec y3
  rw [if_neg (by omega)]
  have hD : (((t + 60 * E.zone t + 86400 * (unixDay : Int)).toNat / 86400 : Nat) : Int) * 86400 +
    ((t + 60 * E.zone t + 86400 * (unixDay : Int)).toNat % 86400 : Nat) = t + 60 * E.zone t + 86400 * 719162 := by
    unfold unixDay; unfold unixDay at hpos; omega
  have hs : (t + 60 * E.zone t + 86400 * (unixDay : Int)).toNat % 86400 < 86400 := Nat.mod_lt _ (by decide)
  have hrz := read_zone z1 z2
  generalize hz : (if E.zone t = 0 then ['Z'] else (if E.zone t < 0 then '-' else '+') :: twoDigits ((E.zone t).natAbs / 60) ++ ':' ::
    twoDigits ((E.zone t).natAbs % 60)) = zs at hrz ⊢
  generalize (yearDay ((t + 60 * E.zone t + 86400 * (unixDay : Int)).toNat / 86400)).2 = yd at *
  generalize (yearDay ((t + 60 * E.zone t + 86400 * (unixDay : Int)).toNat / 86400)).1 = y at *
  generalize (t + 60 * E.zone t + 86400 * (unixDay : Int)).toNat / 86400 = D at *
  generalize (t + 60 * E.zone t + 86400 * (unixDay : Int)).toNat % 86400 = sec at *
  generalize (monthDay y yd).1 = m at *
  generalize (monthDay y yd).2 = d at *
  have hd : d ≤ 31 := by
    refine Nat.le_trans m4 ?_
    have : m = 1 ∨ m = 2 ∨ m = 3 ∨ m = 4 ∨ m = 5 ∨ m = 6 ∨ m = 7 ∨ m = 8 ∨ m = 9 ∨ m = 10 ∨ m = 11 ∨ m = 12 := by omega
    unfold monthLengths
    rcases this with rfl | rfl | rfl | rfl | rfl | rfl | rfl | rfl | rfl | rfl | rfl | rfl <;> simp
    split <;> omega
  refine ⟨_, rfl, ?_, ?_⟩
  · unfold twoDigits
    simp only [List.cons_append, List.nil_append]
    rw [readTime, two_digits, two_digits, two_digits, two_digits, two_digits, two_digits, two_digits, hrz]
    have e1 : 100 * (y / 100 % 100) + y % 100 = y := by omega
    have e2 : m % 100 = m := by omega
    have e3 : d % 100 = d := by omega
    simp only [e1, e2, e3]
    rw [if_pos ⟨m1, m2, m3, m4, by omega, by omega, by omega⟩]
    congr 1
    unfold midnight
    have e4 : daysBefore 1970 = 719162 := by decide
    rw [e4]
    generalize ((monthLengths y).take (m - 1)).sum = k at *
    omega
  · have hd : ∀ n, ∀ c ∈ twoDigits n, Plain c := by
      intro n c hc
      unfold twoDigits at hc
      simp only [List.mem_cons, List.not_mem_nil, or_false] at hc
      rcases hc with rfl | rfl <;> exact digit_plain _
    have hzs : ∀ c ∈ zs, Plain c := by
      intro c hc
      rw [← hz] at hc
      by_cases h : E.zone t = 0
      · rw [if_pos h] at hc
        simp only [List.mem_cons, List.not_mem_nil, or_false] at hc
        rw [hc]; unfold Plain; decide
      · rw [if_neg h] at hc
        simp only [List.mem_append, List.mem_cons] at hc
        rcases hc with (rfl | hc) | rfl | hc
        · split <;> (unfold Plain; decide)
        · exact hd _ _ hc
        · unfold Plain; decide
        · exact hd _ _ hc
    intro c hc
    simp only [List.mem_append, List.mem_cons] at hc
    have k : ∀ x : Char, (x = '-' ∨ x = 'T' ∨ x = ':') → Plain x := by
      rintro x (rfl | rfl | rfl) <;> (unfold Plain; decide)
    rcases hc with ((((((h | h) | h | h) | h | h) | h | h) | h | h) | h | h) | h
    all_goals first
      | exact hd _ _ h
      | exact hzs _ h
      | exact k _ (by tauto)

theorem read_zeroTime : readTime zeroTime = some noTime ∧ ∀ c ∈ zeroTime, Plain c := by
  have : readTime zeroTime = some noTime ∧ ∀ c ∈ zeroTime, c ≠ '"' ∧ c ≠ '\\' ∧ ¬ c < ' ' := by decide +kernel
  exact this

end Flate.Proof.Js
