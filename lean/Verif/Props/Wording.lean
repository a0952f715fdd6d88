/-
C96: what the text of a `CorruptInputError` says.
-/
import Verif.Props.Complaint
import Verif.Spec.Wording

namespace Flate.Props
open Flate.Spec Flate.Model Flate.Model.Rd Flate.Proof Flate.Proof.R

theorem digit16 : ∀ d < 16, hexVal (Nat.digitChar d) = some d ∧ (Nat.digitChar d = '0' → d = 0) := by decide

theorem numeral_snoc (b : Nat) (l : List Char) (c : Char) : numeral b (l ++ [c]) = (do
    let a ← numeral b l
    let v ← hexVal c
    if v < b then some (a * b + v) else none) := by
  unfold numeral
  rw [List.foldl_append]; rfl

theorem toDigits_numeral {b : Nat} (h1 : 1 < b) (h2 : b ≤ 16) : ∀ n : Nat, numeral b (Nat.toDigits b n) = some n := by
  intro n
  induction n using Nat.strongRecOn with
  | _ n ih =>
    by_cases h : n < b
    · rw [Nat.toDigits_of_lt_base h]
      have := (digit16 n (by omega)).1
      simp [numeral, this, h]
    · have hm : n % b < b := Nat.mod_lt _ (by omega)
      rw [Nat.toDigits_of_base_le h1 (by omega), numeral_snoc, ih (n / b) (Nat.div_lt_self (by omega) h1), (digit16 (n % b) (by omega)).1]
      simp only [Option.bind_eq_bind, Option.bind_some, if_pos hm]
      rw [Nat.mul_comm, Nat.div_add_mod]

theorem toDigits_head {b : Nat} (h1 : 1 < b) (h2 : b ≤ 16) (n : Nat) (h : (Nat.toDigits b n).head? = some '0') : (Nat.toDigits b n).length = 1 := by
  have key : ∀ n : Nat, 0 < n → (Nat.toDigits b n).head? ≠ some '0' := by
    intro n
    induction n using Nat.strongRecOn with
    | _ n ih =>
      intro hp
      by_cases h : n < b
      · rw [Nat.toDigits_of_lt_base h]
        simp only [List.head?_cons, ne_eq, Option.some.injEq]
        intro e
        have := (digit16 n (by omega)).2 e
        omega
      · rw [Nat.toDigits_of_base_le h1 (by omega), List.head?_append_of_ne_nil _ Nat.toDigits_ne_nil]
        exact ih _ (Nat.div_lt_self (by omega) h1) (Nat.div_pos (by omega) (by omega))
  rcases Nat.eq_zero_or_pos n with rfl | hp
  · rw [Nat.toDigits_zero]; rfl
  · exact absurd h (key n hp)

theorem numeral_zeros (b : Nat) (hb : 0 < b) (l : List Char) : ∀ k, numeral b (List.replicate k '0' ++ l) = numeral b l
  | 0 => by simp
  | k + 1 => by
    rw [List.replicate_succ, List.cons_append]
    have : numeral b ('0' :: (List.replicate k '0' ++ l)) = numeral b (List.replicate k '0' ++ l) := by
      unfold numeral
      rw [List.foldl_cons]
      simp [show hexVal '0' = some 0 by decide, hb]
    rw [this, numeral_zeros b hb l k]

theorem d_writes (n : Nat) : ∃ ds, (Msg.d n).toList = Base.dec.mark ++ ds ∧ Writes .dec n ds := by
  refine ⟨Nat.toDigits 10 n, ?_, toDigits_numeral (by decide) (by decide) n, Nat.toDigits_ne_nil, toDigits_head (by decide) (by decide) n⟩
  show (String.ofList _).toList = _
  rw [String.toList_ofList]; rfl

theorem x_writes (w n : Nat) : ∃ ds, (Msg.x w n).toList = (Base.hex w).mark ++ ds ∧ Writes (.hex w) n ds := by
  refine ⟨List.replicate (w - (Nat.toDigits 16 n).length) '0' ++ Nat.toDigits 16 n, ?_, ?_, ?_, ?_, ?_⟩
  · unfold Msg.x
    simp only [String.toList_append, String.toList_ofList]; rfl
  · exact (numeral_zeros 16 (by decide) _ _).trans (toDigits_numeral (by decide) (by decide) n)
  · simp [Nat.toDigits_ne_nil]
  · simp only [List.length_append, List.length_replicate]; omega
  · intro h1 h2
    simp only [List.length_append, List.length_replicate] at h1
    have : w - (Nat.toDigits 16 n).length = 0 := by omega
    rw [this] at h2 ⊢
    simp only [List.replicate_zero, List.nil_append] at h2 ⊢
    exact toDigits_head (by decide) (by decide) n h2

theorem shows_of {text label : String} {b : Base} {n : Nat} {num pre post : String} (hn : ∃ ds, num.toList = b.mark ++ ds ∧ Writes b n ds)
    (ht : text = pre ++ (label ++ (num ++ post))) (hp : ∀ c, post.toList.head? = some c → hexVal c = none) : Shows text label b n := by
  obtain ⟨ds, h1, h2⟩ := hn
  refine ⟨pre.toList, ds, post.toList, ?_, h2, hp⟩
  rw [ht]; simp only [String.toList_append, h1, List.append_assoc]


/-- The number after each label. -/
theorem shows_labels (lib : String) (p : Spec.Problem) : ∀ l ∈ labels p, Shows (Msg.problem lib p) l.1 l.2.1 l.2.2 := by
  intro l h
  have hp0 : ∀ c, ("" : String).toList.head? = some c → hexVal c = none := by simp
  have hp1 : ∀ {a : String} {c : Char}, a.toList.head? = some c → hexVal c = none → ∀ c', a.toList.head? = some c' → hexVal c' = none := by
    intro a c h1 h2 c' h3
    rw [h1] at h3; cases h3; exact h2
  have hp2 : ∀ {a b : String} {c : Char}, a.toList.head? = some c → hexVal c = none → ∀ c', (a ++ b).toList.head? = some c' → hexVal c' = none := by
    intro a b c h1 h2 c' h3
    rw [String.toList_append] at h3
    cases ha : a.toList with
    | nil => rw [ha] at h1; cases h1
    | cons x r => rw [ha] at h1 h3; cases h1; cases h3; exact h2
  cases p with
  | zlibCheck v r =>
    simp only [labels, List.mem_cons, List.not_mem_nil, or_false] at h
    rcases h with rfl | rfl
    · exact shows_of (num := Msg.x 4 v) (pre := "") (post := " mod 31 == 0, got " ++ (Msg.d r)) (x_writes 4 v) ((show _ = "invalid zlib header checksum -- expected " ++ Msg.x 4 v ++ " mod 31 == 0, got " ++ Msg.d r from rfl).trans (by simp only [String.append_assoc, String.empty_append, String.append_empty])) (hp2 (c := ' ') (by decide +kernel) (by decide))
    · exact shows_of (num := Msg.d r) (pre := "invalid zlib header checksum -- expected " ++ Msg.x 4 v) (post := "") (d_writes r) ((show _ = "invalid zlib header checksum -- expected " ++ Msg.x 4 v ++ " mod 31 == 0, got " ++ Msg.d r from rfl).trans (by simp only [String.append_assoc, String.empty_append, String.append_empty])) hp0
  | zlibMethod m =>
    simp only [labels, List.mem_cons, List.not_mem_nil, or_false] at h
    rcases h with rfl
    · exact shows_of (num := Msg.x 0 m) (pre := "") (post := "") (x_writes 0 m) ((show _ = "invalid zlib compression method -- expected 0x8 (DEFLATE), got " ++ Msg.x 0 m from rfl).trans (by simp only [String.append_assoc, String.empty_append, String.append_empty])) hp0
  | zlibWindow b l =>
    simp only [labels, List.mem_cons, List.not_mem_nil, or_false] at h
    rcases h with rfl | rfl
    · exact shows_of (num := Msg.d b) (pre := "zlib window size is too big -- ") (post := ", but this Reader is limited to 2**" ++ (Msg.d l)) (d_writes b) ((show _ = "zlib window size is too big -- data uses 2**" ++ Msg.d b ++ ", but this Reader is limited to 2**" ++ Msg.d l from rfl).trans (by rw [show ("zlib window size is too big -- data uses 2**" : String) = "zlib window size is too big -- " ++ "data uses 2**" by decide +kernel]; simp only [String.append_assoc, String.empty_append, String.append_empty])) (hp2 (c := ',') (by decide +kernel) (by decide))
    · exact shows_of (num := Msg.d l) (pre := "zlib window size is too big -- data uses 2**" ++ Msg.d b ++ ", but ") (post := "") (d_writes l) ((show _ = "zlib window size is too big -- data uses 2**" ++ Msg.d b ++ ", but this Reader is limited to 2**" ++ Msg.d l from rfl).trans (by rw [show (", but this Reader is limited to 2**" : String) = ", but " ++ "this Reader is limited to 2**" by decide +kernel]; simp only [String.append_assoc, String.empty_append, String.append_empty])) hp0
  | dictNeeded s =>
    simp only [labels, List.mem_cons, List.not_mem_nil, or_false] at h
    rcases h with rfl
    · exact shows_of (num := Msg.x 8 s) (pre := "zlib stream was compressed with a pre-set dictionary -- ") (post := "") (x_writes 8 s) ((show _ = "zlib stream was compressed with a pre-set dictionary -- Adler-32 checksum of the dictionary required to decompress this stream is " ++ Msg.x 8 s from rfl).trans (by rw [show ("zlib stream was compressed with a pre-set dictionary -- Adler-32 checksum of the dictionary required to decompress this stream is " : String) = "zlib stream was compressed with a pre-set dictionary -- " ++ "Adler-32 checksum of the dictionary required to decompress this stream is " by decide +kernel]; simp only [String.append_assoc, String.empty_append, String.append_empty])) hp0
  | dictOther s o =>
    simp only [labels, List.mem_cons, List.not_mem_nil, or_false] at h
    rcases h with rfl | rfl
    · exact shows_of (num := Msg.x 8 s) (pre := "zlib stream was compressed with a different pre-set dictionary -- ") (post := ", checksum of the provided dictionary is " ++ (Msg.x 8 o)) (x_writes 8 s) ((show _ = "zlib stream was compressed with a different pre-set dictionary -- Adler-32 checksum of the required dictionary is " ++ Msg.x 8 s ++ ", checksum of the provided dictionary is " ++ Msg.x 8 o from rfl).trans (by rw [show ("zlib stream was compressed with a different pre-set dictionary -- Adler-32 checksum of the required dictionary is " : String) = "zlib stream was compressed with a different pre-set dictionary -- " ++ "Adler-32 checksum of the required dictionary is " by decide +kernel]; simp only [String.append_assoc, String.empty_append, String.append_empty])) (hp2 (c := ',') (by decide +kernel) (by decide))
    · exact shows_of (num := Msg.x 8 o) (pre := "zlib stream was compressed with a different pre-set dictionary -- Adler-32 checksum of the required dictionary is " ++ Msg.x 8 s ++ ", ") (post := "") (x_writes 8 o) ((show _ = "zlib stream was compressed with a different pre-set dictionary -- Adler-32 checksum of the required dictionary is " ++ Msg.x 8 s ++ ", checksum of the provided dictionary is " ++ Msg.x 8 o from rfl).trans (by rw [show (", checksum of the provided dictionary is " : String) = ", " ++ "checksum of the provided dictionary is " by decide +kernel]; simp only [String.append_assoc, String.empty_append, String.append_empty])) hp0
  | dictNeedless o =>
    simp only [labels, List.mem_cons, List.not_mem_nil, or_false] at h
    rcases h with rfl
    · exact shows_of (num := Msg.x 8 o) (pre := "zlib stream was not compressed with a pre-set dictionary -- ") (post := "") (x_writes 8 o) ((show _ = "zlib stream was not compressed with a pre-set dictionary -- Adler-32 checksum of the supplied dictionary is " ++ Msg.x 8 o from rfl).trans (by rw [show ("zlib stream was not compressed with a pre-set dictionary -- Adler-32 checksum of the supplied dictionary is " : String) = "zlib stream was not compressed with a pre-set dictionary -- " ++ "Adler-32 checksum of the supplied dictionary is " by decide +kernel]; simp only [String.append_assoc, String.empty_append, String.append_empty])) hp0
  | zlibSum s c =>
    simp only [labels, List.mem_cons, List.not_mem_nil, or_false] at h
    rcases h with rfl | rfl
    · exact shows_of (num := Msg.x 8 s) (pre := "invalid zlib ") (post := ", computed value " ++ (Msg.x 8 c)) (x_writes 8 s) ((show _ = "invalid zlib Adler-32 checksum -- footer value " ++ Msg.x 8 s ++ ", computed value " ++ Msg.x 8 c from rfl).trans (by rw [show ("invalid zlib Adler-32 checksum -- footer value " : String) = "invalid zlib " ++ "Adler-32 checksum -- footer value " by decide +kernel]; simp only [String.append_assoc, String.empty_append, String.append_empty])) (hp2 (c := ',') (by decide +kernel) (by decide))
    · exact shows_of (num := Msg.x 8 c) (pre := "invalid zlib Adler-32 checksum -- footer value " ++ Msg.x 8 s ++ ", ") (post := "") (x_writes 8 c) ((show _ = "invalid zlib Adler-32 checksum -- footer value " ++ Msg.x 8 s ++ ", computed value " ++ Msg.x 8 c from rfl).trans (by rw [show (", computed value " : String) = ", " ++ "computed value " by decide +kernel]; simp only [String.append_assoc, String.empty_append, String.append_empty])) hp0
  | gzipMethod m =>
    simp only [labels, List.mem_cons, List.not_mem_nil, or_false] at h
    rcases h with rfl
    · exact shows_of (num := Msg.x 2 m) (pre := "") (post := " -- expected 0x08 (DEFLATE)") (x_writes 2 m) ((show _ = "invalid gzip compression method " ++ Msg.x 2 m ++ " -- expected 0x08 (DEFLATE)" from rfl).trans (by simp only [String.append_assoc, String.empty_append, String.append_empty])) (hp1 (c := ' ') (by decide +kernel) (by decide))
  | gzipFlags f =>
    simp only [labels, List.mem_cons, List.not_mem_nil, or_false] at h
    rcases h with rfl
    · exact shows_of (num := Msg.x 2 f) (pre := "") (post := "") (x_writes 2 f) ((show _ = "invalid gzip flag bits " ++ Msg.x 2 f from rfl).trans (by simp only [String.append_assoc, String.empty_append, String.append_empty])) hp0
  | gzipHeaderSum s c =>
    simp only [labels, List.mem_cons, List.not_mem_nil, or_false] at h
    rcases h with rfl | rfl
    · exact shows_of (num := Msg.x 4 s) (pre := "invalid gzip header ") (post := ", computed value " ++ (Msg.x 4 c)) (x_writes 4 s) ((show _ = "invalid gzip header CRC-16 checksum -- header value " ++ Msg.x 4 s ++ ", computed value " ++ Msg.x 4 c from rfl).trans (by rw [show ("invalid gzip header CRC-16 checksum -- header value " : String) = "invalid gzip header " ++ "CRC-16 checksum -- header value " by decide +kernel]; simp only [String.append_assoc, String.empty_append, String.append_empty])) (hp2 (c := ',') (by decide +kernel) (by decide))
    · exact shows_of (num := Msg.x 4 c) (pre := "invalid gzip header CRC-16 checksum -- header value " ++ Msg.x 4 s ++ ", ") (post := "") (x_writes 4 c) ((show _ = "invalid gzip header CRC-16 checksum -- header value " ++ Msg.x 4 s ++ ", computed value " ++ Msg.x 4 c from rfl).trans (by rw [show (", computed value " : String) = ", " ++ "computed value " by decide +kernel]; simp only [String.append_assoc, String.empty_append, String.append_empty])) hp0
  | gzipSum s c =>
    simp only [labels, List.mem_cons, List.not_mem_nil, or_false] at h
    rcases h with rfl | rfl
    · exact shows_of (num := Msg.x 8 s) (pre := "invalid gzip ") (post := ", computed value " ++ (Msg.x 8 c)) (x_writes 8 s) ((show _ = "invalid gzip CRC-32 checksum -- footer value " ++ Msg.x 8 s ++ ", computed value " ++ Msg.x 8 c from rfl).trans (by rw [show ("invalid gzip CRC-32 checksum -- footer value " : String) = "invalid gzip " ++ "CRC-32 checksum -- footer value " by decide +kernel]; simp only [String.append_assoc, String.empty_append, String.append_empty])) (hp2 (c := ',') (by decide +kernel) (by decide))
    · exact shows_of (num := Msg.x 8 c) (pre := "invalid gzip CRC-32 checksum -- footer value " ++ Msg.x 8 s ++ ", ") (post := "") (x_writes 8 c) ((show _ = "invalid gzip CRC-32 checksum -- footer value " ++ Msg.x 8 s ++ ", computed value " ++ Msg.x 8 c from rfl).trans (by rw [show (", computed value " : String) = ", " ++ "computed value " by decide +kernel]; simp only [String.append_assoc, String.empty_append, String.append_empty])) hp0
  | gzipLength s c =>
    simp only [labels, List.mem_cons, List.not_mem_nil, or_false] at h
    rcases h with rfl | rfl
    · exact shows_of (num := Msg.d s) (pre := "invalid gzip ") (post := ", computed value " ++ (Msg.d c)) (d_writes s) ((show _ = "invalid gzip decompressed length (mod 2**32) -- footer value " ++ Msg.d s ++ ", computed value " ++ Msg.d c from rfl).trans (by rw [show ("invalid gzip decompressed length (mod 2**32) -- footer value " : String) = "invalid gzip " ++ "decompressed length (mod 2**32) -- footer value " by decide +kernel]; simp only [String.append_assoc, String.empty_append, String.append_empty])) (hp2 (c := ',') (by decide +kernel) (by decide))
    · exact shows_of (num := Msg.d c) (pre := "invalid gzip decompressed length (mod 2**32) -- footer value " ++ Msg.d s ++ ", ") (post := "") (d_writes c) ((show _ = "invalid gzip decompressed length (mod 2**32) -- footer value " ++ Msg.d s ++ ", computed value " ++ Msg.d c from rfl).trans (by rw [show (", computed value " : String) = ", " ++ "computed value " by decide +kernel]; simp only [String.append_assoc, String.empty_append, String.append_empty])) hp0
  | storedLen l n w =>
    simp only [labels, List.mem_cons, List.not_mem_nil, or_false] at h
    rcases h with rfl | rfl | rfl
    · exact shows_of (num := Msg.x 4 l) (pre := "") (post := " NLEN " ++ (Msg.x 4 n ++ ", expected NLEN " ++ Msg.x 4 w)) (x_writes 4 l) ((show _ = "got LEN " ++ Msg.x 4 l ++ " NLEN " ++ Msg.x 4 n ++ ", expected NLEN " ++ Msg.x 4 w from rfl).trans (by simp only [String.append_assoc, String.empty_append, String.append_empty])) (hp2 (c := ' ') (by decide +kernel) (by decide))
    · exact shows_of (num := Msg.x 4 n) (pre := "got LEN " ++ Msg.x 4 l) (post := ", expected NLEN " ++ (Msg.x 4 w)) (x_writes 4 n) ((show _ = "got LEN " ++ Msg.x 4 l ++ " NLEN " ++ Msg.x 4 n ++ ", expected NLEN " ++ Msg.x 4 w from rfl).trans (by simp only [String.append_assoc, String.empty_append, String.append_empty])) (hp2 (c := ',') (by decide +kernel) (by decide))
    · exact shows_of (num := Msg.x 4 w) (pre := "got LEN " ++ Msg.x 4 l ++ " NLEN " ++ Msg.x 4 n ++ ", ") (post := "") (x_writes 4 w) ((show _ = "got LEN " ++ Msg.x 4 l ++ " NLEN " ++ Msg.x 4 n ++ ", expected NLEN " ++ Msg.x 4 w from rfl).trans (by rw [show (", expected NLEN " : String) = ", " ++ "expected NLEN " by decide +kernel]; simp only [String.append_assoc, String.empty_append, String.append_empty])) hp0
  | badLitLen s =>
    simp only [labels, List.mem_cons, List.not_mem_nil, or_false] at h
    rcases h with rfl
    · exact shows_of (num := Msg.d s) (pre := "") (post := "") (d_writes s) ((show _ = "invalid literal/length symbol " ++ Msg.d s from rfl).trans (by simp only [String.append_assoc, String.empty_append, String.append_empty])) hp0
  | badDist s =>
    simp only [labels, List.mem_cons, List.not_mem_nil, or_false] at h
    rcases h with rfl
    · exact shows_of (num := Msg.d s) (pre := "") (post := "") (d_writes s) ((show _ = "invalid distance symbol " ++ Msg.d s from rfl).trans (by simp only [String.append_assoc, String.empty_append, String.append_empty])) hp0
  | tooFar dist size =>
    simp only [labels, List.mem_cons, List.not_mem_nil, or_false] at h
    rcases h with rfl | rfl
    · exact shows_of (num := Msg.d dist) (pre := "") (post := " > window.Size " ++ (Msg.d size)) (d_writes dist) ((show _ = "distance " ++ Msg.d dist ++ " > window.Size " ++ Msg.d size from rfl).trans (by simp only [String.append_assoc, String.empty_append, String.append_empty])) (hp2 (c := ' ') (by decide +kernel) (by decide))
    · exact shows_of (num := Msg.d size) (pre := "distance " ++ Msg.d dist) (post := "") (d_writes size) ((show _ = "distance " ++ Msg.d dist ++ " > window.Size " ++ Msg.d size from rfl).trans (by simp only [String.append_assoc, String.empty_append, String.append_empty])) hp0
  | hlit n l =>
    simp only [labels, List.mem_cons, List.not_mem_nil, or_false] at h
    rcases h with rfl | rfl
    · exact shows_of (num := Msg.d n) (pre := "") (post := " > " ++ (Msg.d l)) (d_writes n) ((show _ = "HLIT " ++ Msg.d n ++ " > " ++ Msg.d l from rfl).trans (by simp only [String.append_assoc, String.empty_append, String.append_empty])) (hp2 (c := ' ') (by decide +kernel) (by decide))
    · exact shows_of (num := Msg.d l) (pre := "HLIT " ++ Msg.d n) (post := "") (d_writes l) ((show _ = "HLIT " ++ Msg.d n ++ " > " ++ Msg.d l from rfl).trans (by simp only [String.append_assoc, String.empty_append, String.append_empty])) hp0
  | hdist n l =>
    simp only [labels, List.mem_cons, List.not_mem_nil, or_false] at h
    rcases h with rfl | rfl
    · exact shows_of (num := Msg.d n) (pre := "") (post := " > " ++ (Msg.d l)) (d_writes n) ((show _ = "HDIST " ++ Msg.d n ++ " > " ++ Msg.d l from rfl).trans (by simp only [String.append_assoc, String.empty_append, String.append_empty])) (hp2 (c := ' ') (by decide +kernel) (by decide))
    · exact shows_of (num := Msg.d l) (pre := "HDIST " ++ Msg.d n) (post := "") (d_writes l) ((show _ = "HDIST " ++ Msg.d n ++ " > " ++ Msg.d l from rfl).trans (by simp only [String.append_assoc, String.empty_append, String.append_empty])) hp0
  | repeatMany c l =>
    simp only [labels, List.mem_cons, List.not_mem_nil, or_false] at h
    rcases h with rfl | rfl
    · exact shows_of (num := Msg.d c) (pre := "") (post := " times but only " ++ (Msg.d l ++ " codes remain")) (d_writes c) ((show _ = "attempt to repeat " ++ Msg.d c ++ " times but only " ++ Msg.d l ++ " codes remain" from rfl).trans (by simp only [String.append_assoc, String.empty_append, String.append_empty])) (hp2 (c := ' ') (by decide +kernel) (by decide))
    · exact shows_of (num := Msg.d l) (pre := "attempt to repeat " ++ Msg.d c) (post := " codes remain") (d_writes l) ((show _ = "attempt to repeat " ++ Msg.d c ++ " times but only " ++ Msg.d l ++ " codes remain" from rfl).trans (by simp only [String.append_assoc, String.empty_append, String.append_empty])) (hp1 (c := ' ') (by decide +kernel) (by decide))
  | _ => simp [labels] at h

/-! ### what the messages claim -/

theorem be_ne {p : List UInt8} {k n : Nat} (hl : p.length = k) (h : p ≠ beBytes k n) : beValue p ≠ n := by
  intro e
  apply h
  have := beBytes_beVal p
  rw [hl, Wrong.beVal_value, e] at this
  exact this.symm

theorem le_ne {p : List UInt8} {k n : Nat} (hl : p.length = k) (h : p ≠ leBytes k n) : leValue p ≠ n := by
  intro e
  apply h
  have := leBytes_leVal p
  rw [hl, Wrong.leVal_value, e] at this
  exact this.symm

/-- a message which claims that a distance exceeds the size of the window -/
def IsFar (p : Spec.Problem) (win : Nat) : Prop := ∃ d, p = .tooFar d win ∧ 1 ≤ d ∧ d ≤ 32768

theorem claim_data {win : Nat} {ll d : List Nat} {h : List UInt8} {p : Spec.Problem} {bits rest : List Bool} (hw : DataWrong win ll d h p bits rest) : Claim p ∨ IsFar p win := by
  induction hw with
  | after _ _ _ _ ih => exact ih
  | noSymbol _ => exact .inl trivial
  | badSymbol _ _ h => exact .inl h
  | noDistance => exact .inl trivial
  | badDistance _ _ _ _ _ _ _ h => exact .inl h
  | tooFar li lx di dx hv _ => exact .inr ⟨_, rfl, refDist_range hv.2.2.1 hv.2.2.2.1⟩

theorem claim_lens {cl : List Nat} {total : Nat} {acc : List Nat} {p : Spec.Problem} {bits rest : List Bool} (hw : LensWrong cl total acc p bits rest) : Claim p := by
  induction hw with
  | after _ _ _ _ _ _ _ ih => exact ih
  | noSymbol => trivial
  | nothing => trivial
  | tooMany sym x h1 _ _ _ h5 => show _ - _ < _ - _; omega

theorem claim_block {ok : List Nat → Prop} {win pos : Nat} {h : List UInt8} {p : Spec.Problem} {bits rest : List Bool} (hw : BlockWrong ok win pos h p bits rest) : Claim p ∨ IsFar p win := by
  cases hw with
  | reserved => exact .inl trivial
  | stored _ _ len nlen _ _ _ h => exact .inl ⟨rfl, h⟩
  | fixed _ h => exact claim_data h
  | dynamic _ _ _ h => exact claim_data h
  | trees _ h =>
    left
    cases h with
    | hlit _ _ _ h => exact h
    | hdist _ _ _ _ _ h => exact h
    | bootstrap => trivial
    | lens _ _ h => exact claim_lens h
    | litlen => trivial
    | dist => trivial

theorem claim_blocks {ok : List Nat → Prop} {win pos : Nat} {h : List UInt8} {p : Spec.Problem} {bits rest : List Bool} (hw : BlocksWrong ok win pos h p bits rest) : Claim p ∨ IsFar p win := by
  induction hw with
  | after _ _ ih => exact ih
  | here h => exact claim_block h

theorem claim_stream {ok : List Nat → Prop} {win : Nat} {dict : Option (List UInt8)} {c : Container} {p : Spec.Problem} {w : List UInt8} {n : Nat} (hw : StreamWrong ok win dict c p w n) :
    Claim p ∨ IsFar p win := by
  cases hw with
  | blocks _ h => exact claim_blocks h
  | zlib h =>
    left
    cases h with
    | check _ _ h => exact ⟨rfl, h⟩
    | method _ _ _ h => exact h
    | window cmf flg limit h1 _ _ h => rw [h1] at h; exact (Nat.pow_lt_pow_iff_right (by omega)).1 h
    | noDict => trivial
    | otherDict _ _ _ _ _ _ _ _ hl _ h => exact be_ne hl h
    | needless => trivial
  | gzip h =>
    left
    cases h with
    | magic => trivial
    | method cm _ _ h => exact fun e => h (UInt8.toNat_inj.1 e)
    | flags flg _ _ h => show _ ≠ _; omega
    | crc g p _ _ _ hl h => exact le_ne hl h
  | footer _ _ h =>
    left
    cases h with
    | adler _ hl h => exact be_ne hl h
    | crc _ _ hl _ h => exact le_ne hl h
    | length _ hl h => exact le_ne hl h

/-- what the message about distances says at least -/
def FarOk (win : Nat) (p : Spec.Problem) : Prop := ∀ d w, p = .tooFar d w → w = win ∧ 1 ≤ d ∧ d ≤ 32768

theorem far_data {win : Nat} {ll d : List Nat} {h : List UInt8} {p : Spec.Problem} {bits rest : List Bool} (hw : DataWrong win ll d h p bits rest) : FarOk win p := by
  induction hw with
  | after _ _ _ _ ih => exact ih
  | tooFar li lx di dx hv _ =>
    intro d w e
    injection e with e1 e2
    subst e1 e2
    exact ⟨rfl, refDist_range hv.2.2.1 hv.2.2.2.1⟩
  | _ => intro _ _ e; cases e

theorem far_lens {cl : List Nat} {total : Nat} {acc : List Nat} {win : Nat} {p : Spec.Problem} {bits rest : List Bool} (hw : LensWrong cl total acc p bits rest) : FarOk win p := by
  induction hw with
  | after _ _ _ _ _ _ _ ih => exact ih
  | _ => intro _ _ e; cases e

theorem far_blocks {ok : List Nat → Prop} {win pos : Nat} {h : List UInt8} {p : Spec.Problem} {bits rest : List Bool} (hw : BlocksWrong ok win pos h p bits rest) : FarOk win p := by
  induction hw with
  | after _ _ ih => exact ih
  | here h =>
    cases h with
    | fixed _ h => exact far_data h
    | dynamic _ _ _ h => exact far_data h
    | trees _ h =>
      cases h with
      | lens _ _ h => exact far_lens h
      | _ => intro _ _ e; cases e
    | _ => intro _ _ e; cases e

theorem far_stream {ok : List Nat → Prop} {win : Nat} {dict : Option (List UInt8)} {c : Container} {p : Spec.Problem} {w : List UInt8} {n : Nat} (hw : StreamWrong ok win dict c p w n) :
    FarOk win p := by
  cases hw with
  | blocks _ h => exact far_blocks h
  | zlib h => cases h <;> (intro _ _ e; cases e)
  | gzip h => cases h <;> (intro _ _ e; cases e)
  | footer _ _ h => cases h <;> (intro _ _ e; cases e)

/-- **C96.** The text of a `CorruptInputError` begins with the offset in the stream; after it, each of the numbers in the message stands behind the words which say what it is
(`Spec.labels`), in decimal or with the usual hexadecimal width, and can be read back.  (That these are the right numbers — checksum in the footer, checksum of the data, and so on — is
what `C91_problem` and `C92_reported` say.) -/
theorem C96_numbers (lib : String) (inStream : Nat) (problem : Spec.Problem) :
    (∃ t, Msg.corruptError inStream (Msg.problem lib problem) = "corrupt input at/near byte offset " ++ Msg.d inStream ++ ": " ++ t ∧ ∀ l ∈ labels problem, Shows t l.1 l.2.1 l.2.2) ∧
    Shows (Msg.corruptError inStream (Msg.problem lib problem)) "corrupt input at/near byte offset " .dec inStream := by
  refine ⟨⟨_, rfl, shows_labels lib problem⟩, ?_⟩
  refine shows_of (num := Msg.d inStream) (pre := "") (post := ": " ++ Msg.problem lib problem) (d_writes _) ?_ ?_
  · unfold Msg.corruptError
    simp only [String.append_assoc, String.empty_append]
  · intro c hc
    rw [String.toList_append] at hc
    have : (": " : String).toList = [':', ' '] := by decide +kernel
    rw [this] at hc
    cases hc
    decide

/-- **C96 (as far as it holds).** What the message claims about the numbers in it — that two checksums differ, that one number is greater than another, and so on (`Spec.Claim`) — is
true, whatever the input; except for the message about a distance.  Missing: that message, see `C96_fails`. -/
theorem C96_partial {c : RSetup} (h : c.OK) {src : Src} {s : RState} (hr : c.Runs src s) (hsrc : ∀ t i p, src.err ≠ .corrupt t i p)
    {total inStream : Nat} {problem : Spec.Problem} (he : actErr s.out.acts = some (.corrupt total inStream problem)) (hfar : ∀ d w, problem ≠ .tooFar d w) : Claim problem := by
  obtain ⟨_, _, _, _, _, _, _, _, _, hw⟩ := C91_problem h hr hsrc he
  rcases claim_stream hw with h | ⟨d, rfl, _⟩
  · exact h
  · exact absurd rfl (hfar _ _)

/-- Of the message "distance D > window.Size S", S is the size of the window, and D between 1 and 32768.  With a window of 32768 bytes, which is the default, the message is never true. -/
theorem C96_far {c : RSetup} (h : c.OK) {src : Src} {s : RState} (hr : c.Runs src s) (hsrc : ∀ t i p, src.err ≠ .corrupt t i p)
    {total inStream d w : Nat} (he : actErr s.out.acts = some (.corrupt total inStream (.tooFar d w))) : w = 2 ^ c.o.wbits ∧ 1 ≤ d ∧ d ≤ 32768 ∧ (c.o.wbits = 15 → ¬ Claim (.tooFar d w)) := by
  obtain ⟨_, _, _, _, _, _, _, _, _, hw⟩ := C91_problem h hr hsrc he
  obtain ⟨h1, h2, h3⟩ := far_stream hw d w rfl
  refine ⟨h1, h2, h3, fun hb hc => ?_⟩
  have hc : w < d := hc
  rw [h1, hb] at hc
  omega

/-- **C96 fails.** A stream which begins with a match of distance 1: the message is "distance 1 > window.Size 32768". -/
theorem C96_fails : ∃ src s, (rdemo [.format .raw]).Runs src s ∧ actErr s.out.acts = some (.corrupt 2 2 (.tooFar 1 32768)) ∧ ¬ Claim (.tooFar 1 32768) ∧
    ∀ lib, Msg.corruptError 2 (Msg.problem lib (.tooFar 1 32768)) = "corrupt input at/near byte offset 2: distance 1 > window.Size 32768" := by
  obtain ⟨s, h1, h2⟩ := acts?_some (c := rdemo [.format .raw]) (src := ⟨[(3, [2])], [], .eof⟩) (as := [.err (.corrupt 2 2 (.tooFar 1 32768))]) (by decide +kernel)
  exact ⟨_, s, h1, by rw [h2]; rfl, (by show ¬ (32768 < 1); omega), fun lib => by show _ ++ ("distance " ++ Msg.d 1 ++ " > window.Size " ++ Msg.d 32768) = _; decide +kernel⟩

/-- Texts of messages, all of them for inputs which occur in `C91` and `C92`. -/
example (lib : String) : Msg.problem lib (.zlibSum 2 1) = "invalid zlib Adler-32 checksum -- footer value 0x00000002, computed value 0x00000001" := by
  show "invalid zlib Adler-32 checksum -- footer value " ++ Msg.x 8 2 ++ ", computed value " ++ Msg.x 8 1 = _
  decide +kernel

example (lib : String) : Msg.problem lib (.storedLen 1 65535 65534) = "got LEN 0x0001 NLEN 0xffff, expected NLEN 0xfffe" := by
  show "got LEN " ++ Msg.x 4 1 ++ " NLEN " ++ Msg.x 4 65535 ++ ", expected NLEN " ++ Msg.x 4 65534 = _
  decide +kernel

end Flate.Props
