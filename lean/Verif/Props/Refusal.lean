/-
C97: the errors of `SetHeader` and of the `Parse` methods say what is wrong.
-/
import Verif.Model.Refusal
import Verif.Props.Text
import Verif.Props.WriterHeader

namespace Flate.Props
open Flate.Spec Flate.Model Flate.Model.Refusal

/-- why `SetHeader` makes the complaint: what its words say, or one of three limiting values -/
def HeaderProblem.Reason (h : Header) (p : HeaderProblem) : Prop :=
  p.Claim h ∨ (p = .nameLong ∧ h.fileName.length = 256) ∨ (p = .commentLong ∧ h.comment.length = 256) ∨ (p = .time ∧ h.lastModified = some (2 ^ 32 - 1))

theorem mem_checkRecords (p : HeaderProblem) : ∀ (rs : List ExtraRec) (i : Nat) (l : List HeaderProblem),
    p ∈ checkRecords i rs l ↔ p ∈ l ∨ ∃ j r, rs[j]? = some r ∧ 65535 < 4 + r.bytes.length ∧ p = .record (i + j) (4 + r.bytes.length)
  | [], i, l => by simp [checkRecords]
  | r :: rs, i, l => by
    unfold checkRecords
    rw [mem_checkRecords p rs]
    constructor
    · rintro (h | ⟨j, r', h1, h2, h3⟩)
      · split at h
        · rename_i hc
          rcases List.mem_append.1 h with h | h
          · exact .inl h
          · exact .inr ⟨0, r, rfl, hc, by simpa using h⟩
        · exact .inl h
      · exact .inr ⟨j + 1, r', h1, h2, by rw [h3]; congr 1; omega⟩
    · rintro (h | ⟨j, r', h1, h2, h3⟩)
      · left
        split
        · exact List.mem_append_left _ h
        · exact h
      · cases j with
        | zero =>
          cases h1
          left
          rw [if_pos h2, h3]
          simp
        | succ j => exact .inr ⟨j, r', h1, h2, by rw [h3]; congr 1; omega⟩

theorem extra_size (l : List ExtraRec) : (extraAsBytes l).length = (l.map fun r => r.bytes.length + 4).sum := by
  unfold extraAsBytes
  induction l with
  | nil => rfl
  | cons r l ih =>
    rw [List.flatMap_cons, List.length_append, ih, List.map_cons, List.sum_cons]
    simp only [List.length_append, List.length_cons, List.length_nil, Proof.leBytes_length]
    omega

theorem mem_ite {c : Prop} [Decidable c] {l : List HeaderProblem} {x p : HeaderProblem} : p ∈ (if c then l ++ [x] else l) ↔ p ∈ l ∨ (c ∧ p = x) := by
  split <;> simp_all

theorem mem_time (h : Header) (l : List HeaderProblem) (p : HeaderProblem) :
    p ∈ checkTime h l ↔ p ∈ l ∨ ((∃ t, h.lastModified = some t ∧ (t < 0 ∨ t ≥ 2 ^ 32 - 1)) ∧ p = .time) := by
  unfold checkTime
  cases h.lastModified with
  | none => simp
  | some t =>
    simp only [mem_ite, Option.some.injEq]
    constructor
    · rintro (h | ⟨h, e⟩)
      · exact .inl h
      · exact .inr ⟨⟨t, rfl, by omega⟩, e⟩
    · rintro (h | ⟨⟨_, rfl, h⟩, e⟩)
      · exact .inl h
      · exact .inr ⟨by omega, e⟩

theorem mem_os (h : Header) (l : List HeaderProblem) (p : HeaderProblem) : p ∈ checkOS h l ↔ p ∈ l ∨ (14 < h.osType ∧ p = .os) := by
  unfold checkOS
  split
  · have : ¬ 14 < h.osType := by omega
    simp [this]
  · have : 14 < h.osType := by omega
    simp [this]

/-- **C97 (each reason is given, and only reasons).** -/
theorem mem_problems (h : Header) (p : HeaderProblem) : p ∈ headerProblems h ↔ HeaderProblem.Reason h p := by
  unfold headerProblems checkExtra
  simp only [extra_size, mem_ite, mem_checkRecords, mem_os, mem_time, checkComment, checkFileName, List.not_mem_nil, false_or, List.contains_iff_mem]
  unfold HeaderProblem.Reason
  cases p <;> simp [HeaderProblem.Claim]
  case nameLong => omega
  case commentLong => omega
  case time =>
    constructor
    · rintro ⟨t, h1, h2⟩
      by_cases e : t = 4294967295
      · exact .inr (by rw [h1, e])
      · exact .inl ⟨t, h1, by omega⟩
    · rintro (⟨t, h1, h2⟩ | h1)
      · exact ⟨t, h1, by omega⟩
      · exact ⟨_, h1, by omega⟩
  case record i n =>
    constructor
    · rintro ⟨r, h1, h2, h3⟩; exact ⟨r, h1, by omega, by omega⟩
    · rintro ⟨r, h1, h2, h3⟩; exact ⟨r, h1, by omega, by omega⟩
  case extra n =>
    constructor
    · rintro ⟨h1, h2⟩; exact ⟨h2, by omega⟩
    · rintro ⟨h1, h2⟩; exact ⟨by omega, h1⟩

/-- the one complaint comes before the other -/
def HeaderProblem.Before (a b : HeaderProblem) : Prop := a.rank.1 < b.rank.1 ∨ (a.rank.1 = b.rank.1 ∧ a.rank.2 < b.rank.2)

/-- the complaints so far are in order, and come before what is still to be looked at -/
def Sorted (k : Nat × Nat) (l : List HeaderProblem) : Prop :=
  l.Pairwise HeaderProblem.Before ∧ ∀ p ∈ l, p.rank.1 < k.1 ∨ (p.rank.1 = k.1 ∧ p.rank.2 < k.2)

theorem Sorted.ite {c : Prop} [Decidable c] {l : List HeaderProblem} {x : HeaderProblem} {k : Nat × Nat} (h : Sorted x.rank l)
    (hk : x.rank.1 < k.1 ∨ (x.rank.1 = k.1 ∧ x.rank.2 < k.2)) : Sorted k (if c then l ++ [x] else l) := by
  have h2 : ∀ p ∈ l, p.rank.1 < k.1 ∨ (p.rank.1 = k.1 ∧ p.rank.2 < k.2) := fun p hp => by
    have := h.2 p hp; omega
  split
  · refine ⟨List.pairwise_append.2 ⟨h.1, List.pairwise_singleton _ _, fun a ha b hb => ?_⟩, fun p hp => ?_⟩
    · rw [List.mem_singleton.1 hb]; exact h.2 a ha
    · rcases List.mem_append.1 hp with hp | hp
      · exact h2 p hp
      · rw [List.mem_singleton.1 hp]; exact hk
  · exact ⟨h.1, h2⟩

theorem Sorted.up {l : List HeaderProblem} {j k : Nat × Nat} (h : Sorted j l) (hk : j.1 < k.1 ∨ (j.1 = k.1 ∧ j.2 ≤ k.2)) : Sorted k l :=
  ⟨h.1, fun p hp => by have := h.2 p hp; omega⟩

theorem sorted_records : ∀ (rs : List ExtraRec) (i : Nat) (l : List HeaderProblem), Sorted (8, i) l → Sorted (9, 0) (checkRecords i rs l)
  | [], i, l, h => h.up (.inl (by show (8 : Nat) < 9; omega))
  | r :: rs, i, l, h => by
    unfold checkRecords
    exact sorted_records rs (i + 1) _ (Sorted.ite (x := .record i (4 + r.bytes.length)) h (.inr ⟨rfl, by show i < i + 1; omega⟩))

theorem sorted_problems (h : Header) : (headerProblems h).Pairwise HeaderProblem.Before := by
  have h0 : Sorted (0, 0) [] := ⟨List.Pairwise.nil, fun _ h => absurd h List.not_mem_nil⟩
  have lt : ∀ {a b : Nat}, a < b → ((a, 0) : Nat × Nat).1 < ((b, 0) : Nat × Nat).1 ∨ (((a, 0) : Nat × Nat).1 = ((b, 0) : Nat × Nat).1 ∧ (0 : Nat) < 0) := fun h => .inl h
  have h1 : Sorted (4, 0) (checkFileName h []) := by
    unfold checkFileName
    exact .ite (x := .nameBackslash) (k := (4, 0)) (.ite (x := .nameSlash) (k := (3, 0)) (.ite (x := .nameNul) (k := (2, 0)) (.ite (x := .nameLong) (k := (1, 0)) h0 (lt (by omega))) (lt (by omega)))
      (lt (by omega))) (lt (by omega))
  have h2 : Sorted (6, 0) (checkComment h (checkFileName h [])) := by
    unfold checkComment
    exact .ite (x := .commentNul) (k := (6, 0)) (.ite (x := .commentLong) (k := (5, 0)) h1 (lt (by omega))) (lt (by omega))
  have h3 : Sorted (7, 0) (checkTime h (checkComment h (checkFileName h []))) := by
    unfold checkTime
    cases h.lastModified with
    | none => exact h2.up (.inl (by show (6 : Nat) < 7; omega))
    | some t => exact Sorted.ite (x := .time) (k := (7, 0)) h2 (lt (by omega))
  have h4 : Sorted (8, 0) (checkOS h (checkTime h (checkComment h (checkFileName h [])))) := by
    have := Sorted.ite (c := ¬ h.osType ≤ 14) (x := .os) (k := (8, 0)) h3 (lt (by omega))
    unfold checkOS
    by_cases c : h.osType ≤ 14
    · rw [if_pos c]; rwa [if_neg (by simpa using c)] at this
    · rw [if_neg c]; rwa [if_pos c] at this
  unfold headerProblems checkExtra
  exact (Sorted.ite (x := .extra (extraAsBytes h.extra).length) (k := (10, 0)) (sorted_records h.extra 0 _ h4) (.inl (by show (9 : Nat) < 10; omega))).1

/-- the complaints in an error of `SetHeader` -/
def complaints : Option HeaderErr → List HeaderProblem
  | none => []
  | some (.one p) => [p]
  | some (.multi l) => l

/-- **C97 (SetHeader).** Whatever the header and the state of the Writer: the error of `SetHeader` contains, once each and in order, all reasons there are not to accept the header, and nothing else; it is
a single error if there is one reason, and a list if there are several.  The Writer's header is set exactly if there is no error (this is the `SetHeader` of `C22`). -/
theorem C97_setHeader (h : Header) (s : WState) :
    (∀ p, p ∈ complaints (setHeader h s).1 ↔ HeaderProblem.Reason h p) ∧
    (complaints (setHeader h s).1).Pairwise HeaderProblem.Before ∧
    (∀ l, (setHeader h s).1 = some (.multi l) → 2 ≤ l.length) ∧
    wSetHeader h s = .ok ((setHeader h s).1.isNone, (setHeader h s).2) := by
  have e : complaints (setHeader h s).1 = headerProblems h := by
    unfold setHeader
    rcases headerProblems h with _ | ⟨p, _ | ⟨q, l⟩⟩ <;> rfl
  refine ⟨fun p => by rw [e]; exact mem_problems h p, by rw [e]; exact sorted_problems h, fun l => ?_, ?_⟩
  · unfold setHeader
    rcases headerProblems h with _ | ⟨p, _ | ⟨q, l'⟩⟩
    · intro h; cases h
    · intro h; cases h
    · intro h; cases h; simp
  · have hok : headerOK h = true ↔ headerProblems h = [] := by
      rw [List.eq_nil_iff_forall_not_mem]
      rw [Proof.headerOK_iff]
      simp only [mem_problems, HeaderProblem.Reason]
      constructor
      · intro ok p hp
        rcases hp with hp | ⟨_, hp⟩ | ⟨_, hp⟩ | ⟨_, hp⟩
        · cases p with
          | nameLong => have := ok.name; simp only [HeaderProblem.Claim] at hp; omega
          | nameNul => exact (ok.nameChars _ hp).1 rfl
          | nameSlash => exact (ok.nameChars _ hp).2.1 rfl
          | nameBackslash => exact (ok.nameChars _ hp).2.2 rfl
          | commentLong => have := ok.comment; simp only [HeaderProblem.Claim] at hp; omega
          | commentNul => exact ok.commentChars _ hp rfl
          | time => obtain ⟨t, h1, h2⟩ := hp; have := ok.time t h1; omega
          | os => have := ok.os; simp only [HeaderProblem.Claim] at hp; omega
          | record i n => obtain ⟨r, h1, h2, h3⟩ := hp; have := ok.recs r (List.mem_of_getElem? h1); omega
          | extra n =>
            obtain ⟨h1, h2⟩ := hp
            have h3 := ok.total
            rw [← Proof.extraLen, extra_size] at h3
            omega
        · have := ok.name; omega
        · have := ok.comment; omega
        · have := ok.time _ hp; omega
      · intro np
        have n1 : ∀ {p : HeaderProblem}, ¬ p.Claim h := fun hp => np _ (.inl hp)
        refine ⟨?_, fun x hx => ⟨fun e => ?_, fun e => ?_, fun e => ?_⟩, ?_, fun x hx e => ?_, fun t ht => ?_, ?_, fun r hr => ?_, ?_⟩
        · have h1 : ¬ 256 < h.fileName.length := n1 (p := .nameLong)
          have h2 : ¬ h.fileName.length = 256 := fun e => np _ (.inr (.inl ⟨rfl, e⟩))
          omega
        · subst e; exact n1 (p := .nameNul) hx
        · subst e; exact n1 (p := .nameSlash) hx
        · subst e; exact n1 (p := .nameBackslash) hx
        · have h1 : ¬ 256 < h.comment.length := n1 (p := .commentLong)
          have h2 : ¬ h.comment.length = 256 := fun e => np _ (.inr (.inr (.inl ⟨rfl, e⟩)))
          omega
        · subst e; exact n1 (p := .commentNul) hx
        · have h1 : ¬ ∃ t, h.lastModified = some t ∧ ¬ (0 ≤ t ∧ t ≤ 2 ^ 32 - 1) := n1 (p := .time)
          have h2 : ¬ h.lastModified = some (2 ^ 32 - 1) := fun e => np _ (.inr (.inr (.inr ⟨rfl, e⟩)))
          have h3 : ¬ ¬ (0 ≤ t ∧ t ≤ 2 ^ 32 - 1) := fun c => h1 ⟨t, ht, c⟩
          have h4 : t ≠ 2 ^ 32 - 1 := fun e => h2 (by rw [ht, e])
          omega
        · have h1 : ¬ 14 < h.osType := n1 (p := .os)
          omega
        · obtain ⟨i, hi⟩ := List.getElem?_of_mem hr
          have h1 := n1 (p := .record i (r.bytes.length + 4))
          have : ¬ 2 ^ 16 - 1 < r.bytes.length + 4 := fun c => h1 ⟨r, hi, rfl, c⟩
          omega
        · rw [← Proof.extraLen, extra_size]
          have h1 := n1 (p := .extra (h.extra.map fun r => r.bytes.length + 4).sum)
          have : ¬ 2 ^ 16 - 1 < (h.extra.map fun r => r.bytes.length + 4).sum := fun c => h1 ⟨rfl, c⟩
          omega
    unfold wSetHeader setHeader
    by_cases c : headerOK h = true
    · rw [if_pos c, hok.1 c]; rfl
    · rw [if_neg c]
      have : headerProblems h ≠ [] := fun x => c (hok.2 x)
      rcases hp : headerProblems h with _ | ⟨p, _ | ⟨q, l'⟩⟩
      · exact absurd hp this
      · rfl
      · rfl

/-- **C97 (partial: SetHeader).** Unless the name or the comment has exactly 256 bytes, or the time is exactly 2³² − 1 seconds: a complaint is in the error of `SetHeader` if and only if its words,
taken literally, are true of the header. -/
theorem C97_partial (h : Header) (s : WState) (h1 : h.fileName.length ≠ 256) (h2 : h.comment.length ≠ 256) (h3 : h.lastModified ≠ some (2 ^ 32 - 1)) (p : HeaderProblem) :
    p ∈ complaints (setHeader h s).1 ↔ p.Claim h := by
  rw [(C97_setHeader h s).1 p]
  constructor
  · rintro (h | ⟨_, h⟩ | ⟨_, h⟩ | ⟨_, h⟩)
    · exact h
    · exact absurd h h1
    · exact absurd h h2
    · exact absurd h h3
  · exact .inl

/-- **C97 fails for three limiting values.** A name of exactly 256 bytes "is longer than 256 bytes", and so is a comment of exactly 256 bytes; the time 2³² − 1 "is out of range for unsigned 32-bit time_t". -/
theorem C97_header_fails (s : WState) :
    (∀ h : Header, h.fileName.length = 256 → HeaderProblem.nameLong ∈ complaints (setHeader h s).1 ∧ ¬ HeaderProblem.nameLong.Claim h) ∧
    (∀ h : Header, h.comment.length = 256 → HeaderProblem.commentLong ∈ complaints (setHeader h s).1 ∧ ¬ HeaderProblem.commentLong.Claim h) ∧
    (∀ h : Header, h.lastModified = some (2 ^ 32 - 1) → HeaderProblem.time ∈ complaints (setHeader h s).1 ∧ ¬ HeaderProblem.time.Claim h) := by
  refine ⟨fun h e => ⟨((C97_setHeader h s).1 _).2 (.inr (.inl ⟨rfl, e⟩)), ?_⟩, fun h e => ⟨((C97_setHeader h s).1 _).2 (.inr (.inr (.inl ⟨rfl, e⟩))), ?_⟩,
    fun h e => ⟨((C97_setHeader h s).1 _).2 (.inr (.inr (.inr ⟨rfl, e⟩))), ?_⟩⟩
  · simp only [HeaderProblem.Claim]; omega
  · simp only [HeaderProblem.Claim]; omega
  · rintro ⟨t, h1, h2⟩
    rw [e] at h1
    cases h1
    omega

/-- a header with several faults -/
example (s : WState) : (setHeader { fileName := [0x61, 0x2f], comment := [0], lastModified := some (-1), osType := 15, extra := [{ id0 := 0, id1 := 0, bytes := [] }] } s).1 =
    some (.multi [.nameSlash, .commentNul, .time, .os]) := rfl

example (s : WState) : (setHeader { fileName := [0x5c], osType := 3 } s).1 = some (.one .nameBackslash) := rfl

/-! ### Parse -/

/-- why a text which is none of the words `ws` is no value between `lo` and `hi`: it is not a decimal numeral of at most eight bits, or its value is outside -/
def ParseReason (ws : List (List Char)) (lo hi : Nat) (s : List Char) : ParseProblem → Prop
  | .number => (∀ w ∈ ws, ¬ Spells s w) ∧ ¬ (IsDec s ∧ decVal s ≤ 255)
  | .range n => (IsDec s ∧ decVal s ≤ 255) ∧ n = decVal s ∧ ¬ (lo ≤ n ∧ n ≤ hi)
  | .small n m => (IsDec s ∧ decVal s ≤ 255) ∧ n = decVal s ∧ m = lo ∧ n < lo
  | .large n m => (IsDec s ∧ decVal s ≤ 255) ∧ n = decVal s ∧ m = hi ∧ hi < n

theorem parse8_some {s : List Char} {v : Nat} : Text.parseUint s 10 8 = some v ↔ IsDec s ∧ decVal s = v ∧ v ≤ 255 := parseUint_dec s 8 v

theorem parse8_none {s : List Char} : Text.parseUint s 10 8 = none ↔ ¬ (IsDec s ∧ decVal s ≤ 255) := by
  constructor
  · intro h ⟨h1, h2⟩
    rw [parse8_some.2 ⟨h1, rfl, h2⟩] at h
    cases h
  · intro h
    cases e : Text.parseUint s 10 8 with
    | none => rfl
    | some v =>
      obtain ⟨h1, h2, h3⟩ := parse8_some.1 e
      exact absurd ⟨h1, h2 ▸ h3⟩ h

/-- **C97 (CompressLevel.Parse).** The error, if any, is that of the number if the text is neither a word nor a numeral of eight bits, and else "value n is out of range" with the value of the numeral; it is
given exactly if it is so, and `Parse` is otherwise that of `C37`. -/
theorem C97_clevel (s : List Char) :
    (∀ p, (Refusal.clevelParse s).1 = some p ↔ (p = .number ∨ ∃ n, p = .range n) ∧ ParseReason [Text.strDefault, Text.strNone] 0 9 s p) ∧
    Text.clevelParse s = ((Refusal.clevelParse s).1.isNone, (Refusal.clevelParse s).2) := by
  unfold Refusal.clevelParse Text.clevelParse
  by_cases h1 : Text.equalFold s Text.strDefault = true
  · rw [if_pos h1, if_pos h1]
    have h1 := (spells_iff _ _).1 h1
    have hn := not_dec_of_spells h1 rfl
    refine ⟨fun p => ?_, rfl⟩
    cases p <;> simp [ParseReason, h1, hn]
  rw [if_neg h1, if_neg h1]
  have h1' : ¬ Spells s Text.strDefault := fun h => h1 ((spells_iff _ _).2 h)
  by_cases h2 : Text.equalFold s Text.strNone = true
  · rw [if_pos h2, if_pos h2]
    have h2 := (spells_iff _ _).1 h2
    have hn := not_dec_of_spells h2 rfl
    refine ⟨fun p => ?_, rfl⟩
    cases p <;> simp [ParseReason, h2, hn]
  rw [if_neg h2, if_neg h2]
  have h2' : ¬ Spells s Text.strNone := fun h => h2 ((spells_iff _ _).2 h)
  cases e : Text.parseUint s 10 8 with
  | none =>
    have hn := parse8_none.1 e
    refine ⟨fun p => ?_, rfl⟩
    cases p <;> simp [ParseReason, h1', h2', -not_and, hn]
  | some u =>
    obtain ⟨a, b, c⟩ := parse8_some.1 e
    subst b
    have hy : IsDec s ∧ decVal s ≤ 255 := ⟨a, c⟩
    by_cases g : decVal s > 9
    · simp only [if_pos g]
      refine ⟨fun p => ?_, rfl⟩
      cases p <;> simp [ParseReason, hy]
      constructor
      · rintro rfl; exact ⟨rfl, g⟩
      · exact fun h => h.1.symm
    · simp only [if_neg g]
      refine ⟨fun p => ?_, rfl⟩
      cases p <;> simp [ParseReason, hy]
      rintro rfl; omega

/-- **C97 (MemoryLevel.Parse).** -/
theorem C97_mlevel (s : List Char) :
    (∀ p, (Refusal.mlevelParse s).1 = some p ↔ (p = .number ∨ ∃ n, p = .range n) ∧ ParseReason [Text.strDefault] 0 9 s p) ∧
    Text.mlevelParse s = ((Refusal.mlevelParse s).1.isNone, (Refusal.mlevelParse s).2) := by
  unfold Refusal.mlevelParse Text.mlevelParse
  by_cases h1 : Text.equalFold s Text.strDefault = true
  · rw [if_pos h1, if_pos h1]
    have h1 := (spells_iff _ _).1 h1
    have hn := not_dec_of_spells h1 rfl
    refine ⟨fun p => ?_, rfl⟩
    cases p <;> simp [ParseReason, h1, hn]
  rw [if_neg h1, if_neg h1]
  have h1' : ¬ Spells s Text.strDefault := fun h => h1 ((spells_iff _ _).2 h)
  cases e : Text.parseUint s 10 8 with
  | none =>
    have hn := parse8_none.1 e
    refine ⟨fun p => ?_, rfl⟩
    cases p <;> simp [ParseReason, h1', -not_and, hn]
  | some u =>
    obtain ⟨a, b, c⟩ := parse8_some.1 e
    subst b
    have hy : IsDec s ∧ decVal s ≤ 255 := ⟨a, c⟩
    by_cases g : decVal s > 9
    · simp only [if_pos g]
      refine ⟨fun p => ?_, rfl⟩
      cases p <;> simp [ParseReason, hy]
      constructor
      · rintro rfl; exact ⟨rfl, g⟩
      · exact fun h => h.1.symm
    · simp only [if_neg g]
      refine ⟨fun p => ?_, rfl⟩
      cases p <;> simp [ParseReason, hy]
      rintro rfl; omega

/-- **C97 (WindowBits.Parse).** -/
theorem C97_wbits (s : List Char) :
    (∀ p, (Refusal.wbitsParse s).1 = some p ↔ (∀ n, p ≠ .range n) ∧ ParseReason [Text.strDefault] 8 15 s p) ∧
    Text.wbitsParse s = ((Refusal.wbitsParse s).1.isNone, (Refusal.wbitsParse s).2) := by
  unfold Refusal.wbitsParse Text.wbitsParse
  by_cases h1 : Text.equalFold s Text.strDefault = true
  · rw [if_pos h1, if_pos h1]
    have h1 := (spells_iff _ _).1 h1
    have hn := not_dec_of_spells h1 rfl
    refine ⟨fun p => ?_, rfl⟩
    cases p <;> simp [ParseReason, h1, hn]
  rw [if_neg h1, if_neg h1]
  have h1' : ¬ Spells s Text.strDefault := fun h => h1 ((spells_iff _ _).2 h)
  cases e : Text.parseUint s 10 8 with
  | none =>
    have hn := parse8_none.1 e
    refine ⟨fun p => ?_, rfl⟩
    cases p <;> simp [ParseReason, h1', -not_and, hn]
  | some u =>
    obtain ⟨a, b, c⟩ := parse8_some.1 e
    subst b
    have hy : IsDec s ∧ decVal s ≤ 255 := ⟨a, c⟩
    by_cases g : decVal s < 8
    · simp only [if_pos g]
      refine ⟨fun p => ?_, rfl⟩
      cases p <;> simp [ParseReason, hy]
      · constructor
        · rintro ⟨rfl, rfl⟩; exact ⟨rfl, rfl, g⟩
        · exact fun h => ⟨h.1.symm, h.2.1.symm⟩
      · rintro rfl; omega
    · simp only [if_neg g]
      by_cases g2 : decVal s > 15
      · simp only [if_pos g2]
        refine ⟨fun p => ?_, rfl⟩
        cases p <;> simp [ParseReason, hy]
        · rintro rfl; omega
        · constructor
          · rintro ⟨rfl, rfl⟩; exact ⟨rfl, rfl, g2⟩
          · exact fun h => ⟨h.1.symm, h.2.1.symm⟩
      · simp only [if_neg g2]
        refine ⟨fun p => ?_, rfl⟩
        cases p <;> simp [ParseReason, hy]
        · rintro rfl; omega
        · rintro rfl; omega

/-- **C97 (partial: the words of the Parse methods).** The complaints of the three `Parse` methods, taken literally, are true, but for that about too many window bits. -/
theorem C97_parse_partial (s : List Char) :
    (∀ p, (Refusal.clevelParse s).1 = some p → p.Claim (· ≤ 9)) ∧
    (∀ p, (Refusal.mlevelParse s).1 = some p → p.Claim (· ≤ 9)) ∧
    (∀ p, (Refusal.wbitsParse s).1 = some p → (∀ n m, p ≠ .large n m) → p.Claim (fun n => 8 ≤ n ∧ n ≤ 15)) := by
  refine ⟨fun p h => ?_, fun p h => ?_, fun p h hl => ?_⟩
  · obtain ⟨h1, h2⟩ := ((C97_clevel s).1 p).1 h
    cases p with
    | number => trivial
    | range n => exact fun c => h2.2.2 ⟨by omega, c⟩
    | small => simp at h1
    | large => simp at h1
  · obtain ⟨h1, h2⟩ := ((C97_mlevel s).1 p).1 h
    cases p with
    | number => trivial
    | range n => exact fun c => h2.2.2 ⟨by omega, c⟩
    | small => simp at h1
    | large => simp at h1
  · obtain ⟨h1, h2⟩ := ((C97_wbits s).1 p).1 h
    cases p with
    | number => trivial
    | range n => exact absurd rfl (h1 n)
    | small n m =>
      obtain ⟨_, _, h3, h4⟩ := h2
      exact ⟨by omega, fun c => by omega⟩
    | large n m => exact absurd rfl (hl n m)

/-- **C97 fails for window bits.** Whenever the number of window bits is too large, the complaint is "value n is less than maximum 15", with an n which is more than 15. -/
theorem C97_wbits_fails (s : List Char) (h1 : IsDec s) (h2 : 15 < decVal s) (h3 : decVal s ≤ 255) :
    (Refusal.wbitsParse s).1 = some (.large (decVal s) 15) ∧ ¬ (ParseProblem.large (decVal s) 15).Claim (fun n => 8 ≤ n ∧ n ≤ 15) := by
  refine ⟨((C97_wbits s).1 _).2 ⟨fun n h => (by cases h), ⟨h1, h3⟩, rfl, rfl, h2⟩, fun h => ?_⟩
  have := h.1
  omega

example : (Refusal.wbitsParse "16".toList).1 = some (.large 16 15) := by decide +kernel
example : (Refusal.wbitsParse "7".toList).1 = some (.small 7 8) := by decide +kernel
example : (Refusal.clevelParse "10".toList).1 = some (.range 10) := by decide +kernel
example : (Refusal.mlevelParse "none".toList).1 = some .number := by decide +kernel
example : (Refusal.clevelParse "256".toList).1 = some .number := by decide +kernel

end Flate.Props
