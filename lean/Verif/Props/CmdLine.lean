/-
C94: the gzip command understands the values of its options, and uses them.
-/
import Verif.Model.CmdLine
import Verif.Props.Gunzip
import Verif.Props.Enum
import Verif.Props.Text
import Verif.Props.Log

namespace Flate.Props
open Flate.Spec Flate.Model Flate.Model.Gz Flate.Model.Text Flate.Model.Enum Flate.Proof

/-- What a setting means: the flags `f` have what it asks for; nothing has what a text without meaning asks for. -/
def Asks (E : ClEnv) (f : Flags) : Setting → Prop
  | .format s =>
      (f.format = .default ∧ (IsWord s "auto" ∨ IsWord s "default" ∨ (E.goNames = true ∧ IsWord s "DefaultFormat"))) ∨
      (f.format = .raw ∧ (IsWord s "raw" ∨ (E.goNames = true ∧ IsWord s "RawFormat"))) ∨
      (f.format = .zlib ∧ (IsWord s "zlib" ∨ (E.goNames = true ∧ IsWord s "ZlibFormat"))) ∨
      (f.format = .gzip ∧ (IsWord s "gzip" ∨ (E.goNames = true ∧ IsWord s "GZIPFormat")))
  | .strategy s =>
      (f.strategy = .default ∧ (IsWord s "default" ∨ (E.goNames = true ∧ IsWord s "DefaultStrategy"))) ∨
      (f.strategy = .huffmanOnly ∧ (IsWord s "huffman-only" ∨ (E.goNames = true ∧ IsWord s "HuffmanOnlyStrategy"))) ∨
      (f.strategy = .huffmanRLE ∧ (IsWord s "huffman-rle" ∨ (E.goNames = true ∧ IsWord s "HuffmanRLEStrategy"))) ∨
      (f.strategy = .fixed ∧ (IsWord s "fixed" ∨ (E.goNames = true ∧ IsWord s "FixedStrategy")))
  | .clevel s => (Spells s strDefault ∧ f.clevel = -1) ∨ (Spells s strNone ∧ f.clevel = 0) ∨ (IsDec s ∧ decVal s ≤ 9 ∧ f.clevel = decVal s)
  | .mlevel s => (Spells s strDefault ∧ f.mlevel = 0) ∨ (IsDec s ∧ decVal s ≤ 9 ∧ f.mlevel = decVal s)
  | .wbits s => (Spells s strDefault ∧ f.wbits = 0) ∨ (IsDec s ∧ 8 ≤ decVal s ∧ decVal s ≤ 15 ∧ f.wbits = decVal s)
  | .lastModified s => (E.timeParse s = some noTime ∧ f.lastModified = none) ∨ ∃ t, E.timeParse s = some t ∧ t ≠ noTime ∧ f.lastModified = some t
  | .dict b => f.dict = b
  | .fileName b => f.fileName = b
  | .comment b => f.comment = b
  | .stdout on => f.stdout = on
  | .decompress on => f.decompress = on
  | .digit n on => f.digit n = on

/-- two settings of the same option -/
def SameOption : Setting → Setting → Prop
  | .format _, .format _ => True
  | .strategy _, .strategy _ => True
  | .clevel _, .clevel _ => True
  | .mlevel _, .mlevel _ => True
  | .wbits _, .wbits _ => True
  | .lastModified _, .lastModified _ => True
  | .dict _, .dict _ => True
  | .fileName _, .fileName _ => True
  | .comment _, .comment _ => True
  | .stdout _, .stdout _ => True
  | .decompress _, .decompress _ => True
  | .digit n _, .digit m _ => n = m
  | _, _ => False

/-- the flags keep what no setting is about -/
structure Defaults (xs : List Setting) (f0 f : Flags) : Prop where
  format : (∀ s, .format s ∉ xs) → f.format = f0.format
  strategy : (∀ s, .strategy s ∉ xs) → f.strategy = f0.strategy
  clevel : (∀ s, .clevel s ∉ xs) → f.clevel = f0.clevel
  mlevel : (∀ s, .mlevel s ∉ xs) → f.mlevel = f0.mlevel
  wbits : (∀ s, .wbits s ∉ xs) → f.wbits = f0.wbits
  lastModified : (∀ s, .lastModified s ∉ xs) → f.lastModified = f0.lastModified
  dict : (∀ b, .dict b ∉ xs) → f.dict = f0.dict
  fileName : (∀ b, .fileName b ∉ xs) → f.fileName = f0.fileName
  comment : (∀ b, .comment b ∉ xs) → f.comment = f0.comment
  stdout : (∀ b, .stdout b ∉ xs) → f.stdout = f0.stdout
  decompress : (∀ b, .decompress b ∉ xs) → f.decompress = f0.decompress
  digit : ∀ n, (∀ b, .digit n b ∉ xs) → f.digit n = f0.digit n
  nargs : f.nargs = f0.nargs

theorem parsed_some {α : Type} {r : Bool × α} {v : α} : parsed r = some v ↔ r = (true, v) := by
  rcases r with ⟨b, w⟩
  cases b <;> simp [parsed]

/-- one setting -/
theorem apply_asks {E : ClEnv} {f g : Flags} {x : Setting} (h : x.apply E f = some g) : Asks E g x := by
  cases x with
  | format s =>
    obtain ⟨v, h1, rfl⟩ := Option.map_eq_some_iff.1 h
    exact (C72_format_parse E.goNames s v).1 h1
  | strategy s =>
    obtain ⟨v, h1, rfl⟩ := Option.map_eq_some_iff.1 h
    exact (C72_strategy_parse E.goNames s v).1 h1
  | clevel s =>
    obtain ⟨v, h1, rfl⟩ := Option.map_eq_some_iff.1 h
    exact (C37_clevel_parse s v).1 (parsed_some.1 h1)
  | mlevel s =>
    obtain ⟨v, h1, rfl⟩ := Option.map_eq_some_iff.1 h
    exact (C37_mlevel_parse s v).1 (parsed_some.1 h1)
  | wbits s =>
    obtain ⟨v, h1, rfl⟩ := Option.map_eq_some_iff.1 h
    exact (C37_wbits_parse s v).1 (parsed_some.1 h1)
  | lastModified s =>
    obtain ⟨v, h1, rfl⟩ := Option.map_eq_some_iff.1 h
    obtain ⟨t, h2, rfl⟩ := Option.map_eq_some_iff.1 h1
    by_cases ht : t = noTime
    · exact Or.inl ⟨ht ▸ h2, by simp [ht]⟩
    · exact Or.inr ⟨t, h2, ht, by simp [ht]⟩
  | digit n on => cases h; simp [Asks]
  | dict b => cases h; rfl
  | fileName b => cases h; rfl
  | comment b => cases h; rfl
  | stdout b => cases h; rfl
  | decompress b => cases h; rfl

theorem apply_exists {E : ClEnv} {f g : Flags} {x : Setting} (h : Asks E g x) : ∃ g', x.apply E f = some g' := by
  cases x with
  | format s => exact ⟨_, by rw [Setting.apply, (C72_format_parse E.goNames s _).2 h]; rfl⟩
  | strategy s => exact ⟨_, by rw [Setting.apply, (C72_strategy_parse E.goNames s _).2 h]; rfl⟩
  | clevel s => exact ⟨_, by rw [Setting.apply, parsed_some.2 ((C37_clevel_parse s _).2 h)]; rfl⟩
  | mlevel s => exact ⟨_, by rw [Setting.apply, parsed_some.2 ((C37_mlevel_parse s _).2 h)]; rfl⟩
  | wbits s => exact ⟨_, by rw [Setting.apply, parsed_some.2 ((C37_wbits_parse s _).2 h)]; rfl⟩
  | lastModified s =>
    rcases h with ⟨h, _⟩ | ⟨t, h, _⟩
    · exact ⟨_, by rw [Setting.apply, timeSet, h]; rfl⟩
    · exact ⟨_, by rw [Setting.apply, timeSet, h]; rfl⟩
  | digit n on => exact ⟨_, rfl⟩
  | dict b => exact ⟨_, rfl⟩
  | fileName b => exact ⟨_, rfl⟩
  | comment b => exact ⟨_, rfl⟩
  | stdout b => exact ⟨_, rfl⟩
  | decompress b => exact ⟨_, rfl⟩

theorem apply_keeps {E : ClEnv} {f g : Flags} {x : Setting} (h : x.apply E f = some g) : Defaults [x] f g := by
  cases x
  case digit n on =>
    cases h
    exact ⟨fun _ => rfl, fun _ => rfl, fun _ => rfl, fun _ => rfl, fun _ => rfl, fun _ => rfl, fun _ => rfl, fun _ => rfl, fun _ => rfl, fun _ => rfl, fun _ => rfl,
      fun m hm => by
        have : m ≠ n := fun e => hm on (by rw [e]; simp)
        simp [this], rfl⟩
  all_goals first
    | (obtain ⟨v, h1, rfl⟩ := Option.map_eq_some_iff.1 h
       constructor <;> first | rfl | (intros; rfl) | (intro hh; exact absurd (List.mem_singleton.2 rfl) (hh _)))
    | (cases h
       constructor <;> first | rfl | (intros; rfl) | (intro hh; exact absurd (List.mem_singleton.2 rfl) (hh _)))

/-- what is kept is still asked for -/
theorem asks_keeps {E : ClEnv} {f g : Flags} {xs : List Setting} (h : Defaults xs f g) {y : Setting} (hy : ∀ x ∈ xs, ¬ SameOption y x) : Asks E g y ↔ Asks E f y := by
  cases y with
  | format s => simp only [Asks]; rw [h.format fun s' hs => hy _ hs trivial]
  | strategy s => simp only [Asks]; rw [h.strategy fun s' hs => hy _ hs trivial]
  | clevel s => simp only [Asks]; rw [h.clevel fun s' hs => hy _ hs trivial]
  | mlevel s => simp only [Asks]; rw [h.mlevel fun s' hs => hy _ hs trivial]
  | wbits s => simp only [Asks]; rw [h.wbits fun s' hs => hy _ hs trivial]
  | lastModified s => simp only [Asks]; rw [h.lastModified fun s' hs => hy _ hs trivial]
  | dict s => simp only [Asks]; rw [h.dict fun s' hs => hy _ hs trivial]
  | fileName s => simp only [Asks]; rw [h.fileName fun s' hs => hy _ hs trivial]
  | comment s => simp only [Asks]; rw [h.comment fun s' hs => hy _ hs trivial]
  | stdout s => simp only [Asks]; rw [h.stdout fun s' hs => hy _ hs trivial]
  | decompress s => simp only [Asks]; rw [h.decompress fun s' hs => hy _ hs trivial]
  | digit n s => simp only [Asks]; rw [h.digit n fun s' hs => hy _ hs rfl]

theorem Defaults.nil (f : Flags) : Defaults [] f f := by constructor <;> intros <;> rfl

theorem Defaults.trans {x : Setting} {xs : List Setting} {f g k : Flags} (h : Defaults [x] f g) (h' : Defaults xs g k) : Defaults (x :: xs) f k where
  format hh := (h'.format fun s hs => hh s (List.mem_cons_of_mem _ hs)).trans (h.format fun s hs => hh s (List.mem_singleton.1 hs ▸ List.mem_cons_self))
  strategy hh := (h'.strategy fun s hs => hh s (List.mem_cons_of_mem _ hs)).trans (h.strategy fun s hs => hh s (List.mem_singleton.1 hs ▸ List.mem_cons_self))
  clevel hh := (h'.clevel fun s hs => hh s (List.mem_cons_of_mem _ hs)).trans (h.clevel fun s hs => hh s (List.mem_singleton.1 hs ▸ List.mem_cons_self))
  mlevel hh := (h'.mlevel fun s hs => hh s (List.mem_cons_of_mem _ hs)).trans (h.mlevel fun s hs => hh s (List.mem_singleton.1 hs ▸ List.mem_cons_self))
  wbits hh := (h'.wbits fun s hs => hh s (List.mem_cons_of_mem _ hs)).trans (h.wbits fun s hs => hh s (List.mem_singleton.1 hs ▸ List.mem_cons_self))
  lastModified hh := (h'.lastModified fun s hs => hh s (List.mem_cons_of_mem _ hs)).trans (h.lastModified fun s hs => hh s (List.mem_singleton.1 hs ▸ List.mem_cons_self))
  dict hh := (h'.dict fun s hs => hh s (List.mem_cons_of_mem _ hs)).trans (h.dict fun s hs => hh s (List.mem_singleton.1 hs ▸ List.mem_cons_self))
  fileName hh := (h'.fileName fun s hs => hh s (List.mem_cons_of_mem _ hs)).trans (h.fileName fun s hs => hh s (List.mem_singleton.1 hs ▸ List.mem_cons_self))
  comment hh := (h'.comment fun s hs => hh s (List.mem_cons_of_mem _ hs)).trans (h.comment fun s hs => hh s (List.mem_singleton.1 hs ▸ List.mem_cons_self))
  stdout hh := (h'.stdout fun s hs => hh s (List.mem_cons_of_mem _ hs)).trans (h.stdout fun s hs => hh s (List.mem_singleton.1 hs ▸ List.mem_cons_self))
  decompress hh := (h'.decompress fun s hs => hh s (List.mem_cons_of_mem _ hs)).trans (h.decompress fun s hs => hh s (List.mem_singleton.1 hs ▸ List.mem_cons_self))
  digit n hh := (h'.digit n fun s hs => hh s (List.mem_cons_of_mem _ hs)).trans (h.digit n fun s hs => hh s (List.mem_singleton.1 hs ▸ List.mem_cons_self))
  nargs := h'.nargs.trans h.nargs

theorem all_keeps {E : ClEnv} : ∀ {xs : List Setting} {f g : Flags}, applyAll E f xs = some g → Defaults xs f g
  | [], f, g, h => by cases h; exact .nil f
  | x :: xs, f, g, h => by
    unfold applyAll at h
    cases e : x.apply E f with
    | none => rw [e] at h; cases h
    | some k => rw [e] at h; exact (apply_keeps e).trans (all_keeps h)

theorem all_last {E : ClEnv} {x : Setting} {post : List Setting} (hp : ∀ y ∈ post, ¬ SameOption x y) : ∀ {pre : List Setting} {f g : Flags},
    applyAll E f (pre ++ x :: post) = some g → Asks E g x
  | [], f, g, h => by
    simp only [List.nil_append, applyAll] at h
    cases e : x.apply E f with
    | none => rw [e] at h; cases h
    | some k => rw [e] at h; exact (asks_keeps (all_keeps h) hp).2 (apply_asks e)
  | y :: pre, f, g, h => by
    simp only [List.cons_append, applyAll] at h
    cases e : y.apply E f with
    | none => rw [e] at h; cases h
    | some k => rw [e] at h; exact all_last hp h

theorem all_some {E : ClEnv} : ∀ {xs : List Setting} {f : Flags}, (∃ g, applyAll E f xs = some g) ↔ ∀ x ∈ xs, ∃ g, Asks E g x
  | [], f => ⟨fun _ _ h => by simp at h, fun _ => ⟨f, rfl⟩⟩
  | x :: xs, f => by
    constructor
    · rintro ⟨g, h⟩ y hy
      unfold applyAll at h
      cases e : x.apply E f with
      | none => rw [e] at h; cases h
      | some k =>
        rw [e] at h
        rcases List.mem_cons.1 hy with rfl | hy
        · exact ⟨k, apply_asks e⟩
        · exact all_some.1 ⟨g, h⟩ y hy
    · intro h
      obtain ⟨g, hg⟩ := h x List.mem_cons_self
      obtain ⟨k, hk⟩ := apply_exists (f := f) hg
      obtain ⟨g', h'⟩ := (all_some (f := k)).2 fun y hy => h y (List.mem_cons_of_mem _ hy)
      exact ⟨g', by unfold applyAll; rw [hk]; exact h'⟩

/-- **C94 (parsed or refused).** Unless options exclude each other, the command line is parsed exactly if every text on it means something. -/
theorem C94_accepts (E : ClEnv) (n : Nat) (xs : List Setting) : (∃ f, commandLine E n xs = some f) ↔ E.refuses xs = false ∧ ∀ x ∈ xs, ∃ g, Asks E g x := by
  unfold commandLine
  cases E.refuses xs with
  | true => simp
  | false => simpa using all_some

/-- **C94 (last setting).** Of several settings of an option the last one counts, whatever else is set. -/
theorem C94_last {E : ClEnv} {n : Nat} {pre post : List Setting} {x : Setting} {f : Flags} (h : commandLine E n (pre ++ x :: post) = some f) (hp : ∀ y ∈ post, ¬ SameOption x y) :
    Asks E f x := by
  unfold commandLine at h
  split at h
  · cases h
  · exact all_last hp h

/-- **C94 (defaults).** Options which are not set have their default values. -/
theorem C94_defaults {E : ClEnv} {n : Nat} {xs : List Setting} {f : Flags} (h : commandLine E n xs = some f) :
    Defaults xs {
      format := .default, strategy := .default, clevel := -1, mlevel := 0, wbits := 0, lastModified := none, dict := [], fileName := [], comment := [], stdout := false, decompress := false, digit := (fun _ => false), nargs := n } f := by
  unfold commandLine at h
  split at h
  · cases h
  · exact all_keeps h

theorem all_ok {E : ClEnv} : ∀ {xs : List Setting} {f g : Flags}, applyAll E f xs = some g → GzFlagsOK f → GzFlagsOK g
  | [], f, g, h, hf => by cases h; exact hf
  | x :: xs, f, g, h, hf => by
    unfold applyAll at h
    cases e : x.apply E f with
    | none => rw [e] at h; cases h
    | some k =>
      rw [e] at h
      refine all_ok h ?_
      have hk := apply_keeps e
      have ha := apply_asks e
      cases x
      case clevel s =>
        refine ⟨?_, by rw [hk.mlevel (by simp)]; exact hf.mlevel, by rw [hk.wbits (by simp)]; exact hf.wbits⟩
        rcases ha with ⟨_, h⟩ | ⟨_, h⟩ | ⟨_, h1, h⟩ <;> rw [h] <;> omega
      case mlevel s =>
        refine ⟨by rw [hk.clevel (by simp)]; exact hf.clevel, ?_, by rw [hk.wbits (by simp)]; exact hf.wbits⟩
        rcases ha with ⟨_, h⟩ | ⟨_, h1, h⟩ <;> rw [h] <;> omega
      case wbits s =>
        refine ⟨by rw [hk.clevel (by simp)]; exact hf.clevel, by rw [hk.mlevel (by simp)]; exact hf.mlevel, ?_⟩
        rcases ha with ⟨_, h⟩ | ⟨_, h1, h2, h⟩ <;> rw [h] <;> omega
      all_goals exact ⟨by rw [hk.clevel (by simp)]; exact hf.clevel, by rw [hk.mlevel (by simp)]; exact hf.mlevel, by rw [hk.wbits (by simp)]; exact hf.wbits⟩

/-- the values which come from a command line are within their ranges -/
theorem C94_ranges {E : ClEnv} {n : Nat} {xs : List Setting} {f : Flags} (h : commandLine E n xs = some f) : GzFlagsOK f := by
  unfold commandLine at h
  split at h
  · cases h
  · exact all_ok h ⟨by simp, by simp, by simp⟩

/-- **C94 (no panic).** Whatever the command line - unless the file for `--dictionary=@file` is empty, see C57 - the program exits with status 1 or goes on with valid options.  It
exits exactly if a text means nothing, or options exclude each other, or the dictionary file cannot be read, or there is an argument and `--stdout` is not set. -/
theorem C94_starts {E : ClEnv} {n : Nat} {xs : List Setting} {f : Flags} (h : commandLine E n xs = some f) (readFile : List UInt8 → Option (List UInt8))
    (hd : ∀ name, f.dict = 0x40 :: name → readFile name ≠ some []) :
    ((∃ opts, prepare f readFile = .go opts ∧ ∀ x ∈ opts, x.valid = true) ∨ prepare f readFile = .fatal) ∧
    (prepare f readFile = .fatal ↔ (∃ name, f.dict = 0x40 :: name ∧ readFile name = none) ∨ (f.stdout = false ∧ n ≠ 0)) := by
  obtain ⟨h1, h2⟩ := C57_partial (C94_ranges h) readFile hd
  refine ⟨?_, by rw [h2, (C94_defaults h).nargs]⟩
  rcases h1 with ⟨d, _, h3, h4⟩ | h1
  · exact Or.inl ⟨_, h3, h4⟩
  · exact Or.inr h1

/-- **C94 (modification time).** `--last-modified` takes every time that RFC 3339 can express (in seconds), and this time is in the header of the archive. -/
theorem C94_time {E : ClEnv} (hE : E.Lawful) {n : Nat} {pre post : List Setting} {text : List Char} {time : Int} {f : Flags} (ht : readTime text = some time) (hz : time ≠ noTime)
    (h : commandLine E n (pre ++ .lastModified text :: post) = some f) (hp : ∀ s, .lastModified s ∉ post)
    {c : Setup} {d : Option (List UInt8)} (hc : GzSetup c f d) (hf : f.format = .default ∨ f.format = .gzip) {stdin : Stdin} {t : WState}
    (hr : compress c.L f.header stdin c.start = .ok (true, t)) :
    ∃ g, GzMember (BlockEnc c.ok (gzWindow f)) d g t.sink.out (stdinData stdin) ∧ (g.mtime : Int) = time := by
  have ha := C94_last h (fun y hy hs => by
    cases y <;> first | exact hs | exact hp _ hy)
  obtain ⟨_, g, h1, _, _, h2, _⟩ := C54_header hc hf hr
  rcases ha with ⟨h3, _⟩ | ⟨t', h3, _, h4⟩
  · rw [hE _ _ ht] at h3; exact absurd (Option.some.inj h3) hz
  · rw [hE _ _ ht] at h3
    cases h3
    exact ⟨g, h1, by rw [h2, h4]; rfl⟩

/-- **C94 (time round trip).** What the flag prints as its value, it takes, as the same value: in every time zone. -/
theorem C94_time_text {E : ClEnv} (hE : E.Lawful) {Z : Log.LogEnv} (hz : Js.Zoned Z) {t : Option Int} (h : ∀ x, t = some x → -62135510400 ≤ x ∧ x ≤ 250000000000) :
    ∃ s, timeString Z t = some s ∧ timeSet E s = some t := by
  cases t with
  | none => exact ⟨_, rfl, by rw [timeSet, hE _ _ Js.read_zeroTime.1]; rfl⟩
  | some x =>
    obtain ⟨h0, h1⟩ := h x rfl
    obtain ⟨s, h2, h3, _⟩ := Js.read_timeText hz h0 h1
    refine ⟨s, h2, ?_⟩
    rw [timeSet, hE _ _ h3]
    have : x ≠ noTime := by unfold noTime; omega
    simp [this]

/-! ### the hypotheses can be met -/

/-- a library which understands just RFC 3339 -/
def plainEnv : ClEnv := ⟨false, readTime, fun _ => false⟩

/-- `gzip --format=GZIP -5 --last-modified=2021-03-04T05:06:07+01:00 --memory-level=3 --memory-level=Default` -/
def demoLine : List Setting := [.format "GZIP".toList, .digit 5 true, .lastModified "2021-03-04T05:06:07+01:00".toList, .mlevel "3".toList, .mlevel "Default".toList]

example : ∃ f, commandLine plainEnv 0 demoLine = some f ∧ f.format = .gzip ∧ f.level = 5 ∧ f.mlevel = 0 ∧ f.lastModified = some 1614830767 :=
  ⟨_, rfl, by decide +kernel, by decide +kernel, by decide +kernel, by decide +kernel⟩

example : commandLine plainEnv 0 [.wbits "7".toList] = none := by decide +kernel

example : plainEnv.Lawful := fun _ _ h => h

end Flate.Props
