/-
C81 (and C31): options which do not matter for what a Writer writes.
-/
import Verif.Props.WriterReset
import Verif.Props.WriterShape
import Verif.Model.Config

namespace Flate.Props
open Flate.Spec Flate.Model Flate.Proof Flate.Proof.Sim

/-- strategies between which no difference is made -/
def Strategy.alike : Strategy → Strategy → Bool
  | .default, .fixed => true
  | .fixed, .default => true
  | s, s' => decide (s = s')

/-- RFC 1950, 2.2: the hint FLEVEL about the level, of no significance for decompression -/
def zlibHint (clevel : Int) : Nat := if clevel ≤ 1 then 0 else if clevel ≤ 5 then 1 else if clevel = 6 then 2 else 3

/-- RFC 1952, 2.3.1: the hint XFL -/
def gzipHint (clevel : Int) : Nat := if clevel ≤ 1 then 4 else if clevel = 9 then 2 else 0

/-- levels between which no difference is made: level 0 is different from all others; otherwise only the hint in the header matters -/
def levelsAlike (f : Format) (a b : Int) : Prop :=
  (a = 0 ↔ b = 0) ∧ (f = .zlib → zlibHint a = zlibHint b) ∧ (f = .gzip → gzipHint a = gzipHint b)

/-- the options (with the defaults filled in) do not differ in what matters -/
structure OptionsAlike (o o' : Options) : Prop where
  format : o'.format = o.format
  mlevel : o'.mlevel = o.mlevel
  wbits : o'.wbits = o.wbits
  dict : o'.dict = o.dict
  strategy : Strategy.alike o.strategy o'.strategy = true
  level : levelsAlike o.format o.clevel o'.clevel

theorem hints_zlib {o o' : Options} (h : zlibHint o.clevel = zlibHint o'.clevel) (hs : Strategy.alike o.strategy o'.strategy = true) : fLevel o' = fLevel o := by
  unfold zlibHint at h
  unfold fLevel
  cases e : o.strategy <;> cases e' : o'.strategy <;> rw [e, e'] at hs <;> first | (simp [Strategy.alike] at hs; done) | skip
  all_goals simp only [reduceCtorEq, false_or, true_or, or_true, if_true]
  all_goals (repeat' split at h) <;> (repeat' split) <;> first | rfl | omega

theorem hints_gzip {o o' : Options} (h : gzipHint o.clevel = gzipHint o'.clevel) (hs : Strategy.alike o.strategy o'.strategy = true) (x : Header) : gzipHeaderBytes o' x = gzipHeaderBytes o x := by
  have key : (if o'.strategy = .huffmanOnly ∨ o'.strategy = .huffmanRLE ∨ o'.clevel < 2 then (0x04 : UInt8) else if o'.clevel = 9 then 0x02 else 0x00) =
      (if o.strategy = .huffmanOnly ∨ o.strategy = .huffmanRLE ∨ o.clevel < 2 then (0x04 : UInt8) else if o.clevel = 9 then 0x02 else 0x00) := by
    unfold gzipHint at h
    cases e : o.strategy <;> cases e' : o'.strategy <;> rw [e, e'] at hs <;> first | (simp [Strategy.alike] at hs; done) | skip
    all_goals simp only [reduceCtorEq, false_or, true_or, or_true, if_true]
    all_goals (repeat' split at h) <;> (repeat' split) <;> first | rfl | omega
  unfold gzipHeaderBytes
  simp only [key]

theorem OptionsAlike.alike {o o' : Options} (h : OptionsAlike o o') : Alike o o' where
  format := h.format
  wbits := h.wbits
  dict := h.dict
  store := by
    have := h.level.1
    unfold usesStore
    by_cases h0 : o.clevel = 0
    · rw [h0, this.1 h0]
    · have h0' : o'.clevel ≠ 0 := fun e => h0 (this.2 e)
      simp [h0, h0']
  zlib hf := by
    have := hints_zlib (h.level.2.1 hf) h.strategy
    unfold zlibHeaderBytes
    simp only [this, h.wbits, h.dict]
  gzip hf := hints_gzip (h.level.2.2 hf) h.strategy

theorem hybrid_alike {o o' : Options} (h : OptionsAlike o o') : hybridOptions o' = hybridOptions o := by
  have hs := h.strategy
  unfold hybridOptions
  cases e : o.strategy <;> cases e' : o'.strategy <;> rw [e, e'] at hs <;> first | (simp [Strategy.alike] at hs; done) | skip
  all_goals simp only [h.mlevel, h.wbits]

/-- **C81.** Two Writers, used in the same circumstances, whose options agree in format, memory level, window size and dictionary, behave alike, whatever the calls and
failures of the underlying writer: every call returns the same, the underlying writer receives the same bytes, and one panics only if the other does.  The tracers make
no difference; nor does it matter whether the strategy is `FixedStrategy` or `DefaultStrategy`; nor, among levels from 1 to 9, the level, except for the hint in zlib and gzip headers. -/
theorem C81_alike {L : HuffLib} {W : Nat} {propose : Nat → Option (Nat × Nat)} {sink : Sink} {opts opts' : List Opt}
    (h : OptionsAlike (effective opts) (effective opts')) (ops : List WOp) :
    outcome (runOps L ops (newWriter W propose sink opts')) = outcome (runOps L ops (newWriter W propose sink opts)) := by
  have hR : R true nil3 (newWriter W propose sink opts) (newWriter W propose sink opts') := by
    constructor
    case fails => exact ⟨rfl, rfl, rfl⟩
    case prop => exact fun _ => rfl
    case sums => exact fun _ => ⟨rfl, rfl, rfl⟩
    case cap => show 2 ≤ _ + 7; omega
    case emp => exact fun _ => rfl
    case len => intro e; cases e
    case crc => intro e; cases e
    case sum => intro e; cases e
    case ob => intro e; cases e
    case header => exact HSame.of rfl
    case o => exact h.alike
    case outBits => show _ + 7 = _ + 7; exact congrArg (· + 7) h.mlevel
    case lzo => exact hybrid_alike h
    all_goals rfl
  have := Same.run (L := L) (ops := ops) (Or.inl hR)
  cases e : runOps L ops (newWriter W propose sink opts) with
  | error p => rw [e] at this; simp only at this; rw [this]
  | ok q =>
    obtain ⟨rs, u⟩ := q
    rw [e] at this
    obtain ⟨u', e', hu⟩ := this
    rw [e']
    simp only [outcome]
    rcases hu with hu | ⟨hu, _⟩
    · rw [hu.out]
    · rw [hu.out]

/-- what is the same for all levels but 0 -/
theorem apply_last (opts : List Opt) (x : Opt) : effective (opts ++ [x]) = (Opt.apply (Options.apply {} opts) x).writerDefaults := by
  unfold effective Options.apply
  rw [List.foldl_append]; rfl

/-- **C81 for levels.** A Writer of raw deflate data produces the same output at all levels from 1 to 9 (and at the default level). -/
theorem C81_levels {L : HuffLib} {W : Nat} {propose : Nat → Option (Nat × Nat)} {sink : Sink} {opts : List Opt} (hf : (effective opts).format = .raw) {a b : Int}
    (ha : a = -1 ∨ 1 ≤ a) (hb : b = -1 ∨ 1 ≤ b) (ops : List WOp) :
    outcome (runOps L ops (newWriter W propose sink (opts ++ [.clevel a]))) = outcome (runOps L ops (newWriter W propose sink (opts ++ [.clevel b]))) := by
  refine C81_alike ?_ ops
  have e1 := apply_last opts (.clevel a)
  have e2 := apply_last opts (.clevel b)
  have hf' : (effective (opts ++ [.clevel b])).format = .raw := by rw [e2]; exact hf
  refine ⟨by rw [e1, e2]; rfl, by rw [e1, e2]; rfl, by rw [e1, e2]; rfl, by rw [e1, e2]; rfl, ?_, ?_, fun e => ?_, fun e => ?_⟩
  · rw [e1, e2]
    show Strategy.alike (Options.apply {} opts).strategy (Options.apply {} opts).strategy = true
    cases (Options.apply {} opts).strategy <;> rfl
  · have g : ∀ x : Int, (effective (opts ++ [.clevel x])).clevel = if x = -1 then 6 else x := fun x => by rw [apply_last]; rfl
    rw [g, g]
    split <;> split <;> omega
  · rw [hf'] at e; cases e
  · rw [hf'] at e; cases e

/-- **C31 (what FixedStrategy does).** It has no effect: it can be replaced by `DefaultStrategy` everywhere. -/
theorem C31_no_effect_partial {L : HuffLib} {W : Nat} {propose : Nat → Option (Nat × Nat)} {sink : Sink} (opts : List Opt) (ops : List WOp) :
    outcome (runOps L ops (newWriter W propose sink (opts ++ [.strategy .fixed]))) = outcome (runOps L ops (newWriter W propose sink (opts ++ [.strategy .default]))) := by
  refine C81_alike ?_ ops
  have e1 := apply_last opts (.strategy .fixed)
  have e2 := apply_last opts (.strategy .default)
  exact ⟨by rw [e1, e2]; rfl, by rw [e1, e2]; rfl, by rw [e1, e2]; rfl, by rw [e1, e2]; rfl, by rw [e1, e2]; rfl, by rw [e1, e2]; exact ⟨Iff.rfl, fun _ => rfl, fun _ => rfl⟩⟩

/-- **The choice of a compression function.** For all valid options, the table of the code is not indexed out of range, the function found stores the data at level 0, and
otherwise compresses them, always in the same way; this is the step of `compressImpl` in the model. -/
theorem C81_dispatch {L : HuffLib} {opts : List Opt} (hv : ∀ x ∈ opts, x.valid = true) (all : Bool) {s : WState} (hs : s.o = effective opts) :
    (∃ cc, compressConfig s.o = some cc ∧ (cc.fn = .store ↔ s.o.clevel = 0)) ∧
    compressCall L all s = if usesStore s.o then compressStore all s else compressSlow L all s := by
  have hf : OptsFull s.o := by rw [hs]; exact writerDefaults_full (apply_ok optsOK_init hv)
  have key : ∃ cc, compressConfig s.o = some cc ∧ (cc.fn = .store ↔ s.o.clevel = 0) := by
    obtain ⟨h0, h9⟩ := hf.clevel
    unfold compressConfig
    by_cases e0 : s.o.clevel = 0
    · rw [if_pos e0]; exact ⟨_, rfl, by simp [e0]⟩
    rw [if_neg e0]
    split
    · exact ⟨_, rfl, by simp [e0]⟩
    split
    · exact ⟨_, rfl, by simp [e0]⟩
    rw [if_pos (by omega)]
    obtain ⟨n, hn⟩ := Int.eq_ofNat_of_zero_le h0
    rw [hn] at e0 h9
    rw [hn, Int.toNat_natCast]
    have h1 : 1 ≤ n := by omega
    have h2 : n < 10 := by omega
    have hall : ∀ n < 10, 1 ≤ n → ∃ cc, compressConfigs[2 + n]? = some cc ∧ cc.fn ≠ .store := by
      intro n hn h1
      have : ∀ n < 10, 1 ≤ n → (compressConfigs[2 + n]?.map (fun cc => decide (cc.fn ≠ .store))) = some true := by decide
      obtain ⟨cc, e1, e2⟩ := Option.map_eq_some_iff.1 (this n hn h1)
      exact ⟨cc, e1, by simpa using e2⟩
    obtain ⟨cc, e1, e2⟩ := hall n h2 h1
    exact ⟨cc, e1, ⟨fun e => (e2 e).elim, fun e => (e0 e).elim⟩⟩
  refine ⟨key, ?_⟩
  obtain ⟨cc, e1, e2⟩ := key
  unfold compressCall usesStore
  rw [e1]
  simp only []
  by_cases e0 : s.o.clevel = 0
  · rw [e2.2 e0, e0]; rfl
  · have : cc.fn ≠ .store := fun e => e0 (e2.1 e)
    rw [if_neg (by simpa using e0)]
    cases e : cc.fn with
    | store => exact (this e).elim
    | _ => rfl

/-! ### the hypotheses can be met; what does matter -/

/-- a gzip Writer at levels 2 and 7, one of them traced -/
example : OptionsAlike (effective [.format .gzip, .clevel 2]) (effective [.format .gzip, .clevel 7, .strategy .fixed, .tracers [3]]) :=
  ⟨rfl, rfl, rfl, rfl, rfl, by decide, by decide, by decide⟩

/-- there is output -/
example : (outcome (runOps refLib [.write [1, 2, 3, 1, 2, 3, 1, 2, 3], .close] (newWriter 64 (fun _ => some (3, 3)) {} [.format .raw, .mlevel 1, .clevel 2]))).toOption.map
    (fun x => decide (0 < x.2.length)) = some true := by decide +kernel

/-- level 0 does make a difference -/
example : (outcome (runOps refLib [.write [1, 1, 1, 1, 1, 1, 1, 1, 1], .close] (newWriter 64 (fun _ => none) {} [.format .raw, .mlevel 1, .clevel 0]))).toOption.map (·.2) ≠
    (outcome (runOps refLib [.write [1, 1, 1, 1, 1, 1, 1, 1, 1], .close] (newWriter 64 (fun _ => none) {} [.format .raw, .mlevel 1, .clevel 1]))).toOption.map (·.2) := by decide +kernel

/-- and so does the hint, in the second byte -/
example : (outcome (runOps refLib [.write [1], .close] (newWriter 64 (fun _ => none) {} [.format .zlib, .mlevel 1, .clevel 5]))).toOption.map (·.2.take 2) = some [0x78, 0x5e] ∧
    (outcome (runOps refLib [.write [1], .close] (newWriter 64 (fun _ => none) {} [.format .zlib, .mlevel 1, .clevel 6]))).toOption.map (·.2.take 2) = some [0x78, 0x9c] := by
  decide +kernel

end Flate.Props
