/-
C36: defaults, merging and validation of options.
-/
import Verif.Props.Session

namespace Flate.Props
open Flate.Spec Flate.Model Flate.Proof

/-- the last value which the options give for a parameter selected by `sel`, if any -/
def lastGiven {α : Type} (sel : Opt → Option α) (opts : List Opt) : Option α := (opts.filterMap sel).getLast?

def fmt? : Opt → Option Format | .format f => some f | _ => none
def method? : Opt → Option Method | .method f => some f | _ => none
def strategy? : Opt → Option Strategy | .strategy f => some f | _ => none
def clevel? : Opt → Option Int | .clevel f => some f | _ => none
def mlevel? : Opt → Option Nat | .mlevel f => some f | _ => none
def wbits? : Opt → Option Nat | .wbits f => some f | _ => none
def dict? : Opt → Option (Option (List UInt8)) | .dict f => some f | _ => none
def tracers? : Opt → Option (List Nat) | .tracers f => some f | _ => none

/-- "later options win, unspecified ones persist" -/
structure Merged (old : Options) (opts : List Opt) (new : Options) : Prop where
  format : new.format = (lastGiven fmt? opts).getD old.format
  method : new.method = (lastGiven method? opts).getD old.method
  strategy : new.strategy = (lastGiven strategy? opts).getD old.strategy
  clevel : new.clevel = (lastGiven clevel? opts).getD old.clevel
  mlevel : new.mlevel = (lastGiven mlevel? opts).getD old.mlevel
  wbits : new.wbits = (lastGiven wbits? opts).getD old.wbits
  dict : new.dict = (lastGiven dict? opts).getD old.dict
  tracers : new.tracers = (lastGiven tracers? opts).getD old.tracers

theorem lastGiven_cons {α : Type} (sel : Opt → Option α) (x : Opt) (opts : List Opt) (d : α) :
    (lastGiven sel (x :: opts)).getD d = (lastGiven sel opts).getD ((sel x).getD d) := by
  unfold lastGiven
  rw [List.filterMap_cons]
  cases hx : sel x with
  | none => rfl
  | some v =>
    simp only [List.getLast?_cons, Option.getD_some]

theorem merged_apply (old : Options) (opts : List Opt) : Merged old opts (old.apply opts) := by
  induction opts generalizing old with
  | nil => exact ⟨rfl, rfl, rfl, rfl, rfl, rfl, rfl, rfl⟩
  | cons x opts ih =>
    have h := ih (Opt.apply old x)
    constructor
    · rw [lastGiven_cons]; refine h.format.trans ?_; cases x <;> rfl
    · rw [lastGiven_cons]; refine h.method.trans ?_; cases x <;> rfl
    · rw [lastGiven_cons]; refine h.strategy.trans ?_; cases x <;> rfl
    · rw [lastGiven_cons]; refine h.clevel.trans ?_; cases x <;> rfl
    · rw [lastGiven_cons]; refine h.mlevel.trans ?_; cases x <;> rfl
    · rw [lastGiven_cons]; refine h.wbits.trans ?_; cases x <;> rfl
    · rw [lastGiven_cons]; refine h.dict.trans ?_; cases x <;> rfl
    · rw [lastGiven_cons]; refine h.tracers.trans ?_; cases x <;> rfl

/-- "unset" parameters replaced by the documented defaults of a Writer: zlib format, level 6, memory level 9, 15 window bits -/
structure WriterFilled (o f : Options) : Prop where
  format : f.format = if o.format = .default then .zlib else o.format
  clevel : f.clevel = if o.clevel = -1 then 6 else o.clevel
  mlevel : f.mlevel = if o.mlevel = 0 then 9 else o.mlevel
  wbits : f.wbits = if o.wbits = 0 then 15 else o.wbits
  rest : f.method = o.method ∧ f.strategy = o.strategy ∧ f.dict = o.dict ∧ f.tracers = o.tracers

/-- the same for a Reader, which keeps the "default" (autodetecting) format -/
structure ReaderFilled (o f : Options) : Prop where
  format : f.format = o.format
  mlevel : f.mlevel = if o.mlevel = 0 then 9 else o.mlevel
  wbits : f.wbits = if o.wbits = 0 then 15 else o.wbits
  rest : f.dict = o.dict ∧ f.tracers = o.tracers

/-- parameters in their legal ranges -/
structure InRange (f : Options) : Prop where
  clevel : 0 ≤ f.clevel ∧ f.clevel ≤ 9
  mlevel : 1 ≤ f.mlevel ∧ f.mlevel ≤ 9
  wbits : 8 ≤ f.wbits ∧ f.wbits ≤ 15
  format : f.format ≠ .default
  dict : ∀ d, f.dict = some d → d ≠ []

theorem writerFilled (o : Options) : WriterFilled o o.writerDefaults := ⟨rfl, rfl, rfl, rfl, rfl, rfl, rfl, rfl⟩
theorem readerFilled (o : Options) : ReaderFilled o o.readerDefaults := ⟨rfl, rfl, rfl, rfl, rfl⟩

/-- parameters which are unset or in their legal ranges -/
structure Legal (o : Options) : Prop where
  clevel : -1 ≤ o.clevel ∧ o.clevel ≤ 9
  mlevel : o.mlevel ≤ 9
  wbits : o.wbits = 0 ∨ (8 ≤ o.wbits ∧ o.wbits ≤ 15)
  dict : ∀ d, o.dict = some d → d ≠ []

theorem Legal.apply {o : Options} (h : Legal o) {opts : List Opt} (hv : ∀ x ∈ opts, x.valid = true) : Legal (o.apply opts) := by
  induction opts generalizing o with
  | nil => exact h
  | cons x opts ih =>
    refine ih ?_ (fun y hy => hv y (List.mem_cons_of_mem _ hy))
    have hx := hv x List.mem_cons_self
    obtain ⟨a, b, c, d⟩ := h
    cases x with
    | format f => exact ⟨a, b, c, d⟩
    | method f => exact ⟨a, b, c, d⟩
    | strategy f => exact ⟨a, b, c, d⟩
    | tracers f => exact ⟨a, b, c, d⟩
    | clevel f => exact ⟨of_decide_eq_true hx, b, c, d⟩
    | mlevel f => exact ⟨a, of_decide_eq_true hx, c, d⟩
    | wbits f => exact ⟨a, b, of_decide_eq_true hx, d⟩
    | dict f =>
      refine ⟨a, b, c, fun e he => ?_⟩
      have he : f = some e := he
      subst he
      intro h0
      subst h0
      cases hx

theorem Legal.inRange {o : Options} (h : Legal o) : InRange o.writerDefaults := by
  obtain ⟨a, b, c, d⟩ := h
  refine ⟨?_, ?_, ?_, ?_, d⟩
  · show 0 ≤ (if o.clevel = -1 then (6 : Int) else o.clevel) ∧ (if o.clevel = -1 then (6 : Int) else o.clevel) ≤ 9
    split <;> omega
  · show 1 ≤ (if o.mlevel = 0 then 9 else o.mlevel) ∧ (if o.mlevel = 0 then 9 else o.mlevel) ≤ 9
    split <;> omega
  · show 8 ≤ (if o.wbits = 0 then 15 else o.wbits) ∧ (if o.wbits = 0 then 15 else o.wbits) ≤ 15
    split <;> omega
  · show (if o.format = .default then Format.zlib else o.format) ≠ .default
    split
    · decide
    · assumption

theorem legal_init : Legal {} := ⟨by decide, by decide, Or.inl rfl, fun _ h => by cases h⟩

/-- `NewWriter`: what is given last counts, the rest gets the documented defaults, and everything is in range. -/
theorem C36_newWriter {c : Setup} (h : c.OK) : ∃ m, Merged {} c.opts m ∧ WriterFilled m c.start.o ∧ InRange c.start.o :=
  ⟨_, merged_apply {} c.opts, writerFilled _, (legal_init.apply h.valid).inRange⟩

/-- the options in force and the buffers' sizes agree -/
theorem C36_buffers {c : Setup} (h : c.OK) : c.start.lz.opts = hybridOptions c.start.o ∧ c.start.outBits = c.start.o.mlevel + 7 :=
  ⟨rfl, rfl⟩

theorem InRange.legal {o : Options} (h : InRange o) : Legal o :=
  ⟨⟨by have := h.clevel; omega, h.clevel.2⟩, h.mlevel.2, Or.inr h.wbits, h.dict⟩

/-- `Writer.Reset`: given options are merged over those in force; "default" values given explicitly are
replaced by the documented defaults; without options nothing changes. -/
theorem C36_writer_reset {s t : WState} {w : Sink} {opts : List Opt} (h : InRange s.o) (hv : ∀ x ∈ opts, x.valid = true)
    (hr : wReset w opts s = .ok ((), t)) :
    (∃ m, Merged s.o opts m ∧ WriterFilled m t.o) ∧ InRange t.o ∧ (opts = [] → t.o = s.o) := by
  unfold wReset at hr
  split at hr
  · cases hr
  · simp only at hr
    split at hr
    · rename_i h0
      subst h0
      have ht : t.o = s.o := by cases hr; rfl
      rw [ht]
      refine ⟨⟨s.o, merged_apply s.o [], ?_⟩, h, fun _ => rfl⟩
      obtain ⟨a, b, c, d, _⟩ := h
      refine ⟨by rw [if_neg d], by rw [if_neg (by omega)], by rw [if_neg (by omega)], by rw [if_neg (by omega)], rfl, rfl, rfl, rfl⟩
    · rename_i h0
      have ht : t.o = (s.o.apply opts).writerDefaults := by cases hr; rfl
      rw [ht]
      exact ⟨⟨_, merged_apply s.o opts, writerFilled _⟩, (h.legal.apply hv).inRange, fun e => absurd e h0⟩

/-- `NewReader` (the state is built by reader.go:90-116 from these options). -/
theorem C36_newReader {opts : List Opt} (hv : ∀ x ∈ opts, x.valid = true) :
    ∃ m, Merged {} opts m ∧ ReaderFilled m (Options.apply {} opts).readerDefaults ∧
      1 ≤ (Options.apply {} opts).readerDefaults.mlevel ∧ (Options.apply {} opts).readerDefaults.mlevel ≤ 9 ∧
      8 ≤ (Options.apply {} opts).readerDefaults.wbits ∧ (Options.apply {} opts).readerDefaults.wbits ≤ 15 := by
  refine ⟨_, merged_apply {} opts, readerFilled _, ?_⟩
  obtain ⟨a, b, c, d⟩ := legal_init.apply hv
  show 1 ≤ (if (Options.apply {} opts).mlevel = 0 then 9 else (Options.apply {} opts).mlevel) ∧
    (if (Options.apply {} opts).mlevel = 0 then 9 else (Options.apply {} opts).mlevel) ≤ 9 ∧
    8 ≤ (if (Options.apply {} opts).wbits = 0 then 15 else (Options.apply {} opts).wbits) ∧
    (if (Options.apply {} opts).wbits = 0 then 15 else (Options.apply {} opts).wbits) ≤ 15
  split <;> split <;> omega

/-- a non-trivial case: later options win, the format stays at its default -/
example : (newWriter 64 (fun _ => none) {} [.clevel 3, .wbits 9, .clevel 4]).o =
    { format := .zlib, clevel := 4, mlevel := 9, wbits := 9 } := by decide

end Flate.Props
