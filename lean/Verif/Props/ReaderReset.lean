/-
C58: what a Reader does after `Reset`.
-/
import Verif.Proof.RSim
import Verif.Proof.RFlat
import Verif.Props.RSession
import Verif.Props.Options
import Verif.Props.Reading

namespace Flate.Props
open Flate.Spec Flate.Model Flate.Model.Rd Flate.Proof Flate.Proof.R Flate.Proof.R.Sim

/-! ### the parameters -/

theorem take_apply : ∀ (opts : List Opt) (a b : Options), ROptions.take a.readerDefaults = ROptions.take b.readerDefaults →
    ROptions.take (a.apply opts).readerDefaults = ROptions.take (b.apply opts).readerDefaults := by
  intro opts
  induction opts with
  | nil => intro a b h; exact h
  | cons x xs ih =>
    intro a b h
    refine ih _ _ ?_
    unfold ROptions.take Options.readerDefaults at h ⊢
    simp only [ROptions.mk.injEq] at h ⊢
    obtain ⟨h1, h2, h3, h4, h5⟩ := h
    cases x <;> (simp only [Opt.apply]; exact ⟨by first | rfl | exact h1 | trivial, by first | exact h2 | rfl | trivial, by first | exact h3 | rfl | trivial, by first | rfl | exact h4 | trivial, by first | rfl | exact h5 | trivial⟩)

/-- C36: `Reset` merges the options given with all those given before. -/
theorem C36_reader_reset (before opts : List Opt) : (ROptions.new before).reset opts = ROptions.new (before ++ opts) := by
  unfold ROptions.reset
  rcases opts with _ | ⟨x, xs⟩
  · simp
  · rw [if_neg (by simp)]
    have e : (({} : Options).apply (before ++ x :: xs)) = (({} : Options).apply before).apply (x :: xs) := by unfold Options.apply; rw [List.foldl_append]
    unfold ROptions.new
    rw [e]
    refine take_apply _ _ _ ?_
    unfold ROptions.take Options.readerDefaults
    simp only [ROptions.mk.injEq, and_true, true_and]
    refine ⟨?_, ?_⟩
    all_goals (repeat' split) <;> rfl

/-! ### the life of a Reader -/

/-- The states in which a Reader has no goroutine: it is new, or its goroutine has ended (at the end of the input, at an error, or because of `Close`), or `Reset` was
called in such a state.  `opts` are all options given so far, `o` the parameters in force. -/
inductive Idle (L : HuffLib) (W : Nat) : List Opt → ROptions → RState → Prop
  | new (opts : List Opt) (src : Src) (closed : Bool) : Idle L W opts (.new opts) (start src closed)
  | ended {opts : List Opt} {o : ROptions} {s t : RState} (stop : Nat → Option Nat) (clip : Nat → Nat) : Idle L W opts o s →
      readThread ⟨L, W, o, stop, clip⟩ s = .ok ((), t) → Idle L W opts o t
  | reset {before : List Opt} {o : ROptions} {s : RState} (opts : List Opt) (src : Src) (closed : Bool) : Idle L W before o s →
      Idle L W (before ++ opts) (o.reset opts) (rReset src closed s)

theorem Idle.opts {L : HuffLib} {W : Nat} {opts : List Opt} {o : ROptions} {s : RState} (h : Idle L W opts o s) : o = .new opts := by
  induction h with
  | new => rfl
  | ended _ _ _ _ ih => exact ih
  | reset opts src closed _ ih => rw [ih]; exact C36_reader_reset _ _

theorem Idle.flat {L : HuffLib} {W : Nat} {opts : List Opt} {o : ROptions} {s : RState} (h : Idle L W opts o s) : Flat s.inp := by
  induction h with
  | new => exact ⟨rfl, rfl⟩
  | ended stop clip _ e ih => exact flat_thread _ _ _ _ e ih
  | reset opts src closed _ ih => exact ih

/-- `e'` is the error `e`, except that a corrupt input is reported with a total offset which is greater by `n`. -/
def SameError (n : Nat) (e e' : Option Err) : Prop :=
  e' = e ∨ ∃ total stream problem, e = some (.corrupt total stream problem) ∧ e' = some (.corrupt (total + n) stream problem)

/-- What the goroutine does (state `t'`) after `n` bytes have been read, `m` bytes have been delivered, and the events `ev` have been sent earlier, compared with what
that of a new Reader does (state `t`). -/
structure LikeNew (n m : Nat) (ev : List Event) (t t' : RState) : Prop where
  /-- the same data, in the same pieces -/
  data : actData t'.out.acts = actData t.out.acts
  pieces : t'.out.acts.length = t.out.acts.length
  error : SameError n (actErr t.out.acts) (actErr t'.out.acts)
  /-- the same events, except for the totals -/
  events : t'.events = ev ++ t.events.map fun e => { e with inTotal := e.inTotal + n, outTotal := e.outTotal + m }

theorem acts_same {n : Nat} {l l' : List Act} (h : List.Forall₂ (ActR n) l l') : actData l' = actData l ∧ SameError n (actErr l) (actErr l') := by
  induction h with
  | nil => exact ⟨rfl, Or.inl rfl⟩
  | cons h _ ih =>
    cases h with
    | data p => exact ⟨by simp only [actData, ih.1], ih.2⟩
    | err he =>
      refine ⟨ih.1, ?_⟩
      cases he with
      | same e => exact Or.inl rfl
      | moved t s p => exact Or.inr ⟨t, s, p, rfl, rfl⟩

theorem forall2_length {α β : Type} {R : α → β → Prop} {l : List α} {l' : List β} (h : List.Forall₂ R l l') : l'.length = l.length := by
  induction h with
  | nil => rfl
  | cons _ _ ih => simp [ih]

/-- the counters of the current stream do not matter at the start -/
def zeroed (s : RState) : RState := { s with inp := { s.inp with inStream := 0 }, out := { s.out with outStream := 0 }, numStreams := 0 }

theorem bind_at {σ α β : Type} {x : Go σ α} {f : α → Go σ β} {s s' : σ} (h : x s = x s') : (x >>= f) s = (x >>= f) s' := by
  rw [Go.bind_apply, Go.bind_apply, h]

theorem thread_zeroed (E : Env) (s : RState) (h : s.inp.inputError = none) : readThread E s = readThread E (zeroed s) := by
  have e : ∀ n, streamLoop E (n + 1) { s with numStreams := 0 } = streamLoop E (n + 1) (zeroed s) := by
    intro n
    unfold streamLoop
    have e1 : ({ s with numStreams := 0 } : RState).inp.inputError.isNone = true := by show s.inp.inputError.isNone = true; rw [h]; rfl
    have e2 : (zeroed s).inp.inputError.isNone = true := e1
    rw [if_pos e1, if_pos e2]
    have e3 : readStream E { s with numStreams := 0 } = readStream E (zeroed s) := by
      unfold readStream Go.chk
      rw [readHeader_eq, readHeader_eq]
      rfl
    rw [e3]
  have t : ∀ s : RState, readThread E s = ((fun s => streamLoop E (s.inp.size + 1 + 1) s : Go RState Unit) >>= fun _ => finishThread) { s with numStreams := 0 } := by
    intro s
    unfold readThread
    rfl
  have z : ({ zeroed s with numStreams := 0 } : RState) = zeroed s := rfl
  rw [t s, t (zeroed s), z]
  have x : (fun s => streamLoop E (s.inp.size + 1 + 1) s : Go RState Unit) { s with numStreams := 0 } = (fun s => streamLoop E (s.inp.size + 1 + 1) s : Go RState Unit) (zeroed s) := e _
  exact bind_at x

/-- C58: After any history (any number of sources, corrupt or not, read to the end or closed at any point), `Reset` makes a Reader behave on the new source like a new one with all
options given so far: it uses the same parameters; it fails if and only if the new one does; it delivers the same bytes; it reports the same error, except that the total offset
of a corruption includes the bytes of earlier sources; it sends the same events, except that the totals include those of earlier sources. -/
theorem C58_reset_partial {L : HuffLib} {W : Nat} {before : List Opt} {o : ROptions} {s : RState} (h : Idle L W before o s) (opts : List Opt) (src : Src) (closed : Bool)
    (stop : Nat → Option Nat) (clip : Nat → Nat) :
    o.reset opts = .new (before ++ opts) ∧
    (∀ p, readThread ⟨L, W, .new (before ++ opts), stop, clip⟩ (start src closed) = .error p →
      readThread ⟨L, W, o.reset opts, stop, clip⟩ (rReset src closed s) = .error p) ∧
    ∀ t, readThread ⟨L, W, .new (before ++ opts), stop, clip⟩ (start src closed) = .ok ((), t) →
      ∃ t', readThread ⟨L, W, o.reset opts, stop, clip⟩ (rReset src closed s) = .ok ((), t') ∧ LikeNew s.inp.inTotal s.out.outTotal s.events t t' := by
  have ho : o.reset opts = .new (before ++ opts) := by rw [h.opts]; exact C36_reader_reset _ _
  rw [ho]
  rw [thread_zeroed _ (start src closed) rfl, thread_zeroed _ (rReset src closed s) rfl]
  have hs : SR ⟨s.inp.inTotal, s.out.outTotal, s.events⟩ {} (zeroed (start src closed)) (zeroed (rReset src closed s)) := by
    obtain ⟨f1, f2⟩ := h.flat
    refine ⟨⟨rfl, rfl, rfl, ?_, rfl, ?_, ?_, fun e => (by cases e)⟩, ⟨rfl, rfl, ?_, rfl, fun e => (by cases e), rfl, rfl, .nil, rfl, rfl⟩, rfl, fun e => (by cases e), ?_⟩
    · exact (Nat.zero_add _).symm
    · assumption
    · assumption
    · exact (Nat.zero_add _).symm
    · exact (List.append_nil _).symm
  have hA := sr_thread ⟨L, W, .new (before ++ opts), stop, clip⟩ (s := zeroed (start src closed)) (s' := zeroed (rReset src closed s)) hs
  refine ⟨rfl, fun p e => ?_, fun t e => ?_⟩
  · rw [e] at hA
    exact hA
  · rw [e] at hA
    obtain ⟨t', e', ht⟩ := hA
    refine ⟨t', e', ?_, ?_, ?_, ht.ev⟩
    · exact (acts_same ht.out.acts).1
    · exact forall2_length ht.out.acts
    · exact (acts_same ht.out.acts).2

theorem acts_delivered (ds : List (List UInt8)) (e : Err) : actData (ds.map Act.data ++ [.err e]) = ds.flatten ∧ actErr (ds.map Act.data ++ [.err e]) = some e := by
  induction ds with
  | nil => exact ⟨rfl, rfl⟩
  | cons d ds ih => exact ⟨by simp only [List.map_cons, List.cons_append, actData, ih.1, List.flatten_cons], ih.2⟩

/-- C58, for valid streams: after `Reset`, whatever happened before, a Reader decodes them. -/
theorem C58_decodes {c : RSetup} (h : c.OK) {before opts : List Opt} {o : ROptions} {s : RState} (hi : Idle c.L c.W before o s) (ho : c.opts = before ++ opts)
    {k : Container} {src : Src} {data : List UInt8} (ht : c.Takes k src) (hS : c.Stream k src.bytes data) (he : src.err = .eof) :
    ∃ t, readThread ⟨c.L, c.W, o.reset opts, fun _ => none, c.clip⟩ (rReset src false s) = .ok ((), t) ∧ actData t.out.acts = data ∧ actErr t.out.acts = some .eof := by
  obtain ⟨u, ds, hr, h2, h3⟩ := C03_decodes h ht hS
  have hr' : readThread ⟨c.L, c.W, .new (before ++ opts), fun _ => none, c.clip⟩ (start src false) = .ok ((), u) := by rw [← ho]; exact hr
  obtain ⟨_, _, h4⟩ := C58_reset_partial hi opts src false (fun _ => none) c.clip
  obtain ⟨t, e, hl⟩ := h4 u hr'
  have ha := acts_delivered ds src.err
  rw [← h2, h3] at ha
  refine ⟨t, e, hl.data.trans ha.1, ?_⟩
  rcases hl.error with h5 | ⟨_, _, _, h5, _⟩
  · rw [h5, ha.2, he]
  · rw [ha.2, he] at h5; cases h5

/-! ### examples -/

/-- a stream of the reserved block type -/
def badSrc : Src := ⟨[], [7], .eof⟩
/-- an empty static block -/
def goodSrc : Src := ⟨[], [3, 0], .eof⟩

def rawEnv : Env := ⟨refLib, 64, .new [.format .raw], fun _ => none, fun _ => 300⟩

/-- the actions of a second session -/
def secondActs (a b : Src) : Option (List Act) := match readThread rawEnv (start a false) with
  | .ok (_, t) => acts? (readThread rawEnv (rReset b false t))
  | .error _ => none

theorem secondActs_some {a b : Src} {as : List Act} (h : secondActs a b = some as) :
    ∃ s t, Idle refLib 64 [.format .raw] (.new [.format .raw]) s ∧ readThread rawEnv (start a false) = .ok ((), s) ∧ readThread rawEnv (rReset b false s) = .ok ((), t) ∧ t.out.acts = as := by
  unfold secondActs at h
  rcases hx : readThread rawEnv (start a false) with p | ⟨u, s⟩
  · rw [hx] at h; cases h
  · rw [hx] at h
    simp only at h
    rcases hy : readThread rawEnv (rReset b false s) with p | ⟨u', t⟩
    · rw [hy] at h; cases h
    · rw [hy] at h
      exact ⟨s, t, .ended _ _ (.new _ a false) hx, rfl, hy, by simpa [acts?] using h⟩

/-- After a corrupt source, a `Reset` Reader decodes a valid one without trouble. -/
theorem reset_after_corrupt : secondActs badSrc goodSrc = some [.err .eof] := by decide +kernel

/-- C58 is false as far as the total offset of a corruption is concerned: it includes the bytes of earlier sources. -/
theorem C58_offset_fails : ∃ s t t' problem, Idle refLib 64 [.format .raw] (.new [.format .raw]) s ∧
    readThread rawEnv (start badSrc false) = .ok ((), t) ∧ readThread rawEnv (rReset badSrc false s) = .ok ((), t') ∧
    actErr t.out.acts = some (.corrupt 1 1 problem) ∧ actErr t'.out.acts = some (.corrupt 2 1 problem) := by
  have h2 : secondActs badSrc badSrc = some [.err (.corrupt 2 1 .reserved)] := by decide +kernel
  have h1 : acts? (readThread rawEnv (start badSrc false)) = some [.err (.corrupt 1 1 .reserved)] := by decide +kernel
  obtain ⟨s, t', hi, e1, e2, ha⟩ := secondActs_some h2
  rw [e1] at h1
  simp only [acts?, Option.some.injEq] at h1
  exact ⟨s, s, t', _, hi, e1, e2, by rw [h1]; rfl, by rw [ha]; rfl⟩

end Flate.Props
