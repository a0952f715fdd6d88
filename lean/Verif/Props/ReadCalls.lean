/-
What calls of `Read` return, for real inputs: the results about the goroutine (`Props/Reading.lean`, `Props/RoundTrip.lean`) and those about schedules (`Props/Conc.lean`) together.
-/
import Verif.Props.Conc
import Verif.Props.RoundTrip

namespace Flate.Props
open Flate.Spec Flate.Model Flate.Model.Rd Flate.Model.Conc Flate.Proof Flate.Proof.R Flate.Proof.Cc

/-- A history of a new Reader for the source `src`, with an outputBuffer of size `cap` and `n` callers whose calls are as `P` admits, led to the state `t`;
`t.log` lists what has been returned. -/
def RSetup.Calls (c : RSetup) (P : Lab → Prop) (src : Src) (cap n : Nat) (t : St) : Prop := ∃ s, c.Runs src s ∧ Reach P cap s.out.acts n t

/-- What callers should see: what has been returned so far is a prefix of `data`; an error is returned only after all of `data`, it is `e`, and after it calls of
`Read` return `e` and no data.  (`.got` are calls of getters.) -/
def Yields (log : List (Nat × Res)) (data : List UInt8) (e : Err) : Prop :=
  got log <+: data ∧ ∀ pre i p e' post, log = pre ++ (i, .read p (some e')) :: post →
    p = [] ∧ e' = e ∧ got pre = data ∧ ∀ y ∈ post, ∃ j, y = (j, .read [] (some e)) ∨ y = (j, .got)

theorem runs_unique {c : RSetup} {src : Src} {s s' : RState} (h : c.Runs src s) (h' : c.Runs src s') : s = s' := by
  unfold RSetup.Runs at h h'
  rw [h] at h'; cases h'; rfl

theorem delivers_yields {c : RSetup} {src : Src} {data : List UInt8} {e : Err} (hd : c.Delivers src data e) {cap n : Nat} {t : St} (hc : 0 < cap)
    (h : c.Calls ReadOnly src cap n t) : Yields t.log data e := by
  obtain ⟨s, ds, hr, ha, rfl⟩ := hd
  obtain ⟨s', hr', h⟩ := h
  have := runs_unique hr hr'
  subst this
  rw [ha] at h
  refine ⟨?_, fun pre i p e' post hx => C40_eof hc h hx⟩
  have := C39_prefix hc h
  rw [← reach_source h, (good hc readOnly_noReset h).sc, (data_script ds _).1] at this
  simpa [actData] using this

/-- **C03 and C40, for calls of `Read`.** -/
theorem C03_calls {c : RSetup} (h : c.OK) {k : Container} {src : Src} {data : List UInt8} (ht : c.Takes k src) (hS : c.Stream k src.bytes data)
    {cap n : Nat} {t : St} (hc : 0 < cap) (hh : c.Calls ReadOnly src cap n t) : Yields t.log data src.err :=
  delivers_yields (C03_decodes h ht hS) hc hh

/-- **C01, for calls of `Read`.** -/
theorem C01_calls {c : Setup} (h : c.OK) {ops : List WOp} (hops : ∀ op ∈ ops, Continues op) {rs : List WRes} {w : WState} (hr : c.Runs (ops ++ [.close]) rs w) (he : NoErr rs)
    (h0 : c.sink.out = []) {r : RSetup} (hok : r.OK) (hs : Suits c r) {src : Src} (hsrc : src.bytes = w.sink.out)
    {cap n : Nat} {t : St} (hc : 0 < cap) (hh : r.Calls ReadOnly src cap n t) : Yields t.log (writtenData ops) src.err :=
  delivers_yields (C01_round_trip h hops hr he h0 hok hs hsrc) hc hh

/-- What callers should see if `Close` may be called, too: what has been returned so far is a prefix of `data`; an error is `e`, after all of `data`, or `canceled` if `Close` has taken effect (`closed`). -/
def YieldsOr (log : List (Nat × Res)) (data : List UInt8) (e : Err) (closed : Prop) : Prop :=
  got log <+: data ∧ ∀ pre i p e' post, log = pre ++ (i, .read p (some e')) :: post → p = [] ∧ (e' = e ∧ got pre = data ∨ e' = .canceled ∧ closed)

theorem delivers_yieldsOr {c : RSetup} {src : Src} {data : List UInt8} {e : Err} (hd : c.Delivers src data e) {cap n : Nat} {t : St} (hc : 0 < cap)
    (h : c.Calls NoReset src cap n t) : YieldsOr t.log data e (t.forced = true) := by
  obtain ⟨s, ds, hr, ha, rfl⟩ := hd
  obtain ⟨s', hr', h⟩ := h
  have := runs_unique hr hr'
  subst this
  rw [ha] at h
  exact C40_close hc h

/-- **C03 and C40, for calls of `Read` and `Close`.** -/
theorem C03_close {c : RSetup} (h : c.OK) {k : Container} {src : Src} {data : List UInt8} (ht : c.Takes k src) (hS : c.Stream k src.bytes data)
    {cap n : Nat} {t : St} (hc : 0 < cap) (hh : c.Calls NoReset src cap n t) : YieldsOr t.log data src.err (t.forced = true) :=
  delivers_yieldsOr (C03_decodes h ht hS) hc hh

/-- **C01, for calls of `Read` and `Close`.** -/
theorem C01_close {c : Setup} (h : c.OK) {ops : List WOp} (hops : ∀ op ∈ ops, Continues op) {rs : List WRes} {w : WState} (hr : c.Runs (ops ++ [.close]) rs w) (he : NoErr rs)
    (h0 : c.sink.out = []) {r : RSetup} (hok : r.OK) (hs : Suits c r) {src : Src} (hsrc : src.bytes = w.sink.out)
    {cap n : Nat} {t : St} (hc : 0 < cap) (hh : r.Calls NoReset src cap n t) : YieldsOr t.log (writtenData ops) src.err (t.forced = true) :=
  delivers_yieldsOr (C01_round_trip h hops hr he h0 hok hs hsrc) hc hh

theorem runs_shape {c : RSetup} (h : c.OK) {src : Src} {s : RState} (hr : c.Runs src s) :
    (∃ ds : List (List UInt8), s.out.acts = ds.map Act.data ++ [.err src.err]) ∨
      ∃ (ds : List (List UInt8)) (e : Err) (post : List Act), s.out.acts = ds.map Act.data ++ .err e :: post ∧ e ≠ .eof := by
  obtain ⟨l, r, hl, hf, hst, hc⟩ := run_sound h.env src
  unfold RSetup.Runs at hr
  rcases hc with ⟨s', ds, h1, h2, h3, _, _, h4, _⟩ | ⟨c', p, _, _, _, _, _, ⟨s', ds, e, post, h1, h2, h3, _⟩ | ⟨h1, _⟩⟩ | ⟨h1, _⟩
  · rw [h1] at hr; cases hr; exact Or.inl ⟨ds, h2⟩
  · rw [h1] at hr; cases hr; exact Or.inr ⟨ds, e, post, h2, h3.ne_eof⟩
  · rw [h1] at hr; cases hr
  · rw [h1] at hr; cases hr

/-- **C04, for calls of `Read`.** If any call returns `io.EOF`, then the input, or a part at its beginning, is a sequence of well-formed streams, and what was returned before is their
content, nothing less and nothing more. -/
theorem C04_calls {c : RSetup} (h : c.OK) {src : Src} {cap n : Nat} {t : St} (hc : 0 < cap) (hh : c.Calls ReadOnly src cap n t)
    {pre post : List (Nat × Res)} {i : Nat} {p : List UInt8} (hx : t.log = pre ++ (i, .read p (some .eof)) :: post) :
    ∃ used rest datas, src.bytes = used ++ rest ∧ src.err = .eof ∧
      StreamsOf (fun b d => ∃ k, (c.o.format = fmtOf k ∨ c.o.format = .default) ∧ c.Stream k b d) used datas ∧ got pre = datas.flatten ∧
      p = [] ∧ ∀ y ∈ post, ∃ j, y = (j, .read [] (some .eof)) ∨ y = (j, .got) := by
  obtain ⟨s, hr, hre⟩ := hh
  have he : actErr s.out.acts = some .eof := (C45_first hc hre (i := i) (p := p) (by rw [hx]; simp)).2
  obtain ⟨used, rest, datas, e1, _, e2, e3, e4⟩ := C04_sound h hr he
  rcases runs_shape h hr with ⟨ds, ha⟩ | ⟨ds, e, post, ha, hne⟩
  · rw [ha] at hre
    obtain ⟨f1, f2, f3, f4⟩ := C40_eof hc hre hx
    rw [ha, (data_script ds _).1] at e4
    refine ⟨used, rest, datas, e1, e2, e3, ?_, f1, ?_⟩
    · rw [f3, ← e4]; simp [actData]
    · rw [f2]; exact f4
  · rw [ha, (data_script ds _).2] at he
    simp [actErr] at he
    exact (hne he).elim

/-- **C05, for calls of `Read`.** If the input is truncated, no call ever returns `io.EOF`; and there is one error which all calls which return an error return. -/
theorem C05_calls {c : RSetup} (h : c.OK) {k : Container} {src : Src} {S data x : List UInt8} (ht : c.Takes k src)
    (hS : c.Stream k S data) (hb : src.bytes ++ x = S) (h0 : src.bytes ≠ []) (hx : x ≠ []) {cap n : Nat} {t : St} (hc : 0 < cap) (hh : c.Calls ReadOnly src cap n t) :
    ∃ e, e ≠ .eof ∧ ∀ i p e', (i, .read p (some e')) ∈ t.log → e' = e := by
  obtain ⟨s, e, hr, he, hne⟩ := C05_truncated h ht hS hb h0 hx
  obtain ⟨s', hr', hre⟩ := hh
  have := runs_unique hr hr'
  subst this
  refine ⟨e, hne, fun i p e' hm => ?_⟩
  have := (C45_first hc hre hm).2
  rw [he] at this; cases this; rfl

/-- **C42, for every input.** Whatever the input, the sizes and the schedule so far: unless `Reset` is called, every call returns. -/
theorem C42_calls {c : RSetup} (h : c.OK) {src : Src} {cap n : Nat} {t : St} (hc : 0 < cap) (hh : c.Calls NoReset src cap n t) :
    (¬ ∃ f : Nat → St, f 0 = t ∧ ∀ k, ∃ l, Internal l ∧ Step (f k) l (f (k + 1))) ∧
    ∀ u, Steps Internal t u → (∃ c ∈ u.cls, c ≠ .idle) → ∃ l v, Step u l v ∧ Internal l := by
  obtain ⟨s, hr, hre⟩ := hh
  exact C42_live hc (runs_err h hr) hre

/-! ### the hypotheses can be met -/

/-- two callers read a gzip stream through an outputBuffer of size 1; the second one gets the first byte -/
example : ∃ t, (rdemo [.mlevel 1]).Calls ReadOnly ⟨[], storedGz [65, 66], .eof⟩ 1 2 t ∧
    t.log = [(1, .read [65] none), (0, .read [66] none), (0, .read [] (some .eof))] := by
  have ⟨s, h1, h2⟩ : ∃ s, (rdemo [.mlevel 1]).Runs ⟨[], storedGz [65, 66], .eof⟩ s ∧ s.out.acts = [.data [65, 66], .err .eof] := acts?_some (by decide +kernel)
  have he : (execs (initial 1 [.data [65, 66], .err .eof] 2) [.callRead 0 3, .client 0, .client 0, .client 0, .client 0, .callRead 1 3, .client 1, .client 1,
      .thread, .thread, .thread, .thread, .thread, .thread, .thread, .client 1, .client 1, .client 0, .client 0, .thread, .thread, .thread, .thread, .thread,
      .client 0, .client 0, .thread, .thread, .thread, .callRead 0 1, .client 0, .client 0, .client 0, .client 0]).map (·.log) =
      some [(1, .read [65] none), (0, .read [66] none), (0, .read [] (some .eof))] := by decide +kernel
  obtain ⟨t, ht, hl⟩ := Option.map_eq_some_iff.1 he
  exact ⟨t, ⟨s, h1, by rw [h2]; exact execs_ok ht (by decide)⟩, hl⟩

end Flate.Props
