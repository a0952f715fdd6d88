/-
How the source is cut in pieces does not matter (C06), and how the format is recognised (C08).
-/
import Verif.Props.Reading

namespace Flate.Props
open Flate.Spec Flate.Model Flate.Model.Rd Flate.Proof Flate.Proof.R

/-! ### the first stream -/

/-- how the goroutine ends -/
def andFinish : Except Panic (Unit × RState) → Except Panic (Unit × RState)
  | .ok (_, s) => finishThread s
  | .error e => .error e

theorem thread_eq (E : Env) (src : Src) {x : Except Panic (Unit × RState)} (hx : streamLoop E ((start src false).inp.size + 2) (start src false) = x) :
    readThread E (start src false) = andFinish x := by
  have hst : readThread E (start src false) = ((fun s => streamLoop E (s.inp.size + 2) s : Go RState Unit) >>= fun _ => finishThread) (start src false) := by
    unfold readThread
    exact Go.bind_ok (Go.modify_apply _ _)
  rw [hst]
  rcases x with e | ⟨a, s⟩
  · exact Go.bind_error hx
  · exact Go.bind_ok hx

theorem finish_eq (s : RState) : finishThread s = .ok ((), { s with inp := { s.inp with inputError := some (s.inp.inputError.getD .eof) }, out := closeOut (s.inp.inputError.getD .eof) s.out }) := by
  unfold finishThread
  refine (Go.bind_ok (onInp_ok rfl)).trans ?_
  unfold propagateError
  simp only [Bool.false_and, Bool.false_eq_true, if_false]
  exact closeWithError_eq _ _

/-- A run goes on from its first stream; an error there is the only one, and if the source had ended by then, this is all. -/
theorem after_first {E : Env} (hE : EnvOK E) {src : Src} {b : Bool} {s1 s : RState} (h1 : readStream E (start src false) = .ok (b, s1)) (hr : readThread E (start src false) = .ok ((), s))
    (hset : s1.out.errorWasSet = true) : ∃ post, s.out.acts = s1.out.acts ++ post ∧ post.countP isErr = 0 ∧ (s1.inp.inputError ≠ none → post = [] ∧ s.events = s1.events) := by
  have hlib : LibOK E := ⟨hE.lawful, hE.word⟩
  have hl : streamLoop E ((start src false).inp.size + 2) (start src false) = (if b then streamLoop E ((start src false).inp.size + 1) s1 else .ok ((), s1)) := by
    rw [streamLoop]
    have hi : (start src false).inp.inputError.isNone = true := rfl
    simp only [hi, if_true, h1]
    cases b <;> rfl
  have hr := (thread_eq E src hl).symm.trans hr
  have done : ∀ {s}, finishThread s1 = .ok ((), s) → s.out.acts = s1.out.acts ∧ s.events = s1.events := by
    intro s h
    rw [finish_eq] at h
    cases h
    simp [closeOut, hset]
  cases b with
  | false =>
    obtain ⟨d1, d2⟩ := done hr
    exact ⟨[], by simp [d1], rfl, fun _ => ⟨rfl, d2⟩⟩
  | true =>
    have hr : andFinish (streamLoop E ((start src false).inp.size + 1) s1) = .ok ((), s) := hr
    by_cases hn : s1.inp.inputError = none
    · rcases safe_readStream (X := True) (s := start src false) hlib rfl (fun _ => trivial) with ⟨s', e, _⟩ | ⟨s', e, m1, m2, m3⟩ | ⟨e, _⟩
      · rw [h1] at e; cases e
      · rw [h1] at e; cases e
        rcases safe_streamLoop (X := True) hlib ((start src false).inp.size + 1) s1 (by rw [size_eq]; omega) m2 (fun _ => trivial) with ⟨s2, e, p⟩ | ⟨e, _⟩
        · rw [e] at hr
          simp only [andFinish, finish_eq] at hr
          cases hr
          obtain ⟨⟨post, p1, p2, p3, _⟩, _⟩ := p.out
          have hs2 : s2.out.errorWasSet = true := by
            cases hh : s2.out.errorWasSet with
            | true => rfl
            | false => rw [hh, hset] at p3; simp at p3
          refine ⟨post, by simp [closeOut, hs2, p1], ?_, fun h => absurd hn h⟩
          rw [hs2, hset] at p3; simpa using p3
        · rw [e] at hr; cases hr
      · rw [h1] at e; cases e
    · have : streamLoop E ((start src false).inp.size + 1) s1 = .ok ((), s1) := by
        rw [streamLoop]
        obtain ⟨e, he⟩ := Option.ne_none_iff_exists'.1 hn
        simp [he]
      rw [this] at hr
      obtain ⟨d1, d2⟩ := done hr
      exact ⟨[], by simp [d1], rfl, fun _ => ⟨rfl, d2⟩⟩

theorem start_nrm {src src' : Src} (hb : src.bytes = src'.bytes) (he : src.err = src'.err) : nrm (start src false) = nrm (start src' false) := by
  simp [nrm, norm, start, hb, he]

theorem calm_start (src : Src) : Calm (start src false) := ⟨rfl, rfl, ⟨rfl, rfl⟩, rfl, rfl⟩

theorem first_filled (src : Src) : (filled (start src false)).inp.buf = src.first := by
  unfold filled refill start fill Src.first
  rcases src with ⟨_ | ⟨⟨b, bs⟩, cs⟩, last, err⟩ <;> simp

/-- The first stream is read in the same way from two sources with the same bytes. -/
theorem same_first {c : RSetup} (h : c.OK) {src src' : Src} (hb : src.bytes = src'.bytes) (he : src.err = src'.err)
    (hd : detect c.env.o.format src.first = detect c.env.o.format src'.first) :
    mapS (readStream c.env (start src false)) = mapS (readStream c.env (start src' false)) := by
  by_cases h0 : src.bytes = []
  · have : ∀ s : Src, s.bytes = [] → s.full = [] ∧ s.last = [] := by
      rintro ⟨_ | ⟨⟨b, bs⟩, cs⟩, last, err⟩ h
      · simpa [Src.bytes] using h
      · simp [Src.bytes] at h
    obtain ⟨a1, a2⟩ := this src h0
    obtain ⟨b1, b2⟩ := this src' (hb ▸ h0)
    have : src = src' := by
      cases src; cases src'; simp only at a1 a2 b1 b2 he; subst a1 a2 b1 b2 he; rfl
    rw [this]
  · have hne : ∀ s : Src, s.bytes ≠ [] → (filled (start s false)).inp.buf ≠ [] := by
      intro s hs hf
      exact hs ((filled_all (calm_start s)).2 hf).1
    rw [← cm_readStream h.env.opn rfl (hne src h0), ← cm_readStream h.env.opn rfl (hne src' (hb ▸ h0)), first_filled, first_filled, hd, start_nrm hb he]

/-! ### C06 -/

/-- **C06**, valid streams: whatever the pieces, the same bytes are delivered. -/
theorem C06_valid {c : RSetup} (h : c.OK) {k : Container} (hk : c.o.format = fmtOf k) {src src' : Src} (hb : src.bytes = src'.bytes) (he : src.err = src'.err)
    {data : List UInt8} (hS : c.Stream k src.bytes data) {s s' : RState} (hr : c.Runs src s) (hr' : c.Runs src' s') :
    actData s.out.acts = actData s'.out.acts ∧ actErr s.out.acts = actErr s'.out.acts := by
  have key : ∀ {src : Src} {s : RState}, c.Runs src s → c.Stream k src.bytes data → actData s.out.acts = data ∧ actErr s.out.acts = some src.err := by
    intro src s hr hS
    clear hb he
    obtain ⟨t, ds, h1, h2, h3⟩ := C03_decodes h (Or.inl hk) hS
    unfold RSetup.Runs at hr h1
    rw [h1] at hr; cases hr
    rw [h2]
    clear h2
    subst h3
    clear * -
    induction ds with
    | nil => exact ⟨rfl, rfl⟩
    | cons d ds ih => simpa [actData, actErr] using ih
  obtain ⟨a, b⟩ := key hr hS
  obtain ⟨a', b'⟩ := key hr' (hb ▸ hS)
  exact ⟨a.trans a'.symm, by rw [b, b', he]⟩

/-- the two runs on input which does not begin with a valid stream -/
theorem same_halt {c : RSetup} (h : c.OK) {k : Container} {src src' : Src} (hb : src.bytes = src'.bytes) (he : src.err = src'.err)
    (hd : detect c.env.o.format src.first = k) (hd' : detect c.env.o.format src'.first = k)
    (h0 : src.bytes ≠ []) (hn : ∀ S data r, c.Stream k S data → src.bytes ≠ S ++ r) {s s' : RState} (hr : c.Runs src s) (hr' : c.Runs src' s') :
    ∃ (s1 : RState) (post post' : List Act), s.out.acts = s1.out.acts ++ post ∧ s'.out.acts = s1.out.acts ++ post' ∧ s1.out.acts.countP isErr = 1 ∧ post.countP isErr = 0 ∧ post'.countP isErr = 0 ∧
      ((∃ x S data, c.Stream k S data ∧ src.bytes ++ x = S) → post = [] ∧ post' = [] ∧ s.events = s'.events) := by
  have key : ∀ {src : Src} {s : RState}, detect c.env.o.format src.first = k → src.bytes ≠ [] → (∀ S data r, c.Stream k S data → src.bytes ≠ S ++ r) → c.Runs src s →
      ∃ (b : Bool) (s1 : RState) (post : List Act), readStream c.env (start src false) = .ok (b, s1) ∧ s.out.acts = s1.out.acts ++ post ∧ s1.out.acts.countP isErr = 1 ∧ post.countP isErr = 0 ∧
        ((∃ x S data, c.Stream k S data ∧ src.bytes ++ x = S) → post = [] ∧ s.events = s1.events) := by
    intro src s hd h0 hn hr
    have hfc : firstC c.env (start src false) = k := by unfold firstC; rw [first_filled]; exact hd
    rcases stream_step h.env (calm_start src) with ⟨g1, _⟩ | ⟨it, s1, g1, g2, _, _, _, _, g3⟩ | ⟨b, c', p, s1, g1, _, g2, _, g4, _, _, g5⟩ | ⟨g1, _⟩
    · exact absurd g1 h0
    · rw [hfc] at g2
      exact absurd g3 (hn _ _ _ (g2 ▸ g1.1))
    · have hset : s1.out.errorWasSet = true := g4.set
      obtain ⟨post, q1, q2, q3⟩ := after_first h.env g2 hr hset
      refine ⟨b, s1, post, g2, q1, ?_, q2, fun ⟨x, S, data, x1, x2⟩ => q3 fun hnone => ?_⟩
      · have hlib : LibOK c.env := ⟨h.env.lawful, h.env.word⟩
        have hst := stop_readStream h.env.opn rfl g2
        have : StepO (start src false).out s1.out := by
          rcases safe_readStream (X := True) (s := start src false) hlib rfl (fun _ => trivial) with ⟨s', e, o, _⟩ | ⟨s', e, m, _⟩ | ⟨e, _⟩
          · rw [g2] at e; cases e; exact o
          · rw [g2] at e; cases e; exact m.out
          · rw [g2] at e; cases e
        obtain ⟨⟨l, l1, _, _, l4⟩, _⟩ := this
        have := (l4 hst).1
        rw [hset] at this
        rw [l1]
        simp [start] at this ⊢
        exact this.symm
      · rw [hfc] at g1
        subst g1
        exact g5 hnone x S data [] x1 (by rw [List.append_nil]; exact x2)
    · unfold RSetup.Runs at hr
      have hl : streamLoop c.env ((start src false).inp.size + 2) (start src false) = .error .bounds := by
        rw [streamLoop]
        have hi : (start src false).inp.inputError.isNone = true := rfl
        simp only [hi, if_true, g1]
      rw [thread_eq _ _ hl] at hr
      cases hr
  obtain ⟨b, s1, post, g1, g2, g3, g4, g5⟩ := key hd h0 hn hr
  obtain ⟨b', s1', post', g1', g2', g3', g4', g5'⟩ := key hd' (hb ▸ h0) (hb ▸ hn) hr'
  have hsame := same_first h hb he (hd.trans hd'.symm)
  rw [g1, g1'] at hsame
  have hn : nrm s1 = nrm s1' := by
    simp only [mapS] at hsame
    injection hsame with hsame
    injection hsame
  have ho : s1.out = s1'.out := by have := congrArg RState.out hn; exact this
  have hev : s1.events = s1'.events := by have := congrArg RState.events hn; exact this
  refine ⟨s1, post, post', g2, by rw [ho]; exact g2', g3, g4, g4', fun hx => ?_⟩
  obtain ⟨x1, x2⟩ := g5 hx
  obtain ⟨y1, y2⟩ := g5' (hb ▸ hx)
  exact ⟨x1, y1, by rw [x2, y2, hev]⟩

/-- **C06**, truncated streams: whatever the pieces, the goroutine delivers the same bytes, reports the same error, and sends the same events. -/
theorem C06_truncated {c : RSetup} (h : c.OK) {k : Container} (hk : c.o.format = fmtOf k) {src src' : Src} (hb : src.bytes = src'.bytes) (he : src.err = src'.err)
    {S data x : List UInt8} (hS : c.Stream k S data) (hx : src.bytes ++ x = S) (hne : x ≠ []) {s s' : RState} (hr : c.Runs src s) (hr' : c.Runs src' s') :
    s.out.acts = s'.out.acts ∧ s.events = s'.events := by
  have hd : ∀ b, detect c.env.o.format b = k := fun b => by show detect c.o.format b = k; rw [hk]; exact detect_fmtOf _ _
  by_cases h0 : src.bytes = []
  · have : ∀ s : Src, s.bytes = [] → s.full = [] ∧ s.last = [] := by
      rintro ⟨_ | ⟨⟨b, bs⟩, cs⟩, last, err⟩ h
      · simpa [Src.bytes] using h
      · simp [Src.bytes] at h
    obtain ⟨a1, a2⟩ := this src h0
    obtain ⟨b1, b2⟩ := this src' (hb ▸ h0)
    have : src = src' := by
      cases src; cases src'; simp only at a1 a2 b1 b2 he; subst a1 a2 b1 b2 he; rfl
    subst this
    unfold RSetup.Runs at hr hr'
    rw [hr] at hr'; cases hr'
    exact ⟨rfl, rfl⟩
  · have hn : ∀ S' data' r, c.Stream k S' data' → src.bytes ≠ S' ++ r := by
      intro S' data' r hS' e
      obtain ⟨e1, _⟩ := stream_unique h.env (show Spec.Stream (Env.ok c.env) (2 ^ c.env.o.wbits) c.env.o.dict k S' data' from hS')
        (show Spec.Stream (Env.ok c.env) (2 ^ c.env.o.wbits) c.env.o.dict k S data from hS) (r := r ++ x) (r' := []) (by rw [← hx, e]; simp)
      have := congrArg List.length hx
      rw [e, e1] at this
      have hxl := List.length_pos_iff.2 hne
      simp only [List.length_append] at this
      omega
    obtain ⟨s1, post, post', q1, q2, _, _, _, q6⟩ := same_halt h hb he (hd _) (hd _) h0 hn hr hr'
    obtain ⟨rfl, rfl, q7⟩ := q6 ⟨x, S, data, hS, hx⟩
    exact ⟨by rw [q1, q2], q7⟩

/-- **C06**, other input: up to and including the error, and the flushing of what had been decoded before it, the
goroutine does the same whatever the pieces.  (It may go on after that, see `C06_fails`.) -/
theorem C06_partial {c : RSetup} (h : c.OK) {k : Container} (hk : c.o.format = fmtOf k) {src src' : Src} (hb : src.bytes = src'.bytes) (he : src.err = src'.err)
    (h0 : src.bytes ≠ []) (hn : ∀ S data r, c.Stream k S data → src.bytes ≠ S ++ r) {s s' : RState} (hr : c.Runs src s) (hr' : c.Runs src' s') :
    ∃ (acts post post' : List Act), s.out.acts = acts ++ post ∧ s'.out.acts = acts ++ post' ∧ acts.countP isErr = 1 ∧ post.countP isErr = 0 ∧ post'.countP isErr = 0 := by
  have hd : ∀ b, detect c.env.o.format b = k := fun b => by show detect c.o.format b = k; rw [hk]; exact detect_fmtOf _ _
  obtain ⟨s1, post, post', q1, q2, q3, q4, q5, _⟩ := same_halt h hb he (hd _) (hd _) h0 hn hr hr'
  exact ⟨_, post, post', q1, q2, q3, q4, q5⟩

/-! ### C08 -/

/-- **C08.** A Reader told to recognise the format reads the first stream exactly as a Reader told the format would, provided the first
two bytes come together (as they do if the source has them: `Buffer.ReadFrom` fills the buffer). -/
theorem C08_first {c : RSetup} (hf : c.o.format = .default) {src : Src} (h2 : 2 ≤ src.first.length ∨ src.bytes.length < 2) (h0 : src.bytes ≠ []) :
    readStream c.env (start src false) = readStream { c.env with o := { c.o with format := fmtOf (autodetect src.bytes) } } (start src false) := by
  have hne : (filled (start src false)).inp.buf ≠ [] := by
    intro hf
    exact h0 ((filled_all (calm_start src)).2 hf).1
  have hx : detect .default src.first = autodetect src.bytes := by
    rw [detect_auto]
    rcases h2 with h2 | h2
    · exact autodetect_prefix (first_prefix src) h2
    · have h3 := (first_prefix src).length_le
      have hs : ∀ l : List UInt8, l.length < 2 → autodetect l = .raw := by
        rintro (_ | ⟨a, _ | ⟨b, l⟩⟩) h
        · rfl
        · rfl
        · simp at h; omega
      rw [hs _ (by omega), hs _ h2]
  have := readStream_detect c.env (start src false) hne
  rw [first_filled, show c.env.o.format = .default from hf, hx] at this
  exact this

end Flate.Props
