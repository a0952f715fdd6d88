/-
The goroutine of the Reader, from beginning to end.
-/
import Verif.Proof.RExt

namespace Flate.Proof.R
open Flate.Spec Flate.Model Flate.Model.Rd

/-- a stream which was read: its container, its bytes, its content, the header and the events reported -/
structure RItem where
  c : Container
  S : List UInt8
  data : List UInt8
  h : Header
  ks : List EvKind

def RItem.Valid (E : Env) (it : RItem) : Prop :=
  Stream (Env.ok E) (2 ^ E.o.wbits) E.o.dict it.c it.S it.data ∧ (∃ hdr, hdr <+: it.S ∧ Reports it.c hdr it.h) ∧ StreamEvents it.h it.data it.ks

/-- the container is that of the options, or the one recognised from what was in the input buffer -/
def Chosen (E : Env) (c : Container) (bytes : List UInt8) : Prop := ∃ b, b ≠ [] ∧ b <+: bytes ∧ c = detect E.o.format b

/-- The input consists of the streams `l` and a rest. -/
inductive Items (E : Env) : List RItem → List UInt8 → List UInt8 → Prop
  | nil (r : List UInt8) : Items E [] r r
  | cons {it : RItem} {l : List RItem} {w r : List UInt8} : it.Valid E → Chosen E it.c (it.S ++ w) → Items E l w r → Items E (it :: l) (it.S ++ w) r

def datas (l : List RItem) : List UInt8 := l.flatMap (·.data)

theorem Items.split {E : Env} {l : List RItem} {w r : List UInt8} (h : Items E l w r) : w = l.flatMap (·.S) ++ r := by
  induction h with
  | nil r => simp
  | cons _ _ _ ih => simp [ih]

/-- The input does not begin with a valid stream. -/
def NoStream (E : Env) (c : Container) (bytes : List UInt8) : Prop :=
  ∀ S data r, Stream (Env.ok E) (2 ^ E.o.wbits) E.o.dict c S data → bytes ≠ S ++ r

/-- between two streams, no error so far -/
structure Calm (s : RState) : Prop where
  err : s.inp.inputError = none
  stop : s.out.stopIsForced = false
  flat : Flat s.inp
  empty : s.out.decodeBuffer = []
  set : s.out.errorWasSet = false

theorem allB_norm (i : Inp) : allB (norm i) = allB i := by
  unfold norm allB
  cases h : i.inputError <;> simp [Src.bytes]

theorem Calm.nbuf {s : RState} (h : Calm s) : (nrm s).inp.buf = allB s.inp := norm_allB _ (Or.inl h.err)

theorem Calm.ready {s : RState} (h : Calm s) : Ready s.inp.src.err (nrm s) :=
  ⟨by show some (s.inp.inputError.getD _) = _; rw [h.err]; rfl, h.stop, h.flat, h.empty⟩

theorem Past.of_nrm {s s' : RState} (h : Past s (nrm s')) : Past s s' := by
  obtain ⟨⟨c, c1, c2⟩, o, e⟩ := h
  exact ⟨⟨c, by rw [c1]; show c ++ allB (norm s'.inp) = _; rw [allB_norm], c2⟩, o, e⟩

theorem mapS_ok {α : Type} {x : Except Panic (α × RState)} {a : α} {s : RState} (h : mapS x = .ok (a, s)) : ∃ s', x = .ok (a, s') ∧ s = nrm s' := by
  rcases x with e | ⟨b, t⟩
  · cases h
  · cases h; exact ⟨t, rfl, rfl⟩

theorem mapS_error {α : Type} {x : Except Panic (α × RState)} {p : Panic} (h : mapS x = .error p) : x = .error p := by
  rcases x with e | ⟨b, t⟩
  · cases h; rfl
  · cases h

section
variable {E : Env} {s : RState}

theorem filled_all (hs : Calm s) : (filled s).inp.buf <+: allB s.inp ∧ ((filled s).inp.buf = [] → allB s.inp = [] ∧ (filled s).inp.inputError = some s.inp.src.err) := by
  unfold filled refill
  simp only [hs.stop]
  by_cases hb : s.inp.buf = []
  · have e : s.inp.buf.isEmpty = true := by simp [hb]
    simp only [e, if_true]
    unfold fill
    simp only [hs.err, Option.isSome_none, Bool.false_eq_true, if_false]
    rcases hf : s.inp.src.full with _ | ⟨⟨b, bs⟩, cs⟩
    · simp only [allB, Src.bytes, hf, hb]
      refine ⟨by simp, fun h => by simpa using h⟩
    · simp only [allB, Src.bytes, hf, hb]
      refine ⟨by simp, fun h => by simp at h⟩
  · have e : s.inp.buf.isEmpty = false := by simpa using hb
    simp only [e, Bool.false_eq_true, if_false]
    exact ⟨⟨_, rfl⟩, fun h => absurd h hb⟩

theorem stream_clean (hE : EnvOK E) (hs : Calm s) (hb : (filled s).inp.buf ≠ []) {S data r : List UInt8}
    (hS : Stream (Env.ok E) (2 ^ E.o.wbits) E.o.dict (detect E.o.format (filled s).inp.buf) S data) (hr : allB s.inp = S ++ r) :
    ∃ s', readStream E s = .ok (true, s') ∧ s'.out.errorWasSet = false := by
  have hE' : EnvOK (asF E (fmtOf (detect E.o.format (filled s).inp.buf))) := ⟨hE.lawful, hE.word, hE.opn⟩
  obtain ⟨_, _, _, s', _, _, _, q4, _, q6⟩ := stream_ok hE' hs.ready (detect_fmtOf _ _) hS (hs.nbuf.trans hr)
  rw [cm_readStream hE.opn hs.stop hb] at q4
  obtain ⟨s1, q7, rfl⟩ := mapS_ok q4
  exact ⟨s1, q7, q6.set.trans hs.set⟩

theorem Calm.ext (hs : Calm s) (x : List UInt8) : Calm (extS x s) := ⟨hs.err, hs.stop, hs.flat, hs.empty, hs.set⟩

theorem allB_ext (x : List UInt8) (i : Inp) : allB (ext x i) = allB i ++ x := by simp [allB, ext, Src.bytes]

theorem Halted.set {e0 : Err} {p : List UInt8} {s' : RState} (h : Halted e0 s p s') : s'.out.errorWasSet = true := by
  obtain ⟨t, e, ds, _, _, _, _, _, _, _, _, k9⟩ := h
  obtain ⟨_, ⟨⟨post, _, _, p3, _⟩, _⟩, _⟩ := k9
  cases h : s'.out.errorWasSet with
  | true => rfl
  | false => rw [h] at p3; simp [closeOut_set] at p3

/-- the container which the next stream is taken for -/
def firstC (E : Env) (s : RState) : Container := detect E.o.format (filled s).inp.buf

/-- one iteration of the loop -/
theorem stream_step (hE : EnvOK E) (hs : Calm s) :
    (allB s.inp = [] ∧ ∃ s', readStream E s = .ok (false, s') ∧ s'.inp.inputError = some s.inp.src.err ∧ s'.out = closeOut s.inp.src.err { s.out with outStream := 0 } ∧
      s'.events = s.events ∧ s'.inp.inTotal = s.inp.inTotal ∧ s'.numStreams = s.numStreams) ∨
    (∃ it s', RItem.Valid E it ∧ it.c = firstC E s ∧ Chosen E it.c (allB s.inp) ∧ readStream E s = .ok (true, s') ∧ Clean (nrm s) it.S it.data it.h it.ks (nrm s') ∧ Mono false s s' ∧ allB s.inp = it.S ++ allB s'.inp) ∨
    (∃ b c p s', c = firstC E s ∧ Chosen E c (allB s.inp) ∧ readStream E s = .ok (b, s') ∧ PartOf (Env.ok E) (2 ^ E.o.wbits) E.o.dict c (allB s.inp) p ∧ Halted s.inp.src.err (nrm s) p (nrm s') ∧ (b = true → s'.inp.ibLen = 0) ∧ NoStream E c (allB s.inp) ∧
      (s'.inp.inputError = none → ∀ x, NoStream E c (allB s.inp ++ x))) ∨
    (readStream E s = .error .bounds ∧ .gzip = firstC E s ∧ Chosen E .gzip (allB s.inp) ∧ GzPanics (allB s.inp) ∧ NoStream E .gzip (allB s.inp)) := by
  obtain ⟨f1, f2⟩ := filled_all hs
  by_cases hb : (filled s).inp.buf = []
  · left
    obtain ⟨f3, f4⟩ := f2 hb
    refine ⟨f3, ?_⟩
    rw [readStream_split, if_pos (by simp [hb])]
    refine ⟨{ filled s with out := closeOut s.inp.src.err (filled s).out }, ?_, f4, rfl, rfl, ?_, rfl⟩
    · have : propagateError false (filled s) = .ok ((), { filled s with out := closeOut s.inp.src.err (filled s).out }) := by
        unfold propagateError
        simp only [f4]
        exact closeWithError_eq _ _
      exact (Go.bind_ok this).trans rfl
    · exact (filled_frame s).2.2.2.1
  right
  have hnb := hs.nbuf
  have hcm := cm_readStream hE.opn hs.stop hb
  obtain ⟨c, hc⟩ : ∃ c, c = detect E.o.format (filled s).inp.buf := ⟨_, rfl⟩
  rw [← hc] at hcm
  have hch : Chosen E c (allB s.inp) := ⟨_, hb, f1, hc⟩
  have hE' : EnvOK (asF E (fmtOf c)) := ⟨hE.lawful, hE.word, hE.opn⟩
  have hne : (nrm s).inp.buf ≠ [] := by
    rw [hnb]; intro h; rw [h] at f1; exact hb (List.prefix_nil.1 f1)
  have hsafe := safe_readStream (X := True) (E := E) (s := s) ⟨hE.lawful, hE.word⟩ hs.flat.1 fun _ => trivial
  have hok : ∀ S data r, Stream (Env.ok E) (2 ^ E.o.wbits) E.o.dict c S data → allB s.inp = S ++ r → ∃ s', readStream E s = .ok (true, s') ∧ s'.out.errorWasSet = false := by
    intro S data r hS hr
    rw [hc] at hS
    exact stream_clean hE hs hb hS hr
  rcases stream_sound hE' hs.ready hne (c := c) (detect_fmtOf c _) with ⟨S, data, hdr, h, ks, s', k1, k2, k3, k4, k5, k6⟩ | ⟨b, p, s', k1, k2, k3⟩ | ⟨rfl, k2, k3⟩
  · left
    rw [hcm] at k5
    obtain ⟨s', k7, rfl⟩ := mapS_ok k5
    rcases hsafe with ⟨s'', e, _⟩ | ⟨s'', e, m, _⟩ | ⟨e, _⟩
    · rw [k7] at e; cases e
    · rw [k7] at e; cases e
      refine ⟨⟨c, S, data, h, ks⟩, s', ⟨k1, ⟨hdr, k2, k3⟩, k4⟩, hc, hch, k7, k6, m, ?_⟩
      have := k6.buf
      rw [hnb] at this
      rw [this]
      obtain ⟨q, q1, q2⟩ := m.inp.took
      have h2 : q.length = S.length := by
        have := k6.total
        have h3 : (nrm s').inp.inTotal = s'.inp.inTotal := rfl
        have h4 : (nrm s).inp.inTotal = s.inp.inTotal := rfl
        rw [h3, h4] at this
        omega
      rw [q1] at this
      obtain ⟨rfl, h3⟩ := List.append_inj this h2
      rw [h3]
    · rw [k7] at e; cases e
  · right; left
    rw [hcm] at k1
    obtain ⟨s', k7, rfl⟩ := mapS_ok k1
    have hset : (nrm s').out.errorWasSet = true := Halted.set k3
    have hset : s'.out.errorWasSet = true := hset
    refine ⟨b, c, p, s', hc, hch, k7, by rw [← hnb]; exact k2, k3, ?_, ?_, ?_⟩
    rotate_left
    · intro S data r hS hb
      obtain ⟨s1, q1, q2⟩ := hok S data r hS hb
      rw [k7] at q1; cases q1
      rw [hset] at q2; cases q2
    · intro hn x S data r hS hx
      obtain ⟨_, q1, q2⟩ := ext_stream (x := x) k7 hn
      have hfb : (filled (extS x s)).inp.buf = (filled s).inp.buf := by rw [q1]; rfl
      obtain ⟨s1, q3, q4⟩ := stream_clean hE (hs.ext x) (by rw [hfb]; exact hb) (by rw [hfb, ← hc]; exact hS) ((allB_ext x s.inp).trans hx)
      rw [q2] at q3; cases q3
      have : s'.out.errorWasSet = false := q4
      rw [hset] at this; cases this
    rcases hsafe with ⟨s'', e, _⟩ | ⟨s'', e, m, m2, _⟩ | ⟨e, _⟩
    · rw [k7] at e; cases e; intro h; cases h
    · rw [k7] at e; cases e; exact fun _ => m2
    · rw [k7] at e; cases e
  · right; right
    rw [hcm] at k2
    refine ⟨mapS_error k2, hc, hch, by rw [← hnb]; exact k3, fun S data r hS hb => ?_⟩
    obtain ⟨s1, q1, _⟩ := hok S data r hS hb
    rw [mapS_error k2] at q1; cases q1

/-- The loop ended without complaint after the streams `l`; `r` was not read. -/
structure CleanEnd (s : RState) (l : List RItem) (r : List UInt8) (s' : RState) : Prop where
  acts : ∃ (ds : List (List UInt8)) (tail : List Act), s'.out.acts = s.out.acts ++ ds.map .data ++ tail ∧ ds.flatten = datas l ∧
    ((tail = [] ∧ s'.out.errorWasSet = false) ∨ (tail = [.err s.inp.src.err] ∧ s'.out.errorWasSet = true))
  err : s'.inp.inputError = some s.inp.src.err
  stop : s'.out.stopIsForced = false
  rest : r = [] ∨ r.length < s.inp.src.last.length
  kinds : kinds s' = kinds s ++ l.flatMap (·.ks)
  inTotal : s'.inp.inTotal = s.inp.inTotal + (l.flatMap (·.S)).length
  outTotal : s'.out.outTotal = s.out.outTotal + (datas l).length
  num : s'.numStreams = s.numStreams + l.length

/-- An error `e` was reported after the data `d` had been decoded; `pre` of this had been delivered before (at least `d0`), the rest was, perhaps with more data, afterwards. -/
def HaltEnd (e0 : Err) (s : RState) (d0 d : List UInt8) (s' : RState) : Prop :=
  ∃ (e : Err) (ds : List (List UInt8)) (db : List UInt8) (post : List Act), Bad e0 e ∧ s'.out.acts = s.out.acts ++ ds.map .data ++ .err e :: post ∧
    ds.flatten ++ db = d ∧ post.countP isErr = 0 ∧ s'.out.errorWasSet = true ∧ s'.out.stopIsForced = false ∧ (∃ q, actData post ++ s'.out.decodeBuffer = db ++ q) ∧
    d0 <+: ds.flatten

theorem isErr_data (ds : List (List UInt8)) : (ds.map Act.data).countP isErr = 0 := by
  induction ds with
  | nil => rfl
  | cons a l ih => simp [List.countP_cons, isErr] at *

theorem halt_end {e0 : Err} {d p : List UInt8} {s0 s1 s' : RState} {ds0 : List (List UInt8)} (h0 : s.out.acts = s0.out.acts ++ ds0.map .data) (h1 : ds0.flatten = d)
    (hset : s.out.errorWasSet = false) (hstop : s'.out.stopIsForced = false)
    (h : Halted e0 s p s1) (hp : Past s1 s') : HaltEnd e0 s0 d (d ++ p) s' := by
  obtain ⟨t, e, ds, k1, k2, k3, k4, k5, k6, k7, k8, k9⟩ := h
  obtain ⟨_, ⟨⟨post, p1, p2, p3, p4⟩, _⟩, _⟩ := k9.trans hp
  obtain ⟨p5, q, p6⟩ := p4 hstop
  rw [hset] at k4
  have hco : (closeOut e t.out).acts = t.out.acts ++ [.err e] := by unfold closeOut; rw [k4]; rfl
  have hcs := closeOut_set e t.out
  refine ⟨e, ds0 ++ ds, t.out.decodeBuffer, post, k1, ?_, by rw [← k3, ← h1]; simp, ?_, ?_, hstop, ⟨q, ?_⟩, ⟨ds.flatten, by rw [← h1]; simp⟩⟩
  · rw [p1]
    show (closeOut e t.out).acts ++ post = _
    rw [hco, k2, h0]; simp
  · have : (closeOut e t.out).errorWasSet.toNat = 1 := by rw [hcs]; rfl
    have h3 := p3
    simp only [this] at h3
    have : s'.out.errorWasSet.toNat ≤ 1 := Bool.toNat_le _
    omega
  · have : (closeOut e t.out).errorWasSet.toNat = 1 := by rw [hcs]; rfl
    have h3 := p3
    simp only [this] at h3
    cases h : s'.out.errorWasSet with
    | true => rfl
    | false => rw [h] at h3; simp at h3
  · have := p6
    simp only [closeOut_buf] at this
    exact this

theorem Clean.calm {S data : List UInt8} {h : Header} {ks : List EvKind} {s' : RState} (hc : Clean (nrm s) S data h ks (nrm s')) (hs : Calm s) (he : s'.inp.inputError = none) : Calm s' :=
  ⟨he, hc.stop.trans hs.stop, hc.flat, hc.empty, hc.set.trans hs.set⟩

theorem stop_readStream (hE : Env.Open E) (hs : s.out.stopIsForced = false) {b : Bool} {s' : RState} (h : readStream E s = .ok (b, s')) : s'.out.stopIsForced = false := by
  have hs' : (filled s).out.stopIsForced = false := hs
  by_cases hb : (filled s).inp.buf = []
  · rw [readStream_split, if_pos (by simp [hb]), Go.bind_eq_ok] at h
    obtain ⟨_, s1, h1, h2⟩ := h
    cases h2
    unfold propagateError at h1
    split at h1
    · cases h1; exact hs'
    · rw [closeWithError_eq] at h1; cases h1; exact (closeOut_stop _ _).trans hs'
  · rw [readStream_detect E s hb, readStream_split, if_neg (by simpa using hb)] at h
    have hE' : Env.Open (asF E (fmtOf (detect E.o.format (filled s).inp.buf))) := hE
    exact ((cm_headRest (fmtOf_ne _)).chk (cm_bodyRest hE') (filled s) hs').2 _ _ h

theorem stop_streamLoop (hE : Env.Open E) : ∀ (fuel : Nat) {s s' : RState}, s.out.stopIsForced = false → streamLoop E fuel s = .ok ((), s') → s'.out.stopIsForced = false
  | 0, _, _, _, h => by cases h
  | fuel + 1, s, s', hs, h => by
    unfold streamLoop at h
    split at h
    · rcases hr : readStream E s with e | ⟨b, s1⟩
      · rw [hr] at h; cases h
      · rw [hr] at h
        have h1 := stop_readStream hE hs hr
        cases b with
        | true => exact stop_streamLoop hE fuel h1 h
        | false => cases h; exact h1
    · cases h; exact hs

/-- Each of the streams `l` began when at least `n` bytes were left. -/
def Starts (n : Nat) (l : List RItem) (r : List UInt8) : Prop := ∀ l1 l2, l = l1 ++ l2 → l2 ≠ [] → n ≤ (l2.flatMap (·.S)).length + r.length

theorem Starts.nil (n : Nat) (r : List UInt8) : Starts n [] r := fun l1 l2 h h2 => by simp at h; exact absurd h.2 h2

theorem Starts.cons {n : Nat} {it : RItem} {l : List RItem} {r : List UInt8} (h : Starts n l r) (hn : n ≤ ((it :: l).flatMap (·.S)).length + r.length) : Starts n (it :: l) r := by
  intro l1 l2 e h2
  rcases l1 with _ | ⟨a, l1⟩
  · rw [List.nil_append] at e; rw [← e]; exact hn
  · rw [List.cons_append] at e; cases e; exact h l1 l2 rfl h2

theorem last_le (i : Inp) : i.src.last.length ≤ (allB i).length := by simp [allB, Src.bytes]; omega

/-- the loop -/
theorem loop_sound (hE : EnvOK E) : ∀ (fuel : Nat) (s : RState), (allB s.inp).length < fuel → Calm s →
    ∃ l r, Items E l (allB s.inp) r ∧ (∀ it ∈ l.head?, it.c = firstC E s) ∧ Starts s.inp.src.last.length l r ∧
      ((∃ s', streamLoop E fuel s = .ok ((), s') ∧ CleanEnd s l r s') ∨
       (∃ c p, (r ≠ [] ∧ s.inp.src.last.length ≤ r.length) ∧ (l = [] → c = firstC E s) ∧ Chosen E c r ∧ NoStream E c r ∧ PartOf (Env.ok E) (2 ^ E.o.wbits) E.o.dict c r p ∧
          ((∃ s', streamLoop E fuel s = .ok ((), s') ∧ HaltEnd s.inp.src.err s (datas l) (datas l ++ p) s') ∨ (streamLoop E fuel s = .error .bounds ∧ ∀ x, NoStream E c (r ++ x)))) ∨
       (streamLoop E fuel s = .error .bounds ∧ (l = [] → .gzip = firstC E s) ∧ Chosen E .gzip r ∧ NoStream E .gzip r ∧ GzPanics r ∧ s.inp.src.last.length ≤ r.length))
  | 0, _, h, _ => by omega
  | fuel + 1, s, hf, hs => by
    have hlib : LibOK E := ⟨hE.lawful, hE.word⟩
    unfold streamLoop
    simp only [hs.err, Option.isNone_none, if_true]
    rcases stream_step hE hs with ⟨h1, s', h2, h3, h4, h5, h6, h7⟩ | ⟨it, s', h1, h0, h2, h3, h4, h5, h6⟩ | ⟨b, c, p, s', h0, h1, h2, h3, h4, h5, h6, h8⟩ | ⟨h1, h0, h2, h3, h4⟩
    · refine ⟨[], [], by rw [h1]; exact .nil _, by simp, .nil _ _, Or.inl ⟨s', by rw [h2], ⟨[], [.err s.inp.src.err], ?_, rfl, Or.inr ⟨rfl, ?_⟩⟩, h3, ?_, Or.inl rfl, ?_, by simpa using h6, ?_, h7⟩⟩
      · rw [h4]; unfold closeOut; simp [hs.set]
      · rw [h4]; exact closeOut_set _ _
      · rw [h4, closeOut_stop]; exact hs.stop
      · unfold kinds; rw [h5]; simp
      · rw [h4]; unfold closeOut; simp [hs.set, datas]
    · rw [h3]
      simp only []
      have hlen : 0 < it.S.length := List.length_pos_iff.2 (stream_ne h1.1)
      have hlt : (allB s'.inp).length < fuel := by
        have := congrArg List.length h6
        simp at this; omega
      obtain ⟨ds, d1, d2⟩ := h4.acts
      have d1 : s'.out.acts = s.out.acts ++ ds.map .data := d1
      have hin : s'.inp.inTotal = s.inp.inTotal + it.S.length := h4.total
      have hout : s'.out.outTotal = s.out.outTotal + it.data.length := h4.outTotal
      have hnum : s'.numStreams = s.numStreams + 1 := h4.num
      have hev : kinds s' = kinds s ++ it.ks := h4.ev
      by_cases hn : s'.inp.inputError = none
      · have hsrc : s'.inp.src.err = s.inp.src.err := h5.inp.srcErr
        have hlast := h5.inp.last hn
        obtain ⟨l, r, hl, _, hst, hcases⟩ := loop_sound hE fuel s' hlt (h4.calm hs hn)
        have hit : Items E (it :: l) (allB s.inp) r := by rw [h6]; exact .cons h1 (by rw [← h6]; exact h2) hl
        refine ⟨it :: l, r, hit, by simpa using h0, .cons (hlast ▸ hst) ?_, ?_⟩
        · have := last_le s.inp
          rw [hit.split, List.length_append] at this
          exact this
        rcases hcases with ⟨s2, q1, q2⟩ | ⟨c, p, q1, _, q2, q6, q3, ⟨s2, q4, q5⟩ | q4⟩ | ⟨q1, _, q2, q3, q4⟩
        · left
          obtain ⟨ds', tail, t1, t2, t3⟩ := q2.acts
          refine ⟨s2, q1, ⟨ds ++ ds', tail, by rw [t1, d1]; simp, by simp [datas, d2, t2], by rw [← hsrc]; exact t3⟩, by rw [q2.err, hsrc], q2.stop, ?_, ?_, ?_, ?_, ?_⟩
          · rw [← hlast]; exact q2.rest
          · rw [q2.kinds, hev]; simp
          · rw [q2.inTotal, hin]; simp; omega
          · rw [q2.outTotal, hout]; simp [datas]; omega
          · rw [q2.num, hnum]; simp; omega
        · right; left
          refine ⟨c, p, hlast ▸ q1, by simp, q2, q6, q3, Or.inl ⟨s2, q4, ?_⟩⟩
          obtain ⟨e, ds', db, post, t1, t2, t3, t4, t5, t6, t7, t8⟩ := q5
          rw [hsrc] at t1
          refine ⟨e, ds ++ ds', db, post, t1, by rw [t2, d1]; simp, by rw [List.flatten_append, d2, List.append_assoc, t3]; simp [datas], t4, t5, t6, t7, ?_⟩
          rw [List.flatten_append, d2]
          simpa [datas] using t8
        · right; left
          exact ⟨c, p, hlast ▸ q1, by simp, q2, q6, q3, Or.inr q4⟩
        · right; right
          exact ⟨q1, by simp, q2, q3, hlast ▸ q4⟩
      · obtain ⟨g1, g2⟩ := h5.inp.fin (show s'.out.stopIsForced = false from h4.stop.trans hs.stop) hs.err hn
        have hstop : streamLoop E fuel s' = .ok ((), s') := by
          cases fuel with
          | zero => omega
          | succ n => unfold streamLoop; simp [g1]
        refine ⟨[it], allB s'.inp, by rw [h6]; exact .cons h1 (by rw [← h6]; exact h2) (.nil _), by simpa using h0, .cons (.nil _ _) (by have := last_le s.inp; rw [h6] at this; simpa using this), Or.inl ⟨s', hstop, ⟨ds, [], by simp [d1], by simp [datas, d2], Or.inl ⟨rfl, h4.set.trans hs.set⟩⟩, g1, h4.stop.trans hs.stop, g2.symm, ?_, ?_, ?_, ?_⟩⟩
        · rw [hev]; simp
        · simpa using hin
        · simpa [datas] using hout
        · simpa using hnum
    · refine ⟨[], allB s.inp, .nil _, by simp, .nil _ _, Or.inr (Or.inl ⟨c, p, ⟨?_, last_le s.inp⟩, fun _ => h0, h1, h6, h3, ?_⟩)⟩
      · obtain ⟨x, x1, x2, _⟩ := h1
        intro h0; rw [h0] at x2; exact x1 (List.prefix_nil.1 x2)
      · rw [h2]
        have hst := stop_readStream hE.opn hs.stop h2
        cases b with
        | false => exact Or.inl ⟨s', rfl, halt_end (s := nrm s) (ds0 := []) (by simp [nrm]) rfl hs.set hst h4 (Past.of_nrm (.refl _))⟩
        | true =>
          simp only []
          have hlt : (allB s'.inp).length < fuel := by
            rcases safe_readStream (X := True) (E := E) (s := s) hlib hs.flat.1 fun _ => trivial with ⟨s'', e, _⟩ | ⟨s'', e, _, _, m⟩ | ⟨e, _⟩
            · rw [h2] at e; cases e
            · rw [h2] at e; cases e; omega
            · rw [h2] at e; cases e
          rcases safe_streamLoop (X := True) hlib fuel s' hlt (h5 rfl) fun _ => trivial with ⟨s2, e, m⟩ | ⟨e, _⟩
          · left
            exact ⟨s2, e, halt_end (s := nrm s) (ds0 := []) (by simp [nrm]) rfl hs.set (stop_streamLoop hE.opn _ hst e) h4 ((Past.of_nrm (.refl _)).trans m)⟩
          · refine Or.inr ⟨e, h8 ?_⟩
            cases hn : s'.inp.inputError with
            | none => rfl
            | some er =>
              cases fuel with
              | zero => omega
              | succ n => unfold streamLoop at e; simp [hn] at e
    · refine ⟨[], allB s.inp, .nil _, by simp, .nil _ _, Or.inr (Or.inr ⟨by rw [h1], fun _ => h0, h2, h4, h3, last_le s.inp⟩)⟩

end

/-! ### everything decoded is delivered -/

/-- does not touch the decode buffer -/
def Kp {α : Type} (f : Go RState α) : Prop := ∀ s a s', f s = .ok (a, s') → s'.out.decodeBuffer = s.out.decodeBuffer

section
variable {α β : Type} {E : Env}

theorem Kp.bind {f : Go RState α} {g : α → Go RState β} (h : Kp f) (hg : ∀ a, Kp (g a)) : Kp (f >>= g) := by
  intro s a s' e
  rw [Go.bind_eq_ok] at e
  obtain ⟨b, s1, e1, e2⟩ := e
  exact (hg b s1 _ _ e2).trans (h s _ _ e1)

theorem Kp.chk {x y : Go RState Bool} (h : Kp x) (hg : Kp y) : Kp (Go.chk x y) := by
  intro s a s' e
  unfold Go.chk at e
  rcases hf : x s with p | ⟨b, s1⟩
  · rw [hf] at e; cases e
  · rw [hf] at e
    have h3 := h s _ _ hf
    cases b with
    | true => exact (hg s1 _ _ e).trans h3
    | false => cases e; exact h3

theorem Kp.pure (a : α) : Kp (Pure.pure a : Go RState α) := fun _ _ _ h => by cases h; rfl
theorem Kp.panic (p : Panic) : Kp (Go.panic p : Go RState α) := fun _ _ _ h => by cases h
theorem Kp.lift (x : Except Panic α) : Kp (Go.lift x : Go RState α) := fun _ _ _ h => by
  cases x with
  | error e => cases h
  | ok a => cases h; rfl
theorem Kp.modify {g : RState → RState} (h : ∀ s, (g s).out.decodeBuffer = s.out.decodeBuffer) : Kp (Go.modify g) := fun s _ _ e => by cases e; exact h s
theorem Kp.onInp (f : Bool → Go Inp α) : Kp (onInp f) := by
  intro s a s' e
  unfold Rd.onInp at e
  rcases hf : f s.out.stopIsForced s.inp with p | ⟨b, i⟩
  · rw [hf] at e; cases e
  · rw [hf] at e; cases e; rfl
theorem Kp.ite {c : Prop} [Decidable c] {f g : Go RState α} (hf : Kp f) (hg : Kp g) : Kp (if c then f else g) := by split; exacts [hf, hg]
theorem kp_close (e : Err) : Kp (closeWithError e) := fun s _ _ h => by rw [closeWithError_eq] at h; cases h; exact closeOut_buf _ _
theorem kp_corruptf (m : Spec.Problem) : Kp (corruptf m) := fun s => kp_close _ s
theorem kp_fail (m : Spec.Problem) : Kp (fail m) := (kp_corruptf m).bind fun _ => .pure _
theorem kp_propagate (b : Bool) : Kp (propagateError b) := fun s a s' h => by
  unfold propagateError at h
  split at h
  · cases h; rfl
  · exact kp_close _ s _ _ h
theorem kp_exhausted (a : α) : Kp (exhausted a) := (kp_propagate true).bind fun _ => .pure _
theorem kp_needBytes (fl : α) (n : Nat) {k : List UInt8 → Go RState α} (hk : ∀ v, Kp (k v)) : Kp (needBytes fl n k) := by
  unfold needBytes
  refine (Kp.onInp _).bind fun x => ?_
  obtain ⟨p, ok⟩ := x
  exact .ite (kp_exhausted _) (hk _)
theorem kp_sendEvent (k : EvKind) : Kp (sendEvent k) := Kp.modify fun _ => rfl
theorem kp_modHeader (f : Header → Header) : Kp (modHeader f) := Kp.modify fun _ => rfl
theorem kp_setZlib : Kp setZlib := fun _ _ _ h => by cases h; rfl
theorem kp_setGzip : Kp setGzip := fun _ _ _ h => by cases h; rfl
theorem kp_readHeaderRaw : Kp readHeaderRaw := fun _ _ _ h => by cases h; rfl

theorem kp_readHeaderZlib : Kp (readHeaderZlib E) := by
  unfold readHeaderZlib
  refine kp_needBytes _ _ fun p => ?_
  refine .ite (kp_fail _) (.ite (kp_fail _) ((kp_modHeader _).bind fun _ => .ite (kp_fail _) ((kp_modHeader _).bind fun _ => .ite (kp_needBytes _ _ fun q => ?_) ?_)))
  · split
    · exact kp_fail _
    · exact .ite (kp_fail _) kp_setZlib
  · split
    · exact kp_fail _
    · exact kp_setZlib

theorem kp_gzStr (b : Bool) (f : List UInt8 → Header → Header) : Kp (gzStr b f) := by
  unfold gzStr
  refine .ite ((Kp.onInp _).bind fun x => ?_) (.pure _)
  obtain ⟨p, ok⟩ := x
  exact .ite (kp_exhausted _) ((kp_modHeader _).bind fun _ => .pure _)

theorem kp_gzCRC (b : Bool) : Kp (gzCRC b) := fun s => by
  have : Kp (gzCRC16 b s.inp.crc) := by
    unfold gzCRC16
    exact .ite (kp_needBytes _ _ fun _ => .ite (kp_fail _) (.pure _)) (.pure _)
  exact this s

theorem kp_gzExtraData (b : Bool) : Kp (gzExtraData b) := by
  unfold gzExtraData
  exact .ite (kp_needBytes _ _ fun _ => kp_needBytes _ _ fun _ => (Kp.lift _).bind fun _ => (kp_modHeader _).bind fun _ => .pure _) (.pure _)

theorem kp_readHeaderGZIP : Kp readHeaderGZIP := by
  unfold readHeaderGZIP
  refine (Kp.onInp _).bind fun _ => kp_needBytes _ _ fun p => ?_
  exact .ite (kp_fail _) (.ite (kp_fail _) ((kp_modHeader _).bind fun _ => .ite (kp_fail _) ((kp_modHeader _).bind fun _ =>
    (kp_gzExtraData _).chk ((kp_gzStr _ _).chk ((kp_gzStr _ _).chk ((kp_gzCRC _).chk kp_setGzip))))))

theorem kp_readHeaderOf (f : Format) : Kp (readHeaderOf E f) := fun s => by
  rw [readHeaderOf_detect]
  cases detect f s.inp.buf with
  | raw => exact kp_readHeaderRaw s
  | zlib => exact kp_readHeaderZlib s
  | gzip => exact kp_readHeaderGZIP s

theorem kp_headRest : Kp (headRest E) := by
  unfold headRest
  refine Kp.bind (Kp.modify fun _ => rfl) fun _ => (kp_sendEvent _).bind fun _ => Kp.bind (Kp.modify fun _ => rfl) fun _ => (kp_readHeaderOf _).chk fun s a s' h => ?_
  cases h; rfl

theorem kp_readFooter : Kp readFooter := by
  unfold readFooter
  refine (Kp.onInp _).bind fun _ s => ?_
  have : Kp (do
      sendEvent (.streamEnd s.out.adler s.out.crc)
      Go.chk (readFooterOf s.actualFormat s.out.adler s.out.crc) do
        sendEvent .streamClose
        Pure.pure true : Go RState Bool) := by
    refine (kp_sendEvent _).bind fun _ => Kp.chk ?_ ((kp_sendEvent _).bind fun _ => .pure _)
    unfold readFooterOf
    split
    · exact .pure _
    · exact kp_needBytes _ _ fun _ => .ite (kp_fail _) (.pure _)
    · refine kp_needBytes _ _ fun p => kp_needBytes _ _ fun q s a s' h => ?_
      split at h
      · exact kp_fail _ s _ _ h
      · split at h
        · exact kp_fail _ s _ _ h
        · cases h; rfl
    · exact .panic _
  exact this s

theorem mustFlush_empty (E : Env) (o : Out) : (mustFlush E o).decodeBuffer = [] := by
  unfold mustFlush
  split
  · rfl
  · simp only []
    split
    · rename_i h; simpa using h
    · split
      · split <;> rfl
      · rfl

theorem flushed_stream {s s' : RState} (hs : s.out.decodeBuffer = []) {b : Bool} (h : readStream E s = .ok (b, s')) : s'.out.decodeBuffer = [] := by
  have hs' : (filled s).out.decodeBuffer = [] := hs
  rw [readStream_split] at h
  split at h
  · exact (((kp_propagate false).bind fun _ => .pure _) _ _ _ h).trans hs'
  · unfold Go.chk at h
    rcases hf : headRest E (filled s) with p | ⟨b1, s1⟩
    · rw [hf] at h; cases h
    · rw [hf] at h
      cases b1 with
      | false => cases h; exact (kp_headRest _ _ _ hf).trans hs'
      | true =>
        simp only [] at h
        unfold bodyRest at h
        rw [Go.bind_eq_ok] at h
        obtain ⟨_, s2, e2, h⟩ := h
        rw [Go.bind_eq_ok] at h
        obtain ⟨_, s3, e3, h⟩ := h
        rw [Go.bind_eq_ok] at h
        obtain ⟨_, s4, e4, h⟩ := h
        refine (kp_readFooter _ _ _ h).trans ?_
        cases e4
        exact mustFlush_empty _ _

theorem flushed_loop : ∀ (fuel : Nat) {s s' : RState}, s.out.decodeBuffer = [] → streamLoop E fuel s = .ok ((), s') → s'.out.decodeBuffer = []
  | 0, _, _, _, h => by cases h
  | fuel + 1, s, s', hs, h => by
    unfold streamLoop at h
    split at h
    · rcases hr : readStream E s with e | ⟨b, s1⟩
      · rw [hr] at h; cases h
      · rw [hr] at h
        have h1 := flushed_stream hs hr
        cases b with
        | true => exact flushed_loop fuel h1 h
        | false => cases h; exact h1
    · cases h; exact hs

/-- what is in the input buffer when the first stream begins -/
def _root_.Flate.Model.Rd.Src.first (src : Src) : List UInt8 := match src.full with
  | (b, bs) :: _ => b :: bs
  | [] => src.last

/-- The whole goroutine. -/
theorem run_sound (hE : EnvOK E) (src : Src) : ∃ l r, Items E l src.bytes r ∧ (∀ it ∈ l.head?, it.c = detect E.o.format src.first) ∧ Starts src.last.length l r ∧
    ((∃ (s' : RState) (ds : List (List UInt8)), readThread E (start src false) = .ok ((), s') ∧ s'.out.acts = ds.map .data ++ [.err src.err] ∧ ds.flatten = datas l ∧ (r = [] ∨ r.length < src.last.length) ∧
        kinds s' = l.flatMap (·.ks) ∧ s'.inp.inTotal = (l.flatMap (·.S)).length ∧ s'.out.outTotal = (datas l).length ∧ s'.numStreams = l.length) ∨
     (∃ c p, (r ≠ [] ∧ src.last.length ≤ r.length) ∧ (l = [] → c = detect E.o.format src.first) ∧ Chosen E c r ∧ NoStream E c r ∧ PartOf (Env.ok E) (2 ^ E.o.wbits) E.o.dict c r p ∧
        ((∃ (s' : RState) (ds : List (List UInt8)) (e : Err) (post : List Act), readThread E (start src false) = .ok ((), s') ∧ s'.out.acts = ds.map .data ++ .err e :: post ∧ Bad src.err e ∧ post.countP isErr = 0 ∧
            ds.flatten <+: datas l ++ p ∧ datas l ++ p <+: ds.flatten ++ actData post ∧ datas l <+: ds.flatten) ∨
         (readThread E (start src false) = .error .bounds ∧ ∀ x, NoStream E c (r ++ x)))) ∨
     (readThread E (start src false) = .error .bounds ∧ (l = [] → .gzip = detect E.o.format src.first) ∧ Chosen E .gzip r ∧ NoStream E .gzip r ∧ GzPanics r ∧ src.last.length ≤ r.length)) := by
  have hcalm : Calm (start src false) := ⟨rfl, rfl, ⟨rfl, rfl⟩, rfl, rfl⟩
  have hall : allB (start src false).inp = src.bytes := rfl
  have hrun : ∀ x, streamLoop E ((start src false).inp.size + 2) (start src false) = x → readThread E (start src false) = (match x with | .ok (_, s) => finishThread s | .error e => .error e) := by
    intro x hx
    have hst : readThread E (start src false) = ((fun s => streamLoop E (s.inp.size + 2) s : Go RState Unit) >>= fun _ => finishThread) (start src false) := by
      unfold readThread
      exact Go.bind_ok (Go.modify_apply _ _)
    rw [hst]
    rcases x with e | ⟨a, s⟩
    · exact Go.bind_error hx
    · exact Go.bind_ok hx
  have hfin : ∀ s : RState, finishThread s = .ok ((), { s with inp := { s.inp with inputError := some (s.inp.inputError.getD .eof) }, out := closeOut (s.inp.inputError.getD .eof) s.out }) := by
    intro s
    unfold finishThread
    refine (Go.bind_ok (onInp_ok rfl)).trans ?_
    unfold propagateError
    simp only [Bool.false_and, Bool.false_eq_true, if_false]
    exact closeWithError_eq _ _
  obtain ⟨l, r, hl, hfirst, hstarts, hcases⟩ := loop_sound hE ((start src false).inp.size + 2) (start src false) (by rw [size_eq]; omega) hcalm
  have hfc : firstC E (start src false) = detect E.o.format src.first := by
    unfold firstC filled refill start fill Src.first
    rcases src with ⟨_ | ⟨⟨b, bs⟩, cs⟩, last, err⟩ <;> simp
  rw [hfc] at hfirst hcases
  refine ⟨l, r, hl, hfirst, hstarts, ?_⟩
  rcases hcases with ⟨s', h1, h2⟩ | ⟨c, p, h1, h0, h2, h6, h3, ⟨s', h4, h5⟩ | h4⟩ | ⟨h1, h0, h2, h3, h4⟩
  · left
    have h1' := (hrun _ h1).trans (hfin s')
    obtain ⟨ds, tail, t1, t2, t3⟩ := h2.acts
    have herr : s'.inp.inputError.getD .eof = src.err := by rw [h2.err]; rfl
    rw [herr] at h1'
    refine ⟨_, ds, h1', ?_, t2, h2.rest, ?_, ?_, ?_, ?_⟩
    · rcases t3 with ⟨rfl, t4⟩ | ⟨rfl, t4⟩
      · simp only [closeOut, t4, Bool.false_eq_true, if_false]
        rw [t1]; simp [start]
      · simp only [closeOut, t4, if_true]
        rw [t1]; simp [start]
    · have := h2.kinds; simpa [kinds, start] using this
    · have := h2.inTotal; simpa [start] using this
    · have := h2.outTotal
      have hc : (closeOut src.err s'.out).outTotal = s'.out.outTotal := by unfold closeOut; split <;> rfl
      simp only [hc]
      simpa [start] using this
    · have := h2.num; simpa [start] using this
  · right; left
    refine ⟨c, p, h1, h0, h2, h6, h3, Or.inl ?_⟩
    have h4' := (hrun _ h4).trans (hfin s')
    obtain ⟨e, ds, db, post, t1, t2, t3, t4, t5, t6, ⟨q, t7⟩, t8⟩ := h5
    rw [flushed_loop _ rfl h4] at t7
    refine ⟨_, ds, e, post, h4', ?_, t1, t4, ⟨db, t3⟩, ?_, t8⟩
    · simp only [closeOut, t5, if_true]
      rw [t2]; simp [start]
    · rw [← t3]
      refine ⟨q, ?_⟩
      rw [List.append_nil] at t7
      rw [List.append_assoc, t7]
  · right; left
    exact ⟨c, p, h1, h0, h2, h6, h3, Or.inr ⟨hrun _ h4.1, h4.2⟩⟩
  · right; right
    exact ⟨hrun _ h1, h0, h2, h3, h4⟩

end
end Flate.Proof.R
