/-
Where the problem is which the Reader reports: the whole goroutine.
-/
import Verif.Proof.RPos

namespace Flate.Proof.R.Pos
open Flate.Spec Flate.Model Flate.Model.Rd Flate.Proof.R

section
variable {E : Env} {s s' : RState} {e0 : Err}

theorem rest_sm (c : Frame) (hf : E.o.format ≠ .default) : Sm c (Go.chk (headRest E) (bodyRest E)) := (sm_headRest hf).chk sm_bodyRest

/-- One stream, when everything there is of the input is in the buffer. -/
theorem stream_pos (hs : s.inp.inputError = some e0) (he : ∀ T b m, e0 ≠ .corrupt T b m) (hf : E.o.format ≠ .default) (hb : s.inp.buf ≠ [])
    (hn : actErr s.out.acts = none) {a : Bool} (e : readStream E s = .ok (a, s')) {T b : Nat} {m : Spec.Problem} (hc : actErr s'.out.acts = some (.corrupt T b m)) :
    T = s.inp.inTotal + b ∧ T ≤ s'.inp.inTotal ∧
    (b < s.inp.buf.length → ∀ x, s.inp.buf.length - b ≤ x.length → ∀ a2 s2, readStream E { s with inp := { s.inp with buf := s.inp.buf.take b ++ x } } = .ok (a2, s2) →
      actErr s2.out.acts = some (.corrupt T b m)) := by
  rw [readStream_split, filled_norm hs, if_neg (by simpa using hb)] at e
  have k := (rest_sm (E := E) ⟨1, 0, 1, [0], e0, Nat.one_pos, Nat.le_refl _, rfl, he⟩ hf).keep _ _ _ e hs
  obtain ⟨_, k2, k3⟩ := k.at_ hn T b m hc
  have k3 : T = s.inp.inTotal + b := by
    have k3 : T + 0 = b + s.inp.inTotal := k3
    omega
  refine ⟨k3, k2, fun hlt x hx a2 s2 e2 => ?_⟩
  have hx' : x ≠ [] := by intro h; rw [h] at hx; simp at hx; omega
  have hs' : ({ s with inp := { s.inp with buf := s.inp.buf.take b ++ x } } : RState).inp.inputError = some e0 := hs
  rw [readStream_split, filled_norm hs', if_neg (by simp [hx'])] at e2
  let c : Frame := ⟨s.inp.buf.length - b, T, T + (s.inp.buf.length - b), x, e0, by omega, hx, rfl, he⟩
  have hsw : swS c { s with inp := { s.inp with inStream := 0 }, out := { s.out with outStream := 0 } } =
      ({ s with inp := { s.inp with buf := s.inp.buf.take b ++ x, inStream := 0 }, out := { s.out with outStream := 0 } } : RState) := by
    unfold swS sw
    have : s.inp.buf.length - c.n = b := by show s.inp.buf.length - (s.inp.buf.length - b) = b; omega
    simp only [this]
    rfl
  refine (rest_sm (E := E) c hf).over { s with inp := { s.inp with inStream := 0 }, out := { s.out with outStream := 0 } } _ _ ⟨hs, ?_⟩ e T b m (Nat.le_refl _) hc a2 s2 (hsw ▸ e2)
  show s.inp.inTotal + s.inp.buf.length = T + (s.inp.buf.length - b)
  omega

theorem actErr_datas {l : List Act} (h : actErr l = none) (ds : List (List UInt8)) : actErr (l ++ ds.map .data) = none := by
  rw [actErr_append, h]
  simp only []
  induction ds with
  | nil => rfl
  | cons d ds ih => exact ih

theorem no_stream (hE : EnvOK E) {e0 : Err} {c : Container} (hf : E.o.format = fmtOf c) (hs : Ready e0 s) (he : ∀ T b m, e0 ≠ .corrupt T b m) (hb : s.inp.buf ≠ [])
    (hn : actErr s.out.acts = none) {a : Bool} (e : readStream E s = .ok (a, s')) {T b : Nat} {m : Spec.Problem} (hc : actErr s'.out.acts = some (.corrupt T b m))
    (hlt : b < s.inp.buf.length) (x : List UInt8) : NoStream E c (s.inp.buf.take b ++ x) := by
  intro S data r hS hx
  obtain ⟨_, _, h3⟩ := stream_pos hs.err he (by rw [hf]; exact fmtOf_ne c) hb hn e hc
  have hx2 : s.inp.buf.take b ++ (x ++ List.replicate s.inp.buf.length 0) = S ++ (r ++ List.replicate s.inp.buf.length 0) := by
    rw [← List.append_assoc, hx]; simp
  obtain ⟨_, _, _, s2, _, _, _, q4, _, q6⟩ := stream_ok (E := E) hE (s := { s with inp := { s.inp with buf := s.inp.buf.take b ++ (x ++ List.replicate s.inp.buf.length 0) } })
    (e0 := e0) ⟨hs.err, hs.stop, hs.flat, hs.empty⟩ (c := c) (by rw [hf]; exact detect_fmtOf _ _) hS hx2
  have h4 := h3 hlt (x ++ List.replicate s.inp.buf.length 0) (by simp; omega) _ _ q4
  obtain ⟨ds, d1, _⟩ := q6.acts
  have d1 : s2.out.acts = s.out.acts ++ ds.map .data := d1
  rw [d1, actErr_datas hn] at h4
  cases h4

/-- One stream. -/
theorem step_pos (hE : EnvOK E) (hs : Calm s) (he : ∀ T b m, s.inp.src.err ≠ .corrupt T b m) (hb : (filled s).inp.buf ≠ []) (hn : actErr s.out.acts = none)
    {a : Bool} (e : readStream E s = .ok (a, s')) {T b : Nat} {m : Spec.Problem} (hc : actErr s'.out.acts = some (.corrupt T b m)) :
    T = s.inp.inTotal + b ∧ b ≤ (allB s.inp).length ∧ (b < (allB s.inp).length → ∀ x, NoStream E (firstC E s) ((allB s.inp).take b ++ x)) := by
  obtain ⟨f1, f2⟩ := filled_all hs
  have hcm := cm_readStream hE.opn hs.stop hb
  rw [e] at hcm
  have hE' : EnvOK (asF E (fmtOf (firstC E s))) := ⟨hE.lawful, hE.word, hE.opn⟩
  have hne : (nrm s).inp.buf ≠ [] := by
    rw [hs.nbuf]; intro h; rw [h] at f1; exact hb (List.prefix_nil.1 f1)
  have hrun : readStream (asF E (fmtOf (firstC E s))) (nrm s) = .ok (a, nrm s') := hcm
  have hc' : actErr (nrm s').out.acts = some (.corrupt T b m) := hc
  obtain ⟨k1, k2, k3⟩ := stream_pos hs.ready.err he (fmtOf_ne _) hne hn hrun hc'
  refine ⟨k1, ?_, fun hlt x => ?_⟩
  · have k1 : T = s.inp.inTotal + b := k1
    have k2 : T ≤ s'.inp.inTotal := k2
    rcases safe_readStream (X := True) (E := E) (s := s) ⟨hE.lawful, hE.word⟩ hs.flat.1 fun _ => trivial with ⟨s'', e', _, _, q, q1, q2⟩ | ⟨s'', e', m', _⟩ | ⟨e', _⟩
    · rw [e] at e'; cases e'
      rw [q1, List.length_append]; omega
    · rw [e] at e'; cases e'
      obtain ⟨q, q1, q2⟩ := m'.inp.took
      rw [q1, List.length_append]; omega
    · rw [e] at e'; cases e'
  · rw [← hs.nbuf] at hlt ⊢
    exact no_stream hE' (c := firstC E s) rfl hs.ready he hne hn hrun hc' hlt x

/-- whatever else is known about one stream, when the Reader has reported `.corrupt T b m` while reading it -/
def Says (E : Env) (X : Container → Spec.Problem → List UInt8 → Nat → Prop) : Prop :=
  ∀ (s s' : RState) (a : Bool) (T b : Nat) (m : Spec.Problem), Calm s → (∀ T b m, s.inp.src.err ≠ .corrupt T b m) → (filled s).inp.buf ≠ [] → actErr s.out.acts = none →
    readStream E s = .ok (a, s') → actErr s'.out.acts = some (.corrupt T b m) → X (firstC E s) m (allB s.inp) b

/-- What is known when the Reader has reported `.corrupt T b m`: the streams `l` were read without complaint, and there is no complete stream after them. -/
def Located (E : Env) (X : Container → Spec.Problem → List UInt8 → Nat → Prop) (start : Nat) (c0 : Container) (bytes : List UInt8) (T b : Nat) (m : Spec.Problem) : Prop :=
  ∃ l r c, Items E l bytes r ∧ (∀ it ∈ l.head?, it.c = c0) ∧ T = start + (l.flatMap (·.S)).length + b ∧ b ≤ r.length ∧ Chosen E c r ∧ (l = [] → c = c0) ∧ NoStream E c r ∧
    (b < r.length → ∀ x, NoStream E c (r.take b ++ x)) ∧ X c m r b

theorem loop_pos (hE : EnvOK E) {X : Container → Spec.Problem → List UInt8 → Nat → Prop} (hX : Says E X) : ∀ (fuel : Nat) (s s' : RState), (allB s.inp).length < fuel → Calm s → (∀ T b m, s.inp.src.err ≠ .corrupt T b m) → actErr s.out.acts = none →
    streamLoop E fuel s = .ok ((), s') → (∀ T b m, actErr s'.out.acts = some (.corrupt T b m) → Located E X s.inp.inTotal (firstC E s) (allB s.inp) T b m) ∧
      (actErr s'.out.acts = none → s'.inp.inputError = some s.inp.src.err)
  | 0, _, _, h, _, _, _, _ => by omega
  | fuel + 1, s, sf, hf, hs, he, hn, hrun => by
    have hlib : LibOK E := ⟨hE.lawful, hE.word⟩
    unfold streamLoop at hrun
    simp only [hs.err, Option.isNone_none, if_true] at hrun
    rcases stream_step hE hs with ⟨h1, s', h2, h3, h4, h5, h6, h7⟩ | ⟨it, s', h1, h0, h2, h3, h4, h5, h6⟩ | ⟨a, c, p, s', h0, h1, h2, h3, h4, h5, h6, h8⟩ | ⟨h1, h0, h2, h3, h4⟩
    · rw [h2] at hrun
      cases hrun
      refine ⟨fun T b m hc => ?_, fun _ => h3⟩
      rw [h4] at hc
      exact absurd ((close_first _ { s.out with outStream := 0 }).2 _ hn hc).symm (he T b m)
    · rw [h3] at hrun
      simp only [] at hrun
      have hlen : 0 < it.S.length := List.length_pos_iff.2 (stream_ne h1.1)
      have hlt : (allB s'.inp).length < fuel := by
        have := congrArg List.length h6
        simp at this; omega
      obtain ⟨ds, d1, d2⟩ := h4.acts
      have d1 : s'.out.acts = s.out.acts ++ ds.map .data := d1
      have hin : s'.inp.inTotal = s.inp.inTotal + it.S.length := h4.total
      have hn' : actErr s'.out.acts = none := by rw [d1]; exact actErr_datas hn ds
      by_cases hi : s'.inp.inputError = none
      · have hsrc : s'.inp.src.err = s.inp.src.err := h5.inp.srcErr
        obtain ⟨q1, q2⟩ := loop_pos hE hX fuel s' sf hlt (h4.calm hs hi) (by rw [hsrc]; exact he) hn' hrun
        refine ⟨fun T b m hc => ?_, fun h => (q2 h).trans (by rw [hsrc])⟩
        obtain ⟨l, r, c, k1, _, k2, k3, k4, _, k5, k6, k7⟩ := q1 T b m hc
        refine ⟨it :: l, r, c, by rw [h6]; exact .cons h1 (by rw [← h6]; exact h2) k1, by simpa using h0, ?_, k3, k4, by simp, k5, k6, k7⟩
        rw [k2, hin]; simp; omega
      · obtain ⟨g1, g2⟩ := h5.inp.fin (show s'.out.stopIsForced = false from h4.stop.trans hs.stop) hs.err hi
        have hstop : streamLoop E fuel s' = .ok ((), s') := by
          cases fuel with
          | zero => omega
          | succ n => unfold streamLoop; simp [g1]
        rw [hstop] at hrun
        cases hrun
        exact ⟨fun T b m hc => (by rw [hn'] at hc; cases hc), fun _ => g1⟩
    · have hb : (filled s).inp.buf ≠ [] := by
        intro h
        have h7 := (filled_all hs).2 h
        obtain ⟨x, x1, x2, _⟩ := h1
        rw [h7.1] at x2; exact x1 (List.prefix_nil.1 x2)
      rw [h2] at hrun
      have hset : (nrm s').out.errorWasSet = true := Halted.set h4
      have herr : actErr s'.out.acts ≠ none := by
        obtain ⟨t, e, ds, k1, k2, k3, k4, k5, k6, k7, k8, k9⟩ := h4
        obtain ⟨_, ⟨⟨post, p1, _⟩, _⟩, _⟩ := k9
        have p1 : s'.out.acts = (closeOut e t.out).acts ++ post := p1
        have hco : (closeOut e t.out).acts = t.out.acts ++ [.err e] := by unfold closeOut; rw [k4.trans hs.set]; rfl
        have k2 : t.out.acts = s.out.acts ++ ds.map .data := k2
        rw [p1, hco, actErr_append, actErr_append, k2, actErr_datas hn]
        simp [actErr]
      have hsame : actErr sf.out.acts = actErr s'.out.acts := by
        cases a with
        | false => cases hrun; rfl
        | true =>
          simp only [] at hrun
          have hlt : (allB s'.inp).length < fuel := by
            rcases safe_readStream (X := True) (E := E) (s := s) hlib hs.flat.1 fun _ => trivial with ⟨s'', e, _⟩ | ⟨s'', e, _, _, m⟩ | ⟨e, _⟩
            · rw [h2] at e; cases e
            · rw [h2] at e; cases e; omega
            · rw [h2] at e; cases e
          rcases safe_streamLoop (X := True) hlib fuel s' hlt (h5 rfl) fun _ => trivial with ⟨s2, e, m⟩ | ⟨e, _⟩
          · rw [e] at hrun; cases hrun
            obtain ⟨post, p1, _⟩ := m.out.acts
            rw [p1, actErr_append]
            cases h : actErr s'.out.acts with
            | none => exact absurd h herr
            | some e => rfl
          · rw [e] at hrun; cases hrun
      rw [hsame]
      refine ⟨fun T b m hc => ?_, fun h => absurd h herr⟩
      obtain ⟨k1, k2, k3⟩ := step_pos hE hs he hb hn h2 hc
      have k4 := hX s s' a T b m hs he hb hn h2 hc
      rw [← show c = firstC E s from h0] at k3 k4
      exact ⟨[], allB s.inp, c, .nil _, by simp, by simpa using k1, k2, h1, fun _ => h0, h6, k3, k4⟩
    · rw [h1] at hrun; cases hrun

theorem run_pos (hE : EnvOK E) {X : Container → Spec.Problem → List UInt8 → Nat → Prop} (hX : Says E X) (src : Src) (he : ∀ T b m, src.err ≠ .corrupt T b m) {s' : RState} (hr : readThread E (start src false) = .ok ((), s'))
    {T b : Nat} {m : Spec.Problem} (hc : actErr s'.out.acts = some (.corrupt T b m)) : Located E X 0 (detect E.o.format src.first) src.bytes T b m := by
  have hcalm : Calm (start src false) := ⟨rfl, rfl, ⟨rfl, rfl⟩, rfl, rfl⟩
  have hst : readThread E (start src false) = ((fun s => streamLoop E (s.inp.size + 2) s : Go RState Unit) >>= fun _ => finishThread) (start src false) := by
    unfold readThread
    exact Go.bind_ok (Go.modify_apply _ _)
  rw [hst] at hr
  obtain ⟨_, s1, e1, e2⟩ := Go.bind_eq_ok.1 hr
  have hfin : finishThread s1 = .ok ((), { s1 with inp := { s1.inp with inputError := some (s1.inp.inputError.getD .eof) }, out := closeOut (s1.inp.inputError.getD .eof) s1.out }) := by
    unfold finishThread
    refine (Go.bind_ok (onInp_ok rfl)).trans ?_
    unfold propagateError
    simp only [Bool.false_and, Bool.false_eq_true, if_false]
    exact closeWithError_eq _ _
  rw [hfin] at e2
  cases e2
  have e1 : streamLoop E ((start src false).inp.size + 2) (start src false) = .ok ((), s1) := e1
  have hfc : firstC E (start src false) = detect E.o.format src.first := by
    unfold firstC filled refill start fill Src.first
    rcases src with ⟨_ | ⟨⟨b, bs⟩, cs⟩, last, err⟩ <;> simp
  obtain ⟨k1, k2⟩ := loop_pos hE hX ((start src false).inp.size + 2) (start src false) s1 (by rw [size_eq]; omega) hcalm he rfl e1
  rw [hfc] at k1
  have hc : actErr (closeOut (s1.inp.inputError.getD .eof) s1.out).acts = some (.corrupt T b m) := hc
  cases h : actErr s1.out.acts with
  | none =>
    have := (close_first _ _).2 _ h hc
    rw [k2 h] at this
    exact absurd this.symm (he T b m)
  | some e =>
    have h2 := (close_first (s1.inp.inputError.getD .eof) s1.out).1 _ h
    rw [h2] at hc
    cases hc
    exact k1 T b m h

end
end Flate.Proof.R.Pos
