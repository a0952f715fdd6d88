/-
C111: the totals of StreamBegin and StreamClose events are where the input can be cut into its streams.
-/
import Verif.Props.RTiles

namespace Flate.Props
open Flate.Spec Flate.Model Flate.Model.Rd Flate.Proof Flate.Proof.R

/-- the StreamBegin (`true`) and StreamClose (`false`) events, with the numbers of bytes of input and of output they carry -/
def marks (es : List Event) : List (Bool × Nat × Nat) :=
  es.filterMap fun e => match e.kind with
    | .streamBegin => some (true, e.inTotal, e.outTotal)
    | .streamClose => some (false, e.inTotal, e.outTotal)
    | _ => none

/-- the beginning and the end of each of the streams `l` (bytes and contents), in the file and in all the data, if the first begins at `a` and `b` -/
def bounds : Nat → Nat → List (List UInt8 × List UInt8) → List (Bool × Nat × Nat)
  | _, _, [] => []
  | a, b, x :: l => (true, a, b) :: (false, a + x.1.length, b + x.2.length) :: bounds (a + x.1.length) (b + x.2.length) l

theorem marks_append (a b : List Event) : marks (a ++ b) = marks a ++ marks b := by simp [marks]

theorem marks_about {es : List Event} (h : ∀ e ∈ es, AboutBlock e.kind) : marks es = [] := by
  induction es with
  | nil => rfl
  | cons e es ih =>
    have h1 := h e (by simp)
    have h2 := ih fun x hx => h x (by simp [hx])
    unfold marks at h2 ⊢
    rw [List.filterMap_cons, h2]
    cases hk : e.kind <;> rw [hk] at h1 <;> first | rfl | exact h1.elim

/-- the marks of one stream -/
theorem marks_stream {es : List Event} {ks : List EvKind} (h : StreamTrace ks) (hk : es.map (·.kind) = ks) :
    ∃ x m y, es = x :: (m ++ [y]) ∧ marks es = [(true, x.inTotal, x.outTotal), (false, y.inTotal, y.outTotal)] := by
  obtain ⟨hd, A, a, b, rfl, hA⟩ := stream_parts h
  obtain ⟨x, x2, w, rfl, k1, k2, k3⟩ := map_two hk
  obtain ⟨wa, wz, rfl, hwa, hwz⟩ := List.map_eq_append_iff.1 k3
  obtain ⟨z, y, e, rfl, k4, k5, k6⟩ := map_two hwz
  obtain rfl := List.map_eq_nil_iff.1 k6
  refine ⟨x, x2 :: (wa ++ [z]), y, by simp, ?_⟩
  have h1 : marks wa = [] := marks_about fun e he => hA _ (hwa ▸ List.mem_map.2 ⟨e, he, rfl⟩)
  show marks ([x, x2] ++ (wa ++ [z, y])) = _
  rw [marks_append, marks_append, h1]
  simp [marks, k1, k2, k4, k5]

theorem stream_begins {E : Env} {s s' : RState} (e : readStream E s = .ok (true, s')) : ∃ ev es, s'.events = s.events ++ ev :: es ∧ SentAt ev s := by
  obtain ⟨f1, f2, f3, f4, f5, f6⟩ := filled_frame s
  rw [readStream_split] at e
  split at e
  · obtain ⟨_, s1, _, e2⟩ := Go.bind_eq_ok.1 e
    cases e2
  · unfold Go.chk at e
    rcases hx : headRest E (filled s) with p | ⟨b1, s1⟩
    · rw [hx] at e; cases e
    · rw [hx] at e
      rw [headRest_eq] at hx
      unfold Go.chk at hx
      rcases hy : readHeaderOf E E.o.format (Flate.Proof.R.begun E (filled s)) with p | ⟨b2, s2⟩
      · rw [hy] at hx; cases hx
      · rw [hy] at hx
        have h2 : s2.events = (Flate.Proof.R.begun E (filled s)).events := noEv_flow.headerOf E _ _ _ _ hy
        obtain ⟨ev, hev, hk⟩ : ∃ ev, s2.events = s.events ++ [ev] ∧ SentAt ev s := ⟨_, by rw [h2, ← f5]; rfl, f4, rfl⟩
        cases b2 with
        | false => cases hx; cases e
        | true =>
          cases hx
          simp only [] at e
          obtain ⟨l, l1, _⟩ := body_headless E _ _ _ e
          obtain ⟨eh, w1⟩ : ∃ eh, (sent (.streamHeader s2.header) s2).events = s2.events ++ [eh] := ⟨_, rfl⟩
          exact ⟨ev, eh :: l, by rw [l1, w1, hev]; simp, hk⟩

theorem actErr_none_append : ∀ {a b : List Act}, actErr a = none → actErr (a ++ b) = actErr b
  | [], _, _ => rfl
  | .data _ :: a, b, h => actErr_none_append (a := a) h
  | .err _ :: _, _, h => by cases h

theorem actErr_some_append {e : Err} : ∀ {a b : List Act}, actErr a = some e → actErr (a ++ b) = some e
  | [], _, h => by cases h
  | .data _ :: a, b, h => actErr_some_append (a := a) h
  | .err _ :: _, _, h => h

theorem actErr_datas (ds : List (List UInt8)) : actErr (ds.map .data) = none := by
  induction ds with
  | nil => rfl
  | cons d ds ih => exact ih

theorem actData_datas (ds : List (List UInt8)) : actData (ds.map .data) = ds.flatten := by
  induction ds with
  | nil => rfl
  | cons d ds ih => simp [actData, ih]

/-- the loop over the streams: either something is wrong, or the marks are the bounds of the streams -/
theorem marks_loop {E : Env} (hE : EnvOK E) : ∀ (fuel : Nat) (s s' : RState), (allB s.inp).length < fuel → Calm s → TInv s → actErr s.out.acts = none →
    streamLoop E fuel s = .ok ((), s') →
    (∃ e, actErr s'.out.acts = some e ∧ e ≠ .eof) ∨
    ∃ (l : List (List UInt8 × List UInt8)) (r : List UInt8), allB s.inp = l.flatMap (·.1) ++ r ∧ actData s'.out.acts = actData s.out.acts ++ l.flatMap (·.2) ∧
      (∀ x ∈ l, ∃ k, (∃ b, k = detect E.o.format b) ∧ Stream (Env.ok E) (2 ^ E.o.wbits) E.o.dict k x.1 x.2) ∧ marks s'.events = marks s.events ++ bounds s.inp.inTotal s.out.outTotal l
  | 0, _, _, h, _, _, _, _ => by omega
  | fuel + 1, s, t, hf, hs, ht, ha, e => by
    have hlib : LibOK E := ⟨hE.lawful, hE.word⟩
    unfold streamLoop at e
    simp only [hs.err, Option.isNone_none, if_true] at e
    rcases stream_step hE hs with ⟨h1, s', h2, h3, h4, h5, h6, h7⟩ | ⟨it, s', h1, h0, h2, h3, h4, h5, h6⟩ | ⟨b, c, p, s', h0, h1, h2, h3, h4, h5, h6, h8⟩ | ⟨h1, h0, h2, h3, h4⟩
    · rw [h2] at e; cases e
      refine Or.inr ⟨[], [], by simpa using h1, ?_, by simp, by rw [h5]; simp [bounds]⟩
      rw [h4, actData_closeOut]; simp
    · rw [h3] at e
      simp only [] at e
      have hlen : 0 < it.S.length := List.length_pos_iff.2 (stream_ne h1.1)
      have hlt : (allB s'.inp).length < fuel := by
        have := congrArg List.length h6
        simp at this; omega
      obtain ⟨ds, d1, d2⟩ := h4.acts
      have d1 : s'.out.acts = s.out.acts ++ ds.map .data := d1
      have hin : s'.inp.inTotal = s.inp.inTotal + it.S.length := h4.total
      have hout : s'.out.outTotal = s.out.outTotal + it.data.length := h4.outTotal
      have hev : Flate.Proof.R.kinds s' = Flate.Proof.R.kinds s ++ it.ks := h4.ev
      have hdat : actData s'.out.acts = actData s.out.acts ++ it.data := by rw [d1, actData_append, actData_datas, d2]
      have hmk : marks s'.events = marks s.events ++ bounds s.inp.inTotal s.out.outTotal [(it.S, it.data)] := by
        obtain ⟨ev, es, k1, k2⟩ := stream_begins h3
        have k3 : (ev :: es).map (·.kind) = it.ks := by
          unfold Flate.Proof.R.kinds at hev
          rw [k1, List.map_append] at hev
          exact List.append_cancel_left hev
        obtain ⟨x, m, y, k4, k5⟩ := marks_stream h1.2.2.trace k3
        obtain ⟨k6, k7⟩ := ((stream_chain ht h3).2 rfl).2 (s.events ++ x :: m) y (by rw [k1, k4]; simp)
        rw [k1, marks_append, k5]
        obtain ⟨rfl, _⟩ := List.cons.inj k4
        simp [bounds, k2.1, k2.2, k7.1, k7.2, hin, hout]
      have h1' : ∃ k, (∃ b, k = detect E.o.format b) ∧ Stream (Env.ok E) (2 ^ E.o.wbits) E.o.dict k it.S it.data := ⟨_, ⟨_, h0⟩, h1.1⟩
      by_cases hn : s'.inp.inputError = none
      · rcases marks_loop hE fuel s' t hlt (h4.calm hs hn) ((stream_chain ht h3).2 rfl) (by rw [d1, actErr_none_append ha, actErr_datas]) e with g | ⟨l, r, g1, g2, g3, g4⟩
        · exact Or.inl g
        · refine Or.inr ⟨(it.S, it.data) :: l, r, by rw [h6, g1]; simp, by rw [g2, hdat]; simp, fun x hx => ?_, ?_⟩
          · rcases List.mem_cons.1 hx with rfl | hx
            · exact h1'
            · exact g3 x hx
          · rw [g4, hmk, hin, hout]; simp [bounds]
      · obtain ⟨g1, g2⟩ := h5.inp.fin (show s'.out.stopIsForced = false from h4.stop.trans hs.stop) hs.err hn
        have hstop : streamLoop E fuel s' = .ok ((), s') := by
          cases fuel with
          | zero => omega
          | succ n => unfold streamLoop; simp [g1]
        rw [hstop] at e; cases e
        refine Or.inr ⟨[(it.S, it.data)], allB t.inp, by simpa using h6, by rw [hdat]; simp, fun x hx => ?_, hmk⟩
        rw [List.mem_singleton] at hx; subst hx; exact h1'
    · left
      rw [h2] at e
      have hst := stop_readStream hE.opn hs.stop h2
      have key : ∀ (q : List UInt8), HaltEnd s.inp.src.err (nrm s) q (q ++ p) t → ∃ e, actErr t.out.acts = some e ∧ e ≠ .eof := by
        rintro q ⟨er, ds, db, post, t1, t2, _⟩
        refine ⟨er, ?_, t1.ne_eof⟩
        rw [t2, List.append_assoc]
        rw [actErr_none_append (show actErr (nrm s).out.acts = none from ha), actErr_none_append (actErr_datas ds)]
        rfl
      cases b with
      | false =>
        cases e
        exact key [] (halt_end (s := nrm s) (ds0 := []) (by simp [nrm]) rfl hs.set hst h4 (Past.of_nrm (.refl _)))
      | true =>
        simp only [] at e
        have hlt : (allB s'.inp).length < fuel := by
          rcases safe_readStream (X := True) (E := E) (s := s) hlib hs.flat.1 fun _ => trivial with ⟨s'', e, _⟩ | ⟨s'', e, _, _, m⟩ | ⟨e, _⟩
          · rw [h2] at e; cases e
          · rw [h2] at e; cases e; omega
          · rw [h2] at e; cases e
        rcases safe_streamLoop (X := True) hlib fuel s' hlt (h5 rfl) fun _ => trivial with ⟨s2, e', m⟩ | ⟨e', _⟩
        · rw [e] at e'; cases e'
          exact key [] (halt_end (s := nrm s) (ds0 := []) (by simp [nrm]) rfl hs.set (stop_streamLoop hE.opn _ hst e) h4 ((Past.of_nrm (.refl _)).trans m))
        · rw [e] at e'; cases e'
    · rw [h1] at e; cases e

/-- **C111.** A run which ends with `io.EOF`: the input consists of streams `l` (and perhaps a rest which was not read, see C07), the data delivered is the sequence of their contents,
and the totals in the StreamBegin and StreamClose events are exactly the places in the input where these streams begin and end, and the places in the data where their contents do. -/
theorem C111_cut {c : RSetup} (hc : c.OK) {src : Src} {s : RState} (hr : c.Runs src s) (he : actErr s.out.acts = some .eof) :
    ∃ (l : List (List UInt8 × List UInt8)) (r : List UInt8), src.bytes = l.flatMap (·.1) ++ r ∧ actData s.out.acts = l.flatMap (·.2) ∧
      (∀ x ∈ l, ∃ k, (c.o.format = .default ∨ c.o.format = fmtOf k) ∧ c.Stream k x.1 x.2) ∧ marks s.events = bounds 0 0 l := by
  have hst : readThread c.env (start src false) = ((fun s => streamLoop c.env (s.inp.size + 2) s : Go RState Unit) >>= fun _ => finishThread) (start src false) := by
    unfold readThread
    exact Go.bind_ok (Go.modify_apply _ _)
  obtain ⟨_, s1, e1, e2⟩ := Go.bind_eq_ok.1 (hst.symm.trans hr)
  have hfin : finishThread s1 = .ok ((), { s1 with inp := { s1.inp with inputError := some (s1.inp.inputError.getD .eof) }, out := closeOut (s1.inp.inputError.getD .eof) s1.out }) := by
    unfold finishThread
    refine (Go.bind_ok (onInp_ok rfl)).trans ?_
    unfold propagateError
    simp only [Bool.false_and, Bool.false_eq_true, if_false]
    exact closeWithError_eq _ _
  rw [hfin] at e2
  cases e2
  rcases marks_loop hc.env _ (start src false) s1 (by rw [size_eq]; omega) ⟨rfl, rfl, ⟨rfl, rfl⟩, rfl, rfl⟩ ⟨.nil, fun l e he => (by cases l <;> cases he)⟩ rfl e1 with ⟨er, g1, g2⟩ | ⟨l, r, g1, g2, g3, g4⟩
  · exfalso
    have : actErr (closeOut (s1.inp.inputError.getD .eof) s1.out).acts = some er := by
      unfold closeOut
      split
      · exact g1
      · exact actErr_some_append g1
    have he : actErr (closeOut (s1.inp.inputError.getD .eof) s1.out).acts = some .eof := he
    rw [this] at he
    cases he
    exact g2 rfl
  · refine ⟨l, r, g1, ?_, fun x hx => ?_, ?_⟩
    rotate_left
    · obtain ⟨k, ⟨b, hb⟩, hk⟩ := g3 x hx
      refine ⟨k, ?_, hk⟩
      have hb : k = detect c.o.format b := hb
      cases hf : c.o.format with
      | default => exact Or.inl rfl
      | _ => rw [hf] at hb; rw [hb]; exact Or.inr rfl
    rotate_left
    · show actData (closeOut (s1.inp.inputError.getD .eof) s1.out).acts = _
      rw [actData_closeOut, g2]
      rfl
    · show marks s1.events = _
      rw [g4]; rfl

/-- **C111**, for a Reader with a fixed format: each of the pieces, read by itself from any source, gives its part of the data. -/
theorem C111_pieces {c : RSetup} (hc : c.OK) (hf : c.o.format ≠ .default) {src : Src} {s : RState} (hr : c.Runs src s) (he : actErr s.out.acts = some .eof) :
    ∃ (l : List (List UInt8 × List UInt8)) (r : List UInt8), src.bytes = l.flatMap (·.1) ++ r ∧ actData s.out.acts = l.flatMap (·.2) ∧ marks s.events = bounds 0 0 l ∧
      ∀ x ∈ l, ∀ src' : Src, src'.bytes = x.1 → c.Delivers src' x.2 src'.err := by
  obtain ⟨l, r, h1, h2, h3, h4⟩ := C111_cut hc hr he
  refine ⟨l, r, h1, h2, h4, fun x hx src' hs => ?_⟩
  obtain ⟨k, hk | hk, hS⟩ := h3 x hx
  · exact absurd hk hf
  · exact C03_decodes hc (Or.inl hk) (by rw [hs]; exact hS)

/-! ### a case: the three streams of C109, from a source which reports the end separately -/

def allAtOnce : List UInt8 → Src
  | [] => ⟨[], [], .eof⟩
  | b :: r => ⟨[(b, r)], [], .eof⟩

def cutCase : Option (List (Bool × Nat × Nat) × Bool) :=
  match runOps refLib (threeOps ++ [.close]) (demo [.format .gzip, .mlevel 1]).start with
  | .ok (_, t) => (match readThread (rdemo [.format .gzip]).env (start (allAtOnce t.sink.out) false) with
    | .ok (_, s) => some (marks s.events, match actErr s.out.acts with | some .eof => true | _ => false)
    | .error _ => none)
  | .error _ => none

/-- the hypotheses of `C111_cut` hold, and there are three streams -/
example : cutCase = some ([(true, 0, 0), (false, 25, 0), (true, 25, 0), (false, 63, 3), (true, 63, 3), (false, 94, 4)], true) := by decide +kernel

example : (rdemo [.format .gzip]).OK := rdemo_ok (by decide)

end Flate.Props
