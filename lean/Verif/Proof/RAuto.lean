/-
A Reader which recognises formats by itself, on a sequence of streams of any formats.
-/
import Verif.Proof.RRun

namespace Flate.Proof.R
open Flate.Spec Flate.Model Flate.Model.Rd Flate.Proof

/-- a stream: its format, its bytes and its content -/
structure Given where
  k : Container
  bytes : List UInt8
  data : List UInt8

section
variable {E : Env} {s : RState}

/-- the bytes of pieces -/
def pieceBytes (l : List (UInt8 × List UInt8)) : List UInt8 := l.flatMap fun p => p.1 :: p.2

/-- What is in the buffer when a stream begins: all that is left, or all up to the end of a piece. -/
theorem filled_pieces (hs : Calm s) : (filled s).inp.buf = allB s.inp ∨
    ∃ post, post <:+ s.inp.src.full ∧ allB s.inp = (filled s).inp.buf ++ (pieceBytes post ++ s.inp.src.last) := by
  unfold filled refill
  simp only [hs.stop]
  by_cases hb : s.inp.buf = []
  · have e : s.inp.buf.isEmpty = true := by simp [hb]
    simp only [e, if_true]
    unfold fill
    simp only [hs.err, Option.isSome_none, Bool.false_eq_true, if_false]
    rcases hf : s.inp.src.full with _ | ⟨⟨b, bs⟩, cs⟩
    · left; simp [allB, Src.bytes, hf, hb]
    · right
      refine ⟨cs, List.suffix_cons _ _, ?_⟩
      simp [allB, Src.bytes, hf, hb, pieceBytes]
  · have e : s.inp.buf.isEmpty = false := by simpa using hb
    simp only [e, Bool.false_eq_true, if_false]
    right
    exact ⟨_, List.suffix_refl _, by simp [allB, Src.bytes, pieceBytes]⟩

theorem detect_prefix {b x : List UInt8} (h : 2 ≤ b.length) (f : Format) : detect f (b ++ x) = detect f b := by
  rcases b with _ | ⟨p, _ | ⟨q, b⟩⟩
  · simp at h
  · simp at h
  · cases f <;> rfl

/-- `ps` can be recognised one by one in what is left of the source: no piece ends one byte after the beginning of a stream -/
def Recognisable (E : Env) (src : Src) : List Given → Prop
  | [] => True
  | p :: ps => Stream (Env.ok E) (2 ^ E.o.wbits) E.o.dict p.k p.bytes p.data ∧ detect E.o.format (p.bytes ++ ps.flatMap (·.bytes)) = p.k ∧
      (∀ post, post <:+ src.full → (p.bytes ++ ps.flatMap (·.bytes)).length ≠ 1 + (pieceBytes post ++ src.last).length) ∧
      (ps ≠ [] → src.last.length ≤ (ps.flatMap (·.bytes)).length) ∧ Recognisable E src ps

theorem Recognisable.mono {src src' : Src} (hf : src'.full <:+ src.full) (hl : src'.last = src.last) : ∀ {ps : List Given}, Recognisable E src ps → Recognisable E src' ps
  | [], _ => trivial
  | _ :: _, ⟨h1, h2, h3, h4, h5⟩ => ⟨h1, h2, fun post hp => by rw [hl]; exact h3 post (hp.trans hf), fun hn => by rw [hl]; exact h4 hn, h5.mono hf hl⟩

theorem first_recognised (hs : Calm s) {k : Container} {bytes : List UInt8} (ha : allB s.inp = bytes) (hne : bytes ≠ []) (hd : detect E.o.format bytes = k)
    (hp : ∀ post, post <:+ s.inp.src.full → bytes.length ≠ 1 + (pieceBytes post ++ s.inp.src.last).length) : firstC E s = k := by
  unfold firstC
  rcases filled_pieces hs with h | ⟨post, h1, h2⟩
  · rw [h, ha]; exact hd
  · rw [ha] at h2
    have hlen : 2 ≤ (filled s).inp.buf.length := by
      have h3 := hp post h1
      have h4 := congrArg List.length h2
      rw [List.length_append] at h4
      have h5 : (filled s).inp.buf ≠ [] := by
        intro h0
        have := ((filled_all hs).2 h0).1
        rw [ha] at this
        exact hne this
      have := List.length_pos_iff.2 h5
      omega
    rw [← detect_prefix hlen, ← h2]
    exact hd

/-- the loop, on streams which can be recognised -/
theorem loop_auto (hE : EnvOK E) : ∀ (ps : List Given) (fuel : Nat) (s : RState), (allB s.inp).length < fuel → Calm s → allB s.inp = ps.flatMap (·.bytes) → Recognisable E s.inp.src ps →
    ∃ l s', streamLoop E fuel s = .ok ((), s') ∧ CleanEnd s l [] s' ∧ l.map (fun it => Given.mk it.c it.S it.data) = ps
  | ps, 0, _, h, _, _, _ => by omega
  | ps, fuel + 1, s, hf, hs, ha, hp => by
    unfold streamLoop
    simp only [hs.err, Option.isNone_none, if_true]
    have hfirst : ∀ p qs, ps = p :: qs → firstC E s = p.k ∧ ¬ NoStream E p.k (allB s.inp) := by
      rintro p qs rfl
      obtain ⟨p1, p2, p3, p4, p5⟩ := hp
      refine ⟨first_recognised hs (ha.trans (by simp)) (by simp [stream_ne p1]) p2 p3, fun hn => hn _ _ (qs.flatMap (·.bytes)) p1 (ha.trans (by simp))⟩
    rcases stream_step hE hs with ⟨h1, s', h2, h3, h4, h5, h6, h7⟩ | ⟨it, s', h1, h0, h2, h3, h4, h5, h6⟩ | ⟨b, c, p, s', h0, h1, h2, h3, h4, h5, h6, h8⟩ | ⟨h1, h0, h2, h3, h4⟩
    · have hps : ps = [] := by
        rcases ps with _ | ⟨p, qs⟩
        · rfl
        · rw [h1] at ha
          exact absurd (by simpa using congrArg List.isEmpty ha : p.bytes = [] ∧ _).1 (stream_ne hp.1)
      subst hps
      refine ⟨[], s', by rw [h2], ⟨⟨[], [.err s.inp.src.err], ?_, rfl, Or.inr ⟨rfl, ?_⟩⟩, h3, ?_, Or.inl rfl, ?_, by simpa using h6, ?_, h7⟩, rfl⟩
      · rw [h4]; unfold closeOut; simp [hs.set]
      · rw [h4]; exact closeOut_set _ _
      · rw [h4, closeOut_stop]; exact hs.stop
      · unfold kinds; rw [h5]; simp
      · rw [h4]; unfold closeOut; simp [hs.set, datas]
    · rcases ps with _ | ⟨p, ps⟩
      · rw [h6] at ha
        exact absurd (by simpa using congrArg List.isEmpty ha : it.S = [] ∧ _).1 (stream_ne h1.1)
      obtain ⟨hc, _⟩ := hfirst p ps rfl
      obtain ⟨p1, p2, p3, p4, p5⟩ := hp
      have hk : it.c = p.k := h0.trans hc
      obtain ⟨e1, e2⟩ := stream_unique hE (hk ▸ h1.1) p1 (r := allB s'.inp) (r' := ps.flatMap (·.bytes)) (by rw [← h6, ha]; simp)
      have ha' : allB s'.inp = ps.flatMap (·.bytes) := by
        have := h6.symm.trans ha
        rw [e1] at this
        simpa using this
      rw [h3]
      simp only []
      have hlen : 0 < it.S.length := List.length_pos_iff.2 (stream_ne h1.1)
      have hlt : (allB s'.inp).length < fuel := by
        have := congrArg List.length h6
        simp at this; omega
      obtain ⟨ds, d1, d2⟩ := h4.acts
      have d1 : s'.out.acts = s.out.acts ++ ds.map .data := d1
      have hin : s'.inp.inTotal = s.inp.inTotal + it.S.length := h4.total
      have hout : s'.out.outTotal = s.out.outTotal + it.data.length := h4.outTotal
      have hnum : s'.numStreams = s.numStreams + 1 := h4.num
      have hev : kinds s' = kinds s ++ it.ks := h4.ev
      by_cases hn : s'.inp.inputError = none
      · have hsrc : s'.inp.src.err = s.inp.src.err := h5.inp.srcErr
        have hlast := h5.inp.last hn
        obtain ⟨l, s2, q1, q2, q3⟩ := loop_auto hE ps fuel s' hlt (h4.calm hs hn) ha' (p5.mono h5.inp.full hlast)
        obtain ⟨ds', tail, t1, t2, t3⟩ := q2.acts
        refine ⟨it :: l, s2, q1, ⟨⟨ds ++ ds', tail, by rw [t1, d1]; simp, by simp [datas, d2, t2], by rw [← hsrc]; exact t3⟩, by rw [q2.err, hsrc], q2.stop, Or.inl rfl, ?_, ?_, ?_, ?_⟩, ?_⟩
        · rw [q2.kinds, hev]; simp
        · rw [q2.inTotal, hin]; simp; omega
        · rw [q2.outTotal, hout]; simp [datas]; omega
        · rw [q2.num, hnum]; simp; omega
        · rw [List.map_cons, q3, hk, e1, e2]
      · obtain ⟨g1, g2⟩ := h5.inp.fin (show s'.out.stopIsForced = false from h4.stop.trans hs.stop) hs.err hn
        have hps : ps = [] := by
          by_cases hps : ps = []
          · exact hps
          · exfalso
            have := p4 hps
            rw [ha'] at g2
            rcases g2 with g2 | g2
            · omega
            · rcases ps with _ | ⟨p', ps⟩
              · exact hps rfl
              · exact absurd (by simpa using congrArg List.isEmpty g2 : p'.bytes = [] ∧ _).1 (stream_ne p5.1)
        subst hps
        have hstop : streamLoop E fuel s' = .ok ((), s') := by
          cases fuel with
          | zero => omega
          | succ n => unfold streamLoop; simp [g1]
        refine ⟨[it], s', hstop, ⟨⟨ds, [], by simp [d1], by simp [datas, d2], Or.inl ⟨rfl, h4.set.trans hs.set⟩⟩, g1, h4.stop.trans hs.stop, Or.inl rfl, ?_, ?_, ?_, ?_⟩, by rw [List.map_cons, hk, e1, e2]; rfl⟩
        · rw [hev]; simp
        · simpa using hin
        · simpa [datas] using hout
        · simpa using hnum
    · exfalso
      rcases ps with _ | ⟨p', ps⟩
      · obtain ⟨x, x1, x2, _⟩ := h1
        rw [ha] at x2; exact x1 (List.prefix_nil.1 x2)
      · obtain ⟨q1, q2⟩ := hfirst p' ps rfl
        rw [h0, q1] at h6; exact q2 h6
    · exfalso
      rcases ps with _ | ⟨p', ps⟩
      · obtain ⟨x, x1, x2, _⟩ := h2
        rw [ha] at x2; exact x1 (List.prefix_nil.1 x2)
      · obtain ⟨q1, q2⟩ := hfirst p' ps rfl
        rw [h0, q1] at h4; exact q2 h4

/-- the whole goroutine, on streams which can be recognised -/
theorem run_auto (hE : EnvOK E) {src : Src} {ps : List Given} (hb : src.bytes = ps.flatMap (·.bytes)) (hp : Recognisable E src ps) :
    ∃ (s' : RState) (ds : List (List UInt8)), readThread E (start src false) = .ok ((), s') ∧ s'.out.acts = ds.map .data ++ [.err src.err] ∧ ds.flatten = ps.flatMap (·.data) := by
  have hcalm : Calm (start src false) := ⟨rfl, rfl, ⟨rfl, rfl⟩, rfl, rfl⟩
  obtain ⟨l, s', h1, h2, h3⟩ := loop_auto hE ps ((start src false).inp.size + 2) (start src false) (by rw [size_eq]; omega) hcalm hb hp
  have hrun : readThread E (start src false) = finishThread s' := by
    have hst : readThread E (start src false) = ((fun s => streamLoop E (s.inp.size + 2) s : Go RState Unit) >>= fun _ => finishThread) (start src false) := by
      unfold readThread
      exact Go.bind_ok (Go.modify_apply _ _)
    rw [hst]
    exact Go.bind_ok h1
  have hfin : finishThread s' = .ok ((), { s' with inp := { s'.inp with inputError := some (s'.inp.inputError.getD .eof) }, out := closeOut (s'.inp.inputError.getD .eof) s'.out }) := by
    unfold finishThread
    refine (Go.bind_ok (onInp_ok rfl)).trans ?_
    unfold propagateError
    simp only [Bool.false_and, Bool.false_eq_true, if_false]
    exact closeWithError_eq _ _
  obtain ⟨ds, tail, t1, t2, t3⟩ := h2.acts
  have herr : s'.inp.inputError.getD .eof = src.err := by rw [h2.err]; rfl
  rw [herr] at hfin
  refine ⟨_, ds, hrun.trans hfin, ?_, by rw [t2, ← h3]; simp [datas, List.flatMap, Function.comp_def]⟩
  rcases t3 with ⟨rfl, t4⟩ | ⟨rfl, t4⟩
  · simp only [closeOut, t4, Bool.false_eq_true, if_false]
    rw [t1]; simp [start]
  · simp only [closeOut, t4, if_true]
    rw [t1]; simp [start]

end
end Flate.Proof.R
