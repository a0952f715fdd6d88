/-
API calls of the Writer.
-/
import Verif.Proof.WOpen

namespace Flate.Proof
open Flate.Spec Flate.Model

/-- What is true after any API call other than `Reset`, during which the bytes `x` were accepted as input. -/
structure Hist (s t : WState) (x : List UInt8) (es : List Sent) : Prop where
  W : t.W = s.W
  o : t.o = s.o
  outBits : t.outBits = s.outBits
  lzopts : t.lz.opts = s.lz.opts
  propose : t.lz.propose = s.lz.propose
  wfail : t.sink.wfail = s.sink.wfail
  ffail : t.sink.ffail = s.sink.ffail
  sfail : t.sink.sfail = s.sink.sfail
  hasFlush : t.sink.hasFlush = s.sink.hasFlush
  hasSync : t.sink.hasSync = s.sink.hasSync
  out : s.sink.out <+: t.sink.out
  errs : s.sink.errs <+: t.sink.errs
  pfx : pushed s <+: pushed t
  tot : t.outTotal + (pushed s).length = s.outTotal + (pushed t).length
  tin : t.inTotal + t.lz.buf.length = s.inTotal + s.lz.buf.length + x.length
  ev : t.events = s.events ++ es
  evOut : ∀ p ∈ es, p.ev.outTotal + (pushed s).length = s.outTotal + p.delivered
  evIn1 : ∀ p ∈ es, s.inTotal + s.lz.buf.length ≤ p.ev.inTotal + p.buffered
  evIn2 : ∀ p ∈ es, p.ev.inTotal + p.buffered ≤ s.inTotal + s.lz.buf.length + x.length
  evFmt : ∀ p ∈ es, p.ev.format = s.o.format
  monoOut : MonoLog Event.outTotal s.outTotal es t.outTotal
  monoIn : MonoLog Event.inTotal s.inTotal es t.inTotal
  monoNum : NumLog s.numStreams es t.numStreams
  offs : ∀ a b, Offs s a b → ∃ a' b', StrLog a b es a' b' ∧ Offs t a' b'
  feed : ∀ A, Fed s A → Fed t (A ++ x) ∧ ∀ p ∈ es, Foot (A ++ x) p.ev
  heads : ∀ p ∈ es, Head (headerBytes s.o) t.sink.out p

theorem Flow.hist {s t : WState} {es : List Sent} (h : Flow s t es) : Hist s t [] es :=
  ⟨h.W, h.o, h.outBits, h.lzopts, h.propose, h.wfail, h.ffail, h.sfail, h.hasFlush, h.hasSync, h.out, h.errs, h.pfx,
   h.tot, h.tin, h.ev, h.evOut, fun p hp => Nat.le_of_eq (h.evIn p hp).symm, fun p hp => Nat.le_of_eq (h.evIn p hp),
   h.evFmt, h.monoOut, h.monoIn, h.monoNum, h.offs, fun A hA => by rw [List.append_nil]; exact h.feed A hA, h.heads⟩

theorem Hist.trans {s t u : WState} {j k : List UInt8} {es es' : List Sent} (h : Hist s t j es) (l : Hist t u k es') :
    Hist s u (j ++ k) (es ++ es') := by
  refine ⟨l.W.trans h.W, l.o.trans h.o, l.outBits.trans h.outBits, l.lzopts.trans h.lzopts,
    l.propose.trans h.propose, l.wfail.trans h.wfail, l.ffail.trans h.ffail, l.sfail.trans h.sfail,
    l.hasFlush.trans h.hasFlush, l.hasSync.trans h.hasSync,
    h.out.trans l.out, h.errs.trans l.errs, h.pfx.trans l.pfx, ?_, ?_, ?_, ?_, ?_, ?_, ?_, h.monoOut.append l.monoOut,
    h.monoIn.append l.monoIn, h.monoNum.append l.monoNum, ?_, ?_, ?_⟩
  · have := h.tot; have := l.tot; omega
  · have := h.tin; have := l.tin; rw [List.length_append]; omega
  · rw [l.ev, h.ev, List.append_assoc]
  · intro p hp
    rcases List.mem_append.1 hp with hp | hp
    · exact h.evOut p hp
    · have := l.evOut p hp; have := h.tot; omega
  · intro p hp
    rcases List.mem_append.1 hp with hp | hp
    · exact h.evIn1 p hp
    · have := l.evIn1 p hp; have := h.tin; omega
  · intro p hp
    rcases List.mem_append.1 hp with hp | hp
    · have := h.evIn2 p hp; rw [List.length_append]; omega
    · have := l.evIn2 p hp; have := h.tin; rw [List.length_append]; omega
  · intro p hp
    rcases List.mem_append.1 hp with hp | hp
    · exact h.evFmt p hp
    · rw [l.evFmt p hp, h.o]
  · intro a b hab
    obtain ⟨a', b', h1, h2⟩ := h.offs a b hab
    obtain ⟨a'', b'', h3, h4⟩ := l.offs a' b' h2
    exact ⟨a'', b'', h1.append h3, h4⟩
  · intro A hA
    obtain ⟨h1, h2⟩ := h.feed A hA
    obtain ⟨h3, h4⟩ := l.feed _ h1
    rw [← List.append_assoc]
    refine ⟨h3, fun p hp => ?_⟩
    rcases List.mem_append.1 hp with hp | hp
    · exact (h2 p hp).append k
    · exact h4 p hp
  · intro p hp
    rcases List.mem_append.1 hp with hp | hp
    · exact (h.heads p hp).mono l.out
    · have := l.heads p hp; rw [h.o] at this; exact this

theorem fit_of_hist {s t : WState} {k : List UInt8} {es : List Sent} (h : Hist s t k es) {n : Nat} (hf : Fit s (k.length + n)) : Fit t n := by
  unfold Fit at hf ⊢; rw [h.o, h.lzopts]
  have := h.tin
  have := h.monoIn.le
  rcases hf with hf | hf | hf
  · exact Or.inl hf
  · exact Or.inr (Or.inl hf)
  · exact Or.inr (Or.inr (by omega))

theorem Fit.le {s : WState} {n m : Nat} (h : Fit s n) (hm : m ≤ n) : Fit s m := by
  rcases h with h | h | h
  · exact Or.inl h
  · exact Or.inr (Or.inl h)
  · exact Or.inr (Or.inr (by omega))

theorem room_hist {s t : WState} {k : List UInt8} {es : List Sent} (h : Hist s t k es) : room t = room s := by
  unfold room; rw [h.o, cap_congr h.lzopts]

/-- the underlying writer never fails in any of its three methods (EINVAL from `Sync` does not count) -/
def Dependable (s : WState) : Prop :=
  (∀ n, s.sink.wfail n = none) ∧ (∀ n, s.sink.ffail n = none) ∧ (∀ n e, s.sink.sfail n = some e → ignoredSyncError e = true)

theorem dependable_of_hist {s t : WState} {k : List UInt8} {es : List Sent} (h : Hist s t k es) (d : Dependable s) :
    Dependable t := by
  unfold Dependable; rw [h.wfail, h.ffail, h.sfail]; exact d

/-- An operation which takes in the bytes `n` and, unless the underlying writer fails, succeeds with the given result
(or panics, when the configuration allows buffering too much data). -/
def Call (f : Go WState Bool) (s : WState) (n : List UInt8) (p0 p1 : Phase) (Q : WState → Prop) : Prop :=
  (f s = .error tooLong ∧ ¬ Fit s n.length) ∨
  ∃ b t es k, f s = .ok (b, t) ∧ k <+: n ∧ Hist s t k es ∧
    (b = true → k = n ∧ Q t ∧ WInv t ∧ t.err = s.err ∧ t.sink.errs = s.sink.errs ∧ runPh p0 (kinds es) = some p1) ∧
    (b = false → Failed s t ∧ ∃ p, runPh p0 (kinds es) = some p) ∧ (Dependable s → b = true)

theorem Acts.call {f : Go WState Bool} {s : WState} {p0 p1 : Phase} {Q : WState → Prop} (h : Acts f s p0 p1 Q) :
    Call f s [] p0 p1 Q := by
  rcases h with h | ⟨b, t, es, e, fl, ok, bad, rel⟩
  · exact Or.inl h
  · exact Or.inr ⟨b, t, es, [], e, List.prefix_refl _, fl.hist, fun hb => ⟨rfl, ok hb⟩, bad, fun d => rel d.1⟩

theorem Call.congr {f g : Go WState Bool} {s : WState} {n : List UInt8} {p0 p1 : Phase} {Q : WState → Prop}
    (h : Call g s n p0 p1 Q) (e : f s = g s) : Call f s n p0 p1 Q := by
  unfold Call at h ⊢; rw [e]; exact h

theorem Call.mono {f : Go WState Bool} {s : WState} {n : List UInt8} {p0 p1 : Phase} {Q R : WState → Prop}
    (h : Call f s n p0 p1 Q) (hq : ∀ t es, Hist s t n es → Q t → R t) : Call f s n p0 p1 R := by
  rcases h with h | ⟨b, t, es, k, e, hk, fl, ok, bad, rel⟩
  · exact Or.inl h
  refine Or.inr ⟨b, t, es, k, e, hk, fl, ?_, bad, rel⟩
  intro hb
  obtain ⟨hkn, q, r⟩ := ok hb
  subst hkn
  exact ⟨rfl, hq t es fl q, r⟩

theorem Call.chk {x y : Go WState Bool} {s : WState} {m n : List UInt8} {p0 p1 p2 : Phase} {Q R : WState → Prop}
    (hx : Call x s m p0 p1 Q) (hy : ∀ t es, Hist s t m es → WInv t → Q t → Call y t n p1 p2 R) :
    Call (Go.chk x y) s (m ++ n) p0 p2 R := by
  rcases hx with ⟨e, hf⟩ | ⟨b, t, es, k, e, hk, fl, ok, bad, rel⟩
  · exact Or.inl ⟨chk_error e, fun h => hf (h.le (by rw [List.length_append]; omega))⟩
  cases b with
  | false => exact Or.inr ⟨false, t, es, k, chk_false e, hk.trans (List.prefix_append _ _), fl, by simp, fun _ => bad rfl, fun h => absurd (rel h) (by simp)⟩
  | true =>
    obtain ⟨hkm, q, inv, er, ee, ph⟩ := ok rfl
    subst hkm
    rcases hy t es fl inv q with ⟨e', hf⟩ | ⟨b', u, es', k', e', hk', fl', ok', bad', rel'⟩
    · exact Or.inl ⟨by rw [chk_ok e]; exact e', fun h => hf (fit_of_hist fl (by rw [← List.length_append]; exact h))⟩
    refine Or.inr ⟨b', u, es ++ es', k ++ k', by rw [chk_ok e]; exact e', (List.prefix_append_right_inj k).2 hk', fl.trans fl', ?_, ?_,
      fun h => rel' (dependable_of_hist fl h)⟩
    · intro hb
      obtain ⟨hkn, r, i, er', ee', ph'⟩ := ok' hb
      exact ⟨by rw [hkn], r, i, er'.trans er, ee'.trans ee, by rw [kinds_append]; exact runPh_trans ph ph'⟩
    · intro hb
      obtain ⟨f, p, hp⟩ := bad' hb
      exact ⟨f.pre fl.errs, p, by rw [kinds_append]; exact runPh_trans ph hp⟩

theorem Call.done {s : WState} (h : WInv s) {p : Phase} {Q : WState → Prop} (q : Q s) {f : Go WState Bool}
    (e : f s = .ok (true, s)) : Call f s [] p p Q := (Acts.done h q e).call

/-! ### the optional methods of the underlying writer -/

/-- only the underlying writer's call counters differ -/
structure Same (s t : WState) : Prop where
  eq : t = { s with sink := t.sink }
  out : t.sink.out = s.sink.out

theorem Same.refl (s : WState) : Same s s := ⟨rfl, rfl⟩
theorem Same.trans {s t u : WState} (h : Same s t) (k : Same t u) : Same s u :=
  ⟨by rw [k.eq, h.eq], k.out.trans h.out⟩

theorem Same.inv {s t : WState} (h : Same s t) (i : WInv s) : WInv t := by
  have e := h.eq
  exact ⟨by rw [e]; exact i.hW, by rw [e]; exact i.lt, by rw [e]; exact i.blk, by rw [e]; exact i.out⟩

theorem Same.pushed {s t : WState} (h : Same s t) : pushed t = pushed s := by
  unfold Proof.pushed; rw [h.out, h.eq]

theorem Same.view {s t : WState} (h : Same s t) : view t = view s := by
  unfold Proof.view; rw [h.pushed, h.eq]

theorem sinkFlush_call {s : WState} (hi : WInv s) (p : Phase) : Call sinkFlush s [] p p (fun t => Same s t) := by
  have hr := Flow.refl s
  unfold sinkFlush
  by_cases hf : s.sink.hasFlush = true
  · rcases hx : s.sink.ffail s.sink.nFlush with _ | e
    · refine Or.inr ⟨true, { s with sink := { s.sink with nFlush := s.sink.nFlush + 1, log := s.sink.log ++ [.flush] } }, [], [], by simp only [hf, if_true, hx],
        List.prefix_refl _, Flow.hist ?_, fun _ => ⟨rfl, ⟨rfl, rfl⟩, ⟨hi.hW, hi.lt, hi.blk, hi.out⟩, rfl, rfl, rfl⟩, by simp, fun _ => rfl⟩
      exact ⟨rfl, rfl, rfl, rfl, rfl, rfl, rfl, rfl, rfl, rfl, List.prefix_refl _, List.prefix_refl _,
        List.prefix_refl _, rfl, rfl, by simp, by simp, by simp, by simp, Nat.le_refl _, Nat.le_refl _, rfl, hr.offs, hr.feed, by simp⟩
    · refine Or.inr ⟨false, { s with sink := { s.sink with nFlush := s.sink.nFlush + 1, log := s.sink.log ++ [.flush], errs := s.sink.errs ++ [e] }, state := .error, err := some (.io e) }, [], [],
        by simp only [hf, if_true, hx], List.prefix_refl _, Flow.hist ?_, by simp, fun _ => ⟨⟨rfl, [], e, by simp, rfl⟩, p, rfl⟩, ?_⟩
      · exact ⟨rfl, rfl, rfl, rfl, rfl, rfl, rfl, rfl, rfl, rfl, List.prefix_refl _, List.prefix_append _ _,
          List.prefix_refl _, rfl, rfl, by simp, by simp, by simp, by simp, Nat.le_refl _, Nat.le_refl _, rfl, hr.offs, fun A h => ⟨h.other (by simp) (by simp) none, by simp⟩, by simp⟩
      · intro d; rw [d.2.1] at hx; cases hx
  · exact Call.done hi (Same.refl s) (by simp only [if_neg hf])

theorem sinkSync_call {s : WState} (hi : WInv s) (p : Phase) : Call sinkSync s [] p p (fun t => Same s t) := by
  have hr := Flow.refl s
  have good : Flow s { s with sink := { s.sink with nSync := s.sink.nSync + 1, log := s.sink.log ++ [.sync] } } [] :=
    ⟨rfl, rfl, rfl, rfl, rfl, rfl, rfl, rfl, rfl, rfl, List.prefix_refl _, List.prefix_refl _,
        List.prefix_refl _, rfl, rfl, by simp, by simp, by simp, by simp, Nat.le_refl _, Nat.le_refl _, rfl, hr.offs, hr.feed, by simp⟩
  unfold sinkSync
  by_cases hf : s.sink.hasSync = true
  · rcases hx : s.sink.sfail s.sink.nSync with _ | e
    · exact Or.inr ⟨true, { s with sink := { s.sink with nSync := s.sink.nSync + 1, log := s.sink.log ++ [.sync] } }, [], [], by simp only [hf, if_true, hx],
        List.prefix_refl _, good.hist, fun _ => ⟨rfl, ⟨rfl, rfl⟩, ⟨hi.hW, hi.lt, hi.blk, hi.out⟩, rfl, rfl, rfl⟩, by simp, fun _ => rfl⟩
    · by_cases hg : ignoredSyncError e = true
      · exact Or.inr ⟨true, { s with sink := { s.sink with nSync := s.sink.nSync + 1, log := s.sink.log ++ [.sync] } }, [], [], by simp only [hf, if_true, hx, hg],
          List.prefix_refl _, good.hist, fun _ => ⟨rfl, ⟨rfl, rfl⟩, ⟨hi.hW, hi.lt, hi.blk, hi.out⟩, rfl, rfl, rfl⟩, by simp, fun _ => rfl⟩
      · refine Or.inr ⟨false, { s with sink := { s.sink with nSync := s.sink.nSync + 1, log := s.sink.log ++ [.sync], errs := s.sink.errs ++ [e] }, state := .error, err := some (.io e) }, [], [],
          by simp only [hf, if_true, hx, if_neg hg], List.prefix_refl _, Flow.hist ?_, by simp, fun _ => ⟨⟨rfl, [], e, by simp, rfl⟩, p, rfl⟩, ?_⟩
        · exact ⟨rfl, rfl, rfl, rfl, rfl, rfl, rfl, rfl, rfl, rfl, List.prefix_refl _, List.prefix_append _ _,
            List.prefix_refl _, rfl, rfl, by simp, by simp, by simp, by simp, Nat.le_refl _, Nat.le_refl _, rfl, hr.offs, fun A h => ⟨h.other (by simp) (by simp) none, by simp⟩, by simp⟩
        · intro d; exact absurd (d.2.2 _ _ hx) hg
  · exact Call.done hi (Same.refl s) (by simp only [if_neg hf])

theorem sinkBoth_call {s : WState} (hi : WInv s) (p : Phase) :
    Call (Go.chk sinkFlush sinkSync) s [] p p (fun t => Same s t) :=
  (sinkFlush_call hi p).chk (n := []) fun t _ _ it h => (sinkSync_call it p).mono fun _ _ _ k => h.trans k

/-! ### accepting input -/

/-- the state after the input buffer has accepted a part of `p` -/
def accept (p : List UInt8) (s : WState) : WState := { s with lz := (s.lz.write p).2 }

/-- how many bytes of `p` are accepted -/
def accepted (p : List UInt8) (s : WState) : Nat := (s.lz.write p).1

theorem accepted_eq (p : List UInt8) (s : WState) : accepted p s = min p.length (s.lz.cap - s.lz.buf.length) := rfl
theorem accept_buf (p : List UInt8) (s : WState) : (accept p s).lz.buf = s.lz.buf ++ p.take (accepted p s) := rfl

theorem accept_hist (p : List UInt8) (s : WState) : Hist s (accept p s) (p.take (accepted p s)) [] := by
  have hr := Flow.refl s
  refine ⟨rfl, rfl, rfl, rfl, rfl, rfl, rfl, rfl, rfl, rfl, List.prefix_refl _, List.prefix_refl _,
        List.prefix_refl _, rfl, ?_, by simp [accept], by simp, by simp, by simp, by simp, Nat.le_refl _, Nat.le_refl _, rfl, hr.offs, ?_, by simp⟩
  rotate_left
  · rintro A ⟨D, h1, h2, h3⟩
    exact ⟨⟨D, by rw [accept_buf, h1, List.append_assoc], h2, h3⟩, by simp⟩
  rw [accept_buf, List.length_append, List.length_take, accepted_eq]
  show s.inTotal + _ = _
  omega

theorem accept_inv {p : List UInt8} {s : WState} (h : WInv s) : WInv (accept p s) := ⟨h.hW, h.lt, h.blk, h.out⟩

theorem accept_call {s : WState} (h : WInv s) (p : List UInt8) (ph : Phase) :
    Call (fun s => .ok (true, accept p s)) s (p.take (accepted p s)) ph ph (fun t => t = accept p s) :=
  Or.inr ⟨true, accept p s, [], p.take (accepted p s), rfl, List.prefix_refl _, accept_hist p s,
    fun _ => ⟨rfl, rfl, accept_inv h, rfl, rfl, rfl⟩, by simp, fun _ => rfl⟩

/-! ### what the operations do to an open stream -/

/-- the stream stays open and `p` has been added to its data -/
structure Keep (E : BlockRel) (s t : WState) (p : List UInt8) : Prop where
  state : t.state = .openStream
  cap : t.lz.buf.length < room t
  openAt : ∀ pre h0 d, OpenAt E s pre h0 d → OpenAt E t pre h0 (d ++ p)
  sums : ∀ d, Sums s d → Sums t (d ++ p)
  header : t.header = s.header
  num : t.numStreams = s.numStreams

theorem Keep.trans {E : BlockRel} {s t u : WState} {p q : List UInt8} (h : Keep E s t p) (k : Keep E t u q) :
    Keep E s u (p ++ q) :=
  ⟨k.state, k.cap, fun pre h0 d x => by rw [← List.append_assoc]; exact k.openAt _ _ _ (h.openAt _ _ _ x),
   fun d x => by rw [← List.append_assoc]; exact k.sums _ (h.sums _ x), k.header.trans h.header, k.num.trans h.num⟩

theorem Keep.refl {E : BlockRel} {s : WState} (h : s.state = .openStream) (hc : s.lz.buf.length < room s) :
    Keep E s s [] :=
  ⟨h, hc, fun _ _ _ x => by rw [List.append_nil]; exact x, fun _ x => by rw [List.append_nil]; exact x, rfl, rfl⟩

theorem cap_pos (z : LZ) : 0 < z.cap := Nat.pow_pos (by omega)
theorem room_pos (s : WState) : 0 < room s := by
  have := cap_pos s.lz
  unfold room storedBlockSize; split <;> omega

theorem OpenAt.accept {E : BlockRel} {s : WState} {pre h0 d : List UInt8} (h : OpenAt E s pre h0 d) (p : List UInt8) :
    OpenAt E (accept p s) pre h0 (d ++ p.take (accepted p s)) := by
  obtain ⟨bs, c, h1, h2, h3, h4⟩ := h
  exact ⟨bs, c, h1, h2, h3, by rw [h4, accept_buf, List.append_assoc]⟩

theorem Sums.accept {s : WState} {d : List UInt8} (h : Sums s d) (p : List UInt8) :
    Sums (accept p s) (d ++ p.take (accepted p s)) := by
  obtain ⟨c, h1, h2, h3, h4⟩ := h
  exact ⟨c, by rw [h1, accept_buf, List.append_assoc], h2, h3, h4⟩

theorem grow_keep {E : BlockRel} (hm : ∀ pos pos' f h b h', pos % 8 = pos' % 8 → E pos f h b h' → E pos' f h b h')
    {s t : WState} {c : List UInt8} (g : Grow E s t c) (hs : s.state = .openStream) (hc : t.lz.buf.length < room t) :
    Keep E s t [] :=
  ⟨g.state.trans hs, hc, fun _ _ _ x => by rw [List.append_nil]; exact x.grow hm g,
   fun _ x => by rw [List.append_nil]; exact x.grow g, g.header, g.num⟩

theorem Hist.conf {s t : WState} {k : List UInt8} {es : List Sent} (h : Hist s t k es) (hc : Conf s) (hh : t.header = s.header) :
    Conf t := hc.of h.o h.lzopts (by rw [hh]; exact hc.hdr)

theorem BlockOK.hist {L : HuffLib} {E : BlockRel} {pf : Prop} {s t : WState} {k : List UInt8} {es : List Sent}
    (h : BlockOK L s.o s.lz.maxDist pf E) (hh : Hist s t k es) : BlockOK L t.o t.lz.maxDist pf E := by
  rw [hh.o, maxDist_congr hh.lzopts]; exact h

theorem accepted_le (p : List UInt8) (s : WState) : accepted p s ≤ p.length := Nat.min_le_left _ _

theorem accept_cap {p : List UInt8} {s : WState} (h : s.lz.buf.length ≤ s.lz.cap) :
    (accept p s).lz.buf.length ≤ (accept p s).lz.cap := by
  rw [accept_buf, List.length_append, List.length_take, accepted_eq]
  show _ ≤ s.lz.cap
  omega

/-- the loop of `Write` as a sequence of checked steps -/
def writeLoopB (L : HuffLib) : Nat → List UInt8 → Go WState Bool
  | 0, _ => Go.panic .fuel
  | fuel + 1, p => fun s =>
    if p = [] then .ok (true, s)
    else Go.chk (fun s => .ok (true, accept p s))
      (Go.chk (compressImpl L (accepted p s == 0 || decide (accepted p s < p.length)))
        (writeLoopB L fuel (p.drop (accepted p s)))) s

theorem writeLoop_eq (L : HuffLib) : ∀ (fuel : Nat) (p : List UInt8) (s : WState),
    writeLoop L fuel p s = (match writeLoopB L fuel p s with
      | .error e => .error e
      | .ok (true, t) => .ok (none, t)
      | .ok (false, t) => .ok (some t.err, t)) := by
  intro fuel
  induction fuel with
  | zero => intro p s; rfl
  | succ fuel ih =>
    intro p s
    unfold writeLoop writeLoopB
    by_cases hp : p = []
    · rw [if_pos hp, if_pos hp]
    · rw [if_neg hp, if_neg hp]
      have e1 : Go.chk (fun s => .ok (true, accept p s))
        (Go.chk (compressImpl L (accepted p s == 0 || decide (accepted p s < p.length)))
          (writeLoopB L fuel (p.drop (accepted p s)))) s = Go.chk (compressImpl L (accepted p s == 0 || decide (accepted p s < p.length)))
          (writeLoopB L fuel (p.drop (accepted p s))) (accept p s) := rfl
      rw [e1]
      have hc' : ∀ r, compressImpl L (accepted p s == 0 || decide (accepted p s < p.length)) (accept p s) = r →
        compressImpl L ((s.lz.write p).1 == 0 || decide ((s.lz.write p).1 < p.length)) { s with lz := (s.lz.write p).2 } = r := fun _ h => h
      unfold Go.chk
      cases hc : compressImpl L (accepted p s == 0 || decide (accepted p s < p.length)) (accept p s) with
      | error e => dsimp only; rw [hc' _ hc]
      | ok r =>
        obtain ⟨b, u⟩ := r
        dsimp only
        rw [hc' _ hc]
        cases b with
        | false => rfl
        | true => exact ih _ _

theorem writeLoop_open {L : HuffLib} (hL : L.Lawful) {E : BlockRel} {pf : Prop} : ∀ (fuel : Nat) (p : List UInt8) (s : WState),
    p.length < fuel → BlockOK L s.o s.lz.maxDist pf E → WInv s → Conf s → s.lz.buf.length < room s →
    s.state = .openStream →
    Call (writeLoopB L fuel p) s p .opened .opened (fun t => Keep E s t p) := by
  intro fuel
  induction fuel with
  | zero => intro p s h; omega
  | succ fuel ih =>
    intro p s hf hE hi hc hcap hs
    by_cases hp : p = []
    · subst hp
      exact Call.done hi (Keep.refl hs hcap) (by unfold writeLoopB; rw [if_pos rfl])
    · have hpl : 0 < p.length := List.length_pos_iff.2 hp
      have hn : 0 < accepted p s := by rw [accepted_eq]; have := room_le s; omega
      have hle := accepted_le p s
      have hlen : p.take (accepted p s) ++ ([] ++ p.drop (accepted p s)) = p := by simp
      refine Call.congr (g := Go.chk (fun s => .ok (true, accept p s))
        (Go.chk (compressImpl L (accepted p s == 0 || decide (accepted p s < p.length)))
          (writeLoopB L fuel (p.drop (accepted p s))))) ?_ (by conv => lhs; unfold writeLoopB
                                                               rw [if_neg hp])
      generalize hN : accepted p s = N at *
      conv => arg 3; rw [← hlen]
      have hacc := accept_call hi p .opened
      rw [hN] at hacc
      refine hacc.chk ?_
      rintro u es hu iu rfl
      have hcu : Conf (accept p s) := hu.conf hc rfl
      have hEu := hE.hist hu
      refine ((compressImpl_open hL hEu iu hcu (accept_cap (Nat.le_trans (Nat.le_of_lt hcap) (room_le s))) hs _).call).chk ?_
      rintro t es' ht it ⟨c, g, hb⟩
      have hct : t.lz.cap = (accept p s).lz.cap := cap_congr ht.lzopts
      have htcap : t.lz.buf.length < room t := by
        rcases hb with hb | ⟨_, hb, rfl⟩
        · rw [hb]; exact room_pos _
        · exact hb
      have k1 : Keep E (accept p s) t [] := grow_keep hEu.mod g hs htcap
      have k2 : Keep E s t (p.take N) := by
        refine ⟨k1.state, htcap, ?_, ?_, k1.header, k1.num⟩
        · intro pre h0 d x
          have := k1.openAt _ _ _ (x.accept p)
          rw [List.append_nil, hN] at this
          exact this
        · intro d x
          have := k1.sums _ (x.accept p)
          rw [List.append_nil, hN] at this
          exact this
      refine (ih (p.drop N) t (by rw [List.length_drop]; omega) (hEu.hist ht) it (ht.conf hcu g.header)
        htcap k1.state).mono ?_
      intro v es'' _ kv
      have := k2.trans kv
      rw [List.take_append_drop] at this
      exact this

/-- a `Write` which opens a stream -/
theorem writeLoop_idle {L : HuffLib} (hL : L.Lawful) {E : BlockRel} {pf : Prop} (fuel : Nat) {p : List UInt8} {s : WState}
    (hf : p.length < fuel) (hE : BlockOK L s.o s.lz.maxDist pf E) (hi : WInv s) (hc : Conf s) (hb : s.lz.buf = [])
    (hs : s.state = .noStream ∨ s.state = .closedStream) (h0 : s.obLen = 0) (hp : p ≠ []) :
    Call (writeLoopB L fuel p) s p .idle .opened (fun t => ∃ u, Opened (accept p s) u ∧
      Keep E u t (p.drop (accepted p s))) := by
  cases fuel with
  | zero => omega
  | succ fuel =>
    have hcap : s.lz.buf.length ≤ s.lz.cap := by rw [hb]; simp
    have hpl : 0 < p.length := List.length_pos_iff.2 hp
    have hcp := cap_pos s.lz
    have hn : 0 < accepted p s := by rw [accepted_eq, hb]; simp; omega
    have hle := accepted_le p s
    have hlen : p.take (accepted p s) ++ ([] ++ p.drop (accepted p s)) = p := by simp
    refine Call.congr (g := Go.chk (fun s => .ok (true, accept p s))
      (Go.chk (compressImpl L (accepted p s == 0 || decide (accepted p s < p.length)))
        (writeLoopB L fuel (p.drop (accepted p s))))) ?_ (by conv => lhs; unfold writeLoopB
                                                             rw [if_neg hp])
    have hbuf := accept_buf p s
    generalize hN : accepted p s = N at *
    conv => arg 3; rw [← hlen]
    have hacc := accept_call hi p .idle
    rw [hN] at hacc
    refine hacc.chk ?_
    rintro u es hu iu rfl
    have hcu : Conf (accept p s) := hu.conf hc rfl
    have hEu := hE.hist hu
    have hne : (accept p s).lz.buf ≠ [] := by
      rw [hbuf, hb, List.nil_append]
      intro h
      have := congrArg List.length h
      rw [List.length_take, List.length_nil] at this
      omega
    refine ((compressImpl_idle hL hEu iu hcu (accept_cap hcap) hs h0 hne _).call).chk ?_
    rintro t es' ht it ⟨u, c, ho, g, hb'⟩
    have hct : t.lz.cap = (accept p s).lz.cap := cap_congr ht.lzopts
    have htcap : t.lz.buf.length < room t := by
      rcases hb' with hb' | ⟨_, hb', rfl⟩
      · rw [hb']; exact room_pos _
      · have : t.lz.buf = (accept p s).lz.buf := by rw [ho.lz]
        rw [this, room_hist ht]; exact hb'
    have k1 : Keep E u t [] := grow_keep hEu.mod g ho.state htcap
    have hct' : Conf t := hcu.of ht.o ht.lzopts (by rw [k1.header, ho.header]; exact fillHeader_ok hcu.hdr)
    refine (writeLoop_open hL fuel (p.drop N) t (by rw [List.length_drop]; omega) (hEu.hist ht) it hct'
      htcap k1.state).mono ?_
    intro v es'' _ kv
    exact ⟨u, ho, k1.trans kv⟩

/-! ### Flush -/

theorem Same.hist_keep {E : BlockRel} {s t u : WState} {p : List UInt8} (h : Keep E s t p) (k : Same t u) :
    Keep E s u p := by
  have e := k.eq
  have hv := k.view
  have hlz : u.lz = t.lz := by rw [e]
  refine ⟨by rw [e]; exact h.state, by rw [show room u = room t by unfold room; rw [e], hlz]; exact h.cap, ?_, ?_, by rw [e]; exact h.header, by rw [e]; exact h.num⟩
  · intro pre h0 d x
    obtain ⟨bs, c, h1, h2, h3, h4⟩ := h.openAt _ _ _ x
    exact ⟨bs, c, by rw [hv]; exact h1, h2, by rw [hlz]; exact h3, by rw [hlz]; exact h4⟩
  · intro d x
    obtain ⟨c, h1, h2, h3, h4⟩ := h.sums _ x
    exact ⟨c, by rw [hlz]; exact h1, by rw [e]; exact h2, by rw [e]; exact h3, by rw [e]; exact h4⟩

/-- the stream, whose data is `d`, has ended -/
structure Ended (E : BlockRel) (s t : WState) (d : List UInt8) : Prop where
  state : t.state = .closedStream
  ob : t.obLen = 0
  buf : t.lz.buf = []
  header : t.header = s.header
  num : t.numStreams = s.numStreams
  openAt : ∀ pre h0 d', OpenAt E s pre h0 d' →
    ∃ body, pushed t = pre ++ body ++ footerBytes s.o d ∧ DeflateOf E h0 body d'

theorem Ended.keep {E : BlockRel} {s t u : WState} {d : List UInt8} (k : Keep E s t []) (h : Ended E t u d)
    (ho : t.o = s.o) : Ended E s u d := by
  refine ⟨h.state, h.ob, h.buf, h.header.trans k.header, h.num.trans k.num, ?_⟩
  intro pre h0 d' x
  have := h.openAt pre h0 d' (by simpa using k.openAt _ _ _ x)
  rw [ho] at this
  exact this

theorem Ended.same {E : BlockRel} {s t u : WState} {d : List UInt8} (h : Ended E s t d) (k : Same t u) : Ended E s u d := by
  have e := k.eq
  refine ⟨by rw [e]; exact h.state, by rw [e]; exact h.ob, by rw [e]; exact h.buf, by rw [e]; exact h.header,
    by rw [e]; exact h.num, ?_⟩
  rw [k.pushed]; exact h.openAt

/-- the condition-guarded steps of `flushImpl` -/
def openIf (t : FlushType) : Go WState Bool := fun s => if t = .finishFlush ∧ s.state = .noStream then
    Go.chk writeHeader (setState .openStream) s else .ok (true, s)
def gutsIf (t : FlushType) : Go WState Bool := fun s => if s.state = .openStream then flushGuts t s else .ok (true, s)

theorem flushImpl_eq (L : HuffLib) (t : FlushType) : flushImpl L t =
    Go.chk (compressImpl L true) (Go.chk (openIf t) (Go.chk (gutsIf t) (Go.chk finishClosing (Go.chk sinkFlush sinkSync)))) := rfl

theorem compressAll_open {L : HuffLib} (hL : L.Lawful) {E : BlockRel} {pf : Prop} {s : WState}
    (hE : BlockOK L s.o s.lz.maxDist pf E) (hi : WInv s) (hc : Conf s) (hcap : s.lz.buf.length < room s)
    (hs : s.state = .openStream) :
    Call (compressImpl L true) s [] .opened .opened (fun t => Keep E s t [] ∧ t.lz.buf = []) := by
  refine ((compressImpl_open hL hE hi hc (Nat.le_trans (Nat.le_of_lt hcap) (room_le s)) hs true).call).mono ?_
  rintro t es ht ⟨c, g, hb⟩
  have hb : t.lz.buf = [] := by
    rcases hb with hb | ⟨h, _⟩
    · exact hb
    · cases h
  exact ⟨grow_keep hE.mod g hs (by rw [hb]; exact room_pos _), hb⟩

theorem openIf_open {s : WState} (ft : FlushType) (hs : s.state = .openStream) : openIf ft s = .ok (true, s) := by
  unfold openIf; rw [if_neg]; rw [hs]; simp

theorem finishClosing_other {s : WState} (hs : s.state ≠ .closingStream) : finishClosing s = .ok (true, s) := by
  unfold finishClosing; rw [if_neg hs]

theorem flush_open {L : HuffLib} (hL : L.Lawful) {E : BlockRel} {pf : Prop} {s : WState}
    (hE : BlockOK L s.o s.lz.maxDist pf E) (hi : WInv s) (hc : Conf s) (hcap : s.lz.buf.length < room s)
    (hs : s.state = .openStream) (ft : FlushType) (hf : ft ≠ .finishFlush) (hp : ft = .partialFlush → pf) :
    Call (flushImpl L ft) s [] .opened .opened (fun t => Keep E s t [] ∧ t.lz.buf = [] ∧
      (ft = .fullFlush → t.lz.hist = []) ∧ (ft = .syncFlush ∨ ft = .fullFlush → t.obLen = 0)) := by
  rw [flushImpl_eq]
  refine (compressAll_open hL hE hi hc hcap hs).chk (n := []) ?_
  rintro t es ht it ⟨k, hb⟩
  refine Call.congr ?_ (chk_ok (openIf_open ft k.state))
  have hEt := hE.hist ht
  have hg := (flushGuts_acts hEt it ft hf hp).call
  have hg' : Call (gutsIf ft) t [] .opened .opened _ := hg.congr (by unfold gutsIf; rw [if_pos k.state])
  refine hg'.chk (n := []) ?_
  rintro v es' hv iv ⟨u, g, e, hh, h1, h2⟩
  have hub : u.lz.buf = [] := by
    have := g.buf
    rw [hb] at this
    exact (List.nil_eq_append_iff.1 this).2
  have hvb : v.lz.buf = [] := by rw [e]; exact hub
  have ku : Keep E t v [] := by
    have h := grow_keep hEt.mod g k.state (by rw [hub]; exact room_pos _)
    refine ⟨by rw [e]; exact h.state, by rw [hvb]; exact room_pos _, fun _ _ _ x => (h.openAt _ _ _ x).forget e hh,
      fun _ x => (h.sums _ x).forget e, by rw [e]; exact h.header, by rw [e]; exact h.num⟩
  refine Call.congr ?_ (chk_ok (finishClosing_other (by rw [ku.state]; simp)))
  refine (sinkBoth_call iv .opened).mono ?_
  intro w es'' _ hw
  refine ⟨Same.hist_keep (k.trans ku) hw, by rw [hw.eq]; exact hvb, fun h => by rw [hw.eq]; exact h1 h,
    fun h => by rw [hw.eq]; exact h2 h⟩

/-- ending an open stream -/
theorem finish_open {L : HuffLib} (hL : L.Lawful) {E : BlockRel} {pf : Prop} {s : WState}
    (hE : BlockOK L s.o s.lz.maxDist pf E) (hi : WInv s) (hc : Conf s) (hcap : s.lz.buf.length < room s)
    (hs : s.state = .openStream) {d0 : List UInt8} (hsum : Sums s d0) :
    Call (flushImpl L .finishFlush) s [] .opened .idle (fun t => Ended E s t d0) := by
  rw [flushImpl_eq]
  refine (compressAll_open hL hE hi hc hcap hs).chk (n := []) ?_
  rintro t es ht it ⟨k, hb⟩
  refine Call.congr ?_ (chk_ok (openIf_open _ k.state))
  have hEt := hE.hist ht
  have hsum' : Sums t d0 := by simpa using k.sums _ hsum
  have hfin := (finish_acts hEt it (ht.conf hc k.header) k.state hb hsum').call
  have hfin' : Call (Go.chk (gutsIf .finishFlush) finishClosing) t [] .opened .idle _ := hfin.congr (by
    unfold Go.chk gutsIf; rw [if_pos k.state])
  have := hfin'.chk (n := []) (y := Go.chk sinkFlush sinkSync) (p2 := .idle) (R := fun v => Ended E s v d0) ?_
  · exact this.congr (congrFun (chk_assoc _ _ _) t).symm
  · rintro v es' hv iv ⟨a1, a2, a3, a4, a5, a6⟩
    refine (sinkBoth_call iv .idle).mono ?_
    intro w es'' _ hw
    have en : Ended E t v d0 := ⟨a1, a2, by rw [a3]; exact hb, a4, a5, a6⟩
    exact (Ended.keep k en ht.o).same hw

theorem compress_empty {L : HuffLib} {s : WState} (hb : s.lz.buf = []) (all : Bool) : compressImpl L all s = .ok (true, s) := by
  unfold compressImpl; rw [if_pos hb]

/-- Flush between streams, where nothing has to be done -/
theorem flush_idle {L : HuffLib} {s : WState} (hi : WInv s) (hb : s.lz.buf = [])
    (hs : s.state = .noStream ∨ s.state = .closedStream) (ft : FlushType) (hf : ft = .finishFlush → s.state = .closedStream) :
    Call (flushImpl L ft) s [] .idle .idle (fun t => Same s t) := by
  rw [flushImpl_eq]
  have e2 : openIf ft s = .ok (true, s) := by
    unfold openIf; rw [if_neg]; rintro ⟨h1, h2⟩; rw [hf h1] at h2; cases h2
  have e3 : gutsIf ft s = .ok (true, s) := by
    unfold gutsIf; rw [if_neg (by rcases hs with h | h <;> rw [h] <;> simp)]
  have e4 : finishClosing s = .ok (true, s) := finishClosing_other (by rcases hs with h | h <;> rw [h] <;> simp)
  refine Call.congr (sinkBoth_call hi .idle) ?_
  rw [chk_ok (compress_empty hb true), chk_ok e2, chk_ok e3, chk_ok e4]

/-- Finishing a Writer which has never been written to: an empty stream -/
theorem finish_idle {L : HuffLib} {E : BlockRel} {pf : Prop} {s : WState}
    (hE : BlockOK L s.o s.lz.maxDist pf E) (hi : WInv s) (hc : Conf s) (hb : s.lz.buf = [])
    (hs : s.state = .noStream) (h0 : s.obLen = 0) :
    Call (flushImpl L .finishFlush) s [] .idle .idle (fun t => ∃ u, Opened s u ∧ Ended E u t []) := by
  rw [flushImpl_eq]
  refine Call.congr ?_ (chk_ok (compress_empty hb true))
  have e2 : openIf .finishFlush s = Go.chk writeHeader (setState .openStream) s := by
    unfold openIf; rw [if_pos ⟨rfl, hs⟩]
  have h1 : Call (openIf .finishFlush) s [] .idle .opened (fun t => Opened s t) := ((open_acts hi h0 hc (Or.inl hs)).call).congr e2
  refine h1.chk (n := []) ?_
  intro t es ht it ho
  have hEt := hE.hist ht
  have hbt : t.lz.buf = [] := by rw [ho.lz]; exact hb
  have hsum' : Sums t [] := by have := ho.sums; rw [hb] at this; exact this
  have hfin := (finish_acts hEt it (ho.conf hc) ho.state hbt hsum').call
  have hfin' : Call (Go.chk (gutsIf .finishFlush) finishClosing) t [] .opened .idle _ := hfin.congr (by
    unfold Go.chk gutsIf; rw [if_pos ho.state])
  have := hfin'.chk (n := []) (y := Go.chk sinkFlush sinkSync) (p2 := .idle) (R := fun v => ∃ u, Opened s u ∧ Ended E u v []) ?_
  · exact this.congr (congrFun (chk_assoc _ _ _) t).symm
  · rintro v es' hv iv ⟨a1, a2, a3, a4, a5, a6⟩
    refine (sinkBoth_call iv .idle).mono ?_
    intro w es'' _ hw
    have en : Ended E t v [] := ⟨a1, a2, by rw [a3]; exact hbt, a4, a5, a6⟩
    exact ⟨t, ho, en.same hw⟩

end Flate.Proof
