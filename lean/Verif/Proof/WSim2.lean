/-
Two runs of the Writer side by side (continued): footers, flushing and the methods.
-/
import Verif.Proof.WSim

namespace Flate.Proof.Sim
open Flate.Spec Flate.Model

variable {M : Bool}

/-- what is written once fits -/
theorem write_once {p : List UInt8} {s : WState} (hp : p ≠ []) (hl : p.length ≤ 2 ^ s.outBits) (ho : s.output = []) :
    outWrite p s = outputBufferFlush { s with output := p, crcOut := Crc.genericUpdate s.crcOut p, outTotal := s.outTotal + p.length, outStream := s.outStream + p.length } := by
  have hm : min p.length (2 ^ s.outBits - s.output.length) = p.length := by rw [ho]; simp only [List.length_nil, Nat.sub_zero]; exact Nat.min_eq_left hl
  unfold outWrite
  rw [show 2 * p.length + 2 = (2 * p.length + 1) + 1 from rfl]
  simp only [outLoop, hp, if_false, hm, List.take_length, List.drop_length]
  rw [ho]
  simp only [List.nil_append]
  unfold Go.chk
  cases outputBufferFlush _ with
  | error e => rfl
  | ok r => obtain ⟨_ | _, t⟩ := r <;> rfl

/-- no more is added than what is written -/
theorem outLoop_upto : ∀ (fuel : Nat) (p : List UInt8) (s t : WState) (b : Bool), outLoop fuel p s = .ok (b, t) → pushed t <+: pushed s ++ p
  | 0, _, _, _, _, h => nomatch h
  | fuel + 1, p, s, t, b, h => by
    by_cases hp : p = []
    · subst hp
      simp only [outLoop, if_true] at h
      cases h
      simp
    · simp only [outLoop, hp, if_false] at h
      generalize min p.length (2 ^ s.outBits - s.output.length) = nn at h
      generalize hs1 : ({ s with output := s.output ++ p.take nn, crcOut := Crc.genericUpdate s.crcOut (p.take nn), outTotal := s.outTotal + nn, outStream := s.outStream + nn } : WState) = s1 at h
      have e1 : pushed s1 = pushed s ++ p.take nn := by rw [← hs1]; simp [pushed]
      have hw := pushed_sinkWrite s1
      unfold Go.chk outputBufferFlush at h
      rcases e : sinkWrite s1 with ⟨_ | x, u⟩
      · rw [e] at h hw
        have := outLoop_upto fuel _ _ _ _ h
        rw [hw, e1, List.append_assoc, List.take_append_drop] at this
        exact this
      · rw [e] at h hw
        cases h
        rw [show pushed ({ u with state := .error, err := some x } : WState) = pushed u from rfl, hw, e1]
        exact List.prefix_append_right_inj _ |>.2 (List.take_prefix _ _)

theorem bufWrite_zero {p : List UInt8} {s : WState} (h : s.obLen = 0) : wBufWrite p s = outWrite p s := by
  unfold wBufWrite Go.chk wBitsFlush
  rw [if_pos h]

theorem leBytes_ne (v : Nat) : leBytes 4 v ≠ [] := by intro h; have := congrArg List.length h; simp at this

theorem good_footerGZIP {c m : Bool} (c32 : BitVec 32) : Good M isFalse ⟨true, c, m, true, true⟩ (std true c m) (writeFooterGZIP c32) := by
  have e0 : ∀ s, writeFooterGZIP c32 s = (match wBufWrite (leBytes 4 c32.toNat) s with
      | .error e => .error e
      | .ok (b, t) => match wBufWrite (leBytes 4 (t.inStream % 2 ^ 32)) t with
        | .error e => .error e
        | .ok (b', u) => .ok (b && b', u)) := by
    intro s
    unfold writeFooterGZIP wBufWriteU32
    rw [Go.bind_apply]
    cases wBufWrite (leBytes 4 c32.toNat) s with
    | error e => rfl
    | ok r =>
      obtain ⟨b, t⟩ := r
      simp only [Go.bind_apply, Go.get]
      cases wBufWrite (leBytes 4 (t.inStream % 2 ^ 32)) t with
      | error e => rfl
      | ok r => obtain ⟨b', u⟩ := r; rfl
  have mw : ∀ p, Mono (wBufWrite p) := fun p => (good_bufWrite (M := M) (l := true) (c := c) (m := m) p).mono
  refine ⟨fun s a t h => ?_, fun s s' h => ?_⟩
  · rw [e0] at h
    cases e1 : wBufWrite (leBytes 4 c32.toNat) s with
    | error e => rw [e1] at h; cases h
    | ok r =>
      obtain ⟨b, t1⟩ := r
      rw [e1] at h
      simp only at h
      cases e2 : wBufWrite (leBytes 4 (t1.inStream % 2 ^ 32)) t1 with
      | error e => rw [e2] at h; cases h
      | ok r =>
        obtain ⟨b', u⟩ := r
        rw [e2] at h
        cases h
        exact (mw _ _ _ _ e1).trans (mw _ _ _ _ e2)
  · rw [e0, e0]
    have hcap : 4 ≤ 2 ^ s.outBits := by
      have := Nat.pow_le_pow_right (show 0 < 2 by omega) h.cap
      simpa using this
    have ob := h.ob rfl
    have ob' : s'.obLen = 0 := by rw [h.obLen, ob]
    have em := h.emp rfl
    have em' : s'.output = [] := by rw [h.output, em]
    rw [bufWrite_zero ob, bufWrite_zero ob', write_once (leBytes_ne _) (by simpa using hcap) em,
      write_once (leBytes_ne _) (by rw [h.outBits]; simpa using hcap) em']
    generalize leBytes 4 c32.toNat = p
    have h1 : R M ⟨true, c, m, false, true⟩ ({ s with output := p, crcOut := Crc.genericUpdate s.crcOut p, outTotal := s.outTotal + p.length, outStream := s.outStream + p.length } : WState)
        ({ s' with output := p, crcOut := Crc.genericUpdate s'.crcOut p, outTotal := s'.outTotal + p.length, outStream := s'.outStream + p.length } : WState) :=
      { h with output := rfl, emp := fun e => (by cases e), crc := fun e => by simp only [h.crc e] }
    revert h1
    generalize ({ s with output := p, crcOut := Crc.genericUpdate s.crcOut p, outTotal := s.outTotal + p.length, outStream := s.outStream + p.length } : WState) = s1
    generalize ({ s' with output := p, crcOut := Crc.genericUpdate s'.crcOut p, outTotal := s'.outTotal + p.length, outStream := s'.outStream + p.length } : WState) = s1'
    intro h1
    rcases flush_two h1 with ⟨b, t, t', e, e', hr, hd⟩ | ⟨hM, t, t', e, e', g1, ⟨er, g2⟩, g3, g4, g5, g6, g7, g8, g9, g10⟩
    · rw [e, e']
      simp only
      have obt := hr.ob rfl
      have obt' : t'.obLen = 0 := by rw [hr.obLen, obt]
      rw [bufWrite_zero obt, bufWrite_zero obt', hr.len rfl]
      have := (good_outWrite (leBytes 4 (t.inStream % 2 ^ 32))).sim t t' hr
      cases e2 : outWrite (leBytes 4 (t.inStream % 2 ^ 32)) t with
      | error x => rw [e2] at this; rw [show _ = _ from this]; rfl
      | ok r =>
        obtain ⟨b2, u⟩ := r
        rw [e2] at this
        rcases this with ⟨u', e2', hu, hu', hdu⟩ | ⟨hM, hb, hdu, hF⟩
        · rw [e2']
          refine Or.inl ⟨u', rfl, hu, fun hn => ?_, fun hb => ?_⟩
          · cases b with
            | false => exact (hn rfl).elim
            | true =>
              cases b2 with
              | false => exact (hn rfl).elim
              | true => exact (hu' (by simp)).weaken {}
          · cases b2 with
            | false => exact hdu rfl
            | true =>
              cases b with
              | true => cases hb
              | false =>
                obtain ⟨b3, v, e3, _, _, _, ok, _, _⟩ := outWrite_any (leBytes 4 (t.inStream % 2 ^ 32)) t
                rw [e2] at e3
                cases e3
                have := hd rfl
                unfold Broken at this ⊢
                rw [(ok rfl).1, (ok rfl).2.1]
                exact this
        · refine Or.inr ⟨hM, by rw [hb]; simp, hdu, fun a' u' hx => ?_⟩
          cases e2' : outWrite (leBytes 4 (t.inStream % 2 ^ 32)) t' with
          | error x => rw [e2'] at hx; cases hx
          | ok r =>
            obtain ⟨b3, v⟩ := r
            rw [e2'] at hx
            cases hx
            exact hF _ _ e2'
    · rw [e, e']
      simp only
      have obt : t.obLen = 0 := by rw [g7, h1.ob rfl]
      have obt' : t'.obLen = 0 := by rw [g8, h1.obLen, h1.ob rfl]
      rw [bufWrite_zero obt, bufWrite_zero obt', g5, g6, h1.len rfl]
      obtain ⟨b2, u, e2, st, _, _, ok, bad, _⟩ := outWrite_any (leBytes 4 (s1.inStream % 2 ^ 32)) t
      obtain ⟨b3, u', e3, st', _, _, ok', _, rel⟩ := outWrite_any (leBytes 4 (s1.inStream % 2 ^ 32)) t'
      have hb3 := rel g10
      subst hb3
      rw [e2, e3]
      have hbr : Broken u := by
        constructor
        · cases b2 with
          | false => exact (bad rfl).1
          | true => rw [(ok rfl).1, g1]
        · cases b2 with
          | false => obtain ⟨_, _, x, _, hx⟩ := bad rfl; exact ⟨_, hx⟩
          | true => exact ⟨er, by rw [(ok rfl).2.1, g2]⟩
      refine Or.inr ⟨hM, by simp, hbr, fun a' v hv => ?_⟩
      cases hv
      refine ⟨hbr.1, hbr.2, ?_⟩
      · have hu := outLoop_upto _ _ _ _ _ e2
        rw [(ok' rfl).2.2.2.1, g4, h1.pushed, ← g3]
        exact hu

/-! ### ends of streams -/

/-- as `Good.ite`, with more known in the first case -/
theorem Good.iteP {α : Type} {bad : α → Prop} {φ φ1 φ' : Fl} (p : WState → Prop) [DecidablePred p] (hp : ∀ s s', R M φ s s' → (p s' ↔ p s))
    (h1 : ∀ s s', R M φ s s' → p s → R M φ1 s s') {f g : Go WState α}
    (hf : Good M bad φ1 φ' f) (hg : Good M bad φ φ' g) : Good M bad φ φ' (fun s => if p s then f s else g s) := by
  refine ⟨fun s a t h => ?_, fun s s' h => ?_⟩
  · by_cases hs : p s
    · rw [if_pos hs] at h; exact hf.mono s a t h
    · rw [if_neg hs] at h; exact hg.mono s a t h
  · by_cases hs : p s
    · rw [if_pos hs, if_pos ((hp s s' h).2 hs)]; exact hf.sim s s' (h1 s s' h hs)
    · rw [if_neg hs, if_neg (fun x => hs ((hp s s' h).1 x))]; exact hg.sim s s' h

theorem R.inStream {s s' : WState} (h : R M (std false false false) s s') (hs : InStream s) : R M (std true false true) s s' :=
  { h with len := fun _ => (h.sums hs).2.2, sum := fun _ => ⟨(h.sums hs).1, (h.sums hs).2.1⟩, crc := fun e => (by cases e) }

/-- what follows in `writeFooter` -/
def footRest (x : BitVec 32 × BitVec 32 × Format) : Go WState Bool := do
  wSendEvent (.streamEnd x.1 x.2.1)
  Go.chk (match x.2.2 with
    | .raw => pure true
    | .zlib => writeFooterZlib x.1
    | .gzip => writeFooterGZIP x.2.1
    | .default => Go.panic (.assert "Format not implemented")) <| do
  wSendEvent .streamClose
  pure true

theorem good_footer : Good M isFalse (std true false true) (std true false true) writeFooter := by
  have key : ∀ x, Good M isFalse ⟨true, false, true, true, true⟩ (std true false true) (footRest x) := by
    intro x
    obtain ⟨a, c, f⟩ := x
    refine Good.bind (good_sendEvent _) (fun _ => ?_)
    refine Good.chk (φ1 := std true false true) ?_ (Good.bind (good_sendEvent _) (fun _ => Good.pure true))
    cases f
    · exact Good.panic _
    · exact (Good.pure (φ := std true false true) true).weaken {} {}
    · exact (good_footerZlib a).weaken (φ1 := std true false true) (φ2 := std true false true) {} {}
    · exact good_footerGZIP c
  have e : writeFooter = Go.chk wBitsFlush (fun s => footRest (s.adler, s.crcIn, s.o.format) s) := rfl
  rw [e]
  exact Good.chk good_bitsFlush' (Good.dep (fun s => (s.adler, s.crcIn, s.o.format)) (fun s s' h => by rw [(h.sum rfl).1, (h.sum rfl).2, h.o.format]) key)

/-- nothing more is required between calls -/
abbrev nil3 : Fl := std false false false

theorem good_setState {φ : Fl} (x : WS) (hx : x ≠ .openStream ∧ x ≠ .closingStream) : Good M isFalse φ φ (setState x) :=
  Good.modifyB _ (fun _ => List.prefix_refl _) (fun s s' h => { h with
    state := rfl, sums := fun e => (by rcases e with e | e <;> [exact (hx.1 e).elim; exact (hx.2 e).elim]) })

theorem good_finishClosing : Good M isFalse nil3 nil3 finishClosing :=
  Good.iteP (φ1 := std true false true) (fun s => s.state = .closingStream) (fun s s' h => by rw [h.state]) (fun s s' h hs => h.inStream (Or.inr hs))
    (Good.chk good_footer ((good_setState _ (by decide)).weaken (φ1 := nil3) (φ2 := nil3) {} {})) (Good.pure true)

theorem good_compressImpl (L : HuffLib) (all : Bool) : Good M isFalse nil3 nil3 (compressImpl L all) := by
  refine Good.ite (fun s => s.lz.buf = []) (fun s s' h => by rw [h.buf]) (Good.pure true) ?_
  refine Good.chk good_finishClosing (Good.chk (φ1 := nil3) ?_ ?_)
  · exact Good.ite (fun s => s.state = .noStream ∨ s.state = .closedStream) (fun s s' h => by rw [h.state]) good_openStream (Good.pure true)
  · exact Good.ite (fun s => usesStore s.o = true) (fun s s' h => by rw [h.o.store]) (good_compressStore all) (good_compressSlow L all)

theorem good_flushGuts (t : FlushType) : Good M isFalse (std true false true) nil3 (flushGuts t) := by
  cases t
  · exact (Good.pure (φ := nil3) true).weaken {} {}
  · exact (good_static _ _).weaken (φ1 := nil3) (φ2 := nil3) {} {}
  · exact (good_stored _ _).weaken (φ1 := nil3) (φ2 := nil3) {} {}
  · exact Good.chk (φ1 := nil3) ((good_stored _ _).weaken (φ1 := nil3) (φ2 := nil3) {} {}) (Good.modifyB _ (fun _ => List.prefix_refl _) (fun s s' h => { h with hist := rfl }))
  · refine Good.chk (φ1 := std true false true) (good_stored _ _) (Good.modifyB _ (fun _ => List.prefix_refl _) (fun s s' h => { h with
      hist := rfl, state := rfl, sums := fun _ => ⟨(h.sum rfl).1, (h.sum rfl).2, h.len rfl⟩, len := fun e => (by cases e), sum := fun e => (by cases e) }))

theorem good_sinkFlush : Good M isFalse nil3 nil3 sinkFlush := by
  refine ⟨fun s a t h => ?_, fun s s' h => ?_⟩
  · unfold sinkFlush at h
    split at h
    · cases hf : s.sink.ffail s.sink.nFlush with
      | none => rw [hf] at h; cases h; exact List.prefix_refl _
      | some e => rw [hf] at h; cases h; exact List.prefix_refl _
    · cases h; exact List.prefix_refl _
  · unfold sinkFlush
    rw [h.hasF]
    cases hh : s.sink.hasFlush with
    | false => exact out_ok h
    | true =>
      simp only [if_true]
      cases M with
      | true =>
        have hf : s'.sink.wfail = s.sink.wfail ∧ s'.sink.ffail = s.sink.ffail ∧ s'.sink.sfail = s.sink.sfail := h.fails
        rw [hf.2.1, h.nF]
        cases s.sink.ffail s.sink.nFlush with
        | none => exact out_ok { h with nF := rfl, fails := ⟨hf.1, rfl, hf.2.2⟩ }
        | some e => exact out_bad (bad := isFalse) { h.none with nF := rfl, fails := ⟨hf.1, rfl, hf.2.2⟩, state := rfl, err := rfl, sums := fun e => (by rcases e with e | e <;> cases e) } rfl ⟨rfl, _, rfl⟩
      | false =>
        have hf : Dep s'.sink := h.fails
        rw [hf.2.1]
        cases s.sink.ffail s.sink.nFlush with
        | none => exact out_ok { h with nF := by simp only [h.nF], fails := hf }
        | some e =>
          refine Or.inr ⟨rfl, rfl, ⟨rfl, _, rfl⟩, fun a' t' ht => ?_⟩
          cases ht
          exact ⟨rfl, ⟨_, rfl⟩, by show _ <+: pushed s'; rw [h.pushed]; exact List.prefix_refl _⟩

theorem good_sinkSync : Good M isFalse nil3 nil3 sinkSync := by
  refine ⟨fun s a t h => ?_, fun s s' h => ?_⟩
  · unfold sinkSync at h
    split at h
    · cases hf : s.sink.sfail s.sink.nSync with
      | none => rw [hf] at h; cases h; exact List.prefix_refl _
      | some e =>
        rw [hf] at h
        simp only at h
        split at h
        · cases h; exact List.prefix_refl _
        · cases h; exact List.prefix_refl _
    · cases h; exact List.prefix_refl _
  · unfold sinkSync
    rw [h.hasS]
    cases hh : s.sink.hasSync with
    | false => exact out_ok h
    | true =>
      simp only [if_true]
      cases M with
      | true =>
        have hf : s'.sink.wfail = s.sink.wfail ∧ s'.sink.ffail = s.sink.ffail ∧ s'.sink.sfail = s.sink.sfail := h.fails
        rw [hf.2.2, h.nS]
        cases s.sink.sfail s.sink.nSync with
        | none => exact out_ok { h with nS := rfl, fails := ⟨hf.1, hf.2.1, rfl⟩ }
        | some e =>
          simp only
          by_cases hi : ignoredSyncError e = true
          · rw [if_pos hi, if_pos hi]; exact out_ok { h with nS := rfl, fails := ⟨hf.1, hf.2.1, rfl⟩ }
          · rw [if_neg hi, if_neg hi]
            exact out_bad (bad := isFalse) { h.none with nS := rfl, fails := ⟨hf.1, hf.2.1, rfl⟩, state := rfl, err := rfl, sums := fun e => (by rcases e with e | e <;> cases e) } rfl ⟨rfl, _, rfl⟩
      | false =>
        have hf : Dep s'.sink := h.fails
        have ok : R false nil3 ({ s with sink := { s.sink with nSync := s.sink.nSync + 1, log := s.sink.log ++ [.sync] } } : WState) ({ s' with sink := { s'.sink with nSync := s'.sink.nSync + 1, log := s'.sink.log ++ [.sync] } } : WState) :=
          { h with nS := by simp only [h.nS], fails := hf }
        have fin : ∀ y : Except Panic (Bool × WState), y = .ok (true, ({ s' with sink := { s'.sink with nSync := s'.sink.nSync + 1, log := s'.sink.log ++ [.sync] } } : WState)) →
            Out false isFalse nil3 (match s.sink.sfail s.sink.nSync with
              | some e => if ignoredSyncError e = true then .ok (true, ({ s with sink := { s.sink with nSync := s.sink.nSync + 1, log := s.sink.log ++ [.sync] } } : WState))
                else .ok (false, ({ s with sink := { s.sink with nSync := s.sink.nSync + 1, log := s.sink.log ++ [.sync], errs := s.sink.errs ++ [e] }, state := .error, err := some (.io e) } : WState))
              | none => .ok (true, ({ s with sink := { s.sink with nSync := s.sink.nSync + 1, log := s.sink.log ++ [.sync] } } : WState))) y := by
          intro y hy
          rw [hy]
          cases s.sink.sfail s.sink.nSync with
          | none => exact out_ok ok
          | some e =>
            simp only
            by_cases hi : ignoredSyncError e = true
            · rw [if_pos hi]; exact out_ok ok
            · rw [if_neg hi]
              refine Or.inr ⟨rfl, rfl, ⟨rfl, _, rfl⟩, fun a' t' ht => ?_⟩
              cases ht
              exact ⟨rfl, ⟨_, rfl⟩, by show _ <+: pushed s'; rw [h.pushed]; exact List.prefix_refl _⟩
        cases hx : s'.sink.sfail s'.sink.nSync with
        | none => exact fin _ rfl
        | some e => simp only; rw [if_pos (hf.2.2 _ _ hx)]; exact fin _ rfl

theorem good_flushImpl (L : HuffLib) (t : FlushType) : Good M isFalse nil3 nil3 (flushImpl L t) := by
  refine Good.chk (good_compressImpl L true) (Good.chk (φ1 := nil3) ?_ (Good.chk (φ1 := nil3) ?_ (Good.chk good_finishClosing (Good.chk good_sinkFlush good_sinkSync))))
  · exact Good.ite (fun s => t = .finishFlush ∧ s.state = .noStream) (fun s s' h => by rw [h.state]) good_openStream (Good.pure true)
  · exact Good.iteP (φ1 := std true false true) (fun s => s.state = .openStream) (fun s s' h => by rw [h.state]) (fun s s' h hs => h.inStream (Or.inl hs)) (good_flushGuts t) (Good.pure true)

/-! ### calls -/

theorem write_eq {φ : Fl} {s s' : WState} (h : R M φ s s') (p : List UInt8) : (s'.lz.write p).1 = (s.lz.write p).1 ∧
    ∃ b, (s.lz.write p).2 = { s.lz with buf := b } ∧ (s'.lz.write p).2 = { s'.lz with buf := b } := by
  have hc : s'.lz.cap = s.lz.cap := by unfold LZ.cap; rw [h.lzo]
  unfold LZ.write
  rw [hc, h.buf]
  exact ⟨rfl, _, rfl, rfl⟩

/-- a failing call of `writeLoop` -/
abbrev isSome {α : Type} : Option α → Prop := fun r => r ≠ none

theorem good_writeLoop (L : HuffLib) : ∀ (fuel : Nat) (p : List UInt8), Good M isSome nil3 nil3 (writeLoop L fuel p)
  | 0, _ => Good.panic _
  | fuel + 1, p => by
    have ih := fun q => good_writeLoop L fuel q
    refine ⟨fun s a t h => ?_, fun s s' h => ?_⟩
    · unfold writeLoop at h
      split at h
      · cases h; exact List.prefix_refl _
      · simp only at h
        have hm := (good_compressImpl (M := M) L ((s.lz.write p).1 == 0 || decide ((s.lz.write p).1 < p.length))).mono { s with lz := (s.lz.write p).2 }
        cases e : compressImpl L ((s.lz.write p).1 == 0 || decide ((s.lz.write p).1 < p.length)) { s with lz := (s.lz.write p).2 } with
        | error x => rw [e] at h; cases h
        | ok r =>
          obtain ⟨_ | _, u⟩ := r
          · rw [e] at h; cases h; exact hm _ _ e
          · rw [e] at h; exact (hm _ _ e).trans ((ih _).mono _ _ _ h)
    · unfold writeLoop
      by_cases hp : p = []
      · rw [if_pos hp, if_pos hp]; exact out_ok h
      · rw [if_neg hp, if_neg hp]
        obtain ⟨e1, b, e2, e3⟩ := write_eq h p
        simp only [e1]
        have h1 : R M nil3 ({ s with lz := (s.lz.write p).2 } : WState) ({ s' with lz := (s'.lz.write p).2 } : WState) := by
          rw [e2, e3]
          exact { h with buf := rfl }
        have := (good_compressImpl L ((s.lz.write p).1 == 0 || decide ((s.lz.write p).1 < p.length))).sim _ _ h1
        cases e : compressImpl L ((s.lz.write p).1 == 0 || decide ((s.lz.write p).1 < p.length)) { s with lz := (s.lz.write p).2 } with
        | error x => rw [e] at this; rw [show _ = _ from this]; rfl
        | ok r =>
          obtain ⟨b, u⟩ := r
          rw [e] at this
          rcases this with ⟨u', e', hu, hu', hd⟩ | ⟨hM, hb, hd, hF⟩
          · rw [e']
            cases b with
            | true => exact (ih _).sim u u' (hu' (by simp))
            | false =>
              simp only [hu.err]
              exact out_bad hu (by simp) (hd rfl)
          · cases hb
            refine Or.inr ⟨hM, by simp, hd, fun a' t' ht => ?_⟩
            cases e' : compressImpl L ((s.lz.write p).1 == 0 || decide ((s.lz.write p).1 < p.length)) { s' with lz := (s'.lz.write p).2 } with
            | error x => rw [e'] at ht; cases ht
            | ok r =>
              obtain ⟨b', v⟩ := r
              have hF1 := hF _ _ e'
              rw [e'] at ht
              cases b' with
              | false => cases ht; exact hF1
              | true => exact ⟨hF1.state, hF1.err, hF1.pre.trans ((ih _).mono _ _ _ ht)⟩

/-- the runs agree so far -/
def Same (M : Bool) (s s' : WState) : Prop := R M nil3 s s' ∨ (R M {} s s' ∧ Dead s)

/-- the first run has failed, and what it has produced is part of what the other has produced -/
def Behind (s s' : WState) : Prop := Dead s ∧ pushed s <+: pushed s'

theorem mono_step (L : HuffLib) (op : WOp) : Mono (stepOp L op) := by
  intro s r t h
  cases op with
  | write p =>
    unfold stepOp wWrite at h
    simp only at h
    split at h
    · cases h
    · rename_i n e u hu
      cases h
      split at hu
      · cases hu; exact List.prefix_refl _
      · split at hu
        · cases hu; exact List.prefix_refl _
        · have hm := (good_writeLoop (M := true) L (2 * p.length + 2) p).mono s
          split at hu
          · cases hu
          · rename_i v hv; cases hu; exact hm _ _ hv
          · rename_i v hv; cases hu; exact hm _ _ hv
  | flush ft =>
    unfold stepOp wFlush at h
    simp only at h
    split at h
    · cases h
    · rename_i e u hu
      cases h
      split at hu
      · cases hu; exact List.prefix_refl _
      · split at hu
        · cases hu; exact List.prefix_refl _
        · have hm := (good_flushImpl (M := true) L ft).mono s
          split at hu
          · cases hu
          · rename_i v hv; cases hu; exact hm _ _ hv
          · rename_i v hv; cases hu; exact hm _ _ hv
  | setHeader hd =>
    unfold stepOp wSetHeader at h
    simp only at h
    split at h
    · cases h
    · rename_i e u hu
      cases h
      split at hu
      · cases hu; exact List.prefix_refl _
      · cases hu; exact List.prefix_refl _
  | close =>
    unfold stepOp wClose at h
    simp only at h
    split at h
    · cases h
    · rename_i e u hu
      cases h
      split at hu
      · cases hu; exact List.prefix_refl _
      · split at hu
        · cases hu; exact List.prefix_refl _
        · have hm := (good_flushImpl (M := true) L .finishFlush).mono s
          split at hu
          · cases hu
          · rename_i v hv; cases hu; exact hm _ v hv
          · rename_i v hv; cases hu; exact hm _ v hv

theorem Behind.step {L : HuffLib} {op : WOp} {s s' t t' : WState} {r r' : WRes} (h : Behind s s') (e : stepOp L op s = .ok (r, t))
    (e' : stepOp L op s' = .ok (r', t')) : Behind t t' := by
  obtain ⟨r0, t0, e0, eq, hd, _⟩ := stepOp_dead (L := L) s h.1 op
  rw [e] at e0
  cases e0
  refine ⟨hd, ?_⟩
  rw [show pushed t = pushed s from by rw [eq]; rfl]
  exact h.2.trans (mono_step L op _ _ _ e')

theorem R.setHeader {φ : Fl} {s s' : WState} (h : R M φ s s') (x : Header) : R M φ ({ s with header := x } : WState) ({ s' with header := x } : WState) :=
  { h with header := HSame.of rfl }

theorem R.close {φ : Fl} {s s' : WState} (h : R M φ s s') : R M φ ({ s with state := .closed } : WState) ({ s' with state := .closed } : WState) :=
  { h with state := rfl, sums := fun e => (by rcases e with e | e <;> cases e) }

theorem R.close' {φ : Fl} {s s' : WState} (h : R M φ s s') : R M φ ({ s with state := .closed, err := Option.none } : WState) ({ s' with state := .closed, err := Option.none } : WState) :=
  { h with err := rfl, state := rfl, sums := fun e => (by rcases e with e | e <;> cases e) }

/-- the two runs of a call -/
def Two (M : Bool) (x y : Except Panic (WRes × WState)) : Prop :=
  match x with
  | .error e => y = .error e
  | .ok (r, t) => (∃ t', y = .ok (r, t') ∧ Same M t t') ∨ (M = false ∧ r.err ≠ none ∧ ∀ r' t', y = .ok (r', t') → Behind t t')

theorem Same.state {s s' : WState} (h : Same M s s') : s'.state = s.state := by
  rcases h with h | h
  · exact R.state h
  · exact R.state h.1

theorem Same.err {s s' : WState} (h : Same M s s') : s'.err = s.err := by
  rcases h with h | h
  · exact R.err h
  · exact R.err h.1

/-- a Writer which is neither closed nor broken -/
theorem Same.live {s s' : WState} (h : Same M s s') (h1 : s.state ≠ .closed) (h2 : s.state ≠ .error) : R M nil3 s s' := by
  rcases h with h | ⟨_, h | h⟩
  · exact h
  · exact (h1 h).elim
  · exact (h2 h.1).elim

theorem writeLoop_err {L : HuffLib} : ∀ {fuel : Nat} {p : List UInt8} {s t : WState} {x : Option Err}, writeLoop L fuel p s = .ok (some x, t) → x = t.err
  | 0, _, _, _, _, h => nomatch h
  | fuel + 1, p, s, t, x, h => by
    unfold writeLoop at h
    split at h
    · cases h
    · simp only at h
      split at h
      · cases h
      · cases h; rfl
      · exact writeLoop_err h

/-- One call: the runs still agree, or the first has failed in it. -/
theorem Same.step {L : HuffLib} {s s' : WState} (h : Same M s s') (op : WOp) : Two M (stepOp L op s) (stepOp L op s') := by
  cases op with
  | setHeader x =>
    by_cases hh : headerOK x = true
    · simp only [stepOp, wSetHeader, hh, if_true]
      refine (Or.inl ⟨_, rfl, ?_⟩ : Two M (.ok (_, _)) (.ok (_, _)))
      rcases h with h | ⟨h, hd⟩
      · exact Or.inl (h.setHeader x)
      · exact Or.inr ⟨h.setHeader x, hd⟩
    · simp only [stepOp, wSetHeader, hh]
      exact (Or.inl ⟨_, rfl, h⟩ : Two M (.ok (_, _)) (.ok (_, _)))
  | write p =>
    unfold stepOp wWrite
    simp only
    rw [h.state, h.err]
    by_cases h1 : s.state = .closed
    · rw [if_pos h1, if_pos h1]; exact Or.inl ⟨_, rfl, h⟩
    · rw [if_neg h1, if_neg h1]
      by_cases h2 : s.state = .error
      · rw [if_pos h2, if_pos h2]; exact Or.inl ⟨_, rfl, h⟩
      · rw [if_neg h2, if_neg h2]
        have := (good_writeLoop L (2 * p.length + 2) p).sim s s' (h.live h1 h2)
        cases e : writeLoop L (2 * p.length + 2) p s with
        | error x => rw [e] at this; rw [show _ = _ from this]; rfl
        | ok r =>
          obtain ⟨a, t⟩ := r
          rw [e] at this
          rcases this with ⟨t', e', hu, hu', hd⟩ | ⟨hM, hb, hd, hF⟩
          · rw [e']
            cases a with
            | none => exact Or.inl ⟨_, rfl, Or.inl (hu' (by simp))⟩
            | some x => exact Or.inl ⟨_, rfl, Or.inr ⟨hu, Or.inr (hd (by simp))⟩⟩
          · cases a with
            | none => exact (hb rfl).elim
            | some x =>
              have hx : x = t.err := writeLoop_err e
              subst hx
              refine Or.inr ⟨hM, ?_, fun r' u' hr => ?_⟩
              · obtain ⟨_, y, hy⟩ := hd
                show t.err ≠ none
                rw [hy]; simp
              · cases e' : writeLoop L (2 * p.length + 2) p s' with
                | error x => rw [e'] at hr; cases hr
                | ok r =>
                  obtain ⟨a', v⟩ := r
                  have hv := hF _ _ e'
                  rw [e'] at hr
                  cases a' <;> cases hr <;> exact ⟨Or.inr hd, hv.pre⟩
  | flush ft =>
    unfold stepOp wFlush
    simp only
    rw [h.state, h.err]
    by_cases h1 : s.state = .closed
    · rw [if_pos h1, if_pos h1]; exact Or.inl ⟨_, rfl, h⟩
    · rw [if_neg h1, if_neg h1]
      by_cases h2 : s.state = .error
      · rw [if_pos h2, if_pos h2]; exact Or.inl ⟨_, rfl, h⟩
      · rw [if_neg h2, if_neg h2]
        have := (good_flushImpl L ft).sim s s' (h.live h1 h2)
        cases e : flushImpl L ft s with
        | error x => rw [e] at this; rw [show _ = _ from this]; rfl
        | ok r =>
          obtain ⟨a, t⟩ := r
          rw [e] at this
          rcases this with ⟨t', e', hu, hu', hd⟩ | ⟨hM, hb, hd, hF⟩
          · rw [e']
            cases a with
            | true => exact Or.inl ⟨_, rfl, Or.inl (hu' (by simp))⟩
            | false => exact Or.inl ⟨t', by simp only [hu.err], Or.inr ⟨hu, Or.inr (hd rfl)⟩⟩
          · cases hb
            refine Or.inr ⟨hM, ?_, fun r' u' hr => ?_⟩
            · obtain ⟨_, y, hy⟩ := hd
              show t.err ≠ none
              rw [hy]; simp
            · cases e' : flushImpl L ft s' with
              | error x => rw [e'] at hr; cases hr
              | ok r =>
                obtain ⟨a', v⟩ := r
                have hv := hF _ _ e'
                rw [e'] at hr
                cases a' <;> cases hr <;> exact ⟨Or.inr hd, hv.pre⟩
  | close =>
    unfold stepOp wClose
    simp only
    rw [h.state, h.err]
    by_cases h1 : s.state = .closed
    · rw [if_pos h1, if_pos h1]; exact Or.inl ⟨_, rfl, h⟩
    · rw [if_neg h1, if_neg h1]
      by_cases h2 : s.state = .error
      · rw [if_pos h2, if_pos h2]
        refine Or.inl ⟨_, rfl, ?_⟩
        rcases h with h | ⟨h, hd⟩
        · exact Or.inl h.close'
        · exact Or.inr ⟨h.close', Or.inl rfl⟩
      · rw [if_neg h2, if_neg h2]
        have := (good_flushImpl L .finishFlush).sim s s' (h.live h1 h2)
        cases e : flushImpl L .finishFlush s with
        | error x => rw [e] at this; rw [show _ = _ from this]; rfl
        | ok r =>
          obtain ⟨a, t⟩ := r
          rw [e] at this
          rcases this with ⟨t', e', hu, hu', hd⟩ | ⟨hM, hb, hd, hF⟩
          · rw [e']
            cases a with
            | true => exact Or.inl ⟨_, rfl, Or.inl (hu' (by simp)).close⟩
            | false => exact Or.inl ⟨_, by simp only [hu.err], Or.inr ⟨hu.close', Or.inl rfl⟩⟩
          · cases hb
            refine Or.inr ⟨hM, ?_, fun r' u' hr => ?_⟩
            · obtain ⟨_, y, hy⟩ := hd
              show t.err ≠ none
              rw [hy]; simp
            · cases e' : flushImpl L .finishFlush s' with
              | error x => rw [e'] at hr; cases hr
              | ok r =>
                obtain ⟨a', v⟩ := r
                have hv := hF _ _ e'
                rw [e'] at hr
                cases a' <;> cases hr <;> exact ⟨Or.inl rfl, hv.pre⟩

theorem Behind.run {L : HuffLib} : ∀ {ops : List WOp} {s s' t t' : WState} {rs rs' : List WRes}, Behind s s' → runOps L ops s = .ok (rs, t) →
    runOps L ops s' = .ok (rs', t') → Behind t t' := by
  intro ops
  induction ops with
  | nil => intro s s' t t' rs rs' h e e'; cases e; cases e'; exact h
  | cons op ops ih =>
    intro s s' t t' rs rs' h e e'
    obtain ⟨r, u, q, h1, h2, _⟩ := run_cons_inv e
    obtain ⟨r', u', q', h1', h2', _⟩ := run_cons_inv e'
    exact ih (h.step h1 h1') h2 h2'

/-- Any sequence of calls with the same underlying writer: everything is the same. -/
theorem Same.run {L : HuffLib} : ∀ {ops : List WOp} {s s' : WState}, Same true s s' → match runOps L ops s with
    | .error e => runOps L ops s' = .error e
    | .ok (rs, t) => ∃ t', runOps L ops s' = .ok (rs, t') ∧ Same true t t' := by
  intro ops
  induction ops with
  | nil => intro s s' h; exact ⟨_, rfl, h⟩
  | cons op ops ih =>
    intro s s' h
    have h1 := h.step (L := L) op
    unfold runOps
    cases e : stepOp L op s with
    | error x => rw [e] at h1; rw [show _ = _ from h1]
    | ok r =>
      obtain ⟨r, t⟩ := r
      rw [e] at h1
      rcases h1 with ⟨t', e', ht⟩ | ⟨hM, _⟩
      · rw [e']
        simp only
        have h2 := ih ht
        cases e2 : runOps L ops t with
        | error x => rw [e2] at h2; simp only at h2; rw [h2]
        | ok r2 =>
          obtain ⟨rs, u⟩ := r2
          rw [e2] at h2
          obtain ⟨u', e3, hu⟩ := h2
          rw [e3]
          exact ⟨_, rfl, hu⟩
      · cases hM

/-- Any sequence of calls when the second underlying writer does not fail. -/
theorem Same.runF {L : HuffLib} : ∀ {ops : List WOp} {s s' t t' : WState} {rs rs' : List WRes}, Same false s s' → runOps L ops s = .ok (rs, t) →
    runOps L ops s' = .ok (rs', t') → (Same false t t' ∧ rs' = rs) ∨ (Behind t t' ∧ ∃ n r, rs[n]? = some r ∧ r.err ≠ none ∧ rs'.take n = rs.take n) := by
  intro ops
  induction ops with
  | nil => intro s s' t t' rs rs' h e e'; cases e; cases e'; exact Or.inl ⟨h, rfl⟩
  | cons op ops ih =>
    intro s s' t t' rs rs' h e e'
    obtain ⟨r, u, q, h1, h2, rfl⟩ := run_cons_inv e
    obtain ⟨r', u', q', h1', h2', rfl⟩ := run_cons_inv e'
    have hs := h.step (L := L) op
    rw [h1, h1'] at hs
    rcases hs with ⟨v, hv, hsame⟩ | ⟨_, hr, hb⟩
    · cases hv
      rcases ih hsame h2 h2' with ⟨a, rfl⟩ | ⟨a, n, x, hx, hxe, hxt⟩
      · exact Or.inl ⟨a, rfl⟩
      · exact Or.inr ⟨a, n + 1, x, by simpa using hx, hxe, by simp [hxt]⟩
    · exact Or.inr ⟨(hb _ _ rfl).run h2 h2', 0, r, rfl, hr, rfl⟩

/-- When the underlying writer does not fail, nothing is left in the output buffer between calls. -/
theorem run_empty {L : HuffLib} (hL : L.Lawful) {E : BlockRel} {base : List UInt8} : ∀ {ops : List WOp} {s t : WState} {a : Abs} {rs : List WRes},
    Live E base n0 s a → BlockOK L s.o s.lz.maxDist True E → Dependable s → runOps L ops s = .ok (rs, t) → t.output = [] := by
  intro ops
  induction ops with
  | nil => intro s t a rs hl _ _ h; cases h; exact hl.inv.out
  | cons op ops ih =>
    intro s t a rs hl hE hd h
    obtain ⟨r, u, q, h1, h2, rfl⟩ := run_cons_inv h
    rcases stepOp_live hL hl hE op (fun _ => trivial) with ⟨e, hf⟩ | ⟨r', u', es, k, e, hh, ok, bad, dep⟩
    · rw [e] at h1; cases h1
    rw [e] at h1
    cases h1
    obtain ⟨_, _, g1, g2⟩ := ok (dep.1 hd)
    by_cases hc : op = .close
    · obtain ⟨rs, v, e', eq, _, _⟩ := run_dead (L := L) ops u (Or.inl (g1 hc).state)
      rw [h2] at e'
      cases e'
      rw [show t.output = u.output from by rw [eq]]
      exact (g1 hc).inv.out
    · exact ih (g2 hc) (hE.hist hh) (dependable_of_hist hh hd) h2

end Flate.Proof.Sim
