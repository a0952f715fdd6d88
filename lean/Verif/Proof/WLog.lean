/-
The calls the underlying writer receives: a traversal of all functions of the Writer.
-/
import Verif.Proof.RKeep
import Verif.Model.WriterApi

namespace Flate.Proof
open Flate.Spec Flate.Model
open Flate.Proof.R (Keeps Pre)

/-- `t` comes from `s` by `Write` calls on the underlying writer, none of them empty -/
structure Writes (s t : Sink) : Prop where
  hasFlush : t.hasFlush = s.hasFlush
  hasSync : t.hasSync = s.hasSync
  errs : s.errs <+: t.errs
  log : ∃ ws : List (List UInt8), (∀ w ∈ ws, w ≠ []) ∧ t.log = s.log ++ ws.map .write ∧ (t.errs = s.errs → t.out = s.out ++ ws.flatten)

def Wr (s t : WState) : Prop := Writes s.sink t.sink

theorem prefix_eq_of {α : Type} {a b c : List α} (h : a <+: b) (k : b <+: c) (e : c = a) : b = a := by
  subst e
  exact k.eq_of_length (Nat.le_antisymm k.length_le h.length_le)

theorem writes_pre : Pre Wr := by
  refine ⟨fun s => ⟨rfl, rfl, List.prefix_refl _, [], by simp, by simp, by simp⟩, ?_⟩
  rintro s t u ⟨a1, a2, a3, w1, b1, c1, d1⟩ ⟨e1, e2, e3, w2, f1, g1, h1⟩
  refine ⟨e1.trans a1, e2.trans a2, a3.trans e3, w1 ++ w2, ?_, ?_, ?_⟩
  · intro w hw
    rcases List.mem_append.1 hw with h | h
    · exact b1 w h
    · exact f1 w h
  · rw [g1, c1]; simp
  · intro h
    have ht := prefix_eq_of a3 e3 h
    rw [h1 (h.trans ht.symm), d1 ht]; simp

theorem wr_same {s t : WState} (h : t.sink = s.sink) : Wr s t := by
  unfold Wr; rw [h]; exact writes_pre.refl s

theorem Keeps.same {α : Type} {f : Go WState α} (h : ∀ s a t, f s = .ok (a, t) → t.sink = s.sink) : Keeps Wr f :=
  fun s a t e => wr_same (h s a t e)

theorem wr_modify {f : WState → WState} (h : ∀ s, (f s).sink = s.sink) : Keeps Wr (Go.modify f) := by
  intro s a t e; cases e; exact wr_same (h s)

theorem wr_get : Keeps Wr (Go.get : Go WState WState) := by
  intro s a t e; cases e; exact wr_same rfl

theorem wr_flush : Keeps Wr outputBufferFlush := by
  intro s a t e
  unfold outputBufferFlush sinkWrite at e
  by_cases h : s.output = []
  · rw [if_pos h] at e; cases e; exact wr_same rfl
  · rw [if_neg h] at e
    rcases hw : s.sink.wfail s.sink.nWrites with _ | ⟨k, x⟩
    · rw [hw] at e; cases e
      exact ⟨rfl, rfl, List.prefix_refl _, [s.output], by simpa using h, by simp, by simp⟩
    · rw [hw] at e; cases e
      exact ⟨rfl, rfl, List.prefix_append _ _, [s.output], by simpa using h, by simp, by simp⟩

theorem wr_after {α : Type} {f : Go WState α} (h : Keeps Wr f) {s s' t : WState} {a : α} (e : f s' = .ok (a, t)) (he : s'.sink = s.sink) : Wr s t :=
  writes_pre.trans _ _ _ (wr_same he) (h s' a t e)

theorem wr_outLoop : ∀ fuel p, Keeps Wr (outLoop fuel p)
  | 0, _ => R.Keeps.panic _
  | fuel + 1, p => by
    intro s a t e
    simp only [outLoop] at e
    by_cases hp : p = []
    · rw [if_pos hp] at e; cases e; exact wr_same rfl
    · rw [if_neg hp] at e
      exact wr_after (R.Keeps.chk writes_pre wr_flush (wr_outLoop fuel _)) e rfl

theorem wr_bitsFlush : Keeps Wr wBitsFlush := by
  intro s a t e
  unfold wBitsFlush at e
  by_cases h : s.obLen = 0
  · rw [if_pos h] at e; cases e; exact wr_same rfl
  · rw [if_neg h] at e
    exact wr_after (wr_outLoop _ _) e rfl

theorem wr_bufWrite (p : List UInt8) : Keeps Wr (wBufWrite p) := R.Keeps.chk writes_pre wr_bitsFlush (wr_outLoop _ _)

theorem wr_stringZ (p : List UInt8) : Keeps Wr (wBufWriteStringZ p) := by
  unfold wBufWriteStringZ
  split
  · exact wr_bufWrite _
  · split
    · exact wr_bufWrite _
    · exact R.Keeps.panic _

theorem wr_bitsLoop : ∀ fuel n b, Keeps Wr (bitsLoop fuel n b)
  | 0, _, _ => R.Keeps.panic _
  | fuel + 1, n, b => by
    intro s a t e
    simp only [bitsLoop] at e
    by_cases hn : n = 0
    · rw [if_pos hn] at e; cases e; exact wr_same rfl
    · rw [if_neg hn] at e
      split at e
      · exact wr_after (R.Keeps.chk writes_pre wr_bitsFlush (wr_bitsLoop fuel _ _)) e rfl
      · exact wr_after (wr_bitsLoop fuel _ _) e rfl

theorem wr_bitsWrite (n b : Nat) : Keeps Wr (wBitsWrite n b) := by
  intro s a t e
  unfold wBitsWrite at e
  split at e
  · split at e
    · exact wr_bitsLoop _ _ _ s a t e
    · cases e
  · cases e

theorem wr_event (k : EvKind) : Keeps Wr (wSendEvent k) := wr_modify fun _ => rfl

theorem wr_ev (k : EvKind) : Keeps Wr (evStep wBW k) :=
  R.Keeps.bind writes_pre (wr_event k) fun _ => R.Keeps.pure writes_pre _

theorem wr_forAll {α : Type} {f : α → Go WState Bool} (h : ∀ a, Keeps Wr (f a)) : ∀ l, Keeps Wr (forAll f l)
  | [] => R.Keeps.pure writes_pre _
  | _ :: l => R.Keeps.chk writes_pre (h _) (wr_forAll h l)

theorem wr_extra (n b : Nat) : Keeps Wr (extraWrite wBW n b) := by
  unfold extraWrite; split
  · exact wr_bitsWrite _ _
  · exact R.Keeps.pure writes_pre _

theorem wr_encodeLLD (ll d : List Nat) (t : Token) : Keeps Wr (encodeLLD wBW ll d t) := by
  unfold encodeLLD
  refine R.Keeps.bind writes_pre (R.Keeps.lift writes_pre _) fun x => R.Keeps.bind writes_pre (R.Keeps.lift writes_pre _) fun y => ?_
  obtain ⟨x1, x2, x3⟩ := x
  obtain ⟨y1, y2, y3⟩ := y
  cases x1 with
  | none => exact R.Keeps.pure writes_pre _
  | some s =>
    refine R.Keeps.chk writes_pre (wr_bitsWrite _ _) (R.Keeps.chk writes_pre (wr_extra _ _) ?_)
    cases y1 with
    | none => exact R.Keeps.pure writes_pre _
    | some sd => exact R.Keeps.chk writes_pre (wr_bitsWrite _ _) (wr_extra _ _)

theorem wr_encodeX (cl : List Nat) (t : Token) : Keeps Wr (encodeX wBW cl t) := by
  unfold encodeX
  split
  · exact R.Keeps.pure writes_pre _
  · exact R.Keeps.chk writes_pre (wr_bitsWrite _ _) (wr_extra _ _)

theorem wr_stored (d : List UInt8) (f : Bool) : Keeps Wr (writeStoredBlock wBW d f) :=
  R.Keeps.bind writes_pre (R.Keeps.assert writes_pre _ _) fun _ =>
  R.Keeps.chk writes_pre (wr_ev _) <| R.Keeps.chk writes_pre (wr_bitsWrite _ _) <| R.Keeps.chk writes_pre wr_bitsFlush <|
  R.Keeps.chk writes_pre (wr_bufWrite _) <| R.Keeps.chk writes_pre (wr_bufWrite _) <| R.Keeps.chk writes_pre (wr_bufWrite _) (wr_ev _)

theorem wr_assertStop (ts : List Token) : Keeps Wr (assertStop ts : Go WState Unit) :=
  R.Keeps.bind writes_pre (R.Keeps.assert writes_pre _ _) fun _ => R.Keeps.bind writes_pre (R.Keeps.lift writes_pre _) fun _ => R.Keeps.assert writes_pre _ _

theorem wr_static (ts : List Token) (f : Bool) : Keeps Wr (writeStaticBlock wBW ts f) :=
  R.Keeps.bind writes_pre (wr_assertStop _) fun _ =>
  R.Keeps.chk writes_pre (wr_ev _) <| R.Keeps.chk writes_pre (wr_bitsWrite _ _) <| R.Keeps.chk writes_pre (wr_ev _) <|
  R.Keeps.chk writes_pre (wr_forAll (wr_encodeLLD _ _) _) (wr_ev _)

theorem wr_dynamic (L : HuffLib) (a b : List Nat) (ts : List Token) (f : Bool) : Keeps Wr (writeDynamicBlock wBW L a b ts f) :=
  R.Keeps.bind writes_pre (wr_assertStop _) fun _ =>
  R.Keeps.chk writes_pre (wr_ev _) <| R.Keeps.chk writes_pre (wr_bitsWrite _ _) <|
  R.Keeps.bind writes_pre (R.Keeps.lift writes_pre _) fun _ => R.Keeps.bind writes_pre (R.Keeps.lift writes_pre _) fun _ =>
  R.Keeps.bind writes_pre (R.Keeps.lift writes_pre _) fun _ =>
  R.Keeps.chk writes_pre (wr_bitsWrite _ _) <| R.Keeps.chk writes_pre (wr_bitsWrite _ _) <| R.Keeps.chk writes_pre (wr_bitsWrite _ _) <|
  R.Keeps.chk writes_pre (wr_forAll (fun _ => wr_bitsWrite _ _) _) <| R.Keeps.chk writes_pre (wr_forAll (wr_encodeX _) _) <|
  R.Keeps.chk writes_pre (wr_ev _) <| R.Keeps.chk writes_pre (wr_forAll (wr_encodeLLD _ _) _) (wr_ev _)

theorem wr_tokens (L : HuffLib) (W : Nat) (d : List UInt8) (ts : List Token) (f : Bool) : Keeps Wr (compressTokens wBW W L d ts f) := by
  refine R.Keeps.bind writes_pre (R.Keeps.lift writes_pre _) fun x => R.Keeps.bind writes_pre (R.Keeps.lift writes_pre _) fun y =>
    R.Keeps.bind writes_pre (R.Keeps.lift writes_pre _) fun z => ?_
  refine R.Keeps.ite (fun _ => wr_stored _ _) fun _ => R.Keeps.ite (fun _ => wr_static _ _) fun _ => wr_dynamic _ _ _ _ _

theorem wr_read (n : Nat) : Keeps Wr (inputBufferRead n) := by
  intro s a t e; cases e; exact wr_same rfl

theorem wr_advance : Keeps Wr inputBufferAdvance := by
  intro s a t e
  unfold inputBufferAdvance at e
  cases e; exact wr_same rfl

theorem wr_storeLoop : ∀ fuel n, Keeps Wr (storeLoop fuel n)
  | 0, _ => R.Keeps.panic _
  | fuel + 1, n => by
    unfold storeLoop
    refine R.Keeps.ite (fun _ => R.Keeps.pure writes_pre _) fun _ => R.Keeps.bind writes_pre (wr_read _) fun b => ?_
    exact R.Keeps.chk writes_pre (wr_stored _ _) (wr_storeLoop fuel _)

theorem wr_tokenLoop : ∀ fuel n bb ts, Keeps Wr (tokenLoop fuel n bb ts)
  | 0, _, _, _ => R.Keeps.panic _
  | fuel + 1, n, bb, ts => by
    unfold tokenLoop
    refine R.Keeps.ite (fun _ => R.Keeps.pure writes_pre _) fun _ => R.Keeps.bind writes_pre wr_advance fun x => ?_
    obtain ⟨p, m⟩ := x
    cases m with
    | some y =>
      obtain ⟨dd, ln⟩ := y
      refine R.Keeps.bind writes_pre (R.Keeps.assert writes_pre _ _) fun _ => R.Keeps.bind writes_pre (R.Keeps.assert writes_pre _ _) fun _ =>
        R.Keeps.bind writes_pre (R.Keeps.lift writes_pre _) fun _ => wr_tokenLoop fuel _ _ _
    | none =>
      cases p with
      | nil => exact R.Keeps.panic _
      | cons c p => exact wr_tokenLoop fuel _ _ _

theorem wr_store (b : Bool) : Keeps Wr (compressStore b) := by
  intro s a t e
  unfold compressStore at e
  dsimp only at e
  split at e
  · cases e; exact wr_same rfl
  · exact wr_storeLoop _ _ s a t e

theorem wr_slow (L : HuffLib) (b : Bool) : Keeps Wr (compressSlow L b) := by
  intro s a t e
  unfold compressSlow at e
  dsimp only at e
  split at e
  · cases e; exact wr_same rfl
  · exact (R.Keeps.bind writes_pre (wr_tokenLoop _ _ _ _) fun x => wr_tokens _ _ _ _ _) s a t e

theorem wr_headZlib : Keeps Wr writeHeaderZlib := fun s a t e => wr_bufWrite _ s a t e

theorem wr_gzExtra (h : Header) : Keeps Wr (gzExtra h) := by
  unfold gzExtra
  split
  · exact R.Keeps.pure writes_pre _
  · exact R.Keeps.chk writes_pre (wr_bufWrite _) (wr_bufWrite _)

theorem wr_gzString (p : List UInt8) : Keeps Wr (gzString p) := by
  unfold gzString
  split
  · exact R.Keeps.pure writes_pre _
  · exact wr_stringZ _

theorem wr_headGzip : Keeps Wr writeHeaderGZIP := by
  intro s a t e
  unfold writeHeaderGZIP at e
  exact wr_after (R.Keeps.chk writes_pre (wr_bufWrite _) <| R.Keeps.chk writes_pre (wr_gzExtra _) <| R.Keeps.chk writes_pre (wr_gzString _) <|
    R.Keeps.chk writes_pre (wr_gzString _) <| fun s a t e => wr_bufWrite _ s a t e) e rfl

theorem wr_header : Keeps Wr writeHeader := by
  refine R.Keeps.bind writes_pre (wr_modify fun _ => rfl) fun _ => R.Keeps.bind writes_pre (wr_modify fun _ => rfl) fun _ =>
    R.Keeps.bind writes_pre (wr_event _) fun _ => R.Keeps.bind writes_pre (wr_modify fun _ => rfl) fun _ => R.Keeps.bind writes_pre wr_get fun s => ?_
  refine R.Keeps.chk writes_pre ?_ <| R.Keeps.bind writes_pre wr_get fun s => R.Keeps.bind writes_pre (wr_event _) fun _ =>
    R.Keeps.bind writes_pre (wr_modify fun _ => rfl) fun _ => R.Keeps.pure writes_pre _
  cases s.o.format with
  | raw => exact R.Keeps.pure writes_pre _
  | zlib => exact wr_headZlib
  | gzip => exact wr_headGzip
  | default => exact R.Keeps.panic _

theorem wr_footer : Keeps Wr writeFooter := by
  refine R.Keeps.chk writes_pre wr_bitsFlush <| R.Keeps.bind writes_pre wr_get fun s => R.Keeps.bind writes_pre (wr_event _) fun _ => ?_
  refine R.Keeps.chk writes_pre ?_ <| R.Keeps.bind writes_pre (wr_event _) fun _ => R.Keeps.pure writes_pre _
  cases s.o.format with
  | raw => exact R.Keeps.pure writes_pre _
  | zlib => exact wr_bufWrite _
  | gzip => exact R.Keeps.bind writes_pre (wr_bufWrite _) fun _ => R.Keeps.bind writes_pre wr_get fun _ =>
      R.Keeps.bind writes_pre (wr_bufWrite _) fun _ => R.Keeps.pure writes_pre _
  | default => exact R.Keeps.panic _

theorem wr_setState (x : WS) : Keeps Wr (setState x) := by
  intro s a t e; cases e; exact wr_same rfl

theorem wr_done : Keeps Wr (fun s : WState => (.ok (true, s) : Except Panic (Bool × WState))) := by
  intro s a t e; cases e; exact wr_same rfl

theorem wr_closing : Keeps Wr finishClosing := by
  intro s a t e
  unfold finishClosing at e
  split at e
  · exact R.Keeps.chk writes_pre wr_footer (wr_setState _) s a t e
  · cases e; exact wr_same rfl

theorem wr_open {P : WState → Prop} [DecidablePred P] :
    Keeps Wr (fun s => if P s then Go.chk writeHeader (setState .openStream) s else .ok (true, s)) := by
  intro s a t e
  dsimp only at e
  split at e
  · exact R.Keeps.chk writes_pre wr_header (wr_setState _) s a t e
  · cases e; exact wr_same rfl

theorem wr_compress (L : HuffLib) (b : Bool) : Keeps Wr (compressImpl L b) := by
  intro s a t e
  unfold compressImpl at e
  split at e
  · cases e; exact wr_same rfl
  · refine (R.Keeps.chk writes_pre wr_closing <| R.Keeps.chk writes_pre (wr_open (P := fun s => s.state = .noStream ∨ s.state = .closedStream)) ?_) s a t e
    intro s a t e
    dsimp only at e
    split at e
    · exact wr_store _ s a t e
    · exact wr_slow _ _ s a t e

theorem wr_guts (f : FlushType) : Keeps Wr (flushGuts f) := by
  cases f
  · exact R.Keeps.pure writes_pre _
  · exact wr_static _ _
  · exact wr_stored _ _
  · exact R.Keeps.chk writes_pre (wr_stored _ _) (fun s a t e => by cases e; exact wr_same rfl)
  · exact R.Keeps.chk writes_pre (wr_stored _ _) (fun s a t e => by cases e; exact wr_same rfl)

/-- everything in `flushImpl` before the last two steps -/
def flushFirst (L : HuffLib) (t : FlushType) : Go WState Bool :=
  Go.chk (compressImpl L true) <|
  Go.chk (fun s => if t = .finishFlush ∧ s.state = .noStream then
    Go.chk writeHeader (setState .openStream) s else .ok (true, s)) <|
  Go.chk (fun s => if s.state = .openStream then flushGuts t s else .ok (true, s)) finishClosing

theorem flushImpl_tail (L : HuffLib) (t : FlushType) : flushImpl L t = Go.chk (flushFirst L t) (Go.chk sinkFlush sinkSync) := by
  unfold flushImpl flushFirst
  exact ((chk_assoc _ _ _).trans (congrArg _ ((chk_assoc _ _ _).trans (congrArg _ (chk_assoc _ _ _))))).symm

theorem wr_first (L : HuffLib) (f : FlushType) : Keeps Wr (flushFirst L f) := by
  refine R.Keeps.chk writes_pre (wr_compress _ _) <| R.Keeps.chk writes_pre (wr_open (P := fun s => f = .finishFlush ∧ s.state = .noStream)) <|
    R.Keeps.chk writes_pre ?_ wr_closing
  intro s a t e
  dsimp only at e
  split at e
  · exact wr_guts _ s a t e
  · cases e; exact wr_same rfl

theorem wr_writeLoop (L : HuffLib) : ∀ fuel p, Keeps Wr (writeLoop L fuel p)
  | 0, _ => R.Keeps.panic _
  | fuel + 1, p => by
    intro s a t e
    simp only [writeLoop] at e
    by_cases hp : p = []
    · rw [if_pos hp] at e; cases e; exact wr_same rfl
    · rw [if_neg hp] at e
      generalize ((s.lz.write p).1 == 0 || decide ((s.lz.write p).1 < p.length)) = al at e
      rcases hc : compressImpl L al { s with lz := (s.lz.write p).2 } with x | ⟨b, u⟩
      · rw [hc] at e; cases e
      · rw [hc] at e
        have := wr_after (wr_compress L al) (s := s) hc rfl
        cases b with
        | false => cases e; exact this
        | true => exact writes_pre.trans _ _ _ this (wr_writeLoop L fuel _ u a t e)

/-- what follows the writes of a `Flush` or `Close`: `Flush` and `Sync`, if the underlying writer has them -/
def tailCalls (s : Sink) : List SinkCall := (if s.hasFlush then [.flush] else []) ++ if s.hasSync then [.sync] else []

theorem tail_calls {s t : WState} {b : Bool} (e : Go.chk sinkFlush sinkSync s = .ok (b, t)) :
    t.sink.hasFlush = s.sink.hasFlush ∧ t.sink.hasSync = s.sink.hasSync ∧ t.sink.out = s.sink.out ∧ s.sink.errs <+: t.sink.errs ∧
    ∃ l, t.sink.log = s.sink.log ++ l ∧ l <+: tailCalls s.sink ∧ (b = true → l = tailCalls s.sink) ∧ (b = true → t.sink.errs = s.sink.errs) := by
  unfold tailCalls
  unfold Go.chk sinkFlush sinkSync at e
  rcases hf : s.sink.hasFlush <;> rcases hs : s.sink.hasSync <;> simp only [hf, hs, if_true, Bool.false_eq_true, if_false] at e
  · cases e; simp [hf, hs]
  · rcases hx : s.sink.sfail s.sink.nSync with _ | x
    · rw [hx] at e; cases e; simp [hf, hs]
    · rw [hx] at e
      dsimp only at e
      split at e <;> cases e <;> simp [hf, hs]
  · rcases hx : s.sink.ffail s.sink.nFlush with _ | x
    · rw [hx] at e; cases e; simp [hf, hs]
    · rw [hx] at e; cases e; simp [hf, hs]
  · rcases hx : s.sink.ffail s.sink.nFlush with _ | x
    · rw [hx] at e; dsimp only at e
      rcases hy : s.sink.sfail s.sink.nSync with _ | y
      · simp only [if_true, hy] at e; cases e; simp [hf, hs]
      · simp only [if_true, hy] at e
        split at e <;> cases e <;> simp [hf, hs]
    · rw [hx] at e; cases e; simp [hf, hs]

end Flate.Proof
