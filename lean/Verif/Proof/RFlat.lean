/-
When the goroutine ends, no bits are left in the accumulator.
-/
import Verif.Proof.RKeep
import Verif.Proof.RFoot

namespace Flate.Proof.R
open Flate.Spec Flate.Model Flate.Model.Rd

/-- if no bits were left before, none are left afterwards -/
def FlatI (i i' : Inp) : Prop := Flat i → Flat i'
def FlatS (s s' : RState) : Prop := Flat s.inp → Flat s'.inp

theorem flatI_pre : Pre FlatI := ⟨fun _ h => h, fun _ _ _ h h' x => h' (h x)⟩
theorem flatS_pre : Pre FlatS := ⟨fun _ h => h, fun _ _ _ h h' x => h' (h x)⟩

theorem flat_fill (st : Bool) (i : Inp) : FlatI i (fill st i) := by
  intro h
  unfold fill
  split
  · exact h
  · split
    · exact h
    · split
      · exact h
      · exact h

theorem flat_pop (st : Bool) (i : Inp) : FlatI i (popByte st i).2 := by
  intro h
  have hr : Flat (if i.buf.isEmpty then fill st i else i) := by
    split
    · exact flat_fill st i h
    · exact h
  unfold popByte
  simp only []
  generalize (if i.buf.isEmpty = true then fill st i else i) = j at hr ⊢
  split
  · exact hr
  · exact hr

theorem flat_pops (st : Bool) : ∀ (n : Nat) (i : Inp), FlatI i (popBytes st n i).2
  | 0, i => fun h => h
  | n + 1, i => by
    have hp := flat_pop st i
    unfold popBytes
    rcases h : popByte st i with ⟨b, j⟩
    rw [h] at hp
    cases b with
    | none => exact hp
    | some b => exact fun x => flat_pops st n j (hp x)

theorem flat_bufRead (st : Bool) (n : Nat) (i : Inp) : Flat (bufRead st n i).2 := by
  unfold bufRead
  simp only []
  split
  · exact flat_discard i
  · exact flat_pops st n (Rd.discard i) (flat_discard i)

theorem flat_stringZ (st : Bool) : ∀ (fuel : Nat) (acc : List UInt8), Keeps FlatI (fun i => stringZLoop st fuel acc i)
  | 0, acc => by intro i a i' e; cases e
  | fuel + 1, acc => by
    intro i a i' e
    have hp := flat_pop st i
    simp only [stringZLoop] at e
    rcases h : popByte st i with ⟨b, j⟩
    rw [h] at hp e
    cases b with
    | none => cases e; exact hp
    | some b =>
      simp only [] at e
      split at e
      · cases e; exact hp
      · exact fun x => flat_stringZ st fuel _ _ _ _ e (hp x)

section
variable {α : Type}

theorem flat_onInp {f : Bool → Go Inp α} (hf : ∀ st, Keeps FlatI (f st)) : Keeps FlatS (onInp f) := by
  intro s a s' e
  unfold onInp at e
  rcases hx : f s.out.stopIsForced s.inp with p | ⟨b, i⟩
  · rw [hx] at e; cases e
  · rw [hx] at e; cases e; exact hf _ _ _ _ hx

theorem flat_close (e : Err) : Keeps FlatS (closeWithError e) := by
  intro s a s' he
  rw [closeWithError_eq] at he
  cases he
  exact fun h => h

theorem flat_propagate (t : Bool) : Keeps FlatS (propagateError t) := by
  intro s a s' e
  unfold propagateError at e
  split at e
  · cases e; exact fun h => h
  · exact flat_close _ _ _ _ e

theorem flat_corruptf (m : Spec.Problem) : Keeps FlatS (corruptf m) := fun s a s' e => flat_close _ s a s' e

theorem flat_exhausted (fl : α) : Keeps FlatS (exhausted fl) := Keeps.bind flatS_pre (flat_propagate _) fun _ => Keeps.pure flatS_pre _

theorem flat_fail (m : Spec.Problem) : Keeps FlatS (fail m) := Keeps.bind flatS_pre (flat_corruptf _) fun _ => Keeps.pure flatS_pre _

theorem flat_modHeader (f : Header → Header) : Keeps FlatS (modHeader f) := by
  intro s a s' e; cases e; exact fun h => h

theorem flat_event (k : EvKind) : Keeps FlatS (sendEvent k) := by
  intro s a s' e; cases e; exact fun h => h

theorem flat_needBytes (fl : α) (n : Nat) {k : List UInt8 → Go RState α} (hk : ∀ v, Keeps FlatS (k v)) : Keeps FlatS (needBytes fl n k) := by
  unfold needBytes
  refine Keeps.bind flatS_pre (flat_onInp fun st i a i' e => by
    have := flat_bufRead st n i
    rw [Except.ok.injEq] at e
    rw [e] at this
    exact fun _ => this) fun r => ?_
  obtain ⟨p, ok⟩ := r
  exact Keeps.ite (fun _ => flat_exhausted fl) fun _ => hk p

end

theorem flat_raw : Keeps FlatS readHeaderRaw := by intro s a s' e; cases e; exact fun h => h
theorem flat_setZlib : Keeps FlatS setZlib := by intro s a s' e; cases e; exact fun h => h
theorem flat_setGzip : Keeps FlatS setGzip := by intro s a s' e; cases e; exact fun h => h

theorem flat_zlib (E : Env) : Keeps FlatS (readHeaderZlib E) := by
  unfold readHeaderZlib
  refine flat_needBytes _ _ fun p => ?_
  refine Keeps.ite (fun _ => flat_fail _) fun _ => Keeps.ite (fun _ => flat_fail _) fun _ => ?_
  refine Keeps.bind flatS_pre (flat_modHeader _) fun _ => Keeps.ite (fun _ => flat_fail _) fun _ => ?_
  refine Keeps.bind flatS_pre (flat_modHeader _) fun _ => Keeps.ite (fun _ => flat_needBytes _ _ fun q => ?_) fun _ => ?_
  · split
    · exact flat_fail _
    · exact Keeps.ite (fun _ => flat_fail _) fun _ => flat_setZlib
  · split
    · exact flat_fail _
    · exact flat_setZlib

theorem flat_extra (bit : Bool) : Keeps FlatS (gzExtraData bit) := by
  unfold gzExtraData
  refine Keeps.ite (fun _ => flat_needBytes _ _ fun p => flat_needBytes _ _ fun raw => ?_) fun _ => Keeps.pure flatS_pre _
  exact Keeps.bind flatS_pre (Keeps.lift flatS_pre _) fun _ => Keeps.bind flatS_pre (flat_modHeader _) fun _ => Keeps.pure flatS_pre _

theorem flat_gzStr (bit : Bool) (f : List UInt8 → Header → Header) : Keeps FlatS (gzStr bit f) := by
  unfold gzStr
  refine Keeps.ite (fun _ => Keeps.bind flatS_pre (flat_onInp fun st i a i' e => flat_stringZ st _ _ i a i' e) fun r => ?_) fun _ => Keeps.pure flatS_pre _
  obtain ⟨str, ok⟩ := r
  exact Keeps.ite (fun _ => flat_exhausted _) fun _ => Keeps.bind flatS_pre (flat_modHeader _) fun _ => Keeps.pure flatS_pre _

theorem flat_gzCRC (bit : Bool) : Keeps FlatS (gzCRC bit) := by
  refine Keeps.look (g := fun s => gzCRC16 bit s.inp.crc) fun s => ?_
  unfold gzCRC16
  exact Keeps.ite (fun _ => flat_needBytes _ _ fun p => Keeps.ite (fun _ => flat_fail _) fun _ => Keeps.pure flatS_pre _) fun _ => Keeps.pure flatS_pre _

theorem flat_gzip : Keeps FlatS readHeaderGZIP := by
  unfold readHeaderGZIP
  refine Keeps.bind flatS_pre (flat_onInp fun _ i a i' e => by cases e; exact fun h => h) fun _ => flat_needBytes _ _ fun p => ?_
  refine Keeps.ite (fun _ => flat_fail _) fun _ => Keeps.ite (fun _ => flat_fail _) fun _ => ?_
  refine Keeps.bind flatS_pre (flat_modHeader _) fun _ => Keeps.ite (fun _ => flat_fail _) fun _ => ?_
  refine Keeps.bind flatS_pre (flat_modHeader _) fun _ => ?_
  exact Keeps.chk flatS_pre (flat_extra _) (Keeps.chk flatS_pre (flat_gzStr _ _) (Keeps.chk flatS_pre (flat_gzStr _ _) (Keeps.chk flatS_pre (flat_gzCRC _) flat_setGzip)))

theorem flat_headerOf (E : Env) (f : Format) : Keeps FlatS (readHeaderOf E f) := by
  cases f with
  | raw => exact flat_raw
  | zlib => exact flat_zlib E
  | gzip => exact flat_gzip
  | default =>
    intro s a s' e
    simp only [readHeaderOf] at e
    unfold readHeaderAuto at e
    split at e
    · split at e
      · exact flat_gzip _ _ _ e
      · split at e
        · exact flat_zlib E _ _ _ e
        · exact flat_raw _ _ _ e
    · exact flat_raw _ _ _ e

theorem flat_header (E : Env) : Keeps FlatS (readHeader E) := by
  unfold readHeader
  refine Keeps.bind flatS_pre (fun s a s' e => by cases e; exact fun h => h) fun _ => ?_
  refine Keeps.bind flatS_pre (flat_onInp fun st i a i' e => ?_) fun b => ?_
  · rw [Except.ok.injEq, Prod.mk.injEq] at e
    rw [← e.2]
    intro h
    split
    · exact flat_fill st i h
    · exact h
  · refine Keeps.ite (fun _ => Keeps.bind flatS_pre (flat_propagate _) fun _ => Keeps.pure flatS_pre _) fun _ => ?_
    refine Keeps.bind flatS_pre (fun s a s' e => by cases e; exact fun h => h) fun _ => ?_
    refine Keeps.bind flatS_pre (flat_event _) fun _ => ?_
    refine Keeps.bind flatS_pre (fun s a s' e => by cases e; exact fun h => h) fun _ => ?_
    refine Keeps.chk flatS_pre (flat_headerOf E _) ?_
    intro s a s' e
    cases e
    exact fun h => h

theorem flat_footZlib (x : BitVec 32) : Keeps FlatS (readFooterZlib x) :=
  flat_needBytes _ _ fun _ => Keeps.ite (fun _ => flat_fail _) fun _ => Keeps.pure flatS_pre _

theorem flat_footGzip (x : BitVec 32) : Keeps FlatS (readFooterGZIP x) :=
  flat_needBytes _ _ fun p => flat_needBytes _ _ fun q => by
    intro s a s' e
    split at e
    · exact flat_fail _ _ _ _ e
    · simp only [] at e
      split at e
      · exact flat_fail _ _ _ _ e
      · cases e; exact fun h => h

theorem flat_footerOf (f : Format) (x y : BitVec 32) : Keeps FlatS (readFooterOf f x y) := by
  cases f with
  | raw => exact Keeps.pure flatS_pre _
  | zlib => exact flat_footZlib _
  | gzip => exact flat_footGzip _
  | default => exact Keeps.panic _

/-- whatever went before -/
theorem flat_footer {s s' : RState} {b : Bool} (e : readFooter s = .ok (b, s')) : Flat s'.inp := by
  unfold readFooter at e
  obtain ⟨a, t, e1, e2⟩ := Go.bind_eq_ok.1 e
  have ht : t = { s with inp := Rd.discard s.inp } := by
    unfold onInp at e1
    cases e1
    rfl
  have hf : Flat t.inp := by rw [ht]; exact flat_discard _
  have : Keeps FlatS (do
      sendEvent (.streamEnd t.out.adler t.out.crc)
      Go.chk (readFooterOf t.actualFormat t.out.adler t.out.crc) do
        sendEvent .streamClose
        pure true : Go RState Bool) :=
    Keeps.bind flatS_pre (flat_event _) fun _ => Keeps.chk flatS_pre (flat_footerOf _ _ _) (Keeps.bind flatS_pre (flat_event _) fun _ => Keeps.pure flatS_pre _)
  exact this t b s' e2 hf

theorem flat_stream (E : Env) : Keeps FlatS (readStream E) := by
  intro s b s' e h
  unfold readStream Go.chk at e
  rcases hx : readHeader E s with p | ⟨a, t⟩
  · rw [hx] at e; cases e
  · rw [hx] at e
    cases a
    · cases e; exact flat_header E _ _ _ hx h
    · obtain ⟨_, t1, _, e⟩ := Go.bind_eq_ok.1 e
      obtain ⟨_, t2, _, e⟩ := Go.bind_eq_ok.1 e
      obtain ⟨_, t3, _, e⟩ := Go.bind_eq_ok.1 e
      exact flat_footer e

theorem flat_streams (E : Env) : ∀ fuel, Keeps FlatS (streamLoop E fuel)
  | 0 => Keeps.panic _
  | fuel + 1 => by
    intro s a s' e
    unfold streamLoop at e
    split at e
    · rcases hx : readStream E s with p | ⟨b, t⟩
      · rw [hx] at e; cases e
      · rw [hx] at e
        cases b
        · cases e; exact flat_stream E _ _ _ hx
        · exact fun h => flat_streams E fuel _ _ _ e (flat_stream E _ _ _ hx h)
    · cases e; exact fun h => h

theorem flat_thread (E : Env) : Keeps FlatS (readThread E) := by
  unfold readThread
  refine Keeps.bind flatS_pre (fun s a s' e => by cases e; exact fun h => h) fun _ => ?_
  refine Keeps.bind flatS_pre (fun s a s' e => flat_streams E _ s a s' e) fun _ => ?_
  refine Keeps.bind flatS_pre (flat_onInp fun _ i a i' e => by cases e; exact fun h => h) fun _ => flat_propagate _

end Flate.Proof.R
