/-
Two runs of the Writer on platforms of different word sizes, with different underlying writers which do not fail: what is produced is the same, bit by bit, although the
moments at which bits are moved from the accumulator to the underlying writer differ.
-/
import Verif.Proof.WSim2

namespace Flate.Proof.Word
open Flate.Spec Flate.Model

/-! ### two runs, generally -/

/-- from states related by `P`, if both functions return, they return the same and the states are related by `Q` -/
def Sim {σ τ α : Type} (P Q : σ → τ → Prop) (f : Go σ α) (g : Go τ α) : Prop :=
  ∀ s t a s' b t', P s t → f s = .ok (a, s') → g t = .ok (b, t') → b = a ∧ Q s' t'

variable {σ τ α β : Type} {P Q S : σ → τ → Prop}

theorem Sim.weaken {P' Q' : σ → τ → Prop} {f : Go σ α} {g : Go τ α} (h : Sim P Q f g) (hp : ∀ s t, P' s t → P s t) (hq : ∀ s t, Q s t → Q' s t) : Sim P' Q' f g :=
  fun s t a s' b t' hP e e' => by
    obtain ⟨h1, h2⟩ := h s t a s' b t' (hp _ _ hP) e e'
    exact ⟨h1, hq _ _ h2⟩

theorem Sim.pure (a : α) : Sim P P (Pure.pure a : Go σ α) (Pure.pure a : Go τ α) := fun s t a s' b t' h e e' => by
  cases e; cases e'; exact ⟨rfl, h⟩

theorem Sim.panicL (e : Panic) (g : Go τ α) : Sim P Q (Go.panic e : Go σ α) g := fun s t a s' b t' h e _ => nomatch e

theorem Sim.assert (x : Bool) (m : String) : Sim P P (Go.assert x m : Go σ Unit) (Go.assert x m : Go τ Unit) := by
  cases x
  · exact fun s t a s' b t' h e _ => nomatch e
  · exact fun s t a s' b t' h e e' => by cases e; cases e'; exact ⟨rfl, h⟩

theorem Sim.lift (x : Partial α) : Sim P P (Go.lift x : Go σ α) (Go.lift x : Go τ α) := by
  cases x
  · exact fun s t a s' b t' h e _ => nomatch e
  · exact fun s t a s' b t' h e e' => by cases e; cases e'; exact ⟨rfl, h⟩

/-- what is lifted may be undefined on one side -/
theorem Sim.lift₂ {x y : Partial α} (hxy : ∀ a b, x = .ok a → y = .ok b → b = a) : Sim P P (Go.lift x : Go σ α) (Go.lift y : Go τ α) := by
  intro s t a s' b t' h e e'
  cases x with
  | error p => cases e
  | ok a0 =>
    cases y with
    | error p => cases e'
    | ok b0 => cases e; cases e'; exact ⟨hxy _ _ rfl rfl, h⟩

theorem Sim.bind {x : Go σ α} {x' : Go τ α} {f : α → Go σ β} {f' : α → Go τ β} (hx : Sim P Q x x') (hf : ∀ a, Sim Q S (f a) (f' a)) : Sim P S (x >>= f) (x' >>= f') := by
  intro s t b u b' u' h e e'
  obtain ⟨a, s1, e1, e2⟩ := Go.bind_eq_ok.1 e
  obtain ⟨a', s1', e1', e2'⟩ := Go.bind_eq_ok.1 e'
  obtain ⟨rfl, h1⟩ := hx _ _ _ _ _ _ h e1 e1'
  exact hf _ _ _ _ _ _ _ h1 e2 e2'

/-- functions which are simulated and do not return false -/
def SimT (P Q : σ → τ → Prop) (f : Go σ Bool) (g : Go τ Bool) : Prop :=
  ∀ s t a s' b t', P s t → f s = .ok (a, s') → g t = .ok (b, t') → a = true ∧ b = true ∧ Q s' t'

theorem SimT.weaken {P' Q' : σ → τ → Prop} {f : Go σ Bool} {g : Go τ Bool} (h : SimT P Q f g) (hp : ∀ s t, P' s t → P s t) (hq : ∀ s t, Q s t → Q' s t) : SimT P' Q' f g :=
  fun s t a s' b t' hP e e' => by
    obtain ⟨h1, h2, h3⟩ := h s t a s' b t' (hp _ _ hP) e e'
    exact ⟨h1, h2, hq _ _ h3⟩

theorem SimT.sim {f : Go σ Bool} {g : Go τ Bool} (h : SimT P Q f g) : Sim P Q f g := fun s t a s' b t' hP e e' => by
  obtain ⟨rfl, rfl, h3⟩ := h _ _ _ _ _ _ hP e e'
  exact ⟨rfl, h3⟩

theorem SimT.pure : SimT P P (Pure.pure true : Go σ Bool) (Pure.pure true : Go τ Bool) := fun s t a s' b t' h e e' => by
  cases e; cases e'; exact ⟨rfl, rfl, h⟩

theorem SimT.panicL (e : Panic) (g : Go τ Bool) : SimT P Q (Go.panic e : Go σ Bool) g := fun s t a s' b t' h e _ => nomatch e

theorem SimT.bind {x : Go σ α} {x' : Go τ α} {f : α → Go σ Bool} {f' : α → Go τ Bool} (hx : Sim P Q x x') (hf : ∀ a, SimT Q S (f a) (f' a)) : SimT P S (x >>= f) (x' >>= f') := by
  intro s t b u b' u' h e e'
  obtain ⟨a, s1, e1, e2⟩ := Go.bind_eq_ok.1 e
  obtain ⟨a', s1', e1', e2'⟩ := Go.bind_eq_ok.1 e'
  obtain ⟨rfl, h1⟩ := hx _ _ _ _ _ _ h e1 e1'
  exact hf _ _ _ _ _ _ _ h1 e2 e2'

theorem chk_inv {x y : Go σ Bool} {s s' : σ} {b : Bool} (h : Go.chk x y s = .ok (b, s')) :
    (∃ u, x s = .ok (true, u) ∧ y u = .ok (b, s')) ∨ (b = false ∧ x s = .ok (false, s')) := by
  unfold Go.chk at h
  cases e : x s with
  | error p => rw [e] at h; cases h
  | ok r =>
    obtain ⟨_ | _, u⟩ := r
    · rw [e] at h; cases h; exact Or.inr ⟨rfl, rfl⟩
    · rw [e] at h; exact Or.inl ⟨u, rfl, h⟩

theorem SimT.chk {x y : Go σ Bool} {x' y' : Go τ Bool} (hx : SimT P Q x x') (hy : SimT Q S y y') : SimT P S (Go.chk x y) (Go.chk x' y') := by
  intro s t b u b' u' h e e'
  rcases chk_inv e with ⟨v, e1, e2⟩ | ⟨_, e1⟩ <;> rcases chk_inv e' with ⟨v', e1', e2'⟩ | ⟨_, e1'⟩
  · exact hy _ _ _ _ _ _ (hx _ _ _ _ _ _ h e1 e1').2.2 e2 e2'
  · exact absurd (hx _ _ _ _ _ _ h e1 e1').2.1 (by simp)
  · exact absurd (hx _ _ _ _ _ _ h e1 e1').1 (by simp)
  · exact absurd (hx _ _ _ _ _ _ h e1 e1').1 (by simp)

/-! ### the block writers -/

/-- two bit writers which do the same -/
structure Alike (P : σ → τ → Prop) (w : BitWriter σ) (w' : BitWriter τ) : Prop where
  buf : ∀ p, SimT P P (w.bufWrite p) (w'.bufWrite p)
  u16 : ∀ v, SimT P P (w.bufWriteU16 v) (w'.bufWriteU16 v)
  bits : ∀ n v, SimT P P (w.bitsWrite n v) (w'.bitsWrite n v)
  flush : SimT P P w.bitsFlush w'.bitsFlush
  ev : ∀ k, Sim P P (w.sendEvent k) (w'.sendEvent k)

section
variable {w : BitWriter σ} {w' : BitWriter τ} (H : Alike P w w')
include H

theorem sim_forAll {γ : Type} {f : γ → Go σ Bool} {f' : γ → Go τ Bool} (hf : ∀ x, SimT P P (f x) (f' x)) : ∀ xs, SimT P P (forAll f xs) (forAll f' xs)
  | [] => SimT.pure
  | x :: xs => SimT.chk (hf x) (sim_forAll hf xs)

theorem sim_evStep (k : EvKind) : SimT P P (evStep w k) (evStep w' k) := SimT.bind (H.ev k) fun _ => SimT.pure

theorem sim_extraWrite (n v : Nat) : SimT P P (extraWrite w n v) (extraWrite w' n v) := by
  unfold extraWrite
  split
  · exact H.bits n v
  · exact SimT.pure

theorem sim_encodeLLD (ll d : List Nat) (t : Token) : SimT P P (encodeLLD w ll d t) (encodeLLD w' ll d t) := by
  unfold encodeLLD
  refine SimT.bind (Sim.lift _) (fun x => SimT.bind (Sim.lift _) (fun y => ?_))
  obtain ⟨s1, n1, v1⟩ := x
  obtain ⟨s2, n2, v2⟩ := y
  cases s1 with
  | none => exact SimT.pure
  | some s1 =>
    refine SimT.chk (H.bits _ _) (SimT.chk (sim_extraWrite H _ _) ?_)
    cases s2 with
    | none => exact SimT.pure
    | some s2 => exact SimT.chk (H.bits _ _) (sim_extraWrite H _ _)

theorem sim_encodeX (cl : List Nat) (t : Token) : SimT P P (encodeX w cl t) (encodeX w' cl t) := by
  unfold encodeX
  rcases t.symbolX with ⟨_ | s, n, v⟩
  · exact SimT.pure
  · exact SimT.chk (H.bits _ _) (sim_extraWrite H _ _)

theorem sim_stored (data : List UInt8) (f : Bool) : SimT P P (writeStoredBlock w data f) (writeStoredBlock w' data f) := by
  unfold writeStoredBlock
  exact SimT.bind (Sim.assert _ _) fun _ => SimT.chk (sim_evStep H _) <| SimT.chk (H.bits _ _) <| SimT.chk H.flush <|
    SimT.chk (H.u16 _) <| SimT.chk (H.u16 _) <| SimT.chk (H.buf _) <| sim_evStep H _

omit H in
theorem sim_assertStop (ts : List Token) : Sim P P (assertStop ts : Go σ Unit) (assertStop ts : Go τ Unit) := by
  unfold assertStop
  exact Sim.bind (Sim.assert _ _) fun _ => Sim.bind (Sim.lift _) fun _ => Sim.assert _ _

theorem sim_static (ts : List Token) (f : Bool) : SimT P P (writeStaticBlock w ts f) (writeStaticBlock w' ts f) := by
  unfold writeStaticBlock
  exact SimT.bind (sim_assertStop _) fun _ => SimT.chk (sim_evStep H _) <| SimT.chk (H.bits _ _) <| SimT.chk (sim_evStep H _) <|
    SimT.chk (sim_forAll H (fun t => sim_encodeLLD H _ _ t) _) <| sim_evStep H _

theorem sim_dynamic (L : HuffLib) (sLL sD : List Nat) (ts : List Token) (f : Bool) : SimT P P (writeDynamicBlock w L sLL sD ts f) (writeDynamicBlock w' L sLL sD ts f) := by
  unfold writeDynamicBlock
  refine SimT.bind (sim_assertStop _) fun _ => SimT.chk (sim_evStep H _) <| SimT.chk (H.bits _ _) <| ?_
  refine SimT.bind (Sim.lift _) fun x => SimT.bind (Sim.lift _) fun y => SimT.bind (Sim.lift _) fun z => ?_
  exact SimT.chk (H.bits _ _) <| SimT.chk (H.bits _ _) <| SimT.chk (H.bits _ _) <| SimT.chk (sim_forAll H (fun i => H.bits _ _) _) <|
    SimT.chk (sim_forAll H (fun t => sim_encodeX H _ t) _) <| SimT.chk (sim_evStep H _) <| SimT.chk (sim_forAll H (fun t => sim_encodeLLD H _ _ t) _) <| sim_evStep H _

end

/-- counting bits does not depend on the word size -/
theorem counters (W W' : Nat) : Alike (fun n m : Nat => m = n) (bitcounter W) (bitcounter W') where
  buf p := fun s t a s' b t' h e e' => by cases e; cases e'; subst h; exact ⟨rfl, rfl, rfl⟩
  u16 v := fun s t a s' b t' h e e' => by cases e; cases e'; subst h; exact ⟨rfl, rfl, rfl⟩
  bits n v := fun s t a s' b t' h e e' => by
    simp only [bitcounter] at e e'
    subst h
    split at e
    · split at e'
      · cases e; cases e'; exact ⟨rfl, rfl, rfl⟩
      · cases e'
    · cases e
  flush := fun s t a s' b t' h e e' => by cases e; cases e'; subst h; exact ⟨rfl, rfl, rfl⟩
  ev k := fun s t a s' b t' h e e' => by cases e; cases e'; exact ⟨rfl, h⟩

theorem countBits_eq {W W' : Nat} {f : BitWriter Nat → Go Nat Bool} (h : SimT (fun n m : Nat => m = n) (fun n m => m = n) (f (bitcounter W)) (f (bitcounter W'))) (a b : Nat)
    (e : countBits W f = .ok a) (e' : countBits W' f = .ok b) : b = a := by
  unfold countBits at e e'
  cases h1 : f (bitcounter W) 0 with
  | error p => rw [h1] at e; cases e
  | ok r =>
    cases h2 : f (bitcounter W') 0 with
    | error p => rw [h2] at e'; cases e'
    | ok r' =>
      obtain ⟨x, n⟩ := r
      obtain ⟨x', n'⟩ := r'
      rw [h1] at e
      rw [h2] at e'
      cases e; cases e'
      exact (h _ _ _ _ _ _ rfl h1 h2).2.2

theorem sim_compressTokens {w : BitWriter σ} {w' : BitWriter τ} (H : Alike P w w') (W W' : Nat) (L : HuffLib) (data : List UInt8) (ts : List Token) (f : Bool) :
    SimT P P (compressTokens w W L data ts f) (compressTokens w' W' L data ts f) := by
  unfold compressTokens
  refine SimT.bind (Sim.lift _) fun x => SimT.bind (Sim.lift₂ (countBits_eq (sim_dynamic (counters W W') _ _ _ _ _))) fun y =>
    SimT.bind (Sim.lift₂ (countBits_eq (sim_static (counters W W') _ _))) fun z => ?_
  dsimp only
  split
  · exact sim_stored H _ _
  · split
    · exact sim_static H _ _
    · exact sim_dynamic H _ _ _ _ _

/-! ### the Writer -/

/-- what may be required: the accumulators are empty; the checksums of the output agree; a stream is open -/
structure Fl where
  ob : Bool := false
  crc : Bool := false
  opn : Bool := false

/-- what the tracers see which does not depend on the moment at which bytes are delivered -/
def seen (e : Sent) : Event × Nat := ({ e.ev with outTotal := 0, outStream := 0 }, e.buffered)

/-- The two states agree, except for the word size and how much of what was produced waits in the accumulator. -/
structure R (φ : Fl) (s s' : WState) : Prop where
  inv : WInv s
  inv' : WInv s'
  dep : Sim.Dep s.sink
  dep' : Sim.Dep s'.sink
  o : s'.o = s.o
  err : s'.err = s.err
  adler : s'.adler = s.adler
  crcIn : s'.crcIn = s.crcIn
  lz : s'.lz = s.lz
  inTotal : s'.inTotal = s.inTotal
  inStream : s'.inStream = s.inStream
  numStreams : s'.numStreams = s.numStreams
  state : s'.state = s.state
  header : s'.header = s.header
  view : view s' = view s
  evs : s'.events.map seen = s.events.map seen
  live : s.state ≠ .error ∧ s.state ≠ .closed
  idle : s.state = .noStream ∨ s.state = .closedStream → s.obLen = 0 ∧ s'.obLen = 0
  ob : φ.ob = true → s.obLen = 0 ∧ s'.obLen = 0
  crc : φ.crc = true → s'.crcOut = s.crcOut
  opn : φ.opn = true → s.state = .openStream ∨ s.state = .closingStream

/-- no more is required of `φ'` than of `φ` -/
structure Fl.Le (φ' φ : Fl) : Prop where
  ob : φ'.ob = true → φ.ob = true := by first | exact id | simp
  crc : φ'.crc = true → φ.crc = true := by first | exact id | simp
  opn : φ'.opn = true → φ.opn = true := by first | exact id | simp

theorem R.weaken {φ φ' : Fl} {s s' : WState} (h : R φ s s') (hle : φ'.Le φ) : R φ' s s' :=
  { h with ob := fun e => h.ob (hle.ob e), crc := fun e => h.crc (hle.crc e), opn := fun e => h.opn (hle.opn e) }

theorem R.pushed {φ : Fl} {s s' : WState} (h : R φ s s') (h1 : s.obLen = 0) (h2 : s'.obLen = 0) : Proof.pushed s' = Proof.pushed s := by
  have := h.view
  unfold Proof.view at this
  rw [h1, h2] at this
  simp only [natBits, List.append_nil] at this
  exact bytesBits_inj this

/-- both produce the same bits -/
theorem R.out {φ φ' : Fl} {s s' t t' : WState} {bits : List Bool} (h : R φ s s') (st : Step s t []) (av : Adv s t bits) (st' : Step s' t' []) (av' : Adv s' t' bits)
    (hi : s.state = .noStream ∨ s.state = .closedStream → t.obLen = 0 ∧ t'.obLen = 0) (ho : φ'.ob = true → t.obLen = 0 ∧ t'.obLen = 0) (hc : φ'.crc = true → t'.crcOut = t.crcOut)
    (hp : φ'.opn = true → φ.opn = true) : R φ' t t' where
  inv := av.inv
  inv' := av'.inv
  dep := by obtain ⟨a, b, c⟩ := h.dep; exact ⟨by rw [st.core.wfail]; exact a, by rw [st.core.ffail]; exact b, by rw [st.core.sfail]; exact c⟩
  dep' := by obtain ⟨a, b, c⟩ := h.dep'; exact ⟨by rw [st'.core.wfail]; exact a, by rw [st'.core.ffail]; exact b, by rw [st'.core.sfail]; exact c⟩
  o := by rw [st.core.o, st'.core.o, h.o]
  err := by rw [av.err, av'.err, h.err]
  adler := by rw [st.core.adler, st'.core.adler, h.adler]
  crcIn := by rw [st.core.crcIn, st'.core.crcIn, h.crcIn]
  lz := by rw [st.core.lz, st'.core.lz, h.lz]
  inTotal := by rw [st.core.inTotal, st'.core.inTotal, h.inTotal]
  inStream := by rw [st.core.inStream, st'.core.inStream, h.inStream]
  numStreams := by rw [st.core.numStreams, st'.core.numStreams, h.numStreams]
  state := by rw [av.state, av'.state, h.state]
  header := by rw [st.core.header, st'.core.header, h.header]
  view := by rw [av.view, av'.view, h.view]
  evs := by rw [st.ev, st'.ev, List.append_nil, List.append_nil, h.evs]
  live := by rw [av.state]; exact h.live
  idle e := by rw [av.state] at e; exact hi e
  ob := ho
  crc := hc
  opn e := by rw [av.state]; exact h.opn (hp e)

theorem R.rel {φ : Fl} {s s' : WState} (h : R φ s s') : Reliable s ∧ Reliable s' := ⟨h.dep.1, h.dep'.1⟩

theorem sim_bitsFlush {p : Bool} : SimT (R ⟨false, false, p⟩) (R ⟨true, false, p⟩) wBitsFlush wBitsFlush := by
  intro s s' a t b t' h e e'
  obtain ⟨a1, t1, e1, st, ok, _, rel⟩ := wBitsFlush_gen h.inv.hW (Nat.le_of_lt h.inv.lt) h.inv.blk h.inv.out
  obtain ⟨b1, t1', e1', st', ok', _, rel'⟩ := wBitsFlush_gen h.inv'.hW (Nat.le_of_lt h.inv'.lt) h.inv'.blk h.inv'.out
  rw [e1] at e; rw [e1'] at e'
  cases e; cases e'
  obtain ⟨av, z⟩ := ok (rel h.rel.1)
  obtain ⟨av', z'⟩ := ok' (rel' h.rel.2)
  rw [h.view] at av'
  exact ⟨rel h.rel.1, rel' h.rel.2, h.out st av st' av' (fun _ => ⟨z, z'⟩) (fun _ => ⟨z, z'⟩) (fun e => nomatch e) id⟩

/-- bytes on a byte boundary -/
theorem sim_bufWrite0 {c p : Bool} (x : List UInt8) : SimT (R ⟨true, c, p⟩) (R ⟨true, c, p⟩) (wBufWrite x) (wBufWrite x) := by
  intro s s' a t b t' h e e'
  obtain ⟨o1, o2⟩ := h.ob rfl
  obtain ⟨a1, t1, e1, st, ok, _, rel⟩ := wBufWrite_byteOut h.inv o1 x
  obtain ⟨b1, t1', e1', st', ok', _, rel'⟩ := wBufWrite_byteOut h.inv' o2 x
  rw [e1] at e; rw [e1'] at e'
  cases e; cases e'
  obtain ⟨i, g1, g2, g3, z, g5, g6⟩ := ok (rel h.rel.1)
  obtain ⟨i', g1', g2', g3', z', g5', g6'⟩ := ok' (rel' h.rel.2)
  have hv : ∀ u : WState, u.obLen = 0 → view u = bytesBits (pushed u) := fun u hu => by unfold view; rw [hu]; simp [natBits]
  refine ⟨rel h.rel.1, rel' h.rel.2, h.out (bits := bytesBits x) st ⟨i, g1, g2, g3, ?_, _, g5, g6⟩ st' ⟨i', g1', g2', g3', ?_, _, g5', g6'⟩ (fun _ => ⟨z, z'⟩) (fun _ => ⟨z, z'⟩) (fun e => ?_) id⟩
  · rw [hv _ z, hv _ o1, g5, bytesBits_append]
  · rw [hv _ z', hv _ o2, g5', bytesBits_append]
  · rw [g6, g6', h.crc e]

theorem sim_bufWrite {p : Bool} (x : List UInt8) : SimT (R ⟨false, false, p⟩) (R ⟨true, false, p⟩) (wBufWrite x) (wBufWrite x) := by
  have e0 : wBufWrite x = Go.chk wBitsFlush (wBufWrite x) := by
    unfold wBufWrite
    funext s
    unfold Go.chk
    cases e : wBitsFlush s with
    | error q => rfl
    | ok r =>
      obtain ⟨_ | _, u⟩ := r
      · rfl
      · have : wBitsFlush u = .ok (true, u) := by
          unfold wBitsFlush at e
          split at e
          · cases e; unfold wBitsFlush; rename_i h0; rw [if_pos h0]
          · obtain ⟨b, t, e1, _, z, _⟩ := outWrite_any ((leBytes (s.W / 8) s.obBlock).take ((s.obLen + 7) / 8)) { s with obLen := 0, obBlock := 0 }
            rw [e1] at e
            cases e
            unfold wBitsFlush
            rw [if_pos z]
        simp only [this]
  rw [e0]
  exact SimT.chk sim_bitsFlush (sim_bufWrite0 x)

theorem sim_bitsWrite (n v : Nat) : SimT (R ⟨false, false, true⟩) (R ⟨false, false, true⟩) (wBitsWrite n v) (wBitsWrite n v) := by
  intro s s' a t b t' h e e'
  by_cases hn : n ≤ s.W
  · by_cases hn' : n ≤ s'.W
    · obtain ⟨a1, t1, es, e1, st, ok, _, rel⟩ := wBitsWrite_does h.inv hn v
      obtain ⟨b1, t1', es', e1', st', ok', _, rel'⟩ := wBitsWrite_does h.inv' hn' v
      rw [e1] at e; rw [e1'] at e'
      cases e; cases e'
      obtain ⟨av, k⟩ := ok (rel h.rel.1)
      obtain ⟨av', k'⟩ := ok' (rel' h.rel.2)
      have : es = [] := by cases es with | nil => rfl | cons => cases k
      subst this
      have : es' = [] := by cases es' with | nil => rfl | cons => cases k'
      subst this
      exact ⟨rel h.rel.1, rel' h.rel.2, h.out st av st' av' (fun e => by rcases h.opn rfl with o | o <;> rw [o] at e <;> rcases e with e | e <;> cases e)
        (fun e => nomatch e) (fun e => nomatch e) id⟩
    · unfold wBitsWrite at e'
      rw [if_pos (Nat.le_of_lt h.inv'.lt), if_neg hn'] at e'
      cases e'
  · unfold wBitsWrite at e
    rw [if_pos (Nat.le_of_lt h.inv.lt), if_neg hn] at e
    cases e

theorem sim_sendEvent {φ : Fl} (k : EvKind) : Sim (R φ) (R φ) (wSendEvent k) (wSendEvent k) := by
  intro s s' a t b t' h e e'
  cases e; cases e'
  refine ⟨rfl, { h with
    inv := ⟨h.inv.hW, h.inv.lt, h.inv.blk, h.inv.out⟩, inv' := ⟨h.inv'.hW, h.inv'.lt, h.inv'.blk, h.inv'.out⟩
    evs := ?_ }⟩
  simp only [List.map_append, h.evs, List.map_cons, List.map_nil, seen, wEvent, h.inTotal, h.inStream, h.numStreams, h.o, h.lz]

abbrev op : Fl := ⟨false, false, true⟩

theorem writers : Alike (R op) wBW wBW where
  buf p := (sim_bufWrite p).weaken (fun _ _ h => h) (fun _ _ h => h.weaken {})
  u16 v := (sim_bufWrite (leBytes 2 v)).weaken (fun _ _ h => h) (fun _ _ h => h.weaken {})
  bits := sim_bitsWrite
  flush := sim_bitsFlush.weaken (fun _ _ h => h) (fun _ _ h => h.weaken {})
  ev := sim_sendEvent

/-! ### input -/

theorem R.account {φ : Fl} {s s' : WState} (h : R φ s s') (p : List UInt8) (z : LZ) : R φ (account p { s with lz := z }) (account p { s' with lz := z }) :=
  { h with
    inv := ⟨h.inv.hW, h.inv.lt, h.inv.blk, h.inv.out⟩, inv' := ⟨h.inv'.hW, h.inv'.lt, h.inv'.blk, h.inv'.out⟩
    adler := by simp only [Model.account, h.adler]
    crcIn := by simp only [Model.account, h.crcIn]
    lz := rfl
    inTotal := by simp only [Model.account, h.inTotal]
    inStream := by simp only [Model.account, h.inStream] }

theorem sim_inputRead {φ : Fl} (n : Nat) : Sim (R φ) (R φ) (inputBufferRead n) (inputBufferRead n) := by
  intro s s' a t b t' h e e'
  simp only [inputBufferRead] at e e'
  rw [h.lz] at e'
  cases e; cases e'
  exact ⟨rfl, h.account _ _⟩

theorem sim_inputAdvance {φ : Fl} : Sim (R φ) (R φ) inputBufferAdvance inputBufferAdvance := by
  intro s s' a t b t' h e e'
  simp only [inputBufferAdvance] at e e'
  rw [h.lz] at e'
  cases e; cases e'
  exact ⟨rfl, h.account _ _⟩

theorem sim_storeLoop : ∀ (fuel av : Nat), SimT (R op) (R op) (storeLoop fuel av) (storeLoop fuel av)
  | 0, _ => SimT.panicL _ _
  | fuel + 1, av => by
    unfold storeLoop
    split
    · exact SimT.pure
    · exact SimT.bind (sim_inputRead _) fun p => SimT.chk (sim_stored writers _ _) (sim_storeLoop fuel _)

theorem sim_tokenLoop : ∀ (fuel av : Nat) (bb : List UInt8) (ts : List Token), Sim (R op) (R op) (tokenLoop fuel av bb ts) (tokenLoop fuel av bb ts)
  | 0, _, _, _ => Sim.panicL _ _
  | fuel + 1, av, bb, ts => by
    unfold tokenLoop
    split
    · exact Sim.pure _
    · refine Sim.bind sim_inputAdvance fun x => ?_
      obtain ⟨p, m⟩ := x
      rcases m with _ | ⟨d, l⟩
      · cases p with
        | nil => exact Sim.panicL _ _
        | cons ch r => exact sim_tokenLoop fuel _ _ _
      · exact Sim.bind (Sim.assert _ _) fun _ => Sim.bind (Sim.assert _ _) fun _ => Sim.bind (Sim.lift _) fun t => sim_tokenLoop fuel _ _ _

theorem sim_compressStore (all : Bool) : SimT (R op) (R op) (compressStore all) (compressStore all) := by
  intro s s' a t b t' h e e'
  simp only [compressStore] at e e'
  rw [h.lz] at e'
  by_cases hc : s.lz.buf.length < storedBlockSize ∧ all = false ∧ s.lz.buf.length < s.lz.cap
  · rw [if_pos hc] at e e'
    cases e; cases e'
    exact ⟨rfl, rfl, h⟩
  · rw [if_neg hc] at e e'
    exact sim_storeLoop _ _ _ _ _ _ _ _ h e e'

theorem sim_compressSlow (L : HuffLib) (all : Bool) : SimT (R op) (R op) (compressSlow L all) (compressSlow L all) := by
  intro s s' a t b t' h e e'
  simp only [compressSlow] at e e'
  rw [h.lz] at e'
  by_cases hc : s.lz.buf.length < 4096 ∧ all = false ∧ s.lz.buf.length < s.lz.cap
  · rw [if_pos hc] at e e'
    cases e; cases e'
    exact ⟨rfl, rfl, h⟩
  · rw [if_neg hc] at e e'
    refine SimT.bind (sim_tokenLoop _ _ _ _) (fun x => ?_) _ _ _ _ _ _ h e e'
    exact sim_compressTokens writers _ _ _ _ _ _

/-! ### headers and footers -/

theorem sim_stringZ {c p : Bool} (x : List UInt8) : SimT (R ⟨true, c, p⟩) (R ⟨true, c, p⟩) (wBufWriteStringZ x) (wBufWriteStringZ x) := by
  unfold wBufWriteStringZ
  split
  · exact sim_bufWrite0 _
  · split
    · exact sim_bufWrite0 _
    · exact SimT.panicL _ _

theorem sim_gzString {c p : Bool} (x : List UInt8) : SimT (R ⟨true, c, p⟩) (R ⟨true, c, p⟩) (gzString x) (gzString x) := by
  unfold gzString
  split
  · exact SimT.pure
  · exact sim_stringZ x

theorem sim_gzExtra {c p : Bool} (x : Header) : SimT (R ⟨true, c, p⟩) (R ⟨true, c, p⟩) (gzExtra x) (gzExtra x) := by
  unfold gzExtra
  split
  · exact SimT.pure
  · exact SimT.chk (sim_bufWrite0 _) (sim_bufWrite0 _)

theorem SimT.dep {γ : Type} {P Q : WState → WState → Prop} (q : WState → γ) {g : γ → Go WState Bool} (hq : ∀ s s', P s s' → q s' = q s) (hg : ∀ a, SimT P Q (g a) (g a)) :
    SimT P Q (fun s => g (q s) s) (fun s => g (q s) s) := fun s s' a t b t' h e e' => by
  simp only [hq s s' h] at e'
  exact hg _ _ _ _ _ _ _ h e e'

theorem Sim.modify {φ φ' : Fl} (m : WState → WState) (hm : ∀ s s', R φ s s' → R φ' (m s) (m s')) : Sim (R φ) (R φ') (Go.modify m) (Go.modify m) :=
  fun s s' a t b t' h e e' => by cases e; cases e'; exact ⟨rfl, hm _ _ h⟩

/-- writer.go:690-739, given the options and the header -/
def gzHead (x : Options × Header) : Go WState Bool := do
  Go.modify (fun s : WState => { s with crcOut := Crc.init })
  (Go.chk (wBufWrite (gzipHeaderBytes x.1 x.2)) <| Go.chk (gzExtra x.2) <| Go.chk (gzString x.2.fileName) <| Go.chk (gzString x.2.comment) <|
    fun s => wBufWriteU16 (s.crcOut.toNat % 65536) s : Go WState Bool)

theorem sim_headerGZIP : SimT (R ⟨true, false, false⟩) (R ⟨true, false, false⟩) writeHeaderGZIP writeHeaderGZIP := by
  have e : writeHeaderGZIP = fun s => gzHead (s.o, s.header) s := by
    funext s; rfl
  rw [e]
  refine SimT.dep _ (fun s s' h => by rw [h.o, h.header]) fun x => ?_
  refine SimT.bind (Q := R ⟨true, true, false⟩) (Sim.modify _ fun s s' h => { h with
    inv := ⟨h.inv.hW, h.inv.lt, h.inv.blk, h.inv.out⟩, inv' := ⟨h.inv'.hW, h.inv'.lt, h.inv'.blk, h.inv'.out⟩, crc := fun _ => rfl, opn := fun e => (nomatch e) }) fun _ => ?_
  refine SimT.weaken (P := R ⟨true, true, false⟩) (Q := R ⟨true, true, false⟩) ?_ (fun _ _ h => h) (fun _ _ h => h.weaken {})
  exact SimT.chk (sim_bufWrite0 _) <| SimT.chk (sim_gzExtra _) <| SimT.chk (sim_gzString _) <| SimT.chk (sim_gzString _) <|
    SimT.dep (g := wBufWriteU16) (fun s => s.crcOut.toNat % 65536) (fun s s' h => by rw [h.crc rfl]) (fun v => sim_bufWrite0 (leBytes 2 v))

/-- the header of the chosen format -/
def headFmt (f : Format) : Go WState Bool := match f with
  | .raw => pure true
  | .zlib => writeHeaderZlib
  | .gzip => writeHeaderGZIP
  | .default => Go.panic (.assert "Format not implemented")

theorem sim_headFmt (f : Format) : SimT (R ⟨true, false, false⟩) (R ⟨true, false, false⟩) (headFmt f) (headFmt f) := by
  cases f
  · exact SimT.panicL _ _
  · exact SimT.pure
  · exact SimT.dep (fun s => zlibHeaderBytes s.o) (fun s s' h => by rw [h.o]) fun x => sim_bufWrite0 x
  · exact sim_headerGZIP

theorem sim_hdrWrite : SimT (R ⟨true, false, false⟩) (R ⟨true, false, false⟩) Sim.hdrWrite Sim.hdrWrite := by
  have e : Sim.hdrWrite = (do
      Go.modify fun s : WState => { s with inStream := 0, outStream := 0, numStreams := s.numStreams + 1 }
      Go.modify fun s => { s with lz := { s.lz with hist := s.o.dict.getD [] } }
      wSendEvent .streamBegin
      Go.modify fun s => { s with header := fillHeader s }
      fun s => headFmt s.o.format s : Go WState Bool) := rfl
  rw [e]
  refine SimT.bind (Q := R ⟨true, false, false⟩) (Sim.modify _ fun s s' h => { h with
    inv := ⟨h.inv.hW, h.inv.lt, h.inv.blk, h.inv.out⟩, inv' := ⟨h.inv'.hW, h.inv'.lt, h.inv'.blk, h.inv'.out⟩
    inStream := rfl, numStreams := by simp only [h.numStreams] }) fun _ => ?_
  refine SimT.bind (Q := R ⟨true, false, false⟩) (Sim.modify _ fun s s' h => { h with
    inv := ⟨h.inv.hW, h.inv.lt, h.inv.blk, h.inv.out⟩, inv' := ⟨h.inv'.hW, h.inv'.lt, h.inv'.blk, h.inv'.out⟩
    lz := by simp only [h.lz, h.o] }) fun _ => ?_
  refine SimT.bind (sim_sendEvent _) fun _ => ?_
  refine SimT.bind (Q := R ⟨true, false, false⟩) (Sim.modify _ fun s s' h => { h with
    inv := ⟨h.inv.hW, h.inv.lt, h.inv.blk, h.inv.out⟩, inv' := ⟨h.inv'.hW, h.inv'.lt, h.inv'.blk, h.inv'.out⟩
    header := by simp only [fillHeader, h.lz, h.o, h.header] }) fun _ => ?_
  exact SimT.dep (fun s => s.o.format) (fun s s' h => by rw [h.o]) sim_headFmt

/-- the end of `writeHeader`, given the header -/
def headDone (x : Header) : Go WState Bool := do
  wSendEvent (.streamHeader x)
  Go.modify fun s : WState => { s with adler := Adler.init, crcIn := Crc.init, state := .openStream }
  pure true

theorem sim_openStream : SimT (R ⟨true, false, false⟩) (R op) (Go.chk writeHeader (setState .openStream)) (Go.chk writeHeader (setState .openStream)) := by
  have e : Go.chk writeHeader (setState .openStream) = Go.chk Sim.hdrWrite (fun s => headDone s.header s) := by
    rw [Sim.writeHeader_eq]
    funext s
    unfold Go.chk
    cases Sim.hdrWrite s with
    | error e => rfl
    | ok r => obtain ⟨_ | _, t⟩ := r <;> rfl
  rw [e]
  refine SimT.chk sim_hdrWrite (SimT.dep (P := R ⟨true, false, false⟩) (fun s => s.header) (fun s s' h => h.header) fun x => ?_)
  refine SimT.bind (sim_sendEvent _) fun _ => ?_
  refine SimT.bind (Q := R op) (Sim.modify _ fun s s' h => { h with
    inv := ⟨h.inv.hW, h.inv.lt, h.inv.blk, h.inv.out⟩, inv' := ⟨h.inv'.hW, h.inv'.lt, h.inv'.blk, h.inv'.out⟩
    adler := rfl, crcIn := rfl, state := rfl, live := ⟨fun e => (by cases e), fun e => (by cases e)⟩, idle := fun e => (by rcases e with e | e <;> cases e)
    ob := fun e => (nomatch e), opn := fun _ => Or.inl rfl }) fun _ => SimT.pure

theorem sim_footerGZIP {p : Bool} (c : BitVec 32) : SimT (R ⟨true, false, p⟩) (R ⟨true, false, p⟩) (writeFooterGZIP c) (writeFooterGZIP c) := by
  intro s s' a t b t' h e e'
  simp only [writeFooterGZIP] at e e'
  obtain ⟨x, s1, e1, e⟩ := Go.bind_eq_ok.1 e
  obtain ⟨x', s1', e1', e'⟩ := Go.bind_eq_ok.1 e'
  obtain ⟨rfl, rfl, h1⟩ := sim_bufWrite0 _ _ _ _ _ _ _ h e1 e1'
  obtain ⟨_, _, e2, e⟩ := Go.bind_eq_ok.1 e
  obtain ⟨_, _, e2', e'⟩ := Go.bind_eq_ok.1 e'
  cases e2; cases e2'
  rw [h1.inStream] at e'
  obtain ⟨y, s2, e3, e⟩ := Go.bind_eq_ok.1 e
  obtain ⟨y', s2', e3', e'⟩ := Go.bind_eq_ok.1 e'
  obtain ⟨rfl, rfl, h2⟩ := sim_bufWrite0 _ _ _ _ _ _ _ h1 e3 e3'
  cases e; cases e'
  exact ⟨rfl, rfl, h2⟩

/-- the footer of the chosen format -/
def footFmt (x : Format × BitVec 32 × BitVec 32) : Go WState Bool := do
  wSendEvent (.streamEnd x.2.1 x.2.2)
  Go.chk (match x.1 with
    | .raw => pure true
    | .zlib => writeFooterZlib x.2.1
    | .gzip => writeFooterGZIP x.2.2
    | .default => Go.panic (.assert "Format not implemented")) (do
      wSendEvent .streamClose
      pure true)

theorem sim_footFmt (x : Format × BitVec 32 × BitVec 32) : SimT (R ⟨true, false, true⟩) (R ⟨true, false, true⟩) (footFmt x) (footFmt x) := by
  obtain ⟨f, a, c⟩ := x
  refine SimT.bind (sim_sendEvent _) fun _ => SimT.chk ?_ (SimT.bind (sim_sendEvent _) fun _ => SimT.pure)
  cases f
  · exact SimT.panicL _ _
  · exact SimT.pure
  · exact sim_bufWrite0 _
  · exact sim_footerGZIP c

theorem sim_footer : SimT (R op) (R ⟨true, false, true⟩) writeFooter writeFooter := by
  have e : writeFooter = Go.chk wBitsFlush (fun s => footFmt (s.o.format, s.adler, s.crcIn) s) := rfl
  rw [e]
  exact SimT.chk sim_bitsFlush (SimT.dep (fun s => (s.o.format, s.adler, s.crcIn)) (fun s s' h => by rw [h.o, h.adler, h.crcIn]) sim_footFmt)

/-! ### the methods -/

theorem sim_finishClosing : SimT (R {}) (R {}) finishClosing finishClosing := by
  intro s s' a t b t' h e e'
  unfold finishClosing at e e'
  rw [h.state] at e'
  by_cases hs : s.state = .closingStream
  · rw [if_pos hs] at e e'
    refine SimT.chk (P := R op) (S := R {}) sim_footer (fun s s' a t b t' h e e' => ?_) _ _ _ _ _ _ { h with ob := fun e => (nomatch e), crc := fun e => (nomatch e), opn := fun _ => Or.inr hs } e e'
    cases e; cases e'
    exact ⟨rfl, rfl, { h with
      inv := ⟨h.inv.hW, h.inv.lt, h.inv.blk, h.inv.out⟩, inv' := ⟨h.inv'.hW, h.inv'.lt, h.inv'.blk, h.inv'.out⟩
      state := rfl, live := ⟨fun e => (by cases e), fun e => (by cases e)⟩, idle := fun _ => h.ob rfl, ob := fun e => (nomatch e), opn := fun e => (nomatch e) }⟩
  · rw [if_neg hs] at e e'
    cases e; cases e'
    exact ⟨rfl, rfl, h⟩

theorem sim_opened (q : WState → Prop) [DecidablePred q] (hq : ∀ s s', R {} s s' → (q s' ↔ q s)) (hi : ∀ s, q s → s.state = .noStream ∨ s.state = .closedStream) :
    SimT (R {}) (R {}) (fun s => if q s then Go.chk writeHeader (setState .openStream) s else .ok (true, s)) (fun s => if q s then Go.chk writeHeader (setState .openStream) s else .ok (true, s)) := by
  intro s s' a t b t' h e e'
  simp only at e e'
  by_cases hs : q s
  · rw [if_pos hs] at e
    rw [if_pos ((hq _ _ h).2 hs)] at e'
    have hr : R ⟨true, false, false⟩ s s' := { h with ob := fun _ => h.idle (hi _ hs) }
    obtain ⟨h1, h2, h3⟩ := sim_openStream _ _ _ _ _ _ hr e e'
    exact ⟨h1, h2, h3.weaken {}⟩
  · rw [if_neg hs] at e
    rw [if_neg (fun x => hs ((hq _ _ h).1 x))] at e'
    cases e; cases e'
    exact ⟨rfl, rfl, h⟩

/-- a state in which data can be written -/
theorem R.opened {s s' : WState} (h : R {} s s') (hs : s.state = .openStream ∨ s.state = .closingStream) : R op s s' := { h with opn := fun _ => hs }

theorem sim_compressImpl (L : HuffLib) (all : Bool) : SimT (R {}) (R {}) (compressImpl L all) (compressImpl L all) := by
  have key : SimT (R {}) (R {}) (Go.chk finishClosing <|
     Go.chk (fun s => if s.state = .noStream ∨ s.state = .closedStream then
       Go.chk writeHeader (setState .openStream) s else .ok (true, s)) <|
     fun s => if usesStore s.o then compressStore all s else compressSlow L all s) (Go.chk finishClosing <|
     Go.chk (fun s => if s.state = .noStream ∨ s.state = .closedStream then
       Go.chk writeHeader (setState .openStream) s else .ok (true, s)) <|
     fun s => if usesStore s.o then compressStore all s else compressSlow L all s) := by
    refine SimT.chk sim_finishClosing ?_
    intro s s' a t b t' h e e'
    rcases chk_inv e with ⟨v, e1, e2⟩ | ⟨_, e1⟩ <;> rcases chk_inv e' with ⟨v', e1', e2'⟩ | ⟨_, e1'⟩
    all_goals
      obtain ⟨g1, g2, h1⟩ := sim_opened (fun s => s.state = .noStream ∨ s.state = .closedStream) (fun s s' h => by rw [h.state]) (fun _ h => h) _ _ _ _ _ _ h e1 e1'
    · have hopen : v.state = .openStream ∨ v.state = .closingStream := by
        by_cases hs : s.state = .noStream ∨ s.state = .closedStream
        · have hr : R ⟨true, false, false⟩ s s' := { h with ob := fun _ => h.idle hs }
          rw [if_pos hs] at e1
          rw [if_pos (by rw [h.state]; exact hs)] at e1'
          exact (sim_openStream _ _ _ _ _ _ hr e1 e1').2.2.opn rfl
        · rw [if_neg hs] at e1
          cases e1
          have := h.live
          cases e : s.state <;> simp_all
      rw [h1.o] at e2'
      by_cases hu : usesStore v.o = true
      · rw [if_pos hu] at e2 e2'
        obtain ⟨x, y, z⟩ := sim_compressStore all _ _ _ _ _ _ (h1.opened hopen) e2 e2'
        exact ⟨x, y, z.weaken {}⟩
      · rw [if_neg hu] at e2 e2'
        obtain ⟨x, y, z⟩ := sim_compressSlow L all _ _ _ _ _ _ (h1.opened hopen) e2 e2'
        exact ⟨x, y, z.weaken {}⟩
    · cases g2
    · cases g1
    · cases g1
  intro s s' a t b t' h e e'
  unfold compressImpl at e e'
  rw [h.lz] at e'
  by_cases hb : s.lz.buf = []
  · rw [if_pos hb] at e e'
    cases e; cases e'
    exact ⟨rfl, rfl, h⟩
  · rw [if_neg hb] at e e'
    exact key _ _ _ _ _ _ h e e'

theorem R.setHist {φ : Fl} {s s' : WState} (h : R φ s s') : R φ ({ s with lz := { s.lz with hist := [] } } : WState) ({ s' with lz := { s'.lz with hist := [] } } : WState) := { h with
  inv := ⟨h.inv.hW, h.inv.lt, h.inv.blk, h.inv.out⟩, inv' := ⟨h.inv'.hW, h.inv'.lt, h.inv'.blk, h.inv'.out⟩
  lz := by simp only [h.lz] }

theorem sim_flushGuts (t : FlushType) : SimT (R op) (R {}) (flushGuts t) (flushGuts t) := by
  cases t
  · exact SimT.weaken (SimT.pure (P := R op)) (fun _ _ h => h) (fun _ _ h => h.weaken {})
  · exact (sim_static writers _ _).weaken (fun _ _ h => h) (fun _ _ h => h.weaken {})
  · exact (sim_stored writers _ _).weaken (fun _ _ h => h) (fun _ _ h => h.weaken {})
  · refine SimT.chk (sim_stored writers _ _) fun s s' a t b t' h e e' => ?_
    cases e; cases e'
    exact ⟨rfl, rfl, h.setHist.weaken {}⟩
  · refine SimT.chk (sim_stored writers _ _) fun s s' a t b t' h e e' => ?_
    cases e; cases e'
    have := (h.setHist.weaken (φ' := {}) {})
    exact ⟨rfl, rfl, { this with
      inv := ⟨h.inv.hW, h.inv.lt, h.inv.blk, h.inv.out⟩, inv' := ⟨h.inv'.hW, h.inv'.lt, h.inv'.blk, h.inv'.out⟩
      state := rfl, live := ⟨fun e => (by cases e), fun e => (by cases e)⟩, idle := fun e => (by rcases e with e | e <;> cases e), opn := fun e => (nomatch e) }⟩

/-- the state changes only in what the underlying writer has counted -/
theorem R.sink {φ : Fl} {s s' : WState} (h : R φ s s') {k k' : Sink} (h1 : k.out = s.sink.out) (h2 : k'.out = s'.sink.out) (d : Sim.Dep k) (d' : Sim.Dep k') :
    R φ { s with sink := k } { s' with sink := k' } := { h with
  inv := ⟨h.inv.hW, h.inv.lt, h.inv.blk, h.inv.out⟩, inv' := ⟨h.inv'.hW, h.inv'.lt, h.inv'.blk, h.inv'.out⟩
  dep := d, dep' := d'
  view := by have := h.view; simp only [Proof.view, Proof.pushed, h1, h2] at this ⊢; exact this }

theorem sinkFlush_dep {s : WState} (h : Sim.Dep s.sink) : ∃ k, sinkFlush s = .ok (true, { s with sink := k }) ∧ k.out = s.sink.out ∧ Sim.Dep k := by
  unfold sinkFlush
  split
  · simp only [h.2.1]
    exact ⟨_, rfl, rfl, h⟩
  · exact ⟨s.sink, rfl, rfl, h⟩

theorem sinkSync_dep {s : WState} (h : Sim.Dep s.sink) : ∃ k, sinkSync s = .ok (true, { s with sink := k }) ∧ k.out = s.sink.out ∧ Sim.Dep k := by
  unfold sinkSync
  split
  · cases e : s.sink.sfail s.sink.nSync with
    | none => exact ⟨_, rfl, rfl, h⟩
    | some x =>
      simp only [h.2.2 _ _ e, if_true]
      exact ⟨_, rfl, rfl, h⟩
  · exact ⟨s.sink, rfl, rfl, h⟩

theorem sim_sinkFlush {φ : Fl} : SimT (R φ) (R φ) sinkFlush sinkFlush := by
  intro s s' a t b t' h e e'
  obtain ⟨k, e1, g1, g2⟩ := sinkFlush_dep h.dep
  obtain ⟨k', e1', g1', g2'⟩ := sinkFlush_dep h.dep'
  rw [e1] at e; rw [e1'] at e'
  cases e; cases e'
  exact ⟨rfl, rfl, h.sink g1 g1' g2 g2'⟩

theorem sim_sinkSync {φ : Fl} : SimT (R φ) (R φ) sinkSync sinkSync := by
  intro s s' a t b t' h e e'
  obtain ⟨k, e1, g1, g2⟩ := sinkSync_dep h.dep
  obtain ⟨k', e1', g1', g2'⟩ := sinkSync_dep h.dep'
  rw [e1] at e; rw [e1'] at e'
  cases e; cases e'
  exact ⟨rfl, rfl, h.sink g1 g1' g2 g2'⟩

theorem sim_flushImpl (L : HuffLib) (t : FlushType) : SimT (R {}) (R {}) (flushImpl L t) (flushImpl L t) := by
  refine SimT.chk (sim_compressImpl L true) <| SimT.chk (sim_opened (fun s => t = .finishFlush ∧ s.state = .noStream) (fun s s' h => by rw [h.state]) (fun s h => Or.inl h.2)) <|
    SimT.chk ?_ <| SimT.chk sim_finishClosing <| SimT.chk sim_sinkFlush sim_sinkSync
  intro s s' a u b u' h e e'
  simp only [] at e e'
  rw [h.state] at e'
  by_cases hs : s.state = .openStream
  · rw [if_pos hs] at e e'
    exact sim_flushGuts t _ _ _ _ _ _ (h.opened (Or.inl hs)) e e'
  · rw [if_neg hs] at e e'
    cases e; cases e'
    exact ⟨rfl, rfl, h⟩

theorem R.setLz {φ : Fl} {s s' : WState} (h : R φ s s') (z : LZ) : R φ ({ s with lz := z } : WState) ({ s' with lz := z } : WState) := { h with
  inv := ⟨h.inv.hW, h.inv.lt, h.inv.blk, h.inv.out⟩, inv' := ⟨h.inv'.hW, h.inv'.lt, h.inv'.blk, h.inv'.out⟩
  lz := rfl }

theorem sim_writeLoop (L : HuffLib) : ∀ (fuel : Nat) (p : List UInt8) (s s' t t' : WState) (a b : Option (Option Err)), R {} s s' → writeLoop L fuel p s = .ok (a, t) →
    writeLoop L fuel p s' = .ok (b, t') → a = none ∧ b = none ∧ R {} t t'
  | 0, _, _, _, _, _, _, _, _, e, _ => nomatch e
  | fuel + 1, p, s, s', t, t', a, b, h, e, e' => by
    simp only [writeLoop] at e e'
    rw [h.lz] at e'
    by_cases hp : p = []
    · rw [if_pos hp] at e e'
      cases e; cases e'
      exact ⟨rfl, rfl, h⟩
    · rw [if_neg hp] at e e'
      generalize hw : s.lz.write p = x at e e'
      obtain ⟨nn, z⟩ := x
      simp only [] at e e'
      have hz := h.setLz z
      cases e1 : compressImpl L ((nn == 0) || decide (nn < p.length)) { s with lz := z } with
      | error q => rw [e1] at e; cases e
      | ok r =>
        cases e1' : compressImpl L ((nn == 0) || decide (nn < p.length)) { s' with lz := z } with
        | error q => rw [e1'] at e'; cases e'
        | ok r' =>
          obtain ⟨x, u⟩ := r
          obtain ⟨x', u'⟩ := r'
          obtain ⟨rfl, rfl, hu⟩ := sim_compressImpl L _ _ _ _ _ _ _ hz e1 e1'
          rw [e1] at e; rw [e1'] at e'
          exact sim_writeLoop L fuel _ _ _ _ _ _ _ hu e e'

/-- both have been closed -/
def Done (s s' : WState) : Prop := ∃ u u', R {} u u' ∧ s = { u with state := .closed } ∧ s' = { u' with state := .closed }

/-- both are in use, or both are closed -/
def Both (s s' : WState) : Prop := R {} s s' ∨ Done s s'

theorem R.setHeader {φ : Fl} {s s' : WState} (h : R φ s s') (x : Header) : R φ ({ s with header := x } : WState) ({ s' with header := x } : WState) := { h with
  inv := ⟨h.inv.hW, h.inv.lt, h.inv.blk, h.inv.out⟩, inv' := ⟨h.inv'.hW, h.inv'.lt, h.inv'.blk, h.inv'.out⟩
  header := rfl }

theorem Both.step {L : HuffLib} {op : WOp} {s s' t t' : WState} {r r' : WRes} (h : Both s s') (e : stepOp L op s = .ok (r, t)) (e' : stepOp L op s' = .ok (r', t')) :
    r' = r ∧ Both t t' := by
  rcases h with h | ⟨u, u', hu, rfl, rfl⟩
  · have hl := h.live
    have hl' : s'.state ≠ .error ∧ s'.state ≠ .closed := by rw [h.state]; exact hl
    cases op with
    | write p =>
      simp only [stepOp, wWrite, if_neg hl.1, if_neg hl.2, if_neg hl'.1, if_neg hl'.2] at e e'
      cases e1 : writeLoop L (2 * p.length + 2) p s with
      | error q => rw [e1] at e; cases e
      | ok x =>
        cases e1' : writeLoop L (2 * p.length + 2) p s' with
        | error q => rw [e1'] at e'; cases e'
        | ok x' =>
          obtain ⟨a, v⟩ := x
          obtain ⟨a', v'⟩ := x'
          obtain ⟨rfl, rfl, hv⟩ := sim_writeLoop L _ _ _ _ _ _ _ _ h e1 e1'
          rw [e1] at e; rw [e1'] at e'
          cases e; cases e'
          exact ⟨rfl, Or.inl hv⟩
    | flush ft =>
      simp only [stepOp, wFlush, if_neg hl.1, if_neg hl.2, if_neg hl'.1, if_neg hl'.2] at e e'
      cases e1 : flushImpl L ft s with
      | error q => rw [e1] at e; cases e
      | ok x =>
        cases e1' : flushImpl L ft s' with
        | error q => rw [e1'] at e'; cases e'
        | ok x' =>
          obtain ⟨a, v⟩ := x
          obtain ⟨a', v'⟩ := x'
          obtain ⟨rfl, rfl, hv⟩ := sim_flushImpl L ft _ _ _ _ _ _ h e1 e1'
          rw [e1] at e; rw [e1'] at e'
          cases e; cases e'
          exact ⟨rfl, Or.inl hv⟩
    | setHeader x =>
      simp only [stepOp, wSetHeader] at e e'
      by_cases hx : headerOK x = true
      · rw [if_pos hx] at e e'
        cases e; cases e'
        exact ⟨rfl, Or.inl (h.setHeader x)⟩
      · rw [if_neg hx] at e e'
        cases e; cases e'
        exact ⟨rfl, Or.inl h⟩
    | close =>
      simp only [stepOp, wClose, if_neg hl.1, if_neg hl.2, if_neg hl'.1, if_neg hl'.2] at e e'
      cases e1 : flushImpl L .finishFlush s with
      | error q => rw [e1] at e; cases e
      | ok x =>
        cases e1' : flushImpl L .finishFlush s' with
        | error q => rw [e1'] at e'; cases e'
        | ok x' =>
          obtain ⟨a, v⟩ := x
          obtain ⟨a', v'⟩ := x'
          obtain ⟨rfl, rfl, hv⟩ := sim_flushImpl L .finishFlush _ _ _ _ _ _ h e1 e1'
          rw [e1] at e; rw [e1'] at e'
          cases e; cases e'
          exact ⟨rfl, Or.inr ⟨v, v', hv, rfl, rfl⟩⟩
  · cases op with
    | write p => cases e; cases e'; exact ⟨rfl, Or.inr ⟨u, u', hu, rfl, rfl⟩⟩
    | flush ft => cases e; cases e'; exact ⟨rfl, Or.inr ⟨u, u', hu, rfl, rfl⟩⟩
    | close => cases e; cases e'; exact ⟨rfl, Or.inr ⟨u, u', hu, rfl, rfl⟩⟩
    | setHeader x =>
      simp only [stepOp, wSetHeader] at e e'
      by_cases hx : headerOK x = true
      · rw [if_pos hx] at e e'
        cases e; cases e'
        exact ⟨rfl, Or.inr ⟨_, _, hu.setHeader x, rfl, rfl⟩⟩
      · rw [if_neg hx] at e e'
        cases e; cases e'
        exact ⟨rfl, Or.inr ⟨u, u', hu, rfl, rfl⟩⟩

theorem Both.run {L : HuffLib} : ∀ {ops : List WOp} {s s' t t' : WState} {rs rs' : List WRes}, Both s s' → runOps L ops s = .ok (rs, t) → runOps L ops s' = .ok (rs', t') →
    rs' = rs ∧ Both t t'
  | [], _, _, _, _, _, _, h, e, e' => by cases e; cases e'; exact ⟨rfl, h⟩
  | o :: ops, s, s', t, t', rs, rs', h, e, e' => by
    simp only [runOps] at e e'
    cases e1 : stepOp L o s with
    | error q => rw [e1] at e; cases e
    | ok x =>
      cases e1' : stepOp L o s' with
      | error q => rw [e1'] at e'; cases e'
      | ok x' =>
        obtain ⟨r, u⟩ := x
        obtain ⟨r', u'⟩ := x'
        obtain ⟨rfl, hu⟩ := h.step e1 e1'
        rw [e1] at e; rw [e1'] at e'
        simp only [] at e e'
        cases e2 : runOps L ops u with
        | error q => rw [e2] at e; cases e
        | ok y =>
          cases e2' : runOps L ops u' with
          | error q => rw [e2'] at e'; cases e'
          | ok y' =>
            obtain ⟨q, v⟩ := y
            obtain ⟨q', v'⟩ := y'
            obtain ⟨rfl, hv⟩ := Both.run hu e2 e2'
            rw [e2] at e; rw [e2'] at e'
            cases e; cases e'
            exact ⟨rfl, hv⟩

end Flate.Proof.Word
