/-
Two runs of the Writer side by side: what its output depends on, and what it does not.  Used for `Reset` (the counters, checksums and events of earlier streams do not
matter) and for failures of the underlying writer (until the first failure nothing differs).
-/
import Verif.Proof.WRun

namespace Flate.Proof.Sim
open Flate.Spec Flate.Model

/-- the underlying writer does not fail -/
def Dep (k : Sink) : Prop := (∀ n, k.wfail n = none) ∧ (∀ n, k.ffail n = none) ∧ (∀ n e, k.sfail n = some e → ignoredSyncError e = true)

/-- Mode `true`: the second underlying writer fails in the same way as the first; mode `false`: it never fails. -/
def Fails (M : Bool) (k k' : Sink) : Prop := if M = true then (k'.wfail = k.wfail ∧ k'.ffail = k.ffail ∧ k'.sfail = k.sfail) else Dep k'

variable {M : Bool}

/-- a stream is being written -/
def InStream (s : WState) : Prop := s.state = .openStream ∨ s.state = .closingStream

/-- other things which may be required: agreement on the length of the stream so far, the checksum of the output, the checksums of the input; nothing is
left in the output buffer; nothing is left in the accumulator -/
structure Fl where
  len : Bool := false
  crc : Bool := false
  sum : Bool := false
  emp : Bool := false
  ob : Bool := false

/-- no more is required of `φ'` than of `φ` -/
structure Fl.Le (φ' φ : Fl) : Prop where
  len : φ'.len = true → φ.len = true := by first | exact id | simp
  crc : φ'.crc = true → φ.crc = true := by first | exact id | simp
  sum : φ'.sum = true → φ.sum = true := by first | exact id | simp
  emp : φ'.emp = true → φ.emp = true := by first | exact id | simp
  ob : φ'.ob = true → φ.ob = true := by first | exact id | simp

/-- the options agree in what matters for the output -/
structure Alike (o o' : Options) : Prop where
  format : o'.format = o.format
  wbits : o'.wbits = o.wbits
  dict : o'.dict = o.dict
  store : usesStore o' = usesStore o
  zlib : o.format = .zlib → zlibHeaderBytes o' = zlibHeaderBytes o
  gzip : o.format = .gzip → ∀ h, gzipHeaderBytes o' h = gzipHeaderBytes o h

theorem Alike.of {o o' : Options} (h : o' = o) : Alike o o' := by
  subst h; exact ⟨rfl, rfl, rfl, rfl, fun _ => rfl, fun _ _ => rfl⟩

/-- the headers agree, except for the reported level and, unless the format is gzip, the kind of the data -/
structure HSame (f : Format) (h h' : Header) : Prop where
  eq : h' = { h with compressLevel := h'.compressLevel, dataType := h'.dataType }
  dt : f = .gzip → h'.dataType = h.dataType

theorem HSame.of {f : Format} {h h' : Header} (e : h' = h) : HSame f h h' := by subst e; exact ⟨rfl, fun _ => rfl⟩

theorem HSame.bytes {h h' : Header} (e : HSame .gzip h h') (o : Options) : gzipHeaderBytes o h' = gzipHeaderBytes o h := by
  rw [e.eq, e.dt rfl]; rfl

/-- The two states agree in what matters for the output. -/
structure R (M : Bool) (φ : Fl) (s s' : WState) : Prop where
  W : s'.W = s.W
  o : Alike s.o s'.o
  err : s'.err = s.err
  output : s'.output = s.output
  outBits : s'.outBits = s.outBits
  obBlock : s'.obBlock = s.obBlock
  obLen : s'.obLen = s.obLen
  state : s'.state = s.state
  header : HSame s.o.format s.header s'.header
  lzo : s'.lz.opts = s.lz.opts
  hist : s'.lz.hist = s.lz.hist
  buf : s'.lz.buf = s.lz.buf
  prop : ∀ n, s'.lz.propose (s'.lz.step + n) = s.lz.propose (s.lz.step + n)
  out : s'.sink.out = s.sink.out
  nW : s'.sink.nWrites = s.sink.nWrites
  hasF : s'.sink.hasFlush = s.sink.hasFlush
  nF : s'.sink.nFlush = s.sink.nFlush
  hasS : s'.sink.hasSync = s.sink.hasSync
  nS : s'.sink.nSync = s.sink.nSync
  fails : Fails M s.sink s'.sink
  sums : InStream s → s'.adler = s.adler ∧ s'.crcIn = s.crcIn ∧ s'.inStream = s.inStream
  len : φ.len = true → s'.inStream = s.inStream
  crc : φ.crc = true → s'.crcOut = s.crcOut
  sum : φ.sum = true → s'.adler = s.adler ∧ s'.crcIn = s.crcIn
  emp : φ.emp = true → s.output = []
  ob : φ.ob = true → s.obLen = 0
  cap : 2 ≤ s.outBits

theorem R.weaken {φ φ' : Fl} {s s' : WState} (h : R M φ s s') (hle : φ'.Le φ) : R M φ' s s' :=
  { h with len := fun e => h.len (hle.len e), crc := fun e => h.crc (hle.crc e), sum := fun e => h.sum (hle.sum e), emp := fun e => h.emp (hle.emp e), ob := fun e => h.ob (hle.ob e) }

theorem R.none {φ : Fl} {s s' : WState} (h : R M φ s s') : R M {} s s' := h.weaken {}

/-- The first run has failed; all it has produced is part of what the second has produced. -/
structure F (s s' : WState) : Prop where
  state : s.state = .error
  err : ∃ e, s.err = some e
  pre : pushed s <+: pushed s'

/-- the Writer has recorded an error -/
def Broken (s : WState) : Prop := s.state = .error ∧ ∃ e, s.err = some e

/-- results of the two runs of a function; `bad` are the values which indicate a failure -/
def Out (M : Bool) {α : Type} (bad : α → Prop) (φ : Fl) (x y : Except Panic (α × WState)) : Prop :=
  match x with
  | .error e => y = .error e
  | .ok (a, t) => (∃ t', y = .ok (a, t') ∧ R M {} t t' ∧ (¬ bad a → R M φ t t') ∧ (bad a → Broken t)) ∨ (M = false ∧ bad a ∧ Broken t ∧ ∀ a' t', y = .ok (a', t') → F t t')

/-- nothing which was produced is taken back -/
def Mono {α : Type} (f : Go WState α) : Prop := ∀ s a t, f s = .ok (a, t) → pushed s <+: pushed t

/-- from agreeing states, the function does the same -/
structure Good (M : Bool) {α : Type} (bad : α → Prop) (φ φ' : Fl) (f : Go WState α) : Prop where
  mono : Mono f
  sim : ∀ s s', R M φ s s' → Out M bad φ' (f s) (f s')

/-- a function which does not fail -/
abbrev never {α : Type} : α → Prop := fun _ => False
/-- a function which fails by returning false -/
abbrev isFalse : Bool → Prop := fun r => r = false

theorem out_ok {α : Type} {bad : α → Prop} {φ : Fl} {a : α} {t t' : WState} (h : R M φ t t') (hn : ¬ bad a := by first | exact id | simp) : Out M bad φ (.ok (a, t)) (.ok (a, t')) :=
  Or.inl ⟨t', rfl, h.none, fun _ => h, fun hb => (hn hb).elim⟩

theorem out_bad {α : Type} {bad : α → Prop} {φ : Fl} {a : α} {t t' : WState} (h : R M {} t t') (hb : bad a) (hd : Broken t) : Out M bad φ (.ok (a, t)) (.ok (a, t')) :=
  Or.inl ⟨t', rfl, h, fun hn => (hn hb).elim, fun _ => hd⟩

theorem Good.pure {α : Type} {bad : α → Prop} {φ : Fl} (a : α) (hn : ¬ bad a := by first | exact id | simp) : Good M bad φ φ (Pure.pure a : Go WState α) :=
  ⟨fun s a t h => by cases h; exact List.prefix_refl _, fun s s' h => out_ok h hn⟩

theorem Good.panic {α : Type} {bad : α → Prop} {φ φ' : Fl} (e : Panic) : Good M bad φ φ' (Go.panic e : Go WState α) :=
  ⟨fun s a t h => (nomatch h), fun s s' h => rfl⟩

theorem Good.assert {φ : Fl} (x : Bool) (m : String) : Good M never φ φ (Go.assert x m : Go WState Unit) := by
  cases x
  · exact ⟨fun s a t h => (nomatch h), fun s s' h => rfl⟩
  · exact ⟨fun s a t h => by cases h; exact List.prefix_refl _, fun s s' h => out_ok h⟩

theorem Good.lift {α : Type} {φ : Fl} (x : Partial α) : Good M never φ φ (Go.lift x : Go WState α) := by
  cases x
  · exact ⟨fun s a t h => (nomatch h), fun s s' h => rfl⟩
  · exact ⟨fun s a t h => by cases h; exact List.prefix_refl _, fun s s' h => out_ok h⟩

theorem Good.bind {α β : Type} {bad : β → Prop} {φ φ1 φ2 : Fl} {x : Go WState α} {f : α → Go WState β} (hx : Good M never φ φ1 x)
    (hf : ∀ a, Good M bad φ1 φ2 (f a)) : Good M bad φ φ2 (x >>= f) := by
  refine ⟨fun s a t h => ?_, fun s s' h => ?_⟩
  · obtain ⟨a1, s1, h1, h2⟩ := Go.bind_eq_ok.1 h
    exact (hx.mono _ _ _ h1).trans ((hf a1).mono _ _ _ h2)
  · have := hx.sim s s' h
    rw [Go.bind_apply, Go.bind_apply]
    cases e : x s with
    | error p => rw [e] at this; rw [show x s' = .error p from this]; rfl
    | ok r =>
      obtain ⟨a, t⟩ := r
      rw [e] at this
      rcases this with ⟨t', e', _, hr, _⟩ | hb
      · rw [e']; exact (hf a).sim t t' (hr id)
      · exact hb.2.1.elim

theorem Good.chk {φ φ1 φ2 : Fl} {x y : Go WState Bool} (hx : Good M isFalse φ φ1 x) (hy : Good M isFalse φ1 φ2 y) : Good M isFalse φ φ2 (Go.chk x y) := by
  refine ⟨fun s a t h => ?_, fun s s' h => ?_⟩
  · unfold Go.chk at h
    cases e : x s with
    | error p => rw [e] at h; cases h
    | ok r =>
      obtain ⟨_ | _, u⟩ := r
      · rw [e] at h; cases h; exact hx.mono _ _ _ e
      · rw [e] at h; exact (hx.mono _ _ _ e).trans (hy.mono _ _ _ h)
  · have := hx.sim s s' h
    unfold Go.chk
    cases e : x s with
    | error p => rw [e] at this; rw [show x s' = .error p from this]; rfl
    | ok r =>
      obtain ⟨a, t⟩ := r
      rw [e] at this
      cases a with
      | false =>
        rcases this with ⟨t', e', hr, _, hd⟩ | ⟨hM, _, hd, hF⟩
        · rw [e']; exact out_bad hr rfl (hd rfl)
        · refine Or.inr ⟨hM, rfl, hd, fun a' t' ht => ?_⟩
          cases e' : x s' with
          | error p => rw [e'] at ht; cases ht
          | ok r' =>
            obtain ⟨a1, t1⟩ := r'
            have hF1 := hF a1 t1 e'
            rw [e'] at ht
            cases a1 with
            | false => cases ht; exact hF1
            | true => exact ⟨hF1.state, hF1.err, hF1.pre.trans (hy.mono _ _ _ ht)⟩
      | true =>
        rcases this with ⟨t', e', _, hr, _⟩ | ⟨_, hb, _⟩
        · rw [e']; exact hy.sim t t' (hr (by simp))
        · cases hb

/-- the function depends on something on which both states agree -/
theorem Good.dep {α β : Type} {bad : β → Prop} {φ φ' : Fl} (q : WState → α) {g : α → Go WState β} (hq : ∀ s s', R M φ s s' → q s' = q s)
    (hg : ∀ a, Good M bad φ φ' (g a)) : Good M bad φ φ' (fun s => g (q s) s) :=
  ⟨fun s a t h => (hg _).mono s a t h, fun s s' h => by show Out M bad φ' (g (q s) s) (g (q s') s'); rw [hq s s' h]; exact (hg _).sim s s' h⟩

theorem Good.ite {α : Type} {bad : α → Prop} {φ φ' : Fl} (p : WState → Prop) [DecidablePred p] (hp : ∀ s s', R M φ s s' → (p s' ↔ p s)) {f g : Go WState α}
    (hf : Good M bad φ φ' f) (hg : Good M bad φ φ' g) : Good M bad φ φ' (fun s => if p s then f s else g s) := by
  refine ⟨fun s a t h => ?_, fun s s' h => ?_⟩
  · by_cases hs : p s
    · rw [if_pos hs] at h; exact hf.mono s a t h
    · rw [if_neg hs] at h; exact hg.mono s a t h
  · by_cases hs : p s
    · rw [if_pos hs, if_pos ((hp s s' h).2 hs)]; exact hf.sim s s' h
    · rw [if_neg hs, if_neg (fun x => hs ((hp s s' h).1 x))]; exact hg.sim s s' h

/-- a change which takes agreeing states to agreeing states -/
theorem Good.modify {φ φ' : Fl} (m : WState → WState) (hp : ∀ s, pushed s <+: pushed (m s)) (hm : ∀ s s', R M φ s s' → R M φ' (m s) (m s')) :
    Good M never φ φ' (Go.modify m) :=
  ⟨fun s a t h => by cases h; exact hp s, fun s s' h => out_ok (hm s s' h)⟩

theorem Good.modifyB {φ φ' : Fl} (m : WState → WState) (hp : ∀ s, pushed s <+: pushed (m s)) (hm : ∀ s s', R M φ s s' → R M φ' (m s) (m s')) :
    Good M isFalse φ φ' (fun s => .ok (true, m s)) :=
  ⟨fun s a t h => by cases h; exact hp s, fun s s' h => out_ok (hm s s' h)⟩

theorem Good.weaken {α : Type} {bad : α → Prop} {φ φ1 φ2 φ' : Fl} {f : Go WState α} (hf : Good M bad φ1 φ2 f) (h1 : φ1.Le φ) (h2 : φ'.Le φ2) : Good M bad φ φ' f := by
  refine ⟨hf.mono, fun s s' h => ?_⟩
  have := hf.sim s s' (h.weaken h1)
  cases e : f s with
  | error p => rw [e] at this; exact this
  | ok r =>
    obtain ⟨a, t⟩ := r
    rw [e] at this
    rcases this with ⟨t', e', h0, hr, hd⟩ | h3
    · exact Or.inl ⟨t', e', h0, fun hn => (hr hn).weaken h2, hd⟩
    · exact Or.inr h3

/-! ### output -/

theorem good_sendEvent {φ : Fl} (k : EvKind) : Good M never φ φ (wSendEvent k) :=
  Good.modify _ (fun _ => List.prefix_refl _) (fun s s' h => { h with })

theorem pushed_sinkWrite (s : WState) : pushed (sinkWrite s).2 = pushed s := by
  unfold sinkWrite
  split
  · rfl
  · split
    · simp [pushed]
    · simp [pushed, List.append_assoc]

/-- the two runs agree, or only the first fails -/
theorem flush_two {l c m o e0 : Bool} {s s' : WState} (h : R M ⟨l, c, m, e0, o⟩ s s') :
    (∃ b t t', outputBufferFlush s = .ok (b, t) ∧ outputBufferFlush s' = .ok (b, t') ∧ R M ⟨l, c, m, b, o⟩ t t' ∧ (b = false → Broken t)) ∨
    (M = false ∧ ∃ t t', outputBufferFlush s = .ok (false, t) ∧ outputBufferFlush s' = .ok (true, t') ∧ t.state = .error ∧ (∃ e, t.err = some e) ∧
      pushed t = pushed s ∧ pushed t' = pushed s' ∧ t.inStream = s.inStream ∧ t'.inStream = s'.inStream ∧ t.obLen = s.obLen ∧ t'.obLen = s'.obLen ∧
      t'.output = [] ∧ Reliable t') := by
  unfold outputBufferFlush
  by_cases h0 : s.output = []
  · have h0' : s'.output = [] := by rw [h.output, h0]
    simp only [sinkWrite, h0, h0', if_true]
    exact Or.inl ⟨true, s, s', rfl, rfl, { h with emp := fun _ => h0 }, fun e => (by cases e)⟩
  · have h0' : s'.output ≠ [] := by rw [h.output]; exact h0
    cases M with
    | true =>
      have hf : s'.sink.wfail = s.sink.wfail ∧ s'.sink.ffail = s.sink.ffail ∧ s'.sink.sfail = s.sink.sfail := h.fails
      simp only [sinkWrite, h0, h0', if_false, hf.1, h.nW]
      cases s.sink.wfail s.sink.nWrites with
      | none =>
        exact Or.inl ⟨_, _, _, rfl, rfl, { h with output := rfl, out := by simp only [h.out, h.output], nW := rfl, fails := ⟨rfl, hf.2⟩, emp := fun _ => rfl }, fun e => (by cases e)⟩
      | some x =>
        obtain ⟨k, e⟩ := x
        exact Or.inl ⟨_, _, _, rfl, rfl, { h with output := by simp only [h.output], out := by simp only [h.out, h.output], nW := rfl, fails := ⟨rfl, hf.2⟩, state := rfl, err := rfl, emp := fun e => (by cases e), sums := fun e => (by rcases e with e | e <;> cases e) }, fun _ => ⟨rfl, _, rfl⟩⟩
    | false =>
      have hf : Dep s'.sink := h.fails
      rcases e : s.sink.wfail s.sink.nWrites with _ | ⟨k, e1⟩
      · simp only [sinkWrite, h0, h0', if_false, hf.1, e]
        exact Or.inl ⟨_, _, _, rfl, rfl, { h with output := rfl, out := by simp only [h.out, h.output], nW := by simp only [h.nW], fails := hf, emp := fun _ => rfl }, fun e => (by cases e)⟩
      · simp only [sinkWrite, h0, h0', if_false, hf.1, e]
        refine Or.inr ⟨trivial, _, _, rfl, rfl, rfl, ⟨_, rfl⟩, ?_, ?_, rfl, rfl, rfl, rfl, rfl, fun n => ?_⟩
        · simp [pushed, List.append_assoc]
        · simp [pushed]
        · simp only [hf.1]

theorem R.pushed {φ : Fl} {s s' : WState} (h : R M φ s s') : Proof.pushed s' = Proof.pushed s := by unfold Proof.pushed; rw [h.out, h.output]

theorem mono_flush : Mono outputBufferFlush := fun s a t h => by
  have := pushed_sinkWrite s
  unfold outputBufferFlush at h
  rcases e : sinkWrite s with ⟨_ | x, u⟩
  · rw [e] at h this; cases h; rw [← this]; exact List.prefix_refl _
  · rw [e] at h this; cases h; rw [← this]; exact List.prefix_refl _

theorem good_flush {l c m o e0 : Bool} : Good M isFalse ⟨l, c, m, e0, o⟩ ⟨l, c, m, true, o⟩ outputBufferFlush := by
  refine ⟨mono_flush, fun s s' h => ?_⟩
  rcases flush_two h with ⟨b, t, t', e, e', hr, hd⟩ | ⟨hM, t, t', e, e', h1, h2, h3, h4, _⟩
  · rw [e, e']
    cases b
    · exact out_bad hr.none rfl (hd rfl)
    · exact out_ok hr
  · rw [e, e']
    refine Or.inr ⟨hM, rfl, ⟨h1, h2⟩, fun a' u hu => ?_⟩
    cases hu
    exact ⟨h1, h2, by rw [h3, h4, h.pushed]; exact List.prefix_refl _⟩

theorem good_outLoop {l c m o : Bool} : ∀ (e0 : Bool) (fuel : Nat) (p : List UInt8), Good M isFalse ⟨l, c, m, e0, o⟩ ⟨l, c, m, e0, o⟩ (outLoop fuel p)
  | _, 0, _ => Good.panic _
  | e0, fuel + 1, p => by
    have ih := fun q => Good.weaken (good_outLoop (l := l) (c := c) (m := m) (o := o) true fuel q) {} (φ' := ⟨l, c, m, e0, o⟩) {}
    have key : ∀ nn, Good M isFalse ⟨l, c, m, e0, o⟩ ⟨l, c, m, e0, o⟩ (fun s => Go.chk outputBufferFlush (outLoop fuel (p.drop nn))
        { s with output := s.output ++ p.take nn, crcOut := Crc.genericUpdate s.crcOut (p.take nn), outTotal := s.outTotal + nn, outStream := s.outStream + nn }) := by
      intro nn
      have := Good.bind (Good.modify (φ := ⟨l, c, m, e0, o⟩) (φ' := ⟨l, c, m, false, o⟩) (fun s : WState => { s with output := s.output ++ p.take nn, crcOut := Crc.genericUpdate s.crcOut (p.take nn), outTotal := s.outTotal + nn, outStream := s.outStream + nn })
        (fun s => by unfold pushed; simp only [← List.append_assoc]; exact List.prefix_append _ _)
        (fun s s' h => { h with output := by simp only [h.output], crc := fun e => by simp only [h.crc e]
                                emp := fun e => (by cases e) }))
        (fun _ => Good.chk (good_flush (l := l) (c := c) (m := m) (o := o)) (ih (p.drop nn)))
      exact this
    have : Good M isFalse ⟨l, c, m, e0, o⟩ ⟨l, c, m, e0, o⟩ (fun s => if p = [] then (.ok (true, s) : Except Panic (Bool × WState)) else
        (fun nn => (fun s => Go.chk outputBufferFlush (outLoop fuel (p.drop nn))
        { s with output := s.output ++ p.take nn, crcOut := Crc.genericUpdate s.crcOut (p.take nn), outTotal := s.outTotal + nn, outStream := s.outStream + nn } : Go WState Bool)) (min p.length (2 ^ s.outBits - s.output.length)) s) :=
      Good.ite (fun _ => p = []) (fun _ _ _ => Iff.rfl) (Good.pure true)
        (Good.dep (fun s => min p.length (2 ^ s.outBits - s.output.length)) (fun s s' h => by rw [h.outBits, h.output]) key)
    exact this

/-- what is required between operations -/
abbrev std (l c m : Bool) : Fl := ⟨l, c, m, true, false⟩

theorem good_outWrite {l c m o e0 : Bool} (p : List UInt8) : Good M isFalse ⟨l, c, m, e0, o⟩ ⟨l, c, m, e0, o⟩ (outWrite p) := good_outLoop _ _ _

/-- afterwards the accumulator is empty -/
theorem good_bitsFlush' {l c m : Bool} : Good M isFalse (std l c m) ⟨l, c, m, true, true⟩ wBitsFlush := by
  have key : ∀ p, Good M isFalse (std l c m) ⟨l, c, m, true, true⟩ (fun s => outWrite p { s with obLen := 0, obBlock := 0 }) := by
    intro p
    exact Good.bind (Good.modify (φ := std l c m) (φ' := ⟨l, c, m, true, true⟩) (fun s : WState => { s with obLen := 0, obBlock := 0 }) (fun s => List.prefix_refl _)
      (fun s s' h => { h with obLen := rfl, obBlock := rfl, ob := fun _ => rfl })) (fun _ => good_outWrite p)
  refine ⟨fun s a t h => ?_, fun s s' h => ?_⟩
  · unfold wBitsFlush at h
    split at h
    · cases h; exact List.prefix_refl _
    · exact (key _).mono s a t h
  · unfold wBitsFlush
    by_cases h0 : s.obLen = 0
    · rw [if_pos h0, if_pos (by rw [h.obLen, h0])]
      exact out_ok { h with ob := fun _ => h0 }
    · rw [if_neg h0, if_neg (by rw [h.obLen]; exact h0)]
      have e : (leBytes (s'.W / 8) s'.obBlock).take ((s'.obLen + 7) / 8) = (leBytes (s.W / 8) s.obBlock).take ((s.obLen + 7) / 8) := by rw [h.W, h.obBlock, h.obLen]
      rw [e]
      exact (key _).sim s s' h

theorem good_bitsFlush {l c m : Bool} : Good M isFalse (std l c m) (std l c m) wBitsFlush := good_bitsFlush'.weaken {} {}

theorem good_bufWrite {l c m : Bool} (p : List UInt8) : Good M isFalse (std l c m) (std l c m) (wBufWrite p) := Good.chk good_bitsFlush (good_outWrite p)

theorem good_stringZ {l c m : Bool} (p : List UInt8) : Good M isFalse (std l c m) (std l c m) (wBufWriteStringZ p) := by
  unfold wBufWriteStringZ
  split
  · exact good_bufWrite _
  · split
    · exact good_bufWrite _
    · exact Good.panic _

theorem good_bitsLoop {l c m : Bool} : ∀ (fuel inLen inBlock : Nat), Good M isFalse (std l c m) (std l c m) (bitsLoop fuel inLen inBlock)
  | 0, _, _ => Good.panic _
  | fuel + 1, inLen, inBlock => by
    have ih := fun q r => good_bitsLoop (l := l) (c := c) (m := m) fuel q r
    have key : ∀ x : Nat × Nat, Good M isFalse (std l c m) (std l c m) (fun s =>
        if s.obLen + min (x.1 - x.2) inLen = x.1 then Go.chk wBitsFlush (bitsLoop fuel (inLen - min (x.1 - x.2) inLen) (inBlock >>> min (x.1 - x.2) inLen)) { s with obBlock := s.obBlock ||| (((inBlock &&& makeMask x.1 (min (x.1 - x.2) inLen)) <<< x.2) % 2 ^ x.1), obLen := s.obLen + min (x.1 - x.2) inLen }
        else bitsLoop fuel (inLen - min (x.1 - x.2) inLen) (inBlock >>> min (x.1 - x.2) inLen) { s with obBlock := s.obBlock ||| (((inBlock &&& makeMask x.1 (min (x.1 - x.2) inLen)) <<< x.2) % 2 ^ x.1), obLen := s.obLen + min (x.1 - x.2) inLen }) := by
      intro x
      have mm := Good.modify (M := M) (φ := std l c m) (φ' := std l c m) (fun s : WState => { s with obBlock := s.obBlock ||| (((inBlock &&& makeMask x.1 (min (x.1 - x.2) inLen)) <<< x.2) % 2 ^ x.1), obLen := s.obLen + min (x.1 - x.2) inLen })
        (fun s => List.prefix_refl _) (fun s s' h => { h with obLen := by simp only [h.obLen], obBlock := by simp only [h.obBlock], ob := fun e => (by cases e) })
      exact Good.ite (fun s => s.obLen + min (x.1 - x.2) inLen = x.1) (fun s s' h => by rw [h.obLen])
        (Good.bind mm (fun _ => Good.chk good_bitsFlush (ih _ _))) (Good.bind mm (fun _ => ih _ _))
    exact Good.ite (fun _ => inLen = 0) (fun _ _ _ => Iff.rfl) (Good.pure true)
      (Good.dep (fun s => (s.W, s.obLen)) (fun s s' h => by rw [h.W, h.obLen]) key)

theorem good_bitsWrite {l c m : Bool} (inLen inBlock : Nat) : Good M isFalse (std l c m) (std l c m) (wBitsWrite inLen inBlock) :=
  Good.ite (fun s => s.obLen ≤ s.W) (fun s s' h => by rw [h.obLen, h.W])
    (Good.ite (fun s => inLen ≤ s.W) (fun s s' h => by rw [h.W]) (good_bitsLoop _ _ _) (Good.panic _)) (Good.panic _)

/-! ### blocks -/

theorem good_forAll {α : Type} {l c m : Bool} {f : α → Go WState Bool} (hf : ∀ x, Good M isFalse (std l c m) (std l c m) (f x)) : ∀ xs : List α, Good M isFalse (std l c m) (std l c m) (forAll f xs)
  | [] => Good.pure true
  | x :: xs => Good.chk (hf x) (good_forAll hf xs)

theorem good_evStep {l c m : Bool} (k : EvKind) : Good M isFalse (std l c m) (std l c m) (evStep wBW k) := Good.bind (good_sendEvent k) (fun _ => Good.pure true)

theorem good_extraWrite {l c m : Bool} (n v : Nat) : Good M isFalse (std l c m) (std l c m) (extraWrite wBW n v) := by
  unfold extraWrite
  split
  · exact good_bitsWrite n v
  · exact Good.pure true

theorem good_encodeLLD {l c m : Bool} (ll d : List Nat) (t : Token) : Good M isFalse (std l c m) (std l c m) (encodeLLD wBW ll d t) := by
  unfold encodeLLD
  refine Good.bind (Good.lift _) (fun x => Good.bind (Good.lift _) (fun y => ?_))
  obtain ⟨s1, n1, v1⟩ := x
  obtain ⟨s2, n2, v2⟩ := y
  cases s1 with
  | none => exact Good.pure true
  | some s1 =>
    refine Good.chk (good_bitsWrite _ _) (Good.chk (good_extraWrite _ _) ?_)
    cases s2 with
    | none => exact Good.pure true
    | some s2 => exact Good.chk (good_bitsWrite _ _) (good_extraWrite _ _)

theorem good_encodeX {l c m : Bool} (cl : List Nat) (t : Token) : Good M isFalse (std l c m) (std l c m) (encodeX wBW cl t) := by
  unfold encodeX
  split
  · exact Good.pure true
  · exact Good.chk (good_bitsWrite _ _) (good_extraWrite _ _)

theorem good_stored {l c m : Bool} (data : List UInt8) (f : Bool) : Good M isFalse (std l c m) (std l c m) (writeStoredBlock wBW data f) := by
  unfold writeStoredBlock
  exact Good.bind (Good.assert _ _) fun _ => Good.chk (good_evStep _) <| Good.chk (good_bitsWrite _ _) <| Good.chk good_bitsFlush <|
    Good.chk (good_bufWrite _) <| Good.chk (good_bufWrite _) <| Good.chk (good_bufWrite _) <| good_evStep _

theorem good_assertStop {l c m : Bool} (ts : List Token) : Good M never (std l c m) (std l c m) (assertStop ts : Go WState Unit) := by
  unfold assertStop
  exact Good.bind (Good.assert _ _) fun _ => Good.bind (Good.lift _) fun _ => Good.assert _ _

theorem good_static {l c m : Bool} (ts : List Token) (f : Bool) : Good M isFalse (std l c m) (std l c m) (writeStaticBlock wBW ts f) := by
  unfold writeStaticBlock
  exact Good.bind (good_assertStop _) fun _ => Good.chk (good_evStep _) <| Good.chk (good_bitsWrite _ _) <| Good.chk (good_evStep _) <|
    Good.chk (good_forAll (fun t => good_encodeLLD _ _ t) _) <| good_evStep _

theorem good_dynamic {l c m : Bool} (L : HuffLib) (sLL sD : List Nat) (ts : List Token) (f : Bool) : Good M isFalse (std l c m) (std l c m) (writeDynamicBlock wBW L sLL sD ts f) := by
  unfold writeDynamicBlock
  refine Good.bind (good_assertStop _) fun _ => Good.chk (good_evStep _) <| Good.chk (good_bitsWrite _ _) <| ?_
  refine Good.bind (Good.lift _) fun x => Good.bind (Good.lift _) fun y => Good.bind (Good.lift _) fun z => ?_
  exact Good.chk (good_bitsWrite _ _) <| Good.chk (good_bitsWrite _ _) <| Good.chk (good_bitsWrite _ _) <| Good.chk (good_forAll (fun i => good_bitsWrite _ _) _) <|
    Good.chk (good_forAll (fun t => good_encodeX _ t) _) <| Good.chk (good_evStep _) <| Good.chk (good_forAll (fun t => good_encodeLLD _ _ t) _) <| good_evStep _

theorem good_compressTokens {l c m : Bool} (W : Nat) (L : HuffLib) (data : List UInt8) (ts : List Token) (f : Bool) : Good M isFalse (std l c m) (std l c m) (compressTokens wBW W L data ts f) := by
  unfold compressTokens
  refine Good.bind (Good.lift _) fun x => Good.bind (Good.lift _) fun y => Good.bind (Good.lift _) fun z => ?_
  dsimp only
  split
  · exact good_stored _ _
  · split
    · exact good_static _ _
    · exact good_dynamic _ _ _ _ _

/-! ### input -/

theorem R.account {l c m : Bool} {s s' : WState} (h : R M (std l c m) s s') (p : List UInt8) : R M (std l c m) (account p s) (account p s') :=
  { h with
    sums := fun e => by obtain ⟨h1, h2, h3⟩ := h.sums e; simp only [Model.account, h1, h2, h3, and_self]
    len := fun e => by simp only [Model.account, h.len e]
    sum := fun e => by obtain ⟨h1, h2⟩ := h.sum e; simp only [Model.account, h1, h2, and_self] }

theorem good_inputRead {l c m : Bool} (n : Nat) : Good M never (std l c m) (std l c m) (inputBufferRead n) := by
  refine ⟨fun s a t h => by unfold inputBufferRead at h; cases h; exact List.prefix_refl _, fun s s' h => ?_⟩
  have : inputBufferRead n s' = .ok (s.lz.buf.take n, Model.account (s.lz.buf.take n) { s' with lz := (s'.lz.read n).2 }) := by
    unfold inputBufferRead LZ.read; simp only [h.buf]
  rw [this]
  have h1 : R M (std l c m) { s with lz := (s.lz.read n).2 } { s' with lz := (s'.lz.read n).2 } :=
    { h with hist := by simp only [LZ.read, h.hist, h.buf], buf := by simp only [LZ.read, h.buf] }
  exact out_ok (h1.account _)

theorem advance_eq {l c m : Bool} {s s' : WState} (h : R M (std l c m) s s') : ∃ n m, s.lz.advance = (s.lz.buf.take n, m, { s.lz with hist := s.lz.hist ++ s.lz.buf.take n, buf := s.lz.buf.drop n, step := s.lz.step + 1 }) ∧
    s'.lz.advance = (s.lz.buf.take n, m, { s'.lz with hist := s.lz.hist ++ s.lz.buf.take n, buf := s.lz.buf.drop n, step := s'.lz.step + 1 }) := by
  have hp := h.prop 0
  simp only [Nat.add_zero] at hp
  have hv : ∀ d l, s'.lz.validMatch d l = s.lz.validMatch d l := by
    intro d l
    unfold LZ.validMatch LZ.maxDist
    rw [h.lzo, h.hist, h.buf]
  unfold LZ.advance
  simp only [hp, hv, h.hist, h.buf]
  rcases s.lz.propose s.lz.step with _ | ⟨d, l⟩
  · exact ⟨1, none, rfl, rfl⟩
  · simp only []
    cases s.lz.validMatch d l
    · exact ⟨1, none, rfl, rfl⟩
    · exact ⟨l, some (d, l), rfl, rfl⟩

theorem good_inputAdvance {l c m : Bool} : Good M never (std l c m) (std l c m) inputBufferAdvance := by
  refine ⟨fun s a t h => by unfold inputBufferAdvance at h; cases h; exact List.prefix_refl _, fun s s' h => ?_⟩
  obtain ⟨n, m, e1, e2⟩ := advance_eq h
  unfold inputBufferAdvance
  rw [e1, e2]
  refine out_ok (R.account ?_ _)
  exact { h with hist := rfl, buf := rfl, prop := fun k => by have := h.prop (k + 1); simpa [Nat.add_assoc, Nat.add_comm 1 k] using this }

theorem good_storeLoop {l c m : Bool} : ∀ (fuel av : Nat), Good M isFalse (std l c m) (std l c m) (storeLoop fuel av)
  | 0, _ => Good.panic _
  | fuel + 1, av => by
    unfold storeLoop
    split
    · exact Good.pure true
    · exact Good.bind (good_inputRead _) fun p => Good.chk (good_stored _ _) (good_storeLoop fuel _)

theorem good_compressStore {l c m : Bool} (all : Bool) : Good M isFalse (std l c m) (std l c m) (compressStore all) :=
  Good.ite (fun s => s.lz.buf.length < storedBlockSize ∧ all = false ∧ s.lz.buf.length < s.lz.cap)
    (fun s s' h => by rw [h.buf, show s'.lz.cap = s.lz.cap from by unfold LZ.cap; rw [h.lzo]]) (Good.pure true)
    (Good.dep (fun s => s.lz.buf.length) (fun s s' h => by rw [h.buf]) (fun av => good_storeLoop (l := l) (c := c) (m := m) (av + 1) av))

theorem good_tokenLoop {l c m : Bool} : ∀ (fuel av : Nat) (bb : List UInt8) (ts : List Token), Good M never (std l c m) (std l c m) (tokenLoop fuel av bb ts)
  | 0, _, _, _ => Good.panic _
  | fuel + 1, av, bb, ts => by
    unfold tokenLoop
    split
    · exact Good.pure _
    · refine Good.bind good_inputAdvance fun x => ?_
      obtain ⟨p, m⟩ := x
      rcases m with _ | ⟨d, l⟩
      · cases p with
        | nil => exact Good.panic _
        | cons ch r => exact good_tokenLoop fuel _ _ _
      · exact Good.bind (Good.assert _ _) fun _ => Good.bind (Good.assert _ _) fun _ => Good.bind (Good.lift _) fun t => good_tokenLoop fuel _ _ _

theorem good_compressSlow {l c m : Bool} (L : HuffLib) (all : Bool) : Good M isFalse (std l c m) (std l c m) (compressSlow L all) :=
  Good.ite (fun s => s.lz.buf.length < 4096 ∧ all = false ∧ s.lz.buf.length < s.lz.cap)
    (fun s s' h => by rw [h.buf, show s'.lz.cap = s.lz.cap from by unfold LZ.cap; rw [h.lzo]]) (Good.pure true)
    (Good.dep (g := fun (x : Nat × Nat) => (do
      let (data, tokens) ← tokenLoop (x.1 + 1) x.1 [] []
      compressTokens wBW x.2 L data (tokens ++ [makeStopToken]) false : Go WState Bool)) (fun s => (s.lz.buf.length, s.W)) (fun s s' h => by rw [h.buf, h.W])
      (fun x => Good.bind (good_tokenLoop _ _ _ _) fun y => good_compressTokens _ _ _ _ _))


/-! ### headers and footers -/

theorem good_gzExtra {l c m : Bool} (h : Header) : Good M isFalse (std l c m) (std l c m) (gzExtra h) := by
  unfold gzExtra
  split
  · exact Good.pure true
  · exact Good.chk (good_bufWrite _) (good_bufWrite _)

theorem good_gzString {l c m : Bool} (p : List UInt8) : Good M isFalse (std l c m) (std l c m) (gzString p) := by
  unfold gzString
  split
  · exact Good.pure true
  · exact good_stringZ p

/-- what a header depends on: the format, the fixed parts of zlib and gzip headers, and the variable parts -/
structure HeadDep where
  format : Format
  zlib : List UInt8
  gzip : List UInt8
  extra : List ExtraRec
  fileName : List UInt8
  comment : List UInt8

def headDep (s : WState) : HeadDep :=
  { format := s.o.format
    zlib := if s.o.format = .zlib then zlibHeaderBytes s.o else []
    gzip := if s.o.format = .gzip then gzipHeaderBytes s.o s.header else []
    extra := s.header.extra, fileName := s.header.fileName, comment := s.header.comment }

theorem R.headDep {φ : Fl} {s s' : WState} (h : R M φ s s') : headDep s' = headDep s := by
  have e1 := h.header
  unfold Sim.headDep
  rw [h.o.format]
  congr 1
  · split
    · rename_i hf; exact h.o.zlib hf
    · rfl
  · split
    · rename_i hf; rw [h.o.gzip hf]; rw [hf] at e1; exact e1.bytes _
    · rfl
  · rw [e1.eq]
  · rw [e1.eq]
  · rw [e1.eq]

/-- writer.go:582-595 -/
def headOf (x : HeadDep) : Go WState Bool := match x.format with
  | .raw => pure true
  | .zlib => wBufWrite x.zlib
  | .gzip => do
    Go.modify (fun s : WState => { s with crcOut := Crc.init })
    (Go.chk (wBufWrite x.gzip) <| Go.chk (if x.extra = [] then pure true else
        Go.chk (wBufWriteU16 ((extraAsBytes x.extra).length % 65536)) (wBufWrite (extraAsBytes x.extra))) <|
      Go.chk (gzString x.fileName) <| Go.chk (gzString x.comment) <| fun s => wBufWriteU16 (s.crcOut.toNat % 65536) s : Go WState Bool)
  | .default => Go.panic (.assert "Format not implemented")

theorem good_headOf {l c m : Bool} (x : HeadDep) : Good M isFalse (std l c m) (std l c m) (headOf x) := by
  unfold headOf
  cases x.format
  · exact Good.panic _
  · exact Good.pure true
  · exact good_bufWrite _
  · refine Good.bind (φ1 := std l true m) (Good.modify (fun s : WState => { s with crcOut := Crc.init }) (fun s => List.prefix_refl _)
      (fun s s' h => { h with crc := fun _ => rfl })) (fun _ => ?_)
    refine Good.weaken (φ1 := std l true m) (φ2 := std l true m) ?_ {} {}
    refine Good.chk (good_bufWrite _) <| Good.chk ?_ <| Good.chk (good_gzString _) <| Good.chk (good_gzString _) <|
      Good.dep (fun s => s.crcOut.toNat % 65536) (fun s s' h => by rw [h.crc rfl]) (fun v => good_bufWrite (leBytes 2 v))
    split
    · exact Good.pure true
    · exact Good.chk (good_bufWrite _) (good_bufWrite _)

theorem R.fill {l c m : Bool} {s s' : WState} (h : R M (std l c m) s s') : HSame s.o.format (fillHeader s) (fillHeader s') := by
  have e1 := h.header
  unfold fillHeader
  rw [h.buf, h.o.wbits]
  generalize s'.o.clevel = k
  refine ⟨?_, fun hf => ?_⟩
  · rw [e1.eq]
  · simp only [e1.dt hf]

/-- writer.go:554-608 and the assignment which follows each call -/
def openStream : Go WState Bool := Go.chk writeHeader (setState .openStream)

/-- the part of `writeHeader` which may fail -/
def hdrWrite : Go WState Bool := do
  Go.modify fun s => { s with inStream := 0, outStream := 0, numStreams := s.numStreams + 1 }
  Go.modify fun s => { s with lz := { s.lz with hist := s.o.dict.getD [] } }
  wSendEvent .streamBegin
  Go.modify fun s => { s with header := fillHeader s }
  fun s => (match s.o.format with
    | .raw => pure true
    | .zlib => writeHeaderZlib
    | .gzip => writeHeaderGZIP
    | .default => Go.panic (.assert "Format not implemented") : Go WState Bool) s

/-- the part which does not -/
def hdrDone : Go WState Bool := do
  let s ← Go.get
  wSendEvent (.streamHeader s.header)
  Go.modify fun s => { s with adler := Adler.init, crcIn := Crc.init }
  pure true

theorem writeHeader_eq : writeHeader = Go.chk hdrWrite hdrDone := by
  funext s; rfl

theorem good_hdrWrite {l c m : Bool} : Good M isFalse (std l c m) (std true c m) hdrWrite := by
  refine Good.bind (φ1 := std true c m) (Good.modify _ (fun s => List.prefix_refl _) (fun s s' h => { h with
    sums := fun e => by obtain ⟨h1, h2, h3⟩ := h.sums e; exact ⟨h1, h2, rfl⟩
    len := fun _ => rfl })) (fun _ => ?_)
  refine Good.bind (Good.modify _ (fun s => List.prefix_refl _) (fun s s' h => { h with hist := by simp only [h.o.dict] })) (fun _ => ?_)
  refine Good.bind (good_sendEvent _) (fun _ => ?_)
  refine Good.bind (Good.modify _ (fun s => List.prefix_refl _) (fun s s' h => { h with header := h.fill })) (fun _ => ?_)
  have e : (fun s : WState => (match s.o.format with
    | .raw => pure true
    | .zlib => writeHeaderZlib
    | .gzip => writeHeaderGZIP
    | .default => Go.panic (.assert "Format not implemented") : Go WState Bool) s) = fun s => headOf (headDep s) s := by
    funext s
    unfold headOf headDep
    simp only []
    cases hf : s.o.format <;> simp only [if_true] <;> rfl
  rw [e]
  exact Good.dep _ (fun s s' h => h.headDep) good_headOf

theorem good_openStream : Good M isFalse (std false false false) (std false false false) openStream := by
  have e : openStream = Go.chk hdrWrite (fun s => .ok (true, { s with events := s.events ++ [⟨wEvent s (.streamHeader s.header), s.sink.out.length, s.lz.buf.length⟩], adler := Adler.init, crcIn := Crc.init, state := .openStream })) := by
    unfold openStream
    rw [writeHeader_eq]
    funext s
    unfold Go.chk
    cases hdrWrite s with
    | error e => rfl
    | ok r => obtain ⟨_ | _, t⟩ := r <;> rfl
  rw [e]
  refine Good.chk (φ1 := std true false false) good_hdrWrite (Good.modifyB _ (fun s => List.prefix_refl _) (fun s s' h => { h with
    sums := fun _ => ⟨rfl, rfl, h.len rfl⟩, state := rfl, len := fun e => (by cases e), sum := fun _ => ⟨rfl, rfl⟩ }))

theorem good_footerZlib {l c m : Bool} (a : BitVec 32) : Good M isFalse (std l c m) (std l c m) (writeFooterZlib a) := good_bufWrite _

end Flate.Proof.Sim
