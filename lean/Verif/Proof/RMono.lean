/-
The functions of reader.go one by one: they do not panic, whatever the input and the moment of a `Close`, except in
`ExtraData.Parse`.
-/
import Verif.Proof.RSafe

namespace Flate.Proof.R
open Flate.Spec Flate.Model Flate.Model.Rd

theorem StepA.total {st : Bool} {i i' : Inp} (h : StepA st i i') : i.inTotal ≤ i'.inTotal := by
  obtain ⟨c, _, h⟩ := h.took; omega

theorem StepO.total {o o' : Out} (h : StepO o o') : o.outTotal ≤ o'.outTotal := by
  obtain ⟨⟨l, _, h, _⟩, _⟩ := h; omega

/-- `n` is the number of bytes delivered at some moment between two states -/
def Between (o o' : Out) (n : Nat) : Prop := ∃ p q, o'.acts = o.acts ++ p ++ q ∧ n = o.outTotal + (actData p).length

theorem Between.le {o o' : Out} {n : Nat} (h : StepO o o') (hb : Between o o' n) : o.outTotal ≤ n ∧ n ≤ o'.outTotal := by
  obtain ⟨p, q, h1, rfl⟩ := hb
  obtain ⟨⟨l, h2, h3, _⟩, _⟩ := h
  rw [h1, List.append_assoc] at h2
  have := List.append_cancel_left h2
  rw [← this, actData_append] at h3
  simp at h3; omega

theorem Between.right {o o' o'' : Out} {n : Nat} (h : StepO o' o'') (hb : Between o o' n) : Between o o'' n := by
  obtain ⟨p, q, h1, h2⟩ := hb
  obtain ⟨⟨l, h3, _⟩, _⟩ := h
  exact ⟨p, q ++ l, by rw [h3, h1]; simp, h2⟩

theorem Between.left {o o' o'' : Out} {n : Nat} (h : StepO o o') (hb : Between o' o'' n) : Between o o'' n := by
  obtain ⟨p, q, h1, h2⟩ := hb
  obtain ⟨⟨l, h3, h4, _⟩, _⟩ := h
  exact ⟨l ++ p, q, by rw [h1, h3]; simp, by rw [h2, h4, actData_append]; simp; omega⟩

/-- events have been sent, with the counters of moments between the beginning and the end -/
def EvStep (s s' : RState) : Prop := ∃ l, s'.events = s.events ++ l ∧
  (∀ e ∈ l, s.inp.inTotal ≤ e.inTotal ∧ e.inTotal ≤ s'.inp.inTotal ∧ Between s.out s'.out e.outTotal) ∧
  l.Pairwise (fun a b => a.inTotal ≤ b.inTotal ∧ a.outTotal ≤ b.outTotal)

theorem evNone {s s' : RState} (h : s'.events = s.events) : EvStep s s' := ⟨[], by simp [h], by simp, List.Pairwise.nil⟩

theorem EvStep.trans {s s' s'' : RState} (h : EvStep s s') (h' : EvStep s' s'') (hi : s.inp.inTotal ≤ s'.inp.inTotal) (hi' : s'.inp.inTotal ≤ s''.inp.inTotal)
    (ho : StepO s.out s'.out) (ho' : StepO s'.out s''.out) : EvStep s s'' := by
  obtain ⟨l, l1, l2, l3⟩ := h
  obtain ⟨m, m1, m2, m3⟩ := h'
  refine ⟨l ++ m, by rw [m1, l1]; simp, fun e he => ?_, List.pairwise_append.2 ⟨l3, m3, fun a ha b hb => ?_⟩⟩
  · rcases List.mem_append.1 he with h | h
    · have := l2 e h; exact ⟨this.1, by omega, this.2.2.right ho'⟩
    · have := m2 e h; exact ⟨by omega, this.2.1, this.2.2.left ho⟩
  · have := l2 a ha; have := m2 b hb
    have := (l2 a ha).2.2.le ho
    have := (m2 b hb).2.2.le ho'
    omega

/-- time has passed: input was consumed in order, output was delivered, events were sent -/
structure Mono (b : Bool) (s s' : RState) : Prop where
  inp : StepA s'.out.stopIsForced s.inp s'.inp
  out : StepO s.out s'.out
  ev : EvStep s s'
  fmt : b = true → s.actualFormat ≠ .default → s'.actualFormat ≠ .default

theorem Mono.refl (b : Bool) (s : RState) : Mono b s s := ⟨.refl _ _, .refl _, evNone rfl, fun _ h => h⟩

theorem Mono.trans {b : Bool} {s s' s'' : RState} (h : Mono b s s') (h' : Mono b s' s'') : Mono b s s'' :=
  ⟨h.inp.trans h'.inp (fun e => by
    cases hs : s'.out.stopIsForced with
    | false => rfl
    | true => rw [h'.out.stop hs] at e; cases e), h.out.trans h'.out, h.ev.trans h'.ev h.inp.total h'.inp.total h.out h'.out, fun e k => h'.fmt e (h.fmt e k)⟩

theorem Mono.weak {s s' : RState} (h : Mono true s s') (b : Bool) : Mono b s s' := ⟨h.inp, h.out, h.ev, fun _ => h.fmt rfl⟩

/-- The function does not panic, except with `bounds` if `X`; it respects time, and its result satisfies `Q`. -/
def Safe {α : Type} (b : Bool) (X : Prop) (f : Go RState α) (s : RState) (Q : α → RState → Prop) : Prop :=
  match f s with
  | .ok (a, s') => Mono b s s' ∧ Q a s'
  | .error e => e = .bounds ∧ X

section
variable {α β : Type} {b : Bool} {X : Prop} {s : RState}

theorem Safe.ok {f : Go RState α} {Q : α → RState → Prop} {a : α} {s' : RState} (h : f s = .ok (a, s')) (hm : Mono b s s') (hq : Q a s') :
    Safe b X f s Q := by
  unfold Safe; rw [h]; exact ⟨hm, hq⟩

theorem Safe.cases {f : Go RState α} {Q : α → RState → Prop} (h : Safe b X f s Q) :
    (∃ a s', f s = .ok (a, s') ∧ Mono b s s' ∧ Q a s') ∨ (f s = .error .bounds ∧ X) := by
  unfold Safe at h
  cases hf : f s with
  | error e => rw [hf] at h; right; exact ⟨by rw [h.1], h.2⟩
  | ok p => rw [hf] at h; left; exact ⟨p.1, p.2, rfl, h⟩

theorem Safe.pure {Q : α → RState → Prop} {a : α} (h : Q a s) : Safe b X (Pure.pure a) s Q := Safe.ok rfl (.refl _ _) h

theorem Safe.imp {f : Go RState α} {Q Q' : α → RState → Prop} (h : Safe b X f s Q) (hq : ∀ a s', Mono b s s' → Q a s' → Q' a s') :
    Safe b X f s Q' := by
  rcases h.cases with ⟨a, s', e, m, q⟩ | ⟨e, x⟩
  · exact Safe.ok e m (hq a s' m q)
  · unfold Safe; rw [e]; exact ⟨rfl, x⟩

theorem Safe.step {f : Go RState α} {g : Go RState α} {Q : α → RState → Prop} {s1 : RState} (hm : Mono b s s1) (he : f s = g s1) (h : Safe b X g s1 Q) :
    Safe b X f s Q := by
  rcases h.cases with ⟨a, s', e, m, q⟩ | ⟨e, x⟩
  · exact Safe.ok (he.trans e) (hm.trans m) q
  · unfold Safe; rw [he, e]; exact ⟨rfl, x⟩

theorem Safe.bind {f : Go RState α} {g : α → Go RState β} {P : α → RState → Prop} {Q : β → RState → Prop} (h : Safe b X f s P)
    (hg : ∀ a s', Mono b s s' → P a s' → Safe b X (g a) s' Q) : Safe b X (f >>= g) s Q := by
  rcases h.cases with ⟨a, s', e, m, q⟩ | ⟨e, x⟩
  · exact (hg a s' m q).step m (Go.bind_ok e)
  · unfold Safe; rw [Go.bind_error e]; exact ⟨rfl, x⟩

theorem Safe.chk {x y : Go RState Bool} {P Q : Bool → RState → Prop} (h : Safe b X x s P)
    (hf : ∀ s', Mono b s s' → P false s' → Q false s')
    (hy : ∀ s', Mono b s s' → P true s' → Safe b X y s' Q) : Safe b X (Go.chk x y) s Q := by
  rcases h.cases with ⟨a, s', e, m, q⟩ | ⟨e, x⟩
  · cases a with
    | false => exact Safe.ok (by unfold Go.chk; rw [e]) m (hf s' m q)
    | true => exact (hy s' m q).step m (by unfold Go.chk; rw [e])
  · unfold Safe Go.chk; rw [e]; exact ⟨rfl, x⟩

theorem Safe.onInp {f : Bool → Go Inp α} {P : α → Inp → Prop} {a : α} {i : Inp} {Q : α → RState → Prop}
    (h : f s.out.stopIsForced s.inp = .ok (a, i)) (hs : StepA s.out.stopIsForced s.inp i) (hq : Q a { s with inp := i }) :
    Safe b X (Rd.onInp f) s Q :=
  Safe.ok (onInp_ok h) ⟨hs, .refl _, evNone rfl, fun _ h => h⟩ hq

theorem mono_out {o : Out} (h : StepO s.out o) : Mono b s { s with out := o } := ⟨.refl _ _, h, evNone rfl, fun _ h => h⟩

theorem safe_close (e : Err) {Q : Unit → RState → Prop} (hq : Q () { s with out := closeOut e s.out }) : Safe b X (closeWithError e) s Q :=
  Safe.ok (closeWithError_eq e s) (mono_out (stepO_closeOut e s.out)) hq

theorem safe_corruptf (m : Spec.Problem) {Q : Unit → RState → Prop} (hq : ∀ o, Mono b s { s with out := o } → Q () { s with out := o }) :
    Safe b X (corruptf m) s Q := by
  unfold corruptf
  exact (safe_close _ (Q := Q) (hq _ (mono_out (stepO_closeOut _ s.out)))).step (.refl _ _) rfl

theorem safe_propagate (t : Bool) {Q : Unit → RState → Prop} (hq : ∀ o, Mono b s { s with out := o } → Q () { s with out := o }) :
    Safe b X (propagateError t) s Q := by
  cases he : s.inp.inputError with
  | none => exact Safe.ok (by unfold propagateError; rw [he]) (.refl _ _) (hq s.out (.refl _ _))
  | some e =>
    exact (safe_close _ (Q := Q) (hq _ (mono_out (stepO_closeOut _ s.out)))).step (.refl _ _)
      (by unfold propagateError; rw [he])

theorem safe_exhausted (fl : α) {Q : α → RState → Prop} (hq : ∀ o, Mono b s { s with out := o } → Q fl { s with out := o }) : Safe b X (exhausted fl) s Q := by
  unfold exhausted
  refine Safe.bind (safe_propagate true (Q := fun _ s' => ∃ o, s' = { s with out := o }) fun o _ => ⟨o, rfl⟩) ?_
  rintro _ s' m ⟨o, rfl⟩
  exact Safe.pure (hq o m)

theorem safe_fail (m : Spec.Problem) {Q : Bool → RState → Prop} (hq : ∀ o, Mono b s { s with out := o } → Q false { s with out := o }) : Safe b X (fail m) s Q := by
  unfold fail
  refine Safe.bind (safe_corruptf m (Q := fun _ s' => ∃ o, s' = { s with out := o }) fun o _ => ⟨o, rfl⟩) ?_
  rintro _ s' m ⟨o, rfl⟩
  exact Safe.pure (hq o m)

theorem safe_corrupt_none (m : Spec.Problem) (fl : α) {Q : α → RState → Prop} (hq : ∀ o, Mono b s { s with out := o } → Q fl { s with out := o }) :
    Safe b X (do corruptf m; Pure.pure fl) s Q := by
  refine Safe.bind (safe_corruptf m (Q := fun _ s' => ∃ o, s' = { s with out := o }) fun o _ => ⟨o, rfl⟩) ?_
  rintro _ s' m ⟨o, rfl⟩
  exact Safe.pure (hq o m)

theorem safe_modHeader (f : Header → Header) {Q : Unit → RState → Prop} (hq : ∀ h, Q () { s with header := h }) : Safe b X (modHeader f) s Q :=
  Safe.ok rfl ⟨.refl _ _, .refl _, evNone rfl, fun _ h => h⟩ (hq _)

theorem mono_event (b : Bool) (k : EvKind) : Mono b s { s with events := s.events ++ [{ kind := k, inTotal := s.inp.inTotal, inStream := s.inp.inStream, outTotal := s.out.outTotal, outStream := s.out.outStream, numStreams := s.numStreams, format := s.actualFormat }] } :=
  ⟨.refl _ _, .refl _, ⟨_, rfl, by intro e he; obtain rfl := List.mem_singleton.1 he; exact ⟨Nat.le_refl _, Nat.le_refl _, [], [], by simp, rfl⟩, by simp⟩, fun _ h => h⟩

theorem safe_sendEvent (k : EvKind) {Q : Unit → RState → Prop} (hq : ∀ ev, Q () { s with events := ev }) : Safe b X (sendEvent k) s Q :=
  Safe.ok rfl (mono_event _ _) (hq _)

theorem safe_onOut {f : Out → α × Out} {Q : α → RState → Prop} (h : StepO s.out (f s.out).2) (hq : Q (f s.out).1 { s with out := (f s.out).2 }) :
    Safe b X (onOut f) s Q :=
  Safe.ok rfl (mono_out h) hq

/-! ### reading values -/

theorem safe_needBits {E : Env} (hW : 32 ≤ E.W) (fl : α) {n : Nat} (hn : n ≤ 24) {k : Nat → Go RState α} {Q : α → RState → Prop}
    (hk : ∀ v i', v < 2 ^ n → Mono b s { s with inp := i' } → i'.bits + n ≤ s.inp.bits → Safe b X (k v) { s with inp := i' } Q)
    (hf : ∀ s', Mono b s s' → s'.inp.bits ≤ s.inp.bits → Q fl s') : Safe b X (needBits E fl n k) s Q := by
  unfold needBits
  obtain ⟨ok, i1, e1, h1, h2⟩ := bitsFill_A (W := E.W) s.out.stopIsForced (n := n) (by omega) s.inp
  have m1 : Mono b s { s with inp := i1 } := ⟨h1, .refl _, evNone rfl, fun _ h => h⟩
  refine Safe.step m1 (Go.bind_ok (onInp_ok e1)) ?_
  cases ok with
  | false => exact safe_exhausted fl fun o m => hf _ (m1.trans m) h1.bits
  | true =>
    simp only [Bool.not_true, Bool.false_eq_true, if_false]
    obtain ⟨v, i2, e2, hv, h3, h4⟩ := bitsRead_A (W := E.W) s.out.stopIsForced (n := n) (by omega) (h2 rfl)
    have m2 : Mono b { s with inp := i1 } { s with inp := i2 } := ⟨h3, .refl _, evNone rfl, fun _ h => h⟩
    refine Safe.step m2 (Go.bind_ok (onInp_ok (s := { s with inp := i1 }) e2)) ?_
    exact hk v i2 hv (m1.trans m2) (by have := h1.bits; omega)

theorem safe_needBytes (fl : α) (n : Nat) {k : List UInt8 → Go RState α} {Q : α → RState → Prop}
    (hk : ∀ p i', p.length = n → allB s.inp = p ++ allB i' → i'.ibLen = 0 → Mono b s { s with inp := i' } → Safe b X (k p) { s with inp := i' } Q)
    (hf : ∀ s', Mono b s s' → s'.inp.ibLen = 0 → Q fl s') : Safe b X (needBytes fl n k) s Q := by
  unfold needBytes
  obtain ⟨p, ok, i1, e1, h1, h2, h3, h4⟩ := bufRead_A s.out.stopIsForced n s.inp
  have m1 : Mono b s { s with inp := i1 } := ⟨h1, .refl _, evNone rfl, fun _ h => h⟩
  refine Safe.step m1 (Go.bind_ok (onInp_ok (by rw [e1]))) ?_
  cases ok with
  | false => exact safe_exhausted fl fun o m => hf _ (m1.trans m) h4
  | true =>
    simp only [Bool.not_true, Bool.false_eq_true, if_false]
    exact hk p i1 (h2 rfl) h3 h4 m1

theorem safe_readSymbol {E : Env} (hL : E.L.Lawful) (hW : 32 ≤ E.W) {lens : List Nat} (ha : E.L.accepts lens = true) {Q : Option Nat → RState → Prop}
    (h1 : ∀ sym i', Mono b s { s with inp := i' } → i'.bits < s.inp.bits → Used lens sym → Q (some sym) { s with inp := i' })
    (h2 : ∀ i', Mono b s { s with inp := i' } → Q none { s with inp := i' }) : Safe b X (readSymbol E lens) s Q := by
  obtain ⟨r, i', e, h3, h4⟩ := symbolLoop_A hL ha s.out.stopIsForced hW (E.L.maxSize lens + 2) (E.L.minSize lens) s.inp (by omega) (by omega)
  have m : Mono b s { s with inp := i' } := ⟨h3, .refl _, evNone rfl, fun _ h => h⟩
  refine Safe.ok (onInp_ok e) m ?_
  cases r with
  | none => exact h2 i' m
  | some sym => exact h1 sym i' m (h4 sym rfl).1 (h4 sym rfl).2

theorem safe_addBits {E : Env} (hW : 32 ≤ E.W) (fl : α) {n : Nat} (hn : n ≤ 24) (base : Nat) {k : Nat → Go RState α} {Q : α → RState → Prop}
    (hk : ∀ v i', v < 2 ^ n → Mono b s { s with inp := i' } → Safe b X (k (base + v)) { s with inp := i' } Q)
    (hf : ∀ s', Mono b s s' → Q fl s') : Safe b X (addBits E fl n base k) s Q := by
  unfold addBits
  split
  · exact safe_needBits hW fl hn (fun v i' h1 h2 _ => hk v i' h1 h2) (fun s' h _ => hf s' h)
  · rename_i h
    have : n = 0 := by omega
    subst this
    exact hk 0 s.inp (by simp) (.refl _ _)

/-! ### blocks -/

theorem safe_dbWrite (E : Env) (p : List UInt8) {Q : Unit → RState → Prop} (hq : ∀ o, StepO s.out o → Q () { s with out := o }) :
    Safe b X (dbWrite E p) s Q := by
  obtain ⟨o', e, h⟩ := dbWriteLoop_A E (p.length + 1) p s.out (Nat.lt_succ_self _)
  exact Safe.ok (by unfold dbWrite; rw [e]) (mono_out h) (hq o' h)

theorem safe_dbWriteByte (E : Env) (ch : UInt8) {Q : Unit → RState → Prop} (hq : ∀ o, StepO s.out o → Q () { s with out := o }) :
    Safe b X (dbWriteByte E ch) s Q := by
  unfold dbWriteByte
  have hs : StepO s.out ((fun o : Out => if (tryFlush E o).decodeBuffer.length < E.cap then ((), { tryFlush E o with decodeBuffer := (tryFlush E o).decodeBuffer ++ [ch], window := windowWrite E.o.wbits (tryFlush E o).window [ch] }) else ((), tryFlush E o)) s.out).2 := by
    simp only [tryFlush_lt E s.out, if_true]
    exact (stepO_tryFlush E s.out).trans (stepO_none rfl rfl rfl rfl fun _ => ⟨_, rfl⟩)
  exact safe_onOut hs (hq _ hs)

theorem safe_copyLoop (E : Env) (d : Nat) : ∀ (n : Nat) (s : RState), Safe b X (copyLoop E d n) s (fun _ s' => s'.inp = s.inp)
  | 0, s => Safe.pure rfl
  | n + 1, s => by
    unfold copyLoop
    cases h : lookupByte s.out.window d with
    | none => exact (safe_fail (.tooFar d (2 ^ E.o.wbits)) fun o _ => rfl).step (.refl _ _) (by simp only [h])
    | some ch =>
      refine Safe.step (.refl _ _) (g := (do dbWriteByte E ch; copyLoop E d n : Go RState Bool)) (by simp only [h]) ?_
      refine Safe.bind (safe_dbWriteByte E ch (Q := fun _ s' => s'.inp = s.inp) fun o _ => rfl) fun _ s' _ h' => ?_
      exact (safe_copyLoop E d n s').imp fun _ s'' _ e => e.trans h'

theorem safe_copyMatch (E : Env) (d len : Nat) (s : RState) : Safe b X (copyMatch E d len) s (fun _ s' => s'.inp = s.inp) := by
  unfold copyMatch
  cases h : lookupSlice s.out.window d len (E.clip s.out.nLook) with
  | none => exact (safe_fail (.tooFar d (2 ^ E.o.wbits)) fun o _ => rfl).step (.refl _ _) (by simp only [h])
  | some p =>
    refine Safe.step (.refl _ _) (g := (do
      Go.modify fun s => { s with out := { s.out with nLook := s.out.nLook + 1 } }
      dbWrite E p
      copyLoop E d (len - p.length) : Go RState Bool)) (by simp only [h]) ?_
    refine Safe.bind (P := fun _ s' => s'.inp = s.inp) (Safe.ok rfl (mono_out (stepO_none rfl rfl rfl rfl fun _ => ⟨[], by simp⟩)) rfl) fun _ s1 _ h1 => ?_
    refine Safe.bind (safe_dbWrite E p (Q := fun _ s' => s'.inp = s.inp) fun o _ => h1) fun _ s2 _ h2 => ?_
    exact (safe_copyLoop E d _ s2).imp fun _ s'' _ e => e.trans h2

/-- decoding happens with a correct Huffman library -/
structure LibOK (E : Env) : Prop where
  lawful : E.L.Lawful
  word : 32 ≤ E.W

theorem safe_decodeLL {E : Env} (hE : LibOK E) (sym : Nat) : Safe b X (decodeLL E sym) s
    (fun t s' => s'.inp.bits ≤ s.inp.bits ∧ ∀ tok, t = some tok → tok.dist = 0 ∨ 3 ≤ tok.ll ∧ tok.ll ≤ 258) := by
  by_cases h1 : sym < 256
  · exact Safe.ok (decodeLL_lit h1) (.refl _ _) ⟨Nat.le_refl _, fun t ht => by cases ht; exact Or.inl rfl⟩
  · by_cases h2 : sym = 256
    · subst h2
      exact Safe.ok decodeLL_stop (.refl _ _) ⟨Nat.le_refl _, fun t ht => by cases ht; exact Or.inl rfl⟩
    · by_cases h3 : sym < 286
      · obtain ⟨li, rfl⟩ : ∃ li, sym = 257 + li := ⟨sym - 257, by omega⟩
        have hli : li < 29 := by omega
        obtain ⟨g1, g2, g3, g4⟩ := lenSym_eq li hli
        unfold decodeLL
        rw [if_neg (by omega), if_neg (by omega), g1]
        refine safe_addBits hE.word none (by omega) _ (fun v i' hv m => ?_) (fun s' m => ⟨m.inp.bits, fun _ h => by cases h⟩)
        have hr := refLen_range hli hv
        refine Safe.ok (decodeLL_tail hli hv _) (.refl _ _) ⟨m.inp.bits, fun t ht => ?_⟩
        cases ht
        exact Or.inr hr
      · unfold decodeLL
        rw [if_neg (by omega), if_neg (by omega), lenSym_none (by omega)]
        exact safe_corrupt_none _ _ fun o m => ⟨m.inp.bits, fun _ h => by cases h⟩

theorem safe_decodeD {E : Env} (hE : LibOK E) (sym : Nat) {len : Nat} (hl : 3 ≤ len) (hl' : len ≤ 258) : Safe b X (decodeD E sym len) s
    (fun _ s' => s'.inp.bits ≤ s.inp.bits) := by
  by_cases h3 : sym < 30
  · obtain ⟨g1, g2, g3, g4⟩ := distSym_eq sym h3
    unfold decodeD
    rw [g1]
    refine safe_addBits hE.word none (by omega) _ (fun v i' hv m => ?_) (fun s' m => m.inp.bits)
    exact Safe.ok (decodeD_tail hl hl' h3 hv _) (.refl _ _) m.inp.bits
  · unfold decodeD
    rw [distSym_none (by omega)]
    exact safe_corrupt_none _ _ fun o m => m.inp.bits

theorem safe_huffLoop {E : Env} (hE : LibOK E) {ll d : List Nat} (hll : E.L.accepts ll = true) (hd : E.L.accepts d = true) :
    ∀ (fuel : Nat) (s : RState), s.inp.bits < fuel → Safe b X (huffLoop E ll d fuel) s (fun _ _ => True)
  | 0, _, h => by omega
  | fuel + 1, s, hf => by
    unfold huffLoop
    refine Safe.bind (safe_readSymbol hE.lawful hE.word hll
      (Q := fun r s' => ∀ sym, r = some sym → s'.inp.bits < s.inp.bits) (fun sym i' _ h1 _ _ _ => h1) (fun _ _ _ h => by cases h)) fun r s1 _ h1 => ?_
    cases r with
    | none => exact safe_fail _ fun _ _ => trivial
    | some sym =>
      simp only []
      refine Safe.bind (safe_decodeLL hE sym) fun t s2 _ h2 => ?_
      cases t with
      | none => exact Safe.pure trivial
      | some t =>
        have hb2 : s2.inp.bits < fuel := by have := h1 sym rfl; have := h2.1; omega
        simp only []
        split
        · split
          · exact Safe.pure trivial
          · refine Safe.bind (safe_dbWriteByte E _ (Q := fun _ s' => s'.inp = s2.inp) fun o _ => rfl) fun _ s3 _ h3 => ?_
            exact safe_huffLoop hE hll hd fuel s3 (by rw [h3]; exact hb2)
        · rename_i hdist
          have hr := (h2.2 t rfl).resolve_left hdist
          refine Safe.bind (safe_readSymbol hE.lawful hE.word hd
            (Q := fun r s' => ∀ sym, r = some sym → s'.inp.bits < s2.inp.bits) (fun sym i' _ h1 _ _ _ => h1) (fun _ _ _ h => by cases h)) fun r s3 _ h3 => ?_
          cases r with
          | none => exact safe_fail _ fun _ _ => trivial
          | some sym' =>
            simp only []
            refine Safe.bind (safe_decodeD hE sym' hr.1 hr.2) fun t' s4 _ h4 => ?_
            cases t' with
            | none => exact Safe.pure trivial
            | some t' =>
              simp only []
              refine Safe.chk (safe_copyMatch E t'.dist t'.ll s4) (fun _ _ _ => trivial) fun s5 _ h5 => ?_
              exact safe_huffLoop hE hll hd fuel s5 (by rw [h5]; have := h3 sym' rfl; omega)

theorem safe_huffBlock {E : Env} (hE : LibOK E) {ll d : List Nat} (hll : E.L.accepts ll = true) (hd : E.L.accepts d = true) :
    Safe b X (decodeHuffmanBlock E ll d) s (fun _ _ => True) :=
  safe_huffLoop hE hll hd (s.inp.bits + 1) s (Nat.lt_succ_self _)

theorem safe_readStored (E : Env) : Safe b X (readStored E) s (fun _ _ => True) := by
  unfold readStored
  refine safe_needBytes _ _ (fun p i1 _ _ _ _ => safe_needBytes _ _ (fun q i2 _ _ _ _ => ?_) fun _ _ _ => trivial) fun _ _ _ => trivial
  split
  · exact safe_fail _ fun _ _ => trivial
  · refine safe_needBytes _ _ (fun d i3 _ _ _ _ => ?_) fun _ _ _ => trivial
    exact Safe.bind (safe_dbWrite E d (Q := fun _ _ => True) fun _ _ => trivial) fun _ _ _ _ => Safe.pure trivial

theorem accepts_fixed {E : Env} (hE : E.L.Lawful) : E.L.accepts fixedSizesLL = true ∧ E.L.accepts fixedSizesD = true :=
  ⟨hE.accepts_complete (by rw [fixedSizesLL_eq]; exact fixedLL_complete), hE.accepts_complete (by rw [fixedSizesD_eq]; exact fixedD_complete)⟩

theorem safe_readStatic {E : Env} (hE : LibOK E) (f : Bool) : Safe b X (readStatic E f) s (fun _ _ => True) := by
  unfold readStatic
  refine Safe.bind (safe_sendEvent _ (Q := fun _ _ => True) fun _ => trivial) fun _ s1 _ _ => ?_
  exact safe_huffBlock hE (accepts_fixed hE.lawful).1 (accepts_fixed hE.lawful).2

theorem safe_readCL {E : Env} (hE : LibOK E) : ∀ (is sX : List Nat) (s : RState), Safe b X (readCL E is sX) s (fun _ _ => True)
  | [], sX, s => Safe.pure trivial
  | i :: is, sX, s => by
    unfold readCL
    exact safe_needBits hE.word _ (by omega) (fun v i' _ _ _ => safe_readCL hE is _ _) fun _ _ _ => trivial

theorem safe_decodeX {E : Env} (hE : LibOK E) (sym total : Nat) (acc : List Nat) (ht : acc.length < total) :
    Safe b X (decodeX E sym total acc) s (fun r s' => s'.inp.bits ≤ s.inp.bits ∧ ∀ l, r = some l → l.length ≤ total) := by
  have hn : ∀ (s' : RState), Mono b s s' → s'.inp.bits ≤ s.inp.bits ∧ ∀ l : List Nat, none = some l → l.length ≤ total :=
    fun s' m => ⟨m.inp.bits, fun _ h => by cases h⟩
  have hc : ∀ (m : Spec.Problem) (s1 : RState), Mono b s s1 → Safe b X (do corruptf m; Pure.pure (none : Option (List Nat))) s1
      (fun r s' => s'.inp.bits ≤ s.inp.bits ∧ ∀ l, r = some l → l.length ≤ total) :=
    fun m s1 hm => safe_corrupt_none _ _ fun o m' => hn _ (hm.trans m')
  unfold decodeX
  by_cases h1 : sym < 16
  · rw [if_pos h1, if_pos ht]
    exact Safe.pure ⟨Nat.le_refl _, fun l h => by cases h; simp; omega⟩
  · rw [if_neg h1]
    by_cases h2 : sym = 16
    · rw [if_pos h2]
      split
      · exact hc _ _ (.refl _ _)
      · refine safe_needBits hE.word _ (by omega) (fun v i' _ m _ => ?_) fun s' m _ => hn s' m
        split
        · exact hc _ _ m
        · rw [if_pos (by omega)]
          exact Safe.pure ⟨m.inp.bits, fun l h => by cases h; simp; omega⟩
    · rw [if_neg h2]
      by_cases h3 : sym = 17
      · rw [if_pos h3]
        refine safe_needBits hE.word _ (by omega) (fun v i' _ m _ => ?_) fun s' m _ => hn s' m
        split
        · exact hc _ _ m
        · exact Safe.pure ⟨m.inp.bits, fun l h => by cases h; simp; omega⟩
      · rw [if_neg h3]
        by_cases h4 : sym = 18
        · rw [if_pos h4]
          refine safe_needBits hE.word _ (by omega) (fun v i' _ m _ => ?_) fun s' m _ => hn s' m
          split
          · exact hc _ _ m
          · exact Safe.pure ⟨m.inp.bits, fun l h => by cases h; simp; omega⟩
        · rw [if_neg h4]
          exact Safe.pure ⟨Nat.le_refl _, fun l h => by cases h; omega⟩

theorem safe_lensLoop {E : Env} (hE : LibOK E) {lens : List Nat} (ha : E.L.accepts lens = true) (total : Nat) :
    ∀ (fuel : Nat) (acc : List Nat) (s : RState), s.inp.bits < fuel → Safe b X (lensLoop E lens total fuel acc) s (fun _ _ => True)
  | 0, _, _, h => by omega
  | fuel + 1, acc, s, hf => by
    unfold lensLoop
    split
    · rename_i ht
      refine Safe.bind (safe_readSymbol hE.lawful hE.word ha
        (Q := fun r s' => ∀ sym, r = some sym → s'.inp.bits < s.inp.bits) (fun sym i' _ h1 _ _ _ => h1) (fun _ _ _ h => by cases h)) fun r s1 _ h1 => ?_
      cases r with
      | none => exact safe_corrupt_none _ _ fun _ _ => trivial
      | some sym =>
        simp only []
        refine Safe.bind (safe_decodeX hE sym total acc ht) fun t s2 _ h2 => ?_
        cases t with
        | none => exact Safe.pure trivial
        | some l => exact safe_lensLoop hE ha total fuel l s2 (by have := h1 sym rfl; have := h2.1; omega)
    · exact Safe.pure trivial

theorem safe_checkCounts (x y : Nat) : Safe b X (checkCounts x y) s (fun _ _ => True) := by
  unfold checkCounts
  have h : ∀ (c : Prop) [Decidable c] (m : Spec.Problem) (s : RState), Safe b X (if c then corruptf m else Pure.pure ()) s (fun _ _ => True) := by
    intro c _ m s
    split
    · exact safe_corruptf _ fun _ _ => trivial
    · exact Safe.pure trivial
  simp only []
  split
  · exact Safe.bind (safe_corruptf _ (Q := fun _ _ => True) fun _ _ => trivial) fun _ s1 _ _ => h (y > logicalNumDCodes) _ _
  · exact h (y > logicalNumDCodes) _ _

theorem safe_trees {E : Env} (hE : LibOK E) (f : Bool) : Safe b X (readDynamicTrees E f) s
    (fun r _ => ∀ ll d, r = some (ll, d) → E.L.accepts ll = true ∧ E.L.accepts d = true) := by
  have hc : ∀ (m : Spec.Problem) (s1 : RState), Safe b X (do corruptf m; Pure.pure (none : Option (List Nat × List Nat))) s1
      (fun r _ => ∀ ll d, r = some (ll, d) → E.L.accepts ll = true ∧ E.L.accepts d = true) :=
    fun m s1 => safe_corrupt_none _ _ fun o m' _ _ h => by cases h
  unfold readDynamicTrees
  refine safe_needBits hE.word _ (by omega) (fun v i' _ m _ => ?_) fun _ _ _ _ _ h => by cases h
  simp only []
  refine Safe.bind (safe_checkCounts _ _) fun _ s1 _ _ => ?_
  refine Safe.bind (safe_readCL hE _ _ s1) fun r s2 _ _ => ?_
  cases r with
  | none => exact Safe.pure fun _ _ h => by cases h
  | some sX =>
    simp only []
    cases ha : E.L.accepts sX with
    | false => exact hc _ _
    | true =>
      simp only [Bool.not_true, Bool.false_eq_true, if_false]
      refine Safe.bind (safe_lensLoop hE ha _ _ _ s2 (Nat.lt_succ_self _)) fun r s3 _ _ => ?_
      cases r with
      | none => exact Safe.pure fun _ _ h => by cases h
      | some lens =>
        simp only []
        generalize padTo physicalNumLLCodes _ = sLL
        generalize padTo physicalNumDCodes _ = sD
        cases h1 : E.L.accepts sLL with
        | false => exact hc _ _
        | true =>
          simp only [Bool.not_true, Bool.false_eq_true, if_false]
          cases h2 : E.L.accepts sD with
          | false => exact hc _ _
          | true =>
            simp only [Bool.not_true, Bool.false_eq_true, if_false]
            refine Safe.bind (safe_sendEvent _ (Q := fun _ _ => True) fun _ => trivial) fun _ s4 _ _ => ?_
            exact Safe.pure fun _ _ h => by cases h; exact ⟨h1, h2⟩

theorem safe_readDynamic {E : Env} (hE : LibOK E) (f : Bool) : Safe b X (readDynamic E f) s (fun _ _ => True) := by
  unfold readDynamic
  refine Safe.bind (safe_trees hE f) fun r s1 _ h => ?_
  cases r with
  | none => exact Safe.pure trivial
  | some p =>
    obtain ⟨ll, d⟩ := p
    exact safe_huffBlock hE (h ll d rfl).1 (h ll d rfl).2

theorem safe_readBlockOf {E : Env} (hE : LibOK E) (f : Bool) (bt : BlockType) : Safe b X (readBlockOf E f bt) s (fun _ _ => True) := by
  cases bt with
  | stored => exact safe_readStored E
  | static => exact safe_readStatic hE f
  | dynamic => exact safe_readDynamic hE f
  | invalid => exact safe_fail _ fun _ _ => trivial

theorem safe_readFlateBlock {E : Env} (hE : LibOK E) : Safe b X (readFlateBlock E) s
    (fun r s' => r ≠ none → s'.inp.bits < s.inp.bits) := by
  unfold readFlateBlock
  refine safe_needBits hE.word _ (by omega) (fun v i' _ m hb => ?_) fun _ _ _ h => absurd rfl h
  simp only []
  refine Safe.bind (safe_sendEvent _ (Q := fun _ s' => s'.inp.bits ≤ i'.bits) fun _ => Nat.le_refl _) fun _ s1 _ h1 => ?_
  refine Safe.bind (safe_readBlockOf hE _ _) fun ok s2 m2 _ => ?_
  cases ok with
  | false => exact Safe.pure fun h => absurd rfl h
  | true =>
    simp only [if_true]
    refine Safe.bind (safe_sendEvent _ (Q := fun _ s' => s'.inp = s2.inp) fun _ => rfl) fun _ s3 _ h3 => ?_
    refine Safe.pure fun _ => ?_
    rw [h3]
    have := m2.inp.bits
    omega

theorem safe_blockLoop {E : Env} (hE : LibOK E) : ∀ (fuel : Nat) (s : RState), s.inp.bits < fuel → Safe b X (blockLoop E fuel) s (fun _ _ => True)
  | 0, _, h => by omega
  | fuel + 1, s, hf => by
    unfold blockLoop
    refine Safe.bind (safe_readFlateBlock hE) fun r s1 _ h1 => ?_
    cases r with
    | none => exact Safe.pure trivial
    | some f =>
      cases f with
      | true => exact Safe.pure trivial
      | false => exact safe_blockLoop hE fuel s1 (by have := h1 (by simp); omega)

theorem safe_readBlocks {E : Env} (hE : LibOK E) : Safe b X (readBlocks E) s (fun _ _ => True) :=
  safe_blockLoop hE (s.inp.bits + 1) s (Nat.lt_succ_self _)

/-! ### headers and footers -/

/-- an extra field which `ExtraData.Parse` cannot handle -/
def BadField (i : Inp) : Prop := ∃ raw post, allB i = leBytes 2 raw.length ++ raw ++ post ∧ raw.length < 65536 ∧ ¬ ExtraOK raw

/-- the fixed part of a gzip header, with the FEXTRA bit set -/
def FExtra (hdr : List UInt8) : Prop := ∃ (f : UInt8) (r : List UInt8), hdr = [0x1f, 0x8b, 8, f] ++ r ∧ r.length = 6 ∧ f.toNat &&& 0xe0 = 0 ∧ f.toNat &&& 4 ≠ 0

/-- the Reader may be reading gzip, and somewhere in the input is a gzip header with an extra field which `ExtraData.Parse` cannot handle -/
def BadExtra (E : Env) (i : Inp) : Prop := (E.o.format = .gzip ∨ E.o.format = .default) ∧
  ∃ pre hdr raw post, allB i = pre ++ (hdr ++ leBytes 2 raw.length ++ raw ++ post) ∧ FExtra hdr ∧ raw.length < 65536 ∧ ¬ ExtraOK raw

theorem BadExtra.mono {E : Env} {st : Bool} {i i' : Inp} (h : StepA st i i') (hb : BadExtra E i') : BadExtra E i := by
  obtain ⟨c, h1, _⟩ := h.took
  obtain ⟨h0, pre, hdr, raw, post, h2, h3⟩ := hb
  exact ⟨h0, c ++ pre, hdr, raw, post, by rw [h1, h2]; simp, h3⟩

theorem leVal_two (a b : UInt8) : leVal [a, b] = a.toNat + 256 * b.toNat := by simp [leVal]

theorem safe_readHeaderRaw {Q : Bool → RState → Prop} (hq : Q true { s with actualFormat := .raw, header := { s.header with compressLevel := -1 } }) :
    Safe b X readHeaderRaw s Q :=
  Safe.ok rfl ⟨.refl _ _, .refl _, evNone rfl, fun _ _ => by simp⟩ hq

/-- what is known after a successful header: the format is known, and input was consumed or can be -/
def HeadOK (i0 : Inp) (s' : RState) : Prop := s'.actualFormat ≠ .default ∧ ((allB s'.inp).length < (allB i0).length ∨ s'.inp = i0)

theorem length_lt_of_split {n : Nat} {p l l' : List UInt8} (hp : p.length = n + 1) (h : l = p ++ l') : l'.length < l.length := by
  rw [h]; simp; omega

theorem safe_readHeaderZlib (E : Env) : Safe b X (readHeaderZlib E) s (fun r s' => r = true → HeadOK s.inp s') := by
  have hf : ∀ (m : Spec.Problem) (s1 : RState), Safe b X (fail m) s1 (fun r s' => r = true → HeadOK s.inp s') :=
    fun m s1 => safe_fail m fun _ _ h => by cases h
  have hz : ∀ s1 : RState, (allB s1.inp).length < (allB s.inp).length → Safe b X setZlib s1 (fun r s' => r = true → HeadOK s.inp s') :=
    fun s1 h => Safe.ok rfl ⟨.refl _ _, .refl _, evNone rfl, fun _ _ => by simp⟩ fun _ => ⟨by simp, Or.inl h⟩
  unfold readHeaderZlib
  refine safe_needBytes _ _ (fun p i1 hp hp' _ m1 => ?_) fun _ _ _ h => by cases h
  have hlt := length_lt_of_split hp hp'
  simp only []
  split
  · exact hf _ _
  · split
    · exact hf _ _
    · refine Safe.bind (safe_modHeader _ (Q := fun _ s' => s'.inp = i1) fun _ => rfl) fun _ s2 m2 h2 => ?_
      split
      · exact hf _ _
      · refine Safe.bind (safe_modHeader _ (Q := fun _ s' => s'.inp = i1) fun _ => h2) fun _ s3 m3 h3 => ?_
        split
        · refine safe_needBytes _ _ (fun q i4 hq hq' _ m4 => ?_) fun _ _ _ h => by cases h
          split
          · exact hf _ _
          · split
            · exact hf _ _
            · refine hz _ ?_
              have := m4.inp.le
              simp only [h3] at this
              show (allB i4).length < _
              omega
        · split
          · exact hf _ _
          · exact hz _ (by rw [h3]; exact hlt)

theorem safe_gzExtraData (bit : Bool) (hX : bit = true → BadField s.inp → X) : Safe b X (gzExtraData bit) s (fun _ _ => True) := by
  unfold gzExtraData
  split
  · refine safe_needBytes _ _ (fun p i1 hp hp' _ m1 => safe_needBytes _ _ (fun raw i2 hr hr' _ m2 => ?_) fun _ _ _ => trivial) fun _ _ _ => trivial
    rcases parseExtra_spec raw with ⟨rs, e, _⟩ | ⟨e, hbad⟩
    · refine Safe.step (.refl _ _) (Go.bind_ok (lift_run e _)) ?_
      exact Safe.bind (safe_modHeader _ (Q := fun _ _ => True) fun _ => trivial) fun _ _ _ _ => Safe.pure trivial
    · unfold Safe
      have : (Go.lift (parseExtra raw []) : Go RState _) { s with inp := i2 } = .error .bounds := by rw [e]; rfl
      rw [Go.bind_error this]
      refine ⟨rfl, hX (by assumption) ?_⟩
      match p, hp with
      | [x, y], _ =>
        rw [leVal_two] at hr
        have hx := x.toNat_lt; have hy := y.toNat_lt
        refine ⟨raw, allB i2, ?_, by omega, hbad⟩
        rw [hp', hr', hr, leBytes_two]; simp
  · exact Safe.pure trivial

theorem safe_gzStr (bit : Bool) (f : List UInt8 → Header → Header) : Safe b X (gzStr bit f) s (fun _ _ => True) := by
  unfold gzStr
  split
  · obtain ⟨⟨str, ok⟩, i', e, h⟩ := stringZLoop_A s.out.stopIsForced (s.inp.size + 1) [] s.inp (by rw [size_eq]; omega)
    have m1 : Mono b s { s with inp := i' } := ⟨h, .refl _, evNone rfl, fun _ h => h⟩
    refine Safe.step m1 (Go.bind_ok (onInp_ok e)) ?_
    cases ok with
    | false => exact safe_exhausted _ fun _ _ => trivial
    | true =>
      simp only [Bool.not_true, Bool.false_eq_true, if_false]
      exact Safe.bind (safe_modHeader _ (Q := fun _ _ => True) fun _ => trivial) fun _ _ _ _ => Safe.pure trivial
  · exact Safe.pure trivial

theorem safe_gzCRC (bit : Bool) : Safe b X (gzCRC bit) s (fun _ _ => True) := by
  refine Safe.step (.refl _ _) (g := gzCRC16 bit s.inp.crc) rfl ?_
  unfold gzCRC16
  split
  · refine safe_needBytes _ _ (fun p i1 hp hp' _ m1 => ?_) fun _ _ _ => trivial
    split
    · exact safe_fail _ fun _ _ => trivial
    · exact Safe.pure trivial
  · exact Safe.pure trivial

theorem safe_readHeaderGZIP (E : Env) (hE : E.o.format = .gzip ∨ E.o.format = .default) (hX : BadExtra E s.inp → X) : Safe b X readHeaderGZIP s (fun r s' => r = true → HeadOK s.inp s') := by
  have hf : ∀ (m : Spec.Problem) (s1 : RState), Safe b X (fail m) s1 (fun r s' => r = true → HeadOK s.inp s') :=
    fun m s1 => safe_fail m fun _ _ h => by cases h
  unfold readHeaderGZIP
  have m0 : Mono b s { s with inp := { s.inp with crc := Crc.init } } :=
    ⟨⟨⟨[], rfl, rfl⟩, Nat.le_refl _, fun _ h => h, rfl, fun _ => rfl, fun _ h h' => absurd h h', List.suffix_refl _⟩, .refl _, evNone rfl, fun _ h => h⟩
  refine Safe.step m0 (Go.bind_ok (onInp_ok rfl)) ?_
  refine safe_needBytes _ _ (fun p i1 hp hp' _ m1 => ?_) fun _ _ _ h => by cases h
  have hlt : (allB i1).length < (allB s.inp).length := length_lt_of_split hp hp'
  simp only []
  split
  · exact hf _ _
  · rename_i c1
    split
    · exact hf _ _
    · rename_i c2
      refine Safe.bind (safe_modHeader _ (Q := fun _ s' => s'.inp = i1) fun _ => rfl) fun _ s2 m2 h2 => ?_
      split
      · exact hf _ _
      · rename_i c3
        refine Safe.bind (safe_modHeader _ (Q := fun _ s' => s'.inp = i1) fun _ => h2) fun _ s3 m3 h3 => ?_
        have hX' : decide ((p.getD 3 0).toNat &&& 4 ≠ 0) = true → BadField s3.inp → X := fun hb h => hX (by
          obtain ⟨raw, post, g1, g2⟩ := h
          rw [h3] at g1
          refine ⟨hE, [], p, raw, post, by rw [show allB s.inp = p ++ allB i1 from hp', g1]; simp, ?_, g2⟩
          match p, hp with
          | [b0, b1, b2, b3, b4, b5, b6, b7, b8, b9], _ =>
            simp at c1 c2 c3 hb
            exact ⟨b3, [b4, b5, b6, b7, b8, b9], by rw [c1.1, c1.2, c2]; rfl, rfl, c3, hb⟩)
        refine Safe.chk (safe_gzExtraData _ hX') (fun _ _ _ h => by cases h) fun s4 m4 _ => ?_
        refine Safe.chk (safe_gzStr _ _) (fun _ _ _ h => by cases h) fun s5 m5 _ => ?_
        refine Safe.chk (safe_gzStr _ _) (fun _ _ _ h => by cases h) fun s6 m6 _ => ?_
        refine Safe.chk (safe_gzCRC _) (fun _ _ _ h => by cases h) fun s7 m7 _ => ?_
        refine Safe.ok rfl ⟨.refl _ _, .refl _, evNone rfl, fun _ _ => by simp⟩ fun _ => ⟨by simp, Or.inl ?_⟩
        have := (((m4.trans m5).trans m6).trans m7).inp.le
        rw [h3] at this
        show (allB s7.inp).length < _
        omega

theorem safe_readHeaderOf (E : Env) (hX : BadExtra E s.inp → X) (f : Format) (hf : E.o.format = f) : Safe b X (readHeaderOf E f) s (fun r s' => r = true → HeadOK s.inp s') := by
  have hr : Safe b X readHeaderRaw s (fun r s' => r = true → HeadOK s.inp s') := safe_readHeaderRaw fun _ => ⟨by simp, Or.inr rfl⟩
  cases f with
  | raw => exact hr
  | zlib => exact safe_readHeaderZlib E
  | gzip => exact safe_readHeaderGZIP E (Or.inl hf) hX
  | default =>
    show Safe b X (readHeaderAuto E) s _
    have hcase : readHeaderAuto E s = readHeaderRaw s ∨ readHeaderAuto E s = readHeaderGZIP s ∨ readHeaderAuto E s = readHeaderZlib E s := by
      unfold readHeaderAuto
      split
      · split
        · exact Or.inr (Or.inl rfl)
        · split
          · exact Or.inr (Or.inr rfl)
          · exact Or.inl rfl
      · exact Or.inl rfl
    rcases hcase with h | h | h
    · exact hr.step (.refl _ _) h
    · exact (safe_readHeaderGZIP E (Or.inr hf) hX).step (.refl _ _) h
    · exact (safe_readHeaderZlib E).step (.refl _ _) h

theorem safe_readFooter (hfmt : s.actualFormat ≠ .default) : Safe b X readFooter s (fun _ s' => s'.inp.ibLen = 0) := by
  unfold readFooter
  have m0 : Mono b s { s with inp := Rd.discard s.inp } := ⟨stepA_discard _ _, .refl _, evNone rfl, fun _ h => h⟩
  refine Safe.step m0 (Go.bind_ok (onInp_ok rfl)) ?_
  refine Safe.step (.refl _ _) (g := (do
      sendEvent (.streamEnd s.out.adler s.out.crc)
      Go.chk (readFooterOf s.actualFormat s.out.adler s.out.crc) do
        sendEvent .streamClose
        pure true : Go RState Bool)) rfl ?_
  refine Safe.bind (safe_sendEvent _ (Q := fun _ s' => s'.inp.ibLen = 0) fun _ => rfl) fun _ s1 m1 h1 => ?_
  refine Safe.chk (P := fun _ s' => s'.inp.ibLen = 0) ?_ (fun _ _ h => h) fun s2 _ h2 => ?_
  · cases hf : s.actualFormat with
    | default => exact absurd hf hfmt
    | raw => exact Safe.pure h1
    | zlib =>
      show Safe b X (readFooterZlib _) s1 (fun _ s' => s'.inp.ibLen = 0)
      unfold readFooterZlib
      refine safe_needBytes _ _ (fun p i1 _ _ hz _ => ?_) fun s' _ h => h
      split
      · exact safe_fail _ fun _ _ => hz
      · exact Safe.pure hz
    | gzip =>
      show Safe b X (readFooterGZIP _) s1 (fun _ s' => s'.inp.ibLen = 0)
      unfold readFooterGZIP
      refine safe_needBytes _ _ (fun p i1 _ _ _ _ => safe_needBytes _ _ (fun q i2 _ _ hz _ => ?_) fun s' _ h => h) fun s' _ h => h
      by_cases c1 : leVal p ≠ s.out.crc.toNat
      · refine Safe.step (.refl _ _) (g := fail (.gzipSum (leVal p) _)) (by simp only []; rw [if_pos c1]) (safe_fail _ fun _ _ => hz)
      · by_cases c2 : leVal q ≠ s1.out.outStream % 2 ^ 32
        · refine Safe.step (.refl _ _) (g := fail (.gzipLength (leVal q) (_))) (by simp only [c1, if_false]; rw [if_pos c2]) (safe_fail _ fun _ _ => hz)
        · refine Safe.step (.refl _ _) (g := Pure.pure true) (by simp only [c1, if_false]; rw [if_neg c2]; rfl) (Safe.pure hz)
  · refine Safe.bind (safe_sendEvent _ (Q := fun _ s' => s'.inp.ibLen = 0) fun _ => h2) fun _ s3 _ h3 => Safe.pure h3

/-! ### the goroutine -/

/-- `readHeader` after the buffer was filled -/
def headRest (E : Env) : Go RState Bool := do
  Go.modify fun s => { s with
    numStreams := s.numStreams + 1, actualFormat := .default,
    out := { s.out with window := match E.o.dict with | none => [] | some d => windowWrite E.o.wbits [] d } }
  sendEvent .streamBegin
  Go.modify fun s => { s with header := {} }
  Go.chk (readHeaderOf E E.o.format) fun s => do
    let (_, s) ← sendEvent (.streamHeader s.header) s
    pure (true, s)

def bodyRest (E : Env) : Go RState Bool := do
  Go.modify fun s => { s with out := { s.out with adler := Adler.init, crc := Crc.init } }
  readBlocks E
  onOut fun o => ((), mustFlush E o)
  readFooter

/-- the state after the buffer was filled -/
def filled (s : RState) : RState :=
  { s with inp := refill s.out.stopIsForced { s.inp with inStream := 0 }, out := { s.out with outStream := 0 } }

theorem readHeader_split (E : Env) (s : RState) : readHeader E s =
    if (filled s).inp.buf.isEmpty then (do propagateError false; pure false : Go RState Bool) (filled s) else headRest E (filled s) := by
  unfold readHeader
  refine (Go.bind_ok (Go.modify_apply _ _)).trans ?_
  refine (Go.bind_ok (onInp_ok (a := (filled s).inp.buf.isEmpty) (i := (filled s).inp) rfl)).trans ?_
  split <;> rfl

theorem readStream_split (E : Env) (s : RState) : readStream E s =
    if (filled s).inp.buf.isEmpty then (do propagateError false; pure false : Go RState Bool) (filled s)
    else Go.chk (headRest E) (bodyRest E) (filled s) := by
  show Go.chk (readHeader E) (bodyRest E) s = _
  unfold Go.chk
  rw [readHeader_split]
  by_cases hc : (filled s).inp.buf.isEmpty = true
  · rw [if_pos hc, if_pos hc]
    cases h : (do propagateError false; pure false : Go RState Bool) (filled s) with
    | error e => rfl
    | ok p =>
      obtain ⟨r, s'⟩ := p
      rw [Go.bind_eq_ok] at h
      obtain ⟨_, s1, _, h2⟩ := h
      cases h2
      rfl
  · rw [if_neg hc, if_neg hc]

theorem filled_frame (s : RState) : (filled s).out.stopIsForced = s.out.stopIsForced ∧ allB (filled s).inp = allB s.inp ∧
    (filled s).inp.ibLen = s.inp.ibLen ∧ (filled s).inp.inTotal = s.inp.inTotal ∧ (filled s).events = s.events ∧ StepO s.out (filled s).out := by
  have ha : allB (refill s.out.stopIsForced { s.inp with inStream := 0 }) = allB s.inp := by
    unfold refill; split
    · rw [allB_fill]; rfl
    · rfl
  have hb : (refill s.out.stopIsForced { s.inp with inStream := 0 }).ibLen = s.inp.ibLen ∧ (refill s.out.stopIsForced { s.inp with inStream := 0 }).inTotal = s.inp.inTotal := by
    obtain ⟨f1, _, _, _, f5, _⟩ := fill_frame s.out.stopIsForced { s.inp with inStream := 0 }
    unfold refill; split
    · exact ⟨f5, f1⟩
    · exact ⟨rfl, rfl⟩
  exact ⟨rfl, ha, hb.1, hb.2, rfl, stepO_none rfl rfl rfl rfl fun _ => ⟨[], by simp [filled]⟩⟩

theorem bitsFill_buffered {W : Nat} (hW : 32 ≤ W) (st : Bool) {i : Inp} (hz : i.ibLen = 0) {b : UInt8} {r : List UInt8} (hb : i.buf = b :: r) :
    ∃ i', bitsFill W st 3 i = .ok (true, i') := by
  unfold bitsFill
  rw [Go.bind_apply]
  have h3 : decide (3 ≤ W - 8) = true := by simp; omega
  simp only [h3, Go.assert_true]
  unfold bitsFillLoop
  have hp : popByte st i = (some b, { i with buf := r }) := by unfold popByte; simp [hb]
  simp only [hz, Nat.zero_lt_succ, if_true, hp]
  unfold bitsFillLoop
  simp [countIn, hz]

theorem safe_block_buffered {E : Env} (hE : LibOK E) (hz : s.inp.ibLen = 0) (hb : s.inp.buf ≠ []) : Safe b X (readFlateBlock E) s
    (fun _ s' => (allB s'.inp).length < (allB s.inp).length) := by
  obtain ⟨x, r, hx⟩ := List.exists_cons_of_ne_nil hb
  unfold readFlateBlock needBits
  obtain ⟨i1, e1⟩ := bitsFill_buffered hE.word s.out.stopIsForced hz hx
  obtain ⟨ok, i1', e1', h1, h2⟩ := bitsFill_A (W := E.W) s.out.stopIsForced (n := 3) (by have := hE.word; omega) s.inp
  rw [e1] at e1'
  cases e1'
  have m1 : Mono b s { s with inp := i1 } := ⟨h1, .refl _, evNone rfl, fun _ h => h⟩
  refine Safe.step m1 (Go.bind_ok (onInp_ok e1)) ?_
  simp only [Bool.not_true, Bool.false_eq_true, if_false]
  obtain ⟨v, i2, e2, hv, h3, h4⟩ := bitsRead_A (W := E.W) s.out.stopIsForced (n := 3) (by have := hE.word; omega) (h2 rfl)
  have m2 : Mono b { s with inp := i1 } { s with inp := i2 } := ⟨h3, .refl _, evNone rfl, fun _ h => h⟩
  refine Safe.step m2 (Go.bind_ok (onInp_ok (s := { s with inp := i1 }) e2)) ?_
  have hlt : (allB i2).length < (allB s.inp).length := by
    have := h1.bits
    rw [bits_eq, bits_eq, hz] at this
    rw [bits_eq, bits_eq] at h4
    omega
  refine Safe.bind (safe_sendEvent _ (Q := fun _ s' => s'.inp = i2) fun _ => rfl) fun _ s1 _ h1 => ?_
  refine Safe.bind (safe_readBlockOf hE _ _) fun ok s2 m2 _ => ?_
  have hlt2 : (allB s2.inp).length < (allB s.inp).length := by have := m2.inp.le; rw [h1] at this; omega
  cases ok with
  | false => exact Safe.pure hlt2
  | true =>
    simp only [if_true]
    refine Safe.bind (safe_sendEvent _ (Q := fun _ s' => s'.inp = s2.inp) fun _ => rfl) fun _ s3 _ h3 => ?_
    refine Safe.pure ?_
    rw [h3]; exact hlt2

theorem safe_blocks_buffered {E : Env} (hE : LibOK E) (hz : s.inp.ibLen = 0) (hb : s.inp.buf ≠ []) : Safe b X (readBlocks E) s
    (fun _ s' => (allB s'.inp).length < (allB s.inp).length) := by
  have h1 := safe_block_buffered (b := b) (X := X) hE hz hb
  have h2 := safe_readFlateBlock (b := b) (X := X) (s := s) hE
  unfold readBlocks blockLoop
  refine Safe.step (.refl _ _) (g := do
    match ← readFlateBlock E with
    | some false => blockLoop E s.inp.bits
    | _ => pure ()) rfl ?_
  refine Safe.bind (P := fun r s' => (r ≠ none → s'.inp.bits < s.inp.bits) ∧ (allB s'.inp).length < (allB s.inp).length) ?_ fun r s1 _ h => ?_
  · rcases h1.cases with ⟨a, s', e, m, q⟩ | ⟨e, x⟩
    · rcases h2.cases with ⟨a', s'', e', m', q'⟩ | ⟨e', x'⟩
      · rw [e] at e'; cases e'
        exact Safe.ok e m ⟨q', q⟩
      · rw [e] at e'; cases e'
    · unfold Safe; rw [e]; exact ⟨rfl, x⟩
  · cases r with
    | none => exact Safe.pure h.2
    | some f =>
      cases f with
      | true => exact Safe.pure h.2
      | false =>
        refine (safe_blockLoop hE s.inp.bits s1 (h.1 (by simp))).imp fun _ s2 m2 _ => ?_
        have := m2.inp.le
        omega

theorem safe_headRest (E : Env) (hX : BadExtra E s.inp → X) : Safe false X (headRest E) s (fun r s' => r = true → HeadOK s.inp s') := by
  unfold headRest
  refine Safe.bind (P := fun _ s' => s'.inp = s.inp) (Safe.ok rfl ⟨.refl _ _, (stepO_none rfl rfl rfl rfl fun _ => ⟨[], by simp⟩), evNone rfl, fun h => by cases h⟩ rfl) fun _ s1 _ h1 => ?_
  refine Safe.bind (safe_sendEvent _ (Q := fun _ s' => s'.inp = s.inp) fun _ => h1) fun _ s2 _ h2 => ?_
  refine Safe.bind (P := fun _ s' => s'.inp = s.inp) (Safe.ok rfl ⟨.refl _ _, .refl _, evNone rfl, fun h => by cases h⟩ h2) fun _ s3 _ h3 => ?_
  refine Safe.chk (P := fun r s' => r = true → HeadOK s.inp s') ?_ (fun _ _ _ h => by cases h) fun s4 _ h4 => ?_
  · rw [← h3]; exact safe_readHeaderOf E (by rw [h3]; exact hX) _ rfl
  · exact Safe.ok rfl (mono_event _ _) fun _ => h4 rfl

theorem safe_bodyRest {E : Env} (hE : LibOK E) (i0 : Inp) (hz : i0.ibLen = 0) (hb : i0.buf ≠ []) (hs : HeadOK i0 s) :
    Safe true X (bodyRest E) s (fun _ s' => s'.inp.ibLen = 0 ∧ (allB s'.inp).length < (allB i0).length) := by
  unfold bodyRest
  refine Safe.bind (P := fun _ s' => s'.inp = s.inp ∧ s'.actualFormat ≠ .default) (Safe.ok rfl ⟨.refl _ _, (stepO_none rfl rfl rfl rfl fun _ => ⟨[], by simp⟩), evNone rfl, fun _ h => h⟩ ⟨rfl, hs.1⟩) fun _ s1 _ h1 => ?_
  refine Safe.bind (P := fun _ s' => (allB s'.inp).length < (allB i0).length) ?_ fun _ s2 m2 h2 => ?_
  · rcases hs.2 with h | h
    · refine (safe_readBlocks hE).imp fun _ s' m _ => ?_
      have := m.inp.le
      rw [h1.1] at this
      omega
    · have := safe_blocks_buffered (b := true) (X := X) (s := s1) hE (by rw [h1.1, h]; exact hz) (by rw [h1.1, h]; exact hb)
      rw [show allB s1.inp = allB i0 by rw [h1.1, h]] at this
      exact this
  · have hf2 := m2.fmt rfl h1.2
    refine Safe.bind (P := fun _ s' => s'.inp = s2.inp ∧ s'.actualFormat ≠ .default) (safe_onOut (stepO_mustFlush E s2.out) ⟨rfl, hf2⟩) fun _ s3 _ h3 => ?_
    refine (safe_readFooter h3.2).imp fun _ s4 m4 h4 => ⟨h4, ?_⟩
    have := m4.inp.le
    rw [h3.1] at this
    omega

theorem Safe.weak {α : Type} {X : Prop} {f : Go RState α} {s : RState} {Q : α → RState → Prop} (h : Safe true X f s Q) (b : Bool) : Safe b X f s Q := by
  rcases h.cases with ⟨a, s', e, m, q⟩ | ⟨e, x⟩
  · exact Safe.ok e (m.weak b) q
  · unfold Safe; rw [e]; exact ⟨rfl, x⟩

/-- One stream. -/
theorem safe_readStream {E : Env} (hE : LibOK E) (hz : s.inp.ibLen = 0) (hX : BadExtra E s.inp → X) :
    (∃ s', readStream E s = .ok (false, s') ∧ StepO s.out s'.out ∧ EvStep s s' ∧ ∃ c, allB s.inp = c ++ allB s'.inp ∧ s'.inp.inTotal = s.inp.inTotal + c.length) ∨
    (∃ s', readStream E s = .ok (true, s') ∧ Mono false s s' ∧ s'.inp.ibLen = 0 ∧ (allB s'.inp).length < (allB s.inp).length) ∨
    (readStream E s = .error .bounds ∧ X) := by
  obtain ⟨f1, f2, f3, f4, f5, f6⟩ := filled_frame s
  have comb : ∀ {s' : RState}, Mono false (filled s) s' → StepO s.out s'.out ∧ EvStep s s' ∧ ∃ c, allB s.inp = c ++ allB s'.inp ∧ s'.inp.inTotal = s.inp.inTotal + c.length := by
    intro s' m
    obtain ⟨c, c1, c2⟩ := m.inp.took
    exact ⟨f6.trans m.out, EvStep.trans (evNone f5) m.ev (Nat.le_of_eq f4.symm) m.inp.total f6 m.out, c, by rw [← f2]; exact c1, by rw [c2, f4]⟩
  rw [readStream_split]
  by_cases hem : (filled s).inp.buf = []
  · left
    rw [if_pos (by simp [hem])]
    have : Safe false X (do propagateError false; pure false : Go RState Bool) (filled s) (fun r _ => r = false) :=
      Safe.bind (safe_propagate false (Q := fun _ _ => True) fun _ _ => trivial) fun _ _ _ _ => Safe.pure rfl
    rcases this.cases with ⟨a, s', e, m, q⟩ | ⟨e, x⟩
    · subst q
      exact ⟨s', e, comb m⟩
    · exfalso
      rw [Go.bind_eq_error] at e
      rcases e with e | ⟨_, _, _, e⟩
      · unfold propagateError at e
        split at e
        · cases e
        · rw [closeWithError_eq] at e; cases e
      · cases e
  · rw [if_neg (by simpa using hem)]
    have hs : Safe false X (Go.chk (headRest E) (bodyRest E)) (filled s)
        (fun r s' => r = true → s'.inp.ibLen = 0 ∧ (allB s'.inp).length < (allB (filled s).inp).length) := by
      refine Safe.chk (safe_headRest E fun h => hX ?_) (fun _ _ _ h => by cases h) fun s1 m1 h1 => ?_
      · obtain ⟨g0, pre, hdr, raw, post, g1, g2⟩ := h
        exact ⟨g0, pre, hdr, raw, post, by rw [← f2]; exact g1, g2⟩
      · exact ((safe_bodyRest hE (filled s).inp (by rw [f3]; exact hz) hem (h1 rfl)).weak false).imp fun _ _ _ h _ => h
    rcases hs.cases with ⟨a, s', e, m, q⟩ | ⟨e, x⟩
    · cases a with
      | false => left; exact ⟨s', e, comb m⟩
      | true =>
        right; left
        obtain ⟨q1, q2⟩ := q rfl
        obtain ⟨c1, c2, c3⟩ := comb m
        refine ⟨s', e, ⟨⟨c3, ?_, ?_, ?_, ?_, ?_, ?_⟩, c1, c2, fun h => by cases h⟩, q1, by rw [← f2]; exact q2⟩
        · have := m.inp.bits
          rw [bits_eq, bits_eq, f2, f3] at this
          rw [bits_eq, bits_eq]; exact this
        all_goals
          by_cases hbuf : s.inp.buf = []
          · have hr : (filled s).inp = fill s.out.stopIsForced { s.inp with inStream := 0 } := by unfold filled refill; simp [hbuf]
            obtain ⟨g1, g2, g3, g4, g5, g6, g7, g8, g9⟩ := fill_frame s.out.stopIsForced { s.inp with inStream := 0 }
            rw [← hr] at g1 g2 g3 g4 g5 g6 g7 g8 g9
            first
              | exact fun e he => m.inp.keep e (g7 e he)
              | exact m.inp.srcErr.trans g6
              | exact m.inp.full.trans (by rw [hr]; exact fill_full _ _)
              | exact fun h => (m.inp.last h).trans (g8 (m.inp.none h))
              | (intro h1 h2 h3
                 by_cases hj : (filled s).inp.inputError = none
                 · have := m.inp.fin h1 hj h3
                   rw [g6, g8 hj] at this
                   exact this
                 · have hst : s.out.stopIsForced = false := by
                     cases hs' : s.out.stopIsForced with
                     | false => rfl
                     | true => rw [c1.stop hs'] at h1; cases h1
                   obtain ⟨k1, k2⟩ := g9 hst h2 hj
                   refine ⟨m.inp.keep _ k1, Or.inl ?_⟩
                   simp only [hbuf, List.length_nil, Nat.zero_add] at k2
                   rw [← k2]; exact q2)
          · have hr : (filled s).inp = { s.inp with inStream := 0 } := by unfold filled refill; simp [hbuf]
            have mi := m.inp
            rw [hr] at mi
            first
              | exact mi.keep
              | exact mi.srcErr
              | exact mi.last
              | exact mi.fin
              | exact mi.full
    · right; right; exact ⟨e, x⟩

/-- what happened between two states -/
structure Past (s s' : RState) : Prop where
  took : ∃ c, allB s.inp = c ++ allB s'.inp ∧ s'.inp.inTotal = s.inp.inTotal + c.length
  out : StepO s.out s'.out
  ev : EvStep s s'

theorem Past.refl (s : RState) : Past s s := ⟨⟨[], rfl, rfl⟩, .refl _, evNone rfl⟩

theorem Past.trans {s s' s'' : RState} (h : Past s s') (h' : Past s' s'') : Past s s'' := by
  obtain ⟨c, c1, c2⟩ := h.took
  obtain ⟨d, d1, d2⟩ := h'.took
  exact ⟨⟨c ++ d, by rw [c1, d1]; simp, by rw [d2, c2]; simp; omega⟩, h.out.trans h'.out, h.ev.trans h'.ev (by omega) (by omega) h.out h'.out⟩

theorem Mono.past {b : Bool} {s s' : RState} (h : Mono b s s') : Past s s' := ⟨h.inp.took, h.out, h.ev⟩

theorem safe_streamLoop {E : Env} (hE : LibOK E) : ∀ (fuel : Nat) (s : RState), (allB s.inp).length < fuel → s.inp.ibLen = 0 → (BadExtra E s.inp → X) →
    (∃ s', streamLoop E fuel s = .ok ((), s') ∧ Past s s') ∨ (streamLoop E fuel s = .error .bounds ∧ X)
  | 0, _, h, _, _ => by omega
  | fuel + 1, s, hf, hz, hX => by
    unfold streamLoop
    split
    · rcases safe_readStream hE hz hX with ⟨s', e, h1, h2, h3⟩ | ⟨s', e, h1, h2, h3⟩ | ⟨e, x⟩
      · rw [e]; left; exact ⟨s', rfl, h3, h1, h2⟩
      · rw [e]
        rcases safe_streamLoop hE fuel s' (by omega) h2 (fun h => hX (BadExtra.mono h1.inp h)) with ⟨s'', e', h4⟩ | ⟨e', x⟩
        · left; exact ⟨s'', e', h1.past.trans h4⟩
        · right; exact ⟨e', x⟩
      · rw [e]; right; exact ⟨rfl, x⟩
    · left; exact ⟨s, rfl, .refl s⟩

theorem finishThread_eq (s : RState) : ∃ e, finishThread s = .ok ((), { s with inp := { s.inp with inputError := some (s.inp.inputError.getD .eof) }, out := closeOut e s.out }) := by
  refine ⟨s.inp.inputError.getD .eof, ?_⟩
  unfold finishThread
  refine (Go.bind_ok (onInp_ok rfl)).trans ?_
  unfold propagateError
  simp only [Bool.false_and, Bool.false_eq_true, if_false]
  exact closeWithError_eq _ _

/-- The whole goroutine. -/
theorem safe_readThread {E : Env} (hE : LibOK E) (src : Src) (closed : Bool) (hX : BadExtra E { src := src } → X) :
    (∃ s', readThread E (start src closed) = .ok ((), s') ∧ Past (start src closed) s' ∧ s'.out.errorWasSet = true) ∨
    (readThread E (start src closed) = .error .bounds ∧ X) := by
  have hs := safe_streamLoop (X := X) hE ((start src closed).inp.size + 2) (start src closed) (by rw [size_eq]; omega) rfl hX
  have hst : readThread E (start src closed) = ((fun s => streamLoop E (s.inp.size + 2) s : Go RState Unit) >>= fun _ => finishThread) (start src closed) := by
    unfold readThread
    exact Go.bind_ok (Go.modify_apply _ _)
  rw [hst]
  rcases hs with ⟨s', e, h⟩ | ⟨e, x⟩
  · obtain ⟨er, he⟩ := finishThread_eq s'
    left
    exact ⟨_, (Go.bind_ok e).trans he, h.trans ⟨⟨[], rfl, rfl⟩, stepO_closeOut _ _, evNone rfl⟩, closeOut_set _ _⟩
  · right; exact ⟨Go.bind_error e, x⟩

end

end Flate.Proof.R
