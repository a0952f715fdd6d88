/-
Reading values, or failing, when everything the source will deliver is in the input buffer.
-/
import Verif.Proof.RInp
import Verif.Proof.ROut

namespace Flate.Proof.R
open Flate.Spec Flate.Model Flate.Model.Rd

/-- what `propagateError(true)` reports when the source ended with `e0` -/
def propErr (e0 : Err) : Err := if e0 = .eof then .unexpectedEOF else e0

/-- errors reported while decoding a stream, when the source ends with `e0` -/
def Bad (e0 e : Err) : Prop := e = propErr e0 ∨ ∃ a b m, e = .corrupt a b m

theorem Bad.ne_eof {e0 e : Err} (h : Bad e0 e) : e ≠ .eof := by
  rintro rfl
  rcases h with h | ⟨a, b, m, h⟩
  · unfold propErr at h; split at h
    · cases h
    · rename_i h'; exact h' h.symm
  · cases h

/-- effect of `closeWithError` -/
def closeOut (e : Err) (o : Out) : Out :=
  if o.errorWasSet then o else { o with acts := o.acts ++ [.err e], errorWasSet := true }

theorem closeOut_set (e : Err) (o : Out) : (closeOut e o).errorWasSet = true := by
  unfold closeOut; split <;> simp_all
theorem closeOut_stop (e : Err) (o : Out) : (closeOut e o).stopIsForced = o.stopIsForced := by
  unfold closeOut; split <;> rfl
theorem closeOut_buf (e : Err) (o : Out) : (closeOut e o).decodeBuffer = o.decodeBuffer := by
  unfold closeOut; split <;> rfl

theorem closeWithError_eq (e : Err) (s : RState) : closeWithError e s = .ok ((), { s with out := closeOut e s.out }) := by
  unfold closeWithError onOut closeOut
  obtain ⟨_, ⟨_, _, _, _, _, _, b, _, _, _, _⟩, _, _, _, _⟩ := s
  cases b <;> rfl

theorem onInp_ok {α : Type} {f : Bool → Go Inp α} {s : RState} {a : α} {i : Inp} (h : f s.out.stopIsForced s.inp = .ok (a, i)) :
    onInp f s = .ok (a, { s with inp := i }) := by
  unfold onInp; rw [h]

/-- the normal situation while a stream is decoded -/
structure Nm (e0 : Err) (s : RState) : Prop where
  err : s.inp.inputError = some e0
  stop : s.out.stopIsForced = false
  small : Small s.inp

/-- The function failed: it consumed some input and an error was reported. -/
def Failed (e0 : Err) (s : RState) (s' : RState) : Prop :=
  ∃ i' e, RStep s.inp i' ∧ Bad e0 e ∧ s' = { s with inp := i', out := closeOut e s.out }

theorem propagate_eq {e0 : Err} {s : RState} (h : s.inp.inputError = some e0) :
    propagateError true s = .ok ((), { s with out := closeOut (propErr e0) s.out }) := by
  unfold propagateError
  rw [h]
  simp only [Bool.true_and]
  rw [closeWithError_eq]
  congr 4
  unfold propErr
  by_cases he : e0 = .eof <;> simp [he]

theorem exhausted_eq {α : Type} {e0 : Err} {s : RState} (fl : α) (h : s.inp.inputError = some e0) :
    exhausted fl s = .ok (fl, { s with out := closeOut (propErr e0) s.out }) := by
  unfold exhausted
  rw [Go.bind_ok (propagate_eq h)]
  rfl

theorem corruptf_eq (m : Spec.Problem) (s : RState) :
    corruptf m s = .ok ((), { s with out := closeOut (.corrupt s.inp.inTotal s.inp.inStream m) s.out }) := closeWithError_eq _ _

theorem corruptf_bind {α : Type} (m : Spec.Problem) (x : α) (s : RState) (e0 : Err) :
    ∃ s', (do corruptf m; pure x : Go RState α) s = .ok (x, s') ∧ Failed e0 s s' :=
  ⟨_, by rw [Go.bind_ok (corruptf_eq m s)]; rfl, s.inp, _, RStep.refl _, Or.inr ⟨_, _, _, rfl⟩, rfl⟩

theorem fail_eq (m : Spec.Problem) (s : RState) (e0 : Err) : ∃ s', fail m s = .ok (false, s') ∧ Failed e0 s s' :=
  corruptf_bind m false s e0

theorem Failed.step {e0 : Err} {s s' : RState} {i : Inp} (h : Failed e0 { s with inp := i } s') (h' : RStep s.inp i) :
    Failed e0 s s' := by
  obtain ⟨i', e, h1, h2, h3⟩ := h
  exact ⟨i', e, h'.trans h1, h2, h3⟩

theorem needBits_eq {α : Type} {E : Env} (hW : 32 ≤ E.W) {e0 : Err} {s : RState} (hs : Nm e0 s) (fl : α) {n : Nat} (hn : n ≤ 24)
    (k : Nat → Go RState α) :
    (n ≤ (vb s.inp).length ∧ ∃ v i', v < 2 ^ n ∧ Adv s.inp (natBits n v) i' ∧ needBits E fl n k s = k v { s with inp := i' }) ∨
    ((vb s.inp).length < n ∧ ∃ s', needBits E fl n k s = .ok (fl, s') ∧ Failed e0 s s') := by
  unfold needBits
  rcases fillRead_eq (W := E.W) (st := s.out.stopIsForced) (n := n) (by omega) (by omega) hs.err hs.small with
    ⟨h0, j, v, i', h1, h2, h3, h4⟩ | ⟨h0, i', h1, h2, h3⟩
  · refine Or.inl ⟨h0, v, i', h3, h4, ?_⟩
    have e1 : onInp (fun st => bitsFill E.W st n) s = .ok (true, { s with inp := j }) := onInp_ok h1
    have e2 : onInp (fun _ => bitsRead E.W n) { s with inp := j } = .ok (v, { s with inp := i' }) := onInp_ok h2
    rw [Go.bind_ok e1]
    simp only [Bool.not_true, Bool.false_eq_true, if_false]
    rw [Go.bind_ok e2]
  · refine Or.inr ⟨h0, _, ?_, i', _, h2.step, Or.inl rfl, rfl⟩
    have e1 : onInp (fun st => bitsFill E.W st n) s = .ok (false, { s with inp := i' }) := onInp_ok h1
    rw [Go.bind_ok e1]
    simp only [Bool.not_false, if_true]
    exact exhausted_eq fl (s := { s with inp := i' }) (h2.step.err.trans hs.err)

/-- the state after reading bytes -/
def takeIn (p r : List UInt8) (i : Inp) : Inp := countIn p { Rd.discard i with buf := r }

theorem takeIn_step {i : Inp} {p r : List UInt8} (h : i.buf = p ++ r) : RStep i (takeIn p r i) :=
  ⟨⟨p, h, rfl, rfl, rfl⟩, rfl, rfl⟩

theorem takeIn_small (i : Inp) (p r : List UInt8) : Small (takeIn p r i) := ⟨by simp [takeIn, countIn, Rd.discard], by simp [takeIn, countIn, Rd.discard]⟩

theorem takeIn_adv {i : Inp} {p r : List UInt8} (h : i.buf = p ++ r) :
    Adv i (natBits i.ibLen i.ibBlock ++ bytesBits p) (takeIn p r i) :=
  ⟨takeIn_step h, by simp [vb, h, takeIn, countIn, Rd.discard], takeIn_small i p r⟩

theorem needBytes_ok {α : Type} {e0 : Err} {s : RState} (he : s.inp.inputError = some e0) (fl : α) {n : Nat} (k : List UInt8 → Go RState α)
    {p r : List UInt8} (hb : s.inp.buf = p ++ r) (hn : p.length = n) :
    needBytes fl n k s = k p { s with inp := takeIn p r s.inp } := by
  unfold needBytes
  have e1 : onInp (fun st i => .ok (bufRead st n i)) s = .ok ((p, true), { s with inp := takeIn p r s.inp }) := by
    apply onInp_ok
    rw [bufRead_eq n he, hb]
    subst hn
    simp [takeIn]
  rw [Go.bind_ok e1]
  simp

theorem needBytes_short {α : Type} {e0 : Err} {s : RState} (he : s.inp.inputError = some e0) (fl : α) {n : Nat} (k : List UInt8 → Go RState α)
    (hn : s.inp.buf.length < n) :
    ∃ s', needBytes fl n k s = .ok (fl, s') ∧ Failed e0 s s' := by
  unfold needBytes
  have e1 : onInp (fun st i => .ok (bufRead st n i)) s = .ok ((s.inp.buf, false), { s with inp := takeIn s.inp.buf [] s.inp }) := by
    apply onInp_ok
    rw [bufRead_eq n he, List.take_of_length_le (by omega), List.drop_eq_nil_of_le (by omega)]
    simp [takeIn]; omega
  refine ⟨_, ?_, takeIn s.inp.buf [] s.inp, _, takeIn_step (by simp), Or.inl rfl, rfl⟩
  rw [Go.bind_ok e1]
  simp only [Bool.not_false, if_true]
  exact exhausted_eq fl (s := { s with inp := takeIn s.inp.buf [] s.inp }) he

theorem split_take {n : Nat} {l : List UInt8} (h : n ≤ l.length) : ∃ p r, l = p ++ r ∧ p.length = n :=
  ⟨l.take n, l.drop n, by simp, by simp; omega⟩

theorem needBytes_eq {α : Type} {e0 : Err} {s : RState} (he : s.inp.inputError = some e0) (fl : α) (n : Nat) (k : List UInt8 → Go RState α) :
    (∃ p r, s.inp.buf = p ++ r ∧ p.length = n ∧ needBytes fl n k s = k p { s with inp := takeIn p r s.inp }) ∨
    (s.inp.buf.length < n ∧ ∃ s', needBytes fl n k s = .ok (fl, s') ∧ Failed e0 s s') := by
  by_cases h : n ≤ s.inp.buf.length
  · obtain ⟨p, r, h1, h2⟩ := split_take h
    exact Or.inl ⟨p, r, h1, h2, needBytes_ok he fl k h1 h2⟩
  · exact Or.inr ⟨by omega, needBytes_short he fl k (by omega)⟩

theorem readSymbol_eq {E : Env} (hL : E.L.Lawful) (hW : 32 ≤ E.W) {lens : List Nat} (ha : E.L.accepts lens = true)
    {e0 : Err} {s : RState} (hs : Nm e0 s) :
    (∃ sym i', readSymbol E lens s = .ok (some sym, { s with inp := i' }) ∧ Used lens sym ∧ Adv s.inp (codeBits lens sym) i') ∨
    (∃ i', readSymbol E lens s = .ok (none, { s with inp := i' }) ∧ Hold s.inp i' ∧ ∀ x, Used lens x → ¬ codeBits lens x <+: vb s.inp) := by
  unfold readSymbol onInp
  rcases readSymbolInp_eq hL ha (st := s.out.stopIsForced) hW hs.err hs.small with ⟨sym, i', h1, h2⟩ | ⟨i', h1, h2⟩
  · left; exact ⟨sym, i', by simp only [h1], h2⟩
  · right; exact ⟨i', by simp only [h1], h2⟩

theorem readSymbol_ok {E : Env} (hL : E.L.Lawful) (hW : 32 ≤ E.W) {lens : List Nat} (ha : E.L.accepts lens = true)
    {e0 : Err} {s : RState} (hs : Nm e0 s) {sym : Nat} {r : List Bool} (hu : Used lens sym) (hb : vb s.inp = codeBits lens sym ++ r) :
    ∃ i', readSymbol E lens s = .ok (some sym, { s with inp := i' }) ∧ Adv s.inp (codeBits lens sym) i' := by
  have hp : codeBits lens sym <+: vb s.inp := by rw [hb]; exact List.prefix_append _ _
  rcases readSymbol_eq hL hW ha hs with ⟨sym', i', h1, h2, h3⟩ | ⟨i', _, _, h⟩
  · have : sym' = sym := prefix_unique (hL.accepts_code ha) h2 hu (by rw [h3.bits]; exact List.prefix_append _ _) hp
    subst this
    exact ⟨i', h1, h3⟩
  · exact absurd hp (h sym hu)

theorem Nm.adv {e0 : Err} {s : RState} (h : Nm e0 s) {b : List Bool} {i' : Inp} (ha : Adv s.inp b i') : Nm e0 { s with inp := i' } :=
  ⟨ha.step.err.trans h.err, h.stop, ha.small⟩

theorem Nm.out {e0 : Err} {s : RState} (h : Nm e0 s) {o : Out} (ho : o.stopIsForced = s.out.stopIsForced) : Nm e0 { s with out := o } :=
  ⟨h.err, ho.trans h.stop, h.small⟩

theorem needBits_ok {α : Type} {E : Env} (hW : 32 ≤ E.W) {e0 : Err} {s : RState} (hs : Nm e0 s) (fl : α) {n : Nat} (hn : n ≤ 24)
    (k : Nat → Go RState α) {v : Nat} (hv : v < 2 ^ n) {r : List Bool} (hb : vb s.inp = natBits n v ++ r) :
    ∃ i', Adv s.inp (natBits n v) i' ∧ needBits E fl n k s = k v { s with inp := i' } := by
  rcases needBits_eq hW hs fl hn k with ⟨_, v', i', h1, h2, h3⟩ | ⟨h, _⟩
  · have : natBits n v' = natBits n v := by
      have := h2.bits
      rw [hb] at this
      exact (List.append_inj this (by simp)).1.symm
    have := natBits_inj this h1 hv
    subst this
    exact ⟨i', h2, h3⟩
  · rw [hb] at h; simp at h; omega

theorem addBits_eq {α : Type} {E : Env} (hW : 32 ≤ E.W) {e0 : Err} {s : RState} (hs : Nm e0 s) (fl : α) {n : Nat} (hn : n ≤ 24)
    (base : Nat) (k : Nat → Go RState α) :
    (∃ v i', v < 2 ^ n ∧ Adv s.inp (natBits n v) i' ∧ addBits E fl n base k s = k (base + v) { s with inp := i' }) ∨
    ((vb s.inp).length < n ∧ ∃ s', addBits E fl n base k s = .ok (fl, s') ∧ Failed e0 s s') := by
  unfold addBits
  by_cases h0 : n = 0
  · subst h0
    left
    exact ⟨0, s.inp, by simp, Adv.refl hs.small, by simp⟩
  · simp only [ne_eq, h0, not_false_eq_true, if_true]
    rcases needBits_eq hW hs fl hn fun out => k (base + out) with ⟨_, h⟩ | h
    · exact Or.inl h
    · exact Or.inr h

theorem addBits_ok {α : Type} {E : Env} (hW : 32 ≤ E.W) {e0 : Err} {s : RState} (hs : Nm e0 s) (fl : α) {n : Nat} (hn : n ≤ 24)
    (base : Nat) (k : Nat → Go RState α) {v : Nat} (hv : v < 2 ^ n) {r : List Bool} (hb : vb s.inp = natBits n v ++ r) :
    ∃ i', Adv s.inp (natBits n v) i' ∧ addBits E fl n base k s = k (base + v) { s with inp := i' } := by
  unfold addBits
  by_cases h0 : n = 0
  · subst h0
    have : v = 0 := by simpa using hv
    subst this
    exact ⟨s.inp, Adv.refl hs.small, by simp⟩
  · simp only [ne_eq, h0, not_false_eq_true, if_true]
    exact needBits_ok hW hs fl hn (fun out => k (base + out)) hv hb

end Flate.Proof.R
