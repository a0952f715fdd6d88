/-
Where the Reader is in its input when it reports that the input is corrupt: up to there it does the same whatever follows.
-/
import Verif.Proof.RRun
import Verif.Proof.RKeep

namespace Flate.Proof.R.Pos
open Flate.Spec Flate.Model Flate.Model.Rd Flate.Proof.R

/-- Two inputs which agree in their first bytes: after them follow `n` bytes in the first, `x` in the second one.  `lim`: what `inTotal` will be when the
common bytes have been consumed; `K`: when everything has been. -/
structure Frame where
  n : Nat
  lim : Nat
  K : Nat
  x : List UInt8
  e0 : Err
  hn : 0 < n
  hx : n ≤ x.length
  hK : lim + n = K
  he : ∀ T b m, e0 ≠ .corrupt T b m

/-- the input buffer with the other bytes at its end -/
def sw (c : Frame) (i : Inp) : Inp := { i with buf := i.buf.take (i.buf.length - c.n) ++ c.x }

structure InK (c : Frame) (i : Inp) : Prop where
  err : i.inputError = some c.e0
  sum : i.inTotal + i.buf.length = c.K

/-- what every operation on the input does -/
structure PI (e0 : Err) (i i' : Inp) : Prop where
  err : i'.inputError = some e0
  mono : i.inTotal ≤ i'.inTotal
  steady : i'.inStream + i.inTotal = i.inStream + i'.inTotal

def PIo (e0 : Err) (i i' : Inp) : Prop := i.inputError = some e0 → PI e0 i i'

theorem pio_pre (e0 : Err) : Pre (PIo e0) :=
  ⟨fun _ h => ⟨h, Nat.le_refl _, rfl⟩, fun a b c h h' e => by
    have h1 := h e
    have h2 := h' h1.err
    refine ⟨h2.err, Nat.le_trans h1.mono h2.mono, ?_⟩
    have := h1.steady
    have := h2.steady
    omega⟩

theorem pop_some (st : Bool) {i : Inp} {e0 : Err} (h : i.inputError = some e0) :
    popByte st i = match i.buf with | [] => (none, i) | b :: r => (some b, { i with buf := r }) := by
  unfold popByte fill
  simp only [h, Option.isSome_some, if_true, ite_self]
  cases i.buf <;> rfl

theorem pops_some (st : Bool) {e0 : Err} : ∀ (n : Nat) {i : Inp}, i.inputError = some e0 → popBytes st n i = (i.buf.take n, { i with buf := i.buf.drop n })
  | 0, i, _ => by simp [popBytes]
  | n + 1, i, h => by
    unfold popBytes
    rw [pop_some st h]
    rcases hb : i.buf with _ | ⟨b, r⟩
    · simp only [List.take_nil, List.drop_nil]
      rw [← hb]
    · simp only []
      rw [pops_some st n (i := { i with buf := r }) h]
      simp

theorem take_sw {c : Frame} {l : List UInt8} {k : Nat} (h : k + c.n ≤ l.length) : (l.take (l.length - c.n) ++ c.x).take k = l.take k ∧
    (l.take (l.length - c.n) ++ c.x).drop k = (l.drop k).take ((l.drop k).length - c.n) ++ c.x := by
  constructor
  · rw [List.take_append_of_le_length (by simp; omega), List.take_take]
    congr 1
    omega
  · rw [List.drop_append_of_le_length (by simp; omega), List.drop_take]
    congr 2
    simp; omega

/-- The two functions do the same to two such inputs, as long as only common bytes are consumed. -/
structure Si {α : Type} (c : Frame) (f f' : Go Inp α) : Prop where
  keep : Keeps (PIo c.e0) f
  keep' : Keeps (PIo c.e0) f'
  sim : ∀ i a i', InK c i → f i = .ok (a, i') → i'.inTotal ≤ c.lim → InK c i' ∧ f' (sw c i) = .ok (a, sw c i')

section
variable {α β : Type} {c : Frame}

theorem Si.bind {f f' : Go Inp α} {g g' : α → Go Inp β} (h : Si c f f') (hg : ∀ a, Si c (g a) (g' a)) : Si c (f >>= g) (f' >>= g') where
  keep := Keeps.bind (pio_pre _) h.keep fun a => (hg a).keep
  keep' := Keeps.bind (pio_pre _) h.keep' fun a => (hg a).keep'
  sim := by
    intro i a i' hi e hl
    obtain ⟨b, j, e1, e2⟩ := Go.bind_eq_ok.1 e
    have k1 := h.keep _ _ _ e1 hi.err
    have k2 := (hg b).keep _ _ _ e2 k1.err
    obtain ⟨h1, h2⟩ := h.sim i b j hi e1 (Nat.le_trans k2.mono hl)
    obtain ⟨h3, h4⟩ := (hg b).sim j a i' h1 e2 hl
    exact ⟨h3, (Go.bind_ok h2).trans h4⟩

theorem si_pure (a : α) : Si c (pure a) (pure a) :=
  ⟨Keeps.pure (pio_pre _) a, Keeps.pure (pio_pre _) a, fun _ _ _ hi h _ => by cases h; exact ⟨hi, rfl⟩⟩

theorem keep_bufRead (st : Bool) (n : Nat) (e0 : Err) : Keeps (PIo e0) (fun i => .ok (bufRead st n i)) := by
  intro i a i' e h
  have e' : bufRead st n i = (a, i') := Except.ok.inj e
  unfold bufRead at e'
  by_cases hn : n = 0
  · simp only [hn, if_true] at e'
    cases e'
    exact ⟨h, Nat.le_refl _, rfl⟩
  · simp only [hn, if_false] at e'
    rw [pops_some st n (i := Rd.discard i) h] at e'
    cases e'
    refine ⟨h, ?_, ?_⟩
    · simp [countIn, Rd.discard]
    · simp [countIn, Rd.discard]; omega

theorem si_bufRead (st : Bool) (n : Nat) : Si c (fun i => .ok (bufRead st n i)) (fun i => .ok (bufRead st n i)) := by
  refine ⟨keep_bufRead _ _ _, keep_bufRead _ _ _, fun i a i' hi e hl => ?_⟩
  have e' : bufRead st n i = (a, i') := Except.ok.inj e
  show _ ∧ Except.ok (bufRead st n (sw c i)) = _
  unfold bufRead at e' ⊢
  by_cases hn : n = 0
  · simp only [hn, if_true] at e' ⊢
    cases e'
    exact ⟨⟨hi.err, hi.sum⟩, rfl⟩
  · simp only [hn, if_false] at e' ⊢
    rw [pops_some st n (i := Rd.discard i) hi.err] at e'
    rw [pops_some st n (i := Rd.discard (sw c i)) hi.err]
    cases e'
    have hs := hi.sum
    have hK := c.hK
    have hn := c.hn
    simp only [countIn, Rd.discard, List.length_take] at hl
    have hl2 : n + c.n ≤ i.buf.length := by omega
    obtain ⟨t1, t2⟩ := take_sw (c := c) hl2
    constructor
    · refine ⟨hi.err, ?_⟩
      simp [countIn, Rd.discard]; omega
    · have t1' : (Rd.discard (sw c i)).buf.take n = i.buf.take n := t1
      have t2' : (Rd.discard (sw c i)).buf.drop n = (i.buf.drop n).take ((i.buf.drop n).length - c.n) ++ c.x := t2
      simp only [t1', t2']
      rfl

/-- one byte -/
theorem pop_sim (st : Bool) {i : Inp} (hi : InK c i) (hl : i.inTotal ≤ c.lim) : ∃ b r, i.buf = b :: r ∧ popByte st i = (some b, { i with buf := r }) ∧
    (i.inTotal + 1 ≤ c.lim → popByte st (sw c i) = (some b, sw c { i with buf := r })) := by
  have hs := hi.sum
  have hK := c.hK
  have hn := c.hn
  rcases hb : i.buf with _ | ⟨b, r⟩
  · rw [hb] at hs; simp at hs; omega
  · refine ⟨b, r, rfl, by rw [pop_some st hi.err, hb], fun h => ?_⟩
    have : (sw c i).buf = b :: (r.take (r.length - c.n) ++ c.x) := by
      rw [hb] at hs
      simp at hs
      have e : r.length + 1 - c.n = (r.length - c.n) + 1 := by omega
      simp [sw, hb, e]
    rw [pop_some st (show (sw c i).inputError = some c.e0 from hi.err), this]
    rfl

theorem keep_stringZ (st : Bool) (e0 : Err) : ∀ (n : Nat) (acc : List UInt8), Keeps (PIo e0) (stringZLoop st n acc)
  | 0, _ => fun _ _ _ e => by cases e
  | n + 1, acc => fun i a i' e h => by
    unfold stringZLoop at e
    rw [pop_some st h] at e
    rcases hb : i.buf with _ | ⟨b, r⟩
    · rw [hb] at e; cases e; exact ⟨h, Nat.le_refl _, rfl⟩
    · rw [hb] at e
      simp only [] at e
      by_cases h0 : b = 0
      · rw [if_pos h0] at e; cases e
        refine ⟨h, by simp [countIn], by simp [countIn]; omega⟩
      · rw [if_neg h0] at e
        have := keep_stringZ st e0 n _ _ _ _ e h
        refine ⟨this.err, ?_, ?_⟩
        · have := this.mono; simp [countIn] at this; omega
        · have := this.steady; simp [countIn] at this; omega

theorem si_stringZ (st : Bool) : ∀ (n m : Nat) (acc : List UInt8), n ≤ m → Si c (stringZLoop st n acc) (stringZLoop st m acc) := by
  intro n m acc hnm
  refine ⟨keep_stringZ _ _ _ _, keep_stringZ _ _ _ _, ?_⟩
  induction n generalizing m acc with
  | zero => exact fun _ _ _ _ h => by cases h
  | succ n ih =>
    obtain ⟨m, rfl⟩ : ∃ k, m = k + 1 := ⟨m - 1, by omega⟩
    intro i a i' hi e hl
    have k := (keep_stringZ st c.e0 (n + 1) acc _ _ _ e hi.err).mono
    obtain ⟨b, r, hb, hp, hq⟩ := pop_sim st hi (Nat.le_trans k hl)
    unfold stringZLoop at e ⊢
    rw [hp] at e
    simp only [] at e
    have hi2 : InK c (countIn [b] { i with buf := r }) := by
      have := hi.sum
      rw [hb] at this
      exact ⟨hi.err, by simp [countIn]; simp at this; omega⟩
    by_cases h0 : b = 0
    · rw [if_pos h0] at e
      cases e
      have hl : i.inTotal + 1 ≤ c.lim := hl
      rw [hq hl]
      simp only [h0, if_true]
      rw [h0] at hi2
      exact ⟨hi2, rfl⟩
    · rw [if_neg h0] at e
      have k2 := (keep_stringZ st c.e0 n (acc ++ [b]) _ _ _ e hi.err).mono
      have k2 : i.inTotal + 1 ≤ i'.inTotal := k2
      rw [hq (by omega)]
      simp only [h0, if_false]
      exact ih m (acc ++ [b]) (by omega) _ a i' hi2 e hl

theorem keep_fillLoop (W k : Nat) (st : Bool) (e0 : Err) : ∀ n, Keeps (PIo e0) (bitsFillLoop W st k n)
  | 0 => fun _ _ _ e => by cases e
  | n + 1 => fun i a i' e h => by
    unfold bitsFillLoop at e
    by_cases hk : i.ibLen < k
    · rw [if_pos hk, pop_some st h] at e
      rcases hb : i.buf with _ | ⟨b, r⟩
      · rw [hb] at e; cases e; exact ⟨h, Nat.le_refl _, rfl⟩
      · rw [hb] at e
        have := keep_fillLoop W k st e0 n _ _ _ e h
        refine ⟨this.err, ?_, ?_⟩
        · have := this.mono; simp [countIn] at this; omega
        · have := this.steady; simp [countIn] at this; omega
    · rw [if_neg hk] at e; cases e; exact ⟨h, Nat.le_refl _, rfl⟩

theorem si_fillLoop (W k : Nat) (st : Bool) (n : Nat) : Si c (bitsFillLoop W st k n) (bitsFillLoop W st k n) := by
  refine ⟨keep_fillLoop _ _ _ _ _, keep_fillLoop _ _ _ _ _, ?_⟩
  induction n with
  | zero => exact fun _ _ _ _ h => by cases h
  | succ n ih =>
    intro i a i' hi e hl
    have kk := (keep_fillLoop W k st c.e0 (n + 1) _ _ _ e hi.err).mono
    unfold bitsFillLoop at e ⊢
    by_cases hk : i.ibLen < k
    · obtain ⟨b, r, hb, hp, hq⟩ := pop_sim st hi (Nat.le_trans kk hl)
      rw [if_pos hk, hp] at e
      simp only [] at e
      rw [if_pos (show (sw c i).ibLen < k from hk)]
      have k2 := (keep_fillLoop W k st c.e0 n _ _ _ e hi.err).mono
      have k2 : i.inTotal + 1 ≤ i'.inTotal := k2
      rw [hq (by omega)]
      have hj : ∀ (j : Inp), bitsFillLoop W st k n j = .ok (a, i') → InK c j → InK c i' ∧ bitsFillLoop W st k n (sw c j) = .ok (a, sw c i') := fun j ej hj => ih j a i' hj ej hl
      refine hj _ e ⟨hi.err, ?_⟩
      have := hi.sum
      rw [hb] at this
      simp [countIn]; simp at this; omega
    · rw [if_neg hk] at e
      rw [if_neg (show ¬ (sw c i).ibLen < k from hk)]
      cases e
      exact ⟨hi, rfl⟩

/-- an operation on the accumulator alone -/
theorem si_acc {f : Go Inp α} (hk : ∀ i a i', f i = .ok (a, i') → i'.inputError = i.inputError ∧ i'.inTotal = i.inTotal ∧ i'.inStream = i.inStream ∧ i'.buf = i.buf)
    (hs : ∀ i a i', f i = .ok (a, i') → f (sw c i) = .ok (a, sw c i')) : Si c f f := by
  have k : Keeps (PIo c.e0) f := fun i a i' e h => by
    obtain ⟨h1, h2, h3, _⟩ := hk i a i' e
    exact ⟨h1.trans h, by omega, by omega⟩
  refine ⟨k, k, fun i a i' hi e _ => ⟨?_, hs i a i' e⟩⟩
  obtain ⟨h1, h2, h3, h4⟩ := hk i a i' e
  exact ⟨h1.trans hi.err, by rw [h2, h4]; exact hi.sum⟩

theorem si_bitsFill (W k : Nat) (st : Bool) : Si c (bitsFill W st k) (bitsFill W st k) := by
  unfold bitsFill
  refine Si.bind (si_acc (fun i a i' h => ?_) fun i a i' h => ?_) fun _ => si_fillLoop _ _ _ _
  · unfold Go.assert at h
    split at h
    · cases h; exact ⟨rfl, rfl, rfl, rfl⟩
    · cases h
  · unfold Go.assert at h ⊢
    split at h
    · cases h; rename_i hh; rw [if_pos hh]
    · cases h

theorem si_bitsPeek (W k : Nat) : Si c (bitsPeek W k) (bitsPeek W k) := by
  refine si_acc (fun i a i' h => ?_) fun i a i' h => ?_
  · unfold bitsPeek at h
    split at h
    · cases h; exact ⟨rfl, rfl, rfl, rfl⟩
    · cases h
  · unfold bitsPeek at h ⊢
    split at h
    · cases h; rename_i hh; rw [if_pos (show k ≤ (sw c i).ibLen from hh)]; rfl
    · cases h

theorem si_bitsCommit (k : Nat) : Si c (bitsCommit k) (bitsCommit k) := by
  refine si_acc (fun i a i' h => ?_) fun i a i' h => ?_
  · unfold bitsCommit at h
    split at h
    · cases h; exact ⟨rfl, rfl, rfl, rfl⟩
    · cases h
  · unfold bitsCommit at h ⊢
    split at h
    · cases h; rename_i hh; rw [if_pos (show k ≤ (sw c i).ibLen from hh)]; rfl
    · cases h

theorem si_bitsRead (W k : Nat) : Si c (bitsRead W k) (bitsRead W k) := by
  unfold bitsRead
  exact (si_bitsPeek W k).bind fun _ => (si_bitsCommit k).bind fun _ => si_pure _

theorem si_symbolLoop (L : HuffLib) (W : Nat) (st : Bool) (lens : List Nat) : ∀ (fuel n : Nat), Si c (symbolLoop L W st lens fuel n) (symbolLoop L W st lens fuel n)
  | 0, _ => ⟨fun _ _ _ h => (by cases h), fun _ _ _ h => (by cases h), fun _ _ _ _ h => (by cases h)⟩
  | fuel + 1, n => by
    unfold symbolLoop
    split
    · refine (si_bitsFill W n st).bind fun ok => ?_
      split
      · exact si_pure _
      · refine (si_bitsPeek W n).bind fun out => ?_
        split
        · exact (si_bitsCommit n).bind fun _ => si_pure _
        · split
          · exact si_pure _
          · exact si_symbolLoop L W st lens fuel _
    · exact si_pure _

end
/-! ### the whole Reader -/

def swS (c : Frame) (s : RState) : RState := { s with inp := sw c s.inp }

/-- what every function does to the position in the input and to the first error -/
structure PS (e0 : Err) (s s' : RState) : Prop where
  inp : PI e0 s.inp s'.inp
  first : ∀ e, actErr s.out.acts = some e → actErr s'.out.acts = some e
  at_ : actErr s.out.acts = none → ∀ T b m, actErr s'.out.acts = some (.corrupt T b m) → s.inp.inTotal ≤ T ∧ T ≤ s'.inp.inTotal ∧ T + s.inp.inStream = b + s.inp.inTotal

def P (e0 : Err) (s s' : RState) : Prop := s.inp.inputError = some e0 → PS e0 s s'

theorem p_pre (e0 : Err) : Pre (P e0) := by
  refine ⟨fun s h => ⟨(pio_pre e0).refl _ h, fun _ h => h, fun h T b m h' => by rw [h] at h'; cases h'⟩, fun a b c h h' e => ?_⟩
  have h1 := h e
  have h2 := h' h1.inp.err
  refine ⟨(pio_pre e0).trans _ _ _ (fun _ => h1.inp) (fun _ => h2.inp) e, fun e he => h2.first e (h1.first e he), fun hn T x m hc => ?_⟩
  rcases hb : actErr b.out.acts with _ | eb
  · obtain ⟨k1, k2, k3⟩ := h2.at_ hb T x m hc
    have := h1.inp.mono
    have := h1.inp.steady
    exact ⟨by omega, k2, by omega⟩
  · have := h2.first eb hb
    rw [this] at hc
    cases hc
    obtain ⟨k1, k2, k3⟩ := h1.at_ hn T x m hb
    exact ⟨k1, Nat.le_trans k2 h2.inp.mono, k3⟩

structure Sm2 {α : Type} (c : Frame) (f f' : Go RState α) : Prop where
  keep : Keeps (P c.e0) f
  keep' : Keeps (P c.e0) f'
  sim : ∀ s a s', InK c s.inp → f s = .ok (a, s') → s'.inp.inTotal ≤ c.lim → InK c s'.inp ∧ f' (swS c s) = .ok (a, swS c s')
  over : ∀ s a s', InK c s.inp → f s = .ok (a, s') → ∀ T b m, T ≤ c.lim → actErr s'.out.acts = some (.corrupt T b m) →
    ∀ a2 s2, f' (swS c s) = .ok (a2, s2) → actErr s2.out.acts = some (.corrupt T b m)

/-- The function does the same to both inputs as long as only common bytes are consumed; and if it reports there that the input is corrupt, it reports this for both. -/
def Sm {α : Type} (c : Frame) (f : Go RState α) : Prop := Sm2 c f f

section
variable {α β : Type} {E : Env} {c : Frame}

/-- `sim` is enough if the function reports no error of its own in another case -/
theorem Sm2.of {f f' : Go RState α} (k : Keeps (P c.e0) f) (k' : Keeps (P c.e0) f')
    (sim : ∀ s a s', InK c s.inp → f s = .ok (a, s') → s'.inp.inTotal ≤ c.lim → InK c s'.inp ∧ f' (swS c s) = .ok (a, swS c s'))
    (same : ∀ s a s', f s = .ok (a, s') → c.lim < s'.inp.inTotal → actErr s'.out.acts = actErr s.out.acts) : Sm2 c f f' := by
  refine ⟨k, k', sim, fun s a s' hi e T b m hT he a2 s2 e2 => ?_⟩
  by_cases hl : s'.inp.inTotal ≤ c.lim
  · obtain ⟨_, h2⟩ := sim s a s' hi e hl
    rw [h2] at e2; cases e2
    exact he
  · rw [same s a s' e (by omega)] at he
    exact (k' _ _ _ e2 hi.err).first _ he

theorem Sm2.bind {f f' : Go RState α} {g g' : α → Go RState β} (h : Sm2 c f f') (hg : ∀ a, Sm2 c (g a) (g' a)) : Sm2 c (f >>= g) (f' >>= g') where
  keep := Keeps.bind (p_pre _) h.keep fun a => (hg a).keep
  keep' := Keeps.bind (p_pre _) h.keep' fun a => (hg a).keep'
  sim := by
    intro i a i' hi e hl
    obtain ⟨b, j, e1, e2⟩ := Go.bind_eq_ok.1 e
    have k1 := h.keep _ _ _ e1 hi.err
    have k2 := (hg b).keep _ _ _ e2 k1.inp.err
    obtain ⟨h1, h2⟩ := h.sim i b j hi e1 (Nat.le_trans k2.inp.mono hl)
    obtain ⟨h3, h4⟩ := (hg b).sim j a i' h1 e2 hl
    exact ⟨h3, (Go.bind_ok h2).trans h4⟩
  over := by
    intro i a i' hi e T tb m hT he a2 s2 e2
    obtain ⟨b, j, e1, e3⟩ := Go.bind_eq_ok.1 e
    obtain ⟨b2, j2, e4, e5⟩ := Go.bind_eq_ok.1 e2
    have k1 := h.keep _ _ _ e1 hi.err
    have k2 := (hg b).keep _ _ _ e3 k1.inp.err
    have k3 := h.keep' _ _ _ e4 hi.err
    have k4 := (hg b2).keep' _ _ _ e5 k3.inp.err
    by_cases hl : j.inp.inTotal ≤ c.lim
    · obtain ⟨h1, h2⟩ := h.sim i b j hi e1 hl
      rw [h2] at e4; cases e4
      exact (hg b).over j a i' h1 e3 T tb m hT he a2 s2 e5
    · rcases hj : actErr j.out.acts with _ | ej
      · have := (k2.at_ hj T tb m he).1
        omega
      · have := k2.first _ hj
        rw [this] at he; cases he
        exact k4.first _ (h.over i b j hi e1 T tb m hT hj _ _ e4)

theorem Sm.bind {f : Go RState α} {g : α → Go RState β} (h : Sm c f) (hg : ∀ a, Sm c (g a)) : Sm c (f >>= g) := Sm2.bind h hg

theorem Sm.pure (a : α) : Sm c (Pure.pure a : Go RState α) :=
  Sm2.of (Keeps.pure (p_pre _) a) (Keeps.pure (p_pre _) a) (fun _ _ _ hi h _ => by cases h; exact ⟨hi, rfl⟩) (fun _ _ _ h _ => by cases h; rfl)

theorem Sm2.pure (a : α) : Sm2 c (Pure.pure a : Go RState α) (Pure.pure a) := Sm.pure a

theorem chk_bind (p q : Go RState Bool) : Go.chk p q = (p >>= fun b => if b then q else Pure.pure false) := by
  funext s
  unfold Go.chk
  cases h : p s with
  | error e => exact (Go.bind_error h).symm
  | ok y =>
    obtain ⟨b, s1⟩ := y
    cases b
    · exact (Go.bind_ok (f := fun b => if b then q else Pure.pure false) h).symm
    · exact (Go.bind_ok (f := fun b => if b then q else Pure.pure false) h).symm

theorem Sm2.ite {b : Prop} [Decidable b] {f f' g g' : Go RState α} (hf : Sm2 c f f') (hg : Sm2 c g g') : Sm2 c (if b then f else g) (if b then f' else g') := by split; exacts [hf, hg]

theorem Sm2.chk {p p' q q' : Go RState Bool} (h : Sm2 c p p') (hg : Sm2 c q q') : Sm2 c (Go.chk p q) (Go.chk p' q') := by
  rw [chk_bind, chk_bind]
  exact h.bind fun b => Sm2.ite hg (Sm.pure _)

theorem Sm.chk {p q : Go RState Bool} (h : Sm c p) (hg : Sm c q) : Sm c (Go.chk p q) := Sm2.chk h hg

theorem Sm.panic (p : Panic) : Sm c (Go.panic p : Go RState α) :=
  ⟨Keeps.panic p, Keeps.panic p, fun _ _ _ _ h => (by cases h), fun _ _ _ _ h => (by cases h)⟩

theorem Sm2.panic (p : Panic) : Sm2 c (Go.panic p : Go RState α) (Go.panic p) := Sm.panic p

theorem Sm.lift (y : Except Panic α) : Sm c (Go.lift y : Go RState α) := by
  cases y with
  | error e => exact ⟨Keeps.lift (p_pre _) _, Keeps.lift (p_pre _) _, fun _ _ _ _ h => (by cases h), fun _ _ _ _ h => (by cases h)⟩
  | ok a => exact Sm.pure a

/-- a function which does not touch the input and adds at most data to the output -/
theorem Sm.quiet {f : Go RState α} (hk : ∀ s a s', f s = .ok (a, s') → s'.inp = s.inp ∧ actErr s'.out.acts = actErr s.out.acts)
    (hs : ∀ s a s', f s = .ok (a, s') → f (swS c s) = .ok (a, swS c s')) : Sm c f := by
  have k : Keeps (P c.e0) f := fun s a s' e h => by
    obtain ⟨h1, h2⟩ := hk s a s' e
    refine ⟨by rw [h1]; exact (pio_pre _).refl _ h, fun e he => h2.trans he, fun hn T b m hc => ?_⟩
    rw [h2, hn] at hc; cases hc
  refine Sm2.of k k (fun s a s' hi e _ => ⟨?_, hs s a s' e⟩) fun s a s' e _ => (hk s a s' e).2
  rw [(hk s a s' e).1]; exact hi

theorem Sm.modify {g : RState → RState} (h : ∀ s, g (swS c s) = swS c (g s)) (hs : ∀ s, (g s).inp = s.inp ∧ (g s).out.acts = s.out.acts) : Sm c (Go.modify g) :=
  Sm.quiet (fun s a s' e => by cases e; exact ⟨(hs s).1, by rw [(hs s).2]⟩) (fun s a s' e => by cases e; rw [Go.modify_apply, h])

theorem Sm2.read {π : Type} (proj : RState → π) (h : ∀ s, proj (swS c s) = proj s) {F F' : π → Go RState α} (hF : ∀ v, Sm2 c (F v) (F' v)) :
    Sm2 c (fun s => F (proj s) s) (fun s => F' (proj s) s) where
  keep := fun s a s' e => (hF _).keep s a s' e
  keep' := fun s a s' e => (hF _).keep' s a s' e
  sim := fun s a s' hi e hl => by
    show _ ∧ F' (proj (swS c s)) (swS c s) = _
    rw [h]
    exact (hF _).sim s a s' hi e hl
  over := fun s a s' hi e T b m hT he a2 s2 e2 => by
    have e2 : F' (proj (swS c s)) (swS c s) = .ok (a2, s2) := e2
    rw [h] at e2
    exact (hF _).over s a s' hi e T b m hT he a2 s2 e2

theorem Sm.read {π : Type} (proj : RState → π) (h : ∀ s, proj (swS c s) = proj s) {F : π → Go RState α} (hF : ∀ v, Sm c (F v)) : Sm c (fun s => F (proj s) s) :=
  Sm2.read proj h hF

theorem onInp_inv {f : Bool → Go Inp α} {s : RState} {a : α} {s' : RState} (e : Rd.onInp f s = .ok (a, s')) :
    ∃ i, f s.out.stopIsForced s.inp = .ok (a, i) ∧ s' = { s with inp := i } := by
  unfold Rd.onInp at e
  rcases hf : f s.out.stopIsForced s.inp with p | ⟨b, i⟩
  · rw [hf] at e; cases e
  · rw [hf] at e; cases e; exact ⟨i, rfl, rfl⟩

theorem keep_onInp {e0 : Err} {f : Bool → Go Inp α} (h : ∀ st, Keeps (PIo e0) (f st)) : Keeps (P e0) (Rd.onInp f) := by
  intro s a s' e hs
  obtain ⟨i, h1, rfl⟩ := onInp_inv e
  exact ⟨h _ _ _ _ h1 hs, fun _ h => h, fun h T b m h' => by
    have h' : actErr s.out.acts = _ := h'
    rw [h] at h'; cases h'⟩

theorem Sm2.onInp {f f' : Bool → Go Inp α} (h : ∀ st, Si c (f st) (f' st)) : Sm2 c (Rd.onInp f) (Rd.onInp f') := by
  refine Sm2.of (keep_onInp fun st => (h st).keep) (keep_onInp fun st => (h st).keep') (fun s a s' hi e hl => ?_) fun s a s' e _ => ?_
  · obtain ⟨i, h1, rfl⟩ := onInp_inv e
    obtain ⟨h2, h3⟩ := (h _).sim _ _ _ hi h1 hl
    refine ⟨h2, ?_⟩
    exact onInp_ok (s := swS c s) h3
  · obtain ⟨i, h1, rfl⟩ := onInp_inv e
    rfl

theorem Sm.onInp {f : Bool → Go Inp α} (h : ∀ st, Si c (f st) (f st)) : Sm c (Rd.onInp f) := Sm2.onInp h

theorem Sm.onOut {f : Out → α × Out} (h : ∀ o, actErr (f o).2.acts = actErr o.acts) : Sm c (Rd.onOut f) :=
  Sm.quiet (fun s a s' e => by cases e; exact ⟨rfl, h _⟩) (fun s a s' e => by cases e; rfl)

theorem Sm.congr {f g : Go RState α} (h : ∀ s, f s = g s) (hg : Sm c g) : Sm c f := by rw [funext h]; exact hg

theorem Sm.ite {b : Prop} [Decidable b] {f g : Go RState α} (hf : Sm c f) (hg : Sm c g) : Sm c (if b then f else g) := Sm2.ite hf hg

theorem actErr_append (l l' : List Act) : actErr (l ++ l') = match actErr l with | some e => some e | none => actErr l' := by
  induction l with
  | nil => rfl
  | cons a l ih => cases a with
    | data p => exact ih
    | err e => rfl

theorem close_first (e : Err) (o : Out) : (∀ e', actErr o.acts = some e' → actErr (closeOut e o).acts = some e') ∧
    (∀ e', actErr o.acts = none → actErr (closeOut e o).acts = some e' → e' = e) := by
  unfold closeOut
  cases hs : o.errorWasSet with
  | true =>
    simp only [if_true]
    exact ⟨fun _ h => h, fun e' h h' => by rw [h] at h'; cases h'⟩
  | false =>
    simp only [Bool.false_eq_true, if_false]
    refine ⟨fun e' h => by rw [actErr_append, h], fun e' h h' => ?_⟩
    rw [actErr_append, h] at h'
    cases h'; rfl

theorem sm_corruptf (m : Spec.Problem) : Sm c (corruptf m) := by
  have k : Keeps (P c.e0) (corruptf m) := by
    intro s a s' e hs
    unfold corruptf at e
    rw [closeWithError_eq] at e
    cases e
    refine ⟨(pio_pre _).refl _ hs, (close_first _ _).1, fun hn T b m' hc => ?_⟩
    have := (close_first _ _).2 _ hn hc
    cases this
    refine ⟨Nat.le_refl _, Nat.le_refl _, ?_⟩
    show s.inp.inTotal + s.inp.inStream = _
    omega
  refine ⟨k, k, fun s a s' hi e hl => ?_, fun s a s' hi e T b m' hT he a2 s2 e2 => ?_⟩
  · unfold corruptf at e ⊢
    rw [closeWithError_eq] at e ⊢
    cases e
    exact ⟨hi, rfl⟩
  · unfold corruptf at e e2
    rw [closeWithError_eq] at e e2
    cases e; cases e2
    exact he

theorem sm_fail (m : Spec.Problem) : Sm c (fail m) := (sm_corruptf m).bind fun _ => .pure _

/-- an error of the source is not one about corrupt input -/
theorem sm_exhausted (a : α) : Sm c (exhausted a) := by
  have hp : ∀ s : RState, s.inp.inputError = some c.e0 → propagateError true s = .ok ((), { s with out := closeOut (if true && c.e0 == .eof then .unexpectedEOF else c.e0) s.out }) := by
    intro s hs
    unfold propagateError
    simp only [hs]
    exact closeWithError_eq _ _
  have hne : ∀ T b m, (if true && c.e0 == .eof then .unexpectedEOF else c.e0 : Err) ≠ .corrupt T b m := by
    intro T b m
    split
    · exact fun h => by cases h
    · exact c.he T b m
  generalize (if true && c.e0 == .eof then .unexpectedEOF else c.e0 : Err) = e1 at hp hne
  have he : ∀ s : RState, s.inp.inputError = some c.e0 → exhausted a s = .ok (a, { s with out := closeOut e1 s.out }) := fun s hs => (Go.bind_ok (hp s hs)).trans rfl
  have k : Keeps (P c.e0) (exhausted a : Go RState α) := by
    intro s b s' e hs
    rw [he s hs] at e
    cases e
    refine ⟨(pio_pre _).refl _ hs, (close_first _ _).1, fun hn T b m' hc => ?_⟩
    exact absurd ((close_first _ _).2 _ hn hc).symm (hne T b m')
  refine ⟨k, k, fun s b s' hi e hl => ?_, fun s b s' hi e T tb m' hT hc a2 s2 e2 => ?_⟩
  · rw [he s hi.err] at e
    rw [he (swS c s) hi.err]
    cases e
    exact ⟨hi, rfl⟩
  · rw [he s hi.err] at e
    rw [he (swS c s) hi.err] at e2
    cases e; cases e2
    exact hc

theorem sw_size {i : Inp} (hi : InK c i) (hl : i.inTotal ≤ c.lim) : i.size ≤ (sw c i).size := by
  have h1 := hi.sum
  have h2 := c.hK
  have h3 := c.hx
  simp only [Inp.size, sw, List.length_append, List.length_take]
  omega

theorem sw_bits {i : Inp} (hi : InK c i) (hl : i.inTotal ≤ c.lim) : i.bits + 1 ≤ (sw c i).bits + 1 := by
  have h1 := sw_size hi hl
  have h2 : (sw c i).ibLen = i.ibLen := rfl
  simp only [Inp.bits, h2]
  omega

theorem si_readStringZ (st : Bool) : Si c (readStringZ st) (readStringZ st) := by
  have k : Keeps (PIo c.e0) (readStringZ st) := fun i a i' e => keep_stringZ st c.e0 _ [] i a i' e
  refine ⟨k, k, fun i a i' hi e hl => ?_⟩
  have := (k i a i' e hi.err).mono
  have hs := sw_size hi (Nat.le_trans this hl)
  exact (si_stringZ st _ _ [] (Nat.succ_le_succ hs)).sim i a i' hi e hl

/-- a loop whose fuel depends on the length of the input -/
theorem Sm.fuel {F : Nat → Go RState α} (h : RState → Nat) (hF : ∀ n m, n ≤ m → Sm2 c (F n) (F m)) (hm : ∀ s, InK c s.inp → s.inp.inTotal ≤ c.lim → h s ≤ h (swS c s)) :
    Sm c (fun s => F (h s) s) := by
  have k : Keeps (P c.e0) (fun s => F (h s) s) := fun s a s' e => (hF _ _ (Nat.le_refl _)).keep s a s' e
  refine ⟨k, k, fun s a s' hi e hl => ?_, fun s a s' hi e T b m hT he a2 s2 e2 => ?_⟩
  · have h1 := (k s a s' e hi.err).inp.mono
    exact (hF _ _ (hm s hi (Nat.le_trans h1 hl))).sim s a s' hi e hl
  · by_cases hl : s.inp.inTotal ≤ c.lim
    · exact (hF _ _ (hm s hi hl)).over s a s' hi e T b m hT he a2 s2 e2
    · have h1 := k s a s' e hi.err
      have h2 := k _ a2 s2 e2 hi.err
      rcases hj : actErr s.out.acts with _ | ej
      · have := (h1.at_ hj T b m he).1
        omega
      · have := h1.first _ hj
        rw [this] at he; cases he
        exact h2.first _ hj

theorem sm_needBits (fl : α) (n : Nat) {k : Nat → Go RState α} (hk : ∀ v, Sm c (k v)) : Sm c (needBits E fl n k) := by
  unfold needBits
  exact (Sm.onInp fun st => si_bitsFill E.W n st).bind fun ok => .ite (sm_exhausted _) ((Sm.onInp fun _ => si_bitsRead E.W n).bind hk)

theorem sm_needBytes (fl : α) (n : Nat) {k : List UInt8 → Go RState α} (hk : ∀ v, Sm c (k v)) : Sm c (needBytes fl n k) := by
  unfold needBytes
  refine Sm.bind (Sm.onInp fun st => si_bufRead st n) fun y => ?_
  · obtain ⟨p, ok⟩ := y
    exact .ite (sm_exhausted _) (hk _)

theorem sm_readSymbol (lens : List Nat) : Sm c (readSymbol E lens) := Sm.onInp fun _ => si_symbolLoop _ _ _ _ _ _

theorem sm_addBits (fl : α) (n base : Nat) {k : Nat → Go RState α} (hk : ∀ v, Sm c (k v)) : Sm c (addBits E fl n base k) := by
  unfold addBits
  exact .ite (sm_needBits fl n fun _ => hk _) (hk _)

theorem sm_sendEvent (k : EvKind) : Sm c (sendEvent k) := Sm.modify (fun _ => rfl) fun _ => ⟨rfl, rfl⟩
theorem sm_modHeader (f : Header → Header) : Sm c (modHeader f) := Sm.modify (fun _ => rfl) fun _ => ⟨rfl, rfl⟩

theorem sm_setZlib : Sm c setZlib := Sm.quiet (fun _ _ _ e => by cases e; exact ⟨rfl, rfl⟩) fun _ _ _ e => by cases e; rfl
theorem sm_setGzip : Sm c setGzip := Sm.quiet (fun _ _ _ e => by cases e; exact ⟨rfl, rfl⟩) fun _ _ _ e => by cases e; rfl
theorem sm_readHeaderRaw : Sm c readHeaderRaw := Sm.quiet (fun _ _ _ e => by cases e; exact ⟨rfl, rfl⟩) fun _ _ _ e => by cases e; rfl

theorem sm_readHeaderZlib : Sm c (readHeaderZlib E) := by
  unfold readHeaderZlib
  refine sm_needBytes _ _ fun p => ?_
  refine .ite (sm_fail _) (.ite (sm_fail _) ((sm_modHeader _).bind fun _ => .ite (sm_fail _) ((sm_modHeader _).bind fun _ => .ite (sm_needBytes _ _ fun q => ?_) ?_)))
  · split
    · exact sm_fail _
    · exact .ite (sm_fail _) sm_setZlib
  · split
    · exact sm_fail _
    · exact sm_setZlib

theorem sm_gzExtraData (b : Bool) : Sm c (gzExtraData b) := by
  unfold gzExtraData
  exact .ite (sm_needBytes _ _ fun _ => sm_needBytes _ _ fun _ => (Sm.lift _).bind fun _ => (sm_modHeader _).bind fun _ => .pure _) (.pure _)

theorem sm_gzStr (b : Bool) (f : List UInt8 → Header → Header) : Sm c (gzStr b f) := by
  unfold gzStr
  refine .ite (Sm.bind (Sm.onInp fun st => si_readStringZ st) fun y => ?_) (.pure _)
  · obtain ⟨p, ok⟩ := y
    exact .ite (sm_exhausted _) ((sm_modHeader _).bind fun _ => .pure _)

theorem sm_gzCRC (b : Bool) : Sm c (gzCRC b) := by
  refine Sm.read (fun s => s.inp.crc) (fun _ => rfl) (F := gzCRC16 b) fun v => ?_
  unfold gzCRC16
  exact .ite (sm_needBytes _ _ fun _ => .ite (sm_fail _) (.pure _)) (.pure _)

theorem sm_readHeaderGZIP : Sm c readHeaderGZIP := by
  unfold readHeaderGZIP
  refine (Sm.onInp fun _ => si_acc (fun _ _ _ e => by cases e; exact ⟨rfl, rfl, rfl, rfl⟩) fun _ _ _ e => by cases e; rfl).bind fun _ => sm_needBytes _ _ fun p => ?_
  exact .ite (sm_fail _) (.ite (sm_fail _) ((sm_modHeader _).bind fun _ => .ite (sm_fail _) ((sm_modHeader _).bind fun _ =>
    (sm_gzExtraData _).chk ((sm_gzStr _ _).chk ((sm_gzStr _ _).chk ((sm_gzCRC _).chk sm_setGzip))))))

theorem sm_readHeaderOf {f : Format} (hf : f ≠ .default) : Sm c (readHeaderOf E f) := by
  cases f with
  | default => exact absurd rfl hf
  | raw => exact sm_readHeaderRaw
  | zlib => exact sm_readHeaderZlib
  | gzip => exact sm_readHeaderGZIP

theorem sm_readFooterOf (f : Format) (a cs : BitVec 32) : Sm c (readFooterOf f a cs) := by
  unfold readFooterOf
  split
  · exact .pure _
  · exact sm_needBytes _ _ fun _ => .ite (sm_fail _) (.pure _)
  · refine sm_needBytes _ _ fun p => sm_needBytes _ _ fun q => ?_
    have h : Sm c (fun s => (fun n => if leVal p ≠ cs.toNat then fail (.gzipSum (leVal p) cs.toNat)
      else if leVal q ≠ n % 2 ^ 32 then fail (.gzipLength (leVal q) (n % 2 ^ 32)) else Pure.pure true : Nat → Go RState Bool) s.out.outStream s) :=
      Sm.read (fun s => s.out.outStream) (fun _ => rfl) (F := fun n => if leVal p ≠ cs.toNat then fail (.gzipSum (leVal p) cs.toNat)
      else if leVal q ≠ n % 2 ^ 32 then fail (.gzipLength (leVal q) (n % 2 ^ 32)) else Pure.pure true) fun n => Sm.ite (sm_fail _) (Sm.ite (sm_fail _) (Sm.pure _))
    refine h.congr fun s => ?_
    simp only []
    split
    · rfl
    · split <;> rfl
  · exact .panic _

theorem sm_readFooter : Sm c readFooter := by
  unfold readFooter
  refine (Sm.onInp fun _ => si_acc (fun _ _ _ e => by cases e; exact ⟨rfl, rfl, rfl, rfl⟩) fun _ _ _ e => by cases e; rfl).bind fun _ => Sm.read (fun s => (s.out.adler, s.out.crc, s.actualFormat)) (fun _ => rfl)
    (F := fun v => (do
      sendEvent (.streamEnd v.1 v.2.1)
      Go.chk (readFooterOf v.2.2 v.1 v.2.1) do
        sendEvent .streamClose
        Pure.pure true : Go RState Bool)) fun v => ?_
  refine (sm_sendEvent _).bind fun _ => Sm.chk (sm_readFooterOf _ _ _) ((sm_sendEvent _).bind fun _ => .pure _)

theorem must_first (o : Out) : actErr (mustFlush E o).acts = actErr o.acts := by
  have ha : ∀ p, actErr (o.acts ++ [.data p]) = actErr o.acts := by
    intro p
    rw [actErr_append]
    cases actErr o.acts <;> rfl
  unfold mustFlush
  split
  · rfl
  · simp only []
    split
    · rfl
    · split
      · split
        · exact ha _
        · exact ha _
      · exact ha _

theorem try_first (o : Out) : actErr (tryFlush E o).acts = actErr o.acts := by
  unfold tryFlush
  split
  · exact must_first o
  · rfl

theorem loop_first : ∀ (fuel : Nat) (p : List UInt8) (o o' : Out), dbWriteLoop E fuel p o = .ok o' → actErr o'.acts = actErr o.acts
  | 0, _, _, _, e => by cases e
  | fuel + 1, p, o, o', e => by
    unfold dbWriteLoop at e
    split at e
    · exact (loop_first fuel _ _ _ e).trans (try_first o)
    · cases e; rfl

theorem sm_dbWrite (p : List UInt8) : Sm c (dbWrite E p) := by
  refine Sm.quiet (fun s a s' e => ?_) fun s a s' e => ?_
  · unfold dbWrite at e
    rcases hd : dbWriteLoop E (p.length + 1) p s.out with er | o1
    · rw [hd] at e; cases e
    · rw [hd] at e; cases e
      exact ⟨rfl, loop_first _ _ _ _ hd⟩
  · unfold dbWrite at e ⊢
    rw [show (swS c s).out = s.out from rfl]
    rcases hd : dbWriteLoop E (p.length + 1) p s.out with er | o1
    · rw [hd] at e; cases e
    · rw [hd] at e; cases e; rfl

theorem sm_dbWriteByte (ch : UInt8) : Sm c (dbWriteByte E ch) := Sm.onOut fun o => by
  simp only []
  split
  · exact try_first o
  · exact try_first o

theorem sm_copyLoop (d : Nat) : ∀ n, Sm c (copyLoop E d n)
  | 0 => .pure _
  | n + 1 => by
    have h : Sm c (fun s => (fun x : Option UInt8 => (match x with
      | none => fail (.tooFar d (2 ^ E.o.wbits))
      | some ch => (do dbWriteByte E ch; copyLoop E d n : Go RState Bool) : Go RState Bool)) (lookupByte s.out.window d) s) := by
      refine Sm.read (fun s => lookupByte s.out.window d) (fun _ => rfl) (F := fun x : Option UInt8 => match x with
        | none => fail (.tooFar d (2 ^ E.o.wbits))
        | some ch => (do dbWriteByte E ch; copyLoop E d n : Go RState Bool)) fun v => ?_
      cases v with
      | none => exact sm_fail _
      | some ch => exact (sm_dbWriteByte ch).bind fun _ => sm_copyLoop d n
    refine h.congr fun s => ?_
    conv => lhs; unfold copyLoop
    simp only []
    rcases lookupByte s.out.window d with _ | ch <;> rfl

theorem sm_copyMatch (d l : Nat) : Sm c (copyMatch E d l) := by
  have h : Sm c (fun s => (fun x : Option (List UInt8) => (match x with
    | none => fail (.tooFar d (2 ^ E.o.wbits))
    | some p => (do
      Go.modify fun s => { s with out := { s.out with nLook := s.out.nLook + 1 } }
      dbWrite E p
      copyLoop E d (l - p.length) : Go RState Bool) : Go RState Bool)) (lookupSlice s.out.window d l (E.clip s.out.nLook)) s) := by
    refine Sm.read (fun s => lookupSlice s.out.window d l (E.clip s.out.nLook)) (fun _ => rfl) (F := fun x : Option (List UInt8) => match x with
      | none => fail (.tooFar d (2 ^ E.o.wbits))
      | some p => (do
        Go.modify fun s => { s with out := { s.out with nLook := s.out.nLook + 1 } }
        dbWrite E p
        copyLoop E d (l - p.length) : Go RState Bool)) fun v => ?_
    cases v with
    | none => exact sm_fail _
    | some p => exact Sm.bind (Sm.modify (fun _ => rfl) fun _ => ⟨rfl, rfl⟩) fun _ => (sm_dbWrite p).bind fun _ => sm_copyLoop d _
  refine h.congr fun s => ?_
  unfold copyMatch
  rcases lookupSlice s.out.window d l (E.clip s.out.nLook) with _ | ch <;> rfl

theorem sm_decodeLL (sym : Nat) : Sm c (decodeLL E sym) := by
  unfold decodeLL
  refine .ite (.pure _) (.ite (.pure _) ?_)
  split
  · exact (sm_corruptf _).bind fun _ => .pure _
  · exact sm_addBits _ _ _ fun _ => (Sm.lift _).bind fun _ => .pure _

theorem sm_decodeD (sym len : Nat) : Sm c (decodeD E sym len) := by
  unfold decodeD
  split
  · exact (sm_corruptf _).bind fun _ => .pure _
  · exact sm_addBits _ _ _ fun _ => (Sm.lift _).bind fun _ => .pure _

theorem sm_huffLoop' (hLL hD : List Nat) (d : Nat) (hd : Keeps (P c.e0) (huffLoop E hLL hD d)) : ∀ n, Sm2 c (huffLoop E hLL hD n) (huffLoop E hLL hD (n + d))
  | 0 => by
    rw [Nat.zero_add]
    exact ⟨fun _ _ _ h => (by cases h), hd, fun _ _ _ _ h => (by cases h), fun _ _ _ _ h => (by cases h)⟩
  | n + 1 => by
    have ih := sm_huffLoop' hLL hD d hd n
    rw [Nat.add_right_comm]
    unfold huffLoop
    refine Sm2.bind (sm_readSymbol _) fun y => ?_
    split
    · exact sm_fail _
    · refine Sm2.bind (sm_decodeLL _) fun y => ?_
      split
      · exact Sm.pure _
      · split
        · split
          · exact Sm.pure _
          · exact Sm2.bind (sm_dbWriteByte _) fun _ => ih
        · refine Sm2.bind (sm_readSymbol _) fun y => ?_
          split
          · exact sm_fail _
          · refine Sm2.bind (sm_decodeD _ _) fun y => ?_
            split
            · exact Sm.pure _
            · exact Sm2.chk (sm_copyMatch _ _) ih

/-- from loops with the same fuel to loops with more fuel in the second one -/
theorem more_fuel {F : Nat → Go RState α} (h0 : Keeps (P c.e0) (F 0)) (h : ∀ d, Keeps (P c.e0) (F d) → ∀ n, Sm2 c (F n) (F (n + d))) (n m : Nat) (hnm : n ≤ m) : Sm2 c (F n) (F m) := by
  have := h (m - n) ((h 0 h0 (m - n)).keep) n
  rwa [show n + (m - n) = m by omega] at this

theorem sm_huffLoop (hLL hD : List Nat) (n m : Nat) (h : n ≤ m) : Sm2 c (huffLoop E hLL hD n) (huffLoop E hLL hD m) :=
  more_fuel (fun _ _ _ h => by cases h) (sm_huffLoop' hLL hD) n m h

theorem sm_huff (hLL hD : List Nat) : Sm c (decodeHuffmanBlock E hLL hD) :=
  Sm.fuel (fun s => s.inp.bits + 1) (sm_huffLoop hLL hD) fun _ hi hl => sw_bits hi hl

theorem sm_static (b : Bool) : Sm c (readStatic E b) := Sm2.bind (sm_sendEvent _) fun _ => sm_huff _ _

theorem sm_stored : Sm c (readStored E) := by
  unfold readStored
  exact sm_needBytes _ _ fun _ => sm_needBytes _ _ fun _ => .ite (sm_fail _) (sm_needBytes _ _ fun _ => Sm2.bind (sm_dbWrite _) fun _ => .pure _)

theorem sm_readCL : ∀ (is sX : List Nat), Sm c (readCL E is sX)
  | [], _ => .pure _
  | i :: is, sX => sm_needBits _ _ fun _ => sm_readCL is _

theorem sm_decodeX (sym total : Nat) (acc : List Nat) : Sm c (decodeX E sym total acc) := by
  unfold decodeX
  exact .ite (.ite (.pure _) (.panic _)) (.ite (.ite (Sm2.bind (sm_corruptf _) fun _ => .pure _)
      (sm_needBits _ _ fun _ => .ite (Sm2.bind (sm_corruptf _) fun _ => .pure _) (.ite (.pure _) (.panic _))))
    (.ite (sm_needBits _ _ fun _ => .ite (Sm2.bind (sm_corruptf _) fun _ => .pure _) (.pure _))
      (.ite (sm_needBits _ _ fun _ => .ite (Sm2.bind (sm_corruptf _) fun _ => .pure _) (.pure _)) (.pure _))))

theorem sm_lensLoop' (lens : List Nat) (total : Nat) (d : Nat) (hd : ∀ acc, Keeps (P c.e0) (lensLoop E lens total d acc)) : ∀ (n : Nat) (acc : List Nat), Sm2 c (lensLoop E lens total n acc) (lensLoop E lens total (n + d) acc)
  | 0, acc => by
    rw [Nat.zero_add]
    exact ⟨fun _ _ _ h => (by cases h), hd acc, fun _ _ _ _ h => (by cases h), fun _ _ _ _ h => (by cases h)⟩
  | n + 1, acc => by
    rw [Nat.add_right_comm]
    unfold lensLoop
    split
    · refine Sm2.bind (sm_readSymbol _) fun y => ?_
      split
      · exact Sm2.bind (sm_corruptf _) fun _ => Sm.pure _
      · refine Sm2.bind (sm_decodeX _ _ _) fun y => ?_
        split
        · exact Sm.pure _
        · exact sm_lensLoop' lens total d hd n _
    · exact Sm.pure _

theorem sm_lensLoop (lens : List Nat) (total : Nat) (n m : Nat) (acc : List Nat) (hnm : n ≤ m) : Sm2 c (lensLoop E lens total n acc) (lensLoop E lens total m acc) := by
  have h0 : ∀ acc, Keeps (P c.e0) (lensLoop E lens total 0 acc) := fun _ _ _ _ h => by cases h
  have := sm_lensLoop' lens total (m - n) (fun acc => (sm_lensLoop' lens total 0 h0 (m - n) acc).keep) n acc
  rwa [show n + (m - n) = m by omega] at this

theorem sm_lensStart (lens : List Nat) (total : Nat) : Sm c (lensStart E lens total) :=
  Sm.fuel (F := fun n => lensLoop E lens total n []) (fun s => s.inp.bits + 1) (fun n m h => sm_lensLoop lens total n m [] h) fun _ hi hl => sw_bits hi hl

theorem sm_checkCounts (a b : Nat) : Sm c (checkCounts a b) := by
  unfold checkCounts
  split <;> split <;> first
    | exact Sm2.bind (sm_corruptf _) fun _ => sm_corruptf _
    | exact Sm2.bind (sm_corruptf _) fun _ => .pure _
    | exact sm_corruptf _
    | exact .pure _

theorem sm_trees (b : Bool) : Sm c (readDynamicTrees E b) := by
  unfold readDynamicTrees
  refine sm_needBits _ _ fun out => Sm2.bind (sm_checkCounts _ _) fun _ => Sm2.bind (sm_readCL _ _) fun x => ?_
  split
  · exact .pure _
  · refine .ite (Sm2.bind (sm_corruptf _) fun _ => .pure _) (Sm2.bind (sm_lensStart _ _) fun y => ?_)
    split
    · exact .pure _
    · exact .ite (Sm2.bind (sm_corruptf _) fun _ => .pure _) (.ite (Sm2.bind (sm_corruptf _) fun _ => .pure _) (Sm2.bind (sm_sendEvent _) fun _ => .pure _))

theorem sm_dynamic (b : Bool) : Sm c (readDynamic E b) := by
  unfold readDynamic
  refine (sm_trees b).bind fun x => ?_
  split
  · exact .pure _
  · exact sm_huff _ _

theorem sm_flateBlock : Sm c (readFlateBlock E) := by
  unfold readFlateBlock
  refine sm_needBits _ _ fun out => Sm2.bind (sm_sendEvent _) fun _ => Sm.bind ?_ fun _ => .ite (Sm2.bind (sm_sendEvent _) fun _ => .pure _) (.pure _)
  unfold readBlockOf
  split
  · exact sm_stored
  · exact sm_static _
  · exact sm_dynamic _
  · exact sm_fail _

theorem sm_blockLoop' (d : Nat) (hd : Keeps (P c.e0) (blockLoop E d)) : ∀ n, Sm2 c (blockLoop E n) (blockLoop E (n + d))
  | 0 => by
    rw [Nat.zero_add]
    exact ⟨fun _ _ _ h => (by cases h), hd, fun _ _ _ _ h => (by cases h), fun _ _ _ _ h => (by cases h)⟩
  | n + 1 => by
    rw [Nat.add_right_comm]
    unfold blockLoop
    refine Sm2.bind (sm_flateBlock) fun y => ?_
    split
    · exact sm_blockLoop' d hd n
    · exact Sm.pure _

theorem sm_blockLoop (n m : Nat) (h : n ≤ m) : Sm2 c (blockLoop E n) (blockLoop E m) :=
  more_fuel (fun _ _ _ h => by cases h) sm_blockLoop' n m h

theorem sm_readBlocks : Sm c (readBlocks E) :=
  Sm.fuel (fun s => s.inp.bits + 1) sm_blockLoop fun _ hi hl => sw_bits hi hl

theorem sm_headRest (hf : E.o.format ≠ .default) : Sm c (headRest E) := by
  unfold headRest
  refine Sm.bind (Sm.modify (fun _ => rfl) fun _ => ⟨rfl, rfl⟩) fun _ => Sm2.bind (sm_sendEvent _) fun _ => Sm.bind (Sm.modify (fun _ => rfl) fun _ => ⟨rfl, rfl⟩) fun _ => Sm.chk ?_ ?_
  · exact sm_readHeaderOf hf
  · exact Sm.read (fun s => s.header) (fun _ => rfl) (F := fun h => (do sendEvent (.streamHeader h); Pure.pure true : Go RState Bool)) fun v => Sm2.bind (sm_sendEvent _) fun _ => .pure _

theorem sm_bodyRest : Sm c (bodyRest E) := by
  unfold bodyRest
  exact Sm.bind (Sm.modify (fun _ => rfl) fun _ => ⟨rfl, rfl⟩) fun _ => sm_readBlocks.bind fun _ => Sm.bind (Sm.onOut fun o => must_first o) fun _ => sm_readFooter

end
end Flate.Proof.R.Pos
