/-
Calls on a Reader whose source does not return: C62.
-/
import Verif.Props.Conc

namespace Flate.Props
open Flate.Spec Flate.Model Flate.Model.Rd Flate.Model.Conc Flate.Proof Flate.Proof.R Flate.Proof.Cc

/-- the caller makes no call, or its call has not got hold of the first mutex yet -/
def Fresh : CPc → Prop
  | .idle | .rd0 _ | .cl0 | .rs0 _ | .gt0 => True
  | _ => False

/-- `s.cls[i]` is `Fresh` -/
def FreshAt (s : St) (i : Nat) : Prop := ∀ c, s.cls[i]? = some c → Fresh c

/-- anything but the goroutine, which is waiting for the source (or for a tracer) to return, and but calls of `UnderlyingReader`, which locks no mutex -/
def NotThread (l : Lab) : Prop := l ≠ .thread ∧ ∀ i, l ≠ .callUnder i

/-- any step of the one caller `i`, who may call `Read` -/
def OnlyReader (i n : Nat) (l : Lab) : Prop := l = .callRead i n ∨ l = .client i

theorem fresh_set {cls : List CPc} {i j : Nat} {c c' : CPc} (hc : cls[j]? = some c) (h : ∀ c, cls[i]? = some c → Fresh c) (hf : Fresh c → Fresh c') :
    ∀ d, (cls.set j c')[i]? = some d → Fresh d := by
  intro d hd
  rw [get_set hc] at hd
  split at hd
  · rename_i e; cases hd; subst e; exact hf (h _ hc)
  · exact h d hd

theorem fresh_wake {cls : List CPc} {i : Nat} (h : ∀ c, cls[i]? = some c → Fresh c) : ∀ d, (cls.map wakeC)[i]? = some d → Fresh d := by
  intro d hd
  simp only [List.getElem?_map, Option.map_eq_some_iff] at hd
  obtain ⟨a, ha, rfl⟩ := hd
  have := h a ha
  cases a <;> first | exact this.elim | exact trivial

theorem fresh_signal {cls cls' : List CPc} {i : Nat} (sg : Signal1 cls cls') (h : ∀ c, cls[i]? = some c → Fresh c) : ∀ d, cls'[i]? = some d → Fresh d := by
  cases sg with
  | nobody _ => exact h
  | one hj => exact fresh_set hj h (fun x => x.elim)

/-- one step while the goroutine is busy -/
theorem blocked_step {s s' : St} {l : Lab} {i : Nat} (inv : Inv s) (ht : s.th = .run) (hf : FreshAt s i) (h : Step s l s') (hl : NotThread l) :
    s'.th = .run ∧ FreshAt s' i ∧ ∃ new, s'.log = s.log ++ new ∧ ∀ x ∈ new, x.1 ≠ i := by
  have o1 : Own holds1 s.cls true s.mu1 := by have := inv.o1; unfold Own1 at this; rw [ht] at this; exact this
  have m1 : s.mu1 = some .thread := o1.t.2 rfl
  have ne : ∀ {j : Nat} {c : CPc}, s.cls[j]? = some c → ¬ Fresh c → j ≠ i := fun hc hn e => hn (hf _ (e ▸ hc))
  have wt : wakeT s.th = .run := by rw [ht]; rfl
  have none : ∃ new, s.log = s.log ++ new ∧ ∀ x ∈ new, x.1 ≠ i := ⟨[], by simp, by simp⟩
  have fin : ∀ {j n : Nat} {c : CPc}, s.cls[j]? = some c → ¬ Fresh c → Finish s j n s' →
      s'.th = .run ∧ FreshAt s' i ∧ ∃ new, s'.log = s.log ++ new ∧ ∀ x ∈ new, x.1 ≠ i := by
    intro j n c hc hn f
    have hj := ne hc hn
    cases f with
    | error _ => exact ⟨ht, fresh_set hc hf (fun x => (hn x).elim), _, rfl, by simpa using hj⟩
    | all _ _ => exact ⟨wt, fresh_set hc hf (fun x => (hn x).elim), _, rfl, by simpa using hj⟩
    | some _ _ _ sg => exact ⟨ht, fresh_signal sg (fresh_set hc hf (fun x => (hn x).elim)), _, rfl, by simpa using hj⟩
  cases h with
  | callRead n hc => exact ⟨ht, fresh_set hc hf (fun _ => trivial), none⟩
  | callClose hc => exact ⟨ht, fresh_set hc hf (fun _ => trivial), none⟩
  | callReset sc hc => exact ⟨ht, fresh_set hc hf (fun _ => trivial), none⟩
  | callUnder hc => exact (hl.2 _ rfl).elim
  | ur hc => exact ⟨ht, fresh_set hc hf (fun x => x.elim), _, rfl, by simpa using ne hc id⟩
  | callGet hc => exact ⟨ht, fresh_set hc hf (fun _ => trivial), none⟩
  | gt0 hc hm => rw [m1] at hm; cases hm
  | gt1 hc => exact (o1.ne hc rfl).elim
  | rd0 hc hm => rw [m1] at hm; cases hm
  | cl0 hc hm => rw [m1] at hm; cases hm
  | cl5 hc hm => rw [m1] at hm; cases hm
  | rs0 hc hm => rw [m1] at hm; cases hm
  | rd1 hc => exact (o1.ne hc rfl).elim
  | rd1go hc => exact (o1.ne hc rfl).elim
  | cl1ret hc => exact (o1.ne hc rfl).elim
  | cl1 hc => exact (o1.ne hc rfl).elim
  | cl3 hc => exact (o1.ne hc rfl).elim
  | cl6 hc => exact (o1.ne hc rfl).elim
  | rs1 hc => exact (o1.ne hc rfl).elim
  | rs2 hc => exact (o1.ne hc rfl).elim
  | rd2 hc => exact ⟨ht, fresh_set hc hf (fun x => x.elim), none⟩
  | rd3wait hc => exact ⟨wt, fresh_set hc hf (fun x => x.elim), none⟩
  | rd3 hc _ f => exact fin hc id f
  | rdWoken hc => exact ⟨ht, fresh_set hc hf (fun x => x.elim), none⟩
  | rd4wait hc => exact ⟨ht, fresh_set hc hf (fun x => x.elim), none⟩
  | rd4 hc _ f => exact fin hc id f
  | cl4 hc => exact ⟨ht, fresh_set hc hf (fun x => x.elim), none⟩
  | done => exact ⟨ht, hf, none⟩
  | _ => exact (hl.1 rfl).elim

/-- **C62 (the converse).** While the goroutine is decompressing, which includes waiting for the source to return, no call which is made then returns: not `Close`, not `Reset`, not `Format`, `MemoryLevel`, `WindowBits`, `Dict` or `Tracers`, and not `Read`,
whether or not there are data for it. -/
theorem C62_blocked {P : Lab → Prop} {cap n : Nat} {script : List Act} {s : St} {i : Nat} (hc : 0 < cap) (h : Reach P cap script n s) (ht : s.th = .run) (hf : FreshAt s i)
    {t : St} (hs : Steps NotThread s t) : ∃ new, t.log = s.log ++ new ∧ ∀ x ∈ new, x.1 ≠ i := by
  have i0 := reach_inv hc h
  have : Inv t ∧ t.th = .run ∧ FreshAt t i ∧ ∃ new, t.log = s.log ++ new ∧ ∀ x ∈ new, x.1 ≠ i := by
    induction hs with
    | refl => exact ⟨i0, ht, hf, [], by simp, by simp⟩
    | step _ h1 hl ih =>
      obtain ⟨a, b, c, new, d, e⟩ := ih
      obtain ⟨p, q, new', r, u⟩ := blocked_step a b c h1 hl
      exact ⟨a.step h1, p, q, new ++ new', by rw [r, d, List.append_assoc], fun x hx => (List.mem_append.1 hx).elim (e x) (u x)⟩
  exact this.2.2.2

/-- **C62 is false.**  There are data for a call of `Read`, one byte of the two which have been delivered, but no call returns until the source does. -/
theorem C62_fails : ∃ s, Reach ReadOnly 8 [.data [65, 66], .err .eof] 1 s ∧ s.log = [(0, .read [65] none)] ∧ s.buf = [66] ∧ s.outErr = none ∧
    ∀ t, Steps NotThread s t → t.log = s.log := by
  let ls : List Lab := [.callRead 0 1, .client 0, .client 0, .client 0, .client 0] ++ List.replicate 7 .thread ++ [.client 0, .client 0]
  have he : (execs (initial 8 [.data [65, 66], .err .eof] 1) ls).map (fun s => (s.log, s.buf, s.outErr.isNone, s.th, s.cls)) =
      some ([(0, .read [65] none)], [66], true, .run, [.idle]) := by decide +kernel
  obtain ⟨s, hs, hl⟩ := Option.map_eq_some_iff.1 he
  simp only [Prod.mk.injEq] at hl
  obtain ⟨l1, l2, l3, l4, l5⟩ := hl
  have hr : Reach ReadOnly 8 [.data [65, 66], .err .eof] 1 s := execs_ok hs (by decide)
  refine ⟨s, hr, l1, l2, by simpa using l3, fun t ht => ?_⟩
  have hall : ∀ i, FreshAt s i := by
    intro i c hi
    rw [l5] at hi
    rcases i with _ | i <;> simp at hi
    subst hi; trivial
  have hlen : ∀ {t : St}, Steps NotThread s t → ∀ x ∈ t.log.drop s.log.length, False := by
    intro t ht x hx
    obtain ⟨new, a, b⟩ := C62_blocked (by decide) hr l4 (hall x.1) ht
    rw [a, List.drop_left] at hx
    exact b x hx rfl
  obtain ⟨new, a, b⟩ := C62_blocked (by decide) hr l4 (hall 0) ht
  have := hlen ht
  rw [a, List.drop_left] at this
  cases new with
  | nil => simpa using a
  | cons x r => exact (this x (by simp)).elim

/-- the last part of `Read` -/
theorem finish_read {s : St} {i n : Nat} (hn : 0 < n) (hb : s.buf ≠ []) : ∃ t p, Finish s i n t ∧ t.log = s.log ++ [(i, .read p none)] ∧ p ≠ [] ∧ p <+: s.buf := by
  have hp : s.buf.take n ≠ [] := by
    cases h : s.buf with
    | nil => exact absurd h hb
    | cons a l => obtain ⟨m, rfl⟩ : ∃ m, n = m + 1 := ⟨n - 1, by omega⟩; simp
  have hr : Reads n s.buf (s.buf.take n) (s.buf.drop n) := ⟨(List.take_append_drop _ _).symm, by simp; omega, fun _ => hp⟩
  by_cases hx : s.buf.drop n = []
  · rw [hx] at hr
    exact ⟨_, _, .all hb hr, rfl, hp, List.take_prefix _ _⟩
  · obtain ⟨cs, hcs⟩ := signal_exists (s.cls.set i .idle)
    exact ⟨_, _, .some hb hr hx hcs, rfl, hp, List.take_prefix _ _⟩

/-- **C62 (what holds).** When there are data, and nobody holds a mutex (in particular: the goroutine waits until there is space, or it has ended), `Read` returns some of the data, without the
goroutine or anybody else doing anything. -/
theorem C62_partial {P : Lab → Prop} {cap m : Nat} {script : List Act} {s : St} {i n : Nat} (hc : 0 < cap) (h : Reach P cap script m s) (hi : s.cls[i]? = some .idle) (hn : 0 < n) (hb : s.buf ≠ [])
    (h1 : s.mu1 = none) (h2 : s.mu2 = none) :
    ∃ t p, Steps (OnlyReader i n) s t ∧ t.log = s.log ++ [(i, .read p none)] ∧ p ≠ [] ∧ p <+: s.buf := by
  have inv := reach_inv hc h
  have hlen : i < s.cls.length := (List.getElem?_eq_some_iff.1 hi).1
  have hget : ∀ (l : List CPc) (c : CPc), l.length = s.cls.length → (l.set i c)[i]? = some c := fun l c e => by simp [e, hlen]
  have tail : ∀ u : St, Steps (OnlyReader i n) s u → u.cls = ((s.cls.set i (.rd0 n)).set i (.rd1 n)).set i (.rd2 n) → u.buf = s.buf → u.mu2 = none → u.log = s.log →
      ∃ t p, Steps (OnlyReader i n) s t ∧ t.log = s.log ++ [(i, .read p none)] ∧ p ≠ [] ∧ p <+: s.buf := by
    intro u hu e1 e2 e3 e4
    have g1 : u.cls[i]? = some (.rd2 n) := by rw [e1]; exact hget _ _ (by simp)
    have s1 := hu.step (Step.rd2 g1 e3) (Or.inr rfl)
    obtain ⟨t, p, f1, f2, f3, f4⟩ := finish_read (s := { u.setC i (.rd3 n) with mu2 := some (.client i) }) (i := i) hn (by show u.buf ≠ []; rw [e2]; exact hb)
    refine ⟨t, p, s1.step (Step.rd3 (n := n) ?_ ?_ f1) (Or.inr rfl), ?_, f3, ?_⟩
    · exact hget _ _ (by rw [e1]; simp)
    · rintro ⟨_, x⟩; exact hb (e2 ▸ x)
    · rw [f2]; show u.log ++ _ = _; rw [e4]
    · rw [← e2]; exact f4
  have s1 : Steps (OnlyReader i n) s (s.setC i (.rd0 n)) := .step .refl (.callRead n hi) (Or.inl rfl)
  have s2 := s1.step (Step.rd0 (hget _ _ rfl) h1) (Or.inr rfl)
  cases hst : s.started with
  | true => exact tail _ (s2.step (Step.rd1 (n := n) (hget _ _ (by simp [St.setC])) hst) (Or.inr rfl)) rfl rfl h2 rfl
  | false => exact tail _ (s2.step (Step.rd1go (n := n) (hget _ _ (by simp [St.setC])) hst) (Or.inr rfl)) rfl rfl h2 rfl

/-- the hypotheses are met: the goroutine has delivered and ended -/
example : ∃ s, Reach ReadOnly 8 [.data [65, 66], .err .eof] 1 s ∧ s.cls[0]? = some .idle ∧ s.buf = [66] ∧ s.mu1 = none ∧ s.mu2 = none := by
  let ls : List Lab := [.callRead 0 1, .client 0, .client 0, .client 0, .client 0] ++ List.replicate 7 .thread ++ [.client 0, .client 0] ++ List.replicate 3 .thread
  have he : (execs (initial 8 [.data [65, 66], .err .eof] 1) ls).map (fun s => (s.cls[0]?, s.buf, s.mu1, s.mu2)) = some (some .idle, [66], none, none) := by decide +kernel
  obtain ⟨s, hs, hl⟩ := Option.map_eq_some_iff.1 he
  simp only [Prod.mk.injEq] at hl
  exact ⟨s, execs_ok hs (by decide), hl⟩

end Flate.Props
