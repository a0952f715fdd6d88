/-
C98: calls of a Reader from its own callbacks.
-/
import Verif.Props.Blocked

namespace Flate.Props
open Flate.Spec Flate.Model Flate.Model.Rd Flate.Model.Conc Flate.Proof Flate.Proof.R Flate.Proof.Cc

/-- What can happen from the state `s`, in which the goroutine has called a tracer or the underlying reader, and this callback acts as the caller `i`: the goroutine goes on only when `i` has no call under way. -/
inductive During (i : Nat) (s : St) : St → Prop
  | refl : During i s s
  | step {t u : St} {l : Lab} : During i s t → Step t l u → (l = .thread → t.cls[i]? = some .idle) → During i s u

/-- a call by `i` of `Read`, `Close`, `Reset`, `Format`, `MemoryLevel`, `WindowBits`, `Dict` or `Tracers` -/
inductive LocksFirst (i : Nat) : Lab → Prop
  | read (n : Nat) : LocksFirst i (.callRead i n)
  | close : LocksFirst i (.callClose i)
  | reset (script : List Act) : LocksFirst i (.callReset i script)
  | get : LocksFirst i (.callGet i)

/-- `i` has called one of these, and waits for the first mutex -/
def Stuck : CPc → Prop
  | .rd0 _ | .cl0 | .rs0 _ | .gt0 => True
  | _ => False

theorem stuck_step {s s' : St} {l : Lab} {i : Nat} {c : CPc} (inv : Inv s) (ht : s.th = .run) (hc : s.cls[i]? = some c) (hk : Stuck c) (h : Step s l s')
    (hl : l = .thread → s.cls[i]? = some .idle) :
    s'.th = .run ∧ s'.cls[i]? = some c ∧ ∃ new, s'.log = s.log ++ new ∧ ∀ x ∈ new, x.1 ≠ i := by
  have o1 : Own holds1 s.cls true s.mu1 := by have := inv.o1; unfold Own1 at this; rw [ht] at this; exact this
  have m1 : s.mu1 = some .thread := o1.t.2 rfl
  have ne : ∀ {j : Nat} {d : CPc}, s.cls[j]? = some d → ¬ Stuck d → j ≠ i := fun hd hn e => by subst e; rw [hc] at hd; cases hd; exact hn hk
  have keep : ∀ {j : Nat} {d d' : CPc}, s.cls[j]? = some d → ¬ Stuck d → (s.cls.set j d')[i]? = some c := fun hd hn => by rw [List.getElem?_set_ne (ne hd hn)]; exact hc
  have wk : ∀ {cs : List CPc}, cs[i]? = some c → (cs.map wakeC)[i]? = some c := fun h => by
    rw [List.getElem?_map, h]
    cases c <;> first | exact hk.elim | rfl
  have sig : ∀ {cs cs' : List CPc}, Signal1 cs cs' → cs[i]? = some c → cs'[i]? = some c := fun sg h => by
    cases sg with
    | nobody _ => exact h
    | one hj => rw [List.getElem?_set_ne]; exact h; rintro rfl; rw [h] at hj; cases hj; exact hk
  have wt : wakeT s.th = .run := by rw [ht]; rfl
  have none : ∃ new, s.log = s.log ++ new ∧ ∀ x ∈ new, x.1 ≠ i := ⟨[], by simp, by simp⟩
  have fin : ∀ {j n : Nat} {d : CPc}, s.cls[j]? = some d → ¬ Stuck d → Finish s j n s' →
      s'.th = .run ∧ s'.cls[i]? = some c ∧ ∃ new, s'.log = s.log ++ new ∧ ∀ x ∈ new, x.1 ≠ i := by
    intro j n d hd hn f
    have hj := ne hd hn
    cases f with
    | error _ => exact ⟨ht, keep hd hn, _, rfl, by simpa using hj⟩
    | all _ _ => exact ⟨wt, keep hd hn, _, rfl, by simpa using hj⟩
    | some _ _ _ sg => exact ⟨ht, sig sg (keep hd hn), _, rfl, by simpa using hj⟩
  have no : l ≠ .thread := fun e => by
    have := hl e
    rw [hc] at this
    cases this
    exact hk
  cases h with
  | callRead n hd => exact ⟨ht, keep hd id, none⟩
  | callClose hd => exact ⟨ht, keep hd id, none⟩
  | callReset sc hd => exact ⟨ht, keep hd id, none⟩
  | callUnder hd => exact ⟨ht, keep hd id, none⟩
  | ur hd => exact ⟨ht, keep hd id, _, rfl, by simpa using ne hd id⟩
  | callGet hd => exact ⟨ht, keep hd id, none⟩
  | gt0 hd hm => rw [m1] at hm; cases hm
  | gt1 hd => exact (o1.ne hd rfl).elim
  | rd0 hd hm => rw [m1] at hm; cases hm
  | cl0 hd hm => rw [m1] at hm; cases hm
  | cl5 hd hm => rw [m1] at hm; cases hm
  | rs0 hd hm => rw [m1] at hm; cases hm
  | rd1 hd => exact (o1.ne hd rfl).elim
  | rd1go hd => exact (o1.ne hd rfl).elim
  | cl1ret hd => exact (o1.ne hd rfl).elim
  | cl1 hd => exact (o1.ne hd rfl).elim
  | cl3 hd => exact (o1.ne hd rfl).elim
  | cl6 hd => exact (o1.ne hd rfl).elim
  | rs1 hd => exact (o1.ne hd rfl).elim
  | rs2 hd => exact (o1.ne hd rfl).elim
  | rd2 hd => exact ⟨ht, keep hd id, none⟩
  | rd3wait hd => exact ⟨wt, keep hd id, none⟩
  | rd3 hd _ f => exact fin hd id f
  | rdWoken hd => exact ⟨ht, keep hd id, none⟩
  | rd4wait hd => exact ⟨ht, keep hd id, none⟩
  | rd4 hd _ f => exact fin hd id f
  | cl4 hd => exact ⟨ht, keep hd id, none⟩
  | done => exact ⟨ht, hc, none⟩
  | _ => exact (no rfl).elim

/-- **C98 is false, for all methods but one.** Whatever has happened before: if a tracer or the underlying reader, called by the goroutine of a Reader (`s.th = .run`), calls `Read`, `Close`, `Reset` or one of `Format`, `MemoryLevel`, `WindowBits`,
`Dict`, `Tracers` of this Reader, this call never returns, whatever anybody else does, and the goroutine never goes on. -/
theorem C98_stuck {P : Lab → Prop} {cap n : Nat} {script : List Act} {s s' : St} {l : Lab} {i : Nat} (hc : 0 < cap) (h : Reach P cap script n s) (ht : s.th = .run) (hl : LocksFirst i l) (h1 : Step s l s')
    {t : St} (hs : During i s' t) : t.th = .run ∧ t.cls[i]? ≠ some .idle ∧ ∃ new, t.log = s.log ++ new ∧ ∀ x ∈ new, x.1 ≠ i := by
  have i0 := (reach_inv hc h).step h1
  have base : s'.th = .run ∧ s'.log = s.log ∧ ∃ c, s'.cls[i]? = some c ∧ Stuck c := by
    cases hl <;> cases h1 <;> rename_i hd <;>
      (refine ⟨ht, rfl, _, List.getElem?_set_self (List.getElem?_eq_some_iff.1 hd).1, ?_⟩; trivial)
  obtain ⟨b1, b2, c, b3, b4⟩ := base
  have : Inv t ∧ t.th = .run ∧ t.cls[i]? = some c ∧ ∃ new, t.log = s.log ++ new ∧ ∀ x ∈ new, x.1 ≠ i := by
    induction hs with
    | refl => exact ⟨i0, b1, b3, [], by simp [b2], by simp⟩
    | step _ h1 hl ih =>
      obtain ⟨a, b, d, new, e, f⟩ := ih
      obtain ⟨p, q, new', r, u⟩ := stuck_step a b d b4 h1 hl
      exact ⟨a.step h1, p, q, new ++ new', by rw [r, e, List.append_assoc], fun x hx => (List.mem_append.1 hx).elim (f x) (u x)⟩
  refine ⟨this.2.1, ?_, this.2.2.2⟩
  rw [this.2.2.1]
  intro e
  cases e
  exact b4

/-- **C98 (what holds).** `UnderlyingReader` may be called: it returns without anybody else doing anything, and the goroutine is where it was. -/
theorem C98_partial {s : St} {i : Nat} (hi : s.cls[i]? = some .idle) :
    ∃ t, Steps (fun l => l = .callUnder i ∨ l = .client i) s t ∧ t = { s with log := s.log ++ [(i, .got)] } := by
  have hlt := (List.getElem?_eq_some_iff.1 hi).1
  have s1 : Step s (.callUnder i) (s.setC i .ur) := .callUnder hi
  have s2 : Step (s.setC i .ur) (.client i) { (s.setC i .ur).setC i .idle with log := (s.setC i .ur).log ++ [(i, .got)] } :=
    .ur (by show (s.cls.set i _)[i]? = _; rw [List.getElem?_set_self hlt])
  refine ⟨_, .step (.step .refl s1 (.inl rfl)) s2 (.inr rfl), ?_⟩
  have e : (s.cls.set i .ur).set i .idle = s.cls := by
    rw [List.set_set]
    obtain ⟨_, h⟩ := List.getElem?_eq_some_iff.1 hi
    rw [← h, List.set_getElem_self]
  show ({ s with cls := (s.cls.set i .ur).set i .idle, log := s.log ++ [(i, .got)] } : St) = _
  rw [e]

/-- **C98 fails.** A Reader with one caller of `Read`, and a tracer (1): it asks for the format while the first call of `Read` waits for data; from then on nothing happens any more. -/
theorem C98_fails : ∃ s s', Reach ReadOnly 8 [.data [65, 66], .err .eof] 2 s ∧ s.th = .run ∧ s.cls[0]? = some (.rdWait 1) ∧ Step s (.callGet 1) s' ∧
    ∀ t, During 1 s' t → t = s' := by
  let ls : List Lab := [.callRead 0 1, .client 0, .client 0, .client 0, .client 0, .thread]
  have he : (execs (initial 8 [.data [65, 66], .err .eof] 2) ls).map (fun s => (s.th, s.cls, s.mu1, s.zomb)) =
      some (.run, [.rdWait 1, .idle], some .thread, 0) := by decide +kernel
  obtain ⟨s, hs, hl⟩ := Option.map_eq_some_iff.1 he
  simp only [Prod.mk.injEq] at hl
  obtain ⟨l1, l2, l3, l4⟩ := hl
  have hr : Reach ReadOnly 8 [.data [65, 66], .err .eof] 2 s := execs_ok hs (by decide)
  have st : Step s (.callGet 1) (s.setC 1 .gt0) := .callGet (by rw [l2]; rfl)
  refine ⟨s, _, hr, l1, by rw [l2]; rfl, st, fun t ht => ?_⟩
  have hm : (s.setC 1 .gt0).mu1 = some .thread := l3
  have hz : (s.setC 1 .gt0).zomb = 0 := l4
  have hcl : (s.setC 1 .gt0).cls = [.rdWait 1, .gt0] := by show s.cls.set 1 _ = _; rw [l2]; rfl
  generalize s.setC 1 .gt0 = u at ht hm hz hcl
  have key : ∀ {j : Nat} {c : CPc}, u.cls[j]? = some c → c = .rdWait 1 ∨ c = .gt0 := fun {j c} h => by
    rw [hcl] at h
    rcases j with _ | _ | j
    · cases h; exact .inl rfl
    · cases h; exact .inr rfl
    · cases h
  induction ht with
  | refl => rfl
  | step _ h1 hl ih =>
    subst ih
    have dead : ∀ {j : Nat} {c : CPc}, _ → c ≠ .rdWait 1 → c ≠ .gt0 → False := fun {j c} h h1 h2 => (key (j := j) (c := c) h).elim h1 h2
    cases h1 with
    | gt0 _ h => rw [hm] at h; cases h
    | done h => omega
    | callRead n hd => exact (dead hd (by intro x; cases x) (by intro x; cases x)).elim
    | callClose hd => exact (dead hd (by intro x; cases x) (by intro x; cases x)).elim
    | callReset sc hd => exact (dead hd (by intro x; cases x) (by intro x; cases x)).elim
    | callUnder hd => exact (dead hd (by intro x; cases x) (by intro x; cases x)).elim
    | ur hd => exact (dead hd (by intro x; cases x) (by intro x; cases x)).elim
    | callGet hd => exact (dead hd (by intro x; cases x) (by intro x; cases x)).elim
    | gt1 hd => exact (dead hd (by intro x; cases x) (by intro x; cases x)).elim
    | rd0 hd => exact (dead hd (by intro x; cases x) (by intro x; cases x)).elim
    | cl0 hd => exact (dead hd (by intro x; cases x) (by intro x; cases x)).elim
    | cl5 hd => exact (dead hd (by intro x; cases x) (by intro x; cases x)).elim
    | rs0 hd => exact (dead hd (by intro x; cases x) (by intro x; cases x)).elim
    | rd1 hd => exact (dead hd (by intro x; cases x) (by intro x; cases x)).elim
    | rd1go hd => exact (dead hd (by intro x; cases x) (by intro x; cases x)).elim
    | cl1ret hd => exact (dead hd (by intro x; cases x) (by intro x; cases x)).elim
    | cl1 hd => exact (dead hd (by intro x; cases x) (by intro x; cases x)).elim
    | cl3 hd => exact (dead hd (by intro x; cases x) (by intro x; cases x)).elim
    | cl6 hd => exact (dead hd (by intro x; cases x) (by intro x; cases x)).elim
    | rs1 hd => exact (dead hd (by intro x; cases x) (by intro x; cases x)).elim
    | rs2 hd => exact (dead hd (by intro x; cases x) (by intro x; cases x)).elim
    | rd2 hd => exact (dead hd (by intro x; cases x) (by intro x; cases x)).elim
    | rd3wait hd => exact (dead hd (by intro x; cases x) (by intro x; cases x)).elim
    | rd3 hd => exact (dead hd (by intro x; cases x) (by intro x; cases x)).elim
    | rdWoken hd => exact (dead hd (by intro x; cases x) (by intro x; cases x)).elim
    | rd4wait hd => exact (dead hd (by intro x; cases x) (by intro x; cases x)).elim
    | rd4 hd => exact (dead hd (by intro x; cases x) (by intro x; cases x)).elim
    | cl4 hd => exact (dead hd (by intro x; cases x) (by intro x; cases x)).elim
    | _ =>
      have := hl rfl
      rw [hcl] at this
      cases this

end Flate.Props
