/-
Where a Reader's events fall among what its callers receive.
-/
import Verif.Model.Notify
import Verif.Proof.ConcRoom
import Verif.Proof.ConcExec

namespace Flate.Proof.Cc
open Flate.Model Flate.Model.Rd Flate.Model.Conc

/-- events are in order, and none falls within a piece -/
structure Placed (script : List Act) (events : List Event) : Prop where
  sorted : events.Pairwise fun a b => a.outTotal ≤ b.outTotal
  fit : ∀ e ∈ events, ∃ pre, pre <+: script ∧ e.outTotal = (actData pre).length

theorem acts_step {s t : St} {l : Lab} (nr : NR s) (h : Step s l t) : t.acts = s.acts ∨ ∃ a, s.acts = a :: t.acts ∧ l = .thread ∧ s.th = .run := by
  cases h with
  | rd3 _ _ f => cases f <;> exact Or.inl rfl
  | rd4 _ _ f => cases f <;> exact Or.inl rfl
  | rs2 h _ => exact (nr _ _ h).elim
  | skip h1 h2 _ => exact Or.inr ⟨_, h2, rfl, h1⟩
  | flush h1 h2 _ _ => exact Or.inr ⟨_, h2, rfl, h1⟩
  | skipErr h1 h2 _ => exact Or.inr ⟨_, h2, rfl, h1⟩
  | errLock h1 h2 _ _ => exact Or.inr ⟨_, h2, rfl, h1⟩
  | _ => exact Or.inl rfl

theorem total_step {s t : St} {l : Lab} (nr : NR s) (h : Step s l t) (hf : t.forced = false) :
    (got s.log).length + s.buf.length ≤ (got t.log).length + t.buf.length := by
  have fin : ∀ {i n : Nat}, Finish s i n t → (got s.log).length + s.buf.length ≤ (got t.log).length + t.buf.length := by
    intro i n f
    cases f with
    | error hb => simp [got_read, St.setC]
    | all hb hr => have := congrArg List.length hr.1; simp [got_read] at this ⊢; omega
    | some hb hr hn sg => have := congrArg List.length hr.1; simp [got_read] at this ⊢; omega
  cases h with
  | rd3 _ _ f => exact fin f
  | rd4 _ _ f => exact fin f
  | rs2 h _ => exact (nr _ _ h).elim
  | cl3 h => cases hf
  | cl1ret => simp [got_closed, St.setC]
  | cl6 => simp [got_closed, St.setC]
  | gt1 => simp [got_got, St.setC]
  | ur => simp [got_got, St.setC]
  | fl5end => simp
  | fl5 => simp
  | _ => exact Nat.le_refl _

/-- what has been begun includes what has been put in outputBuffer; it is all of it while the goroutine runs -/
theorem flushed_bounds {cap n : Nat} {script : List Act} {s : St} (hc : 0 < cap) (h : Reach NoReset cap script n s) (hf : s.forced = false) :
    (got s.log).length + s.buf.length ≤ flushed s ∧ (s.th = .run → flushed s = (got s.log).length + s.buf.length) := by
  obtain ⟨d, w, p⟩ := (reach_inv hc h).prog
  have hd := congrArg List.length (p.data hf)
  simp only [List.length_append] at hd
  have hsc := congrArg (fun x => (actData x).length) p.script
  simp only [actData_append, List.length_append] at hsc
  have hq := p.q
  unfold flushed
  constructor
  · cases ht : s.th with
    | absent | entry | run | errHeld _ =>
      rw [ht] at hq
      have := hq rfl; subst this
      simp only [List.length_nil] at hd
      omega
    | _ => rw [ht] at hsc; simp only [pend, actData, List.length_append] at hsc; omega
  · intro ht
    rw [ht] at hq hsc
    have := hq rfl; subst this
    simp only [pend, actData, List.length_nil] at hsc hd
    omega

/-- an event after `d` and not at its end comes after the next piece -/
theorem placed_next {d r pre : List Act} {a : Act} (h : pre <+: d ++ a :: r) (hlt : (actData d).length < (actData pre).length) :
    (actData (d ++ [a])).length ≤ (actData pre).length := by
  rcases Nat.lt_or_ge d.length pre.length with hl | hl
  · have h1 : d ++ [a] <+: pre := by
      refine List.prefix_of_prefix_length_le (l₃ := d ++ a :: r) ⟨r, by simp⟩ h (by simp; omega)
    obtain ⟨x, rfl⟩ := h1
    simp only [actData_append, List.length_append]; omega
  · have h1 : pre <+: d := List.prefix_of_prefix_length_le h ⟨_, rfl⟩ hl
    obtain ⟨x, rfl⟩ := h1
    simp only [actData_append, List.length_append] at hlt; omega

/-- before `Close` takes effect -/
structure EOpen (events : List Event) (s : ESt) : Prop where
  all : s.sent ++ s.todo = events
  later : ∀ e ∈ s.todo, flushed s.rd ≤ e.outTotal
  before : ∀ e ∈ s.sent, e.outTotal ≤ (got s.rd.log).length + s.rd.buf.length

structure EInv (cap : Nat) (script : List Act) (events : List Event) (n : Nat) (s : ESt) : Prop where
  rd : Reach NoReset cap script n s.rd
  opn : s.rd.forced = false → EOpen events s
  seen : ∀ e ∈ events, e.outTotal < (got s.rd.log).length → e ∈ s.sent

/-- after `Close`, no data are returned -/
theorem got_forced {s t : St} {l : Lab} (i : Inv s) (nr : NR s) (hf : s.forced = true) (h : Step s l t) : got t.log = got s.log := by
  have hb := (i.flags.fo hf).2
  have fin : ∀ {i n : Nat}, Finish s i n t → got t.log = got s.log := by
    intro i n f
    cases f with
    | error _ => simp [got_read]
    | all hn _ => exact (hn hb).elim
    | some hn _ _ _ => exact (hn hb).elim
  cases h with
  | rd3 _ _ f => exact fin f
  | rd4 _ _ f => exact fin f
  | rs2 h _ => exact (nr _ _ h).elim
  | cl1ret => simp [got_closed, St.setC]
  | cl6 => simp [got_closed, St.setC]
  | gt1 => simp [got_got, St.setC]
  | ur => simp [got_got, St.setC]
  | _ => rfl

/-- `Close` takes effect without returning anything -/
theorem got_forcing {s t : St} {l : Lab} (nr : NR s) (hf : s.forced = false) (hf' : t.forced = true) (h : Step s l t) : got t.log = got s.log := by
  have fin : ∀ {i n : Nat}, Finish s i n t → t.forced = s.forced := by
    intro i n f
    cases f <;> rfl
  cases h with
  | rd3 _ _ f => have := fin f; rw [hf, hf'] at this; cases this
  | rd4 _ _ f => have := fin f; rw [hf, hf'] at this; cases this
  | rs2 h _ => exact (nr _ _ h).elim
  | cl1ret => simp [got_closed, St.setC]
  | cl6 => simp [got_closed, St.setC]
  | gt1 => simp [got_got, St.setC]
  | ur => simp [got_got, St.setC]
  | _ => rfl

theorem EOpen.seen {cap n : Nat} {script : List Act} {events : List Event} {s : ESt} (hc : 0 < cap) (h : Reach NoReset cap script n s.rd) (hf : s.rd.forced = false) (o : EOpen events s) :
    ∀ e ∈ events, e.outTotal < (got s.rd.log).length → e ∈ s.sent := by
  intro e he hlt
  rw [← o.all] at he
  rcases List.mem_append.1 he with he | he
  · exact he
  · have := o.later e he
    have := (flushed_bounds hc h hf).1
    omega

theorem ereach_inv {cap n : Nat} {script : List Act} {events : List Event} (hc : 0 < cap) (hp : Placed script events) {s : ESt} (h : EReach cap script events n s) :
    EInv cap script events n s := by
  induction h with
  | refl => exact ⟨.refl, fun _ => ⟨rfl, fun e _ => by simp [flushed, initial], fun e he => by cases he⟩, fun e _ h => by simp [initial, got] at h⟩
  | @step s t l _ hs hl ih =>
    cases hs with
    | late e hf =>
      exact ⟨ih.rd, fun h => (by rw [hf] at h; cases h), fun x hx hlt => List.mem_append_left _ (ih.seen x hx hlt)⟩
    | @event e r hf h1 h2 h3 =>
      have io := ih.opn hf
      have hb := (flushed_bounds hc ih.rd hf).2 h1
      refine ⟨ih.rd, fun _ => ⟨by simpa [h2] using io.all, fun x hx => io.later x (by rw [h2]; exact List.mem_cons_of_mem _ hx), fun x hx => ?_⟩,
        fun x hx hlt => List.mem_append_left _ (ih.seen x hx hlt)⟩
      rcases List.mem_append.1 hx with hx | hx
      · exact io.before x hx
      · rw [List.mem_singleton] at hx; subst hx
        rw [h3, hb]
        exact Nat.le_refl _
    | @other l t' h1 h2 =>
      have hro : NoReset l := hl _ rfl
      have hr : Reach NoReset cap script n t' := .step ih.rd h1 hro
      have g := good hc (fun _ h => h) ih.rd
      have g' := good hc (fun _ h => h) hr
      cases hf : s.rd.forced with
      | true =>
        have hf' := (mono_step g.inv g.nr h1).2.1 hf
        exact ⟨hr, fun h => (by rw [show t'.forced = false from h] at hf'; cases hf'), by
          show ∀ e ∈ events, e.outTotal < (got t'.log).length → e ∈ s.sent
          rw [got_forced g.inv g.nr hf h1]; exact ih.seen⟩
      | false =>
      have io := ih.opn hf
      cases hf' : t'.forced with
      | true =>
        exact ⟨hr, fun h => (by rw [show t'.forced = false from h] at hf'; cases hf'), by
          show ∀ e ∈ events, e.outTotal < (got t'.log).length → e ∈ s.sent
          rw [got_forcing g.nr hf hf' h1]; exact ih.seen⟩
      | false =>
      have io' : EOpen events { s with rd := t' } := by
        refine ⟨io.all, ?_, fun e he => Nat.le_trans (io.before e he) (total_step g.nr h1 hf')⟩
        show ∀ e ∈ s.todo, flushed t' ≤ e.outTotal
        have hsc : t'.script = s.rd.script := g'.sc.trans g.sc.symm
        rcases acts_step g.nr h1 with ha | ⟨a, ha, rfl, hrun⟩
        · intro e he
          have := io.later e he
          unfold flushed at this ⊢
          rw [ha, hsc]; exact this
        · rcases h2 rfl hrun hf with hd | ⟨x, r, hx⟩
          · intro e he
            have hge := io.later e he
            have hgt : flushed s.rd < e.outTotal := by
              rcases Nat.lt_or_ge (flushed s.rd) e.outTotal with h | h
              · exact h
              · exfalso
                cases htd : s.todo with
                | nil => rw [htd] at he; cases he
                | cons e0 r0 =>
                  have h0 := io.later e0 (by rw [htd]; simp)
                  have hle : e0.outTotal ≤ e.outTotal := by
                    rw [htd] at he
                    have hpw := hp.sorted
                    rw [← io.all, htd] at hpw
                    rcases List.mem_cons.1 he with rfl | he
                    · exact Nat.le_refl _
                    · exact List.rel_of_pairwise_cons (List.pairwise_append.1 hpw).2.1 he
                  exact hd ⟨e0, r0, htd, by omega⟩
            obtain ⟨pre, p1, p2⟩ := hp.fit e (by rw [← io.all]; exact List.mem_append_right _ he)
            obtain ⟨d, w, p⟩ := g.inv.prog
            have hq := p.q
            have hps := p.script
            rw [hrun] at hq hps
            have hw := hq rfl
            subst hw
            simp only [pend, List.append_nil] at hps
            rw [ha] at hps
            rw [← g.sc, hps] at p1
            have e1 : (actData s.rd.script).length = (actData d).length + (actData (a :: t'.acts)).length := by rw [hps, actData_append, List.length_append]
            have e2 : (actData (a :: t'.acts)).length = (actData [a]).length + (actData t'.acts).length := by rw [← List.length_append, ← actData_append]; rfl
            have e3 : flushed s.rd = (actData d).length := by unfold flushed; rw [ha]; omega
            have := placed_next p1 (by omega)
            rw [actData_append, List.length_append] at this
            unfold flushed
            rw [hsc]
            omega
          · intro e he
            have := io.later e he
            unfold flushed at this ⊢
            rw [hsc]
            rw [hx] at ha this
            cases ha
            exact this
      exact ⟨hr, fun _ => io', io'.seen hc hr hf'⟩

/-! ### a scheduler -/

instance (s : ESt) : Decidable s.Due := match h : s.todo with
  | [] => isFalse (by rintro ⟨e, r, h', _⟩; rw [h] at h'; cases h')
  | e :: r => if h' : e.outTotal = flushed s.rd then isTrue ⟨e, r, h, h'⟩ else isFalse (by
      rintro ⟨e', r', h1, h2⟩
      rw [h] at h1; cases h1; exact h' h2)

/-- the goroutine sends its events as soon as it can -/
def eexec (s : ESt) : Option Lab → Option ESt
  | none => if s.rd.forced = false ∧ s.rd.th = .run then match s.todo with
      | e :: r => if e.outTotal = flushed s.rd then some { s with sent := s.sent ++ [e], todo := r } else none
      | [] => none
    else none
  | some l => if l = .thread ∧ s.rd.th = .run ∧ s.Due then none else (exec s.rd l).map fun t => { s with rd := t }

theorem eexec_ok {s t : ESt} {l : Option Lab} (h : eexec s l = some t) : EStep s l t := by
  cases l with
  | none =>
    simp only [eexec] at h
    split at h
    · rename_i hr
      split at h
      · rename_i e r ht
        split at h
        · cases h; exact .event hr.1 hr.2 ht ‹_›
        · cases h
      · cases h
    · cases h
  | some l =>
    simp only [eexec] at h
    split at h
    · cases h
    · rename_i hn
      obtain ⟨u, h1, rfl⟩ := Option.map_eq_some_iff.1 h
      exact .other (exec_ok h1) fun h2 h3 _ => Or.inl fun hd => hn ⟨h2, h3, hd⟩

/-- all events due, one at a time -/
def edrain : Nat → ESt → ESt
  | 0, s => s
  | k + 1, s => match eexec s none with
    | some t => edrain k t
    | none => s

def eexecs (s : ESt) : List (Option Lab) → Option ESt
  | [] => some s
  | l :: r => (eexec s l).bind (eexecs · r)

theorem eexecs_ok {cap n : Nat} {script : List Act} {events : List Event} : ∀ {ls : List (Option Lab)} {s t : ESt}, EReach cap script events n s → eexecs s ls = some t →
    (∀ l ∈ ls, ∀ x, l = some x → NoReset x) → EReach cap script events n t
  | [], s, t, h, e, _ => by cases e; exact h
  | l :: ls, s, t, h, e, hl => by
    simp only [eexecs, Option.bind_eq_some_iff] at e
    obtain ⟨u, h1, h2⟩ := e
    exact eexecs_ok (.step h (eexec_ok h1) (hl l (by simp))) h2 fun x hx => hl x (by simp [hx])

end Flate.Proof.Cc
