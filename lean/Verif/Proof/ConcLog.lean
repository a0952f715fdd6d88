/-
What the calls return.
-/
import Verif.Proof.ConcExec

namespace Flate.Proof.Cc
open Flate.Model Flate.Model.Rd Flate.Model.Conc

theorem app_ne {α : Type} {l : List α} {x : α} (h : l = l ++ [x]) : False := by
  have := congrArg List.length h
  simp at this

theorem finish_log {s s' : St} {i n : Nat} (h : Finish s i n s') : ∃ x, s'.log = s.log ++ [x] := by
  cases h <;> exact ⟨_, rfl⟩

theorem step_log {s s' : St} {l : Lab} (h : Step s l s') : s'.log = s.log ∨ ∃ x, s'.log = s.log ++ [x] := by
  cases h with
  | rd3 _ _ f => exact Or.inr (finish_log f)
  | rd4 _ _ f => exact Or.inr (finish_log f)
  | cl1ret => exact Or.inr ⟨_, rfl⟩
  | cl6 => exact Or.inr ⟨_, rfl⟩
  | rs2 => exact Or.inr ⟨_, rfl⟩
  | gt1 => exact Or.inr ⟨_, rfl⟩
  | ur => exact Or.inr ⟨_, rfl⟩
  | _ => exact Or.inl rfl

theorem steps_log {P : Lab → Prop} {s t : St} (h : Steps P s t) : s.log <+: t.log := by
  induction h with
  | refl => exact List.prefix_refl _
  | step _ h _ ih =>
    rcases step_log h with e | ⟨x, e⟩
    · rw [e]; exact ih
    · rw [e]; exact ih.trans (List.prefix_append _ _)

/-- the moment at which something was returned -/
theorem log_split {P : Lab → Prop} {s t : St} (h : Steps P s t) {pre post : List (Nat × Res)} {x : Nat × Res} (e : t.log = pre ++ x :: post)
    (hl : s.log.length ≤ pre.length) :
    ∃ s0 l s1, Steps P s s0 ∧ Step s0 l s1 ∧ P l ∧ s0.log = pre ∧ s1.log = pre ++ [x] ∧ Steps P s1 t := by
  induction h generalizing post with
  | refl => rw [e] at hl; simp only [List.length_append, List.length_cons] at hl; omega
  | @step t u l h hs hP ih =>
    rcases step_log hs with e' | ⟨y, e'⟩
    · rw [e'] at e
      obtain ⟨s0, l', s1, a, b, c, d, f, g⟩ := ih e
      exact ⟨s0, l', s1, a, b, c, d, f, g.step hs hP⟩
    · rw [e'] at e
      rcases List.eq_nil_or_concat post with rfl | ⟨q, z, rfl⟩
      · obtain ⟨rfl, h2⟩ := List.append_inj' e rfl
        cases h2
        exact ⟨t, l, u, h, hs, hP, rfl, e', .refl⟩
      · have e2 : pre ++ x :: (q ++ [z]) = (pre ++ x :: q) ++ [z] := by simp
        rw [List.concat_eq_append, e2] at e
        obtain ⟨h1, h2⟩ := List.append_inj' e rfl
        obtain ⟨s0, l', s1, a, b, c, d, f, g⟩ := ih h1
        exact ⟨s0, l', s1, a, b, c, d, f, g.step hs hP⟩

/-- a `Read` returns -/
theorem read_entry {s s' : St} {l : Lab} {i : Nat} {p : List UInt8} {e : Option Err} (h : Step s l s') (hx : s'.log = s.log ++ [(i, .read p e)]) :
    (s'.outErr = s.outErr ∧ s'.forced = s.forced ∧ s'.stopped = s.stopped ∧ s'.started = s.started ∧ (s'.th = .absent ↔ s.th = .absent)) ∧
    (e = none ∧ s.buf ≠ [] ∧ s.buf = p ++ s'.buf ∨ ∃ x, e = some x ∧ p = [] ∧ s.buf = [] ∧ s.outErr = some x ∧ s'.buf = []) := by
  have fin : ∀ {j n : Nat}, ¬ (s.outErr = none ∧ s.buf = []) → Finish s j n s' →
    (s'.outErr = s.outErr ∧ s'.forced = s.forced ∧ s'.stopped = s.stopped ∧ s'.started = s.started ∧ (s'.th = .absent ↔ s.th = .absent)) ∧
    (e = none ∧ s.buf ≠ [] ∧ s.buf = p ++ s'.buf ∨ ∃ x, e = some x ∧ p = [] ∧ s.buf = [] ∧ s.outErr = some x ∧ s'.buf = []) := by
    intro j n m f
    cases f with
    | error hb =>
      simp only [List.append_cancel_left_eq, List.cons.injEq, Prod.mk.injEq, Res.read.injEq, and_true] at hx
      obtain ⟨_, rfl, rfl⟩ := hx
      refine ⟨⟨rfl, rfl, rfl, rfl, Iff.rfl⟩, Or.inr ?_⟩
      cases ho : s.outErr with
      | none => exact (m ⟨ho, hb⟩).elim
      | some x => exact ⟨x, rfl, rfl, hb, rfl, hb⟩
    | all hb hr =>
      simp only [List.append_cancel_left_eq, List.cons.injEq, Prod.mk.injEq, Res.read.injEq, and_true] at hx
      obtain ⟨_, rfl, rfl⟩ := hx
      exact ⟨⟨rfl, rfl, rfl, rfl, wakeT_absent _⟩, Or.inl ⟨rfl, hb, hr.1⟩⟩
    | some hb hr hn sg =>
      simp only [List.append_cancel_left_eq, List.cons.injEq, Prod.mk.injEq, Res.read.injEq, and_true] at hx
      obtain ⟨_, rfl, rfl⟩ := hx
      exact ⟨⟨rfl, rfl, rfl, rfl, Iff.rfl⟩, Or.inl ⟨rfl, hb, hr.1⟩⟩
  cases h with
  | rd3 _ m f => exact fin m f
  | rd4 _ m f => exact fin m f
  | cl1ret => simp at hx
  | cl6 => simp at hx
  | rs2 => simp at hx
  | gt1 => simp at hx
  | ur => simp at hx
  | _ => exact (app_ne hx).elim

/-- a `Close` returns -/
theorem close_entry {s s' : St} {l : Lab} {i : Nat} (h : Step s l s') (hx : s'.log = s.log ++ [(i, .closed)]) :
    s'.th = s.th ∧ s'.started = s.started ∧ s'.stopped = s.stopped ∧ s'.zomb = s.zomb ∧ s'.wg = s.wg ∧
      (s.cls[i]? = some .cl1 ∧ ¬ (s.started = true ∧ s.stopped = false) ∨ s.cls[i]? = some .cl6) := by
  have fin : ∀ {j n : Nat}, Finish s j n s' → False := by
    intro j n f
    cases f <;> simp at hx
  cases h with
  | rd3 _ m f => exact (fin f).elim
  | rd4 _ m f => exact (fin f).elim
  | cl1ret h m => simp at hx; subst hx; exact ⟨rfl, rfl, rfl, rfl, rfl, Or.inl ⟨h, m⟩⟩
  | cl6 h => simp at hx; subst hx; exact ⟨rfl, rfl, rfl, rfl, rfl, Or.inr h⟩
  | rs2 => simp at hx
  | gt1 => simp at hx
  | ur => simp at hx
  | _ => exact (app_ne hx).elim

/-- the source last given -/
theorem source_step {sc0 : List Act} {s s' : St} {l : Lab} (i : s.script = source sc0 s.log) (h : Step s l s') : s'.script = source sc0 s'.log := by
  have fin : ∀ {j n : Nat}, Finish s j n s' → s'.script = source sc0 s'.log := by
    intro j n f
    cases f <;> simpa [source, List.foldl_append, St.setC] using i
  cases h with
  | rd3 _ m f => exact fin f
  | rd4 _ m f => exact fin f
  | cl1ret h m => simpa [source, List.foldl_append, St.setC] using i
  | cl6 h => simpa [source, List.foldl_append, St.setC] using i
  | gt1 h => simpa [source, List.foldl_append, St.setC] using i
  | ur h => simpa [source, List.foldl_append, St.setC] using i
  | rs2 => simp [source, List.foldl_append]
  | _ => exact i

theorem reach_source {P : Lab → Prop} {cap n : Nat} {script : List Act} {s : St} (h : Reach P cap script n s) : s.script = source script s.log := by
  induction h with
  | refl => rfl
  | step _ h _ ih => exact source_step ih h

/-! ### Without `Reset`, some things are final -/

theorem mono_step {s s' : St} {l : Lab} (i : Inv s) (nr : NR s) (h : Step s l s') :
    (s.started = true → s'.started = true) ∧ (s.forced = true → s'.forced = true) ∧ (s.stopped = true → s'.stopped = true) ∧
    (s.stopped = true → s'.outErr = s.outErr ∧ s'.forced = s.forced ∧ (s.buf = [] → s'.buf = [])) ∧ (s.started = true → s.th = .absent → s'.th = .absent) := by
  have fin : ∀ {j n : Nat}, Finish s j n s' →
      (s.started = true → s'.started = true) ∧ (s.forced = true → s'.forced = true) ∧ (s.stopped = true → s'.stopped = true) ∧
      (s.stopped = true → s'.outErr = s.outErr ∧ s'.forced = s.forced ∧ (s.buf = [] → s'.buf = [])) ∧ (s.started = true → s.th = .absent → s'.th = .absent) := by
    intro j n f
    cases f with
    | error hb => exact ⟨id, id, id, fun _ => ⟨rfl, rfl, id⟩, fun _ => id⟩
    | all hb hr => exact ⟨id, id, id, fun _ => ⟨rfl, rfl, fun _ => rfl⟩, fun _ => (wakeT_absent _).2⟩
    | some hb hr hn sg => exact ⟨id, id, id, fun _ => ⟨rfl, rfl, fun x => (hb x).elim⟩, fun _ => id⟩
  have abs : s.th ≠ .absent → s.stopped = true → False := by
    intro h1 h2
    have := (i.flags.run.1 h1).2
    rw [h2] at this; cases this
  cases h with
  | rd3 _ m f => exact fin f
  | rd4 _ m f => exact fin f
  | rd1go h m => exact ⟨fun _ => rfl, id, id, fun _ => ⟨rfl, rfl, id⟩, fun x => by rw [m] at x; cases x⟩
  | rd3wait h m m' => exact ⟨id, id, id, fun _ => ⟨rfl, rfl, id⟩, fun _ => (wakeT_absent _).2⟩
  | cl3 h =>
    have := (i.cl3 _ h).2
    exact ⟨id, fun _ => rfl, id, fun x => absurd (x.symm.trans this) (by simp), fun _ => (wakeT_absent _).2⟩
  | rs0 h m => exact (nr _ _ h).elim
  | rs1 h m => exact (nr _ _ h).elim
  | rs2 h m => exact (nr _ _ h).elim
  | entry h => exact ⟨id, id, id, fun _ => ⟨rfl, rfl, id⟩, fun _ x => by rw [h] at x; cases x⟩
  | flush h => exact ⟨id, id, id, fun _ => ⟨rfl, rfl, id⟩, fun _ x => by rw [h] at x; cases x⟩
  | errLock h => exact ⟨id, id, id, fun _ => ⟨rfl, rfl, id⟩, fun _ x => by rw [h] at x; cases x⟩
  | errSet h => exact ⟨id, id, id, fun x => (abs (by rw [h]; simp) x).elim, fun _ x => by rw [h] at x; cases x⟩
  | exit h => exact ⟨id, id, fun _ => rfl, fun _ => ⟨rfl, rfl, id⟩, fun _ _ => rfl⟩
  | fl1 h => exact ⟨id, id, id, fun _ => ⟨rfl, rfl, id⟩, fun _ x => by rw [h] at x; cases x⟩
  | fl2wait h => exact ⟨id, id, id, fun _ => ⟨rfl, rfl, id⟩, fun _ x => by rw [h] at x; cases x⟩
  | fl2 h => exact ⟨id, id, id, fun _ => ⟨rfl, rfl, id⟩, fun _ x => by rw [h] at x; cases x⟩
  | flWoken h => exact ⟨id, id, id, fun _ => ⟨rfl, rfl, id⟩, fun _ x => by rw [h] at x; cases x⟩
  | fl3 h => exact ⟨id, id, id, fun _ => ⟨rfl, rfl, id⟩, fun _ x => by rw [h] at x; cases x⟩
  | fl4stop h => exact ⟨id, id, id, fun _ => ⟨rfl, rfl, id⟩, fun _ x => by rw [h] at x; cases x⟩
  | fl4 h => exact ⟨id, id, id, fun _ => ⟨rfl, rfl, id⟩, fun _ x => by rw [h] at x; cases x⟩
  | fl5end h => exact ⟨id, id, id, fun x => (abs (by rw [h]; simp) x).elim, fun _ x => by rw [h] at x; cases x⟩
  | fl5 h => exact ⟨id, id, id, fun x => (abs (by rw [h]; simp) x).elim, fun _ x => by rw [h] at x; cases x⟩
  | fl5full h => exact ⟨id, id, id, fun _ => ⟨rfl, rfl, id⟩, fun _ x => by rw [h] at x; cases x⟩
  | _ => exact ⟨id, id, id, fun _ => ⟨rfl, rfl, id⟩, fun _ => id⟩

/-- after `wg.Wait` -/
def Cl5 (s : St) : Prop := ∀ (i : Nat), s.cls[i]? = some CPc.cl5 ∨ s.cls[i]? = some CPc.cl6 → s.started = true ∧ s.stopped = true

theorem cl5_step {s s' : St} {l : Lab} (f : Cl5 s) (i : Inv s) (nr : NR s) (h : Step s l s') : Cl5 s' := by
  have mono := mono_step i nr h
  intro j hj
  have old : s.cls[j]? = some CPc.cl5 ∨ s.cls[j]? = some CPc.cl6 → s'.started = true ∧ s'.stopped = true := fun x =>
    ⟨mono.1 (f j x).1, mono.2.2.1 (f j x).2⟩
  have set : ∀ {i : Nat} {c : CPc}, c ≠ .cl5 → c ≠ .cl6 → (s.cls.set i c)[j]? = some CPc.cl5 ∨ (s.cls.set i c)[j]? = some CPc.cl6 →
      s'.started = true ∧ s'.stopped = true := by
    intro i c h1 h2 h
    rcases h with h | h
    · exact old (Or.inl (set_ne h h1).2)
    · exact old (Or.inr (set_ne h h2).2)
  have fin : ∀ {i n : Nat}, Finish s i n s' → s'.started = true ∧ s'.stopped = true := by
    intro i n hf
    cases hf with
    | error _ => exact set (by simp) (by simp) hj
    | all _ _ => exact set (by simp) (by simp) hj
    | some _ _ _ sg => exact set (i := i) (c := .idle) (by simp) (by simp) (hj.imp (fun h => signal_ne sg h (by simp)) (fun h => signal_ne sg h (by simp)))
  cases h with
  | rd3 _ m f => exact fin f
  | rd4 _ m f => exact fin f
  | @cl4 k h hw =>
    rcases hj with hj | hj
    · by_cases e : j = k
      · subst e
        have hs : s.started = true := by
          cases e : s.started with
          | true => rfl
          | false =>
            have h1 := (i.flags.fo (show s.forced = true from nr _ _ h)).1
            rw [(i.flags.ns e).2.2.1] at h1; cases h1
        refine ⟨hs, ?_⟩
        cases e : s.stopped with
        | true => exact e
        | false =>
          have h1 := i.flags.run.2 ⟨hs, e⟩
          have h2 := i.wg
          unfold Wg at h2
          cases ht : s.th with
          | absent => exact (h1 ht).elim
          | _ => rw [ht] at h2; simp only [alive] at h2; omega
      · have : s.cls[j]? = some CPc.cl5 := by
          have h' : (s.cls.set k .cl5)[j]? = some CPc.cl5 := hj
          rw [get_set h, if_neg e] at h'; exact h'
        exact old (Or.inl this)
    · exact old (Or.inr (set_ne hj (by simp)).2)
  | @cl5 k h m =>
    rcases hj with hj | hj
    · exact old (Or.inl (set_ne hj (by simp)).2)
    · by_cases e : j = k
      · subst e; exact old (Or.inl h)
      · have : s.cls[j]? = some CPc.cl6 := by
          have h' : (s.cls.set k .cl6)[j]? = some CPc.cl6 := hj
          rw [get_set h, if_neg e] at h'; exact h'
        exact old (Or.inr this)
  | callRead | callClose | callReset | rd0 | rd1 | rd1go | rd2 | rd3wait | rdWoken | rd4wait | cl0 | cl1ret | cl1 | cl6 | rs0 | rs1 | rs2 | callGet | callUnder | gt0 | gt1 | ur => exact set (by simp) (by simp) hj
  | @cl3 k h => exact set (i := k) (c := .cl4) (by simp) (by simp) (hj.imp (fun h => wake_ne h (by simp)) (fun h => wake_ne h (by simp)))
  | errSet h => exact old (hj.imp (fun h => wake_ne h (by simp)) (fun h => wake_ne h (by simp)))
  | fl5end _ _ sg => exact old (hj.imp (fun h => signal_ne sg h (by simp)) (fun h => signal_ne sg h (by simp)))
  | fl5 _ _ _ _ _ sg => exact old (hj.imp (fun h => signal_ne sg h (by simp)) (fun h => signal_ne sg h (by simp)))
  | _ => exact old hj

theorem cl5_initial (cap : Nat) (script : List Act) (n : Nat) : Cl5 (initial cap script n) := by
  intro i h
  rcases h with h | h
  · exact absurd (replicate_get h) (by simp)
  · exact absurd (replicate_get h) (by simp)

/-- everything known about a Reader which is never `Reset` -/
structure Good (script : List Act) (s : St) : Prop where
  inv : Inv s
  nr : NR s
  cl5 : Cl5 s
  sc : s.script = script

theorem Good.step {script : List Act} {s s' : St} {l : Lab} (g : Good script s) (h : Step s l s') (hl : NoReset l) : Good script s' :=
  ⟨g.inv.step h, nr_step g.nr h hl, cl5_step g.cl5 g.inv g.nr h, (script_step g.nr h).trans g.sc⟩

theorem Good.steps {P : Lab → Prop} {script : List Act} {s t : St} (g : Good script s) (hP : ∀ l, P l → NoReset l) (h : Steps P s t) : Good script t := by
  induction h with
  | refl => exact g
  | step _ h hl ih => exact ih.step h (hP _ hl)

theorem good {P : Lab → Prop} {cap n : Nat} {script : List Act} {s : St} (hc : 0 < cap) (hP : ∀ l, P l → NoReset l) (h : Reach P cap script n s) : Good script s :=
  Good.steps ⟨inv_initial hc script n, nr_initial cap script n, cl5_initial cap script n, rfl⟩ hP h

theorem readOnly_noReset : ∀ l, ReadOnly l → NoReset l := by
  intro l h; cases l <;> first | trivial | exact h.elim

/-- not in `Close` or `Reset` -/
def peaceful : CPc → Bool
  | .cl0 | .cl1 | .cl3 | .cl4 | .cl5 | .cl6 | .rs0 _ | .rs1 _ | .rs2 _ => false
  | _ => true

/-- without `Close`, nothing is forced -/
theorem unforced_step {s s' : St} {l : Lab} (u : s.forced = false ∧ ∀ (i : Nat) (c : CPc), s.cls[i]? = some c → peaceful c = true)
    (h : Step s l s') (hl : ReadOnly l) :
    s'.forced = false ∧ ∀ (i : Nat) (c : CPc), s'.cls[i]? = some c → peaceful c = true := by
  obtain ⟨u1, u2⟩ := u
  have set : ∀ {cls : List CPc} {i : Nat} {c' : CPc}, peaceful c' = true →
      (∀ (i : Nat) (c : CPc), cls[i]? = some c → peaceful c = true) →
      ∀ (j : Nat) (c : CPc), (cls.set i c')[j]? = some c → peaceful c = true := by
    intro cls i c' hc' hcls j c hj
    by_cases e : c' = c
    · exact e ▸ hc'
    · exact hcls j c (set_ne hj e).2
  have sig : ∀ {cs cs' : List CPc}, (∀ (i : Nat) (c : CPc), cs[i]? = some c → peaceful c = true) → Signal1 cs cs' →
      ∀ (j : Nat) (c : CPc), cs'[j]? = some c → peaceful c = true := by
    intro cs cs' hcs sg
    cases sg with
    | nobody _ => exact hcs
    | one hk => exact set rfl hcs
  have fin : ∀ {i n : Nat}, Finish s i n s' → s'.forced = false ∧ ∀ (i : Nat) (c : CPc), s'.cls[i]? = some c → peaceful c = true := by
    intro i n hf
    cases hf with
    | error _ => exact ⟨u1, set rfl u2⟩
    | all _ _ => exact ⟨u1, set rfl u2⟩
    | some _ _ _ sg => exact ⟨u1, sig (set (c' := .idle) rfl u2) sg⟩
  cases h with
  | callClose => exact hl.elim
  | callReset => exact hl.elim
  | rd3 _ m f => exact fin f
  | rd4 _ m f => exact fin f
  | callRead | callGet | callUnder | rd0 | rd1 | rd1go | rd2 | rd3wait | rdWoken | rd4wait | gt0 | gt1 | ur => exact ⟨u1, set rfl u2⟩
  | cl0 h | cl1ret h | cl1 h | cl3 h | cl4 h | cl5 h | cl6 h | rs0 h | rs1 h | rs2 h => cases u2 _ _ h
  | errSet h =>
    refine ⟨u1, fun j c hj => ?_⟩
    rw [List.getElem?_map] at hj
    cases hd : s.cls[j]? with
    | none => rw [hd] at hj; cases hj
    | some d =>
      rw [hd] at hj; cases hj
      have := u2 j d hd
      cases d <;> first | rfl | cases this
  | fl5end _ _ sg => exact ⟨u1, sig u2 sg⟩
  | fl5 _ _ _ _ _ sg => exact ⟨u1, sig u2 sg⟩
  | _ => exact ⟨u1, u2⟩

theorem unforced_reach {cap n : Nat} {script : List Act} {s : St} (h : Reach ReadOnly cap script n s) :
    s.forced = false ∧ ∀ (i : Nat) (c : CPc), s.cls[i]? = some c → peaceful c = true := by
  induction h with
  | refl => exact ⟨rfl, fun i c h => by rw [replicate_get h]; rfl⟩
  | step _ h hl ih => exact unforced_step ih h hl

theorem unforced {cap n : Nat} {script : List Act} {s : St} (h : Reach ReadOnly cap script n s) : s.forced = false := (unforced_reach h).1

theorem only_reads {cap n : Nat} {script : List Act} {s : St} (h : Reach ReadOnly cap script n s) : ∀ x ∈ s.log, ∃ j, x = (j, Res.got) ∨ ∃ p e, x = (j, Res.read p e) := by
  induction h with
  | refl => intro x hx; cases hx
  | @step t u l ht hs hl ih =>
    have u2 := (unforced_reach ht).2
    have fin : ∀ {j n : Nat}, Finish t j n u → ∀ x ∈ u.log, ∃ j, x = (j, Res.got) ∨ ∃ p e, x = (j, Res.read p e) := by
      intro j n f x hx
      cases f <;>
      · simp only [List.mem_append, List.mem_singleton] at hx
        rcases hx with hx | rfl
        · exact ih x hx
        · exact ⟨_, Or.inr ⟨_, _, rfl⟩⟩
    cases hs with
    | rd3 _ _ f => exact fin f
    | rd4 _ _ f => exact fin f
    | cl1ret h | cl6 h | rs2 h => cases u2 _ _ h
    | gt1 h | ur h =>
      intro x hx
      simp only [List.mem_append, List.mem_singleton] at hx
      rcases hx with hx | rfl
      · exact ih x hx
      · exact ⟨_, Or.inl rfl⟩
    | _ => exact ih

theorem got_append {a b : List (Nat × Res)} (h : ∀ x ∈ b, ∃ j, x = (j, Res.got) ∨ ∃ p e, x = (j, Res.read p e)) : got (a ++ b) = got a ++ got b := by
  have : ∀ (n : Nat) (b : List (Nat × Res)), b.length = n → (∀ x ∈ b, ∃ j, x = (j, Res.got) ∨ ∃ p e, x = (j, Res.read p e)) → got (a ++ b) = got a ++ got b := by
    intro n
    induction n with
    | zero => intro b hb _; rw [List.length_eq_zero_iff.1 hb]; simp [got]
    | succ n ih =>
      intro b hb h
      rcases List.eq_nil_or_concat b with rfl | ⟨c, x, rfl⟩
      · simp [got]
      · rw [List.concat_eq_append] at *
        have hc := ih c (by simpa using hb) (fun y hy => h y (by simp [hy]))
        obtain ⟨j, rfl | ⟨p, e, rfl⟩⟩ := h x (by simp)
        · rw [← List.append_assoc, got_got, got_got, hc]
        · rw [← List.append_assoc, got_read, got_read, hc, List.append_assoc]
  exact this _ b rfl h

theorem signal_len {cs cs' : List CPc} (h : Signal1 cs cs') : cs'.length = cs.length := by
  cases h <;> simp

theorem step_len {s s' : St} {l : Lab} (h : Step s l s') : s'.cls.length = s.cls.length := by
  have fin : ∀ {i n : Nat}, Finish s i n s' → s'.cls.length = s.cls.length := by
    intro i n f
    cases f with
    | some _ _ _ sg => simpa using signal_len sg
    | _ => simp [St.setC]
  cases h with
  | rd3 _ _ f => exact fin f
  | rd4 _ _ f => exact fin f
  | fl5end _ _ sg => exact signal_len sg
  | fl5 _ _ _ _ _ sg => exact signal_len sg
  | _ => simp [St.setC]

theorem reach_len {P : Lab → Prop} {cap n : Nat} {script : List Act} {s : St} (h : Reach P cap script n s) : s.cls.length = n := by
  induction h with
  | refl => simp [initial]
  | step _ h _ ih => exact (step_len h).trans ih

theorem reach_cap {P : Lab → Prop} {cap n : Nat} {script : List Act} {s : St} (h : Reach P cap script n s) : s.cap = cap := by
  induction h with
  | refl => rfl
  | step _ h _ ih => exact (step_cap h).trans ih

/-- without `Reset` there is only one goroutine -/
theorem wg_le {cap n : Nat} {script : List Act} {s : St} (h : Reach NoReset cap script n s) : (s.started = false → s.wg = 0) ∧ s.wg ≤ 1 := by
  have nr : ∀ {s : St}, Reach NoReset cap script n s → NR s := fun h => (nr_initial cap script n).steps (fun _ h => h) h
  induction h with
  | refl => exact ⟨fun _ => rfl, Nat.zero_le _⟩
  | @step t u l h hs hl ih =>
    obtain ⟨i1, i2⟩ := ih
    have fin : ∀ {i n : Nat}, Finish t i n u → (u.started = false → u.wg = 0) ∧ u.wg ≤ 1 := by
      intro i n f
      cases f <;> exact ⟨i1, i2⟩
    cases hs with
    | rd3 _ _ f => exact fin f
    | rd4 _ _ f => exact fin f
    | rd1go _ m => exact ⟨fun e => (by cases e), by have := i1 m; show t.wg + 1 ≤ 1; omega⟩
    | rs2 h' _ => exact (nr h _ _ h').elim
    | done h => exact ⟨fun e => (by have := i1 e; show t.wg - 1 = 0; omega), by show t.wg - 1 ≤ 1; omega⟩
    | _ => exact ⟨i1, i2⟩

theorem zomb_le {cap n : Nat} {script : List Act} {s : St} (hc : 0 < cap) (h : Reach NoReset cap script n s) : s.zomb ≤ 1 := by
  have := (wg_le h).2
  have h2 := (reach_inv hc h).wg
  unfold Wg at h2
  omega

/-- what happens does not depend on what was returned before -/
theorem step_forget {s s' : St} {l : Lab} (h : Step s l s') (x : List (Nat × Res)) :
    ∃ r, s'.log = s.log ++ r ∧ Step { s with log := x } l { s' with log := x ++ r } := by
  have fin : ∀ {i n : Nat}, Finish s i n s' → ∃ r, s'.log = s.log ++ r ∧ Finish { s with log := x } i n { s' with log := x ++ r } := by
    intro i n f
    cases f with
    | error hb => exact ⟨_, rfl, .error hb⟩
    | all hb hr => exact ⟨_, rfl, .all hb hr⟩
    | some hb hr hn sg => exact ⟨_, rfl, .some hb hr hn sg⟩
  cases h with
  | rd3 h m f => obtain ⟨r, e, f⟩ := fin f; exact ⟨r, e, .rd3 h m f⟩
  | rd4 h m f => obtain ⟨r, e, f⟩ := fin f; exact ⟨r, e, .rd4 h m f⟩
  | cl1ret h m => exact ⟨_, rfl, .cl1ret h m⟩
  | cl6 h => exact ⟨_, rfl, .cl6 h⟩
  | rs2 h m => exact ⟨_, rfl, .rs2 h m⟩
  | gt1 h => exact ⟨_, rfl, .gt1 h⟩
  | ur h => exact ⟨_, rfl, .ur h⟩
  | callRead n h => exact ⟨[], by simp [St.setC], by rw [List.append_nil]; exact .callRead n h⟩
  | callClose h => exact ⟨[], by simp [St.setC], by rw [List.append_nil]; exact .callClose h⟩
  | callReset sc h => exact ⟨[], by simp [St.setC], by rw [List.append_nil]; exact .callReset sc h⟩
  | callGet h => exact ⟨[], by simp [St.setC], by rw [List.append_nil]; exact .callGet h⟩
  | callUnder h => exact ⟨[], by simp [St.setC], by rw [List.append_nil]; exact .callUnder h⟩
  | gt0 h m => exact ⟨[], by simp [St.setC], by rw [List.append_nil]; exact .gt0 h m⟩
  | rd0 h m => exact ⟨[], by simp [St.setC], by rw [List.append_nil]; exact .rd0 h m⟩
  | rd1 h m => exact ⟨[], by simp [St.setC], by rw [List.append_nil]; exact .rd1 h m⟩
  | rd1go h m => exact ⟨[], by simp [St.setC], by rw [List.append_nil]; exact .rd1go h m⟩
  | rd2 h m => exact ⟨[], by simp [St.setC], by rw [List.append_nil]; exact .rd2 h m⟩
  | rd3wait h m m' => exact ⟨[], by simp [St.setC], by rw [List.append_nil]; exact .rd3wait h m m'⟩
  | rdWoken h m => exact ⟨[], by simp [St.setC], by rw [List.append_nil]; exact .rdWoken h m⟩
  | rd4wait h m m' => exact ⟨[], by simp [St.setC], by rw [List.append_nil]; exact .rd4wait h m m'⟩
  | cl0 h m => exact ⟨[], by simp [St.setC], by rw [List.append_nil]; exact .cl0 h m⟩
  | cl1 h a b c => exact ⟨[], by simp [St.setC], by rw [List.append_nil]; exact .cl1 h a b c⟩
  | cl3 h => exact ⟨[], by simp [St.setC], by rw [List.append_nil]; exact .cl3 h⟩
  | cl4 h m => exact ⟨[], by simp [St.setC], by rw [List.append_nil]; exact .cl4 h m⟩
  | cl5 h m => exact ⟨[], by simp [St.setC], by rw [List.append_nil]; exact .cl5 h m⟩
  | rs0 h m => exact ⟨[], by simp [St.setC], by rw [List.append_nil]; exact .rs0 h m⟩
  | rs1 h m => exact ⟨[], by simp [St.setC], by rw [List.append_nil]; exact .rs1 h m⟩
  | entry h m => exact ⟨[], by simp, by rw [List.append_nil]; exact .entry h m⟩
  | skip h a b => exact ⟨[], by simp, by rw [List.append_nil]; exact .skip h a b⟩
  | flush h a b c => exact ⟨[], by simp, by rw [List.append_nil]; exact .flush h a b c⟩
  | skipErr h a b => exact ⟨[], by simp, by rw [List.append_nil]; exact .skipErr h a b⟩
  | errLock h a b c => exact ⟨[], by simp, by rw [List.append_nil]; exact .errLock h a b c⟩
  | errSet h => exact ⟨[], by simp, by rw [List.append_nil]; exact .errSet h⟩
  | exit h a => exact ⟨[], by simp, by rw [List.append_nil]; exact .exit h a⟩
  | fl1 h a => exact ⟨[], by simp, by rw [List.append_nil]; exact .fl1 h a⟩
  | fl2wait h a => exact ⟨[], by simp, by rw [List.append_nil]; exact .fl2wait h a⟩
  | fl2 h a => exact ⟨[], by simp, by rw [List.append_nil]; exact .fl2 h a⟩
  | flWoken h a => exact ⟨[], by simp, by rw [List.append_nil]; exact .flWoken h a⟩
  | fl3 h a => exact ⟨[], by simp, by rw [List.append_nil]; exact .fl3 h a⟩
  | fl4stop h a => exact ⟨[], by simp, by rw [List.append_nil]; exact .fl4stop h a⟩
  | fl4 h a b => exact ⟨[], by simp, by rw [List.append_nil]; exact .fl4 h a b⟩
  | fl5end h a sg => exact ⟨[], by simp, by rw [List.append_nil]; exact .fl5end h a sg⟩
  | fl5 h a b c d sg => exact ⟨[], by simp, by rw [List.append_nil]; exact .fl5 h a b c d sg⟩
  | fl5full h a b => exact ⟨[], by simp, by rw [List.append_nil]; exact .fl5full h a b⟩
  | done h => exact ⟨[], by simp, by rw [List.append_nil]; exact .done h⟩

theorem steps_forget {P : Lab → Prop} {s t : St} (h : Steps P s t) (x : List (Nat × Res)) :
    ∃ r, t.log = s.log ++ r ∧ Steps P { s with log := x } { t with log := x ++ r } := by
  induction h with
  | refl => exact ⟨[], by simp, by rw [List.append_nil]; exact .refl⟩
  | step _ h hl ih =>
    obtain ⟨r, e, i⟩ := ih
    obtain ⟨r', e', h'⟩ := step_forget h (x ++ r)
    refine ⟨r ++ r', by rw [e', e, List.append_assoc], i.step ?_ hl⟩
    rw [← List.append_assoc]; exact h'

/-- a `Reset` which finds the goroutine running is blocked for ever -/
theorem reset_stuck {s s' : St} {l : Lab} {i : Nat} {sc : List Act} (iv : Inv s) (hc : s.cls[i]? = some (.rs2 sc)) (hr : s.started = true ∧ s.stopped = false)
    (h : Step s l s') : s'.cls[i]? = some (.rs2 sc) ∧ s'.started = true ∧ s'.stopped = false ∧
      (s'.log = s.log ∨ ∃ j, j ≠ i ∧ j < s.cls.length ∧ s'.log = s.log ++ [(j, .got)]) := by
  have own1 : ∀ {j : Nat} {c : CPc}, s.cls[j]? = some c → holds1 c = true → j = i := fun h e => iv.o1.same h e hc rfl
  have own2 : ∀ {j : Nat} {c : CPc}, s.cls[j]? = some c → holds2 c = true → j = i := fun h e => iv.o2.same h e hc rfl
  have t1 : th1 s.th = false := by
    cases e : th1 s.th with
    | false => rfl
    | true => have := iv.o1; unfold Own1 at this; rw [e] at this; exact (this.ne hc rfl).elim
  have t2 : th2 s.th = false := by
    cases e : th2 s.th with
    | false => rfl
    | true => have := iv.o2; unfold Own2 at this; rw [e] at this; exact (this.ne hc rfl).elim
  have set : ∀ {j : Nat} {c c' : CPc}, s.cls[j]? = some c → (∀ sc, c ≠ .rs2 sc) → (s.cls.set j c')[i]? = some (.rs2 sc) := by
    intro j c c' hj hne
    rw [get_set hj]
    by_cases e : i = j
    · subst e; rw [hc] at hj; cases hj; exact (hne sc rfl).elim
    · rw [if_neg e]; exact hc
  have bad1 : ∀ {j : Nat} {c : CPc}, s.cls[j]? = some c → holds1 c = true → (∀ sc, c ≠ .rs2 sc) → False := by
    intro j c hj e hne
    have := own1 hj e
    subst this
    rw [hc] at hj; cases hj; exact hne sc rfl
  have bad2 : ∀ {j : Nat} {c : CPc}, s.cls[j]? = some c → holds2 c = true → (∀ sc, c ≠ .rs2 sc) → False := by
    intro j c hj e hne
    have := own2 hj e
    subst this
    rw [hc] at hj; cases hj; exact hne sc rfl
  cases h with
  | callRead _ h | callClose h | callReset _ h | callGet h | callUnder h | rd0 h | rd2 h | rdWoken h | cl0 h | cl4 h | cl5 h | rs0 h | gt0 h =>
    exact ⟨set h (by simp), hr.1, hr.2, Or.inl rfl⟩
  | @ur j h =>
    refine ⟨set h (by simp), hr.1, hr.2, Or.inr ⟨j, fun e => ?_, (List.getElem?_eq_some_iff.1 h).1, rfl⟩⟩
    subst e; rw [hc] at h; cases h
  | rd1 h | rd1go h | cl1ret h | cl1 h | cl3 h | cl6 h | rs1 h | gt1 h => exact (bad1 h rfl (by simp)).elim
  | rd3wait h | rd3 h | rd4wait h | rd4 h => exact (bad2 h rfl (by simp)).elim
  | rs2 h m => exact (m hr).elim
  | errSet h | exit h | fl5end h | fl5 h | fl5full h => rw [h] at t1; cases t1
  | skip h | flush h | skipErr h | errLock h | fl4stop h | fl4 h => rw [h] at t1; cases t1
  | _ => exact ⟨hc, hr.1, hr.2, Or.inl rfl⟩

end Flate.Proof.Cc
