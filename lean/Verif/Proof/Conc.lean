/-
Invariants of the concurrent model.
-/
import Verif.Model.Conc

namespace Flate.Proof.Cc
open Flate.Model Flate.Model.Rd Flate.Model.Conc

/-! ### Who holds the mutexes -/

def holds1 : CPc → Bool
  | .rd1 _ | .cl1 | .cl3 | .cl6 | .rs1 _ | .rs2 _ | .gt1 => true
  | _ => false

def holds2 : CPc → Bool
  | .rd3 _ | .rd4 _ | .cl3 | .rs2 _ => true
  | _ => false

def th1 : TPc → Bool
  | .run | .errHeld _ | .fl4 _ | .fl5 _ => true
  | _ => false

def th2 : TPc → Bool
  | .errHeld _ | .fl2 _ | .fl5 _ => true
  | _ => false

structure Own (h : CPc → Bool) (cls : List CPc) (b : Bool) (mu : Option Who) : Prop where
  c : ∀ i : Nat, mu = some (.client i) ↔ ∃ c : CPc, cls[i]? = some c ∧ h c = true
  t : mu = some .thread ↔ b = true

section
variable {h : CPc → Bool} {cls cls' : List CPc} {b : Bool} {mu : Option Who} {i : Nat} {c c' : CPc}

theorem get_set (hc : cls[i]? = some c) (j : Nat) : (cls.set i c')[j]? = if j = i then some c' else cls[j]? := by
  have hi : i < cls.length := (List.getElem?_eq_some_iff.1 hc).1
  rw [List.getElem?_set]
  by_cases e : i = j
  · subst e; simp [hi]
  · rw [if_neg e, if_neg (fun h => e h.symm)]

theorem Own.set (o : Own h cls b mu) (hc : cls[i]? = some c) (e : h c' = h c) : Own h (cls.set i c') b mu := by
  refine ⟨fun j => ?_, o.t⟩
  rw [o.c j, get_set hc]
  by_cases ej : j = i
  · subst ej; simp [hc, e]
  · simp [ej]

theorem Own.take (o : Own h cls b none) (hc : cls[i]? = some c) (e : h c' = true) : Own h (cls.set i c') b (some (.client i)) := by
  refine ⟨fun j => ?_, ?_⟩
  · have := o.c j
    rw [get_set hc]
    by_cases ej : j = i
    · subst ej; simp [e]
    · simp only [reduceCtorEq, false_iff] at this
      simp only [Option.some.injEq, Who.client.injEq, Ne.symm (a := j) ej, if_neg ej, this]
  · have := o.t; simp_all

theorem Own.drop (o : Own h cls b mu) (hc : cls[i]? = some c) (e : h c = true) (e' : h c' = false) : Own h (cls.set i c') b none := by
  have hm : mu = some (.client i) := (o.c i).2 ⟨c, hc, e⟩
  subst hm
  refine ⟨fun j => ?_, ?_⟩
  · have := o.c j
    rw [get_set hc]
    by_cases ej : j = i
    · subst ej; simp [e']
    · simp only [Option.some.injEq, Who.client.injEq, Ne.symm (a := j) ej, false_iff] at this
      simp only [reduceCtorEq, if_neg ej, this]
  · have := o.t; simp_all

theorem Own.wake (o : Own h cls b mu) (e : ∀ c, h (wakeC c) = h c) : Own h (cls.map wakeC) b mu := by
  refine ⟨fun j => ?_, o.t⟩
  rw [o.c j, List.getElem?_map]
  cases hj : cls[j]? with
  | none => simp
  | some d => simp [e]

theorem Own.signal (o : Own h cls b mu) (s : Signal1 cls cls') (e : ∀ c, h (wakeC c) = h c) : Own h cls' b mu := by
  cases s with
  | nobody _ => exact o
  | @one j n hj => exact o.set hj (e (.rdWait n))

theorem Own.ttake (o : Own h cls b none) : Own h cls true (some .thread) := by
  refine ⟨fun j => ?_, by simp⟩
  have := o.c j
  simp only [reduceCtorEq, false_iff] at this
  simp only [Option.some.injEq, reduceCtorEq, this]

theorem Own.tdrop (o : Own h cls true mu) : Own h cls false none := by
  have hm : mu = some .thread := o.t.2 rfl
  subst hm
  refine ⟨fun j => ?_, by simp⟩
  have := o.c j
  simp only [Option.some.injEq, reduceCtorEq, false_iff] at this
  simp only [reduceCtorEq, this]

theorem Own.ne (o : Own h cls true mu) (hc : cls[i]? = some c) (e : h c = true) : False := by
  have h1 := (o.c i).2 ⟨c, hc, e⟩
  have h2 := o.t.2 rfl
  rw [h1] at h2; cases h2

theorem Own.same {j : Nat} (o : Own h cls b mu) (hc : cls[i]? = some c) (e : h c = true) (hc' : cls[j]? = some c') (e' : h c' = true) : i = j := by
  have h1 := (o.c i).2 ⟨c, hc, e⟩
  have h2 := (o.c j).2 ⟨c', hc', e'⟩
  rw [h1] at h2; cases h2; rfl

end

theorem wake1 (c : CPc) : holds1 (wakeC c) = holds1 c := by cases c <;> rfl
theorem wake2 (c : CPc) : holds2 (wakeC c) = holds2 c := by cases c <;> rfl
theorem wakeT1 (t : TPc) : th1 (wakeT t) = th1 t := by cases t <;> rfl
theorem wakeT2 (t : TPc) : th2 (wakeT t) = th2 t := by cases t <;> rfl

def Own1 (s : St) : Prop := Own holds1 s.cls (th1 s.th) s.mu1
def Own2 (s : St) : Prop := Own holds2 s.cls (th2 s.th) s.mu2

theorem own1_step {s s' : St} {l : Lab} (o : Own1 s) (h : Step s l s') (hr : s.started = false → s.th = .absent) : Own1 s' := by
  unfold Own1 at o ⊢
  cases h with
  | callRead n h => exact o.set h rfl
  | callClose h => exact o.set h rfl
  | callReset sc h => exact o.set h rfl
  | callGet h => exact o.set h rfl
  | callUnder h => exact o.set h rfl
  | rd0 h m => rw [m] at o; exact o.take h rfl
  | rd1 h m => exact o.drop h rfl rfl
  | rd1go h m => rw [hr m] at o; exact o.drop h rfl rfl
  | rd2 h m => exact o.set h rfl
  | rd3wait h m m' => simp only [wakeT1]; exact o.set h rfl
  | rd3 h m f =>
    cases f with
    | error _ => exact o.set h rfl
    | all _ _ => simp only [wakeT1]; exact o.set h rfl
    | some _ _ _ sg => exact (o.set (c' := .idle) h rfl).signal sg wake1
  | rdWoken h m => exact o.set h rfl
  | rd4wait h m m' => exact o.set h rfl
  | rd4 h m f =>
    cases f with
    | error _ => exact o.set h rfl
    | all _ _ => simp only [wakeT1]; exact o.set h rfl
    | some _ _ _ sg => exact (o.set (c' := .idle) h rfl).signal sg wake1
  | cl0 h m => rw [m] at o; exact o.take h rfl
  | cl1ret h m => exact o.drop h rfl rfl
  | cl1 h _ _ _ => exact o.set h rfl
  | cl3 h => simp only [wakeT1]; exact (o.drop h rfl rfl).wake wake1
  | cl4 h _ => exact o.set h rfl
  | cl5 h m => rw [m] at o; exact o.take h rfl
  | cl6 h => exact o.drop h rfl rfl
  | rs0 h m => rw [m] at o; exact o.take h rfl
  | rs1 h m => exact o.set h rfl
  | rs2 h m => exact o.drop h rfl rfl
  | gt0 h m => rw [m] at o; exact o.take h rfl
  | gt1 h => exact o.drop h rfl rfl
  | ur h => exact o.set h rfl
  | entry h m => rw [m] at o; exact o.ttake
  | skip h _ _ => exact o
  | flush h _ _ _ => rw [h] at o; exact o.tdrop
  | skipErr h _ _ => exact o
  | errLock h _ _ _ => rw [h] at o; exact o
  | errSet h => rw [h] at o; exact o.wake wake1
  | exit h _ => rw [h] at o; exact o.tdrop
  | fl1 h _ => rw [h] at o; exact o
  | fl2wait h _ => rw [h] at o; exact o
  | fl2 h _ => rw [h] at o; exact o
  | flWoken h _ => rw [h] at o; exact o
  | fl3 h m => rw [m] at o; exact o.ttake
  | fl4stop h _ => rw [h] at o; exact o
  | fl4 h _ _ => rw [h] at o; exact o
  | fl5end h _ sg => rw [h] at o; exact o.signal sg wake1
  | fl5 h _ _ _ _ sg => rw [h] at o; exact o.tdrop.signal sg wake1
  | fl5full h _ _ => rw [h] at o; exact o.tdrop
  | done _ => exact o

theorem own2_step {s s' : St} {l : Lab} (o : Own2 s) (h : Step s l s') (hr : s.started = false → s.th = .absent) : Own2 s' := by
  unfold Own2 at o ⊢
  cases h with
  | callRead n h => exact o.set h rfl
  | callClose h => exact o.set h rfl
  | callReset sc h => exact o.set h rfl
  | callGet h => exact o.set h rfl
  | callUnder h => exact o.set h rfl
  | rd0 h m => exact o.set h rfl
  | rd1 h m => exact o.set h rfl
  | rd1go h m => rw [hr m] at o; exact o.set h rfl
  | rd2 h m => rw [m] at o; exact o.take h rfl
  | rd3wait h m m' => simp only [wakeT2]; exact o.drop h rfl rfl
  | rd3 h m f =>
    cases f with
    | error _ => exact o.drop h rfl rfl
    | all _ _ => simp only [wakeT2]; exact o.drop h rfl rfl
    | some _ _ _ sg => exact (o.drop h rfl rfl).signal sg wake2
  | rdWoken h m => rw [m] at o; exact o.take h rfl
  | rd4wait h m m' => exact o.drop h rfl rfl
  | rd4 h m f =>
    cases f with
    | error _ => exact o.drop h rfl rfl
    | all _ _ => simp only [wakeT2]; exact o.drop h rfl rfl
    | some _ _ _ sg => exact (o.drop h rfl rfl).signal sg wake2
  | cl0 h m => exact o.set h rfl
  | cl1ret h m => exact o.set h rfl
  | cl1 h _ _ m => rw [m] at o; exact o.take h rfl
  | cl3 h => simp only [wakeT2]; exact (o.drop h rfl rfl).wake wake2
  | cl4 h _ => exact o.set h rfl
  | cl5 h m => exact o.set h rfl
  | cl6 h => exact o.set h rfl
  | rs0 h m => exact o.set h rfl
  | rs1 h m => rw [m] at o; exact o.take h rfl
  | rs2 h m => exact o.drop h rfl rfl
  | gt0 h m => exact o.set h rfl
  | gt1 h => exact o.set h rfl
  | ur h => exact o.set h rfl
  | entry h m => rw [h] at o; exact o
  | skip h _ _ => exact o
  | flush h _ _ _ => rw [h] at o; exact o
  | skipErr h _ _ => exact o
  | errLock h _ _ m => rw [m] at o; exact o.ttake
  | errSet h => rw [h] at o; exact o.tdrop.wake wake2
  | exit h _ => rw [h] at o; exact o
  | fl1 h m => rw [m] at o; exact o.ttake
  | fl2wait h _ => rw [h] at o; exact o.tdrop
  | fl2 h _ => rw [h] at o; exact o.tdrop
  | flWoken h m => rw [m] at o; exact o.ttake
  | fl3 h m => rw [h] at o; exact o
  | fl4stop h _ => rw [h] at o; exact o
  | fl4 h _ m => rw [m] at o; exact o.ttake
  | fl5end h _ sg => rw [h] at o; exact o.tdrop.signal sg wake2
  | fl5 h _ _ _ _ sg => rw [h] at o; exact o.tdrop.signal sg wake2
  | fl5full h _ _ => rw [h] at o; exact o.tdrop
  | done _ => exact o

/-! ### The flags -/

/-- a caller which is about to stop the goroutine -/
def Cl3 (s : St) : Prop := ∀ i : Nat, s.cls[i]? = some CPc.cl3 → s.started = true ∧ s.stopped = false

theorem set_ne {cls : List CPc} {i j : Nat} {c c' : CPc} (h : (cls.set i c)[j]? = some c') (e : c ≠ c') : j ≠ i ∧ cls[j]? = some c' := by
  rw [List.getElem?_set] at h
  split at h
  · split at h
    · cases h; exact (e rfl).elim
    · cases h
  · rename_i hn; exact ⟨fun x => hn x.symm, h⟩

theorem wake_ne {cls : List CPc} {j : Nat} {c' : CPc} (h : (cls.map wakeC)[j]? = some c') (e : ∀ n, c' ≠ .rdWoken n) : cls[j]? = some c' := by
  rw [List.getElem?_map] at h
  cases hj : cls[j]? with
  | none => rw [hj] at h; cases h
  | some d =>
    rw [hj] at h
    cases d <;> first | exact h | (cases h; exact (e _ rfl).elim)

theorem signal_ne {cls cls' : List CPc} (sg : Signal1 cls cls') {j : Nat} {c' : CPc} (h : cls'[j]? = some c') (e : ∀ n, c' ≠ .rdWoken n) :
    cls[j]? = some c' := by
  cases sg with
  | nobody _ => exact h
  | @one k n hk => exact (set_ne h (fun x => e n x.symm)).2

theorem cl3_step {s s' : St} {l : Lab} (f : Cl3 s) (o1 : Own1 s) (h : Step s l s') : Cl3 s' := by
  unfold Own1 at o1
  intro j hj
  have fin : ∀ {i n : Nat}, Finish s i n s' → s'.started = true ∧ s'.stopped = false := by
    intro i n hf
    cases hf with
    | error _ => exact f j (set_ne hj (by simp)).2
    | all _ _ => exact f j (set_ne hj (by simp)).2
    | some _ _ _ sg => exact f j (set_ne (signal_ne sg hj (by simp)) (by simp)).2
  cases h with
  | callRead n h => exact f j (set_ne hj (by simp)).2
  | callClose h => exact f j (set_ne hj (by simp)).2
  | callReset sc h => exact f j (set_ne hj (by simp)).2
  | callGet h => exact f j (set_ne hj (by simp)).2
  | callUnder h => exact f j (set_ne hj (by simp)).2
  | gt0 h m => exact f j (set_ne hj (by simp)).2
  | gt1 h => exact f j (set_ne hj (by simp)).2
  | ur h => exact f j (set_ne hj (by simp)).2
  | rd0 h m => exact f j (set_ne hj (by simp)).2
  | rd1 h m => exact f j (set_ne hj (by simp)).2
  | rd1go h m => exact ⟨rfl, (f j (set_ne hj (by simp)).2).2⟩
  | rd2 h m => exact f j (set_ne hj (by simp)).2
  | rd3wait h m m' => exact f j (set_ne hj (by simp)).2
  | rd3 h m f => exact fin f
  | rdWoken h m => exact f j (set_ne hj (by simp)).2
  | rd4wait h m m' => exact f j (set_ne hj (by simp)).2
  | rd4 h m f => exact fin f
  | cl0 h m => exact f j (set_ne hj (by simp)).2
  | cl1ret h m => exact f j (set_ne hj (by simp)).2
  | cl1 h a b _ => exact ⟨a, b⟩
  | cl3 h => exact f j (set_ne (wake_ne hj (by simp)) (by simp)).2
  | cl4 h _ => exact f j (set_ne hj (by simp)).2
  | cl5 h m => exact f j (set_ne hj (by simp)).2
  | cl6 h => exact f j (set_ne hj (by simp)).2
  | rs0 h m => exact f j (set_ne hj (by simp)).2
  | rs1 h m => exact f j (set_ne hj (by simp)).2
  | rs2 h m =>
    have := set_ne hj (by simp)
    exact (this.1 (o1.same this.2 rfl h rfl)).elim
  | entry h m => exact f j hj
  | skip h _ _ => exact f j hj
  | flush h _ _ _ => exact f j hj
  | skipErr h _ _ => exact f j hj
  | errLock h _ _ _ => exact f j hj
  | errSet h => exact f j (wake_ne hj (by simp))
  | exit h _ => rw [h] at o1; exact (o1.ne hj rfl).elim
  | fl1 h m => exact f j hj
  | fl2wait h _ => exact f j hj
  | fl2 h _ => exact f j hj
  | flWoken h m => exact f j hj
  | fl3 h m => exact f j hj
  | fl4stop h _ => exact f j hj
  | fl4 h _ m => exact f j hj
  | fl5end h _ sg => exact f j (signal_ne sg hj (by simp))
  | fl5 h _ _ _ _ sg => exact f j (signal_ne sg hj (by simp))
  | fl5full h _ _ => exact f j hj
  | done _ => exact f j hj

/-- flags, errors and the contents of outputBuffer -/
structure Flags (s : St) : Prop where
  ns : s.started = false → s.th = .absent ∧ s.stopped = false ∧ s.outErr = none ∧ s.buf = [] ∧ s.acts = s.script ∧ got s.log = []
  run : s.th ≠ .absent ↔ (s.started = true ∧ s.stopped = false)
  er : s.errSet = s.outErr.isSome
  eh : ∀ e, s.th = .errHeld e → s.outErr = none
  fo : s.forced = true → s.outErr = some .canceled ∧ s.buf = []
  f5 : ∀ p, s.th = .fl5 p → s.forced = false
  fw : ∀ p, s.th = .flWait p → s.buf ≠ []
  room : ∀ p, s.th = .fl3 p ∨ s.th = .fl4 p ∨ s.th = .fl5 p → s.buf.length < s.cap
  pne : ∀ p, s.th = .fl1 p ∨ s.th = .fl2 p ∨ s.th = .flWait p ∨ s.th = .flWoken p ∨ s.th = .fl3 p ∨ s.th = .fl4 p ∨ s.th = .fl5 p → p ≠ []
  fin : s.stopped = true → s.acts = []

theorem got_read (log : List (Nat × Res)) (i : Nat) (p : List UInt8) (e : Option Err) : got (log ++ [(i, .read p e)]) = got log ++ p := by
  simp [got, List.foldl_append]

theorem got_closed (log : List (Nat × Res)) (i : Nat) : got (log ++ [(i, .closed)]) = got log := by simp [got, List.foldl_append]

theorem got_got (log : List (Nat × Res)) (i : Nat) : got (log ++ [(i, .got)]) = got log := by simp [got, List.foldl_append]

theorem got_reset (log : List (Nat × Res)) (i : Nat) (sc : List Act) : got (log ++ [(i, .reset sc)]) = [] := by simp [got, List.foldl_append]

theorem wakeT_absent (t : TPc) : wakeT t = .absent ↔ t = .absent := by cases t <;> simp [wakeT]

theorem wakeT_cases (t : TPc) : wakeT t = t ∧ (∀ p, t ≠ .flWait p) ∨ ∃ p, t = .flWait p ∧ wakeT t = .flWoken p := by cases t <;> simp [wakeT]

theorem flags_finish {s s' : St} {i n : Nat} (f : Flags s) (m : ¬ (s.outErr = none ∧ s.buf = [])) (h : Finish s i n s')
    (k2 : th2 s.th = false) : Flags s' := by
  obtain ⟨ns, run, er, eh, fo, f5, fw, room, pne, fin⟩ := f
  have hs : s.started = true := by
    cases e : s.started with
    | true => rfl
    | false => exact (m ⟨(ns e).2.2.1, (ns e).2.2.2.1⟩).elim
  cases h with
  | error hb => refine ⟨fun e => ?_, run, er, eh, fo, f5, fw, room, pne, fin⟩; exact absurd (hs.symm.trans e) (by simp)
  | all hb hp =>
    rcases wakeT_cases s.th with ⟨e, hn⟩ | ⟨p, e, e'⟩
    · rw [e]
      refine ⟨fun e => ?_, run, er, eh, fun x => ⟨(fo x).1, rfl⟩, f5, fun p hp => (hn p hp).elim, fun p hp => ?_, pne, fin⟩
      · exact absurd (hs.symm.trans e) (by simp)
      · exact Nat.lt_of_le_of_lt (Nat.zero_le _) (room p hp)
    · rw [e']
      constructor <;> simp_all [St.setC]
  | some hb hr hn sg =>
    refine ⟨fun e => ?_, run, er, eh, fun x => ?_, f5, fun p hp => hn, fun p hp => ?_, pne, fin⟩
    · exact absurd (hs.symm.trans e) (by simp)
    · exact (hb (fo x).2).elim
    · have := room p hp
      rw [hr.1, List.length_append] at this
      show _ < s.cap
      exact Nat.lt_of_le_of_lt (Nat.le_add_left _ _) this

theorem flags_step {s s' : St} {l : Lab} (f : Flags s) (o1 : Own1 s) (o2 : Own2 s) (cs : Cl3 s) (hcap : 0 < s.cap) (h : Step s l s') :
    Flags s' := by
  obtain ⟨ns, run, er, eh, fo, f5, fw, room, pne, fin⟩ := f
  unfold Own1 at o1
  unfold Own2 at o2
  have key1 : ∀ {i : Nat} {c : CPc}, s.cls[i]? = some c → holds1 c = true → th1 s.th = false := by
    intro i c hc e
    cases ht : th1 s.th with
    | false => rfl
    | true => rw [ht] at o1; exact (o1.ne hc e).elim
  have key2 : ∀ {i : Nat} {c : CPc}, s.cls[i]? = some c → holds2 c = true → th2 s.th = false := by
    intro i c hc e
    cases ht : th2 s.th with
    | false => rfl
    | true => rw [ht] at o2; exact (o2.ne hc e).elim
  cases h with
  | callRead n h => exact ⟨ns, run, er, eh, fo, f5, fw, room, pne, fin⟩
  | callClose h => exact ⟨ns, run, er, eh, fo, f5, fw, room, pne, fin⟩
  | callReset sc h => exact ⟨ns, run, er, eh, fo, f5, fw, room, pne, fin⟩
  | callGet h => exact ⟨ns, run, er, eh, fo, f5, fw, room, pne, fin⟩
  | callUnder h => exact ⟨ns, run, er, eh, fo, f5, fw, room, pne, fin⟩
  | gt0 h m => exact ⟨ns, run, er, eh, fo, f5, fw, room, pne, fin⟩
  | gt1 h => exact ⟨by simpa [St.setC, got_got] using ns, run, er, eh, fo, f5, fw, room, pne, fin⟩
  | ur h => exact ⟨by simpa [St.setC, got_got] using ns, run, er, eh, fo, f5, fw, room, pne, fin⟩
  | rd0 h m => exact ⟨ns, run, er, eh, fo, f5, fw, room, pne, fin⟩
  | rd1 h m => exact ⟨ns, run, er, eh, fo, f5, fw, room, pne, fin⟩
  | rd1go h m =>
    obtain ⟨n1, n2, n3, n4, n5, n6⟩ := ns m
    constructor <;> simp_all [St.setC]
  | rd2 h m => exact ⟨ns, run, er, eh, fo, f5, fw, room, pne, fin⟩
  | rd3wait h m m' => 
    rcases wakeT_cases s.th with ⟨e, _⟩ | ⟨p, e, _⟩
    · rw [e]; exact ⟨ns, run, er, eh, fo, f5, fw, room, pne, fin⟩
    · exact (fw _ e m').elim
  | rd3 h m f => exact flags_finish ⟨ns, run, er, eh, fo, f5, fw, room, pne, fin⟩ m f (key2 h rfl)
  | rdWoken h m => exact ⟨ns, run, er, eh, fo, f5, fw, room, pne, fin⟩
  | rd4wait h m m' => exact ⟨ns, run, er, eh, fo, f5, fw, room, pne, fin⟩
  | rd4 h m f => exact flags_finish ⟨ns, run, er, eh, fo, f5, fw, room, pne, fin⟩ m f (key2 h rfl)
  | cl0 h m => exact ⟨ns, run, er, eh, fo, f5, fw, room, pne, fin⟩
  | cl1ret h m => exact ⟨by simpa [St.setC, got_closed] using ns, run, er, eh, fo, f5, fw, room, pne, fin⟩
  | cl1 h _ _ _ => exact ⟨ns, run, er, eh, fo, f5, fw, room, pne, fin⟩
  | cl3 h =>
    have k1 := key1 h rfl
    have k2 := key2 h rfl
    obtain ⟨hs, hs'⟩ := cs _ h
    rcases wakeT_cases s.th with ⟨e, hn⟩ | ⟨p, e, e'⟩
    · rw [e]
      refine ⟨fun x => ?_, run, rfl, fun e he => ?_, fun _ => ⟨rfl, rfl⟩, fun p hp => ?_, fun p hp => (hn p hp).elim, fun p hp => ?_, pne, fin⟩
      · exact absurd (hs.symm.trans x) (by simp)
      · have he' : s.th = _ := he
        rw [he'] at k1; cases k1
      · have he' : s.th = _ := hp
        rw [he'] at k1; cases k1
      · exact hcap
    · rw [e']
      have := pne p
      constructor <;> simp_all
  | cl4 h _ => exact ⟨ns, run, er, eh, fo, f5, fw, room, pne, fin⟩
  | cl5 h m => exact ⟨ns, run, er, eh, fo, f5, fw, room, pne, fin⟩
  | cl6 h => exact ⟨by simpa [St.setC, got_closed] using ns, run, er, eh, fo, f5, fw, room, pne, fin⟩
  | rs0 h m => exact ⟨ns, run, er, eh, fo, f5, fw, room, pne, fin⟩
  | rs1 h m => exact ⟨ns, run, er, eh, fo, f5, fw, room, pne, fin⟩
  | rs2 h m => 
    have ht : s.th = .absent := by
      cases ht : s.th with
      | absent => rfl
      | _ => exact (m (run.1 (by rw [ht]; simp))).elim
    constructor <;> simp [St.setC, got_reset, ht]
  | entry h m => constructor <;> simp_all
  | skip h _ _ => constructor <;> simp_all
  | flush h _ _ _ => constructor <;> simp_all
  | skipErr h _ _ => constructor <;> simp_all
  | errLock h _ _ _ => constructor <;> simp_all
  | errSet h => constructor <;> simp_all
  | exit h _ => constructor <;> simp_all
  | fl1 h m => constructor <;> simp_all
  | fl2wait h hf => 
    have : s.buf ≠ [] := by intro e; rw [e] at hf; simp at hf; omega
    constructor <;> simp_all
  | fl2 h _ => constructor <;> simp_all
  | flWoken h m => constructor <;> simp_all
  | fl3 h m => constructor <;> simp_all
  | fl4stop h _ => constructor <;> simp_all
  | fl4 h _ m => constructor <;> simp_all
  | fl5end h _ sg => constructor <;> simp_all
  | fl5 h _ _ _ _ sg => constructor <;> simp_all
  | fl5full h _ _ => constructor <;> simp_all
  | done _ => exact ⟨ns, run, er, eh, fo, f5, fw, room, pne, fin⟩

/-! ### The wait group -/

def alive : TPc → Nat
  | .absent => 0
  | _ => 1

def Wg (s : St) : Prop := s.wg = s.zomb + alive s.th

theorem alive_wake (t : TPc) : alive (wakeT t) = alive t := by cases t <;> rfl

theorem wg_step {s s' : St} {l : Lab} (w : Wg s) (f : Flags s) (h : Step s l s') : Wg s' := by
  unfold Wg at w ⊢
  have fin : ∀ {i n : Nat}, Finish s i n s' → s'.wg = s'.zomb + alive s'.th := by
    intro i n hf
    cases hf with
    | error _ => exact w
    | all _ _ => simp only [alive_wake]; exact w
    | some _ _ _ sg => exact w
  cases h with
  | rd3 _ _ hf => exact fin hf
  | rd4 _ _ hf => exact fin hf
  | rd1go h m => simp only [(f.ns m).1, alive, St.setC] at w ⊢; omega
  | rd3wait => simp only [alive_wake]; exact w
  | cl3 => simp only [alive_wake]; exact w
  | exit h => simp only [h, alive] at w ⊢; omega
  | done h => simp only at w ⊢; omega
  | _ => first | exact w | simp_all [alive]

/-! ### Waiting callers -/

/-- nobody waits for what has already happened -/
structure Waits (s : St) : Prop where
  err : s.outErr.isSome = true → ∀ j n : Nat, s.cls[j]? ≠ some (CPc.rdWait n)
  data : s.buf ≠ [] → ∀ j n : Nat, s.cls[j]? = some (CPc.rdWait n) → ∃ k m : Nat, s.cls[k]? = some (CPc.rdWoken m) ∨ s.cls[k]? = some (CPc.rd4 m)

/-- the two kinds of caller which `Waits` is about -/
def wkind : CPc → Nat
  | .rdWait _ => 1
  | .rdWoken _ | .rd4 _ => 2
  | _ => 0

theorem wkind1 {c : CPc} : wkind c = 1 ↔ ∃ n, c = .rdWait n := by cases c <;> simp [wkind]
theorem wkind2 {c : CPc} : wkind c = 2 ↔ ∃ n, c = .rdWoken n ∨ c = .rd4 n := by cases c <;> simp [wkind]

theorem waits_iff (s : St) : Waits s ↔ (s.outErr.isSome = true → ∀ (j : Nat) (c : CPc), s.cls[j]? = some c → wkind c ≠ 1) ∧
    (s.buf ≠ [] → ∀ (j : Nat) (c : CPc), s.cls[j]? = some c → wkind c = 1 → ∃ (k : Nat) (d : CPc), s.cls[k]? = some d ∧ wkind d = 2) := by
  constructor
  · rintro ⟨h1, h2⟩
    refine ⟨fun e j c hj hc => ?_, fun e j c hj hc => ?_⟩
    · obtain ⟨n, rfl⟩ := wkind1.1 hc
      exact h1 e j n hj
    · obtain ⟨n, rfl⟩ := wkind1.1 hc
      obtain ⟨k, m, hk | hk⟩ := h2 e j n hj
      · exact ⟨k, _, hk, rfl⟩
      · exact ⟨k, _, hk, rfl⟩
  · rintro ⟨h1, h2⟩
    refine ⟨fun e j n hj => h1 e j _ hj rfl, fun e j n hj => ?_⟩
    obtain ⟨k, d, hk, hd⟩ := h2 e j _ hj rfl
    obtain ⟨m, rfl | rfl⟩ := wkind2.1 hd
    · exact ⟨k, m, Or.inl hk⟩
    · exact ⟨k, m, Or.inr hk⟩

/-- a caller moves, and is of the same kind as before or, if it was of kind 0, does not begin to wait -/
theorem waits_set {s s' : St} (w : Waits s) {i : Nat} {c c' : CPc} (hc : s.cls[i]? = some c) (e : s'.cls = s.cls.set i c')
    (e1 : s'.outErr = s.outErr) (e2 : s'.buf = s.buf) (hk : wkind c' = wkind c) : Waits s' := by
  rw [waits_iff] at w ⊢
  obtain ⟨h1, h2⟩ := w
  rw [e, e1, e2]
  have pos : ∀ {k : Nat} {d : CPc}, (s.cls.set i c')[k]? = some d → ∃ d', s.cls[k]? = some d' ∧ wkind d' = wkind d := by
    intro k d h
    rw [get_set hc] at h
    split at h
    · rename_i ek; subst ek; cases h; exact ⟨c, hc, hk.symm⟩
    · exact ⟨d, h, rfl⟩
  have neg : ∀ {k : Nat} {d : CPc}, s.cls[k]? = some d → ∃ d', (s.cls.set i c')[k]? = some d' ∧ wkind d' = wkind d := by
    intro k d h
    by_cases ek : k = i
    · subst ek; rw [hc] at h; cases h
      exact ⟨c', by rw [get_set hc, if_pos rfl], hk⟩
    · exact ⟨d, by rw [get_set hc, if_neg ek]; exact h, rfl⟩
  refine ⟨fun x j d hj hd => ?_, fun x j d hj hd => ?_⟩
  · obtain ⟨d', hd', e'⟩ := pos hj
    exact h1 x j d' hd' (e'.trans hd)
  · obtain ⟨d', hd', e'⟩ := pos hj
    obtain ⟨k, d2, hk2, e2⟩ := h2 x j d' hd' (e'.trans hd)
    obtain ⟨d3, hd3, e3⟩ := neg hk2
    exact ⟨k, d3, hd3, e3.trans e2⟩

theorem waits_empty {s : St} (h1 : s.outErr = none) (h2 : s.buf = []) : Waits s :=
  ⟨fun e => (by rw [h1] at e; cases e), fun e => (e h2).elim⟩

theorem waits_noerr {s : St} {cs : List CPc} (h1 : s.outErr.isSome = true → ∀ j n : Nat, cs[j]? ≠ some (CPc.rdWait n)) (sg : Signal1 cs s.cls) : Waits s := by
  generalize hcls : s.cls = cls' at sg
  cases sg with
  | nobody hn => exact ⟨fun _ j n => hcls ▸ hn j n, fun _ j n hj => (hn j n (hcls ▸ hj)).elim⟩
  | @one k m hk =>
    refine ⟨fun e j n hj => (h1 e k m hk).elim, fun _ j n hj => ⟨k, m, Or.inl ?_⟩⟩
    rw [hcls, get_set hk, if_pos rfl]

theorem waits_woken {s : St} {cs : List CPc} (e : s.cls = cs.map wakeC) : Waits s := by
  have : ∀ j n : Nat, s.cls[j]? ≠ some (CPc.rdWait n) := by
    intro j n h
    rw [e, List.getElem?_map] at h
    cases hj : cs[j]? with
    | none => rw [hj] at h; cases h
    | some d =>
      rw [hj] at h
      cases d <;> cases h
  exact ⟨fun _ => this, fun _ j n hj => (this j n hj).elim⟩

theorem waits_finish {s s' : St} {i n : Nat} {c : CPc} (w : Waits s) (hc : s.cls[i]? = some c) (h : Finish s i n s') :
    Waits s' := by
  have hno : s.outErr.isSome = true → ∀ j n : Nat, (s.cls.set i .idle)[j]? ≠ some (CPc.rdWait n) := fun e j n hj =>
    w.err e j n (set_ne hj (by simp)).2
  cases h with
  | error hb => exact ⟨hno, fun x => (x hb).elim⟩
  | all hb _ => exact ⟨hno, fun x => (x rfl).elim⟩
  | some hb hr hn sg => exact waits_noerr hno sg

theorem waits_step {s s' : St} {l : Lab} (w : Waits s) (h : Step s l s') : Waits s' := by
  cases h with
  | callRead n h => exact waits_set w h rfl rfl rfl rfl
  | callClose h => exact waits_set w h rfl rfl rfl rfl
  | callReset sc h => exact waits_set w h rfl rfl rfl rfl
  | callGet h => exact waits_set w h rfl rfl rfl rfl
  | callUnder h => exact waits_set w h rfl rfl rfl rfl
  | gt0 h m => exact waits_set w h rfl rfl rfl rfl
  | gt1 h => exact waits_set w h rfl rfl rfl rfl
  | ur h => exact waits_set w h rfl rfl rfl rfl
  | rd0 h m => exact waits_set w h rfl rfl rfl rfl
  | rd1 h m => exact waits_set w h rfl rfl rfl rfl
  | rd1go h m => exact waits_set w h rfl rfl rfl rfl
  | rd2 h m => exact waits_set w h rfl rfl rfl rfl
  | rd3wait h m m' => exact waits_empty m m'
  | rd3 h m f => exact waits_finish w h f
  | rdWoken h m => exact waits_set w h rfl rfl rfl rfl
  | rd4wait h m m' => exact waits_empty m m'
  | rd4 h m f => exact waits_finish w h f
  | cl0 h m => exact waits_set w h rfl rfl rfl rfl
  | cl1ret h m => exact waits_set w h rfl rfl rfl rfl
  | cl1 h a b _ => exact waits_set w h rfl rfl rfl rfl
  | cl3 h => exact waits_woken rfl
  | cl4 h _ => exact waits_set w h rfl rfl rfl rfl
  | cl5 h m => exact waits_set w h rfl rfl rfl rfl
  | cl6 h => exact waits_set w h rfl rfl rfl rfl
  | rs0 h m => exact waits_set w h rfl rfl rfl rfl
  | rs1 h m => exact waits_set w h rfl rfl rfl rfl
  | rs2 h m => exact waits_empty rfl rfl
  | errSet h => exact waits_woken rfl
  | fl5end h _ sg => exact waits_noerr w.err sg
  | fl5 h _ _ _ _ sg => exact waits_noerr w.err sg
  | _ => exact ⟨w.err, w.data⟩

/-! ### What has been delivered -/

theorem actData_append (a b : List Act) : actData (a ++ b) = actData a ++ actData b := by
  induction a with
  | nil => rfl
  | cons x a ih => cases x <;> simp [actData, ih]

theorem actErr_append (a b : List Act) : actErr (a ++ b) = (actErr a).or (actErr b) := by
  induction a with
  | nil => simp [actErr]
  | cons x a ih => cases x <;> simp [actErr, ih]

/-- what the goroutine is just doing, if `w` has already been put in outputBuffer -/
def pend (w : List UInt8) : TPc → List Act
  | .absent | .entry | .run => []
  | .errHeld e => [.err e]
  | .fl1 p | .fl2 p | .flWait p | .flWoken p | .fl3 p | .fl4 p | .fl5 p => [.data (w ++ p)]

def quiet : TPc → Bool
  | .absent | .entry | .run | .errHeld _ => true
  | _ => false

/-- the progress of the goroutine: it has done `d`, and put the bytes `w` in outputBuffer of what it is flushing -/
structure Prog (s : St) (d : List Act) (w : List UInt8) : Prop where
  script : s.script = d ++ pend w s.th ++ s.acts
  q : quiet s.th = true → w = []
  data : s.forced = false → got s.log ++ s.buf = actData d ++ w
  err : s.forced = false → s.outErr = actErr d
  part : s.forced = true → got s.log <+: actData d ++ w

theorem Prog.below {s : St} {d : List Act} {w : List UInt8} (p : Prog s d w) : actData d ++ w <+: actData s.script := by
  rw [p.script]
  simp only [actData_append, List.append_assoc]
  refine List.prefix_append_right_inj _ |>.2 ?_
  have hq := p.q
  cases ht : s.th with
  | absent | entry | run | errHeld _ => rw [hq (by rw [ht]; rfl)]; exact List.nil_prefix
  | _ => simp only [pend, actData, List.append_nil, List.append_assoc]; exact List.prefix_append _ _

theorem pend_wake (w : List UInt8) (t : TPc) : pend w (wakeT t) = pend w t := by cases t <;> rfl
theorem quiet_wake (t : TPc) : quiet (wakeT t) = quiet t := by cases t <;> rfl

theorem prog_finish {s s' : St} {i n : Nat} {d : List Act} {w : List UInt8} (p : Prog s d w) (fl : Flags s) (h : Finish s i n s') : Prog s' d w := by
  obtain ⟨p1, p2, p3, p4, p5⟩ := p
  cases h with
  | error hb =>
    refine ⟨p1, p2, fun e => ?_, p4, fun e => ?_⟩
    · simp only [got_read, List.append_nil]; exact p3 e
    · simp only [got_read, List.append_nil]; exact p5 e
  | all hb hp =>
    refine ⟨by simp only [pend_wake]; exact p1, by simp only [quiet_wake]; exact p2, fun e => ?_, p4, fun e => (hb (fl.fo e).2).elim⟩
    have := p3 e
    rw [hp.1] at this
    simpa [got_read] using this
  | some hb hr hn sg =>
    refine ⟨p1, p2, fun e => ?_, p4, fun e => (hb (fl.fo e).2).elim⟩
    have := p3 e
    rw [hr.1] at this
    simpa [got_read] using this

theorem prog_step {s s' : St} {l : Lab} (p : ∃ d w, Prog s d w) (fl : Flags s) (cs : Cl3 s) (o1 : Own1 s) (h : Step s l s') : ∃ d w, Prog s' d w := by
  obtain ⟨d, w, p⟩ := p
  have p0 := p
  obtain ⟨p1, p2, p3, p4, p5⟩ := p
  cases h with
  | rd3 h m f => exact ⟨d, w, prog_finish p0 fl f⟩
  | rd4 h m f => exact ⟨d, w, prog_finish p0 fl f⟩
  | rd3wait h m m' => exact ⟨d, w, by simp only [pend_wake]; exact p1, by simp only [quiet_wake]; exact p2, p3, p4, p5⟩
  | rd1go h m => rw [(fl.ns m).1] at p1 p2; exact ⟨d, w, p1, p2, p3, p4, p5⟩
  | cl1ret h m => exact ⟨d, w, p1, p2, by simpa [St.setC, got_closed] using p3, p4, by simpa [St.setC, got_closed] using p5⟩
  | cl6 h => exact ⟨d, w, p1, p2, by simpa [St.setC, got_closed] using p3, p4, by simpa [St.setC, got_closed] using p5⟩
  | gt1 h => exact ⟨d, w, p1, p2, by simpa [St.setC, got_got] using p3, p4, by simpa [St.setC, got_got] using p5⟩
  | ur h => exact ⟨d, w, p1, p2, by simpa [St.setC, got_got] using p3, p4, by simpa [St.setC, got_got] using p5⟩
  | cl3 h =>
    refine ⟨d, w, by simp only [pend_wake]; exact p1, by simp only [quiet_wake]; exact p2, fun e => (by cases e), fun e => (by cases e), fun _ => ?_⟩
    cases e : s.forced with
    | true => exact p5 e
    | false => rw [← p3 e]; exact List.prefix_append _ _
  | @rs2 i sc h m =>
    have ht : s.th = .absent := by
      cases ht : s.th with
      | absent => rfl
      | _ => exact (m (fl.run.1 (by rw [ht]; simp))).elim
    refine ⟨[], [], ?_, fun _ => rfl, fun _ => ?_, fun _ => rfl, fun e => (by cases e)⟩
    · simp [St.setC, ht, pend]
    · simp [got_reset, actData]
  | entry h m => rw [h] at p1 p2; exact ⟨d, w, p1, p2, p3, p4, p5⟩
  | @skip x r h ha hx =>
    have hw := p2 (by rw [h]; rfl)
    subst hw
    refine ⟨d ++ [.data x], [], by simpa [pend, h, ha] using p1, fun _ => rfl, fun e => ?_, fun e => ?_, fun e => ?_⟩
    · have hf : s.forced = false := e
      rcases hx with hx | rfl
      · rw [hf] at hx; cases hx
      · simpa [actData_append, actData] using p3 e
    · simpa [actErr_append, actErr] using p4 e
    · have := p5 e
      rw [List.append_nil] at this
      rw [actData_append, List.append_nil]
      exact this.trans (List.prefix_append _ _)
  | @flush x r h ha hf hx =>
    have hw := p2 (by rw [h]; rfl)
    subst hw
    exact ⟨d, [], by simpa [pend, h, ha] using p1, fun _ => rfl, p3, p4, p5⟩
  | @skipErr e r h ha he =>
    have hw := p2 (by rw [h]; rfl)
    subst hw
    refine ⟨d ++ [.err e], [], by simpa [pend, h, ha] using p1, fun _ => rfl, ?_, fun ef => ?_, ?_⟩
    · simpa [actData_append, actData] using p3
    · have h4 := p4 ef
      have h5 : s.outErr.isSome = true := by rw [← fl.er]; exact he
      rw [h4] at h5
      rw [actErr_append]
      show s.outErr = _
      rw [h4]
      cases hd : actErr d with
      | none => rw [hd] at h5; cases h5
      | some y => rfl
    · simpa [actData_append, actData] using p5
  | @errLock e r h ha he hm =>
    have hw := p2 (by rw [h]; rfl)
    subst hw
    exact ⟨d, [], by simpa [pend, h, ha] using p1, fun _ => rfl, p3, p4, p5⟩
  | @errSet e h =>
    have hw := p2 (by rw [h]; rfl)
    subst hw
    have h0 := fl.eh e h
    refine ⟨d ++ [.err e], [], by simpa [pend, h] using p1, fun _ => rfl, ?_, fun ef => ?_, ?_⟩
    · simpa [actData_append, actData] using p3
    · have h4 := p4 ef
      rw [h0] at h4
      rw [actErr_append, ← h4]; rfl
    · simpa [actData_append, actData] using p5
  | exit h ha => rw [h] at p1 p2; exact ⟨d, w, p1, p2, p3, p4, p5⟩
  | fl1 h _ => rw [h] at p1 p2; exact ⟨d, w, p1, fun e => (by cases e), p3, p4, p5⟩
  | fl2wait h _ => rw [h] at p1 p2; exact ⟨d, w, p1, fun e => (by cases e), p3, p4, p5⟩
  | fl2 h _ => rw [h] at p1 p2; exact ⟨d, w, p1, fun e => (by cases e), p3, p4, p5⟩
  | flWoken h _ => rw [h] at p1 p2; exact ⟨d, w, p1, fun e => (by cases e), p3, p4, p5⟩
  | fl3 h _ => rw [h] at p1 p2; exact ⟨d, w, p1, fun e => (by cases e), p3, p4, p5⟩
  | fl4 h _ _ => rw [h] at p1 p2; exact ⟨d, w, p1, fun e => (by cases e), p3, p4, p5⟩
  | @fl4stop x h hf =>
    refine ⟨d ++ [.data (w ++ x)], [], by simpa [pend, h] using p1, fun _ => rfl, fun e => ?_, fun e => ?_, fun _ => ?_⟩
    · exact absurd (hf.symm.trans e) (by simp)
    · exact absurd (hf.symm.trans e) (by simp)
    · rw [actData_append, List.append_nil]
      have : actData d ++ actData [.data (w ++ x)] = actData d ++ w ++ x := by simp [actData]
      rw [this]
      exact (p5 hf).trans (List.prefix_append _ _)
  | @fl5end x cs' h hl sg =>
    have hf := fl.f5 _ h
    refine ⟨d ++ [.data (w ++ x)], [], by simpa [pend, h] using p1, fun _ => rfl, fun e => ?_, fun e => ?_, fun e => ?_⟩
    · have := p3 hf
      simp only [actData_append, actData, List.append_nil, ← List.append_assoc] at this ⊢
      rw [this]
    · simpa [actErr_append, actErr] using p4 e
    · exact absurd (hf.symm.trans e) (by simp)
  | @fl5 x q r cs' h hx hq hr hl sg =>
    have hf := fl.f5 _ h
    refine ⟨d, w ++ q, by simpa [pend, h, hx] using p1, fun e => (by cases e), fun e => ?_, p4, fun e => ?_⟩
    · have := p3 hf
      simp only [← List.append_assoc] at this ⊢
      rw [this]
    · exact absurd (hf.symm.trans e) (by simp)
  | fl5full h _ _ => rw [h] at p1 p2; exact ⟨d, w, p1, fun e => (by cases e), p3, p4, p5⟩
  | _ => exact ⟨d, w, p1, p2, p3, p4, p5⟩

/-! ### All together -/

structure Inv (s : St) : Prop where
  cap : 0 < s.cap
  o1 : Own1 s
  o2 : Own2 s
  cl3 : Cl3 s
  flags : Flags s
  wg : Wg s
  waits : Waits s
  prog : ∃ d w, Prog s d w

theorem step_cap {s s' : St} {l : Lab} (h : Step s l s') : s'.cap = s.cap := by
  cases h with
  | rd3 _ _ f => cases f <;> rfl
  | rd4 _ _ f => cases f <;> rfl
  | _ => rfl

theorem Inv.step {s s' : St} {l : Lab} (i : Inv s) (h : Step s l s') : Inv s' :=
  ⟨step_cap h ▸ i.cap, own1_step i.o1 h (fun e => (i.flags.ns e).1), own2_step i.o2 h (fun e => (i.flags.ns e).1), cl3_step i.cl3 i.o1 h,
    flags_step i.flags i.o1 i.o2 i.cl3 i.cap h, wg_step i.wg i.flags h, waits_step i.waits h, prog_step i.prog i.flags i.cl3 i.o1 h⟩

theorem replicate_get {n i : Nat} {c : CPc} (h : (List.replicate n CPc.idle)[i]? = some c) : c = .idle := by
  rw [List.getElem?_replicate] at h
  split at h <;> cases h; rfl

theorem inv_initial {cap : Nat} (hc : 0 < cap) (script : List Act) (n : Nat) : Inv (initial cap script n) := by
  refine ⟨hc, ⟨fun i => ?_, by simp [initial, th1]⟩, ⟨fun i => ?_, by simp [initial, th2]⟩, fun i h => ?_, ?_, rfl, ⟨fun e => (by cases e), fun e => (e rfl).elim⟩,
    [], [], by simp [initial, pend], fun _ => rfl, fun _ => rfl, fun _ => rfl, fun e => (by cases e)⟩
  · simp only [initial, reduceCtorEq, false_iff]
    rintro ⟨c, h, e⟩
    rw [replicate_get h] at e; cases e
  · simp only [initial, reduceCtorEq, false_iff]
    rintro ⟨c, h, e⟩
    rw [replicate_get h] at e; cases e
  · exact absurd (replicate_get h) (by simp)
  · constructor <;> simp [initial, got]

theorem Inv.steps {P : Lab → Prop} {s s' : St} (i : Inv s) (h : Steps P s s') : Inv s' := by
  induction h with
  | refl => exact i
  | step _ h _ ih => exact ih.step h

theorem reach_inv {P : Lab → Prop} {cap n : Nat} {script : List Act} {s : St} (hc : 0 < cap) (h : Reach P cap script n s) : Inv s :=
  (inv_initial hc script n).steps h

end Flate.Proof.Cc
