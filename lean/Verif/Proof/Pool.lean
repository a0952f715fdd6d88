/-
Programs which use memory from the pools carefully are not disturbed by others, and the Writer is careful.
-/
import Verif.Model.Pool

namespace Flate.Proof.Pool
open Flate Flate.Model Flate.Model.Pool Flate.Spec

/-- what a goroutine has taken from the pools -/
abbrev Mem := Ptr → Option (Kind × Cell)

def Mem.set (m : Mem) (p : Ptr) (x : Option (Kind × Cell)) : Mem := fun q => if q = p then x else m q

@[simp] theorem set_self (m : Mem) (p : Ptr) (x) : m.set p x p = x := if_pos rfl
theorem set_ne (m : Mem) {p q : Ptr} (x) (h : q ≠ p) : m.set p x q = m q := if_neg h
@[simp] theorem set_set (m : Mem) (p : Ptr) (x y) : (m.set p x).set p y = m.set p y := by
  funext q; unfold Mem.set; split <;> rfl
theorem set_back (m : Mem) {p : Ptr} {x} (h : m p = x) : m.set p x = m := by
  funext q; unfold Mem.set; split
  · next e => rw [e, h]
  · rfl
theorem set_comm (m : Mem) {p q : Ptr} (x y) (h : p ≠ q) : (m.set p x).set q y = (m.set q y).set p x := by
  funext r; unfold Mem.set
  by_cases h1 : r = q
  · by_cases h2 : r = p
    · exact absurd (h2.symm.trans h1) h
    · rw [if_pos h1, if_neg h2, if_pos h1]
  · by_cases h2 : r = p
    · rw [if_neg h1, if_pos h2, if_pos h2]
    · rw [if_neg h1, if_neg h2, if_neg h2, if_neg h1]

/-- run alone with private memory `m`, the program only uses pointers it has got and not yet put back, puts them back empty, and ends with `Q` -/
def wp {β : Type} : Prog β → Mem → (β → Mem → Prop) → Prop
  | .done b, m, Q => Q b m
  | .get kd k, m, Q => ∀ p, m p = none → wp (k p) (m.set p (some (kd, kd.empty))) Q
  | .load p k, m, Q => ∃ x, m p = some x ∧ wp (k x.2) m Q
  | .store p c k, m, Q => ∃ x, m p = some x ∧ wp k (m.set p (some (x.1, c))) Q
  | .put kd p k, m, Q => m p = some (kd, kd.empty) ∧ wp k (m.set p none) Q

theorem wp_mono {β : Type} {Q R : β → Mem → Prop} (h : ∀ b m, Q b m → R b m) (P : Prog β) {m : Mem} (hw : wp P m Q) : wp P m R := by
  induction P generalizing m with
  | done b => exact h _ _ hw
  | get kd k ih => exact fun p hp => ih p (hw p hp)
  | load p k ih => obtain ⟨x, a, b⟩ := hw; exact ⟨x, a, ih _ b⟩
  | store p c k ih => obtain ⟨x, a, b⟩ := hw; exact ⟨x, a, ih b⟩
  | put kd p k ih => exact ⟨hw.1, ih hw.2⟩

theorem wp_bind {β γ : Type} {Q : γ → Mem → Prop} (f : β → Prog γ) (P : Prog β) {m : Mem} (hw : wp P m fun b m' => wp (f b) m' Q) :
    wp (P.bind f) m Q := by
  induction P generalizing m with
  | done b => exact hw
  | get kd k ih => exact fun p hp => ih p (hw p hp)
  | load p k ih => obtain ⟨x, a, b⟩ := hw; exact ⟨x, a, ih _ b⟩
  | store p c k ih => obtain ⟨x, a, b⟩ := hw; exact ⟨x, a, ih b⟩
  | put kd p k ih => exact ⟨hw.1, ih hw.2⟩

/-! ### all goroutines together -/

/-- who owns what -/
structure Inv {β : Type} (Q : Nat → β → Mem → Prop) (s : Sys β) (own : Nat → Mem) : Prop where
  prog : ∀ i P, s.procs[i]? = some P → wp P (own i) (Q i)
  heap : ∀ i p x, own i p = some x → s.heap p = x.2 ∧ p ∈ s.alloc
  disj : ∀ i j p x y, own i p = some x → own j p = some y → i = j
  free : ∀ kd p, (kd, p) ∈ s.free → p ∈ s.alloc ∧ s.heap p = kd.empty ∧ ∀ i, own i p = none
  nodup : (s.free.map (·.2)).Nodup

def upd (own : Nat → Mem) (i : Nat) (m : Mem) : Nat → Mem := fun j => if j = i then m else own j

theorem upd_self (own : Nat → Mem) (i : Nat) (m : Mem) : upd own i m i = m := if_pos rfl
theorem upd_ne (own : Nat → Mem) {i j : Nat} (m : Mem) (h : j ≠ i) : upd own i m j = own j := if_neg h

theorem procs_set {β : Type} {Q : Nat → β → Mem → Prop} {l : List (Prog β)} {own : Nat → Mem} {i : Nat} {m : Mem} {P0 P' : Prog β}
    (h : ∀ i P, l[i]? = some P → wp P (own i) (Q i)) (h0 : l[i]? = some P0) (h' : wp P' m (Q i)) :
    ∀ j P, (l.set i P')[j]? = some P → wp P (upd own i m j) (Q j) := by
  intro j P hj
  by_cases e : j = i
  · subst e
    have hlt : j < l.length := (List.getElem?_eq_some_iff.1 h0).1
    rw [List.getElem?_set_self hlt] at hj
    cases hj
    rw [upd_self]; exact h'
  · rw [List.getElem?_set_ne (Ne.symm e)] at hj
    rw [upd_ne _ _ e]; exact h j P hj

theorem procs_set' {β : Type} {Q : Nat → β → Mem → Prop} {l : List (Prog β)} {own : Nat → Mem} {i : Nat} {P0 P' : Prog β}
    (h : ∀ i P, l[i]? = some P → wp P (own i) (Q i)) (h0 : l[i]? = some P0) (h' : wp P' (own i) (Q i)) :
    ∀ j P, (l.set i P')[j]? = some P → wp P (own j) (Q j) := by
  intro j P hj
  have := procs_set h h0 h' j P hj
  by_cases e : j = i
  · subst e; rwa [upd_self] at this
  · rwa [upd_ne _ _ e] at this

theorem erase_mem {l : List (Kind × Ptr)} (h : (l.map (·.2)).Nodup) {kd : Kind} {p : Ptr} (hp : (kd, p) ∈ l) :
    ∀ kd', (kd', p) ∉ l.erase (kd, p) := by
  induction l with
  | nil => cases hp
  | cons a l ih =>
    rw [List.map_cons, List.nodup_cons] at h
    intro kd' hm
    by_cases e : a = (kd, p)
    · subst e
      rw [List.erase_cons_head] at hm
      exact h.1 (List.mem_map.2 ⟨_, hm, rfl⟩)
    · rw [List.erase_cons_tail (by simpa using e)] at hm
      have hp' : (kd, p) ∈ l := by
        cases hp with
        | head => exact absurd rfl e
        | tail _ h => exact h
      cases hm with
      | head => exact h.1 (List.mem_map.2 ⟨_, hp', rfl⟩)
      | tail _ hm => exact ih h.2 hp' _ hm

theorem Inv.step {β : Type} {Q : Nat → β → Mem → Prop} {s t : Sys β} {own : Nat → Mem} (h : Inv Q s own) (hs : Step s t) : ∃ own', Inv Q t own' := by
  cases hs with
  | @fresh i kd k p hi hp =>
    have hno : ∀ j, own j p = none := by
      intro j
      cases e : own j p with
      | none => rfl
      | some x => exact absurd (h.heap j p x e).2 hp
    have hw := h.prog i _ hi p (hno i)
    refine ⟨upd own i ((own i).set p (some (kd, kd.empty))), procs_set h.prog hi hw, ?_, ?_, ?_, h.nodup⟩
    · intro j q x hq
      by_cases e : j = i
      · subst e
        rw [upd_self] at hq
        by_cases e' : q = p
        · subst e'; rw [set_self] at hq; cases hq
          exact ⟨if_pos rfl, List.mem_cons_self⟩
        · rw [set_ne _ _ e'] at hq
          obtain ⟨a, b⟩ := h.heap j q x hq
          exact ⟨by simp only [if_neg e']; exact a, List.mem_cons_of_mem _ b⟩
      · rw [upd_ne _ _ e] at hq
        obtain ⟨a, b⟩ := h.heap j q x hq
        exact ⟨by simp only [if_neg (show q ≠ p from fun e' => hp (e' ▸ b))]; exact a, List.mem_cons_of_mem _ b⟩
    · intro a b q x y ha hb
      by_cases e' : q = p
      · subst e'
        have key : ∀ j z, upd own i ((own i).set q (some (kd, kd.empty))) j q = some z → j = i := by
          intro j z hz
          by_cases e : j = i
          · exact e
          · rw [upd_ne _ _ e, hno j] at hz; cases hz
        rw [key a x ha, key b y hb]
      · have key : ∀ j z, upd own i ((own i).set p (some (kd, kd.empty))) j q = some z → own j q = some z := by
          intro j z hz
          by_cases e : j = i
          · subst e; rwa [upd_self, set_ne _ _ e'] at hz
          · rwa [upd_ne _ _ e] at hz
        exact h.disj a b q x y (key a x ha) (key b y hb)
    · intro kd' q hq
      obtain ⟨a, b, c⟩ := h.free kd' q hq
      have hqp : q ≠ p := fun e => hp (e ▸ a)
      refine ⟨List.mem_cons_of_mem _ a, by simp only [if_neg hqp]; exact b, fun j => ?_⟩
      by_cases e : j = i
      · subst e; rw [upd_self, set_ne _ _ hqp]; exact c j
      · rw [upd_ne _ _ e]; exact c j
  | @reuse i kd k p hi hp =>
    obtain ⟨ha, hh, hno⟩ := h.free kd p hp
    have hw := h.prog i _ hi p (hno i)
    have hf := erase_mem h.nodup hp
    refine ⟨upd own i ((own i).set p (some (kd, kd.empty))), procs_set h.prog hi hw, ?_, ?_, ?_, ?_⟩
    · intro j q x hq
      by_cases e : j = i
      · subst e
        rw [upd_self] at hq
        by_cases e' : q = p
        · subst e'; rw [set_self] at hq; cases hq
          exact ⟨hh, ha⟩
        · rw [set_ne _ _ e'] at hq
          exact h.heap j q x hq
      · rw [upd_ne _ _ e] at hq
        exact h.heap j q x hq
    · intro a b q x y ha hb
      by_cases e' : q = p
      · subst e'
        have key : ∀ j z, upd own i ((own i).set q (some (kd, kd.empty))) j q = some z → j = i := by
          intro j z hz
          by_cases e : j = i
          · exact e
          · rw [upd_ne _ _ e, hno j] at hz; cases hz
        rw [key a x ha, key b y hb]
      · have key : ∀ j z, upd own i ((own i).set p (some (kd, kd.empty))) j q = some z → own j q = some z := by
          intro j z hz
          by_cases e : j = i
          · subst e; rwa [upd_self, set_ne _ _ e'] at hz
          · rwa [upd_ne _ _ e] at hz
        exact h.disj a b q x y (key a x ha) (key b y hb)
    · intro kd' q hq
      obtain ⟨a, b, c⟩ := h.free kd' q (List.mem_of_mem_erase hq)
      have hqp : q ≠ p := fun e => hf kd' (e ▸ hq)
      refine ⟨a, b, fun j => ?_⟩
      by_cases e : j = i
      · subst e; rw [upd_self, set_ne _ _ hqp]; exact c j
      · rw [upd_ne _ _ e]; exact c j
    · exact h.nodup.sublist (List.Sublist.map _ List.erase_sublist)
  | @load i k p hi =>
    obtain ⟨x, hx, hw⟩ := h.prog i _ hi
    refine ⟨own, procs_set' h.prog hi ?_, h.heap, h.disj, h.free, h.nodup⟩
    rw [(h.heap i p x hx).1]; exact hw
  | @store i k p c hi =>
    obtain ⟨x, hx, hw⟩ := h.prog i _ hi
    have hother : ∀ j q y, upd own i ((own i).set p (some (x.1, c))) j q = some y → (j = i ∧ q = p ∧ y = (x.1, c)) ∨ (q ≠ p ∧ own j q = some y) := by
      intro j q y hy
      by_cases e : j = i
      · subst e
        rw [upd_self] at hy
        by_cases e' : q = p
        · subst e'; rw [set_self] at hy; cases hy; exact .inl ⟨rfl, rfl, rfl⟩
        · rw [set_ne _ _ e'] at hy; exact .inr ⟨e', hy⟩
      · rw [upd_ne _ _ e] at hy
        exact .inr ⟨fun e' => e (h.disj _ _ _ _ _ hy (e' ▸ hx)), hy⟩
    refine ⟨upd own i ((own i).set p (some (x.1, c))), procs_set h.prog hi hw, ?_, ?_, ?_, h.nodup⟩
    · intro j q y hy
      rcases hother j q y hy with ⟨-, rfl, rfl⟩ | ⟨hq, hy⟩
      · exact ⟨if_pos rfl, (h.heap i q x hx).2⟩
      · obtain ⟨a, b⟩ := h.heap j q y hy
        exact ⟨by simp only [if_neg hq]; exact a, b⟩
    · intro a b q y z ha hb
      rcases hother a q y ha with ⟨rfl, rfl, rfl⟩ | ⟨hq, hy⟩
      · rcases hother b q z hb with ⟨rfl, -, -⟩ | ⟨hq, -⟩
        · rfl
        · exact absurd rfl hq
      · rcases hother b q z hb with ⟨rfl, rfl, rfl⟩ | ⟨-, hz⟩
        · exact absurd rfl hq
        · exact h.disj a b q y z hy hz
    · intro kd' q hq
      obtain ⟨a, b, cc⟩ := h.free kd' q hq
      have hqp : q ≠ p := by
        rintro rfl
        rw [cc i] at hx; cases hx
      refine ⟨a, by simp only [if_neg hqp]; exact b, fun j => ?_⟩
      by_cases e : j = i
      · subst e; rw [upd_self, set_ne _ _ hqp]; exact cc j
      · rw [upd_ne _ _ e]; exact cc j
  | @put i kd k p hi =>
    obtain ⟨hx, hw⟩ := h.prog i _ hi
    have hother : ∀ j q y, upd own i ((own i).set p none) j q = some y → q ≠ p ∧ own j q = some y := by
      intro j q y hy
      by_cases e : j = i
      · subst e
        rw [upd_self] at hy
        by_cases e' : q = p
        · subst e'; rw [set_self] at hy; cases hy
        · rw [set_ne _ _ e'] at hy; exact ⟨e', hy⟩
      · rw [upd_ne _ _ e] at hy
        exact ⟨fun e' => e (h.disj _ _ _ _ _ hy (e' ▸ hx)), hy⟩
    have hnone : ∀ j, upd own i ((own i).set p none) j p = none := by
      intro j
      cases e : upd own i ((own i).set p none) j p with
      | none => rfl
      | some y => exact absurd rfl (hother j p y e).1
    refine ⟨upd own i ((own i).set p none), procs_set h.prog hi hw, ?_, ?_, ?_, ?_⟩
    · intro j q y hy
      exact h.heap j q y (hother j q y hy).2
    · intro a b q y z ha hb
      exact h.disj a b q y z (hother a q y ha).2 (hother b q z hb).2
    · intro kd' q hq
      cases hq with
      | head =>
        obtain ⟨a, b⟩ := h.heap i p _ hx
        exact ⟨b, a, hnone⟩
      | tail _ hq =>
        obtain ⟨a, b, c⟩ := h.free kd' q hq
        refine ⟨a, b, fun j => ?_⟩
        by_cases e : j = i
        · subst e
          rw [upd_self]; unfold Mem.set; split
          · rfl
          · exact c j
        · rw [upd_ne _ _ e]; exact c j
    · rw [List.map_cons, List.nodup_cons]
      refine ⟨?_, h.nodup⟩
      intro hm
      obtain ⟨⟨kd', q⟩, hq, rfl⟩ := List.mem_map.1 hm
      have := (h.free kd' q hq).2.2 i
      rw [show ((kd', q) : Kind × Ptr).2 = q from rfl] at hx
      rw [this] at hx; cases hx
  | @drop x =>
    refine ⟨own, h.prog, h.heap, h.disj, fun kd p hp => h.free kd p (List.mem_of_mem_erase hp), ?_⟩
    exact h.nodup.sublist (List.Sublist.map _ List.erase_sublist)

theorem Inv.steps {β : Type} {Q : Nat → β → Mem → Prop} {s t : Sys β} {own : Nat → Mem} (h : Inv Q s own) (hs : Steps s t) : ∃ own', Inv Q t own' := by
  induction hs with
  | refl => exact ⟨own, h⟩
  | step _ hs ih => obtain ⟨o, ho⟩ := ih; exact ho.step hs

theorem Inv.start {β : Type} {Q : Nat → β → Mem → Prop} {l : List (Prog β)} (h : ∀ i P, l[i]? = some P → wp P (fun _ => none) (Q i)) :
    Inv Q { procs := l } fun _ _ => none :=
  ⟨h, fun _ _ _ e => (nomatch e), fun _ _ _ _ _ e => (nomatch e), fun _ _ e => (nomatch e), List.nodup_nil⟩

theorem exists_new (l : List Ptr) : ∃ p, p ∉ l := by
  refine ⟨l.sum + 1, fun hm => ?_⟩
  have : ∀ l : List Nat, ∀ x ∈ l, x ≤ l.sum := by
    intro l
    induction l with
    | nil => intro x hx; cases hx
    | cons a l ih =>
      intro x hx
      rw [List.sum_cons]
      cases hx with
      | head => omega
      | tail _ hx => have := ih x hx; omega
  have := this _ _ hm
  omega

theorem Steps.trans {β : Type} {s t u : Sys β} (h : Steps s t) (h' : Steps t u) : Steps s u := by
  induction h' with
  | refl => exact h
  | step _ hs ih => exact ih.step hs

/-- whatever the others do: a goroutine can go on to its end -/
theorem finish {β : Type} (P : Prog β) : ∀ {s : Sys β} {i : Nat}, s.procs[i]? = some P →
    ∃ t b, Steps s t ∧ t.procs = s.procs.set i (.done b) := by
  have one : ∀ {s u : Sys β} {i : Nat} {P P' : Prog β}, s.procs[i]? = some P → Step s u → u.procs = s.procs.set i P' →
      (∀ {s : Sys β} {i : Nat}, s.procs[i]? = some P' → ∃ t b, Steps s t ∧ t.procs = s.procs.set i (.done b)) →
      ∃ t b, Steps s t ∧ t.procs = s.procs.set i (.done b) := by
    intro s u i P P' hi hs he ih
    have hlt : i < s.procs.length := (List.getElem?_eq_some_iff.1 hi).1
    obtain ⟨t, b, ht, hb⟩ := ih (s := u) (i := i) (by rw [he, List.getElem?_set_self hlt])
    exact ⟨t, b, Steps.trans (.step .refl hs) ht, by rw [hb, he, List.set_set]⟩
  induction P with
  | done b =>
    intro s i hi
    refine ⟨s, b, .refl, ?_⟩
    obtain ⟨hlt, e⟩ := List.getElem?_eq_some_iff.1 hi
    rw [← e, List.set_getElem_self]
  | get kd k ih =>
    intro s i hi
    obtain ⟨p, hp⟩ := exists_new s.alloc
    exact one hi (.fresh hi hp) rfl (ih p)
  | load p k ih =>
    intro s i hi
    exact one hi (.load hi) rfl (ih _)
  | store p c k ih =>
    intro s i hi
    exact one hi (.store hi) rfl ih
  | put kd p k ih =>
    intro s i hi
    exact one hi (.put hi) rfl ih

end Flate.Proof.Pool
