/-
Concurrent use of a Writer, and callbacks which use the Writer: C63, C64.
-/
import Verif.Model.WConc
import Verif.Props.RoundTrip

namespace Flate.Props
open Flate.Spec Flate.Model Flate.Model.WConc Flate.Proof

section
variable {S C R : Type} {M : Micro S C R}

/-- calls one after the other: the memory before, the calls with their results, the memory after -/
inductive Sequential (M : Micro S C R) (s0 : S) : List (C × R) → S → Prop
  | nil : Sequential M s0 [] s0
  | snoc {l : List (C × R)} {s s' : S} {c : C} {r : R} : Sequential M s0 l s → M.Call c s r s' → Sequential M s0 (l ++ [(c, r)]) s'

/-- the call which a caller has made, but whose result has not been determined -/
def Pc.pending : Pc M → List C
  | .want c => [c]
  | .body c _ => [c]
  | .nested c _ _ => [c]
  | _ => []

def pendingOf (o : Option (Pc M)) : List C := match o with
  | some p => Pc.pending p
  | none => []

/-- does the caller hold the mutex? -/
def Pc.holds : Pc M → Bool
  | .body _ _ | .held | .nested _ _ _ => true
  | _ => false

/-- the memory, seen as the result of a prefix of the body of the call in progress -/
def InBody (M : Micro S C R) (s1 : S) (mem : S) : Pc M → Prop
  | .body c k => M.early c = none ∧ ∀ r s', M.Goes k mem r s' → M.Goes (M.start c) s1 r s'
  | .held => s1 = mem
  | .nested c k _ => M.early c = none ∧ ∀ r s', M.Goes k mem r s' → M.Goes (M.start c) s1 r s'
  | _ => True

structure WInvC (M : Micro S C R) (s0 : S) (s : St M) : Prop where
  own : ∀ i p, s.pcs[i]? = some p → (s.mu = some i ↔ Pc.holds p = true)
  held : ∀ i, s.mu = some i → ∃ p, s.pcs[i]? = some p
  seq : ∃ s1, Sequential M s0 (s.log.map (·.2)) s1 ∧ (s.mu = none → s.mem = s1) ∧ ∀ i p, s.mu = some i → s.pcs[i]? = some p → InBody M s1 s.mem p
  order : ∀ i, ((s.calls.filter (·.1 == i)).map (·.2)) = ((s.log.filter (·.1 == i)).map (·.2.1)) ++ pendingOf s.pcs[i]?

theorem pc_set {l : List (Pc M)} {i : Nat} {p q : Pc M} (h : l[i]? = some p) (j : Nat) : (l.set i q)[j]? = if j = i then some q else l[j]? := by
  have hi : i < l.length := (List.getElem?_eq_some_iff.1 h).1
  rw [List.getElem?_set]
  by_cases e : i = j
  · subst e; simp [hi]
  · rw [if_neg e, if_neg (fun h => e h.symm)]

theorem winvC_initial (s0 : S) (n : Nat) : WInvC M s0 (initial M s0 n) := by
  have hi : ∀ {i : Nat} {p : Pc M}, (List.replicate n (Pc.idle : Pc M))[i]? = some p → p = .idle := by
    intro i p h
    rw [List.getElem?_replicate] at h
    split at h <;> simp at h
    exact h.symm
  refine ⟨fun i p h => ?_, fun i h => (by cases h), ⟨s0, .nil, fun _ => rfl, fun i p h => (by cases h)⟩, fun i => ?_⟩
  · have := hi h
    subst this
    simp [initial, Pc.holds]
  · show [] = [] ++ pendingOf ((List.replicate n (Pc.idle : Pc M))[i]?)
    cases h : (List.replicate n (Pc.idle : Pc M))[i]? with
    | none => rfl
    | some p => have := hi h; subst this; rfl

theorem own_set {s : St M} {s0 : S} (w : WInvC M s0 s) {i : Nat} {p q : Pc M} (h : s.pcs[i]? = some p) (hq : Pc.holds q = Pc.holds p) :
    (∀ j r, (s.pcs.set i q)[j]? = some r → (s.mu = some j ↔ Pc.holds r = true)) ∧ ∀ j, s.mu = some j → ∃ r, (s.pcs.set i q)[j]? = some r := by
  refine ⟨fun j r hr => ?_, fun j hj => ?_⟩
  · rw [pc_set h] at hr
    split at hr
    · rename_i e; subst e; cases hr; rw [hq]; exact w.own _ _ h
    · exact w.own _ _ hr
  · rw [pc_set h]
    split
    · exact ⟨q, rfl⟩
    · exact w.held j hj

theorem winvC_step {s s' : St M} {s0 : S} {l : Lab} (w : WInvC M s0 s) (h : Step M s l s') : WInvC M s0 s' := by
  obtain ⟨s1, q1, q2, q3⟩ := w.seq
  have pend : ∀ {i : Nat} {p q : Pc M}, s.pcs[i]? = some p → Pc.pending q = Pc.pending p → ∀ j : Nat, pendingOf (s.pcs.set i q)[j]? = pendingOf s.pcs[j]? := by
    intro i p q hp hq j
    rw [pc_set hp]
    split
    · rename_i e; subst e; rw [hp]; exact hq
    · rfl
  have free : ∀ {i : Nat} {p q : Pc M}, s.pcs[i]? = some p → Pc.holds p = false → ∀ j r, s.mu = some j → (s.pcs.set i q)[j]? = some r → InBody M s1 s.mem r := by
    intro i p q hp hh j r hj hr
    rw [pc_set hp] at hr
    split at hr
    · rename_i e; subst e; have := (w.own _ _ hp).1 hj; rw [hh] at this; cases this
    · exact q3 j r hj hr
  cases h with
  | @call i c hp =>
    have o := own_set w (q := .want c) hp rfl
    refine ⟨o.1, o.2, ⟨s1, q1, q2, free hp rfl⟩, fun j => ?_⟩
    show ((s.calls ++ [(i, c)]).filter _).map _ = _ ++ pendingOf (s.pcs.set i (.want c))[j]?
    rw [pc_set hp, List.filter_append, List.map_append, w.order j]
    by_cases e : j = i
    · subst e; simp [pendingOf, Pc.pending, hp]
    · have e' : ¬ i = j := fun h => e h.symm
      simp [e, e']
  | @early i c r hp he =>
    have o := own_set w (q := .idle) hp rfl
    refine ⟨o.1, o.2, ⟨s1, ?_, q2, free hp rfl⟩, fun j => ?_⟩
    · show Sequential M s0 ((s.log ++ [(i, c, r)]).map _) s1
      rw [List.map_append]
      exact .snoc q1 (.early he)
    · show _ = ((s.log ++ [(i, c, r)]).filter _).map _ ++ pendingOf (s.pcs.set i .idle)[j]?
      rw [pc_set hp, List.filter_append, List.map_append, w.order j]
      by_cases e : j = i
      · subst e; simp [pendingOf, Pc.pending, hp]
      · have e' : ¬ i = j := fun h => e h.symm
        simp [e, e']
  | @lock i c hp he hm =>
    refine ⟨fun j r hr => ?_, fun j hj => ?_, ⟨s1, q1, fun x => (by cases x), fun j r hj hr => ?_⟩, fun j => ?_⟩
    · show some i = some j ↔ _
      have hr' : (s.pcs.set i _)[j]? = some r := hr
      rw [pc_set hp] at hr'
      by_cases e : j = i
      · rw [if_pos e] at hr'; subst e; cases hr'; simp [Pc.holds]
      · rw [if_neg e] at hr'
        have := w.own _ _ hr'
        rw [hm] at this
        constructor
        · intro x; cases x; exact absurd rfl e
        · intro x; exact absurd (this.2 x) (by simp)
    · cases hj
      show ∃ p, (s.pcs.set i _)[i]? = some p
      rw [pc_set hp, if_pos rfl]; exact ⟨_, rfl⟩
    · cases hj
      have hr : (s.pcs.set i _)[i]? = some r := hr
      rw [pc_set hp, if_pos rfl] at hr
      cases hr
      refine ⟨he, fun r s' g => ?_⟩
      rw [← q2 hm]; exact g
    · show _ = _ ++ pendingOf (s.pcs.set i _)[j]?
      rw [pend (q := .body c (M.start c)) hp rfl j]
      exact w.order j
  | @step i c k k' m hp hn =>
    have o := own_set w (q := .body c k') hp rfl
    have hmu := (w.own _ _ hp).2 rfl
    refine ⟨o.1, o.2, ⟨s1, q1, fun x => ?_, fun j r hj hr => ?_⟩, fun j => ?_⟩
    · rw [show s.mu = none from x] at hmu; cases hmu
    · have hj : s.mu = some j := hj
      rw [hmu] at hj; cases hj
      have hr : (s.pcs.set i _)[i]? = some r := hr
      rw [pc_set hp, if_pos rfl] at hr
      cases hr
      have := q3 i _ hmu hp
      exact ⟨this.1, fun r s' g => this.2 r s' (.step hn g)⟩
    · show _ = _ ++ pendingOf (s.pcs.set i _)[j]?
      rw [pend (q := .body c k') hp rfl j]
      exact w.order j
  | @ret i c k r m hp hn =>
    have o := own_set w (q := .held) hp rfl
    have hmu := (w.own _ _ hp).2 rfl
    have hb := q3 i _ hmu hp
    refine ⟨o.1, o.2, ⟨m, ?_, fun x => ?_, fun j p hj hr => ?_⟩, fun j => ?_⟩
    · show Sequential M s0 ((s.log ++ [(i, c, r)]).map _) m
      rw [List.map_append]
      exact .snoc q1 (.body hb.1 (hb.2 _ _ (.ret hn)))
    · rfl
    · have hj : s.mu = some j := hj
      rw [hmu] at hj; cases hj
      have hr : (s.pcs.set i _)[i]? = some p := hr
      rw [pc_set hp, if_pos rfl] at hr
      cases hr
      rfl
    · show _ = ((s.log ++ [(i, c, r)]).filter _).map _ ++ pendingOf (s.pcs.set i .held)[j]?
      rw [pc_set hp, List.filter_append, List.map_append, w.order j]
      by_cases e : j = i
      · subst e; simp [pendingOf, Pc.pending, hp]
      · have e' : ¬ i = j := fun h => e h.symm
        simp [e, e']
  | @unlock i hp =>
    have hmu := (w.own _ _ hp).2 rfl
    have hb : s1 = s.mem := q3 i _ hmu hp
    refine ⟨fun j r hr => ?_, fun j hj => (by cases hj), ⟨s1, q1, fun _ => hb.symm, fun j r hj => (by cases hj)⟩, fun j => ?_⟩
    · have hr : (s.pcs.set i _)[j]? = some r := hr
      show none = some j ↔ _
      rw [pc_set hp] at hr
      split at hr
      · cases hr; simp [Pc.holds]
      · rename_i e
        have := w.own _ _ hr
        rw [hmu] at this
        constructor
        · intro x; cases x
        · intro x; have := this.2 x; cases this; exact absurd rfl e
    · show _ = _ ++ pendingOf (s.pcs.set i _)[j]?
      rw [pend (q := .idle) hp rfl j]
      exact w.order j
  | @reenter i c k c' hp =>
    have o := own_set w (q := .nested c k c') hp rfl
    have hmu := (w.own _ _ hp).2 rfl
    refine ⟨o.1, o.2, ⟨s1, q1, q2, fun j r hj hr => ?_⟩, fun j => ?_⟩
    · have hj : s.mu = some j := hj
      rw [hmu] at hj; cases hj
      have hr : (s.pcs.set i _)[i]? = some r := hr
      rw [pc_set hp, if_pos rfl] at hr
      cases hr
      have := q3 i _ hmu hp
      exact this
    · show _ = _ ++ pendingOf (s.pcs.set i _)[j]?
      rw [pend (q := .nested c k c') hp rfl j]
      exact w.order j
  | @back i c c' k r hp he =>
    have o := own_set w (q := .body c k) hp rfl
    have hmu := (w.own _ _ hp).2 rfl
    refine ⟨o.1, o.2, ⟨s1, q1, q2, fun j r hj hr => ?_⟩, fun j => ?_⟩
    · have hj : s.mu = some j := hj
      rw [hmu] at hj; cases hj
      have hr : (s.pcs.set i _)[i]? = some r := hr
      rw [pc_set hp, if_pos rfl] at hr
      cases hr
      have := q3 i _ hmu hp
      exact this
    · show _ = _ ++ pendingOf (s.pcs.set i _)[j]?
      rw [pend (q := .body c k) hp rfl j]
      exact w.order j
  | @lockAgain i c c' k hp he hm =>
    have := (w.own _ _ hp).2 rfl
    rw [hm] at this; cases this

theorem winvC {P : Lab → Prop} {s0 : S} {n : Nat} {s : St M} (h : Steps M P (initial M s0 n) s) : WInvC M s0 s := by
  induction h with
  | refl => exact winvC_initial s0 n
  | step _ h1 _ ih => exact winvC_step ih h1

/-- results are never revised: what was determined first comes first -/
theorem log_grows {P : Lab → Prop} {s t : St M} (h : Steps M P s t) : s.log <+: t.log := by
  induction h with
  | refl => exact List.prefix_refl _
  | step _ h1 _ ih =>
    refine ih.trans ?_
    cases h1 <;> first | exact List.prefix_refl _ | exact List.prefix_append _ _

/-- nobody is in a callback which has called a method -/
theorem no_nested {s0 : S} {n : Nat} {s : St M} (h : Steps M NoReenter (initial M s0 n) s) : ∀ (i : Nat) (c : C) (k : M.K) (c' : C), s.pcs[i]? ≠ some (Pc.nested c k c') := by
  induction h with
  | refl =>
    intro i c k c' h
    have h : (List.replicate n (Pc.idle : Pc M))[i]? = _ := h
    rw [List.getElem?_replicate] at h
    split at h <;> simp at h
  | step _ h1 hl ih =>
    intro j c k c' hj
    have key : ∀ {l : List (Pc M)} {i : Nat} {p q : Pc M}, l[i]? = some p → (∀ c k c', q ≠ Pc.nested c k c') → (l.set i q)[j]? = some (Pc.nested c k c') → l[j]? = some (Pc.nested c k c') := by
      intro l i p q hp hq h
      rw [pc_set hp] at h
      split at h
      · cases h; exact absurd rfl (hq _ _ _)
      · exact h
    cases h1 with
    | call _ hp => exact ih j c k c' (key hp (fun _ _ _ x => by cases x) hj)
    | early hp _ => exact ih j c k c' (key hp (fun _ _ _ x => by cases x) hj)
    | lock hp _ _ => exact ih j c k c' (key hp (fun _ _ _ x => by cases x) hj)
    | step hp _ => exact ih j c k c' (key hp (fun _ _ _ x => by cases x) hj)
    | ret hp _ => exact ih j c k c' (key hp (fun _ _ _ x => by cases x) hj)
    | unlock hp => exact ih j c k c' (key hp (fun _ _ _ x => by cases x) hj)
    | reenter _ hp => exact absurd rfl hl
    | back hp _ => exact absurd rfl hl
    | lockAgain hp _ _ => exact absurd rfl hl

theorem goes_inv {k : M.K} {s s' : S} {r : R} (h : M.Goes k s r s') :
    M.next k s = some (.inr r, s') ∨ ∃ k' s1, M.next k s = some (.inl k', s1) ∧ M.Goes k' s1 r s' := by
  cases h with
  | ret h => exact Or.inl h
  | step h g => exact Or.inr ⟨_, _, h, g⟩

end

/-! ### the Writer -/

theorem loop_goes {L : HuffLib} : ∀ (fuel : Nat) (p : List UInt8) (n : Nat) {s s' : WState} {r : MRes}, (writerMicro L).Goes (WK.loop fuel p n) s r s' →
    ∃ x, writeLoop L fuel p s = .ok (x, s') ∧ r = .op (match x with | none => .write n none | some e => .write 0 e) := by
  intro fuel
  induction fuel with
  | zero =>
    intro p n s s' r h
    rcases goes_inv h with h | ⟨_, _, h, g⟩
    ·  cases h
    ·  cases h
  | succ fuel ih =>
    intro p n s s' r h
    have hnext : ∀ s, (writerMicro L).next (WK.loop (fuel + 1) p n) s = wNext L (WK.loop (fuel + 1) p n) s := fun _ => rfl
    unfold writeLoop
    by_cases hp : p = []
    · rw [if_pos hp]
      rcases goes_inv h with h | ⟨_, _, h, g⟩
      ·  rw [hnext] at h; simp only [wNext] at h; rw [if_pos hp] at h; cases h; exact ⟨none, rfl, rfl⟩
      ·  rw [hnext] at h; simp only [wNext] at h; rw [if_pos hp] at h; cases h
    · rw [if_neg hp]
      rcases goes_inv h with h | ⟨_, _, h, g⟩
      ·
        rw [hnext] at h; simp only [wNext] at h; rw [if_neg hp] at h
        simp only [] at h ⊢
        cases hc : compressImpl L ((s.lz.write p).1 == 0 || decide ((s.lz.write p).1 < p.length)) { s with lz := (s.lz.write p).2 } with
        | error e => rw [hc] at h; cases h
        | ok x =>
          obtain ⟨b, s1⟩ := x
          rw [hc] at h
          cases b with
          | true => cases h
          | false => cases h; exact ⟨some s'.err, rfl, rfl⟩
      ·
        rw [hnext] at h; simp only [wNext] at h; rw [if_neg hp] at h
        simp only [] at h ⊢
        cases hc : compressImpl L ((s.lz.write p).1 == 0 || decide ((s.lz.write p).1 < p.length)) { s with lz := (s.lz.write p).2 } with
        | error e => rw [hc] at h; cases h
        | ok x =>
          obtain ⟨b, s1⟩ := x
          rw [hc] at h
          cases b with
          | true => cases h; exact ih _ _ g
          | false => cases h

/-- bodies of which `Micro` consists, run without interference, do what the sequential model of the Writer says -/
def Faithful (L : HuffLib) (M : Micro WState Meth MRes) : Prop := ∀ c s r s', M.Call c s r s' → method L c s = .ok (r, s')

/-- the Writer, `Write` consisting of several steps -/
theorem writerMicro_faithful (L : HuffLib) : Faithful L (writerMicro L) := by
  intro c s r s' h
  cases h with
  | early h =>
    have h : early c = some r := h
    unfold early at h
    split at h
    · rename_i hd
      split at h
      · cases h
      · rename_i hn
        cases h
        simp [method, stepOp, wSetHeader, hn]
    · cases h
  | body he h =>
    have h : (writerMicro L).Goes (WK.enter c) s r s' := h
    have hnext : ∀ s, (writerMicro L).next (WK.enter c) s = wNext L (WK.enter c) s := fun _ => rfl
    have other : ∀ {x : Option ((WK ⊕ MRes) × WState)}, x = (match method L c s with | .error _ => none | .ok (r, s) => some (.inr r, s)) →
        (∀ k s1, x ≠ some (.inl k, s1)) ∧ ∀ r s1, x = some (.inr r, s1) → method L c s = .ok (r, s1) := by
      intro x hx
      cases hm : method L c s with
      | error e => rw [hm] at hx; subst hx; exact ⟨fun _ _ y => (by cases y), fun _ _ y => (by cases y)⟩
      | ok y => rw [hm] at hx; subst hx; exact ⟨fun _ _ y => (by cases y), fun _ _ z => (by cases z; rfl)⟩
    by_cases hw : ∃ p, c = .op (.write p)
    · obtain ⟨p, rfl⟩ := hw
      have hwn : wNext L (WK.enter (.op (.write p))) s = (if s.state = .closed then some (.inr (.op (.write 0 (some .closed))), s)
        else if s.state = .error then some (.inr (.op (.write 0 s.err)), s)
        else some (.inl (.loop (2 * p.length + 2) p p.length), s)) := rfl
      simp only [method, stepOp, wWrite]
      by_cases h1 : s.state = .closed
      · rw [if_pos h1] at hwn ⊢
        rcases goes_inv h with h | ⟨_, _, h, g⟩
        ·  rw [hnext, hwn] at h; cases h; rfl
        ·  rw [hnext, hwn] at h; cases h
      · rw [if_neg h1] at hwn ⊢
        by_cases h2 : s.state = .error
        · rw [if_pos h2] at hwn ⊢
          rcases goes_inv h with h | ⟨_, _, h, g⟩
          ·  rw [hnext, hwn] at h; cases h; rfl
          ·  rw [hnext, hwn] at h; cases h
        · rw [if_neg h2] at hwn ⊢
          rcases goes_inv h with h | ⟨_, _, h, g⟩
          ·  rw [hnext, hwn] at h; cases h
          ·
            rw [hnext, hwn] at h
            cases h
            obtain ⟨x, hx, rfl⟩ := loop_goes _ _ _ g
            rw [hx]
            cases x <;> rfl
    · have hx : wNext L (WK.enter c) s = (match method L c s with | .error _ => none | .ok (r, s) => some (.inr r, s)) := by
        cases c with
        | op o =>
          cases o with
          | write p => exact absurd ⟨p, rfl⟩ hw
          | _ => rfl
        | _ => rfl
      rcases goes_inv h with h | ⟨_, _, h, g⟩
      ·  rw [hnext] at h; exact (other hx).2 _ _ h
      ·  rw [hnext] at h; exact absurd h ((other hx).1 _ _)

theorem methods_append {L : HuffLib} : ∀ {cs : List Meth} {rs : List MRes} {s t u : WState} {c : Meth} {r : MRes}, methods L cs s = .ok (rs, t) → method L c t = .ok (r, u) →
    methods L (cs ++ [c]) s = .ok (rs ++ [r], u) := by
  intro cs
  induction cs with
  | nil => intro rs s t u c r h1 h2; cases h1; simp [methods, h2]
  | cons a cs ih =>
    intro rs s t u c r h1 h2
    simp only [methods] at h1
    split at h1
    · cases h1
    · rename_i x s1 hx
      split at h1
      · cases h1
      · rename_i xs s2 hy
        cases h1
        have := ih hy h2
        simp [methods, hx, this]

theorem sequential_methods {L : HuffLib} {M : Micro WState Meth MRes} (hM : Faithful L M) {s0 s : WState} {l : List (Meth × MRes)} (h : Sequential M s0 l s) :
    methods L (l.map (·.1)) s0 = .ok (l.map (·.2), s) := by
  induction h with
  | nil => rfl
  | snoc _ h2 ih =>
    rw [List.map_append, List.map_append]
    exact methods_append ih (hM _ _ _ _ h2)

/-- **C63.** Any number of callers call methods of one Writer, in any interleaving, of any small steps of which the bodies consist.  Then the results of all calls are those which the same calls
have when they are made one after the other, in the order in which their results were determined, which is an order compatible with each caller's own, and with real time (`C63_real_time`);
and whenever nobody is in a body, the Writer is in the state in which the sequence of calls leaves it. -/
theorem C63_linearizable {L : HuffLib} {M : Micro WState Meth MRes} (hM : Faithful L M) {P : Lab → Prop} {s0 : WState} {n : Nat} {s : St M} (h : Steps M P (initial M s0 n) s) :
    ∃ t, methods L (s.log.map (·.2.1)) s0 = .ok (s.log.map (·.2.2), t) ∧ (s.mu = none → s.mem = t) ∧
      ∀ i, (s.calls.filter (·.1 == i)).map (·.2) = (s.log.filter (·.1 == i)).map (·.2.1) ++ pendingOf s.pcs[i]? := by
  have w := winvC h
  obtain ⟨s1, q1, q2, _⟩ := w.seq
  have := sequential_methods hM q1
  rw [List.map_map, List.map_map] at this
  exact ⟨s1, this, q2, w.order⟩

/-- **C63 for the Writer's methods**, in the small steps of Model/WConc.lean: several goroutines calling them is as if they were called one after the other. -/
theorem C63_writer {L : HuffLib} {P : Lab → Prop} {s0 : WState} {n : Nat} {s : St (writerMicro L)} (h : Steps (writerMicro L) P (initial (writerMicro L) s0 n) s) :
    ∃ t, methods L (s.log.map (·.2.1)) s0 = .ok (s.log.map (·.2.2), t) ∧ (s.mu = none → s.mem = t) ∧
      ∀ i, (s.calls.filter (·.1 == i)).map (·.2) = (s.log.filter (·.1 == i)).map (·.2.1) ++ pendingOf s.pcs[i]? := C63_linearizable (writerMicro_faithful L) h

/-- **C63**, real time: the results determined so far stay the first ones for ever; so when a call has returned before another one begins, it comes before it. -/
theorem C63_real_time {M : Micro WState Meth MRes} {P : Lab → Prop} {s t : St M} (h : Steps M P s t) : s.log <+: t.log := log_grows h

/-- **C63**, no deadlock: if callbacks do not call methods of the Writer and no body panics, then, while a call is in progress, something can happen. -/
theorem C63_progress {M : Micro WState Meth MRes} {s0 : WState} {n : Nat} {s : St M} (h : Steps M NoReenter (initial M s0 n) s)
    (hp : ∀ (i : Nat) (c : Meth) (k : M.K), s.pcs[i]? = some (Pc.body c k) → M.next k s.mem ≠ none) {j : Nat} {p : Pc M} (hj : s.pcs[j]? = some p) (hi : p ≠ .idle) :
    ∃ l t, Step M s l t ∧ l ≠ .call ∧ l ≠ .reenter := by
  have w := winvC h
  have hold : ∀ (i : Nat) (q : Pc M), s.pcs[i]? = some q → Pc.holds q = true → ∃ l t, Step M s l t ∧ l ≠ .call ∧ l ≠ .reenter := by
    intro i q hq hh
    cases q with
    | idle => cases hh
    | want c => cases hh
    | held => exact ⟨_, _, .unlock hq, (fun x => nomatch x), (fun x => nomatch x)⟩
    | nested c k c' => exact absurd hq (no_nested h _ _ _ _)
    | body c k =>
      cases hx : M.next k s.mem with
      | none => exact absurd hx (hp i c k hq)
      | some y =>
        obtain ⟨k' | r, m⟩ := y
        · exact ⟨_, _, .step hq hx, (fun x => nomatch x), (fun x => nomatch x)⟩
        · exact ⟨_, _, .ret hq hx, (fun x => nomatch x), (fun x => nomatch x)⟩
  cases hm : s.mu with
  | some i =>
    obtain ⟨q, hq⟩ := w.held i hm
    exact hold i q hq ((w.own i q hq).1 hm)
  | none =>
    cases p with
    | idle => exact absurd rfl hi
    | want c =>
      cases he : M.early c with
      | some r => exact ⟨_, _, .early hj he, (fun x => nomatch x), (fun x => nomatch x)⟩
      | none => exact ⟨_, _, .lock hj he hm, (fun x => nomatch x), (fun x => nomatch x)⟩
    | _ => exact hold j _ hj rfl

/-! ### C63 and what is written -/

/-- the calls of a log, if they are Write, Flush, SetHeader and Close only -/
def opsOf : List (Nat × Meth × MRes) → Option (List WOp × List WRes)
  | [] => some ([], [])
  | (_, .op o, .op r) :: l => (opsOf l).map fun x => (o :: x.1, r :: x.2)
  | _ => none

theorem ops_runs {L : HuffLib} : ∀ {l : List (Nat × Meth × MRes)} {ops : List WOp} {rs : List WRes} {s t : WState}, opsOf l = some (ops, rs) →
    methods L (l.map (·.2.1)) s = .ok (l.map (·.2.2), t) → runOps L ops s = .ok (rs, t) := by
  intro l
  induction l with
  | nil => intro ops rs s t h1 h2; cases h1; cases h2; rfl
  | cons a l ih =>
    intro ops rs s t h1 h2
    obtain ⟨i, c, r⟩ := a
    cases c with
    | op o =>
      cases r with
      | op r =>
        simp only [opsOf, Option.map_eq_some_iff] at h1
        obtain ⟨⟨ops', rs'⟩, h1, h3⟩ := h1
        cases h3
        simp only [List.map_cons, methods, method] at h2
        split at h2
        · cases h2
        · rename_i r1 s1 hs
          split at hs
          · cases hs
          · rename_i r2 s2 hs2
            cases hs
            split at h2
            · cases h2
            · rename_i rs2 s3 hr
              simp only [Except.ok.injEq, Prod.mk.injEq, List.cons.injEq, MRes.op.injEq] at h2
              obtain ⟨⟨rfl, rfl⟩, rfl⟩ := h2
              simp [runOps, hs2, ih h1 hr]
      | _ => cases h1
    | _ => cases h1

/-- **C63 and C01.** Several callers write concurrently, and flush; after the last of these calls one of them closes the Writer.  If no call returns an error, a suitable Reader delivers the
pieces written, each in one piece, in the order in which the calls took effect. -/
theorem C63_round_trip {c : Setup} (h : c.OK) {M : Micro WState Meth MRes} (hM : Faithful c.L M) {P : Lab → Prop} {n : Nat} {s : St M} (hs : Steps M P (initial M c.start n) s) (hmu : s.mu = none)
    {ops : List WOp} {rs : List WRes} (hops : opsOf s.log = some (ops ++ [.close], rs)) (hc : ∀ op ∈ ops, Continues op) (he : NoErr rs)
    (h0 : c.sink.out = []) {r : RSetup} (hok : r.OK) (hsu : Suits c r) {src : Rd.Src} (hsrc : src.bytes = s.mem.sink.out) :
    r.Delivers src (writtenData ops) src.err := by
  obtain ⟨t, h1, h2, _⟩ := C63_linearizable hM hs
  have hr : c.Runs (ops ++ [.close]) rs t := ops_runs hops h1
  rw [h2 hmu] at hsrc
  exact C01_round_trip h hc hr he h0 hok hsu hsrc

/-! ### C64 -/

/-- **C64 is false.** When the underlying writer or a tracer, called by a Writer, calls a method of the same Writer (even `Format`; only a `SetHeader` which fails does no harm), then this call
never returns, and neither does any other which has not returned by then. -/
theorem C64_deadlock {M : Micro WState Meth MRes} {P Q : Lab → Prop} {s0 : WState} {n : Nat} {s : St M} (h : Steps M P (initial M s0 n) s) {i : Nat} {c c' : Meth} {k : M.K}
    (hi : s.pcs[i]? = some (.nested c k c')) (he : M.early c' = none) {t : St M} (ht : Steps M Q s t) :
    t.pcs[i]? = some (.nested c k c') ∧ t.mem = s.mem ∧ ∃ new, t.log = s.log ++ new ∧ ∀ x ∈ new, M.early x.2.1 ≠ none := by
  have w0 := winvC h
  have : WInvC M s0 t ∧ t.pcs[i]? = some (.nested c k c') ∧ t.mem = s.mem ∧ ∃ new, t.log = s.log ++ new ∧ ∀ x ∈ new, M.early x.2.1 ≠ none := by
    induction ht with
    | refl => exact ⟨w0, hi, rfl, [], by simp, by simp⟩
    | @step u v l _ h1 _ ih =>
      obtain ⟨w, a, b, new, d, e⟩ := ih
      have hmu := (w.own _ _ a).2 rfl
      have ne : ∀ {j : Nat} {p : Pc M}, u.pcs[j]? = some p → p ≠ .nested c k c' → i ≠ j := by
        intro j p hp hn ej
        subst ej
        rw [a] at hp; cases hp; exact hn rfl
      have set : ∀ {j : Nat} {p : Pc M} (q : Pc M), u.pcs[j]? = some p → i ≠ j → (u.pcs.set j q)[i]? = some (.nested c k c') := by
        intro j p q hp hn
        rw [pc_set hp, if_neg hn]; exact a
      have only : ∀ {j : Nat} {p : Pc M}, u.pcs[j]? = some p → Pc.holds p = true → j = i := by
        intro j p hp hh
        have := (w.own _ _ hp).2 hh
        rw [hmu] at this; cases this; rfl
      refine ⟨winvC_step w h1, ?_⟩
      cases h1 with
      | call x hp => exact ⟨set _ hp (ne hp (fun y => nomatch y)), b, new, d, e⟩
      | @early j x r hp hx =>
        refine ⟨set _ hp (ne hp (fun y => nomatch y)), b, new ++ [(j, x, r)], by rw [← List.append_assoc, ← d], ?_⟩
        intro y hy
        rcases List.mem_append.1 hy with hy | hy
        · exact e y hy
        · rw [List.mem_singleton.1 hy, hx]; exact fun z => nomatch z
      | lock hp _ hm => rw [hmu] at hm; cases hm
      | step hp _ => exact absurd (only hp rfl).symm (ne hp (fun y => nomatch y))
      | ret hp _ => exact absurd (only hp rfl).symm (ne hp (fun y => nomatch y))
      | unlock hp => exact absurd (only hp rfl).symm (ne hp (fun y => nomatch y))
      | reenter _ hp => exact absurd (only hp rfl).symm (ne hp (fun y => nomatch y))
      | back hp hx =>
        have := only hp rfl
        subst this
        rw [a] at hp; cases hp
        rw [he] at hx; cases hx
      | lockAgain hp _ hm => rw [hmu] at hm; cases hm
  exact this.2

/-- **C64 is false**, an instance: in the middle of `Write`, a tracer calls `Format`. -/
theorem C64_fails : ∃ (s : St (writerMicro refLib)) (k : WK), Steps _ (fun _ => True) (initial (writerMicro refLib) (demo [.format .raw]).start 1) s ∧
    s.pcs[0]? = some (.nested (.op (.write [1])) k .options) ∧ (writerMicro refLib).early .options = none :=
  ⟨_, .loop 4 [1] 1, .step (.step (.step (.step .refl (.call (i := 0) (.op (.write [1])) rfl) trivial) (.lock (i := 0) rfl rfl rfl) trivial)
    (.step (i := 0) (k' := WK.loop 4 [1] 1) rfl rfl) trivial) (.reenter (i := 0) .options rfl) trivial, rfl, rfl⟩

/-! ### examples -/

/-- bodies in one step -/
def atomicMicro (L : HuffLib) : Micro WState Meth MRes := ⟨Meth, id, fun c s => match method L c s with | .error _ => none | .ok (r, s) => some (.inr r, s), early⟩

theorem atomic_faithful (L : HuffLib) : Faithful L (atomicMicro L) := by
  intro c s r s' h
  cases h with
  | early h => exact writerMicro_faithful L c s r s (.early h)
  | body he h =>
    rcases goes_inv h with h | ⟨_, _, h, g⟩
    · have h : (match method L c s with | .error _ => none | .ok (r, s) => some ((.inr r : Meth ⊕ MRes), s)) = some (.inr r, s') := h
      split at h
      · cases h
      · rename_i e; cases h; exact e
    · have h : (match method L c s with | .error _ => none | .ok (r, s) => some ((.inr r : Meth ⊕ MRes), s)) = some (.inl _, _) := h
      split at h <;> cases h

/-- a caller makes a call, undisturbed -/
theorem call_exec {L : HuffLib} {P : Lab → Prop} (hP : ∀ l, P l) {s0 s : St (atomicMicro L)} (h : Steps _ P s0 s) (hm : s.mu = none) {i : Nat} (hi : s.pcs[i]? = some .idle) {o : WOp} {r : WRes} {t : WState}
    (ho : stepOp L o s.mem = .ok (r, t)) (he : early (.op o) = none) :
    ∃ s', Steps _ P s0 s' ∧ s'.mu = none ∧ s'.pcs = s.pcs ∧ s'.mem = t ∧ s'.log = s.log ++ [(i, .op o, .op r)] := by
  have hl : i < s.pcs.length := (List.getElem?_eq_some_iff.1 hi).1
  have hget : ∀ (l : List (Pc (atomicMicro L))) (q : Pc (atomicMicro L)), l.length = s.pcs.length → (l.set i q)[i]? = some q := fun l q e => by simp [e, hl]
  have hmeth : (atomicMicro L).next (Meth.op o) s.mem = some (.inr (.op r), t) := by
    show (match method L (.op o) s.mem with | .error _ => none | .ok (r, s) => some ((.inr r : Meth ⊕ MRes), s)) = _
    simp only [method, ho]
    rfl
  have he' : (atomicMicro L).early (.op o) = none := he
  have s1 := h.step (.call (.op o) hi) (hP _)
  have s2 := s1.step (.lock (i := i) (c := .op o) (hget _ _ rfl) he' hm) (hP _)
  have s3 := s2.step (.ret (i := i) (c := .op o) (k := Meth.op o) (hget _ _ (by simp)) hmeth) (hP _)
  have s4 := s3.step (.unlock (i := i) (hget _ _ (by simp))) (hP _)
  refine ⟨_, s4, rfl, ?_, rfl, rfl⟩
  show (((s.pcs.set i _).set i _).set i _).set i _ = s.pcs
  simp only [List.set_set]
  refine List.ext_getElem? fun j => ?_
  rw [pc_set hi]
  split
  · rename_i e; rw [e, hi]
  · rfl

/-- the hypotheses of `C63_round_trip` are met: two callers write, one of them closes -/
example : ∃ (s : St (atomicMicro refLib)) (rs : List WRes), Steps _ (fun _ => True) (initial (atomicMicro refLib) (demo [.format .zlib, .mlevel 1]).start 2) s ∧ s.mu = none ∧
    opsOf s.log = some ([.write [1, 2], .write [3]] ++ [.close], rs) ∧ s.log.map (·.1) = [0, 1, 0] ∧ NoErr rs := by
  obtain ⟨rs, t, h1, h2⟩ := (demo_ok (opts := [.format .zlib, .mlevel 1]) (by decide)).run_close_ok (Or.inr (by decide)) (demo_sink _) (ops := [.write [1, 2], .write [3]]) (by simp)
  obtain ⟨r1, u1, rs1, a1, b1, rfl⟩ := run_cons_inv h1
  obtain ⟨r2, u2, rs2, a2, b2, rfl⟩ := run_cons_inv b1
  obtain ⟨r3, u3, rs3, a3, b3, rfl⟩ := run_cons_inv b2
  cases b3
  obtain ⟨s1, c1, d1, e1, f1, g1⟩ := call_exec (P := fun _ => True) (fun _ => trivial) (Steps.refl (M := atomicMicro refLib) (s := initial (atomicMicro refLib) (demo [.format .zlib, .mlevel 1]).start 2)) rfl (i := 0) rfl a1 rfl
  obtain ⟨s2, c2, d2, e2, f2, g2⟩ := call_exec (fun _ => trivial) c1 d1 (i := 1) (by rw [e1]; rfl) (by rw [f1]; exact a2) rfl
  obtain ⟨s3, c3, d3, e3, f3, g3⟩ := call_exec (fun _ => trivial) c2 d2 (i := 0) (by rw [e2, e1]; rfl) (by rw [f2]; exact a3) rfl
  have hl : s3.log = [(0, .op (.write [1, 2]), .op r1), (1, .op (.write [3]), .op r2), (0, .op .close, .op r3)] := by rw [g3, g2, g1]; rfl
  exact ⟨s3, [r1, r2, r3], c3, d3, by rw [hl]; rfl, by rw [hl]; rfl, h2⟩

end Flate.Props
