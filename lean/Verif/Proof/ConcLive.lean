/-
Liveness of the concurrent model.
-/
import Verif.Proof.Conc

namespace Flate.Proof.Cc
open Flate.Model Flate.Model.Rd Flate.Model.Conc

/-- what can be said of a caller if nobody calls `Reset` -/
def Kind (st fo : Bool) : CPc → Prop
  | .rs0 _ | .rs1 _ | .rs2 _ => False
  | .rd2 _ | .rd3 _ | .rdWait _ | .rdWoken _ | .rd4 _ => st = true
  | .cl4 => fo = true
  | _ => True

def NR (s : St) : Prop := ∀ (i : Nat) (c : CPc), s.cls[i]? = some c → Kind s.started s.forced c

theorem kind_mono {st fo st' fo' : Bool} (h1 : st = true → st' = true) (h2 : fo = true → fo' = true) {c : CPc} (h : Kind st fo c) : Kind st' fo' c := by
  cases c <;> first | exact h | exact h1 h | exact h2 h

theorem nr_set {cls : List CPc} {st fo st' fo' : Bool} {i : Nat} {c' : CPc} (h : ∀ (i : Nat) (c : CPc), cls[i]? = some c → Kind st fo c)
    (h1 : st = true → st' = true) (h2 : fo = true → fo' = true) (hk : Kind st' fo' c') :
    ∀ (j : Nat) (c : CPc), (cls.set i c')[j]? = some c → Kind st' fo' c := by
  intro j c hj
  rw [List.getElem?_set] at hj
  split at hj
  · split at hj
    · cases hj; exact hk
    · cases hj
  · exact kind_mono h1 h2 (h j c hj)

theorem kind_wake {st fo : Bool} {c : CPc} : Kind st fo (wakeC c) ↔ Kind st fo c := by cases c <;> exact Iff.rfl

theorem nr_wake {cls : List CPc} {st fo : Bool} (h : ∀ (i : Nat) (c : CPc), cls[i]? = some c → Kind st fo c) :
    ∀ (j : Nat) (c : CPc), (cls.map wakeC)[j]? = some c → Kind st fo c := by
  intro j c hj
  rw [List.getElem?_map] at hj
  cases hd : cls[j]? with
  | none => rw [hd] at hj; cases hj
  | some d => rw [hd] at hj; cases hj; exact kind_wake.2 (h j d hd)

theorem nr_signal {cls cls' : List CPc} {st fo : Bool} (h : ∀ (i : Nat) (c : CPc), cls[i]? = some c → Kind st fo c) (sg : Signal1 cls cls') :
    ∀ (j : Nat) (c : CPc), cls'[j]? = some c → Kind st fo c := by
  cases sg with
  | nobody _ => exact h
  | @one k n hk => exact nr_set h (fun x => x) (fun x => x) (show Kind _ _ (.rdWait n) from h k _ hk)

theorem nr_finish {s s' : St} {i n : Nat} (w : NR s) (h : Finish s i n s') : NR s' := by
  cases h with
  | error hb => exact nr_set w (fun x => x) (fun x => x) trivial
  | all hb _ => exact nr_set w (fun x => x) (fun x => x) trivial
  | some hb hr hn sg => exact nr_signal (nr_set (c' := .idle) w (fun x => x) (fun x => x) trivial) sg

theorem nr_step {s s' : St} {l : Lab} (w : NR s) (h : Step s l s') (hl : NoReset l) : NR s' := by
  cases h with
  | callRead n h => exact nr_set w (fun x => x) (fun x => x) trivial
  | callClose h => exact nr_set w (fun x => x) (fun x => x) trivial
  | callReset sc h => exact hl.elim
  | callGet h => exact nr_set w (fun x => x) (fun x => x) trivial
  | callUnder h => exact nr_set w (fun x => x) (fun x => x) trivial
  | gt0 h m => exact nr_set w (fun x => x) (fun x => x) trivial
  | gt1 h => exact nr_set w (fun x => x) (fun x => x) trivial
  | ur h => exact nr_set w (fun x => x) (fun x => x) trivial
  | rd0 h m => exact nr_set w (fun x => x) (fun x => x) trivial
  | rd1 h m => exact nr_set w (fun x => x) (fun x => x) m
  | rd1go h m => exact nr_set w (fun _ => rfl) (fun x => x) rfl
  | rd2 h m => exact nr_set w (fun x => x) (fun x => x) (show Kind _ _ (.rd2 _) from w _ _ h)
  | rd3wait h m m' => exact nr_set w (fun x => x) (fun x => x) (show Kind _ _ (.rd3 _) from w _ _ h)
  | rd3 h m f => exact nr_finish w f
  | rdWoken h m => exact nr_set w (fun x => x) (fun x => x) (show Kind _ _ (.rdWoken _) from w _ _ h)
  | rd4wait h m m' => exact nr_set w (fun x => x) (fun x => x) (show Kind _ _ (.rd4 _) from w _ _ h)
  | rd4 h m f => exact nr_finish w f
  | cl0 h m => exact nr_set w (fun x => x) (fun x => x) trivial
  | cl1ret h m => exact nr_set w (fun x => x) (fun x => x) trivial
  | cl1 h a b _ => exact nr_set w (fun x => x) (fun x => x) trivial
  | cl3 h => exact nr_wake (nr_set w (fun x => x) (fun _ => rfl) rfl)
  | cl4 h _ => exact nr_set w (fun x => x) (fun x => x) trivial
  | cl5 h m => exact nr_set w (fun x => x) (fun x => x) trivial
  | cl6 h => exact nr_set w (fun x => x) (fun x => x) trivial
  | rs0 h m => exact (w _ _ h).elim
  | rs1 h m => exact (w _ _ h).elim
  | rs2 h m => exact (w _ _ h).elim
  | errSet h => exact nr_wake w
  | fl5end h _ sg => exact nr_signal w sg
  | fl5 h _ _ _ _ sg => exact nr_signal w sg
  | _ => exact w

/-! ### There is always a step -/

theorem signal_exists (cls : List CPc) : ∃ cls', Signal1 cls cls' := by
  by_cases h : ∃ j n : Nat, cls[j]? = some (CPc.rdWait n)
  · obtain ⟨j, n, hj⟩ := h
    exact ⟨_, .one hj⟩
  · exact ⟨cls, .nobody fun j n hj => h ⟨j, n, hj⟩⟩

theorem finish_exists (s : St) (i n : Nat) : ∃ s', Finish s i n s' := by
  by_cases hb : s.buf = []
  · exact ⟨_, .error hb⟩
  · by_cases hr : s.buf.drop n = []
    · refine ⟨_, .all (p := s.buf) hb ⟨by simp, ?_, fun _ => hb⟩⟩
      simpa using hr
    · obtain ⟨cs, sg⟩ := signal_exists (s.cls.set i .idle)
      refine ⟨_, .some (p := s.buf.take n) (rest := s.buf.drop n) hb ⟨by simp, by simp; omega, fun h => ?_⟩ hr sg⟩
      intro e
      have := congrArg List.length e
      simp only [List.length_take, List.length_nil] at this
      have := List.length_pos_iff.2 hb
      omega

/-- something other than a call can happen -/
def CanStep (s : St) : Prop := ∃ l s', Step s l s' ∧ Internal l

theorem can_read {s : St} {i n : Nat} (h : s.cls[i]? = some (.rd3 n) ∨ s.cls[i]? = some (.rd4 n)) : CanStep s := by
  obtain ⟨s', hf⟩ := finish_exists s i n
  by_cases e : s.outErr = none ∧ s.buf = []
  · rcases h with h | h
    · exact ⟨_, _, .rd3wait h e.1 e.2, trivial⟩
    · exact ⟨_, _, .rd4wait h e.1 e.2, trivial⟩
  · rcases h with h | h
    · exact ⟨_, _, .rd3 h e hf, trivial⟩
    · exact ⟨_, _, .rd4 h e hf, trivial⟩

theorem can_flush {s : St} (i : Inv s) {p : List UInt8} (h : s.th = .fl5 p) : CanStep s := by
  obtain ⟨cs, sg⟩ := signal_exists s.cls
  have hr := i.flags.room p (Or.inr (Or.inr h))
  by_cases hl : s.buf.length + p.length ≤ s.cap
  · exact ⟨_, _, .fl5end h hl sg, trivial⟩
  · refine ⟨.thread, _, .fl5 h (List.take_append_drop (s.cap - s.buf.length) p).symm ?_ ?_ ?_ sg, trivial⟩
    · intro e
      have := congrArg List.length e
      simp only [List.length_take, List.length_nil] at this
      omega
    · intro e
      have := congrArg List.length e
      simp only [List.length_drop, List.length_nil] at this
      omega
    · simp only [List.length_take]; omega

theorem can_run {s : St} (h : s.th = .run) (h2 : s.mu2 = none) : CanStep s := by
  cases ha : s.acts with
  | nil => exact ⟨_, _, .exit h ha, trivial⟩
  | cons a r =>
    cases a with
    | data p =>
      by_cases e : s.forced = true ∨ p = []
      · exact ⟨_, _, .skip h ha e, trivial⟩
      · refine ⟨_, _, .flush h ha ?_ fun x => e (Or.inr x), trivial⟩
        cases hf : s.forced with
        | false => rfl
        | true => exact (e (Or.inl hf)).elim
    | err x =>
      cases hf : s.errSet with
      | true => exact ⟨_, _, .skipErr h ha hf, trivial⟩
      | false => exact ⟨_, _, .errLock h ha hf h2, trivial⟩

/-- whoever holds a mutex can go on -/
theorem unlocked_or {s : St} (i : Inv s) (nr : NR s) : CanStep s ∨ s.mu1 = none ∧ s.mu2 = none := by
  suffices h : ¬ (s.mu1 = none ∧ s.mu2 = none) → CanStep s by
    by_cases e : s.mu1 = none ∧ s.mu2 = none
    · exact Or.inr e
    · exact Or.inl (h e)
  intro hne
  cases h2 : s.mu2 with
  | some w =>
    cases w with
    | client j =>
      obtain ⟨d, hd, e⟩ := (i.o2.c j).1 h2
      have := nr _ _ hd
      cases d <;> simp [holds2] at e
      · exact can_read (Or.inl hd)
      · exact can_read (Or.inr hd)
      · exact ⟨_, _, .cl3 hd, trivial⟩
      · exact this.elim
    | thread =>
      have e := i.o2.t.1 h2
      cases ht : s.th <;> rw [ht] at e <;> simp [th2] at e
      · exact ⟨_, _, .errSet ht, trivial⟩
      · by_cases hf : s.cap ≤ s.buf.length
        · exact ⟨_, _, .fl2wait ht hf, trivial⟩
        · exact ⟨_, _, .fl2 ht (by omega), trivial⟩
      · exact can_flush i ht
  | none =>
    cases h1 : s.mu1 with
    | some w =>
      cases w with
      | client j =>
        obtain ⟨d, hd, e⟩ := (i.o1.c j).1 h1
        have := nr _ _ hd
        cases d <;> simp [holds1] at e
        · cases hs : s.started with
          | true => exact ⟨_, _, .rd1 hd hs, trivial⟩
          | false => exact ⟨_, _, .rd1go hd hs, trivial⟩
        · by_cases hs : s.started = true ∧ s.stopped = false
          · exact ⟨_, _, .cl1 hd hs.1 hs.2 h2, trivial⟩
          · exact ⟨_, _, .cl1ret hd hs, trivial⟩
        · exact ⟨_, _, .cl3 hd, trivial⟩
        · exact ⟨_, _, .cl6 hd, trivial⟩
        · exact this.elim
        · exact this.elim
        · exact ⟨_, _, .gt1 hd, trivial⟩
      | thread =>
        have e := i.o1.t.1 h1
        cases ht : s.th <;> rw [ht] at e <;> simp [th1] at e
        · exact can_run ht h2
        · exact ⟨_, _, .errSet ht, trivial⟩
        · cases hf : s.forced with
          | true => exact ⟨_, _, .fl4stop ht hf, trivial⟩
          | false => exact ⟨_, _, .fl4 ht hf h2, trivial⟩
        · exact can_flush i ht
    | none => exact (hne ⟨h1, h2⟩).elim

/-- if nothing can happen, the goroutine waits or has ended -/
theorem thread_or {s : St} (i : Inv s) (nr : NR s) : CanStep s ∨ s.th = .absent ∨ ∃ p, s.th = .flWait p := by
  rcases unlocked_or i nr with h | ⟨h1, h2⟩
  · exact Or.inl h
  have ht1 : th1 s.th = false := by
    cases e : th1 s.th with
    | false => rfl
    | true => rw [i.o1.t.2 e] at h1; cases h1
  have ht2 : th2 s.th = false := by
    cases e : th2 s.th with
    | false => rfl
    | true => rw [i.o2.t.2 e] at h2; cases h2
  cases ht : s.th with
  | absent => exact Or.inr (Or.inl rfl)
  | entry => exact Or.inl ⟨_, _, .entry ht h1, trivial⟩
  | fl1 p => exact Or.inl ⟨_, _, .fl1 ht h2, trivial⟩
  | flWait p => exact Or.inr (Or.inr ⟨p, rfl⟩)
  | flWoken p => exact Or.inl ⟨_, _, .flWoken ht h2, trivial⟩
  | fl3 p => exact Or.inl ⟨_, _, .fl3 ht h1, trivial⟩
  | fl2 p => rw [ht] at ht2; cases ht2
  | run => rw [ht] at ht1; cases ht1
  | errHeld p => rw [ht] at ht1; cases ht1
  | fl4 p => rw [ht] at ht1; cases ht1
  | fl5 p => rw [ht] at ht1; cases ht1

theorem progress {s : St} (i : Inv s) (nr : NR s) (he : actErr s.script ≠ none) {k : Nat} {c : CPc} (hk : s.cls[k]? = some c) (hc : c ≠ .idle) :
    CanStep s := by
  rcases unlocked_or i nr with h | ⟨h1, h2⟩
  · exact h
  have wake : ∀ {j m : Nat}, s.cls[j]? = some (CPc.rdWoken m) ∨ s.cls[j]? = some (CPc.rd4 m) → CanStep s := by
    intro j m hj
    rcases hj with hj | hj
    · exact ⟨_, _, .rdWoken hj h2, trivial⟩
    · exact can_read (Or.inr hj)
  have thr := thread_or i nr
  have nk := nr _ _ hk
  cases c with
  | idle => exact (hc rfl).elim
  | rd0 n => exact ⟨_, _, .rd0 hk h1, trivial⟩
  | rd1 n =>
    cases hs : s.started with
    | true => exact ⟨_, _, .rd1 hk hs, trivial⟩
    | false => exact ⟨_, _, .rd1go hk hs, trivial⟩
  | rd2 n => exact ⟨_, _, .rd2 hk h2, trivial⟩
  | rd3 n => exact can_read (Or.inl hk)
  | rdWoken n => exact wake (Or.inl hk)
  | rd4 n => exact wake (Or.inr hk)
  | cl0 => exact ⟨_, _, .cl0 hk h1, trivial⟩
  | cl1 =>
    by_cases hs : s.started = true ∧ s.stopped = false
    · exact ⟨_, _, .cl1 hk hs.1 hs.2 h2, trivial⟩
    · exact ⟨_, _, .cl1ret hk hs, trivial⟩
  | cl3 => exact ⟨_, _, .cl3 hk, trivial⟩
  | cl5 => exact ⟨_, _, .cl5 hk h1, trivial⟩
  | cl6 => exact ⟨_, _, .cl6 hk, trivial⟩
  | rs0 _ => exact nk.elim
  | rs1 _ => exact nk.elim
  | rs2 _ => exact nk.elim
  | gt0 => exact ⟨_, _, .gt0 hk h1, trivial⟩
  | gt1 => exact ⟨_, _, .gt1 hk, trivial⟩
  | ur => exact ⟨_, _, .ur hk, trivial⟩
  | cl4 =>
    have hf : s.forced = true := nk
    by_cases hz : 0 < s.zomb
    · exact ⟨_, _, .done hz, trivial⟩
    · rcases thr with h | ht | ⟨p, ht⟩
      · exact h
      · have := i.wg
        unfold Wg at this
        rw [ht] at this
        exact ⟨_, _, .cl4 hk (by simp only [alive] at this; omega), trivial⟩
      · exact (i.flags.fw p ht (i.flags.fo hf).2).elim
  | rdWait n =>
    have hs : s.started = true := nk
    rcases thr with h | ht | ⟨p, ht⟩
    · exact h
    · have hst : s.stopped = true := by
        cases e : s.stopped with
        | true => rfl
        | false => exact (i.flags.run.2 ⟨hs, e⟩ ht).elim
      have hso : s.outErr.isSome = true := by
        cases hf : s.forced with
        | true => rw [(i.flags.fo hf).1]; rfl
        | false =>
          obtain ⟨d, w, pr⟩ := i.prog
          have h1 := pr.script
          rw [ht, i.flags.fin hst] at h1
          simp only [pend, List.append_nil] at h1
          rw [pr.err hf, ← h1]
          exact Option.isSome_iff_ne_none.2 he
      exact (i.waits.err hso k n hk).elim
    · obtain ⟨j, m, hj⟩ := i.waits.data (i.flags.fw p ht) k n hk
      exact wake hj

/-! ### It ends -/

def actSize : List Act → Nat
  | [] => 0
  | .data p :: r => p.length + 2 + actSize r
  | .err _ :: r => 2 + actSize r

/-- what the goroutine has still to do -/
def work (started : Bool) (acts : List Act) : TPc → Nat
  | .absent => if started then 0 else actSize acts + 3
  | .entry => actSize acts + 2
  | .run => actSize acts + 1
  | .errHeld _ => actSize acts + 2
  | .fl1 p | .fl2 p | .flWait p | .flWoken p | .fl3 p | .fl4 p | .fl5 p => actSize acts + p.length + 2

def trank : TPc → Nat
  | .fl1 _ | .flWoken _ => 7
  | .fl2 _ => 6
  | .fl3 _ => 5
  | .fl4 _ => 4
  | .fl5 _ => 3
  | _ => 0

def weight : CPc → Nat
  | .idle => 0
  | .cl0 | .cl1 | .cl3 => 2
  | _ => 1

def crank : CPc → Nat
  | .idle => 0
  | .rd0 _ => 16
  | .rd1 _ => 15
  | .rd2 _ => 14
  | .rd3 _ => 13
  | .rdWait _ => 0
  | .rdWoken _ => 4
  | .rd4 _ => 3
  | .cl0 => 3
  | .cl1 => 2
  | .cl3 => 1
  | .cl4 => 3
  | .cl5 => 2
  | .cl6 => 1
  | .gt0 => 2
  | .gt1 => 1
  | .ur => 1
  | _ => 0

def msum (f : CPc → Nat) (cls : List CPc) : Nat := (cls.map f).sum

theorem msum_set (f : CPc → Nat) {cls : List CPc} {i : Nat} {c c' : CPc} (h : cls[i]? = some c) :
    msum f (cls.set i c') + f c = msum f cls + f c' := by
  induction cls generalizing i with
  | nil => cases h
  | cons d cls ih =>
    cases i with
    | zero =>
      have h' : d = c := by simpa using h
      subst h'
      simp only [List.set_cons_zero, msum, List.map_cons, List.sum_cons]; omega
    | succ i =>
      have := ih (i := i) (by simpa using h)
      simp only [List.set_cons_succ, msum, List.map_cons, List.sum_cons] at this ⊢; omega

theorem msum_wake (cls : List CPc) : msum weight (cls.map wakeC) = msum weight cls := by
  have : ∀ c, weight (wakeC c) = weight c := by intro c; cases c <;> rfl
  simp only [msum, List.map_map]
  congr 1
  apply List.map_congr_left
  intro c _
  exact this c

theorem msum_signal {cls cls' : List CPc} (sg : Signal1 cls cls') : msum weight cls' = msum weight cls := by
  cases sg with
  | nobody _ => rfl
  | @one k n hk => have := msum_set weight (c' := .rdWoken n) hk; simp only [weight] at this; omega

/-- the measure -/
def wk (s : St) : Nat := work s.started s.acts s.th
def wt (s : St) : Nat := msum weight s.cls
def rk (s : St) : Nat := msum crank s.cls + trank s.th + s.zomb

theorem work_wake (b : Bool) (a : List Act) (t : TPc) : work b a (wakeT t) = work b a t := by cases t <;> rfl

def Less (s' s : St) : Prop := wk s' < wk s ∨ (wk s' = wk s ∧ wt s' < wt s) ∨ (wk s' = wk s ∧ wt s' = wt s ∧ rk s' < rk s)

theorem less_wf : WellFounded Less := by
  have h := (Prod.lex Nat.lt_wfRel (Prod.lex Nat.lt_wfRel Nat.lt_wfRel)).wf
  have h2 := InvImage.wf (fun s : St => (wk s, wt s, rk s)) h
  refine Subrelation.wf (fun {a b} hab => ?_) h2
  rcases hab with h | ⟨e, h⟩ | ⟨e1, e2, h⟩
  · exact Prod.Lex.left _ _ h
  · show Prod.Lex _ _ (wk a, wt a, rk a) (wk b, wt b, rk b)
    rw [e]; exact Prod.Lex.right _ (Prod.Lex.left _ _ h)
  · show Prod.Lex _ _ (wk a, wt a, rk a) (wk b, wt b, rk b)
    rw [e1, e2]; exact Prod.Lex.right _ (Prod.Lex.right _ h)

theorem less_finish {s s' : St} {i n : Nat} {c : CPc} (hc : s.cls[i]? = some c) (hw : weight c = 1) (h : Finish s i n s') : Less s' s := by
  have := msum_set weight (c' := .idle) hc
  rw [hw] at this
  have h0 : weight .idle = 0 := rfl
  right; left
  cases h with
  | error hb => exact ⟨rfl, by simp only [wt, St.setC]; omega⟩
  | all hb hp => exact ⟨work_wake _ _ _, by simp only [wt, St.setC]; omega⟩
  | some hb hr hn sg => exact ⟨rfl, by have := msum_signal sg; simp only [wt]; omega⟩

theorem less_client {s s' : St} {i : Nat} {c c' : CPc} (hc : s.cls[i]? = some c) (e : s'.cls = s.cls.set i c') (e1 : wk s' = wk s)
    (e2 : s'.th = s.th) (e3 : s'.zomb = s.zomb) (hw : weight c' < weight c ∨ weight c' = weight c ∧ crank c' < crank c) : Less s' s := by
  have h1 := msum_set weight (c' := c') hc
  have h2 := msum_set crank (c' := c') hc
  right
  rcases hw with h | ⟨h, h'⟩
  · left; exact ⟨e1, by simp only [wt, e]; omega⟩
  · right; exact ⟨e1, by simp only [wt, e]; omega, by simp only [rk, e, e2, e3]; omega⟩

theorem less_step {s s' : St} {l : Lab} (i : Inv s) (nr : NR s) (h : Step s l s') (hl : Internal l) : Less s' s := by
  cases h with
  | callRead n h => exact hl.elim
  | callClose h => exact hl.elim
  | callReset sc h => exact hl.elim
  | rd0 h m => exact less_client h rfl rfl rfl rfl (by simp [weight, crank])
  | rd1 h m => exact less_client h rfl rfl rfl rfl (by simp [weight, crank])
  | rd1go h m => left; simp [wk, (i.flags.ns m).1, work, m, St.setC]
  | rd2 h m => exact less_client h rfl rfl rfl rfl (by simp [weight, crank])
  | rd3wait h m m' =>
    rcases wakeT_cases s.th with ⟨e, _⟩ | ⟨p, e, _⟩
    · rw [e]; exact less_client h rfl rfl rfl rfl (by simp [weight, crank])
    · exact (i.flags.fw _ e m').elim
  | rd3 h m f => exact less_finish h rfl f
  | rdWoken h m => exact less_client h rfl rfl rfl rfl (by simp [weight, crank])
  | rd4wait h m m' => exact less_client h rfl rfl rfl rfl (by simp [weight, crank])
  | rd4 h m f => exact less_finish h rfl f
  | cl0 h m => exact less_client h rfl rfl rfl rfl (by simp [weight, crank])
  | cl1ret h m => exact less_client h rfl rfl rfl rfl (by simp [weight])
  | cl1 h a b _ => exact less_client h rfl rfl rfl rfl (by simp [weight, crank])
  | cl3 h =>
    right; left
    refine ⟨work_wake _ _ _, ?_⟩
    have := msum_set weight (c' := .cl4) h
    simp only [weight] at this
    simp only [wt, msum_wake]; omega
  | cl4 h _ => exact less_client h rfl rfl rfl rfl (by simp [weight, crank])
  | cl5 h m => exact less_client h rfl rfl rfl rfl (by simp [weight, crank])
  | cl6 h => exact less_client h rfl rfl rfl rfl (by simp [weight])
  | rs0 h m => exact (nr _ _ h).elim
  | rs1 h m => exact (nr _ _ h).elim
  | rs2 h m => exact (nr _ _ h).elim
  | callGet h => exact hl.elim
  | callUnder h => exact hl.elim
  | gt0 h m => exact less_client h rfl rfl rfl rfl (by simp [weight, crank])
  | gt1 h => exact less_client h rfl rfl rfl rfl (by simp [weight])
  | ur h => exact less_client h rfl rfl rfl rfl (by simp [weight])
  | entry h m => left; simp [wk, h, work]
  | skip h ha _ => left; simp [wk, h, ha, work, actSize]
  | flush h ha _ _ => left; simp [wk, h, ha, work, actSize]; omega
  | skipErr h ha _ => left; simp [wk, h, ha, work, actSize]
  | errLock h ha _ _ => left; simp [wk, h, ha, work, actSize]; omega
  | errSet h => left; simp [wk, h, work]
  | exit h ha =>
    left
    have : s.started = true := by
      cases e : s.started with
      | true => rfl
      | false => have := (i.flags.ns e).1; rw [h] at this; cases this
    simp [wk, h, work, this]
  | fl1 h _ => right; right; simp [wk, wt, rk, h, work, trank]
  | fl2wait h _ => right; right; simp [wk, wt, rk, h, work, trank]
  | fl2 h _ => right; right; simp [wk, wt, rk, h, work, trank]
  | flWoken h _ => right; right; simp [wk, wt, rk, h, work, trank]
  | fl3 h _ => right; right; simp [wk, wt, rk, h, work, trank]
  | fl4stop h _ => left; simp [wk, h, work]; try omega
  | fl4 h _ _ => right; right; simp [wk, wt, rk, h, work, trank]
  | fl5end h _ sg => left; simp [wk, h, work]; try omega
  | fl5 h e hq _ _ sg => left; have := List.length_pos_iff.2 hq; simp [wk, h, work, e]; omega
  | fl5full h hf _ => have := i.flags.room _ (Or.inr (Or.inr h)); omega
  | done h => right; right; simp only [wk, wt, rk, true_and]; omega

/-- No infinite sequence of steps without calls. -/
theorem no_infinite {s : St} (i : Inv s) (nr : NR s) : ¬ ∃ f : Nat → St, f 0 = s ∧ ∀ k, ∃ l, Internal l ∧ Step (f k) l (f (k + 1)) := by
  rintro ⟨f, h0, hf⟩
  have hi : ∀ k, Inv (f k) ∧ NR (f k) := by
    intro k
    induction k with
    | zero => rw [h0]; exact ⟨i, nr⟩
    | succ k ih =>
      obtain ⟨l, hl, hs⟩ := hf k
      exact ⟨ih.1.step hs, nr_step ih.2 hs (by cases l <;> trivial)⟩
  have hacc : ∀ s, Acc Less s → ∀ k, f k ≠ s := by
    intro s ha
    induction ha with
    | intro s _ ih =>
      intro k e
      obtain ⟨l, hl, hs⟩ := hf k
      have := less_step (hi k).1 (hi k).2 hs hl
      rw [e] at this
      exact ih _ this (k + 1) rfl
  exact hacc (f 0) (less_wf.apply _) 0 rfl

theorem nr_initial (cap : Nat) (script : List Act) (n : Nat) : NR (initial cap script n) := by
  intro i c h
  rw [replicate_get h]; trivial

theorem NR.steps {P : Lab → Prop} {s s' : St} (i : NR s) (hP : ∀ l, P l → NoReset l) (h : Steps P s s') : NR s' := by
  induction h with
  | refl => exact i
  | step _ h hl ih => exact nr_step ih h (hP _ hl)

theorem script_step {s s' : St} {l : Lab} (nr : NR s) (h : Step s l s') : s'.script = s.script := by
  cases h with
  | rd3 _ _ f => cases f <;> rfl
  | rd4 _ _ f => cases f <;> rfl
  | rs2 h _ => exact (nr _ _ h).elim
  | _ => rfl

theorem script_steps {P : Lab → Prop} {s s' : St} (nr : NR s) (hP : ∀ l, P l → NoReset l) (h : Steps P s s') : s'.script = s.script := by
  induction h with
  | refl => rfl
  | step h' h hl ih => exact (script_step (nr.steps hP h') h).trans ih

end Flate.Proof.Cc
