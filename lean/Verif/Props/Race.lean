/-
C90: goroutines sharing a Reader do not race.
-/
import Verif.Model.Race
import Verif.Props.Conc

namespace Flate.Props
open Flate.Spec Flate.Model Flate.Model.Rd Flate.Model.Conc Flate.Proof Flate.Proof.R Flate.Proof.Cc

/-- A data race: two goroutines are about to access the same field, and one of them to write it; nothing prevents either from doing so. -/
def DataRace (s : St) : Prop := ∃ (a b : Who) (f : Field) (m : Mode), a ≠ b ∧ (f, .write) ∈ s.accesses a ∧ (f, m) ∈ s.accesses b

/-- the fields which are protected by mu1, and those which are protected by mu2: reader.go:43, 83 -/
def byMu2 : Field → Bool
  | .outputError | .outputBuffer => true
  | _ => false

/-- the table of accesses is complete, as far as the fields are part of the state: a step is not influenced by, and does not change, a field which it does not access -/
theorem C90_untouched {s s' : St} {l : Lab} {f : Field} {g : St → St} (hg : Put f g) (h : Step s l s')
    (hn : ∀ w, l.who = some w → ∀ m, (f, m) ∉ s.accesses w) : Step (g s) l (g s') := by
  have hc : ∀ {i : Nat} {c : CPc}, l.who = some (.client i) → s.cls[i]? = some c → ∀ m, (f, m) ∉ callerAccess c := by
    intro i c hw e m hm
    exact hn _ hw m (by simpa [St.accesses, e] using hm)
  have ht : ∀ {t : TPc}, l.who = some .thread → s.th = t → ∀ m, (f, m) ∉ threadAccess t := by
    intro t hw e m hm
    exact hn _ hw m (by simpa [St.accesses, e] using hm)
  have fin : ∀ {i n : Nat}, f ≠ .outputError → f ≠ .outputBuffer → Finish s i n s' → Finish (g s) i n (g s') := by
    intro i n h1 h2 hf
    cases hg with
    | outErr => exact (h1 rfl).elim
    | buf => exact (h2 rfl).elim
    | _ =>
      cases hf with
      | error hb => exact .error hb
      | all hb hr => exact .all hb hr
      | some hb hr hn sg => exact .some hb hr hn sg
  cases h with
  | rd3 h m hf =>
    have h1 := hc rfl h
    have e1 : f ≠ .outputError := by rintro rfl; exact h1 .read (by simp [callerAccess])
    have e2 : f ≠ .outputBuffer := by rintro rfl; exact h1 .write (by simp [callerAccess])
    have hf' := fin e1 e2 hf
    cases hg <;> first | exact .rd3 h m hf' | exact (e1 rfl).elim | exact (e2 rfl).elim
  | rd4 h m hf =>
    have h1 := hc rfl h
    have e1 : f ≠ .outputError := by rintro rfl; exact h1 .read (by simp [callerAccess])
    have e2 : f ≠ .outputBuffer := by rintro rfl; exact h1 .write (by simp [callerAccess])
    have hf' := fin e1 e2 hf
    cases hg <;> first | exact .rd4 h m hf' | exact (e1 rfl).elim | exact (e2 rfl).elim
  | callRead n h => cases hg <;> exact .callRead n h
  | callClose h => cases hg <;> exact .callClose h
  | callReset sc h => cases hg <;> exact .callReset sc h
  | callGet h => cases hg <;> exact .callGet h
  | callUnder h => cases hg <;> exact .callUnder h
  | rd0 h m => cases hg <;> exact .rd0 h m
  | rd1 h m => have h1 := hc rfl h; cases hg <;> first | exact .rd1 h m | (refine (h1 .write ?_).elim; simp [callerAccess]; done)
  | rd1go h m => have h1 := hc rfl h; cases hg <;> first | exact .rd1go h m | (refine (h1 .write ?_).elim; simp [callerAccess]; done)
  | rd2 h m => cases hg <;> exact .rd2 h m
  | rd3wait h m m' => have h1 := hc rfl h; cases hg <;> first | exact .rd3wait h m m' | (refine (h1 .write ?_).elim; simp [callerAccess]; done) | (refine (h1 .read ?_).elim; simp [callerAccess]; done)
  | rdWoken h m => cases hg <;> exact .rdWoken h m
  | rd4wait h m m' => have h1 := hc rfl h; cases hg <;> first | exact .rd4wait h m m' | (refine (h1 .write ?_).elim; simp [callerAccess]; done) | (refine (h1 .read ?_).elim; simp [callerAccess]; done)
  | cl0 h m => cases hg <;> exact .cl0 h m
  | cl1ret h m => have h1 := hc rfl h; cases hg <;> first | exact .cl1ret h m | (refine (h1 .read ?_).elim; simp [callerAccess]; done)
  | cl1 h m m' k => have h1 := hc rfl h; cases hg <;> first | exact .cl1 h m m' k | (refine (h1 .read ?_).elim; simp [callerAccess]; done)
  | cl3 h => have h1 := hc rfl h; cases hg <;> first | exact .cl3 h | (refine (h1 .write ?_).elim; simp [callerAccess]; done)
  | cl4 h m => cases hg <;> exact .cl4 h m
  | cl5 h m => cases hg <;> exact .cl5 h m
  | cl6 h => cases hg <;> exact .cl6 h
  | rs0 h m => cases hg <;> exact .rs0 h m
  | rs1 h m => cases hg <;> exact .rs1 h m
  | rs2 h m => have h1 := hc rfl h; cases hg <;> (refine (h1 .write ?_).elim; simp [callerAccess]; done)
  | gt0 h m => cases hg <;> exact .gt0 h m
  | gt1 h => cases hg <;> exact .gt1 h
  | ur h => cases hg <;> exact .ur h
  | entry h m => cases hg <;> exact .entry h m
  | skip h a b => have h1 := ht rfl h; cases hg <;> first | exact .skip h a b | (refine (h1 .write ?_).elim; simp [threadAccess]; done) | (refine (h1 .read ?_).elim; simp [threadAccess]; done)
  | flush h a b c => have h1 := ht rfl h; cases hg <;> first | exact .flush h a b c | (refine (h1 .write ?_).elim; simp [threadAccess]; done) | (refine (h1 .read ?_).elim; simp [threadAccess]; done)
  | skipErr h a b => have h1 := ht rfl h; cases hg <;> first | exact .skipErr h a b | (refine (h1 .write ?_).elim; simp [threadAccess]; done) | (refine (h1 .read ?_).elim; simp [threadAccess]; done)
  | errLock h a b c => have h1 := ht rfl h; cases hg <;> first | exact .errLock h a b c | (refine (h1 .write ?_).elim; simp [threadAccess]; done) | (refine (h1 .read ?_).elim; simp [threadAccess]; done)
  | errSet h => have h1 := ht rfl h; cases hg <;> first | exact .errSet h | (refine (h1 .write ?_).elim; simp [threadAccess]; done)
  | exit h a => have h1 := ht rfl h; cases hg <;> first | exact .exit h a | (refine (h1 .write ?_).elim; simp [threadAccess]; done)
  | fl1 h a => cases hg <;> exact .fl1 h a
  | fl2wait h a => have h1 := ht rfl h; cases hg <;> first | exact .fl2wait h a | (refine (h1 .read ?_).elim; simp [threadAccess]; done)
  | fl2 h a => have h1 := ht rfl h; cases hg <;> first | exact .fl2 h a | (refine (h1 .read ?_).elim; simp [threadAccess]; done)
  | flWoken h a => cases hg <;> exact .flWoken h a
  | fl3 h a => cases hg <;> exact .fl3 h a
  | fl4stop h a => have h1 := ht rfl h; cases hg <;> first | exact .fl4stop h a | (refine (h1 .read ?_).elim; simp [threadAccess]; done)
  | fl4 h a b => have h1 := ht rfl h; cases hg <;> first | exact .fl4 h a b | (refine (h1 .read ?_).elim; simp [threadAccess]; done)
  | fl5end h a sg => have h1 := ht rfl h; cases hg <;> first | exact .fl5end h a sg | (refine (h1 .write ?_).elim; simp [threadAccess]; done)
  | fl5 h a b c d sg => have h1 := ht rfl h; cases hg <;> first | exact .fl5 h a b c d sg | (refine (h1 .write ?_).elim; simp [threadAccess]; done)
  | fl5full h a b => have h1 := ht rfl h; cases hg <;> first | exact .fl5full h a b | (refine (h1 .write ?_).elim; simp [threadAccess]; done)
  | done h => cases hg <;> exact .done h

/-- what is accessed by callers, except `UnderlyingReader`, is accessed with the mutex held -/
theorem caller_holds {c : CPc} {f : Field} {m : Mode} (h : (f, m) ∈ callerAccess c) (hu : c ≠ .ur) : (if byMu2 f then holds2 c else holds1 c) = true := by
  cases c <;> simp [callerAccess] at h <;> first | exact (hu rfl).elim | (rcases h with h | h | h | h | h | h | h | h | h | h <;> obtain ⟨rfl, _⟩ := h <;> rfl) |
    (rcases h with h | h | h | h <;> obtain ⟨rfl, _⟩ := h <;> rfl) | (rcases h with h | h <;> obtain ⟨rfl, _⟩ := h <;> rfl) | (obtain ⟨rfl, _⟩ := h; rfl)

theorem thread_holds {t : TPc} {f : Field} {m : Mode} (h : (f, m) ∈ threadAccess t) : (if byMu2 f then th2 t else th1 t) = true := by
  cases t <;> simp [threadAccess] at h <;> first | (rcases h with h | h | h | h | h | h | h | h <;> obtain ⟨rfl, _⟩ := h <;> rfl) |
    (rcases h with h | h | h <;> obtain ⟨rfl, _⟩ := h <;> rfl) | (rcases h with h | h <;> obtain ⟨rfl, _⟩ := h <;> rfl) | (obtain ⟨rfl, _⟩ := h; rfl)

/-- **C90 (the protection of the fields).** Whatever has happened: who is about to access a field holds the mutex which protects it, except a caller of `UnderlyingReader`. -/
theorem C90_protected {P : Lab → Prop} {cap n : Nat} {script : List Act} {s : St} (hc : 0 < cap) (h : Reach P cap script n s) {w : Who} {f : Field} {m : Mode}
    (ha : (f, m) ∈ s.accesses w) : (if byMu2 f then s.mu2 else s.mu1) = some w ∨ f = .source ∧ m = .read ∧ ∃ i, w = .client i ∧ s.cls[i]? = some .ur := by
  have inv := reach_inv hc h
  cases w with
  | thread =>
    have := thread_holds ha
    left
    cases hf : byMu2 f <;> rw [hf] at this
    · exact inv.o1.t.2 this
    · exact inv.o2.t.2 this
  | client i =>
    simp only [St.accesses] at ha
    cases hi : s.cls[i]? with
    | none => rw [hi] at ha; cases ha
    | some c =>
      rw [hi] at ha
      by_cases hu : c = .ur
      · subst hu
        right
        simp [callerAccess] at ha
        exact ⟨ha.1, ha.2, i, rfl, hi⟩
      · left
        have := caller_holds ha hu
        cases hf : byMu2 f <;> rw [hf] at this
        · exact (inv.o1.c i).2 ⟨c, hi, this⟩
        · exact (inv.o2.c i).2 ⟨c, hi, this⟩

/-- **C90 (what races there are).** Whatever has happened, the only data races are those of a `Reset` with a call of `UnderlyingReader`. -/
theorem C90_only {P : Lab → Prop} {cap n : Nat} {script : List Act} {s : St} (hc : 0 < cap) (h : Reach P cap script n s) {a b : Who} {f : Field} {m : Mode} (hab : a ≠ b)
    (ha : (f, .write) ∈ s.accesses a) (hb : (f, m) ∈ s.accesses b) :
    f = .source ∧ (∃ i sc, a = .client i ∧ s.cls[i]? = some (.rs2 sc)) ∧ ∃ j, b = .client j ∧ s.cls[j]? = some .ur := by
  rcases C90_protected hc h ha with h1 | ⟨_, h1, _⟩
  · rcases C90_protected hc h hb with h2 | ⟨rfl, _, h2⟩
    · rw [h1] at h2; cases h2; exact (hab rfl).elim
    · refine ⟨rfl, ?_, h2⟩
      cases a with
      | thread => cases ht : s.th <;> simp [St.accesses, ht, threadAccess] at ha
      | client i =>
        simp only [St.accesses] at ha
        cases hi : s.cls[i]? with
        | none => rw [hi] at ha; cases ha
        | some c =>
          rw [hi] at ha
          cases c with
          | rs2 sc => exact ⟨i, sc, rfl, hi⟩
          | _ => simp [callerAccess] at ha
  · cases h1

/-- a caller is at a place only if he has called a method -/
theorem never_ur {P : Lab → Prop} (hP : ∀ i, ¬ P (.callUnder i)) {cap n : Nat} {script : List Act} {s : St} (h : Reach P cap script n s) (j : Nat) : s.cls[j]? ≠ some .ur := by
  unfold Reach at h
  induction h with
  | refl => intro hj; exact absurd (replicate_get hj) (by simp)
  | @step t u l h hs hl ih =>
    intro hj
    have set : ∀ {i : Nat} {c : CPc}, c ≠ .ur → (t.cls.set i c)[j]? = some .ur → False := fun hc hx => ih (set_ne hx hc).2
    have fin : ∀ {i n : Nat}, Finish t i n u → False := by
      intro i n hf
      cases hf with
      | error _ => exact set (by simp) hj
      | all _ _ => exact set (by simp) hj
      | some _ _ _ sg => exact set (i := i) (c := .idle) (by simp) (signal_ne sg hj (by simp))
    cases hs with
    | rd3 _ _ f => exact fin f
    | rd4 _ _ f => exact fin f
    | callUnder => exact hP _ hl
    | callRead | callClose | callReset | callGet | rd0 | rd1 | rd1go | rd2 | rd3wait | rdWoken | rd4wait | cl0 | cl1ret | cl1 | cl4 | cl5 | cl6 | rs0 | rs1 | rs2 | gt0 | gt1 | ur => exact set (by simp) hj
    | @cl3 k _ => exact set (i := k) (c := .cl4) (by simp) (wake_ne hj (by simp))
    | errSet _ => exact ih (wake_ne hj (by simp))
    | fl5end _ _ sg => exact ih (signal_ne sg hj (by simp))
    | fl5 _ _ _ _ _ sg => exact ih (signal_ne sg hj (by simp))
    | _ => exact ih hj

/-- **C90 (partial): there are no data races if `UnderlyingReader` is not called, and none if `Reset` is not.**  (Missing: both.  See `C90_fails`.) -/
theorem C90_partial {P : Lab → Prop} (hP : (∀ i, ¬ P (.callUnder i)) ∨ ∀ l, P l → NoReset l) {cap n : Nat} {script : List Act} {s : St} (hc : 0 < cap) (h : Reach P cap script n s) :
    ¬ DataRace s := by
  rintro ⟨a, b, f, m, hab, ha, hb⟩
  obtain ⟨_, ⟨i, sc, _, hi⟩, j, _, hj⟩ := C90_only hc h hab ha hb
  rcases hP with hP | hP
  · exact never_ur hP h j hj
  · exact (good hc hP h).nr _ _ hi

/-- **C90 is false**: `UnderlyingReader` reads what `Reset` may just be writing. -/
theorem C90_fails : ∃ s, Reach (fun _ => True) 8 [.err .eof] 2 s ∧ DataRace s := by
  let ls : List Lab := [.callReset 0 [.err .eof], .client 0, .client 0, .callUnder 1]
  have he : (execs (initial 8 [.err .eof] 2) ls).map (·.cls) = some [.rs2 [.err .eof], .ur] := by decide +kernel
  obtain ⟨s, hs, hl⟩ := Option.map_eq_some_iff.1 he
  refine ⟨s, execs_ok hs (fun _ _ => trivial), .client 0, .client 1, .source, .read, by simp, ?_, ?_⟩
  · simp [St.accesses, hl, callerAccess]
  · simp [St.accesses, hl, callerAccess]

/-- the theorems speak of states in which there is contention: the goroutine decompresses, while callers of `Read`, `Close`, `Reset` and a getter wait -/
example : ∃ s, Reach (fun l => ∀ i, l ≠ .callUnder i) 8 [.data [65], .err .eof] 4 s ∧ s.th = .run ∧ s.accesses .thread ≠ [] ∧ s.cls = [.rdWait 1, .cl0, .rs0 [], .gt0] ∧ ¬ DataRace s := by
  let ls : List Lab := [.callRead 0 1, .client 0, .client 0, .client 0, .client 0, .thread, .callClose 1, .callReset 2 [], .callGet 3]
  have he : (execs (initial 8 [.data [65], .err .eof] 4) ls).map (fun s => (s.th, s.cls)) = some (.run, [.rdWait 1, .cl0, .rs0 [], .gt0]) := by decide +kernel
  obtain ⟨s, hs, hl⟩ := Option.map_eq_some_iff.1 he
  simp only [Prod.mk.injEq] at hl
  have hr : Reach (fun l => ∀ i, l ≠ .callUnder i) 8 [.data [65], .err .eof] 4 s := execs_ok hs (by simp [ls])
  exact ⟨s, hr, hl.1, by simp [St.accesses, hl.1, threadAccess], hl.2, C90_partial (Or.inl fun i h => h i rfl) (by decide) hr⟩

/-! ### The wait group -/

/-- **C90 (the wait group).** Its counter does not become negative, and, if `Reset` is not called, it is not increased while a `Close` is waiting for it. -/
theorem C90_waitgroup {cap n : Nat} {script : List Act} {s s' : St} {l : Lab} (hc : 0 < cap) (h : Reach (fun _ => True) cap script n s) (hs : Step s l s') :
    (l = .done → 0 < s.wg ∧ s'.wg + 1 = s.wg) ∧ (Reach NoReset cap script n s → ∀ i : Nat, s.cls[i]? = some .cl4 → s'.wg ≤ s.wg) := by
  have w := (reach_inv hc h).wg
  unfold Wg at w
  refine ⟨fun hl => ?_, fun hr i hi => ?_⟩
  · subst hl
    cases hs with
    | done hz => exact ⟨by omega, by show s.wg - 1 + 1 = s.wg; omega⟩
  · have g := good hc (fun _ h => h) hr
    have hf : s.forced = true := g.nr _ _ hi
    have hst : s.started = true := by
      cases e : s.started with
      | true => rfl
      | false =>
        have h1 := (g.inv.flags.fo hf).1
        rw [(g.inv.flags.ns e).2.2.1] at h1; cases h1
    have fin : ∀ {i n : Nat}, Finish s i n s' → s'.wg ≤ s.wg := by
      intro i n f
      cases f <;> exact Nat.le_refl _
    cases hs with
    | rd3 _ _ f => exact fin f
    | rd4 _ _ f => exact fin f
    | rd1go _ m => rw [hst] at m; cases m
    | done => exact Nat.sub_le _ _
    | _ => exact Nat.le_refl _

/-- **C90 is false of the wait group, too.**  One caller waits in `Close` until the counter, which is 1, becomes 0.  It does; but before he goes on another one calls `Reset` and then `Read`, which increases
the counter again.  (sync.WaitGroup: "If a WaitGroup is reused to wait for several independent sets of events, new Add calls must happen after all previous Wait calls have returned"; the implementation
panics: "WaitGroup is reused before previous Wait has returned".) -/
theorem C90_waitgroup_fails : ∃ s0 s1 s2, Reach (fun _ => True) 8 [.err .eof] 2 s0 ∧ s0.cls[0]? = some .cl4 ∧ s0.wg = 1 ∧
    Steps (fun l => l.who ≠ some (.client 0)) s0 s1 ∧ s1.cls[0]? = some .cl4 ∧ s1.wg = 0 ∧ Step s1 (.client 1) s2 ∧ s2.cls[0]? = some .cl4 ∧ s2.wg = 1 := by
  let l0 : List Lab := [.callRead 1 1, .client 1, .client 1, .callClose 0, .client 0, .client 0, .client 0]
  let l1 : List Lab := [.thread, .thread, .thread, .done, .client 1, .client 1, .callReset 1 [.err .eof], .client 1, .client 1, .client 1, .callRead 1 1, .client 1]
  have he : ((execs (initial 8 [.err .eof] 2) l0).bind fun s0 => (execs s0 l1).bind fun s1 => (exec s1 (.client 1)).map fun s2 =>
      (s0.cls[0]?, s0.wg, s1.cls[0]?, s1.wg, s2.cls[0]?, s2.wg)) = some (some .cl4, 1, some .cl4, 0, some .cl4, 1) := by decide +kernel
  obtain ⟨s0, h0, he⟩ := Option.bind_eq_some_iff.1 he
  obtain ⟨s1, h1, he⟩ := Option.bind_eq_some_iff.1 he
  obtain ⟨s2, h2, he⟩ := Option.map_eq_some_iff.1 he
  simp only [Prod.mk.injEq] at he
  obtain ⟨e1, e2, e3, e4, e5, e6⟩ := he
  exact ⟨s0, s1, s2, execs_ok h0 (fun _ _ => trivial), e1, e2, execs_ok h1 (by simp [l1, Lab.who]), e3, e4, exec_ok h2, e5, e6⟩

end Flate.Props
