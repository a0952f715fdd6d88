/-
Concurrent use of a Reader: C39 to C45.

Everything here is about histories: all interleavings of the goroutine with any number of callers, who call whatever the predicate `P` on labels admits
(`ReadOnly`: only `Read` and the getters; `NoReset`: `Read`, `Close` and the getters).  `s.log` lists what calls returned, in the order in which they took effect.  `script` is what the goroutine
would do if nobody interfered: see `RSetup.Runs`, and `Props/ReadCalls.lean` for the connection.
-/
import Verif.Proof.ConcLog
import Verif.Props.ReaderSafe
import Verif.Props.ReadExamples

namespace Flate.Props
open Flate.Spec Flate.Model Flate.Model.Rd Flate.Model.Conc Flate.Proof Flate.Proof.R Flate.Proof.Cc

/-! ### C39 -/

/-- **C39.** Whatever the schedule, the sizes of outputBuffer and of the callers' slices, whether or not `Close` and `Reset` are called, the bytes returned since the last
`Reset`, in the order in which the calls took effect, are a prefix of what the goroutine delivers for the source last given. -/
theorem C39_prefix {P : Lab → Prop} {cap n : Nat} {script : List Act} {s : St} (hc : 0 < cap) (h : Reach P cap script n s) :
    got s.log <+: actData (source script s.log) := by
  have i := reach_inv hc h
  obtain ⟨d, w, p⟩ := i.prog
  rw [← reach_source h]
  have hp := p.below
  cases hf : s.forced with
  | true => exact (p.part hf).trans hp
  | false => exact ((List.prefix_append _ _).trans (by rw [p.data hf]; exact List.prefix_refl _)).trans hp

/-- what a `Read` which returns data returns: as much as was asked for, or less, but something unless nothing was asked for -/
theorem C39_sizes {P : Lab → Prop} {cap n : Nat} {script : List Act} {s s' : St} {l : Lab} {i : Nat} {p : List UInt8} {e : Option Err} (hc : 0 < cap)
    (h : Reach P cap script n s) (hs : Step s l s') (hx : s'.log = s.log ++ [(i, .read p e)]) :
    ∃ m, (s.cls[i]? = some (.rd3 m) ∨ s.cls[i]? = some (.rd4 m)) ∧ p.length ≤ m ∧ (e = none → 0 < m → p ≠ []) ∧ (e ≠ none → p = []) := by
  have _ := hc
  have _ := h
  have fin : ∀ {j m : Nat}, ¬ (s.outErr = none ∧ s.buf = []) → Finish s j m s' → j = i ∧ p.length ≤ m ∧ (e = none → 0 < m → p ≠ []) ∧ (e ≠ none → p = []) := by
    intro j m hn f
    cases f with
    | error hb =>
      simp only [List.append_cancel_left_eq, List.cons.injEq, Prod.mk.injEq, Res.read.injEq, and_true] at hx
      obtain ⟨rfl, rfl, rfl⟩ := hx
      exact ⟨rfl, Nat.zero_le _, fun e => (hn ⟨e, hb⟩).elim, fun _ => rfl⟩
    | all hb hr =>
      simp only [List.append_cancel_left_eq, List.cons.injEq, Prod.mk.injEq, Res.read.injEq, and_true] at hx
      obtain ⟨rfl, rfl, rfl⟩ := hx
      exact ⟨rfl, hr.2.1, fun _ => hr.2.2, fun e => (e rfl).elim⟩
    | some hb hr hn sg =>
      simp only [List.append_cancel_left_eq, List.cons.injEq, Prod.mk.injEq, Res.read.injEq, and_true] at hx
      obtain ⟨rfl, rfl, rfl⟩ := hx
      exact ⟨rfl, hr.2.1, fun _ => hr.2.2, fun e => (e rfl).elim⟩
  cases hs with
  | rd3 hj m f => obtain ⟨rfl, a, b, c⟩ := fin m f; exact ⟨_, Or.inl hj, a, b, c⟩
  | rd4 hj m f => obtain ⟨rfl, a, b, c⟩ := fin m f; exact ⟨_, Or.inr hj, a, b, c⟩
  | cl1ret => simp at hx
  | cl6 => simp at hx
  | rs2 => simp at hx
  | gt1 => simp at hx
  | ur => simp at hx
  | _ => exact (app_ne hx).elim

/-! ### C40 and C41 -/

theorem data_script (ds : List (List UInt8)) (r : List Act) : actData (ds.map Act.data ++ r) = ds.flatten ++ actData r ∧ actErr (ds.map Act.data ++ r) = actErr r := by
  induction ds with
  | nil => exact ⟨rfl, rfl⟩
  | cons d ds ih => simp [actData, actErr, ih.1, ih.2]

/-- an action list whose first error is preceded by `d1` -/
theorem err_split {d d1 d2 x : List Act} {e e0 : Err} (h : d ++ x = d1 ++ .err e0 :: d2) (h1 : actErr d1 = none) (h2 : actErr d = some e) :
    e = e0 ∧ ∃ y, d = d1 ++ .err e0 :: y ∧ y ++ x = d2 := by
  induction d1 generalizing d with
  | nil =>
    cases d with
    | nil => cases h2
    | cons a d =>
      simp only [List.cons_append, List.nil_append, List.cons.injEq] at h
      obtain ⟨rfl, h⟩ := h
      cases h2
      exact ⟨rfl, d, rfl, h⟩
  | cons b d1 ih =>
    cases d with
    | nil => cases h2
    | cons a d =>
      simp only [List.cons_append, List.cons.injEq] at h
      obtain ⟨rfl, h⟩ := h
      cases a with
      | err z => cases h1
      | data z =>
        obtain ⟨he, y, hy, hz⟩ := ih h (by simpa [actErr] using h1) (by simpa [actErr] using h2)
        exact ⟨he, y, by rw [hy]; rfl, hz⟩

/-- **C41 (partial).** If `Close` and `Reset` are not called, then every error returned is the first one which the goroutine records, and comes after all the bytes
which the goroutine delivered before recording it.  (Missing: bytes decoded, but not delivered, before the error is recorded.  `C41_fails`.) -/
theorem C41_partial {cap n : Nat} {d1 d2 : List Act} {e0 : Err} (hd : actErr d1 = none) {s : St} (hc : 0 < cap) (h : Reach ReadOnly cap (d1 ++ .err e0 :: d2) n s)
    {pre post : List (Nat × Res)} {i : Nat} {p : List UInt8} {e : Err} (hx : s.log = pre ++ (i, .read p (some e)) :: post) :
    p = [] ∧ e = e0 ∧ actData d1 <+: got pre := by
  obtain ⟨s0, l, s1, a, b, hl, c, d, _⟩ := log_split h hx (Nat.zero_le _)
  have g := good hc readOnly_noReset a
  obtain ⟨_, ⟨hn, _⟩ | ⟨x, hx', hp, hb, ho, _⟩⟩ := read_entry b (by rw [d, c])
  · cases hn
  · cases hx'
    obtain ⟨dd, w, pr⟩ := g.inv.prog
    have hf := unforced a
    have he := pr.err hf
    rw [ho] at he
    have hsc := pr.script
    rw [g.sc, List.append_assoc] at hsc
    obtain ⟨he', y, hy, _⟩ := err_split hsc.symm hd he.symm
    refine ⟨hp, he', ?_⟩
    have := pr.data hf
    rw [hb, List.append_nil, c, hy, Cc.actData_append] at this
    rw [this, List.append_assoc]
    exact List.prefix_append _ _

/-- **C40.** If the input is well formed, i.e. the goroutine delivers `ds` and then reports `e0` (see `RSetup.Delivers`), and `Close` and `Reset` are not called, then an error is
returned only after all the data have been, it is `e0`, and from then on all calls of `Read` return `e0` and no data. -/
theorem C40_eof {cap n : Nat} {ds : List (List UInt8)} {e0 : Err} {s : St} (hc : 0 < cap) (h : Reach ReadOnly cap (ds.map .data ++ [.err e0]) n s)
    {pre post : List (Nat × Res)} {i : Nat} {p : List UInt8} {e : Err} (hx : s.log = pre ++ (i, .read p (some e)) :: post) :
    p = [] ∧ e = e0 ∧ got pre = ds.flatten ∧ ∀ y ∈ post, ∃ j, y = (j, .read [] (some e0)) ∨ y = (j, .got) := by
  have hd : actErr (ds.map Act.data) = none := by simpa [actErr] using (data_script ds []).2
  have hall : actData (ds.map Act.data) = ds.flatten := by simpa [actData] using (data_script ds []).1
  obtain ⟨h1, h2, h3⟩ := C41_partial hd hc h hx
  rw [hall] at h3
  -- what is returned altogether is not longer than the data
  have hup : ∀ {t : St}, Reach ReadOnly cap (ds.map .data ++ [.err e0]) n t → got t.log <+: ds.flatten := by
    intro t ht
    have := C39_prefix hc ht
    rw [← reach_source ht, (good hc readOnly_noReset ht).sc, (data_script ds _).1] at this
    simpa [actData] using this
  have heq : ∀ {t : St}, Reach ReadOnly cap (ds.map .data ++ [.err e0]) n t → ds.flatten <+: got t.log → got t.log = ds.flatten := by
    intro t ht h'
    exact (hup ht).eq_of_length (Nat.le_antisymm (hup ht).length_le h'.length_le)
  obtain ⟨s0, l, s1, a, b, hl, c, d, f⟩ := log_split h hx (Nat.zero_le _)
  have hg : got pre = ds.flatten := by
    have := heq a (by rw [c]; exact h3)
    rwa [c] at this
  refine ⟨h1, h2, hg, fun y hy => ?_⟩
  obtain ⟨q1, q2, rfl⟩ := List.append_of_mem hy
  have hx2 : s.log = (pre ++ (i, .read p (some e)) :: q1) ++ y :: q2 := by rw [hx]; simp
  obtain ⟨j, rfl | ⟨p', e', rfl⟩⟩ := only_reads h y (by rw [hx2]; simp)
  · exact ⟨j, Or.inr rfl⟩
  obtain ⟨t0, l', t1, a', b', hl', c', d', f'⟩ := log_split h hx2 (Nat.zero_le _)
  -- all the data have been returned
  have hall0 : got t0.log = ds.flatten := by
    refine heq a' ?_
    rw [c', got_append (fun x hx => only_reads h x (by rw [hx2]; simp at hx ⊢; rcases hx with hx | hx <;> simp [hx])), hg]
    exact List.prefix_append _ _
  have g0 := good hc readOnly_noReset a'
  obtain ⟨_, ⟨rfl, hne, hbuf⟩ | ⟨x, rfl, rfl, _, _, _⟩⟩ := read_entry b' (by rw [d', c'])
  · obtain ⟨dd, w, pr⟩ := g0.inv.prog
    have h5 := pr.data (unforced a')
    rw [hall0] at h5
    -- there is nothing left
    have h6 : actData dd ++ w <+: ds.flatten := by
      have h7 := pr.below
      rw [g0.sc, (data_script ds _).1] at h7
      simpa [actData] using h7
    rw [← h5] at h6
    have := h6.length_le
    rw [List.length_append] at this
    exact (hne (List.length_eq_zero_iff.1 (by omega))).elim
  · exact ⟨j, Or.inl (by rw [(C41_partial hd hc h hx2).2.1])⟩

/-- **C40, with `Close`.** The same if `Close` may be called at any time: an error is `e0`, returned after all the data, or it is `canceled`, and `Close` has taken effect.  What is returned is in any case a
prefix of the data. -/
theorem C40_close {cap n : Nat} {ds : List (List UInt8)} {e0 : Err} {s : St} (hc : 0 < cap) (h : Reach NoReset cap (ds.map .data ++ [.err e0]) n s) :
    got s.log <+: ds.flatten ∧ ∀ pre i p e post, s.log = pre ++ (i, .read p (some e)) :: post →
      p = [] ∧ (e = e0 ∧ got pre = ds.flatten ∨ e = .canceled ∧ s.forced = true) := by
  have hd : actErr (ds.map Act.data) = none := by simpa [actErr] using (data_script ds []).2
  have hall : actData (ds.map Act.data) = ds.flatten := by simpa [actData] using (data_script ds []).1
  have hup : ∀ {t : St}, Reach NoReset cap (ds.map .data ++ [.err e0]) n t → got t.log <+: ds.flatten := by
    intro t ht
    have := C39_prefix hc ht
    rw [← reach_source ht, (good hc (fun _ h => h) ht).sc, (data_script ds _).1] at this
    simpa [actData] using this
  refine ⟨hup h, fun pre i p e post hx => ?_⟩
  obtain ⟨s0, l, s1, a, b, hl, c, d, f⟩ := log_split h hx (Nat.zero_le _)
  have g := good hc (fun _ h => h) a
  obtain ⟨_, ⟨hn, _⟩ | ⟨x, hx', hp, hb, ho, _⟩⟩ := read_entry b (by rw [d, c])
  · cases hn
  · cases hx'
    refine ⟨hp, ?_⟩
    cases hf : s0.forced with
    | true =>
      have := (g.inv.flags.fo hf).1
      rw [ho] at this; cases this
      have g1 := g.step b hl
      have hf1 := (mono_step g.inv g.nr b).2.1 hf
      refine Or.inr ⟨rfl, ?_⟩
      clear hx d h
      induction f with
      | refl => exact hf1
      | @step t u l h0 h1 hl ih =>
        have gg := g1.steps (fun _ h => h) h0
        exact (mono_step gg.inv gg.nr h1).2.1 ih
    | false =>
      obtain ⟨dd, w, pr⟩ := g.inv.prog
      have he := pr.err hf
      rw [ho] at he
      have hsc := pr.script
      rw [g.sc, List.append_assoc] at hsc
      obtain ⟨he', y, hy, _⟩ := err_split hsc.symm hd he.symm
      refine Or.inl ⟨he', ?_⟩
      have h3 := pr.data hf
      rw [hb, List.append_nil, c, hy, Cc.actData_append, hall] at h3
      have h4 := hup a
      rw [c] at h4
      refine h4.eq_of_length (Nat.le_antisymm h4.length_le ?_)
      rw [h3]; simp

/-- The source of the counterexample: a stored block with one byte, which is not the last one, and then nothing. -/
def truncated : Src := ⟨[], [0, 1, 0, 254, 255, 65], .eof⟩

theorem truncated_acts : ∃ s, (rdemo [.format .raw]).Runs truncated s ∧ s.out.acts = [.err .unexpectedEOF, .data [65]] :=
  acts?_some (by decide +kernel)

/-- **C41 is false.** The byte 65 is decoded before the Reader notices that the input is truncated, but the error is recorded before the byte is put in outputBuffer: there is
a schedule on which `Read` returns the error first, and the byte afterwards. -/
theorem C41_fails : ∃ (s : RState) (t : St), (rdemo [.format .raw]).Runs truncated s ∧ Reach ReadOnly 8 s.out.acts 1 t ∧
    t.log = [(0, .read [] (some .unexpectedEOF)), (0, .read [65] none)] := by
  obtain ⟨s, h1, h2⟩ := truncated_acts
  let ls : List Lab := [.callRead 0 1, .client 0, .client 0, .client 0, .client 0, .thread, .thread, .thread, .client 0, .client 0] ++
    List.replicate 7 .thread ++ [.callRead 0 1, .client 0, .client 0, .client 0, .client 0]
  have he : (execs (initial 8 [.err .unexpectedEOF, .data [65]] 1) ls).map (·.log) = some [(0, .read [] (some .unexpectedEOF)), (0, .read [65] none)] := by
    decide +kernel
  obtain ⟨t, ht, hl⟩ := Option.map_eq_some_iff.1 he
  exact ⟨s, t, h1, by rw [h2]; exact execs_ok ht (by decide), hl⟩

/-! ### C42 -/

/-- **C42.** If `Reset` is not called, then whatever has happened so far: if there are no further calls, then every schedule comes to an end, and at its end all calls have
returned.  (That is: there is no infinite sequence of steps without new calls, and as long as somebody has not returned there is such a step.)  `script` contains an error because
the goroutine always reports one, `runs_err`. -/
theorem C42_live {cap n : Nat} {script : List Act} {s : St} (hc : 0 < cap) (he : actErr script ≠ none) (h : Reach NoReset cap script n s) :
    (¬ ∃ f : Nat → St, f 0 = s ∧ ∀ k, ∃ l, Internal l ∧ Step (f k) l (f (k + 1))) ∧
    ∀ t, Steps Internal s t → (∃ c ∈ t.cls, c ≠ .idle) → ∃ l u, Step t l u ∧ Internal l := by
  have g := good hc (fun _ h => h) h
  refine ⟨no_infinite g.inv g.nr, fun t ht ⟨c, hm, hn⟩ => ?_⟩
  have g' := g.steps (P := Internal) (fun l hl => by cases l <;> first | trivial | exact hl.elim) ht
  obtain ⟨k, hk⟩ := List.mem_iff_getElem?.1 hm
  exact progress g'.inv g'.nr (by rw [g'.sc]; exact he) hk hn

/-- every run of the goroutine records an error -/
theorem runs_err {c : RSetup} (h : c.OK) {src : Src} {s : RState} (hr : c.Runs src s) : actErr s.out.acts ≠ none := by
  obtain ⟨l, r, hl, hf, hst, hc⟩ := run_sound h.env src
  have hactErr : ∀ (ds : List (List UInt8)) (e : Err) (post : List Act), actErr (ds.map Act.data ++ .err e :: post) ≠ none := by
    intro ds e post
    rw [(data_script ds _).2]; simp [actErr]
  unfold RSetup.Runs at hr
  rcases hc with ⟨s', ds', h1, h2, h3, _⟩ | ⟨c', p, _, _, _, _, hp, ⟨s', ds', e', post', h1, h2, h3, _⟩ | ⟨h1, _⟩⟩ | ⟨h1, _⟩
  · rw [h1] at hr; cases hr
    rw [h2]; exact hactErr _ _ _
  · rw [h1] at hr; cases hr
    rw [h2]; exact hactErr _ _ _
  · rw [h1] at hr; cases hr
  · rw [h1] at hr; cases hr

/-- with `Reset`, a call may wait for ever: it waits while the goroutine has ended, and another caller calls `Reset` before it gets to see the error -/
theorem C42_reset_fails : ∃ t, Reach (fun _ => True) 8 [.err .eof] 2 t ∧ t.cls = [.rdWait 1, .idle] ∧ ¬ ∃ l u, Step t l u ∧ Internal l := by
  let ls : List Lab := [.callRead 0 1, .client 0, .client 0, .client 0, .client 0, .thread, .thread, .thread, .thread, .done,
    .callReset 1 [.err .eof], .client 1, .client 1, .client 1, .client 0, .client 0]
  have he : ∃ t, execs (initial 8 [.err .eof] 2) ls = some t ∧ t.cls = [.rdWait 1, .idle] ∧ t.th = .absent ∧ t.zomb = 0 := by
    cases h : execs (initial 8 [.err .eof] 2) ls with
    | none => exact absurd h (by decide +kernel)
    | some t =>
      have h1 : (execs (initial 8 [.err .eof] 2) ls).map (fun t => (t.cls, t.th, t.zomb)) = some ([.rdWait 1, .idle], .absent, 0) := by decide +kernel
      rw [h] at h1
      simp only [Option.map_some, Option.some.injEq, Prod.mk.injEq] at h1
      exact ⟨t, rfl, h1⟩
  obtain ⟨t, ht, h1, h2, h3⟩ := he
  refine ⟨t, execs_ok ht (fun _ _ => trivial), h1, ?_⟩
  rintro ⟨l, u, hs, hl⟩
  have hcl : ∀ {i : Nat} {c : CPc}, t.cls[i]? = some c → c = .rdWait 1 ∨ c = .idle := by
    intro i c h
    rw [h1] at h
    rcases i with _ | _ | i <;> simp at h
    · exact Or.inl h.symm
    · exact Or.inr h.symm
  cases hs with
  | callRead => exact hl
  | callClose => exact hl
  | callReset => exact hl
  | callGet => exact hl
  | callUnder => exact hl
  | done h => omega
  | rd0 h | rd1 h | rd1go h | rd2 h | rd3wait h | rd3 h | rdWoken h | rd4wait h | rd4 h | cl0 h | cl1ret h | cl1 h | cl3 h | cl4 h | cl5 h | cl6 h | rs0 h | rs1 h | rs2 h | gt0 h | gt1 h | ur h =>
    rcases hcl h with h | h <;> cases h
  | entry h | skip h | flush h | skipErr h | errLock h | errSet h | exit h | fl1 h | fl2wait h | fl2 h | flWoken h | fl3 h | fl4stop h | fl4 h | fl5end h | fl5 h | fl5full h =>
    rw [h2] at h; cases h

/-! ### C43 -/

/-- **C43: `Close` returns only when no goroutine runs.**  And if one had been started, it never runs again. -/
theorem C43_exited {cap n : Nat} {script : List Act} {s s' : St} {l : Lab} {i : Nat} (hc : 0 < cap) (h : Reach NoReset cap script n s) (hs : Step s l s') (hl : NoReset l)
    (hx : s'.log = s.log ++ [(i, .closed)]) : s'.th = .absent ∧ (s'.started = true → ∀ t, Steps NoReset s' t → t.th = .absent ∧ t.stopped = true) := by
  have g := good hc (fun _ h => h) h
  have g' := g.step hs hl
  obtain ⟨e1, e2, e3, _, _, hcl⟩ := close_entry hs hx
  have hn : ¬ (s.started = true ∧ s.stopped = false) := by
    rcases hcl with ⟨_, hcl⟩ | hcl
    · exact hcl
    · intro hx
      have := (g.cl5 i (Or.inr hcl)).2
      rw [hx.2] at this; cases this
  have ha : s'.th = .absent := by
    rw [e1]
    cases ht : s.th with
    | absent => rfl
    | _ => exact (hn (g.inv.flags.run.1 (by rw [ht]; simp))).elim
  refine ⟨ha, fun hst t ht => ?_⟩
  have hsp : s'.stopped = true := by
    cases e : s'.stopped with
    | true => rfl
    | false => exact (g'.inv.flags.run.2 ⟨hst, e⟩ ha).elim
  have : t.started = true ∧ t.stopped = true := by
    induction ht with
    | refl => exact ⟨hst, hsp⟩
    | step h0 h1 hl ih =>
      have gg := g'.steps (fun _ h => h) h0
      have := mono_step gg.inv gg.nr h1
      exact ⟨this.1 ih.1, this.2.2.1 ih.2⟩
  have gt := g'.steps (fun _ h => h) ht
  refine ⟨?_, this.2⟩
  cases hh : t.th with
  | absent => rfl
  | _ =>
    have := (gt.inv.flags.run.1 (by rw [hh]; simp)).2
    rw [(‹t.started = true ∧ t.stopped = true›).2] at this; cases this

/-- **C43 (partial): a `Close` which finds the goroutine running** (it is about to execute reader.go:312) makes all calls of `Read` which return later return the error
context.Canceled and no data, and makes the goroutine end.  (Missing: a `Close` which finds no goroutine running; see `C43_fails`.) -/
theorem C43_partial {cap n : Nat} {script : List Act} {s s' : St} {i : Nat} (hc : 0 < cap) (h : Reach NoReset cap script n s)
    (hi : s.cls[i]? = some .cl3) (hs : Step s (.client i) s') {t : St} (ht : Steps NoReset s' t) :
    (∃ ext, t.log = s.log ++ ext ∧ ∀ x ∈ ext, ∃ j, x = (j, .closed) ∨ x = (j, .got) ∨ x = (j, .read [] (some .canceled))) ∧
    (t.th = .absent ∨ ∃ l u, Step t l u ∧ Internal l) := by
  have g := good hc (fun _ h => h) h
  have g' := g.step hs trivial
  have hf : s'.forced = true ∧ s'.log = s.log := by
    cases hs with
    | cl3 _ => exact ⟨rfl, rfl⟩
    | rd0 h | rd1 h | rd1go h | rd2 h | rd3wait h | rd3 h | rdWoken h | rd4wait h | rd4 h | cl0 h | cl1ret h | cl1 h | cl4 h | cl5 h | cl6 h | rs0 h | rs1 h | rs2 h | gt0 h | gt1 h | ur h =>
      rw [hi] at h; cases h
  have key : t.forced = true ∧ ∃ ext, t.log = s.log ++ ext ∧ ∀ x ∈ ext, ∃ j, x = (j, .closed) ∨ x = (j, .got) ∨ x = (j, .read [] (some .canceled)) := by
    induction ht with
    | refl => exact ⟨hf.1, [], by simp [hf.2], by simp⟩
    | @step t u l h0 h1 hl ih =>
      obtain ⟨i1, ext, i2, i3⟩ := ih
      have gg := g'.steps (fun _ h => h) h0
      refine ⟨(mono_step gg.inv gg.nr h1).2.1 i1, ?_⟩
      rcases step_log h1 with e | ⟨⟨j, r⟩, e⟩
      · exact ⟨ext, by rw [e, i2], i3⟩
      · refine ⟨ext ++ [(j, r)], by rw [e, i2, List.append_assoc], fun x hx => ?_⟩
        simp only [List.mem_append, List.mem_singleton] at hx
        rcases hx with hx | rfl
        · exact i3 x hx
        · refine ⟨j, ?_⟩
          obtain ⟨fo1, fo2⟩ := gg.inv.flags.fo i1
          cases r with
          | closed => exact Or.inl rfl
          | got => exact Or.inr (Or.inl rfl)
          | read p e' =>
            obtain ⟨_, ⟨_, hne, _⟩ | ⟨x, rfl, rfl, _, ho, _⟩⟩ := read_entry h1 e
            · exact (hne fo2).elim
            · rw [fo1] at ho; cases ho; exact Or.inr (Or.inr rfl)
          | reset sc =>
            cases h1 with
            | rd3 _ _ f => cases f <;> simp at e
            | rd4 _ _ f => cases f <;> simp at e
            | cl1ret => simp at e
            | cl6 => simp at e
            | gt1 => simp at e
            | ur => simp at e
            | rs2 h _ => exact (gg.nr _ _ h).elim
            | _ => exact (app_ne e).elim
  refine ⟨key.2, ?_⟩
  have gt := g'.steps (fun _ h => h) ht
  rcases thread_or gt.inv gt.nr with h | h | ⟨p, h⟩
  · exact Or.inr h
  · exact Or.inl h
  · exact (gt.inv.flags.fw p h (gt.inv.flags.fo key.1).2).elim

/-- **C43 is false as stated.** A `Close` before the first `Read` has no effect, nor has one after the goroutine has ended: later calls of `Read` return data. -/
theorem C43_fails : (∃ t, Reach NoReset 8 [.data [65], .err .eof] 1 t ∧ t.log = [(0, .closed), (0, .read [65] none)]) ∧
    (∃ t, Reach NoReset 8 [.data [65, 66], .err .eof] 1 t ∧ t.log = [(0, .read [65] none), (0, .closed), (0, .read [66] none)]) := by
  constructor
  · let ls : List Lab := [.callClose 0, .client 0, .client 0, .callRead 0 1, .client 0, .client 0, .client 0, .client 0] ++ List.replicate 7 .thread ++
      [.client 0, .client 0]
    have he : (execs (initial 8 [.data [65], .err .eof] 1) ls).map (·.log) = some [(0, .closed), (0, .read [65] none)] := by decide +kernel
    obtain ⟨t, ht, hl⟩ := Option.map_eq_some_iff.1 he
    exact ⟨t, execs_ok ht (by decide), hl⟩
  · let ls : List Lab := [.callRead 0 1, .client 0, .client 0, .client 0, .client 0] ++ List.replicate 10 .thread ++
      [.client 0, .client 0, .callClose 0, .client 0, .client 0, .callRead 0 1, .client 0, .client 0, .client 0, .client 0]
    have he : (execs (initial 8 [.data [65, 66], .err .eof] 1) ls).map (·.log) = some [(0, .read [65] none), (0, .closed), (0, .read [66] none)] := by decide +kernel
    obtain ⟨t, ht, hl⟩ := Option.map_eq_some_iff.1 he
    exact ⟨t, execs_ok ht (by decide), hl⟩

/-! ### C44 -/

/-- **C44 is false.** `Reset` in the middle of a stream may be blocked for ever: it holds mu2, and to stop the goroutine it attempts to lock mu2 again.  Here one caller has read one
byte and then calls `Reset`, which never returns, whatever happens afterwards. -/
theorem C44_fails : ∃ s, Reach (fun _ => True) 1 [.data [65], .data [66], .err .eof] 1 s ∧ s.log = [(0, .read [65] none)] ∧
    ∀ t, Steps (fun _ => True) s t → t.cls[0]? = some (.rs2 [.err .eof]) ∧ t.log = s.log := by
  let ls : List Lab := [.callRead 0 1, .client 0, .client 0, .client 0, .client 0] ++ List.replicate 8 .thread ++
    [.client 0, .client 0, .callReset 0 [.err .eof], .client 0, .client 0]
  have he : (execs (initial 1 [.data [65], .data [66], .err .eof] 1) ls).map (fun s => (s.log, s.cls[0]?, s.started, s.stopped)) =
      some ([(0, .read [65] none)], some (.rs2 [.err .eof]), true, false) := by decide +kernel
  obtain ⟨s, hs, hl⟩ := Option.map_eq_some_iff.1 he
  simp only [Prod.mk.injEq] at hl
  obtain ⟨l1, l2, l3, l4⟩ := hl
  have hr : Reach (fun _ => True) 1 [.data [65], .data [66], .err .eof] 1 s := execs_ok hs (fun _ _ => trivial)
  refine ⟨s, hr, l1, fun t ht => ?_⟩
  have : Inv t ∧ t.cls[0]? = some (.rs2 [.err .eof]) ∧ (t.started = true ∧ t.stopped = false) ∧ t.cls.length = 1 ∧ t.log = s.log := by
    induction ht with
    | refl => exact ⟨reach_inv (by decide) hr, l2, ⟨l3, l4⟩, reach_len hr, rfl⟩
    | step h0 h1 hl ih =>
      obtain ⟨i1, i2, i3, i5, i4⟩ := ih
      obtain ⟨a, b, c, d | ⟨j, d1, d2, _⟩⟩ := reset_stuck i1 i2 i3 h1
      · exact ⟨i1.step h1, a, ⟨b, c⟩, (step_len h1).trans i5, d.trans i4⟩
      · omega
  exact ⟨this.2.1, this.2.2.2.2⟩

/-- In general: a `Reset` which has got hold of both mutexes while the goroutine is running never returns; nor does anybody else's call, except for calls of `UnderlyingReader`
(which does not lock a mutex). -/
theorem C44_blocked {P : Lab → Prop} {cap n : Nat} {script : List Act} {s : St} {i : Nat} {sc : List Act} (hc : 0 < cap) (h : Reach P cap script n s)
    (hi : s.cls[i]? = some (.rs2 sc)) (hr : s.th ≠ .absent) :
    ∀ t, Steps (fun _ => True) s t → t.cls[i]? = some (.rs2 sc) ∧ ∃ new, t.log = s.log ++ new ∧ ∀ x ∈ new, x.1 ≠ i ∧ x.2 = .got := by
  intro t ht
  have iv := reach_inv hc h
  have : Inv t ∧ t.cls[i]? = some (.rs2 sc) ∧ (t.started = true ∧ t.stopped = false) ∧ ∃ new, t.log = s.log ++ new ∧ ∀ x ∈ new, x.1 ≠ i ∧ x.2 = .got := by
    induction ht with
    | refl => exact ⟨iv, hi, iv.flags.run.1 hr, [], by simp, by simp⟩
    | step h0 h1 hl ih =>
      obtain ⟨i1, i2, i3, new, i4, i5⟩ := ih
      obtain ⟨a, b, c, d | ⟨j, d1, d2, d⟩⟩ := reset_stuck i1 i2 i3 h1
      · exact ⟨i1.step h1, a, ⟨b, c⟩, new, d.trans i4, i5⟩
      · refine ⟨i1.step h1, a, ⟨b, c⟩, new ++ [(j, .got)], by rw [d, i4, List.append_assoc], fun x hx => ?_⟩
        rcases List.mem_append.1 hx with hx | hx
        · exact i5 x hx
        · rw [List.mem_singleton.1 hx]; exact ⟨d1, rfl⟩
  exact ⟨this.2.1, this.2.2.2⟩

/-- the same Reader, except for what has been returned so far -/
def SameBut (s t : St) : Prop := { s with log := [] } = { t with log := [] }

/-- **C44 (partial).** If a `Close` has just returned, and no other call is in progress, then `Reset` returns, and the Reader is then like a new one for the new source (except that
the ended goroutine may not yet have called wg.Done, which takes effect in one step).  (Missing: `Reset` while the goroutine runs.) -/
theorem C44_partial {cap n : Nat} {script : List Act} {s0 s : St} {l : Lab} {i : Nat} (hc : 0 < cap) (h : Reach NoReset cap script n s0) (hs : Step s0 l s) (hl : NoReset l)
    (hx : s.log = s0.log ++ [(i, .closed)]) (hid : ∀ c ∈ s.cls, c = .idle) {j : Nat} (hj : j < n) (sc : List Act) :
    ∃ t, Steps (fun _ => True) s t ∧ t.log = s.log ++ [(j, .reset sc)] ∧ SameBut t { initial cap sc n with wg := s.wg, zomb := s.zomb } ∧ s.wg = s.zomb ∧ s.zomb ≤ 1 := by
  have g := good hc (fun _ h => h) h
  have g' := g.step hs hl
  have ha := (C43_exited hc h hs hl hx).1
  have hst : ¬ (s.started = true ∧ s.stopped = false) := fun e => g'.inv.flags.run.2 e ha
  have hlen : s.cls.length = n := reach_len (Steps.step h hs hl)
  have hcls : s.cls = List.replicate n .idle := List.eq_replicate_iff.2 ⟨hlen, hid⟩
  have hm : ∀ {h' : CPc → Bool} {b : Bool} {mu : Option Who}, h' .idle = false → b = false → Own h' s.cls b mu → mu = none := by
    intro h' b mu e1 e2 o
    cases mu with
    | none => rfl
    | some w =>
      cases w with
      | thread => have := o.t.1 rfl; rw [e2] at this; cases this
      | client k =>
        obtain ⟨c, hk, hcc⟩ := (o.c k).1 rfl
        rw [hid c (List.mem_of_getElem? hk), e1] at hcc; cases hcc
  have m1 : s.mu1 = none := hm rfl (by rw [ha]; rfl) g'.inv.o1
  have m2 : s.mu2 = none := hm rfl (by rw [ha]; rfl) g'.inv.o2
  have hji : s.cls[j]? = some .idle := by rw [hcls, List.getElem?_replicate, if_pos hj]
  have hset : ∀ (c : CPc) (x : List CPc), x.length = n → (x.set j c)[j]? = some c := by
    intro c x hx
    rw [List.getElem?_set_self (by omega)]
  let s1 := s.setC j (.rs0 sc)
  let s2 : St := { s1.setC j (.rs1 sc) with mu1 := some (.client j) }
  let s3 : St := { s2.setC j (.rs2 sc) with mu2 := some (.client j) }
  let s4 : St := { s3.setC j .idle with mu1 := none, mu2 := none, started := false, stopped := false, errSet := false, forced := false, outErr := none, buf := [], acts := sc, script := sc, log := s3.log ++ [(j, .reset sc)] }
  have st1 : Step s (.callReset j sc) s1 := .callReset sc hji
  have st2 : Step s1 (.client j) s2 := .rs0 (hset _ _ hlen) m1
  have st3 : Step s2 (.client j) s3 := .rs1 (hset _ _ (by simp [s1, St.setC, hlen])) m2
  have st4 : Step s3 (.client j) s4 := .rs2 (hset _ _ (by simp [s2, s1, St.setC, hlen])) hst
  have hcap : s.cap = cap := reach_cap (Steps.step h hs hl)
  refine ⟨s4, .step (.step (.step (.step .refl st1 trivial) st2 trivial) st3 trivial) st4 trivial, rfl, ?_, ?_, ?_⟩
  · have hidem : ((((s.cls.set j (.rs0 sc)).set j (.rs1 sc)).set j (.rs2 sc)).set j .idle) = List.replicate n .idle := by
      simp only [List.set_set, hcls]
      rw [List.set_replicate_self]
    simp only [SameBut, s4, s3, s2, s1, St.setC, initial, hcap, ha, hidem]
  · have := g'.inv.wg
    unfold Wg at this
    rw [ha] at this
    simpa [alive] using this
  · exact zomb_le hc (Steps.step h hs hl)

/-- After such a `Reset`, once the ended goroutine is gone, calls return exactly what they might return if made on a new Reader for the new source. -/
theorem C44_like_new {P : Lab → Prop} {cap n : Nat} {sc : List Act} {s : St} (h : SameBut s (initial cap sc n)) (r : List (Nat × Res)) :
    (∃ t, Steps P s t ∧ t.log = s.log ++ r) ↔ ∃ t, Reach P cap sc n t ∧ t.log = r := by
  have e1 : { s with log := [] } = initial cap sc n := h
  have e2 : s = { initial cap sc n with log := s.log } := by rw [← e1]
  constructor
  · rintro ⟨t, ht, hr⟩
    obtain ⟨r', e, h'⟩ := steps_forget ht []
    rw [e1] at h'
    rw [hr] at e
    have := List.append_cancel_left e
    exact ⟨_, h', by simp [this]⟩
  · rintro ⟨t, ht, hr⟩
    obtain ⟨r', e, h'⟩ := steps_forget ht s.log
    rw [← e2] at h'
    refine ⟨_, h', ?_⟩
    have : t.log = r' := by simpa [initial] using e
    rw [← hr, this]

/-! ### C45 -/

/-- **C45.** If `Close` and `Reset` are not called, all errors returned are equal to the first one which the goroutine records. -/
theorem C45_first {cap n : Nat} {script : List Act} {s : St} (hc : 0 < cap) (h : Reach ReadOnly cap script n s) {i : Nat} {p : List UInt8} {e : Err}
    (hx : (i, .read p (some e)) ∈ s.log) : p = [] ∧ actErr script = some e := by
  obtain ⟨pre, post, hx⟩ := List.append_of_mem hx
  obtain ⟨s0, l, s1, a, b, hl, c, d, _⟩ := log_split h hx (Nat.zero_le _)
  have g := good hc readOnly_noReset a
  obtain ⟨_, ⟨hn, _⟩ | ⟨x, hx', hp, hb, ho, _⟩⟩ := read_entry b (by rw [d, c])
  · cases hn
  · cases hx'
    obtain ⟨dd, w, pr⟩ := g.inv.prog
    have he := pr.err (unforced a)
    refine ⟨hp, ?_⟩
    rw [← g.sc, pr.script, List.append_assoc, Cc.actErr_append, ← he, ho]; rfl

/-- **C45.** Once the goroutine has ended and a `Read` has returned an error, all later calls of `Read` return the same error and no data, whether or not `Close` is called. -/
theorem C45_final {cap n : Nat} {script : List Act} {s s' : St} {l : Lab} {i : Nat} {p : List UInt8} {e : Err} (hc : 0 < cap) (h : Reach NoReset cap script n s)
    (hend : s.stopped = true) (hs : Step s l s') (hl : NoReset l) (hx : s'.log = s.log ++ [(i, .read p (some e))]) {t : St} (ht : Steps NoReset s' t) :
    ∃ ext, t.log = s'.log ++ ext ∧ ∀ x ∈ ext, ∃ j, x = (j, .closed) ∨ x = (j, .got) ∨ x = (j, .read [] (some e)) := by
  have g := good hc (fun _ h => h) h
  have g' := g.step hs hl
  obtain ⟨⟨e1, e2, e3, e4, e5⟩, ⟨hn, _⟩ | ⟨x, hx', hp, hb, ho, hb'⟩⟩ := read_entry hs hx
  · cases hn
  · cases hx'
    have key : t.stopped = true ∧ t.outErr = some e ∧ t.buf = [] ∧ ∃ ext, t.log = s'.log ++ ext ∧ ∀ x ∈ ext, ∃ j, x = (j, .closed) ∨ x = (j, .got) ∨ x = (j, .read [] (some e)) := by
      induction ht with
      | refl => exact ⟨by rw [e3, hend], by rw [e1, ho], hb', [], by simp, by simp⟩
      | @step t u l h0 h1 hl ih =>
        obtain ⟨i1, i2, i3, ext, i4, i5⟩ := ih
        have gg := g'.steps (fun _ h => h) h0
        have mono := mono_step gg.inv gg.nr h1
        have m4 := mono.2.2.2.1 i1
        refine ⟨mono.2.2.1 i1, m4.1.trans i2, m4.2.2 i3, ?_⟩
        rcases step_log h1 with e | ⟨⟨j, r⟩, e⟩
        · exact ⟨ext, by rw [e, i4], i5⟩
        · refine ⟨ext ++ [(j, r)], by rw [e, i4, List.append_assoc], fun x hx => ?_⟩
          simp only [List.mem_append, List.mem_singleton] at hx
          rcases hx with hx | rfl
          · exact i5 x hx
          · refine ⟨j, ?_⟩
            cases r with
            | closed => exact Or.inl rfl
            | got => exact Or.inr (Or.inl rfl)
            | read p e' =>
              obtain ⟨_, ⟨_, hne, _⟩ | ⟨x, rfl, rfl, _, ho, _⟩⟩ := read_entry h1 e
              · exact (hne i3).elim
              · rw [i2] at ho; cases ho; exact Or.inr (Or.inr rfl)
            | reset sc =>
              cases h1 with
              | rd3 _ _ f => cases f <;> simp at e
              | rd4 _ _ f => cases f <;> simp at e
              | cl1ret => simp at e
              | cl6 => simp at e
              | gt1 => simp at e
              | ur => simp at e
              | rs2 h _ => exact (gg.nr _ _ h).elim
              | _ => exact (app_ne e).elim
    exact key.2.2.2

/-- **C45 is false if `Close` is called while the goroutine runs**: the error returned first is replaced by context.Canceled.  (The input is that of `C41_fails`.) -/
theorem C45_fails : ∃ (s : RState) (t : St), (rdemo [.format .raw]).Runs truncated s ∧ Reach NoReset 8 s.out.acts 1 t ∧
    t.log = [(0, .read [] (some .unexpectedEOF)), (0, .closed), (0, .read [] (some .canceled))] := by
  obtain ⟨s, h1, h2⟩ := truncated_acts
  let ls : List Lab := [.callRead 0 1, .client 0, .client 0, .client 0, .client 0, .thread, .thread, .thread, .client 0, .client 0] ++
    [.thread, .callClose 0, .client 0, .client 0, .client 0] ++ List.replicate 5 .thread ++ [.done, .client 0, .client 0, .client 0] ++
    [.callRead 0 1, .client 0, .client 0, .client 0, .client 0]
  have he : (execs (initial 8 [.err .unexpectedEOF, .data [65]] 1) ls).map (·.log) =
      some [(0, .read [] (some .unexpectedEOF)), (0, .closed), (0, .read [] (some .canceled))] := by
    decide +kernel
  obtain ⟨t, ht, hl⟩ := Option.map_eq_some_iff.1 he
  exact ⟨s, t, h1, by rw [h2]; exact execs_ok ht (by decide), hl⟩

end Flate.Props
