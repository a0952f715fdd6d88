/-
Invariants of cmd/gzip when it decompresses.
-/
import Verif.Model.Gzip
import Verif.Proof.ConcLog

namespace Flate.Proof.Cc
open Flate.Model Flate.Model.Rd Flate.Model.Conc Flate.Model.Gz

/-- which call is in progress -/
inductive CKind where
  | idle
  | read (n : Nat)
  | close
  /-- a call which cmd/gzip does not make -/
  | reset
  deriving DecidableEq

def kind : CPc → CKind
  | .idle => .idle
  | .rd0 n | .rd1 n | .rd2 n | .rd3 n | .rdWait n | .rdWoken n | .rd4 n => .read n
  | .cl0 | .cl1 | .cl3 | .cl4 | .cl5 | .cl6 => .close
  | .rs0 _ | .rs1 _ | .rs2 _ | .gt0 | .gt1 | .ur => .reset

theorem kind_wakeC (c : CPc) : kind (wakeC c) = kind c := by cases c <;> rfl

theorem one_get {c x : CPc} {i : Nat} (h : [c][i]? = some x) : i = 0 ∧ c = x := by
  cases i with
  | zero => exact ⟨rfl, by simpa using h⟩
  | succ i => simp at h

theorem signal_one {c : CPc} {cs : List CPc} (h : Signal1 [c] cs) : ∃ c', cs = [c'] ∧ kind c' = kind c := by
  cases h with
  | nobody _ => exact ⟨c, rfl, rfl⟩
  | one h =>
    obtain ⟨rfl, rfl⟩ := one_get h
    exact ⟨_, rfl, rfl⟩

theorem set_one {cs : List CPc} {c x : CPc} (h : cs = [c]) : cs.set 0 x = [x] := by rw [h]; rfl

/-- what a step does, if there is one caller only -/
theorem single_step {s s' : St} {l : Lab} {c : CPc} (h : Step s l s') (hl : Internal l) (hc : s.cls = [c]) (hk : kind c ≠ .reset) :
    ∃ c', s'.cls = [c'] ∧ (s'.log = s.log ∧ kind c' = kind c ∨
      kind c' = .idle ∧ ((∃ n p e, kind c = .read n ∧ s'.log = s.log ++ [(0, .read p e)]) ∨ (kind c = .close ∧ s'.log = s.log ++ [(0, .closed)]))) := by
  have get : ∀ {i : Nat} {x : CPc}, s.cls[i]? = some x → i = 0 ∧ c = x := by
    intro i x h; rw [hc] at h; exact one_get h
  have fin : ∀ {i n : Nat}, i = 0 → kind c = .read n → Finish s i n s' → ∃ c', s'.cls = [c'] ∧ (s'.log = s.log ∧ kind c' = kind c ∨
      kind c' = .idle ∧ ((∃ n p e, kind c = .read n ∧ s'.log = s.log ++ [(0, .read p e)]) ∨ (kind c = .close ∧ s'.log = s.log ++ [(0, .closed)]))) := by
    intro i n hi hk f
    subst hi
    cases f with
    | error _ => exact ⟨.idle, by simp [St.setC, hc], Or.inr ⟨rfl, Or.inl ⟨n, _, _, hk, rfl⟩⟩⟩
    | all _ _ => exact ⟨.idle, by simp [St.setC, hc], Or.inr ⟨rfl, Or.inl ⟨n, _, _, hk, rfl⟩⟩⟩
    | some _ _ _ hs =>
      rw [hc] at hs
      obtain ⟨c', rfl, hk'⟩ := signal_one hs
      exact ⟨c', rfl, Or.inr ⟨hk', Or.inl ⟨n, _, _, hk, rfl⟩⟩⟩
  cases h with
  | callRead _ _ => exact hl.elim
  | callClose _ => exact hl.elim
  | callReset _ _ => exact hl.elim
  | callGet _ => exact hl.elim
  | callUnder _ => exact hl.elim
  | rd3 h1 _ f => obtain ⟨rfl, rfl⟩ := get h1; exact fin rfl rfl f
  | rd4 h1 _ f => obtain ⟨rfl, rfl⟩ := get h1; exact fin rfl rfl f
  | rd0 h1 _ => obtain ⟨rfl, rfl⟩ := get h1; exact ⟨_, set_one hc, Or.inl ⟨rfl, rfl⟩⟩
  | rd1 h1 _ => obtain ⟨rfl, rfl⟩ := get h1; exact ⟨_, set_one hc, Or.inl ⟨rfl, rfl⟩⟩
  | rd1go h1 _ => obtain ⟨rfl, rfl⟩ := get h1; exact ⟨_, set_one hc, Or.inl ⟨rfl, rfl⟩⟩
  | rd2 h1 _ => obtain ⟨rfl, rfl⟩ := get h1; exact ⟨_, set_one hc, Or.inl ⟨rfl, rfl⟩⟩
  | rd3wait h1 _ _ => obtain ⟨rfl, rfl⟩ := get h1; exact ⟨_, set_one hc, Or.inl ⟨rfl, rfl⟩⟩
  | rdWoken h1 _ => obtain ⟨rfl, rfl⟩ := get h1; exact ⟨_, set_one hc, Or.inl ⟨rfl, rfl⟩⟩
  | rd4wait h1 _ _ => obtain ⟨rfl, rfl⟩ := get h1; exact ⟨_, set_one hc, Or.inl ⟨rfl, rfl⟩⟩
  | cl0 h1 _ => obtain ⟨rfl, rfl⟩ := get h1; exact ⟨_, set_one hc, Or.inl ⟨rfl, rfl⟩⟩
  | cl1ret h1 _ => obtain ⟨rfl, rfl⟩ := get h1; exact ⟨.idle, by simp [St.setC, hc], Or.inr ⟨rfl, Or.inr ⟨rfl, rfl⟩⟩⟩
  | cl1 h1 _ _ _ => obtain ⟨rfl, rfl⟩ := get h1; exact ⟨_, set_one hc, Or.inl ⟨rfl, rfl⟩⟩
  | cl3 h1 => obtain ⟨rfl, rfl⟩ := get h1; exact ⟨.cl4, by simp [hc, wakeC], Or.inl ⟨rfl, rfl⟩⟩
  | cl4 h1 _ => obtain ⟨rfl, rfl⟩ := get h1; exact ⟨_, set_one hc, Or.inl ⟨rfl, rfl⟩⟩
  | cl5 h1 _ => obtain ⟨rfl, rfl⟩ := get h1; exact ⟨_, set_one hc, Or.inl ⟨rfl, rfl⟩⟩
  | cl6 h1 => obtain ⟨rfl, rfl⟩ := get h1; exact ⟨.idle, by simp [St.setC, hc], Or.inr ⟨rfl, Or.inr ⟨rfl, rfl⟩⟩⟩
  | rs0 h1 _ => obtain ⟨rfl, rfl⟩ := get h1; exact absurd rfl hk
  | rs1 h1 _ => obtain ⟨rfl, rfl⟩ := get h1; exact absurd rfl hk
  | rs2 h1 _ => obtain ⟨rfl, rfl⟩ := get h1; exact absurd rfl hk
  | gt0 h1 _ => obtain ⟨rfl, rfl⟩ := get h1; exact absurd rfl hk
  | gt1 h1 => obtain ⟨rfl, rfl⟩ := get h1; exact absurd rfl hk
  | ur h1 => obtain ⟨rfl, rfl⟩ := get h1; exact absurd rfl hk
  | errSet h1 => exact ⟨wakeC c, by simp [hc], Or.inl ⟨rfl, kind_wakeC c⟩⟩
  | fl5end _ _ hs => rw [hc] at hs; obtain ⟨c', rfl, hk'⟩ := signal_one hs; exact ⟨c', rfl, Or.inl ⟨rfl, hk'⟩⟩
  | fl5 _ _ _ _ _ hs => rw [hc] at hs; obtain ⟨c', rfl, hk'⟩ := signal_one hs; exact ⟨c', rfl, Or.inl ⟨rfl, hk'⟩⟩
  | _ => exact ⟨c, hc, Or.inl ⟨rfl, rfl⟩⟩

theorem internal_readOnly {l : Lab} (h : Internal l) : ReadOnly l := by cases l <;> first | trivial | exact h.elim
theorem internal_noReset {l : Lab} (h : Internal l) : NoReset l := by cases l <;> first | trivial | exact h.elim

theorem got_snoc (log : List (Nat × Res)) (i : Nat) (p : List UInt8) (e : Option Err) : got (log ++ [(i, .read p e)]) = got log ++ p := by
  simp [got]

/-- what has been written to the standard output, when the Reader has reported the end of the file -/
def GotEOF (cap : Nat) (script : List Act) (base out : List UInt8) : Prop :=
  ∃ (c : St) (pre : List (Nat × Res)), Reach ReadOnly cap script 1 c ∧ c.log = pre ++ [(0, .read [] (some .eof))] ∧ out = base ++ got pre

/-- why the program has failed -/
def Failed (cap : Nat) (script : List Act) (k0 k : Sink) : Prop :=
  k0.errs.length < k.errs.length ∨ ∃ (c : St) (pre : List (Nat × Res)) (e : Err), Reach ReadOnly cap script 1 c ∧ e ≠ .eof ∧ c.log = pre ++ [(0, .read [] (some e))]

/-- the invariant -/
structure DInv (cap : Nat) (script : List Act) (k0 : Sink) (s : DSt) : Prop where
  nr : Reach NoReset cap script 1 s.rd
  wf : s.out.wfail = k0.wfail
  part : ∃ c d, Reach ReadOnly cap script 1 c ∧ s.out.out = k0.out ++ d ∧ d <+: got c.log
  safe : (∀ n, k0.wfail n = none) → s.out.errs = k0.errs
  ok : (∀ n, s.pc ≠ .exit n) ∨ s.pc = .exit 0 → s.out.errs = k0.errs
  pcs : match s.pc with
    | .copy => Reach ReadOnly cap script 1 s.rd ∧ (∃ c, s.rd.cls = [c] ∧ kind c = .idle) ∧ s.out.out = k0.out ++ got s.rd.log
    | .read => Reach ReadOnly cap script 1 s.rd ∧ (∃ c, s.rd.cls = [c] ∧ kind c = .read copyBuf) ∧ s.out.out = k0.out ++ got s.rd.log
    | .copied => (∃ c, s.rd.cls = [c] ∧ kind c = .idle) ∧ GotEOF cap script k0.out s.out.out
    | .close => (∃ c, s.rd.cls = [c] ∧ kind c = .close) ∧ GotEOF cap script k0.out s.out.out
    | .exit n => n = 0 ∧ GotEOF cap script k0.out s.out.out ∨ n = 1 ∧ Failed cap script k0 s.out

theorem idle_of_kind {c : CPc} (h : kind c = .idle) : c = .idle := by cases c <;> first | rfl | cases h

theorem putOut_errs {p : List UInt8} {k k' : Sink} {b : Bool} (h : putOut p k = (b, k')) :
    k'.wfail = k.wfail ∧ (b = true → k'.errs = k.errs ∧ k'.out = k.out ++ p) ∧ (b = false → k'.errs.length = k.errs.length + 1 ∧ (∃ q, q <+: p ∧ k'.out = k.out ++ q) ∧ ∃ n, k.wfail n ≠ none) := by
  unfold putOut at h
  split at h
  · rename_i hp; subst hp; cases h; exact ⟨rfl, fun _ => ⟨rfl, by simp⟩, fun h => by cases h⟩
  · split at h
    · cases h; exact ⟨rfl, fun _ => ⟨rfl, rfl⟩, fun h => by cases h⟩
    · rename_i n e hw
      cases h
      exact ⟨rfl, (fun h => by cases h), fun _ => ⟨by simp, ⟨_, List.take_prefix _ _, rfl⟩, k.nWrites, by rw [hw]; simp⟩⟩

theorem dinv_start {cap : Nat} (script : List Act) (k : Sink) : DInv cap script k { rd := initial cap script 1, out := k } := by
  refine ⟨.refl, rfl, ⟨_, [], .refl, by simp, by simp⟩, fun _ => rfl, fun _ => rfl, ?_⟩
  exact ⟨.refl, ⟨.idle, rfl, rfl⟩, by simp [initial, got]⟩

theorem DInv.step {cap : Nat} {script : List Act} {k0 : Sink} {s t : DSt} (hcap : 0 < cap) (i : DInv cap script k0 s) (h : DStep s t) : DInv cap script k0 t := by
  have _ := hcap
  cases h with
  | callRead hpc hs =>
    rename_i c
    have hp := i.pcs
    rw [hpc] at hp
    obtain ⟨h1, ⟨c0, h2, h3⟩, h4⟩ := hp
    have hc : c.cls = [.rd0 copyBuf] ∧ c.log = s.rd.log := by
      cases hs with
      | callRead _ _ => exact ⟨by simp [St.setC, h2], rfl⟩
    refine ⟨.step i.nr hs trivial, i.wf, i.part, i.safe, fun _ => i.ok (Or.inl (by rw [hpc]; simp)), ?_⟩
    exact ⟨.step h1 hs trivial, ⟨_, hc.1, rfl⟩, by show s.out.out = _; rw [h4, hc.2]⟩
  | callClose hpc hs =>
    rename_i c
    have hp := i.pcs
    rw [hpc] at hp
    obtain ⟨⟨c0, h2, h3⟩, h4⟩ := hp
    have hc : c.cls = [.cl0] := by
      cases hs with
      | callClose _ => simp [St.setC, h2]
    exact ⟨.step i.nr hs trivial, i.wf, i.part, i.safe, fun _ => i.ok (Or.inl (by rw [hpc]; simp)), ⟨_, hc, rfl⟩, h4⟩
  | inside hne hl hs hlog =>
    rename_i c l
    refine ⟨.step i.nr hs (internal_noReset hl), i.wf, i.part, i.safe, fun _ => i.ok (Or.inl hne), ?_⟩
    have hp := i.pcs
    have key : ∀ {K : CKind}, K ≠ .reset → (∃ c0, s.rd.cls = [c0] ∧ kind c0 = K) → ∃ c0, c.cls = [c0] ∧ kind c0 = K := by
      rintro K hK ⟨c0, h1, h2⟩
      obtain ⟨c', e1, ⟨_, e2⟩ | ⟨_, ⟨_, _, _, _, e2⟩ | ⟨_, e2⟩⟩⟩ := single_step hs hl h1 (by rw [h2]; exact hK)
      · exact ⟨c', e1, e2.trans h2⟩
      · rw [hlog] at e2; have := congrArg List.length e2; simp at this
      · rw [hlog] at e2; have := congrArg List.length e2; simp at this
    show match s.pc with
      | .copy => _
      | .read => _
      | .copied => _
      | .close => _
      | .exit n => _
    cases hpc : s.pc with
    | copy =>
      rw [hpc] at hp
      exact ⟨.step hp.1 hs (internal_readOnly hl), key (by simp) hp.2.1, by rw [hlog]; exact hp.2.2⟩
    | read =>
      rw [hpc] at hp
      exact ⟨.step hp.1 hs (internal_readOnly hl), key (by simp) hp.2.1, by rw [hlog]; exact hp.2.2⟩
    | copied => rw [hpc] at hp; exact ⟨key (by simp) hp.1, hp.2⟩
    | close => rw [hpc] at hp; exact ⟨key (by simp) hp.1, hp.2⟩
    | exit n => exact absurd hpc (hne n)
  | readRet hpc hl hs hlog =>
    rename_i c l p e
    have hp := i.pcs
    rw [hpc] at hp
    obtain ⟨h1, ⟨c0, h2, h3⟩, h4⟩ := hp
    have hr : Reach ReadOnly cap script 1 c := .step h1 hs (internal_readOnly hl)
    have herr : s.out.errs = k0.errs := i.ok (Or.inl (by rw [hpc]; simp))
    obtain ⟨c', e1, ⟨e2, _⟩ | ⟨hidle, _⟩⟩ := single_step hs hl h2 (by rw [h3]; simp)
    · rw [hlog] at e2; have := congrArg List.length e2; simp at this
    obtain ⟨_, hcase⟩ := read_entry hs hlog
    have hout : k0.out ++ got c.log = s.out.out ++ p := by rw [hlog, got_snoc, h4]; simp
    cases hpo : putOut p s.out with
    | mk b k =>
      obtain ⟨q1, q2, q3⟩ := putOut_errs hpo
      cases b with
      | false =>
        have ha : afterRead p e s.out = (.exit 1, k) := by unfold afterRead; rw [hpo]
        rw [ha]
        obtain ⟨q4, ⟨q, q5, q6⟩, n0, q7⟩ := q3 rfl
        refine ⟨.step i.nr hs (internal_noReset hl), q1.trans i.wf, ⟨c, got s.rd.log ++ q, hr, by show k.out = _; rw [q6, h4]; simp, by rw [hlog, got_snoc]; exact (List.prefix_append_right_inj _).2 q5⟩, fun hk => absurd (by rw [i.wf]; exact hk n0) q7, fun hx => ?_, ?_⟩
        · rcases hx with hx | hx
          · exact absurd rfl (hx 1)
          · cases hx
        · exact Or.inr ⟨rfl, Or.inl (by show _ < k.errs.length; rw [q4, herr]; omega)⟩
      | true =>
        obtain ⟨q4, q5⟩ := q2 rfl
        have hk : k.out = k0.out ++ got c.log := by rw [hout, q5]
        rcases hcase with ⟨rfl, _⟩ | ⟨x, rfl, rfl, _⟩
        · have ha : afterRead p none s.out = (.copy, k) := by unfold afterRead; rw [hpo]
          rw [ha]
          exact ⟨.step i.nr hs (internal_noReset hl), q1.trans i.wf, ⟨c, got c.log, hr, hk, List.prefix_rfl⟩, fun _ => q4.trans herr, fun _ => q4.trans herr, hr, ⟨c', e1, hidle⟩, hk⟩
        · by_cases hx : x = .eof
          · subst hx
            have ha : afterRead [] (some .eof) s.out = (.copied, k) := by unfold afterRead; rw [hpo]
            rw [ha]
            refine ⟨.step i.nr hs (internal_noReset hl), q1.trans i.wf, ⟨c, got c.log, hr, hk, List.prefix_rfl⟩, fun _ => q4.trans herr, fun _ => q4.trans herr, ⟨c', e1, hidle⟩, c, s.rd.log, hr, hlog, ?_⟩
            show k.out = _
            rw [q5, h4]; simp
          · have ha : afterRead [] (some x) s.out = (.exit 1, k) := by
              unfold afterRead; rw [hpo]
              cases x <;> first | rfl | exact absurd rfl hx
            rw [ha]
            refine ⟨.step i.nr hs (internal_noReset hl), q1.trans i.wf, ⟨c, got c.log, hr, hk, List.prefix_rfl⟩, fun _ => q4.trans herr, fun hx => ?_, ?_⟩
            · rcases hx with hx | hx
              · exact absurd rfl (hx 1)
              · cases hx
            · exact Or.inr ⟨rfl, Or.inr ⟨c, s.rd.log, x, hr, hx, hlog⟩⟩
  | closeRet hpc hl hs hlog =>
    have hp := i.pcs
    rw [hpc] at hp
    exact ⟨.step i.nr hs (internal_noReset hl), i.wf, i.part, i.safe, fun _ => i.ok (Or.inl (by rw [hpc]; simp)), Or.inl ⟨rfl, hp.2⟩⟩

theorem DInv.steps {cap : Nat} {script : List Act} {k0 : Sink} {s t : DSt} (hcap : 0 < cap) (i : DInv cap script k0 s) (h : DSteps s t) : DInv cap script k0 t := by
  induction h with
  | refl => exact i
  | step _ h ih => exact ih.step hcap h

end Flate.Proof.Cc
