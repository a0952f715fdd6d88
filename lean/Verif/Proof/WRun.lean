/-
Whole histories of calls.
-/
import Verif.Proof.WApi

namespace Flate.Proof
open Flate.Spec Flate.Model

/-- a Writer at the beginning of its life (or just after a `Reset` between streams) -/
structure Fresh (s : WState) : Prop where
  inv : WInv s
  conf : Conf s
  err : s.err = none
  state : s.state = .noStream
  buf : s.lz.buf = []
  ob : s.obLen = 0

theorem Fresh.live {s : WState} (h : Fresh s) (E : BlockRel) : Live E s.sink.out s.numStreams s { hdr := s.header } :=
  ⟨h.inv, h.conf, h.err, by rw [h.buf]; exact room_pos _, rfl, rfl, [], .nil, by simp, h.ob, h.buf, Or.inl ⟨h.state, rfl⟩⟩

/-- the options in force -/
def effective (opts : List Opt) : Options := (Options.apply {} opts).writerDefaults

/-- options are within their ranges -/
structure OptsOK (o : Options) : Prop where
  clevel : -1 ≤ o.clevel ∧ o.clevel ≤ 9
  mlevel : o.mlevel ≤ 9
  wbits : o.wbits = 0 ∨ (8 ≤ o.wbits ∧ o.wbits ≤ 15)
  dict : ∀ d, o.dict = some d → d ≠ []

theorem apply_ok {o : Options} (h : OptsOK o) {opts : List Opt} (hv : ∀ x ∈ opts, x.valid = true) :
    OptsOK (o.apply opts) := by
  unfold Options.apply
  induction opts generalizing o with
  | nil => exact h
  | cons x xs ih =>
    refine ih ?_ fun y hy => hv y (by simp [hy])
    have hx := hv x (by simp)
    cases x with
    | format f => exact ⟨h.clevel, h.mlevel, h.wbits, h.dict⟩
    | method m => exact ⟨h.clevel, h.mlevel, h.wbits, h.dict⟩
    | strategy s => exact ⟨h.clevel, h.mlevel, h.wbits, h.dict⟩
    | tracers t => exact ⟨h.clevel, h.mlevel, h.wbits, h.dict⟩
    | clevel c => exact ⟨of_decide_eq_true hx, h.mlevel, h.wbits, h.dict⟩
    | mlevel m => exact ⟨h.clevel, of_decide_eq_true hx, h.wbits, h.dict⟩
    | wbits w => exact ⟨h.clevel, h.mlevel, of_decide_eq_true hx, h.dict⟩
    | dict d =>
      refine ⟨h.clevel, h.mlevel, h.wbits, ?_⟩
      intro d' hd
      have hd : d = some d' := hd
      subst hd
      simp only [Opt.valid, Bool.not_eq_true'] at hx
      intro h0; rw [h0] at hx; simp at hx

theorem optsOK_init : OptsOK {} := ⟨by decide, by decide, Or.inl rfl, by intro d h; cases h⟩

/-- ranges after defaults have been filled in -/
structure OptsFull (o : Options) : Prop where
  format : o.format ≠ .default
  clevel : 0 ≤ o.clevel ∧ o.clevel ≤ 9
  mlevel : 1 ≤ o.mlevel ∧ o.mlevel ≤ 9
  wbits : 8 ≤ o.wbits ∧ o.wbits ≤ 15
  dict : ∀ d, o.dict = some d → d ≠ []

theorem writerDefaults_full {o : Options} (h : OptsOK o) : OptsFull o.writerDefaults := by
  obtain ⟨h1, h2, h3, h4⟩ := h
  unfold Options.writerDefaults Options.readerDefaults
  refine ⟨?_, ?_, ?_, ?_, h4⟩
  · dsimp only; split
    · simp
    · assumption
  · dsimp only; split <;> omega
  · dsimp only; split <;> omega
  · dsimp only; split <;> omega

theorem lzok_hybrid {o : Options} (h : OptsFull o) {z : LZ} (hz : z.opts = hybridOptions o) : LZOK z := by
  have hw : 2 ^ o.wbits ≤ 2 ^ 15 := Nat.pow_le_pow_right (by omega) h.wbits.2
  refine ⟨?_, ?_, ?_⟩
  · rw [hz]; unfold hybridOptions; split <;> simp
  · rw [hz]; unfold hybridOptions; split <;> simp
  · unfold LZ.maxDist; rw [hz]; unfold hybridOptions
    split
    · rename_i h1; revert h1; split <;> simp; omega
    · rename_i h1; revert h1; split <;> simp <;> intro h1 <;> omega

theorem newWriter_fresh {W : Nat} (hW : W = 32 ∨ W = 64) (propose : Nat → Option (Nat × Nat)) (sink : Sink)
    {opts : List Opt} (hv : ∀ x ∈ opts, x.valid = true) : Fresh (newWriter W propose sink opts) := by
  have hf := writerDefaults_full (apply_ok optsOK_init hv)
  have hp : 0 < W := by omega
  refine ⟨⟨hW, hp, ?_, rfl⟩, ⟨hf.format, hf.wbits.1, hf.wbits.2, lzok_hybrid hf rfl, show headerOK {} = true by decide⟩, rfl, rfl, rfl, rfl⟩
  exact Nat.two_pow_pos _

/-- distances the Writer may use -/
theorem maxDist_window {o : Options} (h : OptsFull o) {z : LZ} (hz : z.opts = hybridOptions o) : z.maxDist ≤ 2 ^ o.wbits := by
  have : 2 ^ 8 ≤ 2 ^ o.wbits := Nat.pow_le_pow_right (by omega) h.wbits.1
  unfold LZ.maxDist; rw [hz]; unfold hybridOptions
  split
  · rename_i h1; revert h1; split <;> simp
  · rename_i h1; revert h1; split <;> simp <;> intro h1 <;> omega

theorem run_cons_inv {L : HuffLib} {op : WOp} {ops : List WOp} {s t : WState} {rs : List WRes}
    (h : runOps L (op :: ops) s = .ok (rs, t)) :
    ∃ r u rs', stepOp L op s = .ok (r, u) ∧ runOps L ops u = .ok (rs', t) ∧ rs = r :: rs' := by
  unfold runOps at h
  cases h1 : stepOp L op s with
  | error e => rw [h1] at h; cases h
  | ok x =>
    obtain ⟨r, u⟩ := x
    rw [h1] at h
    dsimp only at h
    cases h2 : runOps L ops u with
    | error e => rw [h2] at h; cases h
    | ok y =>
      obtain ⟨rs', v⟩ := y
      rw [h2] at h
      cases h
      exact ⟨r, u, rs', rfl, h2, rfl⟩

theorem run_cons {L : HuffLib} {op : WOp} {ops : List WOp} {s u t : WState} {r : WRes} {rs : List WRes}
    (h : stepOp L op s = .ok (r, u)) (k : runOps L ops u = .ok (rs, t)) : runOps L (op :: ops) s = .ok (r :: rs, t) := by
  unfold runOps; rw [h]; dsimp only; rw [k]

theorem run_append_inv {L : HuffLib} {b : List WOp} : ∀ {a : List WOp} {s u : WState} {rs : List WRes},
    runOps L (a ++ b) s = .ok (rs, u) →
    ∃ rs1 t rs2, runOps L a s = .ok (rs1, t) ∧ runOps L b t = .ok (rs2, u) ∧ rs = rs1 ++ rs2 := by
  intro a
  induction a with
  | nil => intro s u rs h; exact ⟨[], s, rs, rfl, h, rfl⟩
  | cons op ops ih =>
    intro s u rs h
    obtain ⟨r, v, rs', h1, h2, rfl⟩ := run_cons_inv h
    obtain ⟨rs1, t, rs2, h3, h4, rfl⟩ := ih h2
    exact ⟨r :: rs1, t, rs2, run_cons h1 h3, h4, rfl⟩

theorem run_append_ok {L : HuffLib} {b : List WOp} : ∀ {a : List WOp} {s t u : WState} {rs1 rs2 : List WRes},
    runOps L a s = .ok (rs1, t) → runOps L b t = .ok (rs2, u) → runOps L (a ++ b) s = .ok (rs1 ++ rs2, u) := by
  intro a
  induction a with
  | nil => intro s t u rs1 rs2 h k; cases h; exact k
  | cons op ops ih =>
    intro s t u rs1 rs2 h k
    obtain ⟨r, v, rs', h1, h2, rfl⟩ := run_cons_inv h
    exact run_cons h1 (ih h2 k)

theorem run_length {L : HuffLib} : ∀ (ops : List WOp) {s t : WState} {rs : List WRes},
    runOps L ops s = .ok (rs, t) → rs.length = ops.length := by
  intro ops
  induction ops with
  | nil => intro s t rs h; cases h; rfl
  | cons op ops ih =>
    intro s t rs h
    obtain ⟨r, u, rs', h1, h2, rfl⟩ := run_cons_inv h
    simp [ih h2]

/-- a Writer which has failed or has been closed -/
def Dead (s : WState) : Prop := s.state = .closed ∨ (s.state = .error ∧ ∃ e, s.err = some e)

theorem run_dead {L : HuffLib} : ∀ (ops : List WOp) (s : WState), Dead s → ∃ rs t, runOps L ops s = .ok (rs, t) ∧
    t = { s with header := t.header, state := t.state, err := t.err } ∧ Dead t ∧
    (s.state = .closed → t.state = .closed) := by
  intro ops
  induction ops with
  | nil => intro s h; exact ⟨[], s, rfl, rfl, h, id⟩
  | cons op ops ih =>
    intro s h
    obtain ⟨r, u, e, eq, du, hc, _⟩ := stepOp_dead (L := L) s h op
    obtain ⟨rs, t, e', eq', dt, hc'⟩ := ih u du
    refine ⟨r :: rs, t, ?_, by rw [eq', eq], dt, fun h => hc' (hc h).1⟩
    unfold runOps; rw [e]; dsimp only; rw [e']

theorem hist_dead {s t : WState} (h : t = { s with header := t.header, state := t.state, err := t.err }) (hdead : Dead t) :
    Hist s t [] [] := by
  have hr := Flow.refl s
  have hd : t.state ≠ .openStream ∧ t.state ≠ .closingStream := by
    rcases hdead with h | ⟨h, _⟩ <;> rw [h] <;> simp
  clear hdead
  generalize t.header = a, t.state = b, t.err = c at *
  subst h
  exact Flow.hist ⟨rfl, rfl, rfl, rfl, rfl, rfl, rfl, rfl, rfl, rfl, List.prefix_refl _, List.prefix_refl _,
        List.prefix_refl _, rfl, rfl, by simp, by simp, by simp, by simp, Nat.le_refl _, Nat.le_refl _, rfl, hr.offs, fun A hA => ⟨hA.other hd.1 hd.2 none, by simp⟩, by simp⟩

theorem cfg_hist {s t : WState} {k : List UInt8} {es : List Sent} (h : Hist s t k es) : cfgOf t = cfgOf s := by
  unfold cfgOf; rw [h.o, cap_congr h.lzopts]

/-- everything handed to the Writer -/
def offered (ops : List WOp) : List UInt8 := ops.flatMap opData

/-- the configuration excludes stored blocks with too much data, or no single `Write` is too long -/
def FitOps (s : WState) (ops : List WOp) : Prop :=
  usesStore s.o = true ∨ s.lz.opts.bufBits ≤ 15 ∨ ∀ op ∈ ops, (opData op).length ≤ 61440

theorem FitOps.fit {E : BlockRel} {base : List UInt8} {s : WState} {a : Abs} {ops : List WOp} (h : FitOps s ops) (hl : Live E base n0 s a) {op : WOp} (ho : op ∈ ops) :
    Fit s (opData op).length := by
  rcases h with h | h | h
  · exact Or.inl h
  · exact Or.inr (Or.inl h)
  · by_cases hu : usesStore s.o = true
    · exact Or.inl hu
    · have := h op ho
      have hc := hl.cap
      unfold room at hc
      rw [if_neg hu] at hc
      exact Or.inr (Or.inr (by omega))

theorem FitOps.hist {s t : WState} {k : List UInt8} {es : List Sent} (h : Hist s t k es) {ops : List WOp} (hf : FitOps s ops) : FitOps t ops := by
  unfold FitOps; rw [h.o, h.lzopts]; exact hf

theorem FitOps.tail {s : WState} {op : WOp} {ops : List WOp} (h : FitOps s (op :: ops)) : FitOps s ops := by
  rcases h with h | h | h
  · exact Or.inl h
  · exact Or.inr (Or.inl h)
  · exact Or.inr (Or.inr fun x hx => h x (by simp [hx]))

/-- all histories: no panic except for the one known, and what is true whatever fails -/
theorem run_any {L : HuffLib} (hL : L.Lawful) {E : BlockRel} {pf : Prop} {base : List UInt8} :
    ∀ (ops : List WOp) {s : WState} {a : Abs}, Live E base n0 s a → BlockOK L s.o s.lz.maxDist pf E →
    (∀ op ∈ ops, UsesPartial op → pf) →
    (runOps L ops s = .error tooLong ∧ ¬ FitOps s ops) ∨
    ∃ rs t es k, runOps L ops s = .ok (rs, t) ∧ Hist s t k es ∧ k <+: offered ops ∧
      (∃ p, runPh (phaseOf a) (kinds es) = some p) ∧ ((∃ a', Live E base n0 t a') ∨ Dead t) ∧
      (Dependable s → WOp.close ∉ ops → ∀ r ∈ rs, r.err = none) := by
  intro ops
  induction ops with
  | nil =>
    intro s a hl _ _
    exact Or.inr ⟨[], s, [], [], rfl, (Flow.refl s).hist, List.nil_prefix, ⟨_, rfl⟩, Or.inl ⟨a, hl⟩, by simp⟩
  | cons op ops ih =>
    intro s a hl hE hp
    rcases stepOp_live hL hl hE op (hp op (by simp)) with ⟨e, hf⟩ | ⟨r, u, es, k, e, hh, ok, bad, dep, kp, ke⟩
    · exact Or.inl ⟨by unfold runOps; rw [e], fun h => hf (h.fit hl (by simp))⟩
    have dead : (∃ p, runPh (phaseOf a) (kinds es) = some p) → Dead u → (Dependable s → WOp.close ∉ op :: ops → False) →
        ∃ rs t es k, runOps L (op :: ops) s = .ok (rs, t) ∧ Hist s t k es ∧ k <+: offered (op :: ops) ∧
          (∃ p, runPh (phaseOf a) (kinds es) = some p) ∧ ((∃ a', Live E base n0 t a') ∨ Dead t) ∧
          (Dependable s → WOp.close ∉ op :: ops → ∀ r ∈ rs, r.err = none) := by
      intro hph hd hdep
      obtain ⟨rs, t, e', eq, dt, _⟩ := run_dead (L := L) ops u hd
      refine ⟨r :: rs, t, es ++ [], k ++ [], ?_, hh.trans (hist_dead eq dt), ?_, ?_, Or.inr dt, fun d c => (hdep d c).elim⟩
      · unfold runOps; rw [e]; dsimp only; rw [e']
      · rw [List.append_nil]; exact kp.trans (List.prefix_append _ _)
      · rw [List.append_nil]; exact hph
    cases hr : r.err with
    | some x =>
      obtain ⟨hph, _, h1, h2⟩ := bad x hr
      refine Or.inr (dead hph ?_ ?_)
      · by_cases hc : op = .close
        · exact Or.inl (h1 hc).1
        · exact Or.inr ⟨(h2 hc).1, x, (h2 hc).2⟩
      · intro d _; have := dep d; rw [hr] at this; cases this
    | none =>
      obtain ⟨_, hph, h1, h2⟩ := ok hr
      by_cases hc : op = .close
      · refine Or.inr (dead ⟨_, hph⟩ (Or.inl (h1 hc).state) ?_)
        intro _ h; exact h (by simp [hc])
      · rcases ih (h2 hc) (hE.hist hh) (fun op h => hp op (by simp [h])) with ⟨e', hf⟩ | ⟨rs, t, es', k', e', hh', kp', ⟨p, hp'⟩, hd, dep'⟩
        · refine Or.inl ⟨by unfold runOps; rw [e]; dsimp only; rw [e'], fun h => hf (h.tail.hist hh)⟩
        · refine Or.inr ⟨r :: rs, t, es ++ es', k ++ k', ?_, hh.trans hh', ?_, ⟨p, ?_⟩, hd, ?_⟩
          · unfold runOps; rw [e]; dsimp only; rw [e']
          · rw [ke hr]; exact (List.prefix_append_right_inj _).2 kp'
          · rw [kinds_append]; exact runPh_trans hph hp'
          · intro d hc' x hx
            rcases List.mem_cons.1 hx with rfl | hx
            · exact hr
            · exact dep' (dependable_of_hist hh d) (fun h => hc' (by simp [h])) x hx

/-- histories without errors and without Close -/
theorem run_good {L : HuffLib} (hL : L.Lawful) {E : BlockRel} {pf : Prop} {base : List UInt8} :
    ∀ (ops : List WOp) {s t : WState} {a : Abs} {rs : List WRes}, Live E base n0 s a → BlockOK L s.o s.lz.maxDist pf E →
    (∀ op ∈ ops, UsesPartial op → pf) → WOp.close ∉ ops → runOps L ops s = .ok (rs, t) → (∀ r ∈ rs, r.err = none) →
    ∃ es k, Hist s t k es ∧ Live E base n0 t (ops.foldl (Abs.step (cfgOf s)) a) ∧ t.sink.errs = s.sink.errs ∧
      runPh (phaseOf a) (kinds es) = some (phaseOf (ops.foldl (Abs.step (cfgOf s)) a)) ∧ k = offered ops := by
  intro ops
  induction ops with
  | nil =>
    intro s t a rs hl _ _ _ h _
    cases h
    exact ⟨[], [], (Flow.refl s).hist, hl, rfl, rfl, rfl⟩
  | cons op ops ih =>
    intro s t a rs hl hE hp hc h hr
    obtain ⟨r, u, rs', h1, h2, rfl⟩ := run_cons_inv h
    rcases stepOp_live hL hl hE op (hp op (by simp)) with ⟨e, hf⟩ | ⟨r', u', es, k, e, hh, ok, bad, dep, kp, ke⟩
    · rw [e] at h1; cases h1
    rw [e] at h1
    cases h1
    obtain ⟨ee, hph, _, h3⟩ := ok (hr r (by simp))
    have hl' := h3 (fun h => hc (by simp [h]))
    obtain ⟨es', k', hh', hl'', ee', hph', kk⟩ := ih hl' (hE.hist hh) (fun op h => hp op (by simp [h])) (fun h => hc (by simp [h])) h2
      (fun x hx => hr x (by simp [hx]))
    rw [cfg_hist hh] at hl'' hph'
    exact ⟨es ++ es', k ++ k', hh.trans hh', hl'', ee'.trans ee, by rw [kinds_append]; exact runPh_trans hph hph',
      by rw [ke (hr r (by simp)), kk]; rfl⟩

/-- histories without errors, ending with Close -/
theorem run_close {L : HuffLib} (hL : L.Lawful) {E : BlockRel} {pf : Prop} {base : List UInt8}
    {ops : List WOp} {s t : WState} {a : Abs} {rs : List WRes} (hl : Live E base n0 s a) (hE : BlockOK L s.o s.lz.maxDist pf E)
    (hp : ∀ op ∈ ops, UsesPartial op → pf) (hc : WOp.close ∉ ops) (h : runOps L (ops ++ [.close]) s = .ok (rs, t))
    (hr : ∀ r ∈ rs, r.err = none) :
    ∃ es k, Hist s t k es ∧ Closed E base n0 t ((ops ++ [WOp.close]).foldl (Abs.step (cfgOf s)) a) ∧
      runPh (phaseOf a) (kinds es) = some .idle ∧ k = offered ops := by
  obtain ⟨rs1, u, rs2, h1, h2, rfl⟩ := run_append_inv h
  obtain ⟨es, k, hh, hl', _, hph, kk⟩ := run_good hL ops hl hE hp hc h1 (fun r x => hr r (by simp [x]))
  obtain ⟨r, v, rs', h3, h4, rfl⟩ := run_cons_inv h2
  cases h4
  rcases stepClose hL hl' (hE.hist hh) with ⟨e, hf⟩ | ⟨r', u', es', k', e, hh', ok, bad, dep, kp, ke⟩
  · rw [e] at h3; cases h3
  rw [e] at h3
  cases h3
  obtain ⟨_, hph', h5, _⟩ := ok (hr r (by simp))
  refine ⟨es ++ es', k ++ k', hh.trans hh', ?_, ?_, by rw [kk, ke (hr r (by simp))]; exact List.append_nil _⟩
  · have := h5 rfl
    rw [cfg_hist hh] at this
    rw [List.foldl_append]
    exact this
  · rw [kinds_append]
    refine runPh_trans hph (hph'.trans ?_)
    rw [show phaseOf ((ops.foldl (Abs.step (cfgOf s)) a).step (cfgOf u) .close) = .idle from ?_]
    unfold phaseOf
    rw [show ((ops.foldl (Abs.step (cfgOf s)) a).step (cfgOf u) .close).cur = none from finish_cur _ _]

/-! ### data only -/

def Abs.segs (a : Abs) : Segs := ⟨a.done.map Prod.snd, a.cur.map Prod.snd⟩

theorem abs_segs_step (c : AbsCfg) (a : Abs) (op : WOp) : Abs.segs (a.step c op) = (Abs.segs a).step op := by
  have hfin : Abs.segs (a.finish c) = (Abs.segs a).finish := by
    unfold Abs.finish Segs.finish Abs.segs
    cases h : a.cur with
    | some x => obtain ⟨y, z⟩ := x; simp
    | none =>
      by_cases hd : a.done = []
      · simp [hd]
      · simp [hd, h]
  cases op with
  | write p =>
    simp only [Abs.step, Segs.step]
    by_cases hp : p = []
    · rw [if_pos hp, if_pos hp]
    · rw [if_neg hp, if_neg hp]
      cases h : a.cur with
      | some x => obtain ⟨y, z⟩ := x; simp [Abs.segs, h]
      | none => simp [Abs.segs, h]
  | flush ft =>
    cases ft with
    | finishFlush => exact hfin
    | _ => rfl
  | setHeader h =>
    simp only [Abs.step, Segs.step]
    split <;> rfl
  | close => exact hfin

theorem abs_segs (c : AbsCfg) (ops : List WOp) : ∀ (a : Abs), Abs.segs (ops.foldl (Abs.step c) a) = ops.foldl Segs.step (Abs.segs a) := by
  induction ops with
  | nil => intro a; rfl
  | cons op ops ih => intro a; rw [List.foldl_cons, List.foldl_cons, ih, abs_segs_step]

end Flate.Proof
