/-
C17 and C51: what the output of a Writer depends on.
-/
import Verif.Proof.WSim2
import Verif.Props.Session

namespace Flate.Props
open Flate.Spec Flate.Model Flate.Proof Flate.Proof.Sim

/-! ### failures of the underlying writer (C51) -/

/-- the same circumstances, except that the underlying writer never fails -/
def Setup.ideal (c : Setup) : Setup :=
  { c with sink := { c.sink with wfail := fun _ => none, ffail := fun _ => none, sfail := fun _ => none } }

theorem ideal_same (c : Setup) (h : c.OK) : R false nil3 c.start c.ideal.start := by
  have hc : 2 ≤ c.start.outBits := by show 2 ≤ c.o.mlevel + 7; omega
  have hf : Fails false c.start.sink c.ideal.start.sink := ⟨fun _ => rfl, fun _ => rfl, fun n e h => (by cases h)⟩
  refine ⟨rfl, Alike.of rfl, rfl, rfl, rfl, rfl, rfl, rfl, HSame.of rfl, rfl, rfl, rfl, fun _ => rfl, rfl, rfl, rfl, rfl, rfl, rfl, hf, fun _ => ⟨rfl, rfl, rfl⟩, fun e => ?_, fun e => ?_, fun e => ?_, fun _ => rfl, fun e => ?_, hc⟩
  all_goals cases e

/-- C51: Whatever calls are made and whenever the underlying writer fails (in a `Write`, having accepted any part of it, in a `Flush` or in a `Sync`), the bytes
which it has accepted are a beginning of those which one which never fails would have received. -/
theorem C51_prefix {c : Setup} (h : c.OK) {ops : List WOp} {rs rs' : List WRes} {t t' : WState} (hr : c.Runs ops rs t) (hi : c.ideal.Runs ops rs' t') :
    t.sink.out <+: t'.sink.out := by
  have hl : c.ideal.OK := ⟨h.lawful, h.word, h.valid⟩
  have he : t'.output = [] := run_empty hl.lawful (hl.live _) (hl.any True) ⟨fun _ => rfl, fun _ => rfl, fun _ _ e => (by cases e)⟩ hi
  have hp : pushed t' = t'.sink.out := by unfold pushed; rw [he, List.append_nil]
  rw [← hp]
  refine List.IsPrefix.trans (l₂ := pushed t) (List.prefix_append _ _) ?_
  rcases Same.runF (Or.inl (ideal_same c h)) hr hi with ⟨hs, _⟩ | ⟨hb, _⟩
  · rcases hs with hs | ⟨hs, _⟩
    · rw [hs.pushed]; exact List.prefix_refl _
    · rw [hs.pushed]; exact List.prefix_refl _
  · exact hb.2

/-- C51: Until a call returns an error, all results are those which would have been returned without the failure. -/
theorem C51_results {c : Setup} (h : c.OK) {ops : List WOp} {rs rs' : List WRes} {t t' : WState} (hr : c.Runs ops rs t) (hi : c.ideal.Runs ops rs' t') :
    rs' = rs ∨ ∃ n r, rs[n]? = some r ∧ r.err ≠ none ∧ rs'.take n = rs.take n := by
  rcases Same.runF (Or.inl (ideal_same c h)) hr hi with ⟨_, e⟩ | ⟨_, e⟩
  · exact Or.inl e
  · exact Or.inr e

/-- The run without failures exists (for configurations in which the Writer cannot panic). -/
theorem C51_exists {c : Setup} (h : c.OK) {ops : List WOp} (hs : c.Fits ops) : ∃ rs' t', c.ideal.Runs ops rs' t' := by
  have hl : c.ideal.OK := ⟨h.lawful, h.word, h.valid⟩
  rcases run_any hl.lawful ops (hl.live _) (hl.any True) (fun _ _ _ => trivial) with ⟨_, hf⟩ | ⟨rs, t, _, _, e, _⟩
  · exact absurd (Setup.Fits.fit (c := c.ideal) hs) hf
  · exact ⟨rs, t, e⟩

/-! ### Reset (C17) -/

/-- The life of a Writer: `NewWriter`, then any calls, and any number of calls of `Reset` (where it does not panic), during which no underlying writer reports an
error (`Closed` errors do not matter).  The list collects all options given so far. -/
inductive Life (c : Setup) : List Opt → WState → Prop
  | new : Life c c.opts c.start
  | calls {o : List Opt} {s t : WState} {ops : List WOp} {rs : List WRes} : Life c o s → runOps c.L ops s = .ok (rs, t) →
      (∀ r ∈ rs, r.err = none ∨ r.err = some .closed) → Life c o t
  | reset {o opts : List Opt} {s t : WState} {w : Sink} : Life c o s → (∀ x ∈ opts, x.valid = true) → wReset w opts s = .ok ((), t) → Life c (o ++ opts) t

/-- what can be observed: the results and what the underlying writer has received -/
def outcome : Except Panic (List WRes × WState) → Except Panic (List WRes × List UInt8)
  | .error e => .error e
  | .ok (rs, t) => .ok (rs, t.sink.out)

/-- the defaults depend on each option separately -/
theorem defaults_apply (o : Options) (opts : List Opt) : (o.writerDefaults.apply opts).writerDefaults = (o.apply opts).writerDefaults := by
  have key : ∀ (opts : List Opt) (a b : Options), a.writerDefaults = b.writerDefaults → (a.apply opts).writerDefaults = (b.apply opts).writerDefaults := by
    intro opts
    induction opts with
    | nil => intro a b h; exact h
    | cons x xs ih =>
      intro a b h
      refine ih _ _ ?_
      unfold Options.writerDefaults Options.readerDefaults at h ⊢
      simp only [Options.mk.injEq] at h
      obtain ⟨h1, h2, h3, h4, h5, h6, h7, h8⟩ := h
      cases x <;> (simp only [Opt.apply, Options.mk.injEq]; exact ⟨by first | rfl | exact h1, by first | exact h2 | trivial | rfl, by first | exact h3 | trivial | rfl, by first | rfl | exact h4,
        by first | rfl | exact h5, by first | rfl | exact h6, by first | exact h7 | trivial | rfl, by first | exact h8 | trivial | rfl⟩)
  refine key opts _ _ ?_
  unfold Options.writerDefaults Options.readerDefaults
  simp only [Options.mk.injEq, and_true, true_and]
  refine ⟨?_, ?_, ?_, ?_⟩
  all_goals (repeat' split) <;> first | rfl | omega | simp_all

/-- what is known in the life of a Writer -/
structure Kept (c : Setup) (o : List Opt) (s : WState) : Prop where
  valid : ∀ x ∈ o, x.valid = true
  W : s.W = c.W
  o : s.o = effective o
  outBits : s.outBits = outputNumBits s.o
  lzo : s.lz.opts = hybridOptions s.o
  prop : s.lz.propose = c.propose
  rest : (∃ E base n0 a, Live E base n0 s a ∧ BlockOK c.L s.o s.lz.maxDist True E) ∨
    (s.state = .closed ∧ s.obLen = 0 ∧ s.obBlock = 0 ∧ headerOK s.header = true)

theorem Kept.hist {c : Setup} {o : List Opt} {s t : WState} {k : List UInt8} {es : List Sent} (h : Kept c o s) (hh : Hist s t k es)
    (hr : (∃ E base n0 a, Live E base n0 t a ∧ BlockOK c.L t.o t.lz.maxDist True E) ∨ (t.state = .closed ∧ t.obLen = 0 ∧ t.obBlock = 0 ∧ headerOK t.header = true)) : Kept c o t :=
  ⟨h.valid, hh.W.trans h.W, hh.o.trans h.o, by rw [hh.outBits, hh.o, h.outBits], by rw [hh.lzopts, hh.o, h.lzo], hh.propose.trans h.prop, hr⟩

theorem zero_block {s : WState} (h : WInv s) (h0 : s.obLen = 0) : s.obBlock = 0 := by
  have := h.blk
  rw [h0] at this
  simpa using this

theorem Kept.call {c : Setup} (hc : c.OK) {o : List Opt} {s t : WState} {op : WOp} {r : WRes} (h : Kept c o s) (e : stepOp c.L op s = .ok (r, t))
    (hr : r.err = none ∨ r.err = some .closed) : Kept c o t := by
  rcases h.rest with ⟨E, base, n0, a, hl, hE⟩ | ⟨h1, h2, h3, h4⟩
  · rcases stepOp_live hc.lawful hl hE op (fun _ => trivial) with ⟨e', _⟩ | ⟨r', u, es, k, e', hh, ok, bad, _⟩
    · rw [e] at e'; cases e'
    · rw [e] at e'
      cases e'
      rcases hr with hr | hr
      · obtain ⟨_, _, g1, g2⟩ := ok hr
        refine h.hist hh ?_
        by_cases hcl : op = .close
        · exact Or.inr ⟨(g1 hcl).state, (g1 hcl).ob, zero_block (g1 hcl).inv (g1 hcl).ob, (g1 hcl).hdr⟩
        · exact Or.inl ⟨E, base, _, _, g2 hcl, hE.hist hh⟩
      · obtain ⟨_, ⟨_, _, _, hx⟩, _⟩ := bad _ hr
        cases hx
  · obtain ⟨r', t', e', eq, _, hcl, _⟩ := stepOp_dead (L := c.L) s (Or.inl h1) op
    rw [e] at e'
    cases e'
    refine h.hist (hist_dead eq (Or.inl (hcl h1).1)) (Or.inr ⟨(hcl h1).1, by rw [eq]; exact h2, by rw [eq]; exact h3, ?_⟩)
    cases op with
    | setHeader x =>
      unfold stepOp wSetHeader at e
      by_cases hx : headerOK x = true
      · simp only [hx, if_true] at e; cases e; exact hx
      · simp only [hx] at e; cases e; exact h4
    | write p => simp only [stepOp, wWrite, h1, if_true] at e; cases e; exact h4
    | flush ft => simp only [stepOp, wFlush, h1, if_true] at e; cases e; exact h4
    | close => simp only [stepOp, wClose, h1, if_true] at e; cases e; exact h4

theorem Kept.calls {c : Setup} (hc : c.OK) {o : List Opt} : ∀ {ops : List WOp} {s t : WState} {rs : List WRes}, Kept c o s → runOps c.L ops s = .ok (rs, t) →
    (∀ r ∈ rs, r.err = none ∨ r.err = some .closed) → Kept c o t := by
  intro ops
  induction ops with
  | nil => intro s t rs h e _; cases e; exact h
  | cons op ops ih =>
    intro s t rs h e hr
    obtain ⟨r, u, q, h1, h2, rfl⟩ := run_cons_inv e
    exact ih (h.call hc h1 (hr r (by simp))) h2 (fun x hx => hr x (by simp [hx]))

/-- the state after `Reset` -/
theorem reset_eq {s t : WState} {w : Sink} {opts : List Opt} {o : List Opt} (ho : s.o = effective o) (hb : s.outBits = outputNumBits s.o) (hz : s.lz.opts = hybridOptions s.o)
    (h : wReset w opts s = .ok ((), t)) :
    s.state ≠ .openStream ∧ s.state ≠ .closingStream ∧ t = { s with
      sink := w, err := none, state := .noStream, output := [], o := effective (o ++ opts), outBits := outputNumBits (effective (o ++ opts)),
      lz := { s.lz with hist := [], buf := [], opts := hybridOptions (effective (o ++ opts)) } } := by
  unfold wReset at h
  split at h
  · cases h
  · rename_i hs
    refine ⟨fun e => hs (Or.inl e), fun e => hs (Or.inr e), ?_⟩
    have eo : effective (o ++ opts) = (s.o.apply opts).writerDefaults := by
      rw [ho]
      unfold effective
      rw [defaults_apply]
      unfold Options.apply
      rw [List.foldl_append]
    by_cases h0 : opts = []
    · simp only [h0, if_true] at h
      cases h
      rw [h0, List.append_nil, ← ho, ← hb, ← hz]
    · simp only [h0, if_false] at h
      cases h
      rw [eo]

theorem Kept.reset {c : Setup} (hc : c.OK) {o opts : List Opt} {s t : WState} {w : Sink} (h : Kept c o s) (hv : ∀ x ∈ opts, x.valid = true)
    (e : wReset w opts s = .ok ((), t)) : Kept c (o ++ opts) t ∧ t.obLen = 0 ∧ t.obBlock = 0 ∧ headerOK t.header = true := by
  obtain ⟨h1, h2, ht⟩ := reset_eq h.o h.outBits h.lzo e
  have hval : ∀ x ∈ o ++ opts, x.valid = true := by
    intro x hx
    rcases List.mem_append.1 hx with hx | hx
    · exact h.valid x hx
    · exact hv x hx
  have hf := writerDefaults_full (apply_ok optsOK_init hval)
  have hob : s.obLen = 0 ∧ s.obBlock = 0 ∧ headerOK s.header = true := by
    rcases h.rest with ⟨E, base, n0, a, hl, hE⟩ | ⟨_, x, y, z⟩
    · obtain ⟨bytes, _, hb⟩ := hl.body
      cases hcur : a.cur with
      | none => rw [hcur] at hb; exact ⟨hb.2.1, zero_block hl.inv hb.2.1, hl.conf.hdr⟩
      | some x => rw [hcur] at hb; exact (h1 hb.2.1).elim
    · exact ⟨x, y, z⟩
  have hW := hc.word
  have hfresh : Fresh t := by
    rw [ht]
    refine ⟨⟨?_, ?_, ?_, rfl⟩, ⟨hf.format, hf.wbits.1, hf.wbits.2, lzok_hybrid hf rfl, hob.2.2⟩, rfl, rfl, rfl, hob.1⟩
    · show s.W = 32 ∨ s.W = 64; rw [h.W]; exact hW
    · show s.obLen < s.W; rw [hob.1, h.W]; omega
    · show s.obBlock < 2 ^ s.obLen; rw [hob.1, hob.2.1]; decide
  have hto : t.o = effective (o ++ opts) := by rw [ht]
  have htz : t.lz.opts = hybridOptions t.o := by rw [ht]
  refine ⟨⟨hval, by rw [ht]; exact h.W, hto, by rw [ht], htz, by rw [ht]; exact h.prop, Or.inl ⟨_, _, _, _, hfresh.live (BlockEnc c.ok (2 ^ t.o.wbits)), ?_⟩⟩, by rw [ht]; exact hob.1, by rw [ht]; exact hob.2.1, by rw [ht]; exact hob.2.2⟩
  exact blockOK_any _ _ _ (maxDist_window (by rw [hto]; exact hf) htz)

theorem Life.kept {c : Setup} (hc : c.OK) {o : List Opt} {s : WState} (h : Life c o s) : Kept c o s := by
  induction h with
  | new => exact ⟨hc.valid, rfl, rfl, rfl, rfl, rfl, Or.inl ⟨_, _, _, _, hc.live _, hc.any True⟩⟩
  | calls _ e hr ih => exact ih.calls hc e hr
  | reset _ hv e ih => exact (ih.reset hc hv e).1

/-- C17 (in part): Suppose no underlying writer has failed so far.  After `Reset`, followed by a (successful) `SetHeader`, any calls return the same, and the new
underlying writer receives the same, as for a newly made Writer which is given all options of before and those of the `Reset`.  (The match finder of the new Writer is to make
the same choices.)

What is missing: without the `SetHeader` the header of the last stream is used again (see `C17_header_fails`), and after an error parts of the old output may come out
(see `C17_error_fails`). -/
theorem C17_reset_partial {c : Setup} (hc : c.OK) {o opts : List Opt} {s t : WState} {w : Sink} (hs : Life c o s) (hv : ∀ x ∈ opts, x.valid = true)
    (hr : wReset w opts s = .ok ((), t)) {x : Header} (hx : headerOK x = true) (ops : List WOp) :
    outcome (runOps c.L (.setHeader x :: ops) t) =
      outcome (runOps c.L (.setHeader x :: ops) (newWriter c.W (fun n => c.propose (t.lz.step + n)) w (o ++ opts))) := by
  have hk := hs.kept hc
  obtain ⟨hk', hl0, hb0, _⟩ := hk.reset hc hv hr
  obtain ⟨_, _, ht⟩ := reset_eq hk.o hk.outBits hk.lzo hr
  generalize hn : newWriter c.W (fun n => c.propose (t.lz.step + n)) w (o ++ opts) = n
  have hR : R true nil3 ({ t with header := x } : WState) ({ n with header := x } : WState) := by
    rw [← hn]
    have hcap : 2 ≤ t.outBits := by rw [hk'.outBits]; show 2 ≤ _ + 7; omega
    constructor
    case fails => show Fails true t.sink w; rw [ht]; exact ⟨rfl, rfl, rfl⟩
    case prop =>
      intro k
      show c.propose (t.lz.step + (0 + k)) = t.lz.propose (t.lz.step + k)
      rw [hk'.prop, Nat.zero_add]
    case sums =>
      intro e
      have : t.state = .noStream := by rw [ht]
      rcases e with e | e
      · rw [show ({ t with header := x } : WState).state = t.state from rfl, this] at e; cases e
      · rw [show ({ t with header := x } : WState).state = t.state from rfl, this] at e; cases e
    case cap => exact hcap
    case emp => intro _; show t.output = []; rw [ht]
    case obBlock => exact hb0.symm
    case obLen => exact hl0.symm
    case W => exact hk'.W.symm
    case o => exact Alike.of hk'.o.symm
    case outBits => show outputNumBits (effective (o ++ opts)) = t.outBits; rw [hk'.outBits, hk'.o]
    case lzo => show hybridOptions (effective (o ++ opts)) = t.lz.opts; rw [hk'.lzo, hk'.o]
    case len => intro e; cases e
    case crc => intro e; cases e
    case sum => intro e; cases e
    case ob => intro e; cases e
    case header => exact HSame.of rfl
    all_goals (rw [ht]; rfl)
  have hstep : ∀ u : WState, runOps c.L (.setHeader x :: ops) u = match runOps c.L ops { u with header := x } with
      | .error e => .error e
      | .ok (rs, v) => .ok (.header true :: rs, v) := by
    intro u
    rw [runOps]
    simp only [stepOp, wSetHeader, hx, if_true]
    cases runOps c.L ops { u with header := x } <;> rfl
  rw [hstep, hstep]
  have := Same.run (L := c.L) (ops := ops) (Or.inl hR)
  cases e : runOps c.L ops { t with header := x } with
  | error p => rw [e] at this; simp only at this; rw [this]
  | ok q =>
    obtain ⟨rs, u⟩ := q
    rw [e] at this
    obtain ⟨u', e', hu⟩ := this
    rw [e']
    simp only [outcome]
    rcases hu with hu | ⟨hu, _⟩
    · rw [hu.out]
    · rw [hu.out]

/-- C17 (in part): `SetHeader` is superfluous if it only repeats what is in force. -/
theorem C17_header_partial {c : Setup} (hc : c.OK) {o opts : List Opt} {s t : WState} {w : Sink} (hs : Life c o s) (hv : ∀ x ∈ opts, x.valid = true)
    (hr : wReset w opts s = .ok ((), t)) (ops : List WOp) : runOps c.L (.setHeader t.header :: ops) t = match runOps c.L ops t with
      | .error e => .error e
      | .ok (rs, v) => .ok (.header true :: rs, v) := by
  have := ((hs.kept hc).reset hc hv hr).2.2.2
  rw [runOps]
  simp only [stepOp, wSetHeader, this, if_true]
  cases runOps c.L ops t <;> rfl

/-! ### what `Reset` leaves behind -/

/-- run, reset (without new options) to an empty underlying writer, run again; what the second underlying writer receives -/
def twice (c : Setup) (ops ops' : List WOp) : Option (List UInt8) :=
  match runOps c.L ops c.start with
  | .error _ => none
  | .ok (_, s) => match wReset {} [] s with
    | .error _ => none
    | .ok (_, t) => match runOps c.L ops' t with
      | .error _ => none
      | .ok (_, u) => some u.sink.out

/-- what the underlying writer of a new Writer receives -/
def once (c : Setup) (ops : List WOp) : Option (List UInt8) :=
  match runOps c.L ops c.start with
  | .error _ => none
  | .ok (_, u) => some u.sink.out

/-- C17 is false: the file name of an earlier stream appears again after `Reset`. -/
theorem C17_header_fails : twice (demo [.format .gzip, .clevel 0]) [.setHeader { fileName := [0x78] }, .write [1], .close] [.write [2], .close]
    ≠ once (demo [.format .gzip, .clevel 0]) [.write [2], .close] := by decide +kernel

/-- the second underlying writer does receive something in both cases -/
example : (twice (demo [.format .gzip, .clevel 0]) [.setHeader { fileName := [0x78] }, .write [1], .close] [.write [2], .close]).isSome = true ∧
    (once (demo [.format .gzip, .clevel 0]) [.write [2], .close]).isSome = true := by decide +kernel

/-- an underlying writer whose `Flush` fails -/
def flushFails : Setup := { demo [.format .raw] with sink := { hasFlush := true, ffail := fun _ => some 5 } }

/-- C17 is false: after an error, bits of the old stream come out at the beginning of the new one, even if the header is set again. -/
theorem C17_error_fails : twice flushFails [.write [1], .flush .partialFlush, .close] [.setHeader {}, .write [2], .close]
    ≠ once (demo [.format .raw]) [.setHeader {}, .write [2], .close] := by decide +kernel

example : (twice flushFails [.write [1], .flush .partialFlush, .close] [.setHeader {}, .write [2], .close]).isSome = true ∧
    (once (demo [.format .raw]) [.setHeader {}, .write [2], .close]).isSome = true := by decide +kernel

/-- C17 holds of such a life: a stream, `Reset` with a new option, another stream, `Reset` -/
example : ∃ s t u, runOps refLib [.write [1, 2, 3], .close] (demo [.format .gzip, .mlevel 1]).start = .ok s ∧ wReset {} [.format .zlib] s.2 = .ok t ∧
    Life (demo [.format .gzip, .mlevel 1]) [.format .gzip, .mlevel 1, .format .zlib] t.2 ∧ wReset {} [] t.2 = .ok ((), u) := by
  obtain ⟨rs, s, hr, he⟩ := (demo_ok (opts := [.format .gzip, .mlevel 1]) (by decide)).run_close_ok (Or.inr (by decide)) (demo_sink _) (ops := [.write [1, 2, 3]]) (by simp)
  obtain ⟨es, k, _, hcl, _⟩ := run_close refLib_lawful ((demo_ok (opts := [.format .gzip, .mlevel 1]) (by decide)).live _) ((demo_ok (opts := [.format .gzip, .mlevel 1]) (by decide)).any True)
    (fun _ _ _ => trivial) (ops := [.write [1, 2, 3]]) (by simp) hr he
  have hst := hcl.state
  have e1 : ∃ t, wReset {} [.format .zlib] s = .ok ((), t) ∧ t.state = .noStream := by
    unfold wReset; rw [hst]; exact ⟨_, rfl, rfl⟩
  obtain ⟨t, e1, ht⟩ := e1
  have e2 : ∃ u, wReset {} [] t = .ok ((), u) := by unfold wReset; rw [ht]; exact ⟨_, rfl⟩
  obtain ⟨u, e2⟩ := e2
  refine ⟨(rs, s), ((), t), u, hr, e1, ?_, e2⟩
  exact Life.reset (opts := [.format .zlib]) (.calls .new hr (fun r hx => Or.inl (he r hx))) (by decide) e1

/-- C51 about a real failure: the third `Write` of the underlying writer accepts one byte and fails. -/
example : ∃ rs t rs' t', ({ demo [.format .gzip, .mlevel 1] with sink := { wfail := fun n => if n = 2 then some (1, 9) else none } } : Setup).Runs [.write [1, 2, 3], .close] rs t ∧
    ({ demo [.format .gzip, .mlevel 1] with sink := { wfail := fun n => if n = 2 then some (1, 9) else none } } : Setup).ideal.Runs [.write [1, 2, 3], .close] rs' t' ∧
    t.sink.out <+: t'.sink.out ∧ t.sink.out ≠ [] ∧ t.sink.out ≠ t'.sink.out := by
  let c : Setup := { demo [.format .gzip, .mlevel 1] with sink := { wfail := fun n => if n = 2 then some (1, 9) else none } }
  have hc : c.OK := ⟨refLib_lawful, Or.inr rfl, by decide⟩
  have e1 : (once c [.write [1, 2, 3], .close]).isSome = true ∧ once c [.write [1, 2, 3], .close] ≠ some [] ∧ (once c.ideal [.write [1, 2, 3], .close]).isSome = true ∧
    once c [.write [1, 2, 3], .close] ≠ once c.ideal [.write [1, 2, 3], .close] := by decide +kernel
  obtain ⟨h1, h2, h3, h4⟩ := e1
  unfold once at h1 h2 h3 h4
  cases e : runOps c.L [.write [1, 2, 3], .close] c.start with
  | error p => rw [e] at h1; cases h1
  | ok q =>
    cases e' : runOps c.ideal.L [.write [1, 2, 3], .close] c.ideal.start with
    | error p => rw [e'] at h3; cases h3
    | ok q' =>
      obtain ⟨rs, t⟩ := q
      obtain ⟨rs', t'⟩ := q'
      rw [e] at h2 h4
      rw [e'] at h4
      exact ⟨rs, t, rs', t', e, e', C51_prefix hc e e', fun x => h2 (congrArg some x), fun x => h4 (congrArg some x)⟩

end Flate.Props
