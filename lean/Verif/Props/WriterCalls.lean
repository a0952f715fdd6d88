/-
Results of the calls of a Writer: C10, C15, C16, C18, C33, C35.
-/
import Verif.Props.WriterFlush

namespace Flate.Props
open Flate.Spec Flate.Model Flate.Proof

/-- the calls other than `SetHeader` -/
def Acting (op : WOp) : Prop := ∀ x, op ≠ .setHeader x

/-- the state after any history whatsoever -/
theorem reach {c : Setup} (h : c.OK) {ops : List WOp} {rs : List WRes} {s : WState} (hr : c.Runs ops rs s) :
    ∃ es k, Hist c.start s k es ∧ k <+: offered ops ∧ (∃ p, runPh .idle (kinds es) = some p) ∧
      ((∃ a, Live (BlockEnc c.ok (2 ^ c.o.wbits)) c.sink.out 0 s a) ∨ Dead s) := by
  rcases run_any h.lawful ops (h.live _) (h.any True) (fun _ _ _ => trivial) with ⟨e, _⟩ | ⟨rs', t, es, k, e, hh, kp, hp, hd, _⟩
  · rw [show runOps c.L ops c.start = .ok (rs, s) from hr] at e; cases e
  · rw [show runOps c.L ops c.start = .ok (rs, s) from hr] at e
    cases e
    exact ⟨es, k, hh, kp, hp, hd⟩

/-! ### C10 -/

/-- **C10 (part).** With level 0, or a memory level of at most 7, or if no single `Write` is longer than 61440 bytes, no sequence of calls panics
(or fails to terminate). -/
theorem C10_writes_partial {c : Setup} (h : c.OK) {ops : List WOp} (hs : c.Fits ops) : ∃ rs t, c.Runs ops rs t := by
  rcases run_any h.lawful ops (h.live _) (h.any True) (fun _ _ _ => trivial) with ⟨_, hf⟩ | ⟨rs, t, _, _, e, _⟩
  · exact absurd hs.fit hf
  · exact ⟨rs, t, e⟩

theorem C10_partial {c : Setup} (h : c.OK) (hs : c.Small) (ops : List WOp) : ∃ rs t, c.Runs ops rs t := C10_writes_partial h (Or.inl hs)

/-- and in all other configurations there is only one thing which can go wrong: the assertion of `writeStoredBlock` -/
theorem C10_only {c : Setup} (h : c.OK) (ops : List WOp) :
    (∃ rs t, c.Runs ops rs t) ∨ runOps c.L ops c.start = .error (.assert "uncompressed block length exceeds uint16_t") := by
  rcases run_any h.lawful ops (h.live _) (h.any True) (fun _ _ _ => trivial) with ⟨e, _⟩ | ⟨rs, t, _, _, e, _⟩
  · exact Or.inr e
  · exact Or.inl ⟨rs, t, e⟩

example : (demo [.mlevel 7]).OK ∧ (demo [.mlevel 7]).Small := ⟨demo_ok (by decide), Or.inr (by decide)⟩

/-- the default options, and Writes of up to 60 000 bytes -/
example (p q : List UInt8) (hp : p.length = 60000) (hq : q.length = 5) : (demo []).Fits [.write p, .flush .syncFlush, .write q, .close] :=
  Or.inr fun x hx => by
    have : x = p ∨ x = q := by simpa using hx
    rcases this with rfl | rfl <;> omega

/-! ### C18 -/

/-- what `Write` may return -/
def WriteContract (op : WOp) (r : WRes) : Prop :=
  ∀ p, op = .write p → r = .write p.length none ∨ ∃ e, r = .write 0 (some e)

theorem step_contract {L : HuffLib} (hL : L.Lawful) {E : BlockRel} {pf : Prop} {base : List UInt8} {s t : WState} {a : Abs}
    (hl : Live E base n0 s a) (hE : BlockOK L s.o s.lz.maxDist pf E) {op : WOp} {r : WRes}
    (e : stepOp L op s = .ok (r, t)) : WriteContract op r := by
  rintro p rfl
  rcases stepWrite hL hl hE p with ⟨e', _⟩ | ⟨n, x, u, es, k, e', _, h1, h2⟩
  · rw [e'] at e; cases e
  · rw [e'] at e
    cases e
    cases x with
    | none => left; rw [(h1 rfl).1]
    | some y => right; exact ⟨y, by rw [(h2 (by simp)).1]⟩

/-- **C18.** In every history, each `Write` returns `(len(p), nil)` or `(0, err)` with `err ≠ nil`. -/
theorem C18_write {c : Setup} (h : c.OK) {ops : List WOp} {rs : List WRes} {t : WState} (hr : c.Runs ops rs t) :
    List.Forall₂ WriteContract ops rs := by
  have dead : ∀ (ops : List WOp) {s t : WState} {rs : List WRes}, Dead s → runOps c.L ops s = .ok (rs, t) →
      List.Forall₂ WriteContract ops rs := by
    intro ops
    induction ops with
    | nil => intro s t rs _ h; cases h; exact .nil
    | cons op ops ih =>
      intro s t rs hd h
      obtain ⟨r, u, rs', h1, h2, rfl⟩ := run_cons_inv h
      obtain ⟨r', u', e, _, du, _, _, hw⟩ := stepOp_dead (L := c.L) s hd op
      rw [h1] at e
      cases e
      refine .cons ?_ (ih du h2)
      intro p hp
      exact Or.inr (hw p hp)
  have live : ∀ (ops : List WOp) {s t : WState} {rs : List WRes} {a : Abs},
      Live (BlockEnc c.ok (2 ^ c.o.wbits)) c.sink.out 0 s a →
      BlockOK c.L s.o s.lz.maxDist True (BlockEnc c.ok (2 ^ c.o.wbits)) → runOps c.L ops s = .ok (rs, t) →
      List.Forall₂ WriteContract ops rs := by
    intro ops
    induction ops with
    | nil => intro s t rs a _ _ h; cases h; exact .nil
    | cons op ops ih =>
      intro s t rs a hl hE hr
      obtain ⟨r, u, rs', h1, h2, rfl⟩ := run_cons_inv hr
      refine .cons (step_contract h.lawful hl hE h1) ?_
      rcases stepOp_live h.lawful hl hE op (fun _ => trivial) with ⟨e, _⟩ | ⟨r', u', es, k, e, hh, ok, bad, _⟩
      · rw [e] at h1; cases h1
      rw [e] at h1
      cases h1
      cases hre : r.err with
      | some x =>
        obtain ⟨_, _, g1, g2⟩ := bad x hre
        refine dead ops ?_ h2
        by_cases hc : op = .close
        · exact Or.inl (g1 hc).1
        · exact Or.inr ⟨(g2 hc).1, x, (g2 hc).2⟩
      | none =>
        obtain ⟨_, _, g1, g2⟩ := ok hre
        by_cases hc : op = .close
        · exact dead ops (Or.inl (g1 hc).state) h2
        · exact ih (g2 hc) (hE.hist hh) h2
  exact live ops (h.live _) (h.any True) hr

/-- An underlying writer whose second `Write` fails after one byte. -/
def failing : Setup := ⟨refLib, 64, fun _ => none, { wfail := fun n => if n = 1 then some (1, 5) else none }, [.format .gzip, .mlevel 1]⟩
theorem failing_ok : failing.OK := ⟨refLib_lawful, Or.inr rfl, by decide⟩

example : ∃ rs t, failing.Runs [.write [1, 2], .flush .syncFlush, .write [3], .close] rs t :=
  C10_partial failing_ok (Or.inr (by decide)) _

/-! ### C15 -/

/-- **C15.** A call during which the underlying writer returns errors returns the last of them (there can be more than one only while the
footer of a gzip stream is being written). -/
theorem C15_reported {c : Setup} (h : c.OK) {ops : List WOp} {rs : List WRes} {s t : WState} {op : WOp} {r : WRes}
    (hr : c.Runs ops rs s) (e : stepOp c.L op s = .ok (r, t)) :
    s.sink.errs <+: t.sink.errs ∧
    ∀ pre n, t.sink.errs = s.sink.errs ++ pre ++ [n] → r.err = some (.io n) := by
  obtain ⟨es, k, hh, _, _, ⟨a, hl⟩ | hd⟩ := reach h hr
  · rcases stepOp_live h.lawful hl ((h.any True).hist hh) op (fun _ => trivial) with ⟨e', _⟩ | ⟨r', u, es', k', e', hh', ok, bad, _⟩
    · rw [e'] at e; cases e
    rw [e'] at e
    cases e
    refine ⟨hh'.errs, ?_⟩
    intro pre n hn
    cases hre : r.err with
    | none =>
      have := (ok hre).1
      rw [this] at hn
      have := congrArg List.length hn
      simp at this
    | some x =>
      obtain ⟨_, ⟨pre', n', g1, rfl⟩, _⟩ := bad x hre
      rw [g1] at hn
      have := (List.append_inj' hn rfl).2
      cases this
      rfl
  · obtain ⟨r', t', e', eq, _⟩ := stepOp_dead (L := c.L) s hd op
    rw [e'] at e
    cases e
    have : t.sink = s.sink := by rw [eq]
    rw [this]
    refine ⟨List.prefix_rfl, fun pre n hn => ?_⟩
    have := congrArg List.length hn
    simp at this

/-- success is reported only if the underlying writer has not failed -/
theorem C15_no_false_success {c : Setup} (h : c.OK) {ops : List WOp} {rs : List WRes} {s t : WState} {op : WOp} {r : WRes}
    (hr : c.Runs ops rs s) (e : stepOp c.L op s = .ok (r, t)) (hn : r.err = none) : t.sink.errs = s.sink.errs := by
  obtain ⟨⟨x, hx⟩, h2⟩ := C15_reported h hr e
  rcases List.eq_nil_or_concat x with rfl | ⟨y, n, rfl⟩
  · rw [← hx, List.append_nil]
  · have := h2 y n (by rw [← hx]; simp)
    rw [this] at hn; cases hn

def isClose : WOp → Bool
  | .close => true
  | _ => false

/-- what calls after a failure return: the same error, up to and including the next `Close`, then that the Writer is closed -/
def sticky (e : Err) : Bool → List WOp → List WRes → Prop
  | _, [], rs => rs = []
  | closed, op :: ops, rs => ∃ r rs', rs = r :: rs' ∧ (Acting op → r.err = some (if closed then .closed else e)) ∧
      sticky e (closed || isClose op) ops rs'

theorem run_closed {L : HuffLib} (e : Err) : ∀ (ops : List WOp) {s t : WState} {rs : List WRes}, s.state = .closed →
    runOps L ops s = .ok (rs, t) → sticky e true ops rs ∧ t.sink = s.sink ∧ t.events = s.events ∧ t.state = .closed := by
  intro ops
  induction ops with
  | nil => intro s t rs hs h; cases h; exact ⟨rfl, rfl, rfl, hs⟩
  | cons op ops ih =>
    intro s t rs hs h
    obtain ⟨r, u, rs', h1, h2, rfl⟩ := run_cons_inv h
    obtain ⟨r', u', e', eq, _, hc, _, _⟩ := stepOp_dead (L := L) s (Or.inl hs) op
    rw [h1] at e'
    cases e'
    obtain ⟨i1, i2, i3, i4⟩ := ih (hc hs).1 h2
    refine ⟨⟨r, rs', rfl, (hc hs).2.2, i1⟩, i2.trans ?_, i3.trans ?_, i4⟩
    · rw [eq]
    · rw [eq]

/-- **C15.** Once a call has failed, later calls do not touch the underlying writer (nor send events), and each `Write` or `Flush`, and the
next `Close`, return the same error. -/
theorem C15_sticky {c : Setup} (h : c.OK) {ops : List WOp} {rs : List WRes} {s t : WState} {op : WOp} {r : WRes} {n : Nat}
    (hr : c.Runs ops rs s) (e : stepOp c.L op s = .ok (r, t)) (he : r.err = some (.io n)) (hc : op ≠ .close)
    (later : List WOp) : ∃ rs' u, runOps c.L later t = .ok (rs', u) ∧ u.sink = t.sink ∧ u.events = t.events ∧
      sticky (.io n) false later rs' := by
  have key : ∀ (later : List WOp) {t : WState}, t.state = .error → t.err = some (.io n) →
      ∃ rs' u, runOps c.L later t = .ok (rs', u) ∧ u.sink = t.sink ∧ u.events = t.events ∧ sticky (.io n) false later rs' := by
    intro later
    induction later with
    | nil => intro t _ _; exact ⟨[], t, rfl, rfl, rfl, rfl⟩
    | cons op ops ih =>
      intro t h1 h2
      obtain ⟨r, u, e1, eq, _, _, he, _⟩ := stepOp_dead (L := c.L) t (Or.inr ⟨h1, _, h2⟩) op
      obtain ⟨g1, g2, g3⟩ := he h1
      have hs : u.sink = t.sink := by rw [eq]
      have hv : u.events = t.events := by rw [eq]
      by_cases hcl : op = .close
      · subst hcl
        obtain ⟨rs', v, e2, _⟩ := run_dead (L := c.L) ops u (Or.inl (g2 rfl))
        obtain ⟨i1, i2, i3, _⟩ := run_closed (.io n) ops (g2 rfl) e2
        exact ⟨r :: rs', v, run_cons e1 e2, i2.trans hs, i3.trans hv, r, rs', rfl, fun ha => by rw [g1 ha, h2]; rfl, i1⟩
      · obtain ⟨k1, k2⟩ := g3 hcl
        obtain ⟨rs', v, e2, i2, i3, i1⟩ := ih k1 (k2.trans h2)
        refine ⟨r :: rs', v, run_cons e1 e2, i2.trans hs, i3.trans hv, r, rs', rfl, fun ha => by rw [g1 ha, h2]; rfl, ?_⟩
        have : isClose op = false := by cases op <;> first | rfl | exact absurd rfl hcl
        rw [this]; exact i1
  obtain ⟨es, k, hh, _, _, ⟨a, hl⟩ | hd⟩ := reach h hr
  · rcases stepOp_live h.lawful hl ((h.any True).hist hh) op (fun _ => trivial) with ⟨e', _⟩ | ⟨r', u, es', k', e', hh', ok, bad, _⟩
    · rw [e'] at e; cases e
    rw [e'] at e
    cases e
    obtain ⟨_, _, _, g⟩ := bad _ he
    exact key later (g hc).1 (g hc).2
  · obtain ⟨r', t', e', eq, _, h1, h2, _⟩ := stepOp_dead (L := c.L) s hd op
    rw [e'] at e
    cases e
    have hact : Acting op := by
      rintro x rfl
      have : ∃ b, r = .header b := by
        unfold stepOp wSetHeader at e'
        by_cases hk : headerOK x = true
        · simp only [if_pos hk] at e'; cases e'; exact ⟨_, rfl⟩
        · simp only [if_neg hk] at e'; cases e'; exact ⟨_, rfl⟩
      obtain ⟨b, rfl⟩ := this
      cases he
    rcases hd with hd | ⟨hd, x, hx⟩
    · rw [(h1 hd).2.2 hact] at he; cases he
    · obtain ⟨g1, _, g3⟩ := h2 hd
      rw [g1 hact] at he
      exact key later (g3 hc).1 ((g3 hc).2.trans he)

/-! ### C16 -/

/-- **C16.** After `Close`, every call returns that the Writer is closed, and neither touches the underlying writer nor sends an event. -/
theorem C16_closed {c : Setup} (h : c.OK) {ops later : List WOp} {rs rs' : List WRes} {s t : WState}
    (hr : c.Runs (ops ++ [.close]) rs s) (hl : runOps c.L later s = .ok (rs', t)) :
    t.sink = s.sink ∧ t.events = s.events ∧ List.Forall₂ (fun op r => Acting op → r.err = some .closed) later rs' := by
  have hcl : s.state = .closed := by
    obtain ⟨rs1, u, rs2, h1, h2, rfl⟩ := run_append_inv hr
    obtain ⟨r, v, rs3, h3, h4, rfl⟩ := run_cons_inv h2
    cases h4
    obtain ⟨es, k, hh, _, _, ⟨a, hl⟩ | hd⟩ := reach h h1
    · rcases stepClose h.lawful hl ((h.any True).hist hh) with ⟨e', _⟩ | ⟨r', w, es', k', e', hh', ok, bad, _⟩
      · rw [e'] at h3; cases h3
      rw [e'] at h3
      cases h3
      cases hre : r.err with
      | none => exact ((ok hre).2.2.1 rfl).state
      | some x => exact ((bad x hre).2.2.1 rfl).1
    · obtain ⟨r', t', e', eq, _, g1, g2, _⟩ := stepOp_dead (L := c.L) u hd .close
      rw [e'] at h3
      cases h3
      rcases hd with hd | ⟨hd, _⟩
      · exact (g1 hd).1
      · exact (g2 hd).2.1 rfl
  obtain ⟨h1, h2, h3, _⟩ := run_closed .closed later hcl hl
  refine ⟨h2, h3, ?_⟩
  have conv : ∀ (ops : List WOp) (rs : List WRes), sticky .closed true ops rs →
      List.Forall₂ (fun op r => Acting op → r.err = some .closed) ops rs := by
    intro ops
    induction ops with
    | nil => rintro rs rfl; exact .nil
    | cons op ops ih =>
      rintro rs ⟨r, rs', rfl, g1, g2⟩
      exact .cons g1 (ih rs' g2)
  exact conv later rs' h1

example : ∃ rs s rs' t, (demo [.mlevel 1]).Runs ([.write [1]] ++ [.close]) rs s ∧ runOps refLib [.write [2], .flush .syncFlush, .close] s = .ok (rs', t) := by
  obtain ⟨rs, s, h⟩ := C10_partial (c := demo [.mlevel 1]) (demo_ok (by decide)) (Or.inr (by decide)) (([.write [1]] ++ [.close]) ++ [.write [2], .flush .syncFlush, .close])
  obtain ⟨rs1, u, rs2, h1, h2, _⟩ := run_append_inv h
  exact ⟨rs1, u, rs2, s, h1, h2⟩

/-! ### C33 -/

/-- **C33.** In every history the events follow the protocol. -/
theorem C33_prefix {c : Setup} (h : c.OK) {ops : List WOp} {rs : List WRes} {t : WState} (hr : c.Runs ops rs t) :
    TracePrefix (t.events.map fun p => p.ev.kind) := by
  obtain ⟨es, k, hh, _, ⟨p, hp⟩, _⟩ := reach h hr
  have : t.events = es := by rw [hh.ev]; rfl
  rw [this]
  exact phaseOK_prefix (phase_run phase_idle hp)

/-- and after a successful `Close` they are those of complete streams. -/
theorem C33_complete {c : Setup} (h : c.OK) {ops : List WOp} (hc : WOp.close ∉ ops) {rs : List WRes} {t : WState}
    (hr : c.Runs (ops ++ [.close]) rs t) (he : NoErr rs) :
    ∃ streams : List (List EvKind), (∀ st ∈ streams, StreamTrace st) ∧ (t.events.map fun p => p.ev.kind) = streams.flatten := by
  obtain ⟨es, k, hh, _, hp, _⟩ := run_close h.lawful (h.live _) (h.any True) (fun _ _ _ => trivial) hc hr he
  have : t.events = es := by rw [hh.ev]; rfl
  rw [this]
  exact phase_run phase_idle hp

/-! ### C35 -/

/-- the bytes handed over by a call -/
def opLen : WOp → Nat
  | .write p => p.length
  | _ => 0

/-- input is counted exactly: during a call, at each event, and after it -/
theorem step_count {L : HuffLib} (hL : L.Lawful) {E : BlockRel} {pf : Prop} {base : List UInt8} {s t : WState} {a : Abs}
    (hl : Live E base n0 s a) (hE : BlockOK L s.o s.lz.maxDist pf E) {op : WOp} (hp : UsesPartial op → pf) {r : WRes}
    (e : stepOp L op s = .ok (r, t)) : ∃ es k, Hist s t k es ∧ k <+: opData op ∧ (r.err = none → k = opData op) := by
  rcases stepOp_live hL hl hE op hp with ⟨e', _⟩ | ⟨r', u, es, k, e', hh, _, _, _, kp, ke⟩
  · rw [e'] at e; cases e
  rw [e'] at e
  cases e
  exact ⟨es, k, hh, kp, ke⟩

theorem opData_length (op : WOp) : (opData op).length = opLen op := by cases op <;> rfl

theorem run_count {L : HuffLib} (hL : L.Lawful) {E : BlockRel} {base : List UInt8} :
    ∀ (ops : List WOp) {s t : WState} {a : Abs} {rs : List WRes}, Live E base n0 s a → BlockOK L s.o s.lz.maxDist True E →
    WOp.close ∉ ops → runOps L ops s = .ok (rs, t) → NoErr rs → t.inTotal + t.lz.buf.length = s.inTotal + s.lz.buf.length + (ops.map opLen).sum := by
  intro ops
  induction ops with
  | nil => intro s t a rs _ _ _ h _; cases h; simp
  | cons op ops ih =>
    intro s t a rs hl hE hc h he
    obtain ⟨r, u, rs', h1, h2, rfl⟩ := run_cons_inv h
    obtain ⟨es, k, hh, _, hk⟩ := step_count hL hl hE (fun _ => trivial) h1
    have hr := he r (by simp)
    rcases stepOp_live hL hl hE op (fun _ => trivial) with ⟨e, _⟩ | ⟨r', u', es', k', e, hh', ok, bad, _⟩
    · rw [e] at h1; cases h1
    rw [e] at h1
    cases h1
    obtain ⟨_, _, _, g⟩ := ok hr
    have := ih (g (fun x => hc (by simp [x]))) (hE.hist hh) (fun x => hc (by simp [x])) h2 (fun x y => he x (by simp [y]))
    rw [this, hh.tin, hk hr, opData_length]
    simp [Nat.add_assoc]

/-- **C35.** In every history, each event carries exactly the number of bytes which the underlying writer had accepted by then; the
counters never decrease; and the per-stream counters are offsets from the values at the latest StreamBegin event. -/
theorem C35_output {c : Setup} (h : c.OK) {ops : List WOp} {rs : List WRes} {t : WState} (hr : c.Runs ops rs t) :
    (∀ p ∈ t.events, p.ev.outTotal + c.sink.out.length = p.delivered ∧ p.ev.format = c.o.format) ∧
    MonoLog Event.outTotal 0 t.events t.outTotal ∧ MonoLog Event.inTotal 0 t.events t.inTotal ∧
    NumLog 0 t.events t.numStreams ∧ ∃ a b, StrLog 0 0 t.events a b := by
  obtain ⟨es, k, hh, _, _⟩ := reach h hr
  have hev : t.events = es := by rw [hh.ev]; rfl
  have h0 : pushed c.start = c.sink.out := out_pushed h.fresh.inv
  refine ⟨?_, ?_, ?_, ?_, ?_⟩
  · intro p hp
    rw [hev] at hp
    have := hh.evOut p hp
    rw [h0] at this
    exact ⟨by rw [this]; exact Nat.zero_add _, hh.evFmt p hp⟩
  · rw [hev]; exact hh.monoOut
  · rw [hev]; exact hh.monoIn
  · rw [hev]; exact hh.monoNum
  · obtain ⟨a, b, h1, _⟩ := hh.offs 0 0 ⟨rfl, rfl⟩
    rw [hev]; exact ⟨a, b, h1⟩

/-- **C35.** The input count carried by an event is what the callers have handed over so far less what still waits in the input
buffer.  (During a call of `Write(p)`, "so far" is between nothing and all of `p`.) -/
theorem C35_input {c : Setup} (h : c.OK) {ops : List WOp} (hc : WOp.close ∉ ops) {rs : List WRes} {s t : WState}
    (hr : c.Runs ops rs s) (he : NoErr rs) {op : WOp} {r : WRes} (e : stepOp c.L op s = .ok (r, t)) :
    s.inTotal + s.lz.buf.length = (ops.map opLen).sum ∧
    ∃ new, t.events = s.events ++ new ∧ ∀ p ∈ new, (ops.map opLen).sum ≤ p.ev.inTotal + p.buffered ∧
      p.ev.inTotal + p.buffered ≤ (ops.map opLen).sum + opLen op := by
  obtain ⟨es, k, hh, hl, _⟩ := run_good h.lawful ops (h.live _) (h.any True) (fun _ _ _ => trivial) hc hr he
  have h1 := run_count h.lawful ops (h.live _) (h.any True) hc hr he
  have h0 : c.start.inTotal + c.start.lz.buf.length = 0 := by rw [h.fresh.buf]; rfl
  rw [h0, Nat.zero_add] at h1
  obtain ⟨es', k', hh', hk, _⟩ := step_count h.lawful hl ((h.any True).hist hh) (fun _ => trivial) e
  refine ⟨h1, es', hh'.ev, fun p hp => ⟨?_, ?_⟩⟩
  · have := hh'.evIn1 p hp; omega
  · have := hh'.evIn2 p hp
    have := hk.length_le
    rw [opData_length] at this
    omega

example : ∃ rs t, (demo [.format .zlib, .mlevel 1]).Runs [.write [1, 2], .flush .syncFlush, .write [3]] rs t ∧ NoErr rs :=
  (demo_ok (by decide)).run_ok (Or.inr (by decide)) (demo_sink _) (by simp)

end Flate.Props
