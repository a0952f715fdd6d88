/-
Dividing the data among `Write` calls: C87.
-/
import Verif.Props.WriterSize
import Verif.Proof.WDiv2

namespace Flate.Props
open Flate.Spec Flate.Model Flate.Proof Flate.Proof.Div

/-- The same calls with each `Write` replaced by one `Write` for each of its bytes.  Two sequences of calls which agree in this differ
only in how the data is divided among the `Write` calls. -/
def bytewise (ops : List WOp) : List WOp := ops.flatMap fun op => match op with
  | .write p => p.map fun b => .write [b]
  | .flush t => [.flush t]
  | .setHeader h => [.setHeader h]
  | .close => [.close]

theorem bytewise_close {ops : List WOp} : WOp.close ∈ bytewise ops ↔ WOp.close ∈ ops := by
  unfold bytewise
  rw [List.mem_flatMap]
  constructor
  · rintro ⟨op, ho, hc⟩
    cases op with
    | write p => simp at hc
    | close => exact ho
    | flush t => simp at hc
    | setHeader h => simp at hc
  · intro h; exact ⟨.close, h, by simp⟩

theorem bytewise_header {ops : List WOp} {x : Header} : WOp.setHeader x ∈ bytewise ops ↔ WOp.setHeader x ∈ ops := by
  unfold bytewise
  rw [List.mem_flatMap]
  constructor
  · rintro ⟨op, ho, hc⟩
    cases op with
    | write p => simp at hc
    | close => simp at hc
    | flush t => simp at hc
    | setHeader h => rw [List.mem_singleton.1 hc]; exact ho
  · intro h; exact ⟨.setHeader x, h, by simp⟩

/-- the calls and their bytewise form produce the same -/
theorem bytewise_yields {L : HuffLib} (hL : L.Lawful) {E : BlockRel} {base : List UInt8} {n0 : Nat} (tail : List WOp) : ∀ {ops : List WOp} {s : WState} {a : Abs}, Inv L E base n0 s a →
    WOp.close ∉ ops → (∀ op ∈ ops, Says s.o.format op) → Yields L s (ops ++ tail) (bytewise ops ++ tail) ∧ Yields L s (bytewise ops ++ tail) (ops ++ tail)
  | [], s, a, h, _, _ => ⟨Yields.refl, Yields.refl⟩
  | op :: ops, s, a, h, hc, hs => by
    have hc' : WOp.close ∉ ops := fun h => hc (by simp [h])
    have ih : ∀ t a', Inv L E base n0 t a' → t.o = s.o → _ := fun t a' ht ho => bytewise_yields hL tail (ops := ops) ht hc' (fun op h => by rw [ho]; exact hs op (by simp [h]))
    have other : op ≠ .close → Yields L s (op :: (ops ++ tail)) (op :: (bytewise ops ++ tail)) ∧ Yields L s (op :: (bytewise ops ++ tail)) (op :: (ops ++ tail)) := by
      intro hne
      constructor
      · refine Yields.cons fun r u hu hr => ?_
        obtain ⟨h', ho⟩ := h.step hL hne (hs op (by simp)) hu hr
        exact (ih u _ h' ho).1
      · refine Yields.cons fun r u hu hr => ?_
        obtain ⟨h', ho⟩ := h.step hL hne (hs op (by simp)) hu hr
        exact (ih u _ h' ho).2
    cases op with
    | write p =>
      have e : bytewise (.write p :: ops) = single p ++ bytewise ops := rfl
      rw [e, List.append_assoc]
      exact ⟨apart_yields hL h fun t a' ht ho => (ih t a' ht ho).1, together_yields hL h fun t a' ht ho => (ih t a' ht ho).2⟩
    | close => exact absurd (List.mem_cons_self) hc
    | flush t => exact other (by simp)
    | setHeader x => exact other (by simp)

/-- the input buffer, of `2^(mlevel+8)` bytes, is no larger than what the Writer puts into a block at a time: 4096 bytes, or 61440 at level 0 -/
def SmallBuffer (o : Options) : Prop := o.mlevel ≤ 4 ∨ (o.clevel = 0 ∧ o.mlevel ≤ 7)

theorem SmallBuffer.tight {c : Setup} (h : SmallBuffer c.o) : Tight c.start := by
  have hb : c.start.lz.cap = 2 ^ (c.o.mlevel + 8) := by
    unfold LZ.cap
    show 2 ^ (hybridOptions c.o).bufBits = _
    unfold hybridOptions
    cases c.o.strategy <;> rfl
  unfold Tight
  rw [hb]
  rcases h with h | ⟨h0, h⟩
  · have h1 : 2 ^ (c.o.mlevel + 8) ≤ 2 ^ 12 := Nat.pow_le_pow_right (by omega) (by omega)
    split
    · exact le_trans h1 (by decide)
    · exact h1
  · have h1 : 2 ^ (c.o.mlevel + 8) ≤ 2 ^ 15 := Nat.pow_le_pow_right (by omega) (by omega)
    rw [if_pos (by show (c.o.clevel == 0) = true; rw [h0]; rfl)]
    exact le_trans h1 (by decide)

theorem start_cap (c : Setup) : 2 ≤ c.start.outBits := by
  show 2 ≤ c.o.mlevel + 7
  omega

/-- **C87**, raw deflate and zlib (partial: the input buffer must be no larger than a block).  If one sequence of calls does not fail, another which differs only in how
the data is divided among the `Write` calls does not fail either, and the underlying writer receives the same bytes. -/
theorem C87_division_partial {c : Setup} (h : c.OK) (hb : SmallBuffer c.o) (hf : c.o.format ≠ .gzip) {ops ops' : List WOp} (tail : List WOp) (hc : WOp.close ∉ ops)
    (hs : bytewise ops' = bytewise ops) {rs : List WRes} {t : WState} (hr : c.Runs (ops ++ tail) rs t) (he : NoErr rs) :
    ∃ rs' t', c.Runs (ops' ++ tail) rs' t' ∧ NoErr rs' ∧ t'.sink.out = t.sink.out := by
  have hi : Inv c.L (BlockEnc c.ok (2 ^ c.o.wbits)) c.sink.out 0 c.start {} := ⟨h.live _, h.any True, hb.tight, fun hg => absurd hg hf, start_cap c⟩
  have hc' : WOp.close ∉ ops' := by rw [← bytewise_close, hs, bytewise_close]; exact hc
  have h1 := (bytewise_yields h.lawful tail hi hc (fun op _ x _ hg => absurd hg hf)).1
  have h2 := (bytewise_yields h.lawful tail hi hc' (fun op _ x _ hg => absurd hg hf)).2
  rw [hs] at h2
  exact (h1.trans h2) rs t hr he

/-- **C87**, gzip (partial: moreover, the caller must say by `SetHeader` what kind of data there is). -/
theorem C87_gzip_partial {c : Setup} (h : c.OK) (hb : SmallBuffer c.o) {hd : Header} (hk : HeaderOK hd) {ops ops' : List WOp} (tail : List WOp) (hc : WOp.close ∉ ops)
    (hdt : hd.dataType ≠ .unknown) (hda : ∀ x, WOp.setHeader x ∈ ops → x.dataType ≠ .unknown)
    (hs : bytewise ops' = bytewise ops) {rs : List WRes} {t : WState} (hr : c.Runs (.setHeader hd :: ops ++ tail) rs t) (he : NoErr rs) :
    ∃ rs' t', c.Runs (.setHeader hd :: ops' ++ tail) rs' t' ∧ NoErr rs' ∧ t'.sink.out = t.sink.out := by
  have hc' : WOp.close ∉ ops' := by rw [← bytewise_close, hs, bytewise_close]; exact hc
  have hda' : ∀ x, WOp.setHeader x ∈ ops' → x.dataType ≠ .unknown := fun x hx => hda x (by rw [← bytewise_header, ← hs, bytewise_header]; exact hx)
  have hk' := (headerOK_iff hd).2 hk
  let s1 : WState := { c.start with header := hd }
  have e1 : stepOp c.L (.setHeader hd) c.start = .ok (.header true, s1) := by simp only [stepOp, wSetHeader, hk', if_true]; rfl
  obtain ⟨es, k, hh, hl, _⟩ := run_good h.lawful [.setHeader hd] (h.live _) (h.any True) (fun _ _ _ => trivial) (by simp) (run_cons e1 rfl) (by simp [WRes.err])
  have hi : Inv c.L (BlockEnc c.ok (2 ^ c.o.wbits)) c.sink.out 0 s1 _ := ⟨hl, (h.any True).hist hh, hb.tight, fun _ => hdt, start_cap c⟩
  have h1 := (bytewise_yields h.lawful tail hi hc (fun op ho x hx _ => by subst hx; exact hda x ho)).1
  have h2 := (bytewise_yields h.lawful tail hi hc' (fun op ho x hx _ => by subst hx; exact hda' x ho)).2
  rw [hs] at h2
  exact (Yields.cons (s := c.start) (fun r u hu _ => by rw [e1] at hu; cases hu; exact h1.trans h2)) rs t hr he

/-! concrete cases -/

example : bytewise [.write [1, 2], .write [], .write [3], .flush .syncFlush, .write [4, 5]] = bytewise [.write [1], .write [2, 3], .flush .syncFlush, .write [4], .write [5]] := rfl

example : ∃ rs t rs' t', (demo [.format .zlib, .mlevel 1]).Runs ([.write [1, 2], .write [], .write [3], .flush .syncFlush, .write [4, 5]] ++ [.close]) rs t ∧ NoErr rs ∧
    (demo [.format .zlib, .mlevel 1]).Runs ([.write [1], .write [2, 3], .flush .syncFlush, .write [4], .write [5]] ++ [.close]) rs' t' ∧ NoErr rs' ∧ t'.sink.out = t.sink.out := by
  have hok : (demo [.format .zlib, .mlevel 1]).OK := demo_ok (by decide)
  have hc : WOp.close ∉ [.write [1, 2], .write [], .write [3], .flush .syncFlush, .write [4, 5]] := by simp
  obtain ⟨rs, t, h1, h2⟩ := hok.run_close_ok (Or.inr (by decide)) (demo_sink _) hc
  have hs : bytewise [.write [1], .write [2, 3], .flush .syncFlush, .write [4], .write [5]] = bytewise [.write [1, 2], .write [], .write [3], .flush .syncFlush, .write [4, 5]] := rfl
  obtain ⟨rs', t', h3, h4, h5⟩ := C87_division_partial hok (Or.inl (by decide)) (by decide) [.close] hc hs h1 h2
  exact ⟨rs, t, rs', t', h1, h2, h3, h4, h5⟩

example : ∃ rs t rs' t', (demo [.format .gzip, .mlevel 1]).Runs (.setHeader { dataType := .binary } :: [.write [97], .write [0]] ++ [.close]) rs t ∧ NoErr rs ∧
    (demo [.format .gzip, .mlevel 1]).Runs (.setHeader { dataType := .binary } :: [.write [97, 0]] ++ [.close]) rs' t' ∧ NoErr rs' ∧ t'.sink.out = t.sink.out := by
  have hok : (demo [.format .gzip, .mlevel 1]).OK := demo_ok (by decide)
  have hc : WOp.close ∉ [.write [97], .write [0]] := by simp
  obtain ⟨rs, t, h1, h2⟩ := hok.run_close_ok (Or.inr (by decide)) (demo_sink _) (ops := [.setHeader { dataType := .binary }, .write [97], .write [0]]) (by simp)
  have hk : HeaderOK { dataType := .binary } := (headerOK_iff _).1 (by decide)
  have hs : bytewise [.write [97, 0]] = bytewise [.write [97], .write [0]] := rfl
  obtain ⟨rs', t', h3, h4, h5⟩ := C87_gzip_partial hok (Or.inl (by decide)) hk [.close] hc (by simp) (by simp) hs h1 h2
  exact ⟨rs, t, rs', t', h1, h2, h3, h4, h5⟩

/-! the property is false in general -/

/-- a gzip Writer which does not compress -/
def guessing : Setup := ⟨refLib, 64, fun _ => none, {}, [.format .gzip, .clevel 0, .mlevel 1]⟩
theorem guessing_ok : guessing.OK := ⟨refLib_lawful, Or.inr rfl, by decide⟩

/-- **C87** is false of the code, first reason: unless told, a gzip Writer guesses from what it has got when the stream begins whether the data is text. -/
theorem C87_fails : guessing.OK ∧ SmallBuffer guessing.o ∧ bytewise [.write [97, 0]] = bytewise [.write [97], .write [0]] ∧
    ∃ rs t rs' t', guessing.Runs ([.write [97], .write [0]] ++ [.close]) rs t ∧ NoErr rs ∧ guessing.Runs ([.write [97, 0]] ++ [.close]) rs' t' ∧ NoErr rs' ∧
      t'.sink.out ≠ t.sink.out := by
  refine ⟨guessing_ok, Or.inl (by decide), rfl, ?_⟩
  obtain ⟨rs, t, h1, h2⟩ := guessing_ok.run_close_ok (Or.inl (by decide)) ⟨fun _ => rfl, fun _ => rfl, fun _ _ h => by cases h⟩ (ops := [.write [97], .write [0]]) (by simp)
  obtain ⟨rs', t', h3, h4⟩ := guessing_ok.run_close_ok (Or.inl (by decide)) ⟨fun _ => rfl, fun _ => rfl, fun _ _ h => by cases h⟩ (ops := [.write [97, 0]]) (by simp)
  refine ⟨rs, t, rs', t', h1, h2, h3, h4, fun e => ?_⟩
  have d : ((guessing.eval ([.write [97], .write [0]] ++ [.close])).map fun x => x.2.1) ≠ ((guessing.eval ([.write [97, 0]] ++ [.close])).map fun x => x.2.1) := by decide +kernel
  apply d
  have f1 : guessing.eval ([.write [97], .write [0]] ++ [.close]) = some (rs, t.sink.out, t.events.map fun p => p.ev.kind) := by
    unfold Setup.eval; rw [show runOps guessing.L _ guessing.start = _ from h1]
  have f2 : guessing.eval ([.write [97, 0]] ++ [.close]) = some (rs', t'.sink.out, t'.events.map fun p => p.ev.kind) := by
    unfold Setup.eval; rw [show runOps guessing.L _ guessing.start = _ from h3]
  rw [f1, f2]
  show some t.sink.out = some t'.sink.out
  rw [e]

/-- a Writer of raw deflate streams, with an input buffer of 65536 bytes, which does not compress -/
def roomy : Setup := ⟨refLib, 64, fun _ => none, {}, [.format .raw, .clevel 0, .mlevel 8]⟩
theorem roomy_ok : roomy.OK := ⟨refLib_lawful, Or.inr rfl, by decide⟩
theorem roomy_sink : roomy.SinkOK := ⟨fun _ => rfl, fun _ => rfl, fun _ _ h => by cases h⟩

/-- A Writer of raw deflate streams which does not compress, with an input buffer of 65536 bytes, none of which is in use, and with `n` bits of output so far. -/
structure Even (s : WState) (n : Nat) : Prop where
  inv : WInv s
  store : usesStore s.o = true
  raw : s.o.format = .raw
  size : s.lz.cap = 65536
  buf : s.lz.buf = []
  bits : (view s).length = n
  state : s.state = .noStream ∨ s.state = .openStream
  outBits : 2 ≤ s.outBits
  noFlush : s.sink.hasFlush = false
  noSync : s.sink.hasSync = false

/-- the number of stored blocks for so much data -/
def storedFor (n : Nat) : Nat := (n + 61439) / 61440

theorem pad5 {n : Nat} (h : n % 8 = 0) : (padBits (n + 3)).length = 5 := by
  unfold padBits
  rw [List.length_replicate]
  unfold padLen
  omega

/-- a stored block takes five bytes more than its data -/
theorem stored_exact {s t : WState} (hi : WInv s) (ha : (view s).length % 8 = 0) {data : List UInt8} (hd : data.length ≤ 65535) {f : Bool}
    (e : writeStoredBlock wBW data f s = .ok (true, t)) :
    Core s t ∧ WInv t ∧ t.state = s.state ∧ (view t).length = (view s).length + 8 * data.length + 40 := by
  obtain ⟨c, v, i, st⟩ := (writeStoredBlock_does hi hd f).of_ok e
  refine ⟨c, i, st, ?_⟩
  rw [v]
  have := pad5 ha
  simp only [List.length_append, natBits_length, bytesBits_length, List.length_cons, List.length_nil, this]
  omega

theorem storeLoop_exact : ∀ (fuel : Nat) {s t : WState} {n : Nat}, s.lz.buf.length < fuel → WInv s → (view s).length = n → n % 8 = 0 →
    storeLoop fuel s.lz.buf.length s = .ok (true, t) →
    WInv t ∧ t.lz.buf = [] ∧ (view t).length = n + 8 * s.lz.buf.length + 40 * storedFor s.lz.buf.length ∧ t.state = s.state ∧ t.o = s.o ∧ t.lz.opts = s.lz.opts ∧
      t.outBits = s.outBits ∧ t.sink.hasFlush = s.sink.hasFlush ∧ t.sink.hasSync = s.sink.hasSync := by
  intro fuel
  induction fuel with
  | zero => intro s t n h; omega
  | succ fuel ih =>
    intro s t n hf hi hn ha h
    by_cases h0 : s.lz.buf.length = 0
    · unfold storeLoop at h
      rw [if_pos h0] at h
      cases h
      rw [h0]
      exact ⟨hi, List.length_eq_zero_iff.1 h0, by rw [hn]; rfl, rfl, rfl, rfl, rfl, rfl, rfl⟩
    · obtain ⟨s1, e, he, hb⟩ := inputBufferRead_spec s storedBlockSize
      have i1 := eat_inv he hi
      have hl : (s.lz.buf.take storedBlockSize).length = min 61440 s.lz.buf.length := by
        rw [List.length_take]; rfl
      have hlen := congrArg List.length he.buf
      rw [List.length_append] at hlen
      have hsub : s.lz.buf.length - (s.lz.buf.take storedBlockSize).length = s1.lz.buf.length := by
        omega
      unfold storeLoop at h
      rw [if_neg h0, Go.bind_ok e, hsub] at h
      obtain ⟨u, h1, h2⟩ := chk_true_inv h
      have hv1 : view s1 = view s := by rw [he.eq]; rfl
      obtain ⟨c, i, st, v⟩ := stored_exact i1 (by rw [hv1, hn]; exact ha) (by omega) h1
      have hu : u.lz.buf.length = s1.lz.buf.length := by rw [c.lz]
      rw [← hu] at h2
      rw [hv1, hn] at v
      obtain ⟨k1, k2, k3, k4, k5, k6, k7, k8, k9⟩ := ih (by omega) i v (by omega) h2
      refine ⟨k1, k2, ?_, ?_, ?_, ?_, ?_, ?_, ?_⟩
      · rw [k3]
        have : storedFor s.lz.buf.length = storedFor u.lz.buf.length + 1 := by
          unfold storedFor
          omega
        rw [this]
        omega
      · rw [k4, st, he.eq]
      · rw [k5, c.o, he.eq]
      · rw [k6, c.lz, he.opts]
      · rw [k7, c.outBits, he.eq]
      · rw [k8, c.hasFlush, he.eq]
      · rw [k9, c.hasSync, he.eq]

/-- a `Write` of at least 61440 bytes, and no more than the buffer can hold -/
theorem Even.write {L : HuffLib} {s t : WState} {n k : Nat} {p : List UInt8} (h : Even s n) (ha : n % 8 = 0) (h1 : 61440 ≤ p.length) (h2 : p.length ≤ 65536)
    (e : stepOp L (.write p) s = .ok (.write k none, t)) : Even t (n + 8 * p.length + 40 * storedFor p.length) := by
  have hst : s.state ≠ .closed ∧ s.state ≠ .error := by rcases h.state with x | x <;> rw [x] <;> exact ⟨by simp, by simp⟩
  have hr : Ready s := h.state.imp id Or.inl
  have hp : p ≠ [] := by rintro rfl; simp at h1
  obtain ⟨u, e1, e2⟩ := (runs_gen (m := p.length) hr (by rw [h.buf, h.size]; decide) hp (by rw [h.buf, h.size]; simp; omega)).1 (write_runs hst h.outBits h.inv.out e)
  rw [List.drop_length, runs_nil] at e2
  subst e2
  rw [h.buf, List.nil_append, List.take_length] at e1
  obtain ⟨v, e3, e4⟩ := chk_ok.1 e1
  have hv : WInv v ∧ (view v).length = n ∧ v.state = .openStream ∧ v.o = s.o ∧ v.lz.opts = s.lz.opts ∧ v.lz.buf = p ∧ v.outBits = s.outBits ∧
      v.sink.hasFlush = s.sink.hasFlush ∧ v.sink.hasSync = s.sink.hasSync := by
    unfold opening at e3
    rcases h.state with x | x
    · rw [if_pos (Or.inl (show (putBuf p s).state = .noStream from x)), open_eq] at e3
      have hh : Sim.headOf (Sim.headDep (begun (putBuf p s))) (begun (putBuf p s)) = .ok (true, begun (putBuf p s)) := by
        unfold Sim.headOf
        have : (Sim.headDep (begun (putBuf p s))).format = .raw := h.raw
        rw [this]
        rfl
      unfold Go.chk at e3
      rw [hh] at e3
      cases e3
      exact ⟨⟨h.inv.hW, h.inv.lt, h.inv.blk, h.inv.out⟩, h.bits, rfl, rfl, rfl, rfl, rfl, rfl, rfl⟩
    · rw [if_neg (by rw [show (putBuf p s).state = s.state from rfl, x]; simp)] at e3
      cases e3
      exact ⟨⟨h.inv.hW, h.inv.lt, h.inv.blk, h.inv.out⟩, h.bits, x, rfl, rfl, rfl, rfl, rfl, rfl⟩
  obtain ⟨v1, v2, v3, v4, v5, v6, v7, v8, v9⟩ := hv
  unfold squeeze at e4
  rw [if_pos (by rw [v4]; exact h.store)] at e4
  unfold compressStore at e4
  simp only at e4
  rw [if_neg (by rw [v6]; simp only [storedBlockSize]; omega)] at e4
  obtain ⟨k1, k2, k3, k4, k5, k6, k7, k8, k9⟩ := storeLoop_exact _ (by omega) v1 v2 ha e4
  refine ⟨k1, by rw [k5, v4]; exact h.store, by rw [k5, v4]; exact h.raw, ?_, k2, by rw [k3, v6], Or.inr (by rw [k4, v3]), by rw [k7, v7]; exact h.outBits, by rw [k8, v8]; exact h.noFlush, by rw [k9, v9]; exact h.noSync⟩
  have := h.size
  unfold LZ.cap at this ⊢
  rw [k6, v5]; exact this

/-- `Close` adds five bytes -/
theorem Even.close {L : HuffLib} {s t : WState} {n : Nat} {r : WRes} (h : Even s n) (hs : s.state = .openStream) (ha : n % 8 = 0) (e : stepOp L .close s = .ok (r, t)) (hr : r.err = none) :
    8 * t.sink.out.length = n + 40 := by
  have hst : s.state ≠ .closed ∧ s.state ≠ .error := by rw [hs]; exact ⟨by simp, by simp⟩
  simp only [stepOp, wClose] at e
  rw [if_neg hst.1, if_neg hst.2] at e
  have main : ∀ v, flushImpl L .finishFlush s = .ok (true, v) → 8 * v.sink.out.length = n + 40 := by
    intro v hv
    unfold flushImpl at hv
    obtain ⟨s1, c1, hv⟩ := chk_true_inv hv
    have : compressImpl L true s = .ok (true, s) := by unfold compressImpl; rw [if_pos h.buf]
    rw [this] at c1; cases c1
    obtain ⟨s2, c2, hv⟩ := chk_true_inv hv
    rw [if_neg (by rw [hs]; simp)] at c2
    cases c2
    obtain ⟨s3, c3, hv⟩ := chk_true_inv hv
    rw [if_pos hs] at c3
    unfold flushGuts at c3
    obtain ⟨s4, c4, c3⟩ := chk_true_inv c3
    cases c3
    obtain ⟨k1, k2, k3, k4⟩ := stored_exact h.inv (by rw [h.bits]; exact ha) (by simp) c4
    obtain ⟨s5, c5, hv⟩ := chk_true_inv hv
    have hi : WInv ({ s4 with lz := { s4.lz with hist := [] }, state := .closingStream } : WState) := ⟨k2.hW, k2.lt, k2.blk, k2.out⟩
    have hvw : view ({ s4 with lz := { s4.lz with hist := [] }, state := .closingStream } : WState) = view s4 := rfl
    have hfm : s4.o.format = .raw := by rw [k1.o]; exact h.raw
    have hff : s4.sink.hasFlush = false := by rw [k1.hasFlush]; exact h.noFlush
    have hfs : s4.sink.hasSync = false := by rw [k1.hasSync]; exact h.noSync
    unfold finishClosing at c5
    rw [if_pos rfl] at c5
    obtain ⟨s6, c6, c5⟩ := chk_true_inv c5
    cases c5
    unfold writeFooter at c6
    obtain ⟨s7, c7, c6⟩ := chk_true_inv c6
    obtain ⟨d1, d2, d3, _⟩ := (wBitsFlush_does hi).of_ok c7
    have d4 := wBitsFlush_zero c7
    have hff7 : s7.sink.hasFlush = false := by rw [d1.hasFlush]; exact hff
    have hfs7 : s7.sink.hasSync = false := by rw [d1.hasSync]; exact hfs
    have hfm7 : s7.o.format = .raw := by rw [d1.o]; exact hfm
    have hs6 : s6.sink = s7.sink := by
      have : (do
          let s ← (Go.get : Go WState WState)
          wSendEvent (.streamEnd s.adler s.crcIn)
          Go.chk (match s.o.format with
            | .raw => pure true
            | .zlib => writeFooterZlib s.adler
            | .gzip => writeFooterGZIP s.crcIn
            | .default => Go.panic (.assert "Format not implemented")) (do
            wSendEvent .streamClose
            pure true) : Go WState Bool) s7 = .ok (true, s6) := c6
      simp only [Go.bind_eq_ok] at this
      obtain ⟨x, y, g1, z, w, g2, g3⟩ := this
      cases g1
      cases g2
      rw [hfm7] at g3
      obtain ⟨m, g4, g5⟩ := chk_true_inv g3
      cases g4
      cases g5
      rfl
    have hv2 : v.sink = s7.sink := by
      obtain ⟨s8, c8, hv⟩ := chk_true_inv hv
      unfold sinkFlush at c8
      rw [if_neg (by show ¬ s6.sink.hasFlush = true; rw [hs6, hff7]; simp)] at c8
      cases c8
      unfold sinkSync at hv
      rw [if_neg (by show ¬ s6.sink.hasSync = true; rw [hs6, hfs7]; simp)] at hv
      cases hv
      exact hs6
    have hlen : 8 * (pushed s7).length = (view s7).length := by
      unfold view; rw [d4]; simp [bytesBits_length, natBits_length]
    rw [hv2, ← out_pushed d3, hlen, d2, hvw, padBits_aligned (by rw [k4, h.bits]; simp only [List.length_nil]; omega), List.append_nil, k4, h.bits]
    simp
  cases ef : flushImpl L .finishFlush s with
  | error x => rw [ef] at e; cases e
  | ok y =>
    obtain ⟨b, v⟩ := y
    rw [ef] at e
    cases b with
    | true => cases e; exact main v ef
    | false =>
      exfalso
      cases e
      have h3 := (Sim.good_flushImpl (M := true) L .finishFlush).sim _ _ (R.refl h.outBits h.inv.out)
      rw [ef] at h3
      rcases h3 with ⟨_, _, _, _, hb⟩ | ⟨hM, _⟩
      · obtain ⟨_, y, hy⟩ := hb rfl
        rw [show v.err = none from hr] at hy
        cases hy
      · cases hM

theorem roomy_even : Even roomy.start 0 :=
  ⟨⟨Or.inr rfl, by decide, by decide, rfl⟩, rfl, rfl, by decide, rfl, rfl, Or.inl rfl, by decide, rfl, rfl⟩

theorem two_writes (p q : List UInt8) : WOp.close ∉ [.write p, .write q] := by simp

/-- two `Write` calls and `Close` -/
theorem roomy_two {a b : Nat} (h1 : 61440 ≤ a) (h2 : a ≤ 61440 + 2) (h3 : 61440 ≤ b) (h4 : b ≤ 61440 + 2) {rs : List WRes} {t : WState} {x : UInt8}
    (hr : roomy.Runs ([.write (List.replicate a x), .write (List.replicate b x)] ++ [.close]) rs t) (he : NoErr rs) :
    t.sink.out.length = a + b + 5 * (storedFor a + storedFor b + 1) := by
  obtain ⟨r1, s1, rs1, e1, hr1, rfl⟩ := run_cons_inv hr
  obtain ⟨r2, s2, rs2, e2, hr2, rfl⟩ := run_cons_inv hr1
  obtain ⟨r3, s3, rs3, e3, hr3, rfl⟩ := run_cons_inv hr2
  cases hr3
  obtain ⟨n1, rfl⟩ := write_ok_inv e1 (he r1 (by simp))
  obtain ⟨n2, rfl⟩ := write_ok_inv e2 (he r2 (by simp))
  have v1 := roomy_even.write rfl (by rw [List.length_replicate]; exact h1) (by rw [List.length_replicate]; omega) e1
  rw [List.length_replicate] at v1
  have v2 := v1.write (by omega) (by rw [List.length_replicate]; exact h3) (by rw [List.length_replicate]; omega) e2
  rw [List.length_replicate] at v2
  have hs : s2.state = .openStream := by
    have hc := cur_open roomy_ok (roomy_ok.any True) (fun _ _ _ => trivial) (ops := [.write (List.replicate a x), .write (List.replicate b x)]) (by simp)
      (rs := [.write n1 none, .write n2 none]) (run_cons e1 (run_cons e2 rfl)) (by simp [NoErr, WRes.err])
      (d := List.replicate a x ++ List.replicate b x) ?_
    · obtain ⟨_, _, _, _, _, _, _, _, hst, _⟩ := hc
      exact hst
    · have ha : List.replicate a x ≠ [] := by rw [Ne, List.replicate_eq_nil_iff]; omega
      have hb : List.replicate b x ≠ [] := by rw [Ne, List.replicate_eq_nil_iff]; omega
      simp [segsOf, Segs.step, ha, hb]
  have := v2.close hs (by omega) e3 (he r3 (by simp))
  omega

/-- **C87** is false of the code, second reason: if the input buffer is larger than a block, how much data is put into a block depends on how much was there at the
end of a `Write`.  At level 0 and memory level 8, two `Write` calls of 61441 bytes produce five bytes more than one of 61440 and one of 61442 bytes. -/
theorem C87_fails_blocks : roomy.OK ∧ roomy.o.format = .raw ∧
    bytewise [.write (List.replicate 61441 7), .write (List.replicate 61441 7)] = bytewise [.write (List.replicate 61440 7), .write (List.replicate 61442 7)] ∧
    ∃ rs t rs' t', roomy.Runs ([.write (List.replicate 61441 7), .write (List.replicate 61441 7)] ++ [.close]) rs t ∧ NoErr rs ∧
      roomy.Runs ([.write (List.replicate 61440 7), .write (List.replicate 61442 7)] ++ [.close]) rs' t' ∧ NoErr rs' ∧ t.sink.out.length = t'.sink.out.length + 5 := by
  refine ⟨roomy_ok, rfl, ?_, ?_⟩
  · simp only [bytewise, List.flatMap_cons, List.flatMap_nil, List.map_replicate, List.append_nil, List.replicate_append_replicate]
  · obtain ⟨rs, t, h1, h2⟩ := roomy_ok.run_close_ok (Or.inl (by decide)) roomy_sink (two_writes _ _)
    obtain ⟨rs', t', h3, h4⟩ := roomy_ok.run_close_ok (Or.inl (by decide)) roomy_sink (two_writes _ _)
    refine ⟨rs, t, rs', t', h1, h2, h3, h4, ?_⟩
    rw [roomy_two (by omega) (by omega) (by omega) (by omega) h1 h2, roomy_two (by omega) (by omega) (by omega) (by omega) h3 h4]
    rfl

end Flate.Props
