/-
What becomes of a caller's memory after it was passed to a Writer: C65.
-/
import Verif.Model.Alias
import Verif.Props.RoundTrip

namespace Flate.Props
open Flate.Spec Flate.Model Flate.Model.Alias Flate.Proof

/-- the methods called in a history, each with the contents its arguments had when it was called -/
def snapshot : Mem → List ACall → List WOp
  | _, [] => []
  | m, c :: cs => (c.now m).toList ++ snapshot (c.poke m) cs

/-- after having been passed to `SetHeader`, a slice of records is not written to (until another one has been passed) -/
def Untouched : Mem → Option Ref → List ACall → Prop
  | _, _, [] => True
  | m, o, c :: cs => (∀ x r, c = .pokeRecs x r → o ≠ some x) ∧ Untouched (c.poke m) (c.keeps m o) cs

/-- the Writer's header has the contents of the slice it refers to -/
def Fresh' (s : ASt) : Prop := ∀ x, s.ref = some x → s.w.header.extra = s.mem.recs x

theorem look_fresh {s : ASt} (h : Fresh' s) : s.look = s.w := by
  unfold ASt.look
  split
  · rfl
  · rename_i x hx; rw [← h x hx]

theorem step_extra (c : AbsCfg) (a : Abs) (op : WOp) (h : ∀ x, op ≠ .setHeader x) : (a.step c op).hdr.extra = a.hdr.extra := by
  have hfin : (a.finish c).hdr.extra = a.hdr.extra := by
    unfold Abs.finish
    split
    · rfl
    · split <;> rfl
  cases op with
  | write p =>
    simp only [Abs.step]
    split
    · rfl
    · split <;> rfl
  | flush ft => cases ft <;> first | exact hfin | rfl
  | setHeader x => exact absurd rfl (h x)
  | close => exact hfin

theorem now_setHeader {m : Mem} {c : ACall} {op : WOp} (e : c.now m = some op) (h : ∀ x r, c ≠ .setHeader x r) : ∀ x, op ≠ .setHeader x := by
  intro x hx
  subst hx
  cases c with
  | setHeader a b => exact absurd rfl (h a b)
  | write _ => simp [ACall.now] at e
  | flush _ => simp [ACall.now] at e
  | close => simp [ACall.now] at e
  | pokeData _ _ => simp [ACall.now] at e
  | pokeRecs _ _ => simp [ACall.now] at e

theorem poke_none {m : Mem} {c : ACall} {op : WOp} (e : c.now m = some op) : c.poke m = m := by
  cases c <;> first | rfl | simp [ACall.now] at e

/-- a call of a live Writer keeps its header up to date -/
theorem step_fresh {s : ASt} {c : ACall} {op : WOp} {u : WState} {cfg : AbsCfg} {a : Abs} (hf : Fresh' s) (e : c.now s.mem = some op)
    (h0 : s.w.header = a.hdr) (h1 : u.header = (a.step cfg op).hdr) :
    Fresh' { s with w := u, ref := c.keeps s.mem s.ref } := by
  intro x hx
  show u.header.extra = s.mem.recs x
  have hx : c.keeps s.mem s.ref = some x := hx
  by_cases hs : ∃ h y, c = .setHeader h y
  · obtain ⟨h, y, rfl⟩ := hs
    have e : WOp.setHeader { h with extra := s.mem.recs y } = op := Option.some.inj e
    subst e
    rw [h1]
    simp only [ACall.keeps] at hx
    by_cases ho : headerOK { h with extra := s.mem.recs y } = true
    · rw [if_pos ho] at hx
      cases hx
      simp only [Abs.step, if_pos ((headerOK_iff _).1 ho)]
    · rw [if_neg ho] at hx
      simp only [Abs.step, if_neg (fun z => ho ((headerOK_iff _).2 z))]
      rw [← h0]
      exact hf x hx
  · have hk : c.keeps s.mem s.ref = s.ref := by
      cases c <;> first | rfl | exact absurd ⟨_, _, rfl⟩ hs
    rw [hk] at hx
    rw [h1, step_extra _ _ _ (now_setHeader e fun a b h => hs ⟨a, b, h⟩), ← h0]
    exact hf x hx

/-- the caller's memory changes, the slice of records does not -/
theorem poke_fresh {s : ASt} {c : ACall} (hf : Fresh' s) (e : c.now s.mem = none) (hu : ∀ x r, c = .pokeRecs x r → s.ref ≠ some x) :
    Fresh' { s with mem := c.poke s.mem } := by
  intro x hx
  have hx : s.ref = some x := hx
  show s.w.header.extra = (c.poke s.mem).recs x
  rw [hf x hx]
  cases c with
  | pokeRecs y r =>
    have := hu y r rfl
    simp only [ACall.poke]
    rw [if_neg (fun h => this (by rw [hx, h]))]
  | pokeData _ _ => rfl
  | write _ => rfl
  | flush _ => rfl
  | close => rfl
  | setHeader _ _ => rfl

theorem keeps_none {m : Mem} {o : Option Ref} {c : ACall} (e : c.now m = none) : c.keeps m o = o := by
  cases c <;> first | rfl | simp [ACall.now] at e

theorem arun_live {L : HuffLib} (hL : L.Lawful) {E : BlockRel} {pf : Prop} {base : List UInt8} (hpf : pf) : ∀ (cs : List ACall) {s t : ASt} {a : Abs} {rs : List WRes},
    Live E base n0 s.w a → BlockOK L s.w.o s.w.lz.maxDist pf E → Fresh' s → Untouched s.mem s.ref cs → (∀ c ∈ cs, c ≠ .close) →
    arun L cs s = .ok (rs, t) → NoErr rs →
    runOps L (snapshot s.mem cs) s.w = .ok (rs, t.w) ∧ Fresh' t ∧ ∃ a' es k, Live E base n0 t.w a' ∧ Hist s.w t.w k es := by
  intro cs
  induction cs with
  | nil =>
    intro s t a rs hl _ hf _ _ h _
    cases h
    exact ⟨rfl, hf, a, [], [], hl, (Flow.refl _).hist⟩
  | cons c cs ih =>
    intro s t a rs hl hE hf hu hc h hr
    cases hn : c.now s.mem with
    | none =>
      have hs : astep L c s = .ok (none, { s with mem := c.poke s.mem }) := by unfold astep; rw [hn]
      unfold arun at h
      rw [hs] at h
      dsimp only at h
      cases h2 : arun L cs { s with mem := c.poke s.mem } with
      | error e => rw [h2] at h; cases h
      | ok x =>
        obtain ⟨rs', v⟩ := x
        rw [h2] at h
        cases h
        have hu2 := hu.2
        rw [keeps_none hn] at hu2
        obtain ⟨k1, k2, k3⟩ := ih (s := { s with mem := c.poke s.mem }) hl hE (poke_fresh hf hn hu.1) hu2
          (fun x hx => hc x (by simp [hx])) h2 hr
        refine ⟨?_, k2, k3⟩
        simp only [snapshot, hn]
        exact k1
    | some op =>
      have hne : op ≠ .close := by
        intro ho
        subst ho
        cases c with
        | close => exact hc _ (by simp) rfl
        | write _ => simp [ACall.now] at hn
        | flush _ => simp [ACall.now] at hn
        | setHeader _ _ => simp [ACall.now] at hn
        | pokeData _ _ => simp [ACall.now] at hn
        | pokeRecs _ _ => simp [ACall.now] at hn
      rcases stepOp_live hL hl hE op (fun _ => hpf) with ⟨e, _⟩ | ⟨r, u, es, k, e, hh, ok, _⟩
      · exfalso
        unfold arun astep at h
        rw [hn] at h
        simp only [look_fresh hf, e] at h
        cases h
      · have hs : astep L c s = .ok (some r, { s with w := u, ref := c.keeps s.mem s.ref }) := by
          unfold astep; rw [hn]; simp only [look_fresh hf, e]
        unfold arun at h
        rw [hs] at h
        dsimp only at h
        cases h2 : arun L cs { s with w := u, ref := c.keeps s.mem s.ref } with
        | error e => rw [h2] at h; cases h
        | ok x =>
          obtain ⟨rs', v⟩ := x
          rw [h2] at h
          cases h
          have hl' := (ok (hr r (by simp))).2.2.2 hne
          have hu2 := hu.2
          rw [poke_none hn] at hu2
          obtain ⟨k1, k2, a', es', kk, k3, k4⟩ := ih (s := { s with w := u, ref := c.keeps s.mem s.ref }) hl' (hE.hist hh)
            (step_fresh hf hn hl.hdr hl'.hdr) hu2 (fun x hx => hc x (by simp [hx])) h2 (fun x hx => hr x (by simp [hx]))
          refine ⟨?_, k2, a', es ++ es', _, k3, hh.trans k4⟩
          simp only [snapshot, hn, poke_none hn]
          exact run_cons e k1

theorem arun_append_inv {L : HuffLib} {b : List ACall} : ∀ {a : List ACall} {s u : ASt} {rs : List WRes},
    arun L (a ++ b) s = .ok (rs, u) →
    ∃ rs1 t rs2, arun L a s = .ok (rs1, t) ∧ arun L b t = .ok (rs2, u) ∧ rs = rs1 ++ rs2 := by
  intro a
  induction a with
  | nil => intro s u rs h; exact ⟨[], s, rs, rfl, h, rfl⟩
  | cons c cs ih =>
    intro s u rs h
    rw [List.cons_append] at h
    unfold arun at h
    cases h1 : astep L c s with
    | error e => rw [h1] at h; cases h
    | ok x =>
      obtain ⟨r, v⟩ := x
      rw [h1] at h
      dsimp only at h
      cases h2 : arun L (cs ++ b) v with
      | error e => rw [h2] at h; cases h
      | ok y =>
        obtain ⟨rs', w⟩ := y
        rw [h2] at h
        cases h
        obtain ⟨rs1, t, rs2, h3, h4, rfl⟩ := ih h2
        refine ⟨r.toList ++ rs1, t, rs2, ?_, h4, by simp⟩
        unfold arun
        rw [h1]
        dsimp only
        rw [h3]

theorem untouched_append {b : List ACall} : ∀ {a : List ACall} {m : Mem} {o : Option Ref}, Untouched m o (a ++ b) → Untouched m o a := by
  intro a
  induction a with
  | nil => intro m o _; trivial
  | cons c cs ih => intro m o h; exact ⟨h.1, ih h.2⟩

/-- the caller's memory at the end -/
def memAfter (m : Mem) (cs : List ACall) : Mem := cs.foldl ACall.poke m

theorem snapshot_append (b : List ACall) : ∀ (a : List ACall) (m : Mem), snapshot m (a ++ b) = snapshot m a ++ snapshot (memAfter m a) b := by
  intro a
  induction a with
  | nil => intro m; rfl
  | cons c cs ih => intro m; simp only [List.cons_append, snapshot, ih, List.append_assoc]; rfl

/-- **C65 (partial)**: If the caller leaves the records passed to `SetHeader` alone, then what it does to its memory otherwise makes no difference: the results of the calls, and everything the Writer has
written and reported, are those of the same calls with the contents the arguments had when each call was made. -/
theorem C65_partial {c : Setup} (h : c.OK) {m : Mem} {cs : List ACall} (hc : ∀ x ∈ cs, x ≠ .close) {tail : List ACall} (ht : tail = [] ∨ tail = [.close])
    (hu : Untouched m none (cs ++ tail)) {rs : List WRes} {t : ASt} (hr : arun c.L (cs ++ tail) ⟨m, c.start, none⟩ = .ok (rs, t)) (he : NoErr rs) :
    c.Runs (snapshot m (cs ++ tail)) rs t.w := by
  obtain ⟨rs1, u, rs2, h1, h2, rfl⟩ := arun_append_inv hr
  obtain ⟨k1, k2, a', es, k, k3, k4⟩ := arun_live h.lawful (s := ⟨m, c.start, none⟩) (pf := True) trivial cs (h.live _) (h.any True) (fun x hx => by cases hx)
    (untouched_append hu) hc h1 (fun r x => he r (by simp [x]))
  rw [snapshot_append]
  refine run_append_ok k1 ?_
  rcases ht with rfl | rfl
  · cases h2; rfl
  · have hs : snapshot (memAfter m cs) [ACall.close] = [.close] := rfl
    rw [hs]
    unfold arun astep at h2
    simp only [ACall.now, look_fresh k2] at h2
    cases e : stepOp c.L .close u.w with
    | error x => rw [e] at h2; cases h2
    | ok x =>
      obtain ⟨r, v⟩ := x
      rw [e] at h2
      cases h2
      exact run_cons e rfl

/-- memory for examples: cell 0 has one byte, and one record -/
def mem0 : Mem := ⟨fun _ => [7], fun _ => [⟨1, 2, [3]⟩]⟩

/-- bytes written during a history -/
def aout (c : Setup) (m : Mem) (cs : List ACall) : List UInt8 := match arun c.L cs ⟨m, c.start, none⟩ with
  | .ok (_, s) => s.w.sink.out
  | .error _ => []

/-- **C65 is false**: the records of the header are those in the caller's memory when the header is written. -/
theorem C65_fails : ∃ (c : Setup) (m : Mem) (a b : List ACall), c.OK ∧ c.SinkOK ∧ snapshot m a = snapshot m b ∧
    (∃ rs t, c.Runs (snapshot m a) rs t ∧ NoErr rs ∧ aout c m a = t.sink.out ∧ aout c m b ≠ t.sink.out) := by
  refine ⟨demo [.format .gzip, .clevel 0], mem0, [.setHeader {} 0, .write 0, .close],
    [.setHeader {} 0, .pokeRecs 0 [⟨1, 2, [4, 5]⟩], .write 0, .close], demo_ok (by decide), demo_sink _, rfl, ?_⟩
  obtain ⟨rs, t, h1, h2⟩ := (demo_ok (opts := [.format .gzip, .clevel 0]) (by decide)).run_close_ok (ops := [.setHeader { extra := [⟨1, 2, [3]⟩] }, .write [7]]) (Or.inl rfl) (demo_sink _) (by simp)
  have e : t.sink.out = [31, 139, 8, 6, 0, 0, 0, 0, 4, 3, 5, 0, 1, 2, 1, 0, 3, 147, 185, 0, 1, 0, 254, 255, 7, 1, 0, 0, 255, 255, 46, 122, 102, 76, 1, 0, 0, 0] := by
    have : (match runOps refLib ([.setHeader { extra := [⟨1, 2, [3]⟩] }, .write [7]] ++ [.close]) (demo [.format .gzip, .clevel 0]).start with
        | .ok (_, t) => t.sink.out
        | .error _ => []) = [31, 139, 8, 6, 0, 0, 0, 0, 4, 3, 5, 0, 1, 2, 1, 0, 3, 147, 185, 0, 1, 0, 254, 255, 7, 1, 0, 0, 255, 255, 46, 122, 102, 76, 1, 0, 0, 0] := by decide +kernel
    rw [show runOps refLib ([.setHeader { extra := [⟨1, 2, [3]⟩] }, .write [7]] ++ [.close]) (demo [.format .gzip, .clevel 0]).start = .ok (rs, t) from h1] at this
    exact this
  refine ⟨rs, t, h1, h2, ?_, ?_⟩
  · rw [e]; decide +kernel
  · rw [e]; decide +kernel

/-- a history `C65_partial` speaks of: data, and records not in use, are overwritten -/
example : Untouched mem0 none ([ACall.setHeader {} 0, .write 0, .pokeData 0 [8], .pokeRecs 1 [], .write 0] ++ [.close]) ∧
    snapshot mem0 ([ACall.setHeader {} 0, .write 0, .pokeData 0 [8], .pokeRecs 1 [], .write 0] ++ [.close]) =
      [.setHeader { extra := [⟨1, 2, [3]⟩] }, .write [7], .write [8], .close] := by
  refine ⟨⟨by simp, by simp, by simp, ?_, by simp, by simp, trivial⟩, rfl⟩
  intro x r e
  cases e
  simp only [ACall.keeps]
  split <;> simp

end Flate.Props
