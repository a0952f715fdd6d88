/-
Dividing the data among `Write` calls: sequences of calls.
-/
import Verif.Proof.WDiv

namespace Flate.Proof.Div
open Flate.Spec Flate.Model Flate.Proof.Sim

/-! ### calls -/

/-- more fuel does not matter -/
theorem loop_fuel {L : HuffLib} : ∀ {n : Nat} {p : List UInt8} {s : WState}, writeLoop L n p s ≠ .error .fuel → writeLoop L (n + 1) p s = writeLoop L n p s
  | 0, _, _, h => absurd rfl h
  | n + 1, p, s, h => by
    conv_lhs => unfold writeLoop
    conv_rhs => unfold writeLoop
    unfold writeLoop at h
    by_cases hp : p = []
    · rw [if_pos hp, if_pos hp]
    · rw [if_neg hp] at h
      rw [if_neg hp, if_neg hp]
      simp only at h ⊢
      cases e : compressImpl L ((s.lz.write p).1 == 0 || decide ((s.lz.write p).1 < p.length)) { s with lz := (s.lz.write p).2 } with
      | error x => rfl
      | ok r =>
        obtain ⟨_ | _, u⟩ := r
        · rfl
        · rw [e] at h
          exact loop_fuel h

theorem loop_more {L : HuffLib} {n : Nat} {p : List UInt8} {s : WState} (h : writeLoop L n p s ≠ .error .fuel) : ∀ k, writeLoop L (n + k) p s = writeLoop L n p s
  | 0 => rfl
  | k + 1 => by
    have ih := loop_more h k
    rw [← ih, ← Nat.add_assoc]
    exact loop_fuel (by rw [ih]; exact h)

theorem loop_same {L : HuffLib} {n m : Nat} {p : List UInt8} {s : WState} (hn : writeLoop L n p s ≠ .error .fuel) (hm : writeLoop L m p s ≠ .error .fuel) :
    writeLoop L n p s = writeLoop L m p s := by
  rw [← loop_more hn m, ← loop_more hm n, Nat.add_comm]

/-- what holds before each call -/
structure Inv (L : HuffLib) (E : BlockRel) (base : List UInt8) (n0 : Nat) (s : WState) (a : Abs) : Prop where
  live : Live E base n0 s a
  blocks : BlockOK L s.o s.lz.maxDist True E
  tight : Tight s
  known : Known s
  cap : 2 ≤ s.outBits

variable {L : HuffLib} {E : BlockRel} {base : List UInt8} {s t : WState} {a : Abs}

theorem Inv.ready (h : Inv L E base n0 s a) : Ready s := by
  obtain ⟨_, _, hb⟩ := h.live.body
  cases hc : a.cur with
  | none =>
    rw [hc] at hb
    rcases hb.2.2.2 with ⟨h1, _⟩ | ⟨h1, _⟩
    · exact Or.inl h1
    · exact Or.inr (Or.inr h1)
  | some x => rw [hc] at hb; exact Or.inr (Or.inl hb.2.1)

theorem Inv.start (h : Inv L E base n0 s a) : Start s :=
  ⟨h.ready, lt_of_lt_of_le h.live.cap (room_le s), h.tight, h.known, h.cap, h.live.inv.out⟩

/-- the headers given by the caller say what kind of data there is, if that matters -/
def Says (f : Format) (op : WOp) : Prop := ∀ h, op = .setHeader h → f = .gzip → h.dataType ≠ .unknown

theorem known_finish {c : AbsCfg} {a : Abs} (h : a.hdr.dataType ≠ .unknown) : (a.finish c).hdr.dataType ≠ .unknown := by
  unfold Abs.finish
  cases a.cur with
  | some x => exact h
  | none =>
    simp only
    split
    · show (if a.hdr.dataType = .unknown then _ else a.hdr.dataType) ≠ _
      rw [if_neg h]; exact h
    · exact h

theorem known_step {c : AbsCfg} {a : Abs} {op : WOp} (h : a.hdr.dataType ≠ .unknown) (ho : ∀ h, op = .setHeader h → h.dataType ≠ .unknown) :
    (a.step c op).hdr.dataType ≠ .unknown := by
  cases op with
  | write p =>
    simp only [Abs.step]
    split
    · exact h
    · cases a.cur with
      | some x => exact h
      | none =>
        show (if a.hdr.dataType = .unknown then _ else a.hdr.dataType) ≠ _
        rw [if_neg h]; exact h
  | flush ft => cases ft <;> first | exact h | exact known_finish h
  | setHeader x =>
    simp only [Abs.step]
    split
    · exact ho x rfl
    · exact h
  | close => exact known_finish h

theorem Inv.step (hL : L.Lawful) (h : Inv L E base n0 s a) {op : WOp} (hc : op ≠ .close) (hs : Says s.o.format op) {r : WRes} (e : stepOp L op s = .ok (r, t)) (hr : r.err = none) :
    Inv L E base n0 t (a.step (cfgOf s) op) ∧ t.o = s.o := by
  obtain ⟨es, k, hh, hl, _⟩ := run_good hL [op] h.live h.blocks (fun _ _ _ => trivial) (by simpa using fun x => hc x.symm) (run_cons e rfl) (by simpa using hr)
  refine ⟨⟨hl, h.blocks.hist hh, ?_, ?_, ?_⟩, hh.o⟩
  · unfold Tight LZ.cap; rw [hh.lzopts, hh.o]; exact h.tight
  · intro hf
    rw [hh.o] at hf
    rw [hl.hdr]
    refine known_step ?_ (fun x hx => hs x hx hf)
    rw [← h.live.hdr]; exact h.known hf
  · rw [hh.outBits]; exact h.cap

theorem Inv.open (h : Inv L E base n0 s a) : s.state ≠ .closed ∧ s.state ≠ .error := by
  rcases h.ready with h | h | h <;> rw [h] <;> exact ⟨by simp, by simp⟩

/-- A call of `Write` which does not fail. -/
theorem write_eq' {p : List UInt8} (h1 : s.state ≠ .closed ∧ s.state ≠ .error) : stepOp L (.write p) s = match writeLoop L (2 * p.length + 2) p s with
      | .error e => .error e
      | .ok (none, s) => .ok (.write p.length none, s)
      | .ok (some e, s) => .ok (.write 0 e, s) := by
  simp only [stepOp, wWrite]
  rw [if_neg h1.1, if_neg h1.2]
  cases writeLoop L (2 * p.length + 2) p s with
  | error e => rfl
  | ok r => obtain ⟨_ | _, u⟩ := r <;> rfl

theorem write_runs {p : List UInt8} (h1 : s.state ≠ .closed ∧ s.state ≠ .error) (hc : 2 ≤ s.outBits) (ho : s.output = []) {n : Nat}
    (e : stepOp L (.write p) s = .ok (.write n none, t)) : Runs L p s t := by
  have hR := R.refl hc ho
  rw [write_eq' h1] at e
  cases e1 : writeLoop L (2 * p.length + 2) p s with
  | error x => rw [e1] at e; cases e
  | ok r =>
    obtain ⟨x, u⟩ := r
    rw [e1] at e
    cases x with
    | none => cases e; exact ⟨_, e1⟩
    | some x =>
      have h3 := (good_writeLoop (M := true) L (2 * p.length + 2) p).sim _ _ hR
      rw [e1] at h3
      have h4 := writeLoop_err e1
      rcases h3 with ⟨_, _, _, _, hb⟩ | ⟨hM, _⟩
      · obtain ⟨_, y, hy⟩ := hb (by simp)
        rw [hy] at h4
        subst h4
        cases e
      · cases hM

theorem Inv.write (hL : L.Lawful) (h : Inv L E base n0 s a) (p : List UInt8) : (∃ n, stepOp L (.write p) s = .ok (.write n none, t)) ↔ Runs L p s t := by
  constructor
  · rintro ⟨n, e⟩
    exact write_runs h.open h.cap h.live.inv.out e
  · rintro ⟨n, e⟩
    have hst := write_eq' (L := L) (p := p) h.open
    have hn : writeLoop L (2 * p.length + 2) p s ≠ .error .fuel := by
      intro hf
      rw [hf] at hst
      rcases stepOp_live hL h.live h.blocks (.write p) (fun _ => trivial) with ⟨e', _⟩ | ⟨r, u, _, _, e', _⟩
      · rw [e'] at hst; cases hst
      · rw [e'] at hst; cases hst
    rw [hst, loop_same hn (m := n) (by rw [e]; intro h; cases h), e]
    exact ⟨_, rfl⟩

/-! ### sequences of calls -/

/-- If the calls `ops` do not fail, neither do the calls `ops'`, and they produce the same. -/
def Yields (L : HuffLib) (s : WState) (ops ops' : List WOp) : Prop := ∀ rs t, runOps L ops s = .ok (rs, t) → (∀ r ∈ rs, r.err = none) →
  ∃ rs' t', runOps L ops' s = .ok (rs', t') ∧ (∀ r ∈ rs', r.err = none) ∧ t'.sink.out = t.sink.out

theorem Yields.refl {ops : List WOp} : Yields L s ops ops := fun rs t e h => ⟨rs, t, e, h, rfl⟩

theorem Yields.trans {o1 o2 o3 : List WOp} (h1 : Yields L s o1 o2) (h2 : Yields L s o2 o3) : Yields L s o1 o3 := by
  intro rs t e h
  obtain ⟨rs1, t1, e1, h1, q1⟩ := h1 rs t e h
  obtain ⟨rs2, t2, e2, h2, q2⟩ := h2 rs1 t1 e1 h1
  exact ⟨rs2, t2, e2, h2, q2.trans q1⟩

theorem Yields.cons {op : WOp} {o1 o2 : List WOp} (h : ∀ r u, stepOp L op s = .ok (r, u) → r.err = none → Yields L u o1 o2) : Yields L s (op :: o1) (op :: o2) := by
  intro rs t e hr
  obtain ⟨r, u, rs', e1, e2, rfl⟩ := run_cons_inv e
  obtain ⟨rs2, t2, e3, h2, q2⟩ := h r u e1 (hr r (by simp)) rs' t e2 (fun x hx => hr x (by simp [hx]))
  refine ⟨r :: rs2, t2, run_cons e1 e3, ?_, q2⟩
  intro x hx
  rcases List.mem_cons.1 hx with rfl | hx
  · exact hr x (by simp)
  · exact h2 x hx

/-- from agreeing states -/
theorem same_yields {u u' : WState} (h : R true nil3 u u') {ops : List WOp} {rs : List WRes} (e : runOps L ops u = .ok (rs, t)) :
    ∃ t', runOps L ops u' = .ok (rs, t') ∧ t'.sink.out = t.sink.out := by
  have := Sim.Same.run (L := L) (ops := ops) (Or.inl h : Sim.Same true u u')
  rw [e] at this
  obtain ⟨t', e', hs⟩ := this
  refine ⟨t', e', ?_⟩
  rcases hs with h | ⟨h, _⟩ <;> exact h.out

theorem write_ok_inv {p : List UInt8} {r : WRes} (e : stepOp L (.write p) s = .ok (r, t)) (hr : r.err = none) : ∃ n, r = .write n none := by
  simp only [stepOp] at e
  cases e1 : wWrite L p s with
  | error x => rw [e1] at e; cases e
  | ok y => obtain ⟨⟨n, x⟩, u⟩ := y; rw [e1] at e; cases e; exact ⟨n, by rw [show x = none from hr]⟩

theorem split_yields (hL : L.Lawful) (h : Inv L E base n0 s a) (b : UInt8) (p : List UInt8) (rest : List WOp) :
    Yields L s (.write (b :: p) :: rest) (.write [b] :: .write p :: rest) := by
  intro rs t e hr
  obtain ⟨r, u, rs', e1, e2, rfl⟩ := run_cons_inv e
  obtain ⟨n, rfl⟩ := write_ok_inv e1 (hr r (by simp))
  obtain ⟨v, u', h1, h2, hR⟩ := runs_split h.start ((h.write hL _).1 ⟨n, e1⟩)
  obtain ⟨n1, f1⟩ := (h.write hL [b]).2 h1
  obtain ⟨h', _⟩ := h.step hL (by simp) (fun _ x => by cases x) f1 rfl
  obtain ⟨n2, f2⟩ := (h'.write hL p).2 h2
  obtain ⟨t', f3, q⟩ := same_yields hR e2
  refine ⟨_, t', run_cons f1 (run_cons f2 f3), ?_, q⟩
  intro x hx
  rcases List.mem_cons.1 hx with rfl | hx
  · rfl
  · rcases List.mem_cons.1 hx with rfl | hx
    · rfl
    · exact hr x (by simp [hx])

theorem join_yields (hL : L.Lawful) (h : Inv L E base n0 s a) (b : UInt8) (p : List UInt8) (rest : List WOp) :
    Yields L s (.write [b] :: .write p :: rest) (.write (b :: p) :: rest) := by
  intro rs t e hr
  obtain ⟨r, u, rs', e1, e2, rfl⟩ := run_cons_inv e
  obtain ⟨r2, v, rs2, e3, e4, rfl⟩ := run_cons_inv e2
  obtain ⟨n, rfl⟩ := write_ok_inv e1 (hr r (by simp))
  obtain ⟨n2, rfl⟩ := write_ok_inv e3 (hr r2 (by simp))
  obtain ⟨h', _⟩ := h.step hL (by simp) (fun _ x => by cases x) e1 rfl
  obtain ⟨w, h1, hR⟩ := runs_join h.start ((h.write hL _).1 ⟨n, e1⟩) ((h'.write hL _).1 ⟨n2, e3⟩)
  obtain ⟨n3, f1⟩ := (h.write hL _).2 h1
  obtain ⟨t', f3, q⟩ := same_yields hR e4
  refine ⟨_, t', run_cons f1 f3, ?_, q⟩
  intro x hx
  rcases List.mem_cons.1 hx with rfl | hx
  · rfl
  · exact hr x (by simp [hx])

theorem empty_ok (h : Inv L E base n0 s a) : stepOp L (.write []) s = .ok (.write 0 none, s) := by
  obtain ⟨h1, h2⟩ := h.open
  simp only [stepOp, wWrite]
  rw [if_neg h1, if_neg h2]
  rfl

theorem drop_yields (h : Inv L E base n0 s a) (rest : List WOp) : Yields L s (.write [] :: rest) rest := by
  intro rs t e hr
  obtain ⟨r, u, rs', e1, e2, rfl⟩ := run_cons_inv e
  rw [empty_ok h] at e1
  cases e1
  exact ⟨rs', t, e2, fun x hx => hr x (by simp [hx]), rfl⟩

theorem add_yields (h : Inv L E base n0 s a) (rest : List WOp) : Yields L s rest (.write [] :: rest) := by
  intro rs t e hr
  refine ⟨_, t, run_cons (empty_ok h) e, ?_, rfl⟩
  intro x hx
  rcases List.mem_cons.1 hx with rfl | hx
  · rfl
  · exact hr x hx

/-- the data byte by byte -/
def single (p : List UInt8) : List WOp := p.map fun b => .write [b]

theorem apart_yields (hL : L.Lawful) : ∀ {p : List UInt8} {rest rest' : List WOp} {s : WState} {a : Abs}, Inv L E base n0 s a →
    (∀ t a', Inv L E base n0 t a' → t.o = s.o → Yields L t rest rest') → Yields L s (.write p :: rest) (single p ++ rest')
  | [], rest, rest', s, a, h, hy => (drop_yields h rest).trans (hy s a h rfl)
  | b :: p, rest, rest', s, a, h, hy => by
    refine (split_yields hL h b p rest).trans ?_
    show Yields L s (.write [b] :: .write p :: rest) (.write [b] :: (single p ++ rest'))
    refine Yields.cons fun r u e hr => ?_
    obtain ⟨h', ho⟩ := h.step hL (by simp) (fun _ x => by cases x) e hr
    exact apart_yields hL h' fun t a' ht hto => hy t a' ht (hto.trans ho)

theorem together_yields (hL : L.Lawful) : ∀ {p : List UInt8} {rest rest' : List WOp} {s : WState} {a : Abs}, Inv L E base n0 s a →
    (∀ t a', Inv L E base n0 t a' → t.o = s.o → Yields L t rest' rest) → Yields L s (single p ++ rest') (.write p :: rest)
  | [], rest, rest', s, a, h, hy => (hy s a h rfl).trans (add_yields h rest)
  | b :: p, rest, rest', s, a, h, hy => by
    refine Yields.trans ?_ (join_yields hL h b p rest)
    show Yields L s (.write [b] :: (single p ++ rest')) (.write [b] :: .write p :: rest)
    refine Yields.cons fun r u e hr => ?_
    obtain ⟨h', ho⟩ := h.step hL (by simp) (fun _ x => by cases x) e hr
    exact together_yields hL h' fun t a' ht hto => hy t a' ht (hto.trans ho)

end Flate.Proof.Div
