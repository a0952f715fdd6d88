/-
How much data a Reader makes of its input: every bit of input yields at most 129 bytes.
-/
import Verif.Proof.RTrack

namespace Flate.Proof.R
open Flate.Spec Flate.Model Flate.Model.Rd

/-- data made so far: delivered, or waiting in the decoder's buffer -/
def made (o : Out) : Nat := (actData o.acts).length + o.decodeBuffer.length

/-- at most `n` bytes were made beyond 129 for every bit read -/
def RtN (n : Nat) (s s' : RState) : Prop := made s'.out + 129 * s'.inp.bits ≤ made s.out + 129 * s.inp.bits + n

/-- at most 129 bytes were made for every bit read -/
def Rt (s s' : RState) : Prop := made s'.out + 129 * s'.inp.bits ≤ made s.out + 129 * s.inp.bits

theorem made_close (e : Err) (o : Out) : made (closeOut e o) = made o := by
  unfold made
  rw [actData_closeOut]
  unfold closeOut
  split <;> rfl

theorem made_flush (E : Env) (o : Out) : made (mustFlush E o) ≤ made o := by
  have h := mustFlush_buf E o
  unfold made
  rw [h]
  unfold mustFlush
  split
  · simp
  · simp only []
    split
    · simp
    · split
      · split
        · simp [countOut, actData_append, actData]; omega
        · simp [countOut, actData_append, actData]
      · simp [countOut, actData_append, actData]

theorem made_try (E : Env) (o : Out) : made (tryFlush E o) ≤ made o := by
  unfold tryFlush
  split
  · exact made_flush E o
  · exact Nat.le_refl _

/-- a relation not disturbed by reading, errors, headers and events -/
structure EFlow (R : RState → RState → Prop) : Prop extends Flow R where
  event : ∀ s k, R s (sent k s)

theorem rt_flow : EFlow Rt where
  refl _ := Nat.le_refl _
  trans _ _ _ h h' := Nat.le_trans h' h
  inp s i h := by have := h.2; unfold Rt; simp only []; omega
  close s e _ := by unfold Rt; simp only []; rw [made_close]
  hdr _ _ _ := Nat.le_refl _
  event _ _ := Nat.le_refl _

theorem rt_propagate (t : Bool) : Keeps Rt (propagateError t) := keeps_propagate rt_flow.toPre (fun s e => by unfold Rt; simp only []; rw [made_close]) t

theorem EFlow.send {R : RState → RState → Prop} (h : EFlow R) (k : EvKind) : Keeps R (sendEvent k) := by
  intro s a s' e; cases e; exact h.event s k

theorem EFlow.trees {R : RState → RState → Prop} (h : EFlow R) (E : Env) (f : Bool) : Keeps R (readDynamicTrees E f) := by
  unfold readDynamicTrees
  refine h.needBits E _ _ fun v => Keeps.bind h.toPre (h.counts _ _) fun _ => Keeps.bind h.toPre (h.readCL E _ _) fun r => ?_
  cases r with
  | none => exact Keeps.pure h.toPre _
  | some sX =>
    refine Keeps.ite (fun _ => h.corrupt_none _ _) fun _ => Keeps.bind h.toPre (fun s a s' e => h.lensLoop E _ _ _ _ s a s' e) fun r => ?_
    cases r with
    | none => exact Keeps.pure h.toPre _
    | some lens =>
      refine Keeps.ite (fun _ => h.corrupt_none _ _) fun _ => Keeps.ite (fun _ => h.corrupt_none _ _) fun _ => ?_
      exact Keeps.bind h.toPre (h.send _) fun _ => Keeps.pure h.toPre _

theorem EFlow.footer {R : RState → RState → Prop} (h : EFlow R) : Keeps R readFooter := by
  unfold readFooter
  refine Keeps.bind h.toPre (h.onInp fun _ i a i' e => by cases e; exact steady_discard i) fun _ => ?_
  intro s a s' e
  have e' : Go.chk (readFooterOf s.actualFormat s.out.adler s.out.crc) (do sendEvent .streamClose; pure true) (sent (.streamEnd s.out.adler s.out.crc) s) = .ok (a, s') := e
  refine h.trans _ _ _ (h.event s _) (Keeps.chk h.toPre (h.footerOf _ _ _) ?_ _ _ _ e')
  exact Keeps.bind h.toPre (h.send _) fun _ => Keeps.pure h.toPre _

/-! ### making data -/

theorem made_writeLoop (E : Env) : ∀ fuel p (o o' : Out), dbWriteLoop E fuel p o = .ok o' → made o' ≤ made o + p.length
  | 0, _, _, _, e => by cases e
  | fuel + 1, p, o, o', e => by
    unfold dbWriteLoop at e
    split at e
    · simp only [] at e
      have h1 := made_try E o
      have h2 := made_writeLoop E fuel _ _ _ e
      simp only [made, List.length_append, List.length_take, List.length_drop] at h1 h2 ⊢
      omega
    · cases e; omega

theorem rt_write (E : Env) (p : List UInt8) : Keeps (RtN p.length) (dbWrite E p) := by
  intro s a s' e
  unfold dbWrite at e
  rcases hx : dbWriteLoop E (p.length + 1) p s.out with x | o
  · rw [hx] at e; cases e
  · rw [hx] at e; cases e
    have := made_writeLoop E _ _ _ _ hx
    unfold RtN; simp only []; omega

theorem rt_writeByte (E : Env) (ch : UInt8) : Keeps (RtN 1) (dbWriteByte E ch) := by
  intro s a s' e
  have h1 := made_try E s.out
  unfold dbWriteByte onOut at e
  simp only [] at e
  split at e
  · cases e
    unfold RtN
    simp only [made, List.length_append, List.length_singleton] at h1 ⊢
    omega
  · cases e
    unfold RtN; simp only []; omega

theorem RtN.trans {m n : Nat} {s s' s'' : RState} (h : RtN m s s') (h' : RtN n s' s'') : RtN (m + n) s s'' := by unfold RtN at *; omega

theorem Rt.to {s s' : RState} (h : Rt s s') (n : Nat) : RtN n s s' := by unfold RtN; unfold Rt at h; omega

theorem rt_copyLoop (E : Env) (d : Nat) : ∀ n, Keeps (RtN n) (Rd.copyLoop E d n)
  | 0 => fun s a s' e => ((Keeps.pure rt_flow.toPre true) s a s' e).to 0
  | n + 1 => by
    intro s a s' e
    unfold Rd.copyLoop at e
    split at e
    · exact (rt_flow.fail _ _ _ _ e).to _
    · obtain ⟨_, s1, e1, e2⟩ := Go.bind_eq_ok.1 e
      have := (rt_writeByte E _ _ _ _ e1).trans (rt_copyLoop E d n _ _ _ e2)
      unfold RtN at *; omega

theorem rt_copyMatch (E : Env) (d len : Nat) : Keeps (RtN len) (Rd.copyMatch E d len) := by
  intro s a s' e
  unfold Rd.copyMatch at e
  split at e
  · exact (rt_flow.fail _ _ _ _ e).to _
  · rename_i p hp
    have hl : p.length ≤ len := by
      unfold lookupSlice at hp
      split at hp
      · cases hp; simp; omega
      · cases hp
    obtain ⟨_, s1, e1, e2⟩ := Go.bind_eq_ok.1 e
    obtain ⟨_, s2, e3, e4⟩ := Go.bind_eq_ok.1 e2
    have h1 : made s1.out = made s.out ∧ s1.inp = s.inp := by cases e1; exact ⟨rfl, rfl⟩
    have h2 := rt_write E p _ _ _ e3
    have h3 := rt_copyLoop E d _ _ _ _ e4
    unfold RtN at *
    rw [h1.1, h1.2] at h2
    omega

/-! ### Huffman-coded blocks -/

theorem rt_symbol {E : Env} (hL : E.L.Lawful) (hW : 32 ≤ E.W) {lens : List Nat} (ha : E.L.accepts lens = true) {s s' : RState} {sym : Nat}
    (e : Rd.readSymbol E lens s = .ok (some sym, s')) : made s'.out + 129 * s'.inp.bits + 129 ≤ made s.out + 129 * s.inp.bits := by
  unfold Rd.readSymbol Rd.onInp readSymbolInp at e
  obtain ⟨r, i', e1, _, h⟩ := symbolLoop_A hL ha (W := E.W) s.out.stopIsForced hW (E.L.maxSize lens + 2) (E.L.minSize lens) s.inp (by omega) (by omega)
  simp only [] at e
  rw [e1] at e
  cases e
  have := (h sym rfl).1
  simp only []
  omega

theorem decodeD_len {E : Env} {sym len : Nat} {t : Token} {s s' : RState} (e : Rd.decodeD E sym len s = .ok (some t, s')) : t.ll ≤ 258 := by
  have hm : ∀ (d : Nat) (s s' : RState), (do let t ← Go.lift (makeCopyToken len d); pure (some t) : Go RState (Option Token)) s = .ok (some t, s') → t.ll ≤ 258 := by
    intro d s s' e
    obtain ⟨t', s1, e1, e2⟩ := Go.bind_eq_ok.1 e
    cases e2
    unfold makeCopyToken passert at e1
    by_cases h1 : len ≥ 3 <;> by_cases h2 : len ≤ 258 <;> by_cases h3 : d ≥ 1 <;> by_cases h4 : d ≤ 32768 <;>
      simp [h1, h2, h3, h4, Go.lift, bind, Except.bind, pure, Except.pure] at e1
    rw [← e1.1]; exact h2
  unfold Rd.decodeD at e
  rcases hd : distSym sym with _ | ⟨base, n⟩
  · rw [hd] at e
    obtain ⟨_, s1, e1, e2⟩ := Go.bind_eq_ok.1 e
    cases e2
  · rw [hd] at e
    simp only [] at e
    unfold Rd.addBits at e
    split at e
    · unfold Rd.needBits at e
      obtain ⟨ok, s1, e1, e2⟩ := Go.bind_eq_ok.1 e
      cases ok
      · simp only [Bool.not_false, if_true] at e2
        obtain ⟨_, s2, e3, e4⟩ := Go.bind_eq_ok.1 e2
        cases e4
      · simp only [Bool.not_true, Bool.false_eq_true, if_false] at e2
        obtain ⟨v, s2, e3, e4⟩ := Go.bind_eq_ok.1 e2
        exact hm _ _ _ e4
    · exact hm _ _ _ e

theorem rt_huffLoop {E : Env} (hL : E.L.Lawful) (hW : 32 ≤ E.W) {ll d : List Nat} (h1 : E.L.accepts ll = true) (h2 : E.L.accepts d = true) :
    ∀ fuel, Keeps Rt (Rd.huffLoop E ll d fuel)
  | 0 => Keeps.panic _
  | fuel + 1 => by
    have ih := rt_huffLoop hL hW h1 h2 fuel
    intro s a s' e
    unfold Rd.huffLoop at e
    obtain ⟨r, s1, e1, e2⟩ := Go.bind_eq_ok.1 e
    cases r with
    | none => exact rt_flow.trans _ _ _ (rt_flow.readSymbol E ll _ _ _ e1) (rt_flow.fail _ _ _ _ e2)
    | some sym =>
      have k1 := rt_symbol hL hW h1 e1
      obtain ⟨t, s2, e3, e4⟩ := Go.bind_eq_ok.1 e2
      have k2 := rt_flow.decodeLL E sym _ _ _ e3
      unfold Rt at k2 ⊢
      cases t with
      | none => cases e4; omega
      | some t =>
        simp only [] at e4
        split at e4
        · split at e4
          · cases e4; omega
          · obtain ⟨_, s3, e5, e6⟩ := Go.bind_eq_ok.1 e4
            have k3 := rt_writeByte E _ _ _ _ e5
            have k4 := ih _ _ _ e6
            unfold RtN at k3; unfold Rt at k4
            omega
        · obtain ⟨r, s3, e5, e6⟩ := Go.bind_eq_ok.1 e4
          cases r with
          | none =>
            have := rt_flow.trans _ _ _ (rt_flow.readSymbol E d _ _ _ e5) (rt_flow.fail _ _ _ _ e6)
            unfold Rt at this
            omega
          | some sym' =>
            have k3 := rt_symbol hL hW h2 e5
            obtain ⟨t', s4, e7, e8⟩ := Go.bind_eq_ok.1 e6
            have k4 := rt_flow.decodeD E sym' _ _ _ _ e7
            unfold Rt at k4
            cases t' with
            | none => cases e8; omega
            | some t' =>
              have k5 := decodeD_len e7
              simp only [] at e8
              unfold Go.chk at e8
              rcases hx : Rd.copyMatch E t'.dist t'.ll s4 with p | ⟨b, s5⟩
              · rw [hx] at e8; cases e8
              · rw [hx] at e8
                have k6 := rt_copyMatch E _ _ _ _ _ hx
                unfold RtN at k6
                cases b
                · cases e8; omega
                · have k7 := ih _ _ _ e8
                  unfold Rt at k7
                  omega

/-! ### stored blocks -/

/-- like `Keeps`, with a step which consumed a known number of bits -/
theorem rt_needBytes {α : Type} {fl : α} {n : Nat} {k : List UInt8 → Go RState α} {s s' : RState} {a : α} (e : Rd.needBytes fl n k s = .ok (a, s')) :
    Rt s s' ∨ ∃ p s1, p.length = n ∧ made s1.out + 129 * s1.inp.bits + 8 * 129 * n ≤ made s.out + 129 * s.inp.bits ∧ k p s1 = .ok (a, s') := by
  unfold Rd.needBytes at e
  obtain ⟨⟨p, ok⟩, s1, e1, e2⟩ := Go.bind_eq_ok.1 e
  obtain ⟨q, ok', i', h1, _, h3, h4, h5⟩ := bufRead_A s.out.stopIsForced n s.inp
  unfold Rd.onInp at e1
  simp only [] at e1
  rw [h1] at e1
  cases e1
  have hb : (s.inp.size = p.length + i'.size) := by
    have := congrArg List.length h4
    simp only [allB, List.length_append] at this
    unfold Inp.size; omega
  cases ok
  · left
    simp only [Bool.not_false, if_true] at e2
    refine rt_flow.trans _ { s with inp := i' } _ ?_ (rt_flow.exhausted fl _ _ _ e2)
    unfold Rt Inp.bits; simp only []; omega
  · right
    simp only [Bool.not_true, Bool.false_eq_true, if_false] at e2
    refine ⟨p, _, h3 rfl, ?_, e2⟩
    have := h3 rfl
    unfold Inp.bits; simp only []; omega

theorem rt_stored (E : Env) : Keeps Rt (readStored E) := by
  intro s a s' e
  unfold readStored at e
  rcases rt_needBytes e with h | ⟨p, s1, _, h1, e1⟩
  · exact h
  rcases rt_needBytes e1 with h | ⟨q, s2, _, h2, e2⟩
  · unfold Rt at *; omega
  split at e2
  · have := rt_flow.fail _ _ _ _ e2
    unfold Rt at *; omega
  rcases rt_needBytes e2 with h | ⟨d, s3, hd, h3, e3⟩
  · unfold Rt at *; omega
  obtain ⟨_, s4, e4, e5⟩ := Go.bind_eq_ok.1 e3
  cases e5
  have := rt_write E d _ _ _ e4
  unfold RtN at this; unfold Rt; omega

/-! ### blocks, streams, the goroutine -/

theorem needBits_some {E : Env} {α : Type} {n : Nat} {k : Nat → Go RState (Option α)} {s s' : RState} {a : α} (e : Rd.needBits E none n k s = .ok (some a, s')) :
    ∃ v s1, k v s1 = .ok (some a, s') := by
  unfold Rd.needBits at e
  obtain ⟨ok, s1, e1, e2⟩ := Go.bind_eq_ok.1 e
  cases ok
  · simp only [Bool.not_false, if_true] at e2
    obtain ⟨_, s2, e3, e4⟩ := Go.bind_eq_ok.1 e2
    cases e4
  · simp only [Bool.not_true, Bool.false_eq_true, if_false] at e2
    obtain ⟨v, s2, e3, e4⟩ := Go.bind_eq_ok.1 e2
    exact ⟨v, s2, e4⟩

theorem corrupt_some {α : Type} {m : Spec.Problem} {s s' : RState} {a : α} (e : (do Rd.corruptf m; pure none : Go RState (Option α)) s = .ok (some a, s')) : False := by
  obtain ⟨_, s1, e1, e2⟩ := Go.bind_eq_ok.1 e
  cases e2

theorem trees_accepted {E : Env} {f : Bool} {s s' : RState} {ll d : List Nat} (e : readDynamicTrees E f s = .ok (some (ll, d), s')) :
    E.L.accepts ll = true ∧ E.L.accepts d = true := by
  unfold readDynamicTrees at e
  obtain ⟨v, s1, e1⟩ := needBits_some e
  obtain ⟨_, s2, e2, e3⟩ := Go.bind_eq_ok.1 e1
  obtain ⟨r, s3, e4, e5⟩ := Go.bind_eq_ok.1 e3
  cases r with
  | none => cases e5
  | some sX =>
    simp only [] at e5
    split at e5
    · exact (corrupt_some e5).elim
    · obtain ⟨r, s4, e6, e7⟩ := Go.bind_eq_ok.1 e5
      cases r with
      | none => cases e7
      | some lens =>
        simp only [] at e7
        split at e7
        · exact (corrupt_some e7).elim
        · split at e7
          · exact (corrupt_some e7).elim
          · rename_i h1 h2
            obtain ⟨_, s5, e8, e9⟩ := Go.bind_eq_ok.1 e7
            cases e9
            exact ⟨by simpa using h1, by simpa using h2⟩

section
variable {E : Env} (hL : E.L.Lawful) (hW : 32 ≤ E.W)
include hL hW

theorem rt_static (f : Bool) : Keeps Rt (readStatic E f) :=
  Keeps.bind rt_flow.toPre (rt_flow.send _) fun _ => fun s a s' e => rt_huffLoop hL hW (accepts_fixed hL).1 (accepts_fixed hL).2 _ s a s' e

theorem rt_dynamic (f : Bool) : Keeps Rt (readDynamic E f) := by
  intro s a s' e
  unfold readDynamic at e
  obtain ⟨r, s1, e1, e2⟩ := Go.bind_eq_ok.1 e
  have h1 := rt_flow.trees E f _ _ _ e1
  cases r with
  | none => cases e2; exact h1
  | some p =>
    obtain ⟨ll, d⟩ := p
    obtain ⟨h2, h3⟩ := trees_accepted e1
    exact rt_flow.trans _ _ _ h1 (rt_huffLoop hL hW h2 h3 _ s1 a s' e2)

theorem rt_blockOf (f : Bool) (bt : BlockType) : Keeps Rt (readBlockOf E f bt) := by
  cases bt with
  | stored => exact rt_stored E
  | static => exact rt_static hL hW f
  | dynamic => exact rt_dynamic hL hW f
  | invalid => exact rt_flow.fail _

theorem rt_block : Keeps Rt (readFlateBlock E) := by
  unfold readFlateBlock
  refine rt_flow.needBits E _ _ fun v => Keeps.bind rt_flow.toPre (rt_flow.send _) fun _ => Keeps.bind rt_flow.toPre (rt_blockOf hL hW _ _) fun ok => ?_
  exact Keeps.ite (fun _ => Keeps.bind rt_flow.toPre (rt_flow.send _) fun _ => Keeps.pure rt_flow.toPre _) fun _ => Keeps.pure rt_flow.toPre _

theorem rt_blockLoop : ∀ fuel, Keeps Rt (Rd.blockLoop E fuel)
  | 0 => Keeps.panic _
  | fuel + 1 => by
    unfold Rd.blockLoop
    refine Keeps.bind rt_flow.toPre (rt_block hL hW) fun r => ?_
    rcases r with _ | _ | _
    · exact Keeps.pure rt_flow.toPre _
    · exact rt_blockLoop fuel
    · exact Keeps.pure rt_flow.toPre _

theorem rt_body : Keeps Rt (bodyRest E) := by
  intro s r s' e
  have e' : (do readBlocks E; onOut fun o => ((), mustFlush E o); readFooter : Go RState Bool) { s with out := { s.out with adler := Adler.init, crc := Crc.init } } = .ok (r, s') := e
  show Rt { s with out := { s.out with adler := Adler.init, crc := Crc.init } } s'
  refine Keeps.bind (R := Rt) rt_flow.toPre (x := readBlocks E) (fun s a s' e => rt_blockLoop hL hW _ s a s' e) (fun _ => Keeps.bind rt_flow.toPre ?_ fun _ => rt_flow.footer) _ _ _ e'
  intro s a s' e; cases e
  have := made_flush E s.out
  unfold Rt; simp only []; omega

omit hL hW in
theorem rt_head : Keeps Rt (headRest E) := by
  intro s r s' e
  rw [headRest_eq] at e
  show Rt (begun E s) s'
  refine Keeps.chk (R := Rt) rt_flow.toPre (rt_flow.headerOf E _) ?_ _ _ _ e
  intro s a s' e; cases e; exact rt_flow.event s _

omit hL hW in
theorem rt_filled (s : RState) : Rt s (filled s) := by
  have h : (filled s).inp.bits = s.inp.bits := by
    show (refill s.out.stopIsForced { s.inp with inStream := 0 }).bits = _
    unfold refill
    split
    · obtain ⟨h1, h2⟩ := fill_size s.out.stopIsForced { s.inp with inStream := 0 }
      unfold Inp.bits; rw [h1, h2]; rfl
    · rfl
  unfold Rt; rw [h]; exact Nat.le_refl _

theorem rt_stream : Keeps Rt (readStream E) := by
  intro s r s' e
  rw [readStream_split] at e
  refine rt_flow.trans _ _ _ (rt_filled s) ?_
  split at e
  · exact Keeps.bind rt_flow.toPre (rt_propagate _) (fun _ => Keeps.pure rt_flow.toPre _) _ _ _ e
  · exact Keeps.chk rt_flow.toPre rt_head (rt_body hL hW) _ _ _ e

theorem rt_loop : ∀ fuel, Keeps Rt (streamLoop E fuel)
  | 0 => Keeps.panic _
  | fuel + 1 => by
    intro s r s' e
    unfold streamLoop at e
    split at e
    · rcases hx : readStream E s with p | ⟨b, s1⟩
      · rw [hx] at e; cases e
      · rw [hx] at e
        have h1 := rt_stream hL hW _ _ _ hx
        cases b
        · cases e; exact h1
        · exact rt_flow.trans _ _ _ h1 (rt_loop fuel _ _ _ e)
    · cases e; exact rt_flow.refl _

/-- The whole goroutine, whatever the source, and whether or not it is stopped. -/
theorem rt_thread : Keeps Rt (readThread E) := by
  intro s r s' e
  have hst : readThread E s = ((fun s => streamLoop E (s.inp.size + 2) s : Go RState Unit) >>= fun _ => finishThread) { s with numStreams := 0 } := by
    unfold readThread
    exact Go.bind_ok (Go.modify_apply _ _)
  have e' := hst.symm.trans e
  show Rt { s with numStreams := 0 } s'
  refine Keeps.bind (R := Rt) rt_flow.toPre (x := fun s => streamLoop E (s.inp.size + 2) s) (fun s a s' e => rt_loop hL hW _ s a s' e) (fun _ => Keeps.bind rt_flow.toPre (rt_flow.onInp fun _ i a i' e => ?_) fun _ => rt_propagate _) _ _ _ e'
  cases e; exact steady_of rfl rfl (Nat.le_refl _)

end

end Flate.Proof.R
