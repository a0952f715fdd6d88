/-
How much data a Reader buffers: every piece of data it delivers fits in the decoder's buffer.
-/
import Verif.Proof.RRatio

namespace Flate.Proof.R
open Flate.Spec Flate.Model Flate.Model.Rd

/-- the decoder's buffer is not overfull, nor was it when data were delivered -/
def Fit (E : Env) (o : Out) : Prop := o.decodeBuffer.length ≤ E.cap ∧ ∀ p, Act.data p ∈ o.acts → p.length ≤ E.cap

def Ft (E : Env) (s s' : RState) : Prop := Fit E s.out → Fit E s'.out

theorem fit_close {E : Env} {o : Out} (e : Err) (h : Fit E o) : Fit E (closeOut e o) := by
  unfold closeOut
  split
  · exact h
  · refine ⟨h.1, fun p hp => ?_⟩
    simp only [List.mem_append, List.mem_singleton] at hp
    rcases hp with hp | hp
    · exact h.2 p hp
    · cases hp

theorem fit_flush {E : Env} {o : Out} (h : Fit E o) : Fit E (mustFlush E o) := by
  refine ⟨by rw [mustFlush_buf]; exact Nat.zero_le _, ?_⟩
  obtain ⟨h1, h2⟩ := h
  unfold mustFlush
  split
  · exact h2
  · simp only []
    split
    · exact h2
    · split
      · split
        · intro p hp
          simp only [List.mem_append, List.mem_singleton] at hp
          rcases hp with hp | hp
          · exact h2 p hp
          · cases hp; simp only [List.length_take]; omega
        · intro p hp
          simp only [List.mem_append, List.mem_singleton] at hp
          rcases hp with hp | hp
          · exact h2 p hp
          · cases hp; exact h1
      · intro p hp
        simp only [List.mem_append, List.mem_singleton] at hp
        rcases hp with hp | hp
        · exact h2 p hp
        · cases hp; exact h1

theorem fit_try {E : Env} {o : Out} (h : Fit E o) : Fit E (tryFlush E o) := by
  unfold tryFlush
  split
  · exact fit_flush h
  · exact h

theorem ft_flow (E : Env) : EFlow (Ft E) where
  refl _ := fun h => h
  trans _ _ _ h h' := fun x => h' (h x)
  inp s i h := fun x => x
  close s e _ := fun h => fit_close e h
  hdr _ _ _ := fun x => x
  event _ _ := fun x => x

theorem ft_propagate (E : Env) (t : Bool) : Keeps (Ft E) (propagateError t) := keeps_propagate (ft_flow E).toPre (fun s e h => fit_close e h) t

theorem fit_writeLoop (E : Env) : ∀ fuel p (o o' : Out), dbWriteLoop E fuel p o = .ok o' → Fit E o → Fit E o'
  | 0, _, _, _, e, _ => by cases e
  | fuel + 1, p, o, o', e, h => by
    unfold dbWriteLoop at e
    split at e
    · simp only [] at e
      have h1 := fit_try h
      refine fit_writeLoop E fuel _ _ _ e ⟨?_, h1.2⟩
      have := h1.1
      simp only [List.length_append, List.length_take]
      omega
    · cases e; exact h

theorem ft_write (E : Env) (p : List UInt8) : Keeps (Ft E) (dbWrite E p) := by
  intro s a s' e
  unfold dbWrite at e
  rcases hx : dbWriteLoop E (p.length + 1) p s.out with x | o
  · rw [hx] at e; cases e
  · rw [hx] at e; cases e
    exact fit_writeLoop E _ _ _ _ hx

theorem ft_writeByte (E : Env) (ch : UInt8) : Keeps (Ft E) (dbWriteByte E ch) := by
  intro s a s' e
  unfold dbWriteByte onOut at e
  simp only [] at e
  split at e
  · cases e
    rename_i hl
    intro h
    refine ⟨?_, (fit_try h).2⟩
    simp only [List.length_append, List.length_singleton]
    omega
  · cases e
    exact fun h => fit_try h

section
variable (E : Env)

theorem ft_copyLoop (d : Nat) : ∀ n, Keeps (Ft E) (Rd.copyLoop E d n)
  | 0 => Keeps.pure (ft_flow E).toPre _
  | n + 1 => by
    intro s a s' e
    unfold Rd.copyLoop at e
    split at e
    · exact (ft_flow E).fail _ _ _ _ e
    · exact Keeps.bind (ft_flow E).toPre (ft_writeByte E _) (fun _ => ft_copyLoop d n) _ _ _ e

theorem ft_copyMatch (d len : Nat) : Keeps (Ft E) (Rd.copyMatch E d len) := by
  intro s a s' e
  unfold Rd.copyMatch at e
  split at e
  · exact (ft_flow E).fail _ _ _ _ e
  · refine Keeps.bind (ft_flow E).toPre ?_ (fun _ => Keeps.bind (ft_flow E).toPre (ft_write E _) fun _ => ft_copyLoop E d _) _ _ _ e
    intro s a s' e; cases e; exact fun h => h

theorem ft_huffLoop (ll d : List Nat) : ∀ fuel, Keeps (Ft E) (Rd.huffLoop E ll d fuel)
  | 0 => Keeps.panic _
  | fuel + 1 => by
    have ih := ft_huffLoop ll d fuel
    unfold Rd.huffLoop
    refine Keeps.bind (ft_flow E).toPre ((ft_flow E).readSymbol E ll) fun r => ?_
    cases r with
    | none => exact (ft_flow E).fail _
    | some sym =>
      refine Keeps.bind (ft_flow E).toPre ((ft_flow E).decodeLL E sym) fun t => ?_
      cases t with
      | none => exact Keeps.pure (ft_flow E).toPre _
      | some t =>
        refine Keeps.ite (fun _ => Keeps.ite (fun _ => Keeps.pure (ft_flow E).toPre _) fun _ => Keeps.bind (ft_flow E).toPre (ft_writeByte E _) fun _ => ih) fun _ => ?_
        refine Keeps.bind (ft_flow E).toPre ((ft_flow E).readSymbol E d) fun r => ?_
        cases r with
        | none => exact (ft_flow E).fail _
        | some sym =>
          refine Keeps.bind (ft_flow E).toPre ((ft_flow E).decodeD E sym _) fun t => ?_
          cases t with
          | none => exact Keeps.pure (ft_flow E).toPre _
          | some t => exact Keeps.chk (ft_flow E).toPre (ft_copyMatch E _ _) ih

theorem ft_huffBlock (ll d : List Nat) : Keeps (Ft E) (decodeHuffmanBlock E ll d) := fun s a s' e => ft_huffLoop E ll d _ s a s' e

theorem ft_stored : Keeps (Ft E) (readStored E) :=
  (ft_flow E).needBytes _ _ fun _ => (ft_flow E).needBytes _ _ fun _ => Keeps.ite (fun _ => (ft_flow E).fail _) fun _ => (ft_flow E).needBytes _ _ fun _ =>
    Keeps.bind (ft_flow E).toPre (ft_write E _) fun _ => Keeps.pure (ft_flow E).toPre _


theorem ft_static (f : Bool) : Keeps (Ft E) (readStatic E f) :=
  Keeps.bind (ft_flow E).toPre ((ft_flow E).send _) fun _ => ft_huffBlock E _ _

theorem ft_dynamic (f : Bool) : Keeps (Ft E) (readDynamic E f) := by
  unfold readDynamic
  refine Keeps.bind (ft_flow E).toPre ((ft_flow E).trees E f) fun r => ?_
  cases r with
  | none => exact Keeps.pure (ft_flow E).toPre _
  | some p => exact ft_huffBlock E _ _

theorem ft_blockOf (f : Bool) (bt : BlockType) : Keeps (Ft E) (readBlockOf E f bt) := by
  cases bt with
  | stored => exact ft_stored E
  | static => exact ft_static E f
  | dynamic => exact ft_dynamic E f
  | invalid => exact (ft_flow E).fail _

theorem ft_block : Keeps (Ft E) (readFlateBlock E) := by
  unfold readFlateBlock
  refine (ft_flow E).needBits E _ _ fun v => Keeps.bind (ft_flow E).toPre ((ft_flow E).send _) fun _ => Keeps.bind (ft_flow E).toPre (ft_blockOf E _ _) fun ok => ?_
  exact Keeps.ite (fun _ => Keeps.bind (ft_flow E).toPre ((ft_flow E).send _) fun _ => Keeps.pure (ft_flow E).toPre _) fun _ => Keeps.pure (ft_flow E).toPre _

theorem ft_blockLoop : ∀ fuel, Keeps (Ft E) (Rd.blockLoop E fuel)
  | 0 => Keeps.panic _
  | fuel + 1 => by
    unfold Rd.blockLoop
    refine Keeps.bind (ft_flow E).toPre (ft_block E) fun r => ?_
    rcases r with _ | _ | _
    · exact Keeps.pure (ft_flow E).toPre _
    · exact ft_blockLoop fuel
    · exact Keeps.pure (ft_flow E).toPre _

theorem ft_blocks : Keeps (Ft E) (readBlocks E) := fun s a s' e => ft_blockLoop E _ s a s' e
theorem ft_body : Keeps (Ft E) (bodyRest E) := by
  intro s r s' e
  have e' : (do readBlocks E; onOut fun o => ((), mustFlush E o); readFooter : Go RState Bool) { s with out := { s.out with adler := Adler.init, crc := Crc.init } } = .ok (r, s') := e
  show Ft E { s with out := { s.out with adler := Adler.init, crc := Crc.init } } s'
  refine Keeps.bind (R := Ft E) (ft_flow E).toPre (x := readBlocks E) (fun s a s' e => ft_blockLoop E _ s a s' e) (fun _ => Keeps.bind (ft_flow E).toPre ?_ fun _ => (ft_flow E).footer) _ _ _ e'
  intro s a s' e; cases e
  exact fun h => fit_flush h

theorem ft_head : Keeps (Ft E) (headRest E) := by
  intro s r s' e
  rw [headRest_eq] at e
  show Ft E (begun E s) s'
  refine Keeps.chk (R := Ft E) (ft_flow E).toPre ((ft_flow E).headerOf E _) ?_ _ _ _ e
  intro s a s' e; cases e; exact (ft_flow E).event s _

theorem ft_filled (s : RState) : Ft E s (filled s) := fun h => h

theorem ft_stream : Keeps (Ft E) (readStream E) := by
  intro s r s' e
  rw [readStream_split] at e
  refine (ft_flow E).trans _ _ _ (ft_filled E s) ?_
  split at e
  · exact Keeps.bind (ft_flow E).toPre (ft_propagate E _) (fun _ => Keeps.pure (ft_flow E).toPre _) _ _ _ e
  · exact Keeps.chk (ft_flow E).toPre (ft_head E) (ft_body E) _ _ _ e

theorem ft_loop : ∀ fuel, Keeps (Ft E) (streamLoop E fuel)
  | 0 => Keeps.panic _
  | fuel + 1 => by
    intro s r s' e
    unfold streamLoop at e
    split at e
    · rcases hx : readStream E s with p | ⟨b, s1⟩
      · rw [hx] at e; cases e
      · rw [hx] at e
        have h1 := ft_stream E _ _ _ hx
        cases b
        · cases e; exact h1
        · exact (ft_flow E).trans _ _ _ h1 (ft_loop fuel _ _ _ e)
    · cases e; exact (ft_flow E).refl _

/-- The whole goroutine, whatever the source, and whether or not it is stopped. -/
theorem ft_thread : Keeps (Ft E) (readThread E) := by
  intro s r s' e
  have hst : readThread E s = ((fun s => streamLoop E (s.inp.size + 2) s : Go RState Unit) >>= fun _ => finishThread) { s with numStreams := 0 } := by
    unfold readThread
    exact Go.bind_ok (Go.modify_apply _ _)
  have e' := hst.symm.trans e
  show Ft E { s with numStreams := 0 } s'
  refine Keeps.bind (R := Ft E) (ft_flow E).toPre (x := fun s => streamLoop E (s.inp.size + 2) s) (fun s a s' e => ft_loop E _ s a s' e) (fun _ => Keeps.bind (ft_flow E).toPre ((ft_flow E).onInp fun _ i a i' e => ?_) fun _ => ft_propagate E _) _ _ _ e'
  cases e; exact steady_of rfl rfl (Nat.le_refl _)

end

end Flate.Proof.R
