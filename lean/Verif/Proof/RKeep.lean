/-
Facts which every function of reader.go preserves, whatever its arguments, and whether or not it succeeds.
-/
import Verif.Proof.RMono

namespace Flate.Proof.R
open Flate.Spec Flate.Model Flate.Model.Rd

/-! ### functions which respect a relation -/

/-- if the function returns, the states before and after are related -/
def Keeps {σ α : Type} (R : σ → σ → Prop) (f : Go σ α) : Prop := ∀ s a s', f s = .ok (a, s') → R s s'

structure Pre {σ : Type} (R : σ → σ → Prop) : Prop where
  refl : ∀ s, R s s
  trans : ∀ s s' s'', R s s' → R s' s'' → R s s''

section
variable {σ α β : Type} {R : σ → σ → Prop}

theorem Keeps.pure (h : Pre R) (a : α) : Keeps R (Pure.pure a : Go σ α) := by
  intro s a s' e; cases e; exact h.refl s

theorem Keeps.panic (p : Panic) : Keeps R (Go.panic p : Go σ α) := by intro s a s' e; cases e

theorem Keeps.assert (h : Pre R) (c : Bool) (m : String) : Keeps R (Go.assert c m : Go σ Unit) := by
  intro s a s' e
  cases c
  · cases e
  · cases e; exact h.refl s

theorem Keeps.lift (h : Pre R) (x : Except Panic α) : Keeps R (Go.lift x : Go σ α) := by
  intro s a s' e
  rcases x with p | v
  · cases e
  · cases e; exact h.refl s

theorem Keeps.bind (h : Pre R) {x : Go σ α} {f : α → Go σ β} (hx : Keeps R x) (hf : ∀ a, Keeps R (f a)) : Keeps R (x >>= f) := by
  intro s b s' e
  rw [Go.bind_eq_ok] at e
  obtain ⟨a, s1, e1, e2⟩ := e
  exact h.trans _ _ _ (hx _ _ _ e1) (hf a _ _ _ e2)

theorem Keeps.chk (h : Pre R) {x y : Go σ Bool} (hx : Keeps R x) (hy : Keeps R y) : Keeps R (Go.chk x y) := by
  intro s b s' e
  unfold Go.chk at e
  rcases hxs : x s with p | ⟨a, s1⟩
  · rw [hxs] at e; cases e
  · rw [hxs] at e
    cases a
    · cases e; exact hx _ _ _ hxs
    · exact h.trans _ _ _ (hx _ _ _ hxs) (hy _ _ _ e)

theorem Keeps.ite {c : Prop} [Decidable c] {x y : Go σ α} (hx : c → Keeps R x) (hy : ¬ c → Keeps R y) : Keeps R (if c then x else y) := by
  split
  · exact hx (by assumption)
  · exact hy (by assumption)

/-- a function which looks at the state first -/
theorem Keeps.look {g : σ → Go σ α} (h : ∀ s, Keeps R (g s)) : Keeps R (fun s => g s s) := fun s a s' e => h s s a s' e

end

/-! ### input -/

/-- the input counters advance together, and there is not more to read afterwards -/
def Steady (i i' : Inp) : Prop := i'.inStream + i.inTotal = i.inStream + i'.inTotal ∧ i'.bits ≤ i.bits

theorem steady_pre : Pre Steady := ⟨fun _ => ⟨rfl, Nat.le_refl _⟩, fun a b c h h' => by unfold Steady at *; omega⟩

theorem steady_of {i i' : Inp} (h1 : i'.inTotal = i.inTotal) (h2 : i'.inStream = i.inStream) (h3 : i'.bits ≤ i.bits) : Steady i i' := by
  unfold Steady; rw [h1, h2]; exact ⟨rfl, h3⟩

theorem fill_size (st : Bool) (i : Inp) : (fill st i).size = i.size ∧ (fill st i).ibLen = i.ibLen := by
  unfold fill
  split
  · exact ⟨rfl, rfl⟩
  · split
    · exact ⟨rfl, rfl⟩
    · split
      · rename_i h; refine ⟨?_, rfl⟩; simp only [Inp.size, Src.bytes, h]; simp; omega
      · rename_i h; refine ⟨?_, rfl⟩; simp only [Inp.size, Src.bytes, h]; simp

theorem steady_fill (st : Bool) (i : Inp) : Steady i (fill st i) := by
  obtain ⟨f1, f2, _⟩ := fill_frame st i
  refine steady_of f1 f2 ?_
  obtain ⟨h1, h2⟩ := fill_size st i
  unfold Inp.bits; rw [h1, h2]

/-- a byte taken -/
theorem pop_size (st : Bool) (i : Inp) : (popByte st i).2.ibLen = i.ibLen ∧ (popByte st i).2.size + (popByte st i).1.toList.length = i.size := by
  have hr : (if i.buf.isEmpty then fill st i else i).size = i.size ∧ (if i.buf.isEmpty then fill st i else i).ibLen = i.ibLen := by
    split
    · exact fill_size st i
    · exact ⟨rfl, rfl⟩
  unfold popByte
  simp only []
  generalize (if i.buf.isEmpty = true then fill st i else i) = j at hr ⊢
  split
  · exact ⟨hr.2, hr.1⟩
  · rename_i h
    refine ⟨hr.2, ?_⟩
    rw [← hr.1]
    simp only [Inp.size, h]
    simp; omega

theorem steady_pop (st : Bool) (i : Inp) : Steady i (popByte st i).2 := by
  obtain ⟨z1, z2⟩ := pop_size st i
  have hz : (popByte st i).2.bits ≤ i.bits := by unfold Inp.bits; omega
  refine ⟨?_, hz⟩
  have hr : Steady i (if i.buf.isEmpty then fill st i else i) := by
    split
    · exact steady_fill st i
    · exact steady_pre.refl i
  unfold popByte
  simp only []
  generalize (if i.buf.isEmpty = true then fill st i else i) = j at hr ⊢
  split
  · exact hr.1
  · exact hr.1

theorem steady_count (p : List UInt8) (i : Inp) : Steady i (countIn p i) := by
  refine ⟨?_, Nat.le_refl _⟩
  unfold countIn; simp only []; omega

theorem bits_discard (i : Inp) : (Rd.discard i).bits ≤ i.bits := by unfold Rd.discard Inp.bits Inp.size; simp only []; omega

theorem steady_discard (i : Inp) : Steady i (Rd.discard i) := steady_of rfl rfl (bits_discard i)

theorem steady_pops (st : Bool) : ∀ (n : Nat) (i : Inp), Steady i (popBytes st n i).2
  | 0, i => steady_pre.refl i
  | n + 1, i => by
    have hp := steady_pop st i
    unfold popBytes
    rcases h : popByte st i with ⟨b, j⟩
    rw [h] at hp
    cases b with
    | none => exact hp
    | some b => exact steady_pre.trans _ _ _ hp (steady_pops st n j)

theorem steady_bufRead (st : Bool) (n : Nat) (i : Inp) : Steady i (bufRead st n i).2 := by
  unfold bufRead
  simp only []
  split
  · exact steady_discard i
  · exact steady_pre.trans _ _ _ (steady_pre.trans _ (discard i) _ (steady_discard i) (steady_pops st n (discard i))) (steady_count _ _)

theorem steady_stringZ (st : Bool) : ∀ (fuel : Nat) (acc : List UInt8), Keeps Steady (fun i => stringZLoop st fuel acc i)
  | 0, acc => by intro i a i' e; cases e
  | fuel + 1, acc => by
    intro i a i' e
    have hp := steady_pop st i
    simp only [stringZLoop] at e
    rcases h : popByte st i with ⟨b, j⟩
    rw [h] at hp e
    cases b with
    | none => cases e; exact hp
    | some b =>
      simp only [] at e
      have h1 := steady_pre.trans _ _ _ hp (steady_count [b] j)
      split at e
      · cases e; exact h1
      · exact steady_pre.trans _ _ _ h1 (steady_stringZ st fuel _ _ _ _ e)

theorem steady_readStringZ (st : Bool) : Keeps Steady (readStringZ st) := fun i a i' e => steady_stringZ st _ _ i a i' e

theorem steady_fillLoop (W : Nat) (st : Bool) (n : Nat) : ∀ fuel, Keeps Steady (bitsFillLoop W st n fuel)
  | 0 => Keeps.panic _
  | fuel + 1 => by
    intro i a i' e
    unfold bitsFillLoop at e
    split at e
    · have hp := steady_pop st i
      rcases h : popByte st i with ⟨b, j⟩
      rw [h] at hp e
      cases b with
      | none => cases e; exact hp
      | some b =>
        simp only [] at e
        have h1 := steady_pre.trans _ _ _ hp (steady_count [b] j)
        refine steady_pre.trans _ _ _ (And.intro ?_ ?_) (steady_fillLoop W st n fuel _ _ _ e)
        · exact h1.1
        have hz := pop_size st i
        rw [h] at hz
        have h2 : (countIn [b] j).size = j.size := rfl
        have h3 : (countIn [b] j).ibLen = j.ibLen := rfl
        show 8 * (countIn [b] j).size + ((countIn [b] j).ibLen + 8) ≤ 8 * i.size + i.ibLen
        simp only [Option.toList, List.length_singleton] at hz
        omega
    · cases e; exact steady_pre.refl _

theorem steady_bitsFill (W : Nat) (st : Bool) (n : Nat) : Keeps Steady (bitsFill W st n) :=
  Keeps.bind steady_pre (Keeps.assert steady_pre _ _) fun _ => steady_fillLoop W st n _

theorem steady_peek (W n : Nat) : Keeps Steady (bitsPeek W n) := by
  intro i a i' e
  unfold bitsPeek at e
  split at e
  · cases e; exact steady_pre.refl _
  · cases e

theorem steady_commit (n : Nat) : Keeps Steady (bitsCommit n) := by
  intro i a i' e
  unfold bitsCommit at e
  split at e
  · cases e; refine steady_of rfl rfl ?_; unfold Inp.bits Inp.size; simp only []; omega
  · cases e

theorem steady_bitsRead (W n : Nat) : Keeps Steady (bitsRead W n) :=
  Keeps.bind steady_pre (steady_peek W n) fun _ => Keeps.bind steady_pre (steady_commit n) fun _ => Keeps.pure steady_pre _

theorem steady_symbolLoop (L : HuffLib) (W : Nat) (st : Bool) (lens : List Nat) : ∀ fuel n, Keeps Steady (symbolLoop L W st lens fuel n)
  | 0, _ => Keeps.panic _
  | fuel + 1, n => by
    unfold symbolLoop
    refine Keeps.ite (fun _ => ?_) fun _ => Keeps.pure steady_pre _
    refine Keeps.bind steady_pre (steady_bitsFill W st n) fun ok => Keeps.ite (fun _ => Keeps.pure steady_pre _) fun _ => ?_
    refine Keeps.bind steady_pre (steady_peek W n) fun out => ?_
    split
    · exact Keeps.bind steady_pre (steady_commit n) fun _ => Keeps.pure steady_pre _
    · exact Keeps.ite (fun _ => Keeps.pure steady_pre _) fun _ => steady_symbolLoop L W st lens fuel _

/-! ### the functions used by headers, footers and blocks -/

/-- `propagateError`, for a relation which is not disturbed by reporting any error -/
theorem keeps_propagate {R : RState → RState → Prop} (hr : Pre R) (hc : ∀ s e, R s { s with out := closeOut e s.out }) (t : Bool) : Keeps R (propagateError t) := by
  intro s a s' e
  unfold propagateError at e
  split at e
  · cases e; exact hr.refl _
  · rw [closeWithError_eq] at e
    cases e
    exact hc s _

/-- a relation which is not disturbed by reading, by reporting an error other than `EOF`, and by setting header fields -/
structure Flow (R : RState → RState → Prop) : Prop extends Pre R where
  inp : ∀ s i, Steady s.inp i → R s { s with inp := i }
  close : ∀ s e, e ≠ .eof → R s { s with out := closeOut e s.out }
  hdr : ∀ s h f, R s { s with header := h, actualFormat := f }

section
variable {α : Type} {R : RState → RState → Prop} (h : Flow R)
include h

theorem Flow.onInp {f : Bool → Go Inp α} (hf : ∀ st, Keeps Steady (f st)) : Keeps R (Rd.onInp f) := by
  intro s a s' e
  unfold Rd.onInp at e
  rcases hx : f s.out.stopIsForced s.inp with p | ⟨b, i⟩
  · rw [hx] at e; cases e
  · rw [hx] at e; cases e; exact h.inp s i (hf _ _ _ _ hx)

theorem Flow.closeErr {e : Err} (hne : e ≠ .eof) : Keeps R (closeWithError e) := by
  intro s a s' he
  rw [closeWithError_eq] at he
  cases he
  exact h.close s e hne

theorem Flow.propagate : Keeps R (propagateError true) := by
  intro s a s' e
  unfold propagateError at e
  split at e
  · cases e; exact h.refl _
  · refine h.closeErr ?_ _ _ _ e
    intro hx
    split at hx
    · cases hx
    · rename_i h1
      subst hx
      exact h1 rfl

theorem Flow.corruptf (m : Spec.Problem) : Keeps R (Rd.corruptf m) := fun s a s' e => h.closeErr (by intro hx; cases hx) s a s' e

theorem Flow.exhausted (fl : α) : Keeps R (Rd.exhausted fl) := Keeps.bind h.toPre h.propagate fun _ => Keeps.pure h.toPre _

theorem Flow.fail (m : Spec.Problem) : Keeps R (Rd.fail m) := Keeps.bind h.toPre (h.corruptf _) fun _ => Keeps.pure h.toPre _

theorem Flow.corrupt_none (m : Spec.Problem) (fl : α) : Keeps R (do Rd.corruptf m; Pure.pure fl) :=
  Keeps.bind h.toPre (h.corruptf _) fun _ => Keeps.pure h.toPre _

theorem Flow.modHeader (f : Header → Header) : Keeps R (Rd.modHeader f) := by
  intro s a s' e; cases e; exact h.hdr s _ _

theorem Flow.needBits (E : Env) (fl : α) (n : Nat) {k : Nat → Go RState α} (hk : ∀ v, Keeps R (k v)) : Keeps R (Rd.needBits E fl n k) := by
  unfold Rd.needBits
  refine Keeps.bind h.toPre (h.onInp fun st => steady_bitsFill _ st n) fun ok => Keeps.ite (fun _ => h.exhausted fl) fun _ => ?_
  exact Keeps.bind h.toPre (h.onInp fun _ => steady_bitsRead _ n) hk

theorem Flow.needBytes (fl : α) (n : Nat) {k : List UInt8 → Go RState α} (hk : ∀ v, Keeps R (k v)) : Keeps R (Rd.needBytes fl n k) := by
  unfold Rd.needBytes
  refine Keeps.bind h.toPre (h.onInp fun st i a i' e => by
    have := steady_bufRead st n i
    rw [Except.ok.injEq] at e
    rw [e] at this
    exact this) fun r => ?_
  obtain ⟨p, ok⟩ := r
  exact Keeps.ite (fun _ => h.exhausted fl) fun _ => hk p

theorem Flow.readSymbol (E : Env) (lens : List Nat) : Keeps R (Rd.readSymbol E lens) := h.onInp fun st => steady_symbolLoop _ _ st lens _ _

theorem Flow.addBits (E : Env) (fl : α) (n base : Nat) {k : Nat → Go RState α} (hk : ∀ v, Keeps R (k v)) : Keeps R (Rd.addBits E fl n base k) :=
  Keeps.ite (fun _ => h.needBits E fl n fun _ => hk _) fun _ => hk _

/-! headers -/

theorem Flow.raw : Keeps R readHeaderRaw := by intro s a s' e; cases e; exact h.hdr s _ _
theorem Flow.setZlib : Keeps R Rd.setZlib := by intro s a s' e; cases e; exact h.hdr s _ _
theorem Flow.setGzip : Keeps R Rd.setGzip := by intro s a s' e; cases e; exact h.hdr s _ _

theorem Flow.zlib (E : Env) : Keeps R (readHeaderZlib E) := by
  unfold readHeaderZlib
  refine h.needBytes _ _ fun p => ?_
  refine Keeps.ite (fun _ => h.fail _) fun _ => Keeps.ite (fun _ => h.fail _) fun _ => ?_
  refine Keeps.bind h.toPre (h.modHeader _) fun _ => Keeps.ite (fun _ => h.fail _) fun _ => ?_
  refine Keeps.bind h.toPre (h.modHeader _) fun _ => Keeps.ite (fun _ => h.needBytes _ _ fun q => ?_) fun _ => ?_
  · split
    · exact h.fail _
    · exact Keeps.ite (fun _ => h.fail _) fun _ => h.setZlib
  · split
    · exact h.fail _
    · exact h.setZlib

theorem Flow.extra (bit : Bool) : Keeps R (gzExtraData bit) := by
  unfold gzExtraData
  refine Keeps.ite (fun _ => h.needBytes _ _ fun p => h.needBytes _ _ fun raw => ?_) fun _ => Keeps.pure h.toPre _
  exact Keeps.bind h.toPre (Keeps.lift h.toPre _) fun _ => Keeps.bind h.toPre (h.modHeader _) fun _ => Keeps.pure h.toPre _

theorem Flow.gzStr (bit : Bool) (f : List UInt8 → Header → Header) : Keeps R (Rd.gzStr bit f) := by
  unfold Rd.gzStr
  refine Keeps.ite (fun _ => Keeps.bind h.toPre (h.onInp fun st => steady_readStringZ st) fun r => ?_) fun _ => Keeps.pure h.toPre _
  obtain ⟨str, ok⟩ := r
  exact Keeps.ite (fun _ => h.exhausted _) fun _ => Keeps.bind h.toPre (h.modHeader _) fun _ => Keeps.pure h.toPre _

theorem Flow.gzCRC (bit : Bool) : Keeps R (Rd.gzCRC bit) := by
  refine Keeps.look (g := fun s => gzCRC16 bit s.inp.crc) fun s => ?_
  unfold gzCRC16
  exact Keeps.ite (fun _ => h.needBytes _ _ fun p => Keeps.ite (fun _ => h.fail _) fun _ => Keeps.pure h.toPre _) fun _ => Keeps.pure h.toPre _

theorem Flow.gzip : Keeps R readHeaderGZIP := by
  unfold readHeaderGZIP
  refine Keeps.bind h.toPre (h.onInp fun _ i a i' e => by cases e; exact steady_of rfl rfl (Nat.le_refl _)) fun _ => h.needBytes _ _ fun p => ?_
  refine Keeps.ite (fun _ => h.fail _) fun _ => Keeps.ite (fun _ => h.fail _) fun _ => ?_
  refine Keeps.bind h.toPre (h.modHeader _) fun _ => Keeps.ite (fun _ => h.fail _) fun _ => ?_
  refine Keeps.bind h.toPre (h.modHeader _) fun _ => ?_
  exact Keeps.chk h.toPre (h.extra _) (Keeps.chk h.toPre (h.gzStr _ _) (Keeps.chk h.toPre (h.gzStr _ _) (Keeps.chk h.toPre (h.gzCRC _) h.setGzip)))

theorem Flow.headerOf (E : Env) (f : Format) : Keeps R (readHeaderOf E f) := by
  cases f with
  | raw => exact h.raw
  | zlib => exact h.zlib E
  | gzip => exact h.gzip
  | default =>
    intro s a s' e
    simp only [readHeaderOf] at e
    unfold readHeaderAuto at e
    split at e
    · split at e
      · exact h.gzip _ _ _ e
      · split at e
        · exact h.zlib E _ _ _ e
        · exact h.raw _ _ _ e
    · exact h.raw _ _ _ e

/-! footers -/

theorem Flow.footZlib (x : BitVec 32) : Keeps R (readFooterZlib x) :=
  h.needBytes _ _ fun _ => Keeps.ite (fun _ => h.fail _) fun _ => Keeps.pure h.toPre _

theorem Flow.footGzip (x : BitVec 32) : Keeps R (readFooterGZIP x) :=
  h.needBytes _ _ fun p => h.needBytes _ _ fun q => by
    intro s a s' e
    split at e
    · exact h.fail _ _ _ _ e
    · simp only [] at e
      split at e
      · exact h.fail _ _ _ _ e
      · cases e; exact h.refl _

theorem Flow.footerOf (f : Format) (x y : BitVec 32) : Keeps R (readFooterOf f x y) := by
  cases f with
  | raw => exact Keeps.pure h.toPre _
  | zlib => exact h.footZlib _
  | gzip => exact h.footGzip _
  | default => exact Keeps.panic _

/-! values in blocks -/

theorem Flow.decodeLL (E : Env) (sym : Nat) : Keeps R (Rd.decodeLL E sym) := by
  unfold Rd.decodeLL
  refine Keeps.ite (fun _ => Keeps.pure h.toPre _) fun _ => Keeps.ite (fun _ => Keeps.pure h.toPre _) fun _ => ?_
  split
  · exact h.corrupt_none _ _
  · exact h.addBits E _ _ _ fun _ => Keeps.bind h.toPre (Keeps.lift h.toPre _) fun _ => Keeps.pure h.toPre _

theorem Flow.decodeD (E : Env) (sym len : Nat) : Keeps R (Rd.decodeD E sym len) := by
  unfold Rd.decodeD
  split
  · exact h.corrupt_none _ _
  · exact h.addBits E _ _ _ fun _ => Keeps.bind h.toPre (Keeps.lift h.toPre _) fun _ => Keeps.pure h.toPre _

theorem Flow.readCL (E : Env) : ∀ is sX, Keeps R (Rd.readCL E is sX)
  | [], _ => Keeps.pure h.toPre _
  | i :: is, sX => by unfold Rd.readCL; exact h.needBits E _ _ fun _ => Flow.readCL E is _

theorem Flow.decodeX (E : Env) (sym total : Nat) (acc : List Nat) : Keeps R (Rd.decodeX E sym total acc) := by
  unfold Rd.decodeX
  refine Keeps.ite (fun _ => Keeps.ite (fun _ => Keeps.pure h.toPre _) fun _ => Keeps.panic _) fun _ => ?_
  refine Keeps.ite (fun _ => Keeps.ite (fun _ => h.corrupt_none _ _) fun _ => h.needBits E _ _ fun _ =>
    Keeps.ite (fun _ => h.corrupt_none _ _) fun _ => Keeps.ite (fun _ => Keeps.pure h.toPre _) fun _ => Keeps.panic _) fun _ => ?_
  refine Keeps.ite (fun _ => h.needBits E _ _ fun _ => Keeps.ite (fun _ => h.corrupt_none _ _) fun _ => Keeps.pure h.toPre _) fun _ => ?_
  exact Keeps.ite (fun _ => h.needBits E _ _ fun _ => Keeps.ite (fun _ => h.corrupt_none _ _) fun _ => Keeps.pure h.toPre _) fun _ => Keeps.pure h.toPre _

theorem Flow.lensLoop (E : Env) (lens : List Nat) (total : Nat) : ∀ fuel acc, Keeps R (Rd.lensLoop E lens total fuel acc)
  | 0, _ => Keeps.panic _
  | fuel + 1, acc => by
    unfold Rd.lensLoop
    refine Keeps.ite (fun _ => Keeps.bind h.toPre (h.readSymbol E lens) fun r => ?_) fun _ => Keeps.pure h.toPre _
    cases r with
    | none => exact h.corrupt_none _ _
    | some sym =>
      refine Keeps.bind h.toPre (h.decodeX E sym total acc) fun t => ?_
      cases t with
      | none => exact Keeps.pure h.toPre _
      | some l => exact Flow.lensLoop E lens total fuel l

theorem Flow.counts (x y : Nat) : Keeps R (checkCounts x y) := by
  unfold checkCounts
  have h1 : ∀ (c : Prop) [Decidable c] (m : Spec.Problem), Keeps R (if c then Rd.corruptf m else Pure.pure ()) := fun c _ m =>
    Keeps.ite (fun _ => h.corruptf m) fun _ => Keeps.pure h.toPre _
  exact Keeps.ite (fun _ => Keeps.bind h.toPre (h.corruptf _) fun _ => h1 (y > logicalNumDCodes) _) fun _ => h1 (y > logicalNumDCodes) _

end

/-! ### blocks -/

/-- the state after an event was sent -/
def sent (k : EvKind) (s : RState) : RState :=
  { s with events := s.events ++ [{ kind := k, inTotal := s.inp.inTotal, inStream := s.inp.inStream, outTotal := s.out.outTotal, outStream := s.out.outStream, numStreams := s.numStreams, format := s.actualFormat }] }

/-- events sent while blocks are read -/
def EvKind.mid : EvKind → Bool
  | .streamBegin => false
  | .streamEnd _ _ => false
  | _ => true

/-- a relation which is moreover not disturbed by delivering data -/
structure OFlow (R : RState → RState → Prop) : Prop extends Flow R where
  flush : ∀ E s, R s { s with out := mustFlush E s.out }
  keep : ∀ s db w n, R s { s with out := { s.out with decodeBuffer := db, window := w, nLook := n } }

/-- a relation which is moreover not disturbed by sending events -/
structure BFlow (R : RState → RState → Prop) : Prop extends OFlow R where
  event : ∀ s k, EvKind.mid k = true → R s (sent k s)

section
variable {R : RState → RState → Prop} (h : OFlow R)
include h

theorem OFlow.try (E : Env) (s : RState) : R s { s with out := tryFlush E s.out } := by
  unfold tryFlush
  split
  · exact h.flush E s
  · exact h.refl s

theorem OFlow.writeLoop (E : Env) : ∀ fuel p (s : RState) o', dbWriteLoop E fuel p s.out = .ok o' → R s { s with out := o' }
  | 0, _, _, _, e => by cases e
  | fuel + 1, p, s, o', e => by
    unfold dbWriteLoop at e
    split at e
    · simp only [] at e
      have h1 := h.try E s
      have h2 := h.keep { s with out := tryFlush E s.out } ((tryFlush E s.out).decodeBuffer ++ p.take (min p.length (E.cap - (tryFlush E s.out).decodeBuffer.length)))
        (windowWrite E.o.wbits (tryFlush E s.out).window (p.take (min p.length (E.cap - (tryFlush E s.out).decodeBuffer.length)))) (tryFlush E s.out).nLook
      exact h.trans _ _ _ (h.trans _ _ _ h1 h2) (OFlow.writeLoop E fuel _ _ _ e)
    · cases e; exact h.refl s

theorem OFlow.write (E : Env) (p : List UInt8) : Keeps R (dbWrite E p) := by
  intro s a s' e
  unfold dbWrite at e
  rcases hx : dbWriteLoop E (p.length + 1) p s.out with x | o
  · rw [hx] at e; cases e
  · rw [hx] at e; cases e; exact h.writeLoop E _ _ _ _ hx

theorem OFlow.writeByte (E : Env) (ch : UInt8) : Keeps R (dbWriteByte E ch) := by
  intro s a s' e
  unfold dbWriteByte onOut at e
  simp only [] at e
  split at e
  · cases e
    exact h.trans _ _ _ (h.try E s) (h.keep { s with out := tryFlush E s.out } _ _ _)
  · cases e
    exact h.try E s

theorem OFlow.copyLoop (E : Env) (d : Nat) : ∀ n, Keeps R (Rd.copyLoop E d n)
  | 0 => Keeps.pure h.toPre _
  | n + 1 => by
    intro s a s' e
    unfold Rd.copyLoop at e
    split at e
    · exact h.fail _ _ _ _ e
    · exact Keeps.bind h.toPre (h.writeByte E _) (fun _ => OFlow.copyLoop E d n) _ _ _ e

theorem OFlow.copyMatch (E : Env) (d len : Nat) : Keeps R (Rd.copyMatch E d len) := by
  intro s a s' e
  unfold Rd.copyMatch at e
  split at e
  · exact h.fail _ _ _ _ e
  · refine Keeps.bind h.toPre ?_ (fun _ => Keeps.bind h.toPre (h.write E _) fun _ => h.copyLoop E d _) _ _ _ e
    intro s a s' e; cases e; exact h.keep s _ _ _

theorem OFlow.huffLoop (E : Env) (ll d : List Nat) : ∀ fuel, Keeps R (Rd.huffLoop E ll d fuel)
  | 0 => Keeps.panic _
  | fuel + 1 => by
    have ih := OFlow.huffLoop E ll d fuel
    unfold Rd.huffLoop
    refine Keeps.bind h.toPre (h.readSymbol E ll) fun r => ?_
    cases r with
    | none => exact h.fail _
    | some sym =>
      refine Keeps.bind h.toPre (h.decodeLL E sym) fun t => ?_
      cases t with
      | none => exact Keeps.pure h.toPre _
      | some t =>
        refine Keeps.ite (fun _ => Keeps.ite (fun _ => Keeps.pure h.toPre _) fun _ => Keeps.bind h.toPre (h.writeByte E _) fun _ => ih) fun _ => ?_
        refine Keeps.bind h.toPre (h.readSymbol E d) fun r => ?_
        cases r with
        | none => exact h.fail _
        | some sym =>
          refine Keeps.bind h.toPre (h.decodeD E sym _) fun t => ?_
          cases t with
          | none => exact Keeps.pure h.toPre _
          | some t => exact Keeps.chk h.toPre (h.copyMatch E _ _) ih

theorem OFlow.huffBlock (E : Env) (ll d : List Nat) : Keeps R (decodeHuffmanBlock E ll d) := fun s a s' e => h.huffLoop E ll d _ s a s' e

theorem OFlow.stored (E : Env) : Keeps R (readStored E) :=
  h.needBytes _ _ fun _ => h.needBytes _ _ fun _ => Keeps.ite (fun _ => h.fail _) fun _ => h.needBytes _ _ fun _ =>
    Keeps.bind h.toPre (h.write E _) fun _ => Keeps.pure h.toPre _

end

section
variable {R : RState → RState → Prop} (h : BFlow R)
include h

theorem BFlow.send {k : EvKind} (hk : EvKind.mid k = true) : Keeps R (sendEvent k) := by
  intro s a s' e; cases e; exact h.event s k hk

theorem BFlow.static (E : Env) (f : Bool) : Keeps R (readStatic E f) :=
  Keeps.bind h.toPre (h.send rfl) fun _ => h.huffBlock E _ _

theorem BFlow.trees (E : Env) (f : Bool) : Keeps R (readDynamicTrees E f) := by
  unfold readDynamicTrees
  refine h.needBits E _ _ fun v => Keeps.bind h.toPre (h.counts _ _) fun _ => Keeps.bind h.toPre (h.readCL E _ _) fun r => ?_
  cases r with
  | none => exact Keeps.pure h.toPre _
  | some sX =>
    refine Keeps.ite (fun _ => h.corrupt_none _ _) fun _ => Keeps.bind h.toPre (fun s a s' e => h.lensLoop E _ _ _ _ s a s' e) fun r => ?_
    cases r with
    | none => exact Keeps.pure h.toPre _
    | some lens =>
      refine Keeps.ite (fun _ => h.corrupt_none _ _) fun _ => Keeps.ite (fun _ => h.corrupt_none _ _) fun _ => ?_
      exact Keeps.bind h.toPre (h.send rfl) fun _ => Keeps.pure h.toPre _

theorem BFlow.dynamic (E : Env) (f : Bool) : Keeps R (readDynamic E f) := by
  unfold readDynamic
  refine Keeps.bind h.toPre (h.trees E f) fun r => ?_
  cases r with
  | none => exact Keeps.pure h.toPre _
  | some p => exact h.huffBlock E _ _

theorem BFlow.blockOf (E : Env) (f : Bool) (bt : BlockType) : Keeps R (readBlockOf E f bt) := by
  cases bt with
  | stored => exact h.stored E
  | static => exact h.static E f
  | dynamic => exact h.dynamic E f
  | invalid => exact h.fail _

theorem BFlow.block (E : Env) : Keeps R (readFlateBlock E) := by
  unfold readFlateBlock
  refine h.needBits E _ _ fun v => Keeps.bind h.toPre (h.send rfl) fun _ => Keeps.bind h.toPre (h.blockOf E _ _) fun ok => ?_
  exact Keeps.ite (fun _ => Keeps.bind h.toPre (h.send rfl) fun _ => Keeps.pure h.toPre _) fun _ => Keeps.pure h.toPre _

theorem BFlow.blockLoop (E : Env) : ∀ fuel, Keeps R (Rd.blockLoop E fuel)
  | 0 => Keeps.panic _
  | fuel + 1 => by
    unfold Rd.blockLoop
    refine Keeps.bind h.toPre (h.block E) fun r => ?_
    rcases r with _ | _ | _
    · exact Keeps.pure h.toPre _
    · exact BFlow.blockLoop E fuel
    · exact Keeps.pure h.toPre _

theorem BFlow.blocks (E : Env) : Keeps R (readBlocks E) := fun s a s' e => h.blockLoop E _ s a s' e

/-- `readFooter`, if the relation allows it to announce the checksums -/
theorem BFlow.footer (hend : ∀ s, R s (sent (.streamEnd s.out.adler s.out.crc) s)) : Keeps R readFooter := by
  unfold readFooter
  refine Keeps.bind h.toPre (h.onInp fun _ i a i' e => by cases e; exact steady_discard i) fun _ => ?_
  intro s a s' e
  have e' : Go.chk (readFooterOf s.actualFormat s.out.adler s.out.crc) (do sendEvent .streamClose; pure true) (sent (.streamEnd s.out.adler s.out.crc) s) = .ok (a, s') := e
  refine h.trans _ _ _ (hend s) (Keeps.chk h.toPre (h.footerOf _ _ _) ?_ _ _ _ e')
  exact Keeps.bind h.toPre (h.send rfl) fun _ => Keeps.pure h.toPre _

end

end Flate.Proof.R
