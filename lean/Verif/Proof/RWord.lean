/-
The goroutine on platforms of different word size: what it does is the same, step by step.
-/
import Verif.Proof.RMono

namespace Flate.Proof.R.Word
open Flate.Spec Flate.Model Flate.Model.Rd

/-- the same parameters on another platform -/
def at_ (w : Nat) (E : Env) : Env := { E with W := w }

/-- there are fewer than 32 bits in the bit buffer, and nothing beyond them -/
structure Fine (i : Inp) : Prop where
  len : i.ibLen < 32
  lt : i.ibBlock < 2 ^ i.ibLen

/-- the two functions do the same, and keep the bit buffer in order -/
def Ind {σ α : Type} (P : σ → Prop) (f f' : Go σ α) : Prop := ∀ s, P s → f' s = f s ∧ ∀ a t, f s = .ok (a, t) → P t

section
variable {σ α β : Type} {P : σ → Prop}

theorem Ind.pure (a : α) : Ind P (Pure.pure a : Go σ α) (Pure.pure a) := fun s h => ⟨rfl, fun _ _ e => by cases e; exact h⟩

theorem Ind.panic (p : Panic) : Ind P (Go.panic p : Go σ α) (Go.panic p) := fun _ _ => ⟨rfl, fun _ _ e => by cases e⟩

theorem Ind.lift (x : Except Panic α) : Ind P (Go.lift x : Go σ α) (Go.lift x) := by
  rcases x with p | v
  · exact fun _ _ => ⟨rfl, fun _ _ e => by cases e⟩
  · exact fun s h => ⟨rfl, fun _ _ e => by cases e; exact h⟩

theorem Ind.bind {x x' : Go σ α} {f f' : α → Go σ β} (hx : Ind P x x') (hf : ∀ a, Ind P (f a) (f' a)) : Ind P (x >>= f) (x' >>= f') := by
  intro s h
  obtain ⟨h1, h2⟩ := hx s h
  show (match x' s with | .ok (a, t) => f' a t | .error e => .error e) = (match x s with | .ok (a, t) => f a t | .error e => .error e) ∧
    ∀ a t, (match x s with | .ok (a, t) => f a t | .error e => .error e) = .ok (a, t) → P t
  rw [h1]
  rcases hxs : x s with p | ⟨a, t⟩
  · exact ⟨rfl, fun _ _ e => by cases e⟩
  · exact hf a t (h2 a t hxs)

theorem Ind.bindV {x x' : Go σ α} {f f' : α → Go σ β} (V : α → Prop) (hx : Ind P x x') (hv : ∀ s a t, x s = .ok (a, t) → V a)
    (hf : ∀ a, V a → Ind P (f a) (f' a)) : Ind P (x >>= f) (x' >>= f') := by
  intro s h
  obtain ⟨h1, h2⟩ := hx s h
  show (match x' s with | .ok (a, t) => f' a t | .error e => .error e) = (match x s with | .ok (a, t) => f a t | .error e => .error e) ∧
    ∀ a t, (match x s with | .ok (a, t) => f a t | .error e => .error e) = .ok (a, t) → P t
  rw [h1]
  rcases hxs : x s with p | ⟨a, t⟩
  · exact ⟨rfl, fun _ _ e => by cases e⟩
  · exact hf a (hv s a t hxs) t (h2 a t hxs)

theorem Ind.chk {x x' y y' : Go σ Bool} (hx : Ind P x x') (hy : Ind P y y') : Ind P (Go.chk x y) (Go.chk x' y') := by
  intro s h
  obtain ⟨h1, h2⟩ := hx s h
  unfold Go.chk
  rw [h1]
  rcases hxs : x s with p | ⟨a, t⟩
  · exact ⟨rfl, fun _ _ e => by cases e⟩
  · have ht := h2 a t hxs
    cases a
    · exact ⟨rfl, fun _ _ e => by cases e; exact ht⟩
    · exact hy t ht

theorem Ind.ite {c : Prop} [Decidable c] {x x' y y' : Go σ α} (hx : Ind P x x') (hy : Ind P y y') : Ind P (if c then x else y) (if c then x' else y') := by
  split
  · exact hx
  · exact hy

/-- a function which looks at the state first -/
theorem Ind.look {f f' : σ → Go σ α} (h : ∀ u, Ind P (f u) (f' u)) : Ind P (fun s => f s s) (fun s => f' s s) := fun s hs => h s s hs

end

/-! ### input -/

theorem fine_fill (st : Bool) {i : Inp} (h : Fine i) : Fine (fill st i) := by
  unfold fill
  split
  · exact h
  · split
    · exact ⟨h.len, h.lt⟩
    · split
      · exact ⟨h.len, h.lt⟩
      · exact ⟨h.len, h.lt⟩

theorem popByte_keeps (st : Bool) (i : Inp) : (popByte st i).2.ibLen = i.ibLen ∧ (popByte st i).2.ibBlock = i.ibBlock := by
  have hf : (fill st i).ibLen = i.ibLen ∧ (fill st i).ibBlock = i.ibBlock := by
    unfold fill
    split
    · exact ⟨rfl, rfl⟩
    · split
      · exact ⟨rfl, rfl⟩
      · split <;> exact ⟨rfl, rfl⟩
  have hj : (if i.buf.isEmpty then fill st i else i).ibLen = i.ibLen ∧ (if i.buf.isEmpty then fill st i else i).ibBlock = i.ibBlock := by
    split
    · exact hf
    · exact ⟨rfl, rfl⟩
  unfold popByte
  simp only []
  generalize (if i.buf.isEmpty = true then fill st i else i) = j at hj ⊢
  rcases hb : j.buf with _ | ⟨b, r⟩
  · exact hj
  · exact hj

theorem fine_popBytes (st : Bool) : ∀ (n : Nat) (i : Inp), Fine i → Fine (popBytes st n i).2
  | 0, _, h => h
  | n + 1, i, h => by
    have hk := popByte_keeps st i
    unfold popBytes
    rcases hp : popByte st i with ⟨b, j⟩
    rw [hp] at hk
    simp only at hk
    have hj : Fine j := ⟨by rw [hk.1]; exact h.len, by rw [hk.1, hk.2]; exact h.lt⟩
    cases b with
    | none => exact hj
    | some b => exact fine_popBytes st n j hj

theorem fine_discard (i : Inp) : Fine (Rd.discard i) := ⟨by simp [Rd.discard], by simp [Rd.discard]⟩

theorem ind_bufRead (st : Bool) (n : Nat) : Ind Fine (fun i => .ok (bufRead st n i) : Go Inp (List UInt8 × Bool)) (fun i => .ok (bufRead st n i)) := by
  refine fun i _ => ⟨rfl, fun a t e => ?_⟩
  have h : Fine (bufRead st n i).2 := by
    unfold bufRead
    simp only []
    split
    · exact fine_discard i
    · have := fine_popBytes st n _ (fine_discard i)
      exact ⟨this.len, this.lt⟩
  have e' : bufRead st n i = (a, t) := Except.ok.inj e
  rw [e'] at h
  exact h

theorem ind_stringZ (st : Bool) : ∀ (fuel : Nat) (acc : List UInt8), Ind Fine (fun i => stringZLoop st fuel acc i) (fun i => stringZLoop st fuel acc i)
  | 0, acc => fun _ _ => ⟨rfl, fun _ _ e => by cases e⟩
  | fuel + 1, acc => by
    refine fun i h => ⟨rfl, fun a t e => ?_⟩
    have hk := popByte_keeps st i
    simp only [stringZLoop] at e
    rcases hp : popByte st i with ⟨b, j⟩
    rw [hp] at hk e
    simp only at hk e
    have hj : Fine j := ⟨by rw [hk.1]; exact h.len, by rw [hk.1, hk.2]; exact h.lt⟩
    cases b with
    | none => cases e; exact hj
    | some b =>
      have hc : Fine (countIn [b] j) := ⟨hj.len, hj.lt⟩
      simp only at e
      split at e
      · cases e; exact hc
      · exact (ind_stringZ st fuel _ _ hc).2 _ _ e

theorem ind_readStringZ (st : Bool) : Ind Fine (readStringZ st) (readStringZ st) := fun i h => ⟨rfl, (ind_stringZ st _ _ i h).2⟩

theorem or_lt {a b n : Nat} (ha : a < 2 ^ n) (hb : b < 256) : a ||| (b <<< n) < 2 ^ (n + 8) := by
  refine Nat.or_lt_two_pow (Nat.lt_of_lt_of_le ha (Nat.pow_le_pow_right (by omega) (by omega))) ?_
  rw [Nat.shiftLeft_eq, Nat.add_comm n 8, Nat.pow_add]
  exact Nat.mul_lt_mul_of_pos_right hb (Nat.two_pow_pos n)

theorem no_cut {b n W : Nat} (hn : n < 24) (hW : 32 ≤ W) (hb : b < 256) : (b <<< n) % 2 ^ W = b <<< n := by
  refine Nat.mod_eq_of_lt ?_
  rw [Nat.shiftLeft_eq]
  have h1 : b * 2 ^ n < 2 ^ 8 * 2 ^ n := Nat.mul_lt_mul_of_pos_right (by simpa using hb) (Nat.two_pow_pos n)
  rw [← Nat.pow_add] at h1
  exact Nat.lt_of_lt_of_le h1 (Nat.pow_le_pow_right (by omega) (by omega))

theorem ind_fillLoop {W W' : Nat} (hW : 32 ≤ W) (hW' : 32 ≤ W') (st : Bool) {k : Nat} (hk : k ≤ 24) : ∀ fuel, Ind Fine (bitsFillLoop W st k fuel) (bitsFillLoop W' st k fuel)
  | 0 => Ind.panic _
  | fuel + 1 => by
    intro i h
    unfold bitsFillLoop
    by_cases hl : i.ibLen < k
    · simp only [hl, if_true]
      have hp := popByte_keeps st i
      rcases hpb : popByte st i with ⟨b, j⟩
      rw [hpb] at hp
      simp only at hp
      have hj : Fine j := ⟨by rw [hp.1]; exact h.len, by rw [hp.1, hp.2]; exact h.lt⟩
      cases b with
      | none => exact ⟨rfl, fun _ _ e => by cases e; exact hj⟩
      | some b =>
        simp only []
        have e1 : (countIn [b] j).ibLen = j.ibLen := rfl
        have hb := b.toNat_lt
        rw [no_cut (W := W) (by rw [e1, hp.1]; omega) hW hb, no_cut (W := W') (by rw [e1, hp.1]; omega) hW' hb]
        refine ind_fillLoop hW hW' st hk fuel _ ⟨?_, ?_⟩
        · show j.ibLen + 8 < 32
          rw [hp.1]; omega
        · show j.ibBlock ||| (b.toNat <<< j.ibLen) < 2 ^ (j.ibLen + 8)
          exact or_lt hj.lt hb
    · simp only [hl, if_false]
      exact ⟨trivial, fun _ _ e => by cases e; exact h⟩

theorem ind_bitsFill {W W' : Nat} (hW : 32 ≤ W) (hW' : 32 ≤ W') (st : Bool) {k : Nat} (hk : k ≤ 24) : Ind Fine (bitsFill W st k) (bitsFill W' st k) := by
  refine Ind.bind ?_ fun _ => ind_fillLoop hW hW' st hk _
  rw [show decide (k ≤ W - 8) = true from decide_eq_true (by omega), show decide (k ≤ W' - 8) = true from decide_eq_true (by omega)]
  exact fun s h => ⟨rfl, fun _ _ e => by cases e; exact h⟩

theorem mask_eq {W W' n : Nat} (hn : n < 32) (hW : 32 ≤ W) (hW' : 32 ≤ W') : mask W' n = mask W n := by
  unfold mask
  rw [if_neg (c := n ≥ W') (by omega), if_neg (c := n ≥ W) (by omega)]

theorem ind_peek {W W' : Nat} (hW : 32 ≤ W) (hW' : 32 ≤ W') (n : Nat) : Ind Fine (bitsPeek W n) (bitsPeek W' n) := by
  intro i h
  unfold bitsPeek
  by_cases hn : n ≤ i.ibLen
  · simp only [hn, if_true]
    rw [mask_eq (by have := h.len; omega) hW hW']
    exact ⟨rfl, fun _ _ e => by cases e; exact h⟩
  · simp only [hn, if_false]
    exact ⟨trivial, fun _ _ e => by cases e⟩

theorem ind_commit (n : Nat) : Ind Fine (bitsCommit n) (bitsCommit n) := by
  intro i h
  unfold bitsCommit
  by_cases hn : n ≤ i.ibLen
  · simp only [hn, if_true]
    refine ⟨trivial, fun _ _ e => ?_⟩
    cases e
    refine ⟨by have := h.len; simp only []; omega, ?_⟩
    show i.ibBlock >>> n < 2 ^ (i.ibLen - n)
    rw [Nat.shiftRight_eq_div_pow, Nat.div_lt_iff_lt_mul (Nat.two_pow_pos n), ← Nat.pow_add, Nat.sub_add_cancel hn]
    exact h.lt
  · simp only [hn, if_false]
    exact ⟨trivial, fun _ _ e => by cases e⟩

theorem ind_bitsRead {W W' : Nat} (hW : 32 ≤ W) (hW' : 32 ≤ W') (n : Nat) : Ind Fine (bitsRead W n) (bitsRead W' n) :=
  Ind.bind (ind_peek hW hW' n) fun _ => Ind.bind (ind_commit n) fun _ => Ind.pure _

theorem ind_symbolLoop {L : HuffLib} {W W' : Nat} (hW : 32 ≤ W) (hW' : 32 ≤ W') (st : Bool) {lens : List Nat} (hm : L.maxSize lens ≤ 15) :
    ∀ fuel k, Ind Fine (symbolLoop L W st lens fuel k) (symbolLoop L W' st lens fuel k)
  | 0, _ => Ind.panic _
  | fuel + 1, k => by
    unfold symbolLoop
    by_cases hk : k ≤ L.maxSize lens
    · simp only [hk, if_true]
      refine Ind.bind (ind_bitsFill hW hW' st (by omega)) fun ok => Ind.ite (Ind.pure _) ?_
      refine Ind.bind (ind_peek hW hW' k) fun out => ?_
      rcases L.decode lens k out with ⟨_ | sym, lo, hi⟩
      · exact Ind.ite (Ind.pure _) (ind_symbolLoop hW hW' st hm fuel _)
      · exact Ind.bind (ind_commit k) fun _ => Ind.pure _
    · simp only [hk, if_false]
      exact Ind.pure _

/-! ### the functions used by headers, footers and blocks -/

def FineR (s : RState) : Prop := Fine s.inp

section
variable {α : Type}

theorem ind_onInp {f f' : Bool → Go Inp α} (hf : ∀ st, Ind Fine (f st) (f' st)) : Ind FineR (onInp f) (onInp f') := by
  intro s h
  obtain ⟨h1, h2⟩ := hf s.out.stopIsForced s.inp h
  unfold onInp
  rw [h1]
  rcases hx : f s.out.stopIsForced s.inp with p | ⟨b, i⟩
  · exact ⟨rfl, fun _ _ e => by cases e⟩
  · exact ⟨rfl, fun _ _ e => by cases e; exact h2 b i hx⟩

/-- a function which does not touch the input -/
theorem ind_same {f : Go RState α} (h : ∀ s a t, f s = .ok (a, t) → t.inp = s.inp) : Ind FineR f f :=
  fun s hs => ⟨rfl, fun a t e => by unfold FineR; rw [h s a t e]; exact hs⟩

theorem ind_close (e : Err) : Ind FineR (closeWithError e) (closeWithError e) :=
  ind_same fun s a t h => by rw [closeWithError_eq] at h; cases h; rfl

theorem ind_propagate (b : Bool) : Ind FineR (propagateError b) (propagateError b) := by
  intro s hs
  refine ⟨rfl, fun a t h => ?_⟩
  unfold propagateError at h
  split at h
  · cases h; exact hs
  · exact (ind_close _ s hs).2 a t h

theorem ind_corruptf (m : Spec.Problem) : Ind FineR (corruptf m) (corruptf m) := fun s hs => ⟨rfl, (ind_close _ s hs).2⟩

theorem ind_exhausted (fl : α) : Ind FineR (exhausted fl) (exhausted fl) := Ind.bind (ind_propagate _) fun _ => Ind.pure _

theorem ind_fail (m : Spec.Problem) : Ind FineR (fail m) (fail m) := Ind.bind (ind_corruptf m) fun _ => Ind.pure _

theorem ind_modify {g : RState → RState} (h : ∀ s, (g s).inp = s.inp) : Ind FineR (Go.modify g) (Go.modify g) :=
  ind_same fun s a t e => by cases e; exact h s

theorem ind_sendEvent (k : EvKind) : Ind FineR (sendEvent k) (sendEvent k) := ind_modify fun _ => rfl

theorem ind_modHeader (f : Header → Header) : Ind FineR (modHeader f) (modHeader f) := ind_modify fun _ => rfl

theorem ind_onOut (f : Out → α × Out) : Ind FineR (onOut f) (onOut f) := ind_same fun s a t e => by cases e; rfl

theorem ind_needBytes (fl : α) (n : Nat) {k k' : List UInt8 → Go RState α} (hk : ∀ p, Ind FineR (k p) (k' p)) : Ind FineR (needBytes fl n k) (needBytes fl n k') :=
  Ind.bind (ind_onInp fun st => ind_bufRead st n) fun r => by
    rcases r with ⟨p, ok⟩
    exact Ind.ite (ind_exhausted fl) (hk p)

variable {E : Env} {w : Nat}

theorem ind_needBits (hW : 32 ≤ E.W) (hw : 32 ≤ w) (fl : α) {n : Nat} (hn : n ≤ 24) {k k' : Nat → Go RState α} (hk : ∀ v, Ind FineR (k v) (k' v)) :
    Ind FineR (needBits E fl n k) (needBits (at_ w E) fl n k') :=
  Ind.bind (ind_onInp fun st => ind_bitsFill hW hw st hn) fun ok =>
    Ind.ite (ind_exhausted fl) (Ind.bind (ind_onInp fun _ => ind_bitsRead hW hw n) hk)

theorem ind_readSymbol (hE : LibOK E) (hw : 32 ≤ w) {lens : List Nat} (ha : E.L.accepts lens = true) : Ind FineR (readSymbol E lens) (readSymbol (at_ w E) lens) :=
  ind_onInp fun st => ind_symbolLoop hE.word hw st (hE.lawful.maxSize_le ha) _ _

theorem dbWriteLoop_at (E : Env) (w : Nat) : ∀ (fuel : Nat) (p : List UInt8) (o : Out), dbWriteLoop (at_ w E) fuel p o = dbWriteLoop E fuel p o
  | 0, _, _ => rfl
  | fuel + 1, p, o => by
    unfold dbWriteLoop
    split
    · exact dbWriteLoop_at E w fuel _ _
    · rfl

theorem dbWrite_at (E : Env) (w : Nat) (p : List UInt8) : dbWrite (at_ w E) p = dbWrite E p := by
  funext s
  unfold dbWrite
  rw [dbWriteLoop_at]

theorem ind_dbWrite (p : List UInt8) : Ind FineR (dbWrite E p) (dbWrite (at_ w E) p) := by
  rw [dbWrite_at]
  refine ind_same fun s a t e => ?_
  unfold dbWrite at e
  split at e
  · cases e; rfl
  · cases e

theorem ind_dbWriteByte (ch : UInt8) : Ind FineR (dbWriteByte E ch) (dbWriteByte (at_ w E) ch) := ind_onOut _

/-! ### blocks -/

theorem ind_readStored : Ind FineR (readStored E) (readStored (at_ w E)) :=
  ind_needBytes _ _ fun p => ind_needBytes _ _ fun q => Ind.ite (ind_fail _) (ind_needBytes _ _ fun d => Ind.bind (ind_dbWrite d) fun _ => Ind.pure _)

theorem ind_addBits (hW : 32 ≤ E.W) (hw : 32 ≤ w) (fl : α) {n : Nat} (hn : n ≤ 24) (base : Nat) {k k' : Nat → Go RState α} (hk : ∀ v, Ind FineR (k v) (k' v)) :
    Ind FineR (addBits E fl n base k) (addBits (at_ w E) fl n base k') := by
  unfold addBits
  exact Ind.ite (ind_needBits hW hw fl hn fun _ => hk _) (hk _)

theorem lenSym_small {sym base n : Nat} (h : lenSym sym = some (base, n)) : n ≤ 24 := by
  unfold lenSym at h
  have key : ∀ {a b : Nat}, some (a, b) = some (base, n) → b = n := fun e => by cases e; rfl
  split at h
  · have := key h; omega
  · split at h
    · have := key h; omega
    · split at h
      · have := key h; omega
      · split at h
        · have := key h; omega
        · split at h
          · have := key h; omega
          · split at h
            · have := key h; omega
            · split at h
              · have := key h; omega
              · cases h

theorem distSym_small {sym base n : Nat} (h : distSym sym = some (base, n)) : n ≤ 24 := by
  unfold distSym at h
  split at h
  · cases h; omega
  · split at h
    · rename_i h2
      have : n = (sym - 2) >>> 1 := by cases h; rfl
      rw [this, Nat.shiftRight_eq_div_pow]
      have : sym < 30 := h2
      omega
    · cases h

theorem ind_decodeLL (hW : 32 ≤ E.W) (hw : 32 ≤ w) (sym : Nat) : Ind FineR (decodeLL E sym) (decodeLL (at_ w E) sym) := by
  refine Ind.ite (Ind.pure _) (Ind.ite (Ind.pure _) ?_)
  rcases hl : lenSym sym with _ | ⟨base, n⟩
  · exact Ind.bind (ind_corruptf _) fun _ => Ind.pure _
  · exact ind_addBits hW hw none (lenSym_small hl) base fun _ => Ind.bind (Ind.lift _) fun _ => Ind.pure _

theorem ind_decodeD (hW : 32 ≤ E.W) (hw : 32 ≤ w) (sym len : Nat) : Ind FineR (decodeD E sym len) (decodeD (at_ w E) sym len) := by
  unfold decodeD
  rcases hl : distSym sym with _ | ⟨base, n⟩
  · exact Ind.bind (ind_corruptf _) fun _ => Ind.pure _
  · exact ind_addBits hW hw none (distSym_small hl) base fun _ => Ind.bind (Ind.lift _) fun _ => Ind.pure _

theorem ind_copyLoop (d : Nat) : ∀ n, Ind FineR (copyLoop E d n) (copyLoop (at_ w E) d n)
  | 0 => Ind.pure _
  | n + 1 => by
    intro s hs
    unfold copyLoop
    cases lookupByte s.out.window d with
    | none => exact ind_fail _ s hs
    | some ch => exact Ind.bind (ind_dbWriteByte ch) (fun _ => ind_copyLoop d n) s hs

theorem ind_copyMatch (d len : Nat) : Ind FineR (copyMatch E d len) (copyMatch (at_ w E) d len) := by
  intro s hs
  unfold copyMatch
  show ((match lookupSlice s.out.window d len (E.clip s.out.nLook) with
    | none => fail (.tooFar d (2 ^ E.o.wbits)) s
    | some p => _) = _) ∧ _
  cases lookupSlice s.out.window d len (E.clip s.out.nLook) with
  | none => exact ind_fail _ s hs
  | some p => exact Ind.bind (ind_modify (g := fun s : RState => { s with out := { s.out with nLook := s.out.nLook + 1 } }) fun _ => rfl) (fun _ => Ind.bind (ind_dbWrite (E := E) (w := w) p) fun _ => ind_copyLoop (E := E) (w := w) d (len - p.length)) s hs

theorem ind_huffLoop (hE : LibOK E) (hw : 32 ≤ w) {ll d : List Nat} (hl : E.L.accepts ll = true) (hd : E.L.accepts d = true) :
    ∀ fuel, Ind FineR (huffLoop E ll d fuel) (huffLoop (at_ w E) ll d fuel)
  | 0 => Ind.panic _
  | fuel + 1 => by
    refine Ind.bind (ind_readSymbol hE hw hl) fun r => ?_
    rcases r with _ | sym
    · exact ind_fail _
    · refine Ind.bind (ind_decodeLL hE.word hw sym) fun t => ?_
      rcases t with _ | t
      · exact Ind.pure _
      · refine Ind.ite (Ind.ite (Ind.pure _) (Ind.bind (ind_dbWriteByte _) fun _ => ind_huffLoop hE hw hl hd fuel)) ?_
        refine Ind.bind (ind_readSymbol hE hw hd) fun r => ?_
        rcases r with _ | sym
        · exact ind_fail _
        · refine Ind.bind (ind_decodeD hE.word hw sym _) fun t => ?_
          rcases t with _ | t
          · exact Ind.pure _
          · exact Ind.chk (ind_copyMatch _ _) (ind_huffLoop hE hw hl hd fuel)

theorem ind_huffBlock (hE : LibOK E) (hw : 32 ≤ w) {ll d : List Nat} (hl : E.L.accepts ll = true) (hd : E.L.accepts d = true) :
    Ind FineR (decodeHuffmanBlock E ll d) (decodeHuffmanBlock (at_ w E) ll d) := fun s hs => ind_huffLoop hE hw hl hd _ s hs

theorem ind_readStatic (hE : LibOK E) (hw : 32 ≤ w) (f : Bool) : Ind FineR (readStatic E f) (readStatic (at_ w E) f) :=
  Ind.bind (ind_sendEvent _) fun _ => ind_huffBlock hE hw (accepts_fixed hE.lawful).1 (accepts_fixed hE.lawful).2

theorem ind_readCL (hE : LibOK E) (hw : 32 ≤ w) : ∀ is sX, Ind FineR (readCL E is sX) (readCL (at_ w E) is sX)
  | [], _ => Ind.pure _
  | _ :: is, _ => ind_needBits hE.word hw none (by omega) fun _ => ind_readCL hE hw is _

theorem ind_decodeX (hE : LibOK E) (hw : 32 ≤ w) (sym total : Nat) (acc : List Nat) : Ind FineR (decodeX E sym total acc) (decodeX (at_ w E) sym total acc) := by
  have hb : ∀ (m : Spec.Problem), Ind FineR (do corruptf m; Pure.pure none : Go RState (Option (List Nat))) (do corruptf m; Pure.pure none) := fun m => Ind.bind (ind_corruptf m) fun _ => Ind.pure _
  refine Ind.ite (Ind.ite (Ind.pure _) (Ind.panic _)) (Ind.ite (Ind.ite (hb _) ?_) (Ind.ite ?_ (Ind.ite ?_ (Ind.pure _))))
  · exact ind_needBits hE.word hw none (by omega) fun _ => Ind.ite (hb _) (Ind.ite (Ind.pure _) (Ind.panic _))
  · exact ind_needBits hE.word hw none (by omega) fun _ => Ind.ite (hb _) (Ind.pure _)
  · exact ind_needBits hE.word hw none (by omega) fun _ => Ind.ite (hb _) (Ind.pure _)

theorem ind_lensLoop (hE : LibOK E) (hw : 32 ≤ w) {lens : List Nat} (ha : E.L.accepts lens = true) (total : Nat) :
    ∀ fuel acc, Ind FineR (lensLoop E lens total fuel acc) (lensLoop (at_ w E) lens total fuel acc)
  | 0, _ => Ind.panic _
  | fuel + 1, acc => by
    refine Ind.ite ?_ (Ind.pure _)
    refine Ind.bind (ind_readSymbol hE hw ha) fun r => ?_
    rcases r with _ | sym
    · exact Ind.bind (ind_corruptf _) fun _ => Ind.pure _
    · refine Ind.bind (ind_decodeX hE hw sym total acc) fun t => ?_
      rcases t with _ | t
      · exact Ind.pure _
      · exact ind_lensLoop hE hw ha total fuel t

theorem ind_lensStart (hE : LibOK E) (hw : 32 ≤ w) {lens : List Nat} (ha : E.L.accepts lens = true) (total : Nat) :
    Ind FineR (lensStart E lens total) (lensStart (at_ w E) lens total) := fun s hs => ind_lensLoop hE hw ha total _ _ s hs

theorem ind_checkCounts (x y : Nat) : Ind FineR (checkCounts x y) (checkCounts x y) := by
  unfold checkCounts
  have h1 : ∀ (p : Prop) [Decidable p] (m : Spec.Problem), Ind FineR (if p then corruptf m else Pure.pure ()) (if p then corruptf m else Pure.pure ()) := fun p _ m =>
    Ind.ite (ind_corruptf m) (Ind.pure _)
  exact Ind.ite (Ind.bind (ind_corruptf _) fun _ => h1 (y > logicalNumDCodes) _) (h1 (y > logicalNumDCodes) _)

theorem ind_corrupt_none (m : Spec.Problem) (fl : α) : Ind FineR (do corruptf m; Pure.pure fl) (do corruptf m; Pure.pure fl) := Ind.bind (ind_corruptf m) fun _ => Ind.pure _

theorem ind_trees (hE : LibOK E) (hw : 32 ≤ w) (f : Bool) : Ind FineR (readDynamicTrees E f) (readDynamicTrees (at_ w E) f) := by
  unfold readDynamicTrees
  refine ind_needBits hE.word hw none (by omega) fun v => Ind.bind (ind_checkCounts _ _) fun _ => Ind.bind (ind_readCL hE hw _ _) fun r => ?_
  cases r with
  | none => exact Ind.pure _
  | some sX =>
    show Ind FineR (if (!E.L.accepts sX) = true then _ else _) (if (!E.L.accepts sX) = true then _ else _)
    by_cases ha : E.L.accepts sX = true
    · rw [if_neg (by simp [ha]), if_neg (by simp [ha])]
      refine Ind.bind (ind_lensStart hE hw ha _) fun r => ?_
      cases r with
      | none => exact Ind.pure _
      | some lens =>
        refine Ind.ite (ind_corrupt_none _ _) (Ind.ite (ind_corrupt_none _ _) ?_)
        exact Ind.bind (ind_sendEvent _) fun _ => Ind.pure _
    · rw [if_pos (by simp [ha]), if_pos (by simp [ha])]
      exact ind_corrupt_none _ _

theorem ind_dynamic (hE : LibOK E) (hw : 32 ≤ w) (f : Bool) : Ind FineR (readDynamic E f) (readDynamic (at_ w E) f) := by
  unfold readDynamic
  refine Ind.bindV (fun r => ∀ ll d, r = some (ll, d) → E.L.accepts ll = true ∧ E.L.accepts d = true) (ind_trees hE hw f) (fun s a t e => ?_) fun r hr => ?_
  · have h3 := safe_trees (b := true) (X := True) (s := s) hE f
    unfold Safe at h3
    rw [e] at h3
    exact h3.2
  · rcases r with _ | ⟨ll, d⟩
    · exact Ind.pure _
    · exact ind_huffBlock hE hw (hr ll d rfl).1 (hr ll d rfl).2

theorem ind_blockOf (hE : LibOK E) (hw : 32 ≤ w) (f : Bool) (bt : BlockType) : Ind FineR (readBlockOf E f bt) (readBlockOf (at_ w E) f bt) := by
  cases bt with
  | stored => exact ind_readStored
  | static => exact ind_readStatic hE hw f
  | dynamic => exact ind_dynamic hE hw f
  | invalid => exact ind_fail _

theorem ind_block (hE : LibOK E) (hw : 32 ≤ w) : Ind FineR (readFlateBlock E) (readFlateBlock (at_ w E)) := by
  unfold readFlateBlock
  refine ind_needBits hE.word hw none (by omega) fun v => Ind.bind (ind_sendEvent _) fun _ => Ind.bind (ind_blockOf hE hw _ _) fun ok => ?_
  exact Ind.ite (Ind.bind (ind_sendEvent _) fun _ => Ind.pure _) (Ind.pure _)

theorem ind_blockLoop (hE : LibOK E) (hw : 32 ≤ w) : ∀ fuel, Ind FineR (blockLoop E fuel) (blockLoop (at_ w E) fuel)
  | 0 => Ind.panic _
  | fuel + 1 => by
    unfold blockLoop
    refine Ind.bind (ind_block hE hw) fun r => ?_
    rcases r with _ | _ | _
    · exact Ind.pure _
    · exact ind_blockLoop hE hw fuel
    · exact Ind.pure _

theorem ind_blocks (hE : LibOK E) (hw : 32 ≤ w) : Ind FineR (readBlocks E) (readBlocks (at_ w E)) := fun s hs => ind_blockLoop hE hw _ s hs

/-! ### headers and footers -/

theorem ind_raw : Ind FineR readHeaderRaw readHeaderRaw := ind_same fun s a t e => by cases e; rfl

theorem ind_setZlib : Ind FineR setZlib setZlib := ind_same fun s a t e => by cases e; rfl

theorem ind_setGzip : Ind FineR setGzip setGzip := ind_same fun s a t e => by cases e; rfl

theorem ind_zlib : Ind FineR (readHeaderZlib E) (readHeaderZlib (at_ w E)) := by
  unfold readHeaderZlib
  refine ind_needBytes _ _ fun p => Ind.ite (ind_fail _) (Ind.ite (ind_fail _) ?_)
  refine Ind.bind (ind_modHeader _) fun _ => Ind.ite (ind_fail _) ?_
  refine Ind.bind (ind_modHeader _) fun _ => Ind.ite ?_ ?_
  · refine ind_needBytes _ _ fun q => ?_
    show Ind FineR (match E.o.dict with | none => _ | some d => _) (match E.o.dict with | none => _ | some d => _)
    cases E.o.dict with
    | none => exact ind_fail _
    | some d => exact Ind.ite (ind_fail _) ind_setZlib
  · show Ind FineR (match E.o.dict with | some _ => _ | none => _) (match E.o.dict with | some _ => _ | none => _)
    cases E.o.dict with
    | none => exact ind_setZlib
    | some d => exact ind_fail _

theorem ind_extra (b : Bool) : Ind FineR (gzExtraData b) (gzExtraData b) := by
  unfold gzExtraData
  exact Ind.ite (ind_needBytes _ _ fun _ => ind_needBytes _ _ fun _ => Ind.bind (Ind.lift _) fun _ => Ind.bind (ind_modHeader _) fun _ => Ind.pure _) (Ind.pure _)

theorem ind_gzStr (b : Bool) (f : List UInt8 → Header → Header) : Ind FineR (gzStr b f) (gzStr b f) := by
  unfold gzStr
  refine Ind.ite (Ind.bind (ind_onInp ind_readStringZ) fun r => ?_) (Ind.pure _)
  exact Ind.ite (ind_exhausted _) (Ind.bind (ind_modHeader _) fun _ => Ind.pure _)

theorem ind_gzCRC (b : Bool) : Ind FineR (gzCRC b) (gzCRC b) := by
  refine Ind.look (f := fun s => gzCRC16 b s.inp.crc) (f' := fun s => gzCRC16 b s.inp.crc) fun u => ?_
  unfold gzCRC16
  exact Ind.ite (ind_needBytes _ _ fun _ => Ind.ite (ind_fail _) (Ind.pure _)) (Ind.pure _)

theorem ind_gzip : Ind FineR readHeaderGZIP readHeaderGZIP := by
  unfold readHeaderGZIP
  refine Ind.bind (ind_onInp fun _ i h => ⟨rfl, fun _ _ e => by cases e; exact ⟨h.len, h.lt⟩⟩) fun _ => ind_needBytes _ _ fun p => ?_
  refine Ind.ite (ind_fail _) (Ind.ite (ind_fail _) (Ind.bind (ind_modHeader _) fun _ => Ind.ite (ind_fail _) (Ind.bind (ind_modHeader _) fun _ => ?_)))
  exact Ind.chk (ind_extra _) (Ind.chk (ind_gzStr _ _) (Ind.chk (ind_gzStr _ _) (Ind.chk (ind_gzCRC _) ind_setGzip)))

theorem ind_auto : Ind FineR (readHeaderAuto E) (readHeaderAuto (at_ w E)) := by
  intro s hs
  unfold readHeaderAuto
  rcases s.inp.buf with _ | ⟨p0, _ | ⟨p1, r⟩⟩
  · exact ind_raw s hs
  · exact ind_raw s hs
  · simp only []
    split
    · exact ind_gzip s hs
    · split
      · exact ind_zlib s hs
      · exact ind_raw s hs

theorem ind_headerOf (f : Format) : Ind FineR (readHeaderOf E f) (readHeaderOf (at_ w E) f) := by
  cases f with
  | default => exact ind_auto
  | raw => exact ind_raw
  | zlib => exact ind_zlib
  | gzip => exact ind_gzip

theorem ind_header : Ind FineR (readHeader E) (readHeader (at_ w E)) := by
  unfold readHeader
  refine Ind.bind (fun s hs => ⟨rfl, fun _ _ e => by cases e; exact ⟨hs.len, hs.lt⟩⟩) fun _ => ?_
  refine Ind.bind (ind_onInp fun st i h => ⟨rfl, fun _ _ e => ?_⟩) fun empty => Ind.ite (Ind.bind (ind_propagate _) fun _ => Ind.pure _) ?_
  · cases e
    split
    · exact fine_fill st h
    · exact h
  · refine Ind.bind (ind_modify fun _ => rfl) fun _ => Ind.bind (ind_sendEvent _) fun _ => Ind.bind (ind_modify fun _ => rfl) fun _ => Ind.chk (ind_headerOf _) ?_
    exact fun s hs => Ind.bind (ind_sendEvent (.streamHeader s.header)) (fun _ => Ind.pure true) s hs

theorem ind_footerZlib (a : BitVec 32) : Ind FineR (readFooterZlib a) (readFooterZlib a) := by
  unfold readFooterZlib
  exact ind_needBytes _ _ fun _ => Ind.ite (ind_fail _) (Ind.pure _)

theorem ind_footerGZIP (c : BitVec 32) : Ind FineR (readFooterGZIP c) (readFooterGZIP c) := by
  unfold readFooterGZIP
  refine ind_needBytes _ _ fun p => ind_needBytes _ _ fun q s hs => ?_
  refine ⟨rfl, ?_⟩
  split
  · exact (ind_fail _ s hs).2
  · split
    · exact (ind_fail _ s hs).2
    · exact fun _ _ e => by cases e; exact hs

theorem ind_footerOf (f : Format) (a c : BitVec 32) : Ind FineR (readFooterOf f a c) (readFooterOf f a c) := by
  cases f with
  | default => exact Ind.panic _
  | raw => exact Ind.pure _
  | zlib => exact ind_footerZlib a
  | gzip => exact ind_footerGZIP c

theorem ind_footer : Ind FineR readFooter readFooter := by
  unfold readFooter
  refine Ind.bind (ind_onInp fun _ i _ => ⟨rfl, fun _ _ e => by cases e; exact fine_discard i⟩) fun _ s hs => ?_
  exact Ind.bind (ind_sendEvent _) (fun _ => Ind.chk (ind_footerOf _ _ _) (Ind.bind (ind_sendEvent _) fun _ => Ind.pure _)) s hs

/-! ### the goroutine -/

theorem ind_stream (hE : LibOK E) (hw : 32 ≤ w) : Ind FineR (readStream E) (readStream (at_ w E)) := by
  unfold readStream
  exact Ind.chk ind_header (Ind.bind (ind_modify fun _ => rfl) fun _ => Ind.bind (ind_blocks hE hw) fun _ => Ind.bind (ind_onOut _) fun _ => ind_footer)

theorem ind_streamLoop (hE : LibOK E) (hw : 32 ≤ w) : ∀ fuel, Ind FineR (streamLoop E fuel) (streamLoop (at_ w E) fuel)
  | 0 => Ind.panic _
  | fuel + 1 => by
    intro s hs
    unfold streamLoop
    split
    · obtain ⟨h1, h2⟩ := ind_stream hE hw s hs
      rw [h1]
      rcases hx : readStream E s with p | ⟨b, t⟩
      · exact ⟨rfl, fun _ _ e => by cases e⟩
      · have ht := h2 b t hx
        cases b
        · exact ⟨rfl, fun _ _ e => by cases e; exact ht⟩
        · exact ind_streamLoop hE hw fuel t ht
    · exact ⟨rfl, fun _ _ e => by cases e; exact hs⟩

theorem ind_finish : Ind FineR finishThread finishThread :=
  Ind.bind (ind_onInp fun _ i h => ⟨rfl, fun _ _ e => by cases e; exact ⟨h.len, h.lt⟩⟩) fun _ => ind_propagate _

theorem ind_thread (hE : LibOK E) (hw : 32 ≤ w) : Ind FineR (readThread E) (readThread (at_ w E)) := by
  unfold readThread
  exact Ind.bind (ind_modify fun _ => rfl) fun _ => Ind.bind (fun s hs => ind_streamLoop hE hw _ s hs) fun _ => ind_finish

end
end Flate.Proof.R.Word
