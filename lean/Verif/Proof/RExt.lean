/-
A function of the Reader which does not reach the end of the input does the same when there is more input.
-/
import Verif.Proof.RNorm

namespace Flate.Proof.R
open Flate.Spec Flate.Model Flate.Model.Rd

/-- more input -/
def ext (x : List UInt8) (i : Inp) : Inp := { i with src := { i.src with last := i.src.last ++ x } }

theorem ext_fill (x : List UInt8) (st : Bool) (i : Inp) (h : (fill st i).inputError = none) :
    i.inputError = none ∧ fill st (ext x i) = ext x (fill st i) := by
  unfold fill at h ⊢
  cases he : i.inputError with
  | some e => simp [he] at h
  | none =>
    refine ⟨rfl, ?_⟩
    have he' : (ext x i).inputError = none := he
    simp only [he, he', Option.isSome_none, Bool.false_eq_true, if_false] at h ⊢
    cases st with
    | true => simp at h
    | false =>
      simp only [Bool.false_eq_true, if_false] at h ⊢
      rcases hf : i.src.full with _ | ⟨⟨b, bs⟩, cs⟩
      · rw [hf] at h; simp at h
      · have : (ext x i).src.full = (b, bs) :: cs := hf
        rw [this]; rfl

theorem ext_refill (x : List UInt8) (st : Bool) (i : Inp) (h : (refill st i).inputError = none) :
    i.inputError = none ∧ refill st (ext x i) = ext x (refill st i) := by
  unfold refill at h ⊢
  have : (ext x i).buf = i.buf := rfl
  rw [this]
  split
  · rename_i hb
    rw [if_pos hb] at h
    exact ext_fill x st i h
  · rename_i hb
    rw [if_neg hb] at h
    exact ⟨h, rfl⟩

theorem ext_popByte (x : List UInt8) (st : Bool) (i : Inp) (h : (popByte st i).2.inputError = none) :
    i.inputError = none ∧ popByte st (ext x i) = ((popByte st i).1, ext x (popByte st i).2) := by
  rw [popByte_def] at h
  rw [popByte_def, popByte_def]
  have hr : (refill st i).inputError = none := by
    rcases hb : (refill st i).buf with _ | ⟨b, r⟩
    · rw [hb] at h; exact h
    · rw [hb] at h; exact h
  obtain ⟨h1, h2⟩ := ext_refill x st i hr
  refine ⟨h1, ?_⟩
  rw [h2]
  have : (ext x (refill st i)).buf = (refill st i).buf := rfl
  rw [this]
  rcases (refill st i).buf with _ | ⟨b, r⟩ <;> rfl

theorem ext_popBytes (x : List UInt8) (st : Bool) : ∀ (n : Nat) (i : Inp), (popBytes st n i).2.inputError = none →
    i.inputError = none ∧ popBytes st n (ext x i) = ((popBytes st n i).1, ext x (popBytes st n i).2)
  | 0, i => fun h => ⟨h, rfl⟩
  | n + 1, i => by
    unfold popBytes
    rcases hp : popByte st i with ⟨_ | b, j⟩
    · intro h
      have := ext_popByte x st i (by rw [hp]; exact h)
      rw [this.2, hp]
      exact ⟨this.1, rfl⟩
    · simp only []
      rcases hq : popBytes st n j with ⟨r, j'⟩
      intro h
      have h1 := ext_popBytes x st n j (by rw [hq]; exact h)
      have h2 := ext_popByte x st i (by rw [hp]; exact h1.1)
      rw [h2.2, hp]
      simp only []
      rw [h1.2, hq]
      exact ⟨h2.1, rfl⟩

theorem ext_bufRead (x : List UInt8) (st : Bool) (n : Nat) (i : Inp) (h : (bufRead st n i).2.inputError = none) :
    i.inputError = none ∧ bufRead st n (ext x i) = ((bufRead st n i).1, ext x (bufRead st n i).2) := by
  unfold bufRead at h ⊢
  by_cases hn : n = 0
  · simp only [hn, if_true] at h ⊢; exact ⟨h, rfl⟩
  · simp only [hn, if_false] at h ⊢
    have h1 := ext_popBytes x st n (Rd.discard i) h
    rw [show Rd.discard (ext x i) = ext x (Rd.discard i) from rfl, h1.2]
    exact ⟨h1.1, rfl⟩

/-- `f'` does with more input the same as `f` does, unless `f` reaches the end of the input -/
def Ei {α : Type} (x : List UInt8) (f f' : Go Inp α) : Prop := ∀ i a i', f i = .ok (a, i') → i'.inputError = none →
  i.inputError = none ∧ f' (ext x i) = .ok (a, ext x i')

theorem ei_stringZ (x : List UInt8) (st : Bool) : ∀ (n m : Nat) (acc : List UInt8), n ≤ m → Ei x (stringZLoop st n acc) (stringZLoop st m acc)
  | 0, _, _, _ => fun _ _ _ h => by cases h
  | n + 1, 0, _, h => by omega
  | n + 1, m + 1, acc, hnm => by
    intro i a i' h hn
    unfold stringZLoop at h ⊢
    rcases hp : popByte st i with ⟨_ | b, j⟩
    · rw [hp] at h
      cases h
      have := ext_popByte x st i (by rw [hp]; exact hn)
      rw [this.2, hp]
      exact ⟨this.1, rfl⟩
    · rw [hp] at h
      simp only [] at h
      by_cases hb : b = 0
      · rw [if_pos hb] at h
        cases h
        have := ext_popByte x st i (by rw [hp]; exact hn)
        rw [this.2, hp]
        simp only [hb, if_true]
        exact ⟨this.1, rfl⟩
      · rw [if_neg hb] at h
        have h1 := ei_stringZ x st n m (acc ++ [b]) (by omega) (countIn [b] j) a i' h hn
        have := ext_popByte x st i (by rw [hp]; exact h1.1)
        rw [this.2, hp]
        simp only [hb, if_false]
        exact ⟨this.1, h1.2⟩

section
variable {α β : Type} {x : List UInt8}

theorem Ei.bind {f f' : Go Inp α} {g g' : α → Go Inp β} (h : Ei x f f') (hg : ∀ a, Ei x (g a) (g' a)) : Ei x (f >>= g) (f' >>= g') := by
  intro i a i' e hn
  rw [Go.bind_eq_ok] at e
  obtain ⟨b, j, e1, e2⟩ := e
  obtain ⟨h1, h2⟩ := hg b j a i' e2 hn
  obtain ⟨h3, h4⟩ := h i b j e1 h1
  exact ⟨h3, (Go.bind_ok h4).trans h2⟩

theorem ei_fillLoop (W n : Nat) (st : Bool) : ∀ (fuel : Nat), Ei x (bitsFillLoop W st n fuel) (bitsFillLoop W st n fuel)
  | 0 => fun _ _ _ h => by cases h
  | fuel + 1 => fun i a i' h hn => by
    unfold bitsFillLoop at h ⊢
    by_cases hl : i.ibLen < n
    · rw [if_pos hl] at h
      rw [if_pos (show (ext x i).ibLen < n from hl)]
      rcases hp : popByte st i with ⟨_ | b, j⟩
      · rw [hp] at h
        cases h
        have := ext_popByte x st i (by rw [hp]; exact hn)
        rw [this.2, hp]
        exact ⟨this.1, rfl⟩
      · rw [hp] at h
        have h1 := ei_fillLoop W n st fuel { countIn [b] j with ibBlock := j.ibBlock ||| ((b.toNat <<< j.ibLen) % 2 ^ W), ibLen := j.ibLen + 8 } a i' h hn
        have := ext_popByte x st i (by rw [hp]; exact h1.1)
        rw [this.2, hp]
        exact ⟨this.1, h1.2⟩
    · rw [if_neg hl] at h
      rw [if_neg (show ¬ (ext x i).ibLen < n from hl)]
      cases h
      exact ⟨hn, rfl⟩

theorem ei_bitsFill (W n : Nat) (st : Bool) : Ei x (bitsFill W st n) (bitsFill W st n) := by
  unfold bitsFill
  refine Ei.bind (fun i a i' h hn => ?_) fun _ => ei_fillLoop _ _ _ _
  unfold Go.assert at h ⊢
  split at h
  · cases h; rename_i hh; rw [if_pos hh]; exact ⟨hn, rfl⟩
  · cases h

theorem ei_bitsPeek (W n : Nat) : Ei x (bitsPeek W n) (bitsPeek W n) := by
  intro i a i' h hn
  unfold bitsPeek at h ⊢
  split at h
  · cases h; rename_i hh; rw [if_pos (show n ≤ (ext x i).ibLen from hh)]; exact ⟨hn, rfl⟩
  · cases h

theorem ei_bitsCommit (n : Nat) : Ei x (bitsCommit n) (bitsCommit n) := by
  intro i a i' h hn
  unfold bitsCommit at h ⊢
  split at h
  · cases h; rename_i hh; rw [if_pos (show n ≤ (ext x i).ibLen from hh)]; exact ⟨hn, rfl⟩
  · cases h

theorem ei_pure (a : α) : Ei x (pure a) (pure a) := fun _ _ _ h hn => by cases h; exact ⟨hn, rfl⟩

theorem ei_bitsRead (W n : Nat) : Ei x (bitsRead W n) (bitsRead W n) := by
  unfold bitsRead
  exact (ei_bitsPeek W n).bind fun _ => (ei_bitsCommit n).bind fun _ => ei_pure _

theorem ei_symbolLoop (L : HuffLib) (W : Nat) (st : Bool) (lens : List Nat) : ∀ (fuel n : Nat), Ei x (symbolLoop L W st lens fuel n) (symbolLoop L W st lens fuel n)
  | 0, _ => fun _ _ _ h => by cases h
  | fuel + 1, n => by
    unfold symbolLoop
    split
    · refine (ei_bitsFill W n st).bind fun ok => ?_
      split
      · exact ei_pure _
      · refine (ei_bitsPeek W n).bind fun out => ?_
        split
        · exact (ei_bitsCommit n).bind fun _ => ei_pure _
        · split
          · exact ei_pure _
          · exact ei_symbolLoop L W st lens fuel _
    · exact ei_pure _

end

/-! ### the whole Reader -/

def extS (x : List UInt8) (s : RState) : RState := { s with inp := ext x s.inp }

def Ex2 {α : Type} (x : List UInt8) (f f' : Go RState α) : Prop := ∀ s a s', f s = .ok (a, s') → s'.inp.inputError = none →
  s.inp.inputError = none ∧ f' (extS x s) = .ok (a, extS x s')

/-- The function does the same when there is more input, unless it reaches the end. -/
def Ex {α : Type} (f : Go RState α) : Prop := ∀ x, Ex2 x f f

section
variable {α β : Type} {E : Env}

theorem Ex2.bind {x : List UInt8} {f f' : Go RState α} {g g' : α → Go RState β} (h : Ex2 x f f') (hg : ∀ a, Ex2 x (g a) (g' a)) : Ex2 x (f >>= g) (f' >>= g') := by
  intro i a i' e hn
  rw [Go.bind_eq_ok] at e
  obtain ⟨b, j, e1, e2⟩ := e
  obtain ⟨h1, h2⟩ := hg b j a i' e2 hn
  obtain ⟨h3, h4⟩ := h i b j e1 h1
  exact ⟨h3, (Go.bind_ok h4).trans h2⟩

theorem Ex.bind {f : Go RState α} {g : α → Go RState β} (h : Ex f) (hg : ∀ a, Ex (g a)) : Ex (f >>= g) :=
  fun x => (h x).bind fun a => hg a x

theorem Ex2.chk {x : List UInt8} {p p' q q' : Go RState Bool} (h : Ex2 x p p') (hg : Ex2 x q q') : Ex2 x (Go.chk p q) (Go.chk p' q') := by
  intro s a s' e hn
  unfold Go.chk at e ⊢
  rcases hf : p s with e' | ⟨b, s1⟩
  · rw [hf] at e; cases e
  · rw [hf] at e
    cases b with
    | true =>
      obtain ⟨h1, h2⟩ := hg s1 a s' e hn
      obtain ⟨h3, h4⟩ := h s _ _ hf h1
      rw [h4]
      exact ⟨h3, h2⟩
    | false =>
      cases e
      obtain ⟨h3, h4⟩ := h s _ _ hf hn
      rw [h4]
      exact ⟨h3, rfl⟩

theorem Ex.chk {p q : Go RState Bool} (h : Ex p) (hg : Ex q) : Ex (Go.chk p q) := fun x => (h x).chk (hg x)

theorem Ex.pure (a : α) : Ex (Pure.pure a : Go RState α) := fun _ _ _ _ h hn => by cases h; exact ⟨hn, rfl⟩
theorem Ex.panic (p : Panic) : Ex (Go.panic p : Go RState α) := fun _ _ _ _ h => by cases h
theorem Ex.lift (y : Except Panic α) : Ex (Go.lift y : Go RState α) := fun _ _ _ _ h hn => by
  cases y with
  | error e => cases h
  | ok a => cases h; exact ⟨hn, rfl⟩

theorem Ex.modify {g : RState → RState} (h : ∀ x s, g (extS x s) = extS x (g s)) (hs : ∀ s, (g s).inp.inputError = s.inp.inputError) : Ex (Go.modify g) :=
  fun x s _ _ e hn => by cases e; exact ⟨by rw [← hs]; exact hn, by simp [h x s]⟩

theorem Ex.read {π : Type} (proj : RState → π) (h : ∀ x s, proj (extS x s) = proj s) {F : π → Go RState α} (hF : ∀ v, Ex (F v)) : Ex (fun s => F (proj s) s) := by
  intro x s a s' e hn
  show _ ∧ F (proj (extS x s)) (extS x s) = _
  rw [h]
  exact hF _ x s a s' e hn

theorem Ex2.onInp {x : List UInt8} {f f' : Bool → Go Inp α} (h : ∀ st, Ei x (f st) (f' st)) : Ex2 x (onInp f) (onInp f') := by
  intro s a s' e hn
  unfold Rd.onInp at e ⊢
  rcases hf : f s.out.stopIsForced s.inp with p | ⟨b, i⟩
  · rw [hf] at e; cases e
  · rw [hf] at e; cases e
    obtain ⟨h1, h2⟩ := h _ _ _ _ hf hn
    refine ⟨h1, ?_⟩
    show (match f' s.out.stopIsForced (ext x s.inp) with | .ok (a, i) => _ | .error e => _) = _
    rw [h2]
    rfl

theorem Ex.onInp {f : Bool → Go Inp α} (h : ∀ x st, Ei x (f st) (f st)) : Ex (onInp f) := fun x => Ex2.onInp (h x)

theorem Ex.onOut {f : Out → α × Out} : Ex (onOut f) := fun _ s _ _ e hn => by cases e; exact ⟨hn, rfl⟩

theorem Ex.congr {f g : Go RState α} (h : ∀ s, f s = g s) (hg : Ex g) : Ex f := by rw [funext h]; exact hg

theorem Ex.ite {c : Prop} [Decidable c] {f g : Go RState α} (hf : Ex f) (hg : Ex g) : Ex (if c then f else g) := by split; exacts [hf, hg]

theorem ex_close (e : Err) : Ex (closeWithError e) := Ex.onOut

theorem ex_corruptf (m : Spec.Problem) : Ex (corruptf m) :=
  Ex.read (fun s => (s.inp.inTotal, s.inp.inStream)) (fun _ _ => rfl) (F := fun v => closeWithError (.corrupt v.1 v.2 m)) fun _ => ex_close _

theorem ex_fail (m : Spec.Problem) : Ex (fail m) := (ex_corruptf m).bind fun _ => .pure _

theorem ex_propagate (b : Bool) : Ex (propagateError b) := by
  intro x s a s' e hn
  unfold propagateError at e ⊢
  have : (extS x s).inp.inputError = s.inp.inputError := rfl
  rw [this]
  rcases he : s.inp.inputError with _ | er
  · rw [he] at e; cases e; exact ⟨rfl, rfl⟩
  · rw [he] at e
    simp only [] at e
    rw [closeWithError_eq] at e; cases e
    have hn : s.inp.inputError = none := hn
    rw [he] at hn; cases hn

theorem ex_exhausted (a : α) : Ex (exhausted a) := (ex_propagate true).bind fun _ => .pure _

theorem ex_needBits (fl : α) (n : Nat) {k : Nat → Go RState α} (hk : ∀ v, Ex (k v)) : Ex (needBits E fl n k) := by
  unfold needBits
  exact (Ex.onInp fun _ st => ei_bitsFill E.W n st).bind fun ok => .ite (ex_exhausted _) ((Ex.onInp fun _ _ => ei_bitsRead E.W n).bind hk)

theorem ex_needBytes (fl : α) (n : Nat) {k : List UInt8 → Go RState α} (hk : ∀ v, Ex (k v)) : Ex (needBytes fl n k) := by
  unfold needBytes
  refine Ex.bind (Ex.onInp fun x st i a i' e hn => ?_) fun y => ?_
  · have e' : bufRead st n i = (a, i') := Except.ok.inj e
    obtain ⟨h1, h2⟩ := ext_bufRead x st n i (by rw [e']; exact hn)
    exact ⟨h1, by rw [h2, e']⟩
  · obtain ⟨p, ok⟩ := y
    exact .ite (ex_exhausted _) (hk _)

theorem ex_readSymbol (lens : List Nat) : Ex (readSymbol E lens) := Ex.onInp fun _ _ => ei_symbolLoop _ _ _ _ _ _

theorem ex_addBits (fl : α) (n base : Nat) {k : Nat → Go RState α} (hk : ∀ v, Ex (k v)) : Ex (addBits E fl n base k) := by
  unfold addBits
  exact .ite (ex_needBits fl n fun _ => hk _) (hk _)

theorem ex_sendEvent (k : EvKind) : Ex (sendEvent k) := Ex.modify (fun _ _ => rfl) fun _ => rfl
theorem ex_modHeader (f : Header → Header) : Ex (modHeader f) := Ex.modify (fun _ _ => rfl) fun _ => rfl

theorem ex_setZlib : Ex setZlib := fun _ _ _ _ h hn => by cases h; exact ⟨hn, rfl⟩
theorem ex_setGzip : Ex setGzip := fun _ _ _ _ h hn => by cases h; exact ⟨hn, rfl⟩
theorem ex_readHeaderRaw : Ex readHeaderRaw := fun _ _ _ _ h hn => by cases h; exact ⟨hn, rfl⟩

theorem ex_readHeaderZlib : Ex (readHeaderZlib E) := by
  unfold readHeaderZlib
  refine ex_needBytes _ _ fun p => ?_
  refine .ite (ex_fail _) (.ite (ex_fail _) ((ex_modHeader _).bind fun _ => .ite (ex_fail _) ((ex_modHeader _).bind fun _ => .ite (ex_needBytes _ _ fun q => ?_) ?_)))
  · split
    · exact ex_fail _
    · exact .ite (ex_fail _) ex_setZlib
  · split
    · exact ex_fail _
    · exact ex_setZlib

theorem ex_gzExtraData (b : Bool) : Ex (gzExtraData b) := by
  unfold gzExtraData
  exact .ite (ex_needBytes _ _ fun _ => ex_needBytes _ _ fun _ => (Ex.lift _).bind fun _ => (ex_modHeader _).bind fun _ => .pure _) (.pure _)

theorem ex_gzStr (b : Bool) (f : List UInt8 → Header → Header) : Ex (gzStr b f) := by
  unfold gzStr
  refine .ite (Ex.bind (Ex.onInp fun x st i a i' h hn => ei_stringZ x st _ _ [] ?_ i a i' h hn) fun y => ?_) (.pure _)
  · simp [Inp.size, ext, Src.bytes]
  · obtain ⟨p, ok⟩ := y
    exact .ite (ex_exhausted _) ((ex_modHeader _).bind fun _ => .pure _)

theorem ex_gzCRC (b : Bool) : Ex (gzCRC b) := by
  refine Ex.read (fun s => s.inp.crc) (fun _ _ => rfl) (F := gzCRC16 b) fun v => ?_
  unfold gzCRC16
  exact .ite (ex_needBytes _ _ fun _ => .ite (ex_fail _) (.pure _)) (.pure _)

theorem ex_readHeaderGZIP : Ex readHeaderGZIP := by
  unfold readHeaderGZIP
  refine (Ex.onInp fun _ _ _ _ _ h hn => by cases h; exact ⟨hn, rfl⟩).bind fun _ => ex_needBytes _ _ fun p => ?_
  exact .ite (ex_fail _) (.ite (ex_fail _) ((ex_modHeader _).bind fun _ => .ite (ex_fail _) ((ex_modHeader _).bind fun _ =>
    (ex_gzExtraData _).chk ((ex_gzStr _ _).chk ((ex_gzStr _ _).chk ((ex_gzCRC _).chk ex_setGzip))))))

theorem ex_readHeaderOf {f : Format} (hf : f ≠ .default) : Ex (readHeaderOf E f) := by
  cases f with
  | default => exact absurd rfl hf
  | raw => exact ex_readHeaderRaw
  | zlib => exact ex_readHeaderZlib
  | gzip => exact ex_readHeaderGZIP

theorem ex_readFooter : Ex readFooter := by
  unfold readFooter
  refine (Ex.onInp fun _ _ _ _ _ h hn => by cases h; exact ⟨hn, rfl⟩).bind fun _ => Ex.read (fun s => (s.out.adler, s.out.crc, s.actualFormat)) (fun _ _ => rfl)
    (F := fun v => (do
      sendEvent (.streamEnd v.1 v.2.1)
      Go.chk (readFooterOf v.2.2 v.1 v.2.1) do
        sendEvent .streamClose
        Pure.pure true : Go RState Bool)) fun v => ?_
  refine (ex_sendEvent _).bind fun _ => Ex.chk ?_ ((ex_sendEvent _).bind fun _ => .pure _)
  unfold readFooterOf
  split
  · exact .pure _
  · exact ex_needBytes _ _ fun _ => .ite (ex_fail _) (.pure _)
  · refine ex_needBytes _ _ fun p => ex_needBytes _ _ fun q => ?_
    have h : Ex (fun s => (fun n => if leVal p ≠ v.2.1.toNat then fail (.gzipSum (leVal p) v.2.1.toNat)
      else if leVal q ≠ n % 2 ^ 32 then fail (.gzipLength (leVal q) (n % 2 ^ 32)) else Pure.pure true : Nat → Go RState Bool) s.out.outStream s) :=
      Ex.read (fun s => s.out.outStream) (fun _ _ => rfl) (F := fun n => if leVal p ≠ v.2.1.toNat then fail (.gzipSum (leVal p) v.2.1.toNat)
      else if leVal q ≠ n % 2 ^ 32 then fail (.gzipLength (leVal q) (n % 2 ^ 32)) else Pure.pure true) fun n => Ex.ite (ex_fail _) (Ex.ite (ex_fail _) (Ex.pure _))
    refine h.congr fun s => ?_
    simp only []
    split
    · rfl
    · split <;> rfl
  · exact .panic _


theorem ex_dbWrite (p : List UInt8) : Ex (dbWrite E p) := by
  intro x s a s' e hn
  unfold dbWrite at e ⊢
  rw [show (extS x s).out = s.out from rfl]
  rcases hd : dbWriteLoop E (p.length + 1) p s.out with er | o1
  · rw [hd] at e; cases e
  · rw [hd] at e; cases e
    exact ⟨hn, rfl⟩

theorem ex_dbWriteByte (c : UInt8) : Ex (dbWriteByte E c) := Ex.onOut

theorem ex_copyLoop (d : Nat) : ∀ n, Ex (copyLoop E d n)
  | 0 => .pure _
  | n + 1 => by
    have h : Ex (fun s => (fun x : Option UInt8 => (match x with
      | none => fail (.tooFar d (2 ^ E.o.wbits))
      | some ch => (do dbWriteByte E ch; copyLoop E d n : Go RState Bool) : Go RState Bool)) (lookupByte s.out.window d) s) := by
      refine Ex.read (fun s => lookupByte s.out.window d) (fun _ _ => rfl) (F := fun x : Option UInt8 => match x with
        | none => fail (.tooFar d (2 ^ E.o.wbits))
        | some ch => (do dbWriteByte E ch; copyLoop E d n : Go RState Bool)) fun v => ?_
      cases v with
      | none => exact ex_fail _
      | some c => exact (ex_dbWriteByte c).bind fun _ => ex_copyLoop d n
    refine h.congr fun s => ?_
    conv => lhs; unfold copyLoop
    simp only []
    rcases lookupByte s.out.window d with _ | c <;> rfl

theorem ex_copyMatch (d l : Nat) : Ex (copyMatch E d l) := by
  have h : Ex (fun s => (fun x : Option (List UInt8) => (match x with
    | none => fail (.tooFar d (2 ^ E.o.wbits))
    | some p => (do
      Go.modify fun s => { s with out := { s.out with nLook := s.out.nLook + 1 } }
      dbWrite E p
      copyLoop E d (l - p.length) : Go RState Bool) : Go RState Bool)) (lookupSlice s.out.window d l (E.clip s.out.nLook)) s) := by
    refine Ex.read (fun s => lookupSlice s.out.window d l (E.clip s.out.nLook)) (fun _ _ => rfl) (F := fun x : Option (List UInt8) => match x with
      | none => fail (.tooFar d (2 ^ E.o.wbits))
      | some p => (do
        Go.modify fun s => { s with out := { s.out with nLook := s.out.nLook + 1 } }
        dbWrite E p
        copyLoop E d (l - p.length) : Go RState Bool)) fun v => ?_
    cases v with
    | none => exact ex_fail _
    | some p => exact Ex.bind (Ex.modify (fun _ _ => rfl) fun _ => rfl) fun _ => (ex_dbWrite p).bind fun _ => ex_copyLoop d _
  refine h.congr fun s => ?_
  unfold copyMatch
  rcases lookupSlice s.out.window d l (E.clip s.out.nLook) with _ | c <;> rfl

theorem ex_decodeLL (sym : Nat) : Ex (decodeLL E sym) := by
  unfold decodeLL
  refine .ite (.pure _) (.ite (.pure _) ?_)
  split
  · exact (ex_corruptf _).bind fun _ => .pure _
  · exact ex_addBits _ _ _ fun _ => (Ex.lift _).bind fun _ => .pure _

theorem ex_decodeD (sym len : Nat) : Ex (decodeD E sym len) := by
  unfold decodeD
  split
  · exact (ex_corruptf _).bind fun _ => .pure _
  · exact ex_addBits _ _ _ fun _ => (Ex.lift _).bind fun _ => .pure _

theorem ex_huffLoop (x : List UInt8) (hLL hD : List Nat) : ∀ n m, n ≤ m → Ex2 x (huffLoop E hLL hD n) (huffLoop E hLL hD m)
  | 0, _, _ => fun _ _ _ h => by cases h
  | n + 1, 0, h => by omega
  | n + 1, m + 1, hnm => by
    have ih := ex_huffLoop x hLL hD n m (by omega)
    unfold huffLoop
    refine (ex_readSymbol _ x).bind fun y => ?_
    split
    · exact ex_fail _ x
    · refine (ex_decodeLL _ x).bind fun y => ?_
      split
      · exact Ex.pure _ x
      · split
        · split
          · exact Ex.pure _ x
          · exact (ex_dbWriteByte _ x).bind fun _ => ih
        · refine (ex_readSymbol _ x).bind fun y => ?_
          split
          · exact ex_fail _ x
          · refine (ex_decodeD _ _ x).bind fun y => ?_
            split
            · exact Ex.pure _ x
            · exact (ex_copyMatch _ _ x).chk ih

theorem ext_bits (x : List UInt8) (i : Inp) : i.bits + 1 ≤ (ext x i).bits + 1 := by
  simp [Inp.bits, Inp.size, ext, Src.bytes]
  omega

theorem ex_huff (hLL hD : List Nat) : Ex (decodeHuffmanBlock E hLL hD) :=
  fun x s a s' e hn => ex_huffLoop x hLL hD _ _ (ext_bits x s.inp) s a s' e hn

theorem ex_static (b : Bool) : Ex (readStatic E b) := (ex_sendEvent _).bind fun _ => ex_huff _ _

theorem ex_stored : Ex (readStored E) := by
  unfold readStored
  exact ex_needBytes _ _ fun _ => ex_needBytes _ _ fun _ => .ite (ex_fail _) (ex_needBytes _ _ fun _ => (ex_dbWrite _).bind fun _ => .pure _)

theorem ex_readCL : ∀ (is sX : List Nat), Ex (readCL E is sX)
  | [], _ => .pure _
  | i :: is, sX => ex_needBits _ _ fun _ => ex_readCL is _

theorem ex_decodeX (sym total : Nat) (acc : List Nat) : Ex (decodeX E sym total acc) := by
  unfold decodeX
  exact .ite (.ite (.pure _) (.panic _)) (.ite (.ite ((ex_corruptf _).bind fun _ => .pure _)
      (ex_needBits _ _ fun _ => .ite ((ex_corruptf _).bind fun _ => .pure _) (.ite (.pure _) (.panic _))))
    (.ite (ex_needBits _ _ fun _ => .ite ((ex_corruptf _).bind fun _ => .pure _) (.pure _))
      (.ite (ex_needBits _ _ fun _ => .ite ((ex_corruptf _).bind fun _ => .pure _) (.pure _)) (.pure _))))

theorem ex_lensLoop (x : List UInt8) (lens : List Nat) (total : Nat) : ∀ (n m : Nat) (acc : List Nat), n ≤ m → Ex2 x (lensLoop E lens total n acc) (lensLoop E lens total m acc)
  | 0, _, _, _ => fun _ _ _ h => by cases h
  | n + 1, 0, _, h => by omega
  | n + 1, m + 1, acc, hnm => by
    unfold lensLoop
    split
    · refine (ex_readSymbol _ x).bind fun y => ?_
      split
      · exact (ex_corruptf _ x).bind fun _ => Ex.pure _ x
      · refine (ex_decodeX _ _ _ x).bind fun y => ?_
        split
        · exact Ex.pure _ x
        · exact ex_lensLoop x lens total n m _ (by omega)
    · exact Ex.pure _ x

theorem ex_lensStart (lens : List Nat) (total : Nat) : Ex (lensStart E lens total) :=
  fun x s a s' e hn => ex_lensLoop x lens total _ _ [] (ext_bits x s.inp) s a s' e hn

theorem ex_checkCounts (a b : Nat) : Ex (checkCounts a b) := by
  unfold checkCounts
  split <;> split <;> first
    | exact (ex_corruptf _).bind fun _ => ex_corruptf _
    | exact (ex_corruptf _).bind fun _ => .pure _
    | exact ex_corruptf _
    | exact .pure _

theorem ex_trees (b : Bool) : Ex (readDynamicTrees E b) := by
  unfold readDynamicTrees
  refine ex_needBits _ _ fun out => (ex_checkCounts _ _).bind fun _ => (ex_readCL _ _).bind fun x => ?_
  split
  · exact .pure _
  · refine .ite ((ex_corruptf _).bind fun _ => .pure _) ((ex_lensStart _ _).bind fun y => ?_)
    split
    · exact .pure _
    · exact .ite ((ex_corruptf _).bind fun _ => .pure _) (.ite ((ex_corruptf _).bind fun _ => .pure _) ((ex_sendEvent _).bind fun _ => .pure _))

theorem ex_dynamic (b : Bool) : Ex (readDynamic E b) := by
  unfold readDynamic
  refine (ex_trees b).bind fun x => ?_
  split
  · exact .pure _
  · exact ex_huff _ _

theorem ex_flateBlock : Ex (readFlateBlock E) := by
  unfold readFlateBlock
  refine ex_needBits _ _ fun out => (ex_sendEvent _).bind fun _ => Ex.bind ?_ fun _ => .ite ((ex_sendEvent _).bind fun _ => .pure _) (.pure _)
  unfold readBlockOf
  split
  · exact ex_stored
  · exact ex_static _
  · exact ex_dynamic _
  · exact ex_fail _

theorem ex_blockLoop (x : List UInt8) : ∀ n m, n ≤ m → Ex2 x (blockLoop E n) (blockLoop E m)
  | 0, _, _ => fun _ _ _ h => by cases h
  | n + 1, 0, h => by omega
  | n + 1, m + 1, hnm => by
    unfold blockLoop
    refine (ex_flateBlock x).bind fun y => ?_
    split
    · exact ex_blockLoop x n m (by omega)
    · exact Ex.pure _ x

theorem ex_readBlocks : Ex (readBlocks E) :=
  fun x s a s' e hn => ex_blockLoop x _ _ (ext_bits x s.inp) s a s' e hn

theorem ex_headRest : Ex (headRest E) := by
  unfold headRest
  refine Ex.bind (Ex.modify (fun _ _ => rfl) fun _ => rfl) fun _ => (ex_sendEvent _).bind fun _ => Ex.bind (Ex.modify (fun _ _ => rfl) fun _ => rfl) fun _ => Ex.chk ?_ ?_
  · intro x s a s' e hn
    rw [readHeaderOf_detect] at e ⊢
    exact ex_readHeaderOf (fmtOf_ne _) x s a s' e hn
  · exact Ex.read (fun s => s.header) (fun _ _ => rfl) (F := fun h => (do sendEvent (.streamHeader h); Pure.pure true : Go RState Bool)) fun v => (ex_sendEvent _).bind fun _ => .pure _

theorem ex_bodyRest : Ex (bodyRest E) := by
  unfold bodyRest
  exact Ex.bind (Ex.modify (fun _ _ => rfl) fun _ => rfl) fun _ => ex_readBlocks.bind fun _ => Ex.bind Ex.onOut fun _ => ex_readFooter

/-- reading a stream without reaching the end of the input -/
theorem ext_stream {x : List UInt8} {s s' : RState} {a : Bool} (e : readStream E s = .ok (a, s')) (hn : s'.inp.inputError = none) :
    s.inp.inputError = none ∧ filled (extS x s) = extS x (filled s) ∧ readStream E (extS x s) = .ok (a, extS x s') := by
  rw [readStream_split] at e ⊢
  have hf : (filled s).inp.inputError = none → s.inp.inputError = none ∧ filled (extS x s) = extS x (filled s) := by
    intro h
    obtain ⟨h1, h2⟩ := ext_refill x s.out.stopIsForced { s.inp with inStream := 0 } h
    refine ⟨h1, ?_⟩
    unfold filled extS
    rw [← h2]
    rfl
  by_cases hb : (filled s).inp.buf.isEmpty = true
  · rw [if_pos hb] at e
    obtain ⟨h1, h2⟩ := ((ex_propagate false).bind fun _ => .pure _) x _ a s' e hn
    obtain ⟨h3, h4⟩ := hf h1
    rw [h4, if_pos (show (extS x (filled s)).inp.buf.isEmpty = true from hb)]
    exact ⟨h3, rfl, h2⟩
  · rw [if_neg hb] at e
    obtain ⟨h1, h2⟩ := (ex_headRest.chk ex_bodyRest) x _ a s' e hn
    obtain ⟨h3, h4⟩ := hf h1
    rw [h4, if_neg (show ¬ (extS x (filled s)).inp.buf.isEmpty = true from hb)]
    exact ⟨h3, rfl, h2⟩

end
end Flate.Proof.R
