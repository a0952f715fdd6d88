/-
How the source cuts its bytes in pieces does not matter: functions of the Reader do the same when everything the source
will deliver is already in the input buffer.
-/
import Verif.Proof.RStreamOk

namespace Flate.Proof.R
open Flate.Spec Flate.Model Flate.Model.Rd

/-- Everything is in the buffer. -/
def norm (i : Inp) : Inp :=
  { i with
    buf := i.buf ++ (if i.inputError.isSome then [] else i.src.bytes)
    src := if i.inputError.isSome then i.src else ⟨[], [], i.src.err⟩
    inputError := some (i.inputError.getD i.src.err) }

theorem norm_some {i : Inp} {e : Err} (h : i.inputError = some e) : norm i = i := by
  obtain ⟨a, b, c, d, f, g, k, l⟩ := i
  simp only at h
  subst h
  simp [norm]

theorem norm_err (i : Inp) : (norm i).inputError = some (i.inputError.getD i.src.err) := rfl

theorem norm_allB (i : Inp) (h : i.inputError = none ∨ i.src.bytes = []) : (norm i).buf = allB i := by
  unfold norm allB
  rcases h with h | h
  · simp [h]
  · simp [h]

def mapN {α : Type} : Except Panic (α × Inp) → Except Panic (α × Inp)
  | .ok (a, i) => .ok (a, norm i)
  | .error e => .error e

theorem norm_fill (i : Inp) (h : i.buf = []) : norm (fill false i) = norm i := by
  unfold fill
  cases he : i.inputError with
  | some e => simp
  | none =>
    simp only [Option.isSome_none, Bool.false_eq_true, if_false]
    rcases hf : i.src.full with _ | ⟨⟨b, bs⟩, cs⟩
    · simp [norm, he, Src.bytes, hf]
    · simp [norm, he, Src.bytes, hf]

theorem fill_nil (i : Inp) (h : (fill false i).buf = []) : (fill false i).inputError.isSome = true := by
  unfold fill at h ⊢
  cases he : i.inputError with
  | some e => simp [he]
  | none =>
    simp only [he, Option.isSome_none, Bool.false_eq_true, if_false] at h ⊢
    rcases hf : i.src.full with _ | ⟨⟨b, bs⟩, cs⟩
    · simp
    · rw [hf] at h; simp at h

theorem norm_popByte (i : Inp) : popByte false (norm i) = ((popByte false i).1, norm (popByte false i).2) ∧
    ((popByte false i).1 = none → (popByte false i).2.inputError.isSome = true) := by
  have key : ∀ j : Inp, norm j = norm i → (j.buf = [] → j.inputError.isSome = true) → 
      (popByte false (norm i)).1 = j.buf.head? ∧ (popByte false (norm i)).2 = norm { j with buf := j.buf.tail } := by
    intro j hj hn
    rw [← hj]
    rcases hb : j.buf with _ | ⟨b, r⟩
    · obtain ⟨e, he⟩ := Option.isSome_iff_exists.1 (hn hb)
      rw [norm_some he, popByte_nil he hb]
      refine ⟨rfl, ?_⟩
      rw [norm_some (i := { j with buf := ([] : List UInt8).tail }) (e := e) he]
      obtain ⟨_, _, _, _, _, _, _, _⟩ := j
      simp only at hb; subst hb; rfl
    · have : (norm j).buf = b :: (r ++ (if j.inputError.isSome then [] else j.src.bytes)) := by simp [norm, hb]
      rw [popByte_cons this]
      exact ⟨rfl, rfl⟩
  have hp : popByte false i = ((refill false i).buf.head?, { refill false i with buf := (refill false i).buf.tail }) := by
    rw [popByte_def]
    rcases hb : (refill false i).buf with _ | ⟨b, r⟩
    · simp only [List.head?_nil, List.tail_nil]
      congr 1
      rw [← hb]
    · rfl
  have h1 : norm (refill false i) = norm i := by
    unfold refill
    split
    · rename_i h; exact norm_fill i (by simpa using h)
    · rfl
  have h2 : (refill false i).buf = [] → (refill false i).inputError.isSome = true := by
    unfold refill
    split
    · exact fill_nil i
    · intro h; simp [h] at *
  obtain ⟨k1, k2⟩ := key _ h1 h2
  rw [hp]
  refine ⟨Prod.ext k1 k2, fun h => h2 ?_⟩
  simpa using h

theorem norm_countIn (p : List UInt8) (i : Inp) : norm (countIn p i) = countIn p (norm i) := rfl

theorem norm_popBytes : ∀ (n : Nat) (i : Inp), popBytes false n (norm i) = ((popBytes false n i).1, norm (popBytes false n i).2) ∧
    ((popBytes false n i).1.length ≠ n → (popBytes false n i).2.inputError.isSome = true)
  | 0, i => ⟨rfl, fun h => absurd rfl h⟩
  | n + 1, i => by
    obtain ⟨h1, h2⟩ := norm_popByte i
    unfold popBytes
    rw [h1]
    rcases hp : popByte false i with ⟨_ | b, j⟩
    · rw [hp] at h2
      exact ⟨rfl, fun _ => h2 rfl⟩
    · simp only []
      obtain ⟨k1, k2⟩ := norm_popBytes n j
      rw [k1]
      rcases hq : popBytes false n j with ⟨r, j'⟩
      rw [hq] at k2
      exact ⟨rfl, fun h => k2 (by simpa using h)⟩

theorem norm_bufRead (n : Nat) (i : Inp) : bufRead false n (norm i) = ((bufRead false n i).1, norm (bufRead false n i).2) ∧
    ((bufRead false n i).1.2 = false → (bufRead false n i).2.inputError.isSome = true) := by
  unfold bufRead
  by_cases hn : n = 0
  · simp only [hn, if_true]; exact ⟨rfl, fun h => by simp at h⟩
  · simp only [hn, if_false]
    obtain ⟨h1, h2⟩ := norm_popBytes n (Rd.discard i)
    rw [show Rd.discard (norm i) = norm (Rd.discard i) from rfl, h1]
    rcases hp : popBytes false n (Rd.discard i) with ⟨p, j⟩
    rw [hp] at h2
    exact ⟨rfl, fun h => h2 (by simpa using h)⟩

theorem norm_stringZ : ∀ (fuel : Nat) (acc : List UInt8) (i : Inp), stringZLoop false fuel acc (norm i) = mapN (stringZLoop false fuel acc i) ∧
    (∀ str j, stringZLoop false fuel acc i = .ok ((str, false), j) → j.inputError.isSome = true)
  | 0, _, _ => ⟨rfl, fun _ _ h => by cases h⟩
  | fuel + 1, acc, i => by
    obtain ⟨h1, h2⟩ := norm_popByte i
    unfold stringZLoop
    rw [h1]
    rcases hp : popByte false i with ⟨_ | b, j⟩
    · rw [hp] at h2
      exact ⟨rfl, fun _ _ h => by cases h; exact h2 rfl⟩
    · simp only []
      by_cases hb : b = 0
      · simp only [hb, if_true]
        exact ⟨rfl, fun _ _ h => by cases h⟩
      · simp only [hb, if_false]
        exact norm_stringZ fuel (acc ++ [b]) (countIn [b] j)

theorem norm_size (i : Inp) : (norm i).size = i.size := by
  unfold norm Inp.size
  cases h : i.inputError <;> simp [Src.bytes]

theorem norm_bits (i : Inp) : (norm i).bits = i.bits := by
  unfold Inp.bits; rw [norm_size]; rfl

/-- an operation on the input does the same -/
def Ci {α : Type} (f : Go Inp α) : Prop := ∀ i, f (norm i) = mapN (f i)

theorem Ci.bind {α β : Type} {f : Go Inp α} {g : α → Go Inp β} (h : Ci f) (hg : ∀ a, Ci (g a)) : Ci (f >>= g) := by
  intro i
  rw [Go.bind_apply, Go.bind_apply, h i]
  rcases f i with e | ⟨a, j⟩
  · rfl
  · exact hg a j

theorem ci_fillLoop (W n : Nat) : ∀ (fuel : Nat), Ci (bitsFillLoop W false n fuel)
  | 0 => fun _ => rfl
  | fuel + 1 => fun i => by
    unfold bitsFillLoop
    simp only []
    by_cases hl : i.ibLen < n
    · rw [if_pos hl, if_pos (show (norm i).ibLen < n from hl)]
      obtain ⟨h1, h2⟩ := norm_popByte i
      rw [h1]
      rcases popByte false i with ⟨_ | b, j⟩
      · rfl
      · exact ci_fillLoop W n fuel { countIn [b] j with ibBlock := j.ibBlock ||| ((b.toNat <<< j.ibLen) % 2 ^ W), ibLen := j.ibLen + 8 }
    · rw [if_neg hl, if_neg (show ¬ (norm i).ibLen < n from hl)]
      rfl

theorem fillLoop_none (W n : Nat) : ∀ (fuel : Nat) (i j : Inp), bitsFillLoop W false n fuel i = .ok (false, j) → j.inputError.isSome = true
  | 0, _, _ => fun h => by cases h
  | fuel + 1, i, j => fun h => by
    unfold bitsFillLoop at h
    simp only [] at h
    by_cases hl : i.ibLen < n
    · rw [if_pos hl] at h
      obtain ⟨h1, h2⟩ := norm_popByte i
      rcases hp : popByte false i with ⟨_ | b, k⟩
      · rw [hp] at h2 h
        cases h
        exact h2 rfl
      · rw [hp] at h
        exact fillLoop_none W n fuel _ _ h
    · rw [if_neg hl] at h; cases h

theorem ci_bitsFill (W n : Nat) : Ci (bitsFill W false n) := by
  unfold bitsFill
  refine Ci.bind (fun i => ?_) fun _ => ci_fillLoop _ _ _
  unfold Go.assert; split <;> rfl

theorem bitsFill_none (W n : Nat) {i j : Inp} (h : bitsFill W false n i = .ok (false, j)) : j.inputError.isSome = true := by
  unfold bitsFill at h
  rw [Go.bind_eq_ok] at h
  obtain ⟨_, s1, h1, h2⟩ := h
  exact fillLoop_none _ _ _ _ _ h2

theorem ci_bitsPeek (W n : Nat) : Ci (bitsPeek W n) := by
  intro i
  unfold bitsPeek
  show (if n ≤ i.ibLen then _ else _) = _
  split <;> rfl

theorem ci_bitsCommit (n : Nat) : Ci (bitsCommit n) := by
  intro i
  unfold bitsCommit
  show (if n ≤ i.ibLen then _ else _) = _
  split <;> rfl

theorem ci_pure {α : Type} (a : α) : Ci (pure a) := fun _ => rfl

theorem ci_bitsRead (W n : Nat) : Ci (bitsRead W n) := by
  unfold bitsRead
  exact (ci_bitsPeek W n).bind fun _ => (ci_bitsCommit n).bind fun _ => ci_pure _

theorem ci_symbolLoop (L : HuffLib) (W : Nat) (lens : List Nat) : ∀ (fuel n : Nat), Ci (symbolLoop L W false lens fuel n)
  | 0, _ => fun _ => rfl
  | fuel + 1, n => by
    unfold symbolLoop
    split
    · refine (ci_bitsFill W n).bind fun ok => ?_
      split
      · exact ci_pure _
      · refine (ci_bitsPeek W n).bind fun out => ?_
        split
        · exact (ci_bitsCommit n).bind fun _ => ci_pure _
        · split
          · exact ci_pure _
          · exact ci_symbolLoop L W lens fuel _
    · exact ci_pure _

/-! ### the whole Reader -/

def nrm (s : RState) : RState := { s with inp := norm s.inp }

def mapS {α : Type} : Except Panic (α × RState) → Except Panic (α × RState)
  | .ok (a, i) => .ok (a, nrm i)
  | .error e => .error e

/-- The function does the same when everything is in the buffer. -/
def Cm {α : Type} (f : Go RState α) : Prop := ∀ s : RState, s.out.stopIsForced = false →
  f (nrm s) = mapS (f s) ∧ ∀ a s', f s = .ok (a, s') → s'.out.stopIsForced = false

section
variable {α β : Type} {E : Env}

theorem Cm.bind {f : Go RState α} {g : α → Go RState β} (h : Cm f) (hg : ∀ a, Cm (g a)) : Cm (f >>= g) := by
  intro s hs
  obtain ⟨h1, h2⟩ := h s hs
  rw [Go.bind_apply, Go.bind_apply, h1]
  rcases hf : f s with e | ⟨a, s1⟩
  · exact ⟨rfl, fun _ _ h => by cases h⟩
  · exact hg a s1 (h2 _ _ hf)

theorem Cm.chk {x y : Go RState Bool} (h : Cm x) (hg : Cm y) : Cm (Go.chk x y) := by
  intro s hs
  obtain ⟨h1, h2⟩ := h s hs
  unfold Go.chk
  rw [h1]
  rcases hf : x s with e | ⟨a, s1⟩
  · exact ⟨rfl, fun _ _ h => by cases h⟩
  · have h3 := h2 _ _ hf
    cases a with
    | true => exact hg s1 h3
    | false => exact ⟨rfl, fun _ _ h => by cases h; exact h3⟩

theorem Cm.pure (a : α) : Cm (Pure.pure a : Go RState α) := fun s hs => ⟨rfl, fun _ _ h => by cases h; exact hs⟩
theorem Cm.panic (p : Panic) : Cm (Go.panic p : Go RState α) := fun s hs => ⟨rfl, fun _ _ h => by cases h⟩
theorem Cm.lift (x : Except Panic α) : Cm (Go.lift x : Go RState α) := fun s hs => by
  cases x with
  | error e => exact ⟨rfl, fun _ _ h => by cases h⟩
  | ok a => exact ⟨rfl, fun _ _ h => by cases h; exact hs⟩

theorem Cm.modify {g : RState → RState} (h : ∀ s, g (nrm s) = nrm (g s)) (hs : ∀ s, (g s).out.stopIsForced = s.out.stopIsForced) : Cm (Go.modify g) :=
  fun s h0 => ⟨by simp [h s, mapS], fun _ _ h => by cases h; rw [hs, h0]⟩

theorem Cm.read {π : Type} (proj : RState → π) (h : ∀ s, proj (nrm s) = proj s) {F : π → Go RState α} (hF : ∀ v, Cm (F v)) : Cm (fun s => F (proj s) s) := by
  intro s hs
  show F (proj (nrm s)) (nrm s) = _ ∧ _
  rw [h]
  exact hF _ s hs

theorem Cm.onInp {f : Bool → Go Inp α} (h : Ci (f false)) : Cm (onInp f) := by
  intro s hs
  unfold Rd.onInp
  show (match f s.out.stopIsForced (norm s.inp) with | .ok (a, i) => _ | .error e => _) = _ ∧ _
  rw [hs, h]
  rcases f false s.inp with e | ⟨a, i⟩
  · exact ⟨rfl, fun _ _ h => by cases h⟩
  · exact ⟨rfl, fun _ _ h => by cases h; exact hs⟩

theorem Cm.onOut {f : Out → α × Out} (h : ∀ o, o.stopIsForced = false → (f o).2.stopIsForced = false) : Cm (onOut f) :=
  fun s hs => ⟨rfl, fun _ _ e => by cases e; exact h _ hs⟩

theorem Cm.congr {f g : Go RState α} (h : ∀ s, f s = g s) (hg : Cm g) : Cm f := by rw [funext h]; exact hg

theorem Cm.ite {c : Prop} [Decidable c] {f g : Go RState α} (hf : Cm f) (hg : Cm g) : Cm (if c then f else g) := by split; exacts [hf, hg]

theorem cm_close (e : Err) : Cm (closeWithError e) := by
  unfold closeWithError
  refine Cm.onOut fun o ho => ?_
  split <;> exact ho

theorem cm_corruptf (m : Spec.Problem) : Cm (corruptf m) :=
  Cm.read (fun s => (s.inp.inTotal, s.inp.inStream)) (fun _ => rfl) (F := fun v => closeWithError (.corrupt v.1 v.2 m)) fun _ => cm_close _

theorem cm_fail (m : Spec.Problem) : Cm (fail m) := (cm_corruptf m).bind fun _ => .pure _

/-- after an attempt to read which failed -/
theorem exhausted_norm (fl : α) {s : RState} (hs : s.out.stopIsForced = false) (h : s.inp.inputError.isSome = true) :
    exhausted fl (nrm s) = mapS (exhausted fl s) ∧ ∀ a s', exhausted fl s = .ok (a, s') → s'.out.stopIsForced = false := by
  obtain ⟨e, he⟩ := Option.isSome_iff_exists.1 h
  have : nrm s = s := by unfold nrm; rw [norm_some he]
  rw [this, exhausted_eq fl he]
  refine ⟨?_, fun _ _ h => by cases h; rw [closeOut_stop]; exact hs⟩
  unfold mapS nrm
  simp only [norm_some he]

theorem cm_needBits (fl : α) (n : Nat) {k : Nat → Go RState α} (hk : ∀ v, Cm (k v)) : Cm (needBits E fl n k) := by
  intro s hs
  unfold needBits
  have h := Cm.onInp (f := fun st => bitsFill E.W st n) (ci_bitsFill E.W n) s hs
  obtain ⟨h1, h2⟩ := h
  rw [Go.bind_apply, Go.bind_apply, h1]
  rcases hf : Rd.onInp (fun st => bitsFill E.W st n) s with e | ⟨ok, s1⟩
  · exact ⟨rfl, fun _ _ h => by cases h⟩
  · have hs1 := h2 _ _ hf
    cases ok with
    | true =>
      exact (Cm.onInp (f := fun _ => bitsRead E.W n) (ci_bitsRead E.W n)).bind hk s1 hs1
    | false =>
      refine exhausted_norm fl hs1 ?_
      unfold Rd.onInp at hf
      simp only [] at hf
      rw [hs] at hf
      rcases hb : bitsFill E.W false n s.inp with e | ⟨a, i⟩
      · rw [hb] at hf; cases hf
      · rw [hb] at hf; cases hf
        exact bitsFill_none _ _ hb

theorem cm_needBytes (fl : α) (n : Nat) {k : List UInt8 → Go RState α} (hk : ∀ v, Cm (k v)) : Cm (needBytes fl n k) := by
  intro s hs
  obtain ⟨h1, h2⟩ := norm_bufRead n s.inp
  have e1 : ∀ s : RState, s.out.stopIsForced = false → Rd.onInp (fun st i => .ok (bufRead st n i)) s = .ok ((bufRead false n s.inp).1, { s with inp := (bufRead false n s.inp).2 }) := by
    intro s hs
    unfold Rd.onInp
    rw [hs]
  unfold needBytes
  rw [Go.bind_ok (e1 s hs), Go.bind_ok (e1 (nrm s) hs)]
  rw [show (nrm s).inp = norm s.inp from rfl, h1]
  rcases hb : bufRead false n s.inp with ⟨⟨p, ok⟩, j⟩
  rw [hb] at h2
  cases ok with
  | true => exact hk p { s with inp := j } hs
  | false => exact exhausted_norm (s := { s with inp := j }) fl hs (h2 rfl)

theorem cm_readSymbol (lens : List Nat) : Cm (readSymbol E lens) := Cm.onInp (ci_symbolLoop _ _ _ _ _)

theorem cm_addBits (fl : α) (n base : Nat) {k : Nat → Go RState α} (hk : ∀ v, Cm (k v)) : Cm (addBits E fl n base k) := by
  unfold addBits
  exact .ite (cm_needBits fl n fun _ => hk _) (hk _)

theorem cm_sendEvent (k : EvKind) : Cm (sendEvent k) := Cm.modify (fun _ => rfl) fun _ => rfl
theorem cm_modHeader (f : Header → Header) : Cm (modHeader f) := Cm.modify (fun _ => rfl) fun _ => rfl

theorem cm_setZlib : Cm setZlib := fun s hs => ⟨rfl, fun _ _ h => by cases h; exact hs⟩
theorem cm_setGzip : Cm setGzip := fun s hs => ⟨rfl, fun _ _ h => by cases h; exact hs⟩
theorem cm_readHeaderRaw : Cm readHeaderRaw := fun s hs => ⟨rfl, fun _ _ h => by cases h; exact hs⟩

theorem cm_readHeaderZlib : Cm (readHeaderZlib E) := by
  unfold readHeaderZlib
  refine cm_needBytes _ _ fun p => ?_
  refine .ite (cm_fail _) (.ite (cm_fail _) ((cm_modHeader _).bind fun _ => .ite (cm_fail _) ((cm_modHeader _).bind fun _ => .ite (cm_needBytes _ _ fun q => ?_) ?_)))
  · split
    · exact cm_fail _
    · exact .ite (cm_fail _) cm_setZlib
  · split
    · exact cm_fail _
    · exact cm_setZlib

theorem cm_gzExtraData (b : Bool) : Cm (gzExtraData b) := by
  unfold gzExtraData
  exact .ite (cm_needBytes _ _ fun _ => cm_needBytes _ _ fun _ => (Cm.lift _).bind fun _ => (cm_modHeader _).bind fun _ => .pure _) (.pure _)

theorem cm_gzStr (b : Bool) (f : List UInt8 → Header → Header) : Cm (gzStr b f) := by
  unfold gzStr
  refine .ite ?_ (.pure _)
  intro s hs
  have e1 : ∀ s : RState, s.out.stopIsForced = false → Rd.onInp readStringZ s = match stringZLoop false (s.inp.size + 1) [] s.inp with | .ok (a, i) => .ok (a, { s with inp := i }) | .error e => .error e := by
    intro s hs
    unfold Rd.onInp readStringZ
    rw [hs]
    rcases stringZLoop false (s.inp.size + 1) [] s.inp with e | ⟨a, i⟩ <;> rfl
  obtain ⟨h1, h2⟩ := norm_stringZ (s.inp.size + 1) [] s.inp
  rw [Go.bind_apply, Go.bind_apply, e1 s hs, e1 (nrm s) hs]
  rw [show (nrm s).inp = norm s.inp from rfl, norm_size, h1]
  rcases hb : stringZLoop false (s.inp.size + 1) [] s.inp with e | ⟨⟨str, ok⟩, j⟩
  · exact ⟨rfl, fun _ _ h => by cases h⟩
  · cases ok with
    | true => exact (cm_modHeader (f str)).bind (fun _ => .pure true) { s with inp := j } hs
    | false => exact exhausted_norm (s := { s with inp := j }) false hs (h2 _ _ hb)

theorem cm_gzCRC (b : Bool) : Cm (gzCRC b) := by
  refine Cm.read (fun s => s.inp.crc) (fun _ => rfl) (F := gzCRC16 b) fun v => ?_
  unfold gzCRC16
  exact .ite (cm_needBytes _ _ fun _ => .ite (cm_fail _) (.pure _)) (.pure _)

theorem cm_readHeaderGZIP : Cm readHeaderGZIP := by
  unfold readHeaderGZIP
  refine (Cm.onInp fun _ => rfl).bind fun _ => cm_needBytes _ _ fun p => ?_
  exact .ite (cm_fail _) (.ite (cm_fail _) ((cm_modHeader _).bind fun _ => .ite (cm_fail _) ((cm_modHeader _).bind fun _ =>
    (cm_gzExtraData _).chk ((cm_gzStr _ _).chk ((cm_gzStr _ _).chk ((cm_gzCRC _).chk cm_setGzip))))))

theorem cm_readHeaderOf {f : Format} (hf : f ≠ .default) : Cm (readHeaderOf E f) := by
  cases f with
  | default => exact absurd rfl hf
  | raw => exact cm_readHeaderRaw
  | zlib => exact cm_readHeaderZlib
  | gzip => exact cm_readHeaderGZIP

theorem cm_readFooter : Cm readFooter := by
  unfold readFooter
  refine (Cm.onInp fun _ => rfl).bind fun _ => Cm.read (fun s => (s.out.adler, s.out.crc, s.actualFormat)) (fun _ => rfl)
    (F := fun v => (do
      sendEvent (.streamEnd v.1 v.2.1)
      Go.chk (readFooterOf v.2.2 v.1 v.2.1) do
        sendEvent .streamClose
        Pure.pure true : Go RState Bool)) fun v => ?_
  refine (cm_sendEvent _).bind fun _ => Cm.chk ?_ ((cm_sendEvent _).bind fun _ => .pure _)
  unfold readFooterOf
  split
  · exact .pure _
  · exact cm_needBytes _ _ fun _ => .ite (cm_fail _) (.pure _)
  · refine cm_needBytes _ _ fun p => cm_needBytes _ _ fun q => ?_
    have h : Cm (fun s => (fun n => if leVal p ≠ v.2.1.toNat then fail (.gzipSum (leVal p) v.2.1.toNat)
      else if leVal q ≠ n % 2 ^ 32 then fail (.gzipLength (leVal q) (n % 2 ^ 32)) else Pure.pure true : Nat → Go RState Bool) s.out.outStream s) :=
      Cm.read (fun s => s.out.outStream) (fun _ => rfl) (F := fun n => if leVal p ≠ v.2.1.toNat then fail (.gzipSum (leVal p) v.2.1.toNat)
      else if leVal q ≠ n % 2 ^ 32 then fail (.gzipLength (leVal q) (n % 2 ^ 32)) else Pure.pure true) fun n => Cm.ite (cm_fail _) (Cm.ite (cm_fail _) (Cm.pure _))
    refine h.congr fun s => ?_
    simp only []
    split
    · rfl
    · split <;> rfl
  · exact .panic _


theorem cm_dbWrite (hE : Env.Open E) (p : List UInt8) : Cm (dbWrite E p) := by
  intro s hs
  obtain ⟨o', h1, h2⟩ := emit_dbWrite hE p hs
  have h3 : dbWrite E p (nrm s) = .ok ((), { nrm s with out := o' }) := by
    unfold dbWrite at h1 ⊢
    rw [show (nrm s).out = s.out from rfl]
    rcases hd : dbWriteLoop E (p.length + 1) p s.out with e | o1
    · rw [hd] at h1; cases h1
    · rw [hd] at h1
      simp only [Except.ok.injEq, Prod.mk.injEq, true_and, RState.mk.injEq] at h1
      rw [h1.1]
  rw [h1, h3]
  exact ⟨rfl, fun _ _ h => by cases h; exact h2.stop.trans hs⟩

theorem cm_dbWriteByte (hE : Env.Open E) (c : UInt8) : Cm (dbWriteByte E c) := by
  unfold dbWriteByte
  refine Cm.onOut fun o ho => ?_
  have := (emit_tryFlush hE ho).1.stop.trans ho
  simp only []
  split <;> exact this

theorem cm_copyLoop (hE : Env.Open E) (d : Nat) : ∀ n, Cm (copyLoop E d n)
  | 0 => .pure _
  | n + 1 => by
    have h : Cm (fun s => (fun x : Option UInt8 => (match x with
      | none => fail (.tooFar d (2 ^ E.o.wbits))
      | some ch => (do dbWriteByte E ch; copyLoop E d n : Go RState Bool) : Go RState Bool)) (lookupByte s.out.window d) s) := by
      refine Cm.read (fun s => lookupByte s.out.window d) (fun _ => rfl) (F := fun x : Option UInt8 => match x with
        | none => fail (.tooFar d (2 ^ E.o.wbits))
        | some ch => (do dbWriteByte E ch; copyLoop E d n : Go RState Bool)) fun v => ?_
      cases v with
      | none => exact cm_fail _
      | some c => exact (cm_dbWriteByte hE c).bind fun _ => cm_copyLoop hE d n
    refine h.congr fun s => ?_
    conv => lhs; unfold copyLoop
    simp only []
    rcases lookupByte s.out.window d with _ | c <;> rfl

theorem cm_copyMatch (hE : Env.Open E) (d l : Nat) : Cm (copyMatch E d l) := by
  have h : Cm (fun s => (fun x : Option (List UInt8) => (match x with
    | none => fail (.tooFar d (2 ^ E.o.wbits))
    | some p => (do
      Go.modify fun s => { s with out := { s.out with nLook := s.out.nLook + 1 } }
      dbWrite E p
      copyLoop E d (l - p.length) : Go RState Bool) : Go RState Bool)) (lookupSlice s.out.window d l (E.clip s.out.nLook)) s) := by
    refine Cm.read (fun s => lookupSlice s.out.window d l (E.clip s.out.nLook)) (fun _ => rfl) (F := fun x : Option (List UInt8) => match x with
      | none => fail (.tooFar d (2 ^ E.o.wbits))
      | some p => (do
        Go.modify fun s => { s with out := { s.out with nLook := s.out.nLook + 1 } }
        dbWrite E p
        copyLoop E d (l - p.length) : Go RState Bool)) fun v => ?_
    cases v with
    | none => exact cm_fail _
    | some p => exact Cm.bind (Cm.modify (fun _ => rfl) fun _ => rfl) fun _ => (cm_dbWrite hE p).bind fun _ => cm_copyLoop hE d _
  refine h.congr fun s => ?_
  unfold copyMatch
  rcases lookupSlice s.out.window d l (E.clip s.out.nLook) with _ | c <;> rfl

theorem cm_decodeLL (sym : Nat) : Cm (decodeLL E sym) := by
  unfold decodeLL
  refine .ite (.pure _) (.ite (.pure _) ?_)
  split
  · exact (cm_corruptf _).bind fun _ => .pure _
  · exact cm_addBits _ _ _ fun _ => (Cm.lift _).bind fun _ => .pure _

theorem cm_decodeD (sym len : Nat) : Cm (decodeD E sym len) := by
  unfold decodeD
  split
  · exact (cm_corruptf _).bind fun _ => .pure _
  · exact cm_addBits _ _ _ fun _ => (Cm.lift _).bind fun _ => .pure _

theorem cm_huffLoop (hE : Env.Open E) (hLL hD : List Nat) : ∀ fuel, Cm (huffLoop E hLL hD fuel)
  | 0 => .panic _
  | fuel + 1 => by
    unfold huffLoop
    refine (cm_readSymbol _).bind fun x => ?_
    split
    · exact cm_fail _
    · refine (cm_decodeLL _).bind fun y => ?_
      split
      · exact .pure _
      · refine .ite (.ite (.pure _) ((cm_dbWriteByte hE _).bind fun _ => cm_huffLoop hE hLL hD fuel)) ?_
        refine (cm_readSymbol _).bind fun x => ?_
        split
        · exact cm_fail _
        · refine (cm_decodeD _ _).bind fun y => ?_
          split
          · exact .pure _
          · exact (cm_copyMatch hE _ _).chk (cm_huffLoop hE hLL hD fuel)

theorem cm_huff (hE : Env.Open E) (hLL hD : List Nat) : Cm (decodeHuffmanBlock E hLL hD) :=
  Cm.read (fun s => s.inp.bits + 1) (fun s => by rw [show (nrm s).inp = norm s.inp from rfl, norm_bits]) (F := huffLoop E hLL hD) fun v => cm_huffLoop hE _ _ v

theorem cm_static (hE : Env.Open E) (b : Bool) : Cm (readStatic E b) := (cm_sendEvent _).bind fun _ => cm_huff hE _ _

theorem cm_stored (hE : Env.Open E) : Cm (readStored E) := by
  unfold readStored
  exact cm_needBytes _ _ fun _ => cm_needBytes _ _ fun _ => .ite (cm_fail _) (cm_needBytes _ _ fun _ => (cm_dbWrite hE _).bind fun _ => .pure _)

theorem cm_readCL : ∀ (is sX : List Nat), Cm (readCL E is sX)
  | [], _ => .pure _
  | i :: is, sX => cm_needBits _ _ fun _ => cm_readCL is _

theorem cm_decodeX (sym total : Nat) (acc : List Nat) : Cm (decodeX E sym total acc) := by
  unfold decodeX
  exact .ite (.ite (.pure _) (.panic _)) (.ite (.ite ((cm_corruptf _).bind fun _ => .pure _)
      (cm_needBits _ _ fun _ => .ite ((cm_corruptf _).bind fun _ => .pure _) (.ite (.pure _) (.panic _))))
    (.ite (cm_needBits _ _ fun _ => .ite ((cm_corruptf _).bind fun _ => .pure _) (.pure _))
      (.ite (cm_needBits _ _ fun _ => .ite ((cm_corruptf _).bind fun _ => .pure _) (.pure _)) (.pure _))))

theorem cm_lensLoop (lens : List Nat) (total : Nat) : ∀ (fuel : Nat) (acc : List Nat), Cm (lensLoop E lens total fuel acc)
  | 0, _ => .panic _
  | fuel + 1, acc => by
    unfold lensLoop
    refine .ite ((cm_readSymbol _).bind fun x => ?_) (.pure _)
    split
    · exact (cm_corruptf _).bind fun _ => .pure _
    · refine (cm_decodeX _ _ _).bind fun y => ?_
      split
      · exact .pure _
      · exact cm_lensLoop lens total fuel _

theorem cm_lensStart (lens : List Nat) (total : Nat) : Cm (lensStart E lens total) :=
  Cm.read (fun s => s.inp.bits + 1) (fun s => by rw [show (nrm s).inp = norm s.inp from rfl, norm_bits]) (F := fun n => lensLoop E lens total n []) fun v => cm_lensLoop _ _ v []

theorem cm_checkCounts (a b : Nat) : Cm (checkCounts a b) := by
  unfold checkCounts
  split <;> split <;> first
    | exact (cm_corruptf _).bind fun _ => cm_corruptf _
    | exact (cm_corruptf _).bind fun _ => .pure _
    | exact cm_corruptf _
    | exact .pure _

theorem cm_trees (b : Bool) : Cm (readDynamicTrees E b) := by
  unfold readDynamicTrees
  refine cm_needBits _ _ fun out => (cm_checkCounts _ _).bind fun _ => (cm_readCL _ _).bind fun x => ?_
  split
  · exact .pure _
  · refine .ite ((cm_corruptf _).bind fun _ => .pure _) ((cm_lensStart _ _).bind fun y => ?_)
    split
    · exact .pure _
    · exact .ite ((cm_corruptf _).bind fun _ => .pure _) (.ite ((cm_corruptf _).bind fun _ => .pure _) ((cm_sendEvent _).bind fun _ => .pure _))

theorem cm_dynamic (hE : Env.Open E) (b : Bool) : Cm (readDynamic E b) := by
  unfold readDynamic
  refine (cm_trees b).bind fun x => ?_
  split
  · exact .pure _
  · exact cm_huff hE _ _

theorem cm_flateBlock (hE : Env.Open E) : Cm (readFlateBlock E) := by
  unfold readFlateBlock
  refine cm_needBits _ _ fun out => (cm_sendEvent _).bind fun _ => Cm.bind ?_ fun _ => .ite ((cm_sendEvent _).bind fun _ => .pure _) (.pure _)
  unfold readBlockOf
  split
  · exact cm_stored hE
  · exact cm_static hE _
  · exact cm_dynamic hE _
  · exact cm_fail _

theorem cm_blockLoop (hE : Env.Open E) : ∀ fuel, Cm (blockLoop E fuel)
  | 0 => .panic _
  | fuel + 1 => by
    unfold blockLoop
    refine (cm_flateBlock hE).bind fun x => ?_
    split
    · exact cm_blockLoop hE fuel
    · exact .pure _

theorem cm_readBlocks (hE : Env.Open E) : Cm (readBlocks E) :=
  Cm.read (fun s => s.inp.bits + 1) (fun s => by rw [show (nrm s).inp = norm s.inp from rfl, norm_bits]) (F := blockLoop E) fun v => cm_blockLoop hE v

theorem cm_headRest (hf : E.o.format ≠ .default) : Cm (headRest E) := by
  unfold headRest
  refine Cm.bind (Cm.modify (fun _ => rfl) fun _ => rfl) fun _ => (cm_sendEvent _).bind fun _ => Cm.bind (Cm.modify (fun _ => rfl) fun _ => rfl) fun _ => (cm_readHeaderOf hf).chk ?_
  exact Cm.read (fun s => s.header) (fun _ => rfl) (F := fun h => (do sendEvent (.streamHeader h); Pure.pure true : Go RState Bool)) fun v => (cm_sendEvent _).bind fun _ => .pure _

theorem cm_bodyRest (hE : Env.Open E) : Cm (bodyRest E) := by
  unfold bodyRest
  exact Cm.bind (Cm.modify (fun _ => rfl) fun _ => rfl) fun _ => (cm_readBlocks hE).bind fun _ =>
    Cm.bind (Cm.onOut fun o ho => (emit_mustFlush hE ho).1.stop.trans ho) fun _ => cm_readFooter

theorem norm_refill (i : Inp) : norm (refill false i) = norm i := by
  unfold refill
  split
  · rename_i h; exact norm_fill _ (by simpa using h)
  · rfl

theorem refill_norm (i : Inp) : refill false (norm i) = norm i := by
  unfold refill
  split
  · simp [fill, norm_err]
  · rfl

theorem filled_nrm {s : RState} (hs : s.out.stopIsForced = false) : filled (nrm s) = nrm (filled s) := by
  unfold filled nrm
  simp only [hs]
  rw [norm_refill]
  rw [show ({ norm s.inp with inStream := 0 } : Inp) = norm { s.inp with inStream := 0 } from rfl, refill_norm]

end

/-- with another format -/
def asF (E : Env) (f : Format) : Env := { E with o := { E.o with format := f } }
section
variable (E : Env) (f : Format)

theorem as_needBits {α : Type} (fl : α) : needBits (asF E f) fl = needBits E fl := rfl
theorem as_readSymbol : readSymbol (asF E f) = readSymbol E := rfl
set_option smartUnfolding false in
theorem as_dbWriteLoop : dbWriteLoop (asF E f) = dbWriteLoop E := rfl
theorem as_dbWrite : dbWrite (asF E f) = dbWrite E := by unfold dbWrite; rw [as_dbWriteLoop]
theorem as_dbWriteByte : dbWriteByte (asF E f) = dbWriteByte E := rfl
set_option smartUnfolding false in
theorem as_huffLoop : huffLoop (asF E f) = huffLoop E := rfl
theorem as_huff : decodeHuffmanBlock (asF E f) = decodeHuffmanBlock E := by unfold decodeHuffmanBlock; rw [as_huffLoop]
theorem as_static : readStatic (asF E f) = readStatic E := by unfold readStatic; rw [as_huff]
theorem as_stored : readStored (asF E f) = readStored E := by unfold readStored; rw [as_dbWrite]
set_option smartUnfolding false in
theorem as_readCL : readCL (asF E f) = readCL E := rfl
theorem as_decodeX : decodeX (asF E f) = decodeX E := rfl
set_option smartUnfolding false in
theorem as_lensLoop : lensLoop (asF E f) = lensLoop E := rfl
theorem as_lensStart : lensStart (asF E f) = lensStart E := by unfold lensStart; rw [as_lensLoop]
theorem as_trees : readDynamicTrees (asF E f) = readDynamicTrees E := by unfold readDynamicTrees; rw [as_needBits, as_readCL, as_lensStart]; rfl
theorem as_dynamic : readDynamic (asF E f) = readDynamic E := by unfold readDynamic; rw [as_trees, as_huff]
theorem as_block : readFlateBlock (asF E f) = readFlateBlock E := by
  unfold readFlateBlock readBlockOf; rw [as_needBits, as_stored, as_static, as_dynamic]
theorem as_blockLoop : ∀ n, blockLoop (asF E f) n = blockLoop E n
  | 0 => rfl
  | n + 1 => by unfold blockLoop; rw [as_block, as_blockLoop n]
theorem as_blocks : readBlocks (asF E f) = readBlocks E := by
  funext s; exact congrFun (as_blockLoop E f _) s
theorem as_body : bodyRest (asF E f) = bodyRest E := by unfold bodyRest; rw [as_blocks]; rfl
theorem as_headerOf (g : Format) : readHeaderOf (asF E f) g = readHeaderOf E g := by cases g <;> rfl
end

/-- how a stream is read when it was recognised -/
theorem readStream_detect (E : Env) (s : RState) (hb : (filled s).inp.buf ≠ []) :
    readStream E s = readStream (asF E (fmtOf (detect E.o.format (filled s).inp.buf))) s := by
  have e : (filled s).inp.buf.isEmpty = false := by simpa using hb
  rw [readStream_split, readStream_split, e, as_body]
  simp only [Bool.false_eq_true, if_false]
  refine chk_congr _ ?_
  unfold headRest
  refine (Go.bind_ok (Go.modify_apply _ _)).trans ?_
  refine (Go.bind_ok (sendEvent_eq _ _)).trans ?_
  refine (Go.bind_ok (Go.modify_apply _ _)).trans ?_
  refine Eq.symm ?_
  refine (Go.bind_ok (Go.modify_apply _ _)).trans ?_
  refine (Go.bind_ok (sendEvent_eq _ _)).trans ?_
  refine (Go.bind_ok (Go.modify_apply _ _)).trans ?_
  refine chk_congr _ ?_
  rw [as_headerOf]
  have : ∀ t : RState, t.inp = (filled s).inp → readHeaderOf E (fmtOf (detect E.o.format (filled s).inp.buf)) t = readHeaderOf E E.o.format t :=
    fun t ht => by rw [← ht]; exact (readHeaderOf_detect E E.o.format t).symm
  exact this _ rfl

theorem cm_readStream {E : Env} (hE : Env.Open E) {s : RState} (hs : s.out.stopIsForced = false) (hb : (filled s).inp.buf ≠ []) :
    readStream (asF E (fmtOf (detect E.o.format (filled s).inp.buf))) (nrm s) = mapS (readStream E s) := by
  rw [readStream_detect E s hb]
  obtain ⟨f, hf⟩ : ∃ f, f = fmtOf (detect E.o.format (filled s).inp.buf) := ⟨_, rfl⟩
  have hne : f ≠ .default := by rw [hf]; exact fmtOf_ne _
  rw [← hf]
  have e : (filled s).inp.buf.isEmpty = false := by simpa using hb
  have e' : (nrm (filled s)).inp.buf.isEmpty = false := by
    have : (filled s).inp.buf ++ (if (filled s).inp.inputError.isSome then [] else (filled s).inp.src.bytes) ≠ [] := by simp [hb]
    simpa [nrm, norm] using this
  rw [readStream_split, readStream_split, filled_nrm hs, e, e']
  simp only [Bool.false_eq_true, if_false]
  have hE' : Env.Open (asF E f) := hE
  have hs' : (filled s).out.stopIsForced = false := hs
  exact ((cm_headRest (E := asF E f) hne).chk (cm_bodyRest hE') (filled s) hs').1

end Flate.Proof.R
