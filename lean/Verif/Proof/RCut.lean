/-
After `Close` the goroutine finds the end of its input when the input buffer is empty: reading a header is the same as if
that end had been noticed before.
-/
import Verif.Proof.RRun
import Verif.Proof.RFlat
import Verif.Proof.RGrammar

namespace Flate.Proof.R
open Flate.Spec Flate.Model Flate.Model.Rd

/-- The end was noticed. -/
def cut (i : Inp) : Inp := { i with inputError := some (i.inputError.getD .eof) }

theorem cut_some {i : Inp} {e : Err} (h : i.inputError = some e) : cut i = i := by
  obtain ⟨a, b, c, d, f, g, k, l⟩ := i
  simp only at h
  subst h
  rfl

def mapX {α : Type} : Except Panic (α × Inp) → Except Panic (α × Inp)
  | .ok (a, i) => .ok (a, cut i)
  | .error e => .error e

theorem cut_popByte (i : Inp) : popByte true (cut i) = ((popByte true i).1, cut (popByte true i).2) ∧
    ((popByte true i).1 = none → (popByte true i).2.inputError.isSome = true) := by
  rcases hb : i.buf with _ | ⟨b, r⟩
  · have h1 : popByte true (cut i) = (none, cut i) := popByte_nil (e := i.inputError.getD .eof) rfl hb
    rw [h1]
    cases he : i.inputError with
    | some e => rw [popByte_nil he hb]; exact ⟨rfl, fun _ => by simp [he]⟩
    | none =>
      have h2 : popByte true i = (none, cut i) := by
        unfold popByte fill
        simp [hb, he, cut]
      rw [h2]
      exact ⟨rfl, fun _ => rfl⟩
  · rw [popByte_cons hb, popByte_cons (i := cut i) hb]
    exact ⟨rfl, fun h => by cases h⟩

theorem cut_popBytes : ∀ (n : Nat) (i : Inp), popBytes true n (cut i) = ((popBytes true n i).1, cut (popBytes true n i).2) ∧
    ((popBytes true n i).1.length ≠ n → (popBytes true n i).2.inputError.isSome = true)
  | 0, i => ⟨rfl, fun h => absurd rfl h⟩
  | n + 1, i => by
    obtain ⟨h1, h2⟩ := cut_popByte i
    unfold popBytes
    rw [h1]
    rcases hp : popByte true i with ⟨_ | b, j⟩
    · rw [hp] at h2
      exact ⟨rfl, fun _ => h2 rfl⟩
    · simp only []
      obtain ⟨k1, k2⟩ := cut_popBytes n j
      rw [k1]
      rcases hq : popBytes true n j with ⟨r, j'⟩
      rw [hq] at k2
      exact ⟨rfl, fun h => k2 (by simpa using h)⟩

theorem cut_bufRead (n : Nat) (i : Inp) : bufRead true n (cut i) = ((bufRead true n i).1, cut (bufRead true n i).2) ∧
    ((bufRead true n i).1.2 = false → (bufRead true n i).2.inputError.isSome = true) := by
  unfold bufRead
  by_cases hn : n = 0
  · simp only [hn, if_true]; exact ⟨rfl, fun h => by simp at h⟩
  · simp only [hn, if_false]
    obtain ⟨h1, h2⟩ := cut_popBytes n (Rd.discard i)
    rw [show Rd.discard (cut i) = cut (Rd.discard i) from rfl, h1]
    rcases hp : popBytes true n (Rd.discard i) with ⟨p, j⟩
    rw [hp] at h2
    exact ⟨rfl, fun h => h2 (by simpa using h)⟩

theorem cut_stringZ : ∀ (fuel : Nat) (acc : List UInt8) (i : Inp), stringZLoop true fuel acc (cut i) = mapX (stringZLoop true fuel acc i) ∧
    (∀ str j, stringZLoop true fuel acc i = .ok ((str, false), j) → j.inputError.isSome = true)
  | 0, _, _ => ⟨rfl, fun _ _ h => by cases h⟩
  | fuel + 1, acc, i => by
    obtain ⟨h1, h2⟩ := cut_popByte i
    unfold stringZLoop
    rw [h1]
    rcases hp : popByte true i with ⟨_ | b, j⟩
    · rw [hp] at h2
      exact ⟨rfl, fun _ _ h => by cases h; exact h2 rfl⟩
    · simp only []
      by_cases hb : b = 0
      · simp only [hb, if_true]
        exact ⟨rfl, fun _ _ h => by cases h⟩
      · simp only [hb, if_false]
        exact cut_stringZ fuel (acc ++ [b]) (countIn [b] j)

theorem cut_size (i : Inp) : (cut i).size = i.size := rfl

def Cx {α : Type} (f : Go Inp α) : Prop := ∀ i, f (cut i) = mapX (f i)

def lo (s : RState) : RState := { s with inp := cut s.inp }

def mapL {α : Type} : Except Panic (α × RState) → Except Panic (α × RState)
  | .ok (a, i) => .ok (a, lo i)
  | .error e => .error e

/-- The function does the same when the Reader has noticed that it is to stop. -/
def Cs {α : Type} (f : Go RState α) : Prop := ∀ s : RState, s.out.stopIsForced = true →
  f (lo s) = mapL (f s) ∧ ∀ a s', f s = .ok (a, s') → s'.out.stopIsForced = true

section
variable {α β : Type} {E : Env}

theorem Cs.bind {f : Go RState α} {g : α → Go RState β} (h : Cs f) (hg : ∀ a, Cs (g a)) : Cs (f >>= g) := by
  intro s hs
  obtain ⟨h1, h2⟩ := h s hs
  rw [Go.bind_apply, Go.bind_apply, h1]
  rcases hf : f s with e | ⟨a, s1⟩
  · exact ⟨rfl, fun _ _ h => by cases h⟩
  · exact hg a s1 (h2 _ _ hf)

theorem Cs.chk {x y : Go RState Bool} (h : Cs x) (hg : Cs y) : Cs (Go.chk x y) := by
  intro s hs
  obtain ⟨h1, h2⟩ := h s hs
  unfold Go.chk
  rw [h1]
  rcases hf : x s with e | ⟨a, s1⟩
  · exact ⟨rfl, fun _ _ h => by cases h⟩
  · have h3 := h2 _ _ hf
    cases a with
    | true => exact hg s1 h3
    | false => exact ⟨rfl, fun _ _ h => by cases h; exact h3⟩

theorem Cs.pure (a : α) : Cs (Pure.pure a : Go RState α) := fun s hs => ⟨rfl, fun _ _ h => by cases h; exact hs⟩
theorem Cs.panic (p : Panic) : Cs (Go.panic p : Go RState α) := fun s hs => ⟨rfl, fun _ _ h => by cases h⟩
theorem Cs.lift (x : Except Panic α) : Cs (Go.lift x : Go RState α) := fun s hs => by
  cases x with
  | error e => exact ⟨rfl, fun _ _ h => by cases h⟩
  | ok a => exact ⟨rfl, fun _ _ h => by cases h; exact hs⟩

theorem Cs.modify {g : RState → RState} (h : ∀ s, g (lo s) = lo (g s)) (hs : ∀ s, (g s).out.stopIsForced = s.out.stopIsForced) : Cs (Go.modify g) :=
  fun s h0 => ⟨by simp [h s, mapL], fun _ _ h => by cases h; rw [hs, h0]⟩

theorem Cs.read {π : Type} (proj : RState → π) (h : ∀ s, proj (lo s) = proj s) {F : π → Go RState α} (hF : ∀ v, Cs (F v)) : Cs (fun s => F (proj s) s) := by
  intro s hs
  show F (proj (lo s)) (lo s) = _ ∧ _
  rw [h]
  exact hF _ s hs

theorem Cs.onInp {f : Bool → Go Inp α} (h : Cx (f true)) : Cs (onInp f) := by
  intro s hs
  unfold Rd.onInp
  show (match f s.out.stopIsForced (cut s.inp) with | .ok (a, i) => _ | .error e => _) = _ ∧ _
  rw [hs, h]
  rcases f true s.inp with e | ⟨a, i⟩
  · exact ⟨rfl, fun _ _ h => by cases h⟩
  · exact ⟨rfl, fun _ _ h => by cases h; exact hs⟩

theorem Cs.onOut {f : Out → α × Out} (h : ∀ o, o.stopIsForced = true → (f o).2.stopIsForced = true) : Cs (onOut f) :=
  fun s hs => ⟨rfl, fun _ _ e => by cases e; exact h _ hs⟩

theorem Cs.congr {f g : Go RState α} (h : ∀ s, f s = g s) (hg : Cs g) : Cs f := by rw [funext h]; exact hg

theorem Cs.ite {c : Prop} [Decidable c] {f g : Go RState α} (hf : Cs f) (hg : Cs g) : Cs (if c then f else g) := by split; exacts [hf, hg]

theorem cs_close (e : Err) : Cs (closeWithError e) := by
  unfold closeWithError
  refine Cs.onOut fun o ho => ?_
  split <;> exact ho

theorem cs_corruptf (m : Spec.Problem) : Cs (corruptf m) :=
  Cs.read (fun s => (s.inp.inTotal, s.inp.inStream)) (fun _ => rfl) (F := fun v => closeWithError (.corrupt v.1 v.2 m)) fun _ => cs_close _

theorem cs_fail (m : Spec.Problem) : Cs (fail m) := (cs_corruptf m).bind fun _ => .pure _

/-- after an attempt to read which failed -/
theorem exhausted_cut (fl : α) {s : RState} (hs : s.out.stopIsForced = true) (h : s.inp.inputError.isSome = true) :
    exhausted fl (lo s) = mapL (exhausted fl s) ∧ ∀ a s', exhausted fl s = .ok (a, s') → s'.out.stopIsForced = true := by
  obtain ⟨e, he⟩ := Option.isSome_iff_exists.1 h
  have : lo s = s := by unfold lo; rw [cut_some he]
  rw [this, exhausted_eq fl he]
  refine ⟨?_, fun _ _ h => by cases h; rw [closeOut_stop]; exact hs⟩
  unfold mapL lo
  simp only [cut_some he]

theorem cs_needBytes (fl : α) (n : Nat) {k : List UInt8 → Go RState α} (hk : ∀ v, Cs (k v)) : Cs (needBytes fl n k) := by
  intro s hs
  obtain ⟨h1, h2⟩ := cut_bufRead n s.inp
  have e1 : ∀ s : RState, s.out.stopIsForced = true → Rd.onInp (fun st i => .ok (bufRead st n i)) s = .ok ((bufRead true n s.inp).1, { s with inp := (bufRead true n s.inp).2 }) := by
    intro s hs
    unfold Rd.onInp
    rw [hs]
  unfold needBytes
  rw [Go.bind_ok (e1 s hs), Go.bind_ok (e1 (lo s) hs)]
  rw [show (lo s).inp = cut s.inp from rfl, h1]
  rcases hb : bufRead true n s.inp with ⟨⟨p, ok⟩, j⟩
  rw [hb] at h2
  cases ok with
  | true => exact hk p { s with inp := j } hs
  | false => exact exhausted_cut (s := { s with inp := j }) fl hs (h2 rfl)

theorem cs_sendEvent (k : EvKind) : Cs (sendEvent k) := Cs.modify (fun _ => rfl) fun _ => rfl
theorem cs_modHeader (f : Header → Header) : Cs (modHeader f) := Cs.modify (fun _ => rfl) fun _ => rfl

theorem cs_setZlib : Cs setZlib := fun s hs => ⟨rfl, fun _ _ h => by cases h; exact hs⟩
theorem cs_setGzip : Cs setGzip := fun s hs => ⟨rfl, fun _ _ h => by cases h; exact hs⟩
theorem cs_readHeaderRaw : Cs readHeaderRaw := fun s hs => ⟨rfl, fun _ _ h => by cases h; exact hs⟩

theorem cs_readHeaderZlib : Cs (readHeaderZlib E) := by
  unfold readHeaderZlib
  refine cs_needBytes _ _ fun p => ?_
  refine .ite (cs_fail _) (.ite (cs_fail _) ((cs_modHeader _).bind fun _ => .ite (cs_fail _) ((cs_modHeader _).bind fun _ => .ite (cs_needBytes _ _ fun q => ?_) ?_)))
  · split
    · exact cs_fail _
    · exact .ite (cs_fail _) cs_setZlib
  · split
    · exact cs_fail _
    · exact cs_setZlib

theorem cs_gzExtraData (b : Bool) : Cs (gzExtraData b) := by
  unfold gzExtraData
  exact .ite (cs_needBytes _ _ fun _ => cs_needBytes _ _ fun _ => (Cs.lift _).bind fun _ => (cs_modHeader _).bind fun _ => .pure _) (.pure _)

theorem cs_gzStr (b : Bool) (f : List UInt8 → Header → Header) : Cs (gzStr b f) := by
  unfold gzStr
  refine .ite ?_ (.pure _)
  intro s hs
  have e1 : ∀ s : RState, s.out.stopIsForced = true → Rd.onInp readStringZ s = match stringZLoop true (s.inp.size + 1) [] s.inp with | .ok (a, i) => .ok (a, { s with inp := i }) | .error e => .error e := by
    intro s hs
    unfold Rd.onInp readStringZ
    rw [hs]
    rcases stringZLoop true (s.inp.size + 1) [] s.inp with e | ⟨a, i⟩ <;> rfl
  obtain ⟨h1, h2⟩ := cut_stringZ (s.inp.size + 1) [] s.inp
  rw [Go.bind_apply, Go.bind_apply, e1 s hs, e1 (lo s) hs]
  rw [show (lo s).inp = cut s.inp from rfl, cut_size, h1]
  rcases hb : stringZLoop true (s.inp.size + 1) [] s.inp with e | ⟨⟨str, ok⟩, j⟩
  · exact ⟨rfl, fun _ _ h => by cases h⟩
  · cases ok with
    | true => exact (cs_modHeader (f str)).bind (fun _ => .pure true) { s with inp := j } hs
    | false => exact exhausted_cut (s := { s with inp := j }) false hs (h2 _ _ hb)

theorem cs_gzCRC (b : Bool) : Cs (gzCRC b) := by
  refine Cs.read (fun s => s.inp.crc) (fun _ => rfl) (F := gzCRC16 b) fun v => ?_
  unfold gzCRC16
  exact .ite (cs_needBytes _ _ fun _ => .ite (cs_fail _) (.pure _)) (.pure _)

theorem cs_readHeaderGZIP : Cs readHeaderGZIP := by
  unfold readHeaderGZIP
  refine (Cs.onInp fun _ => rfl).bind fun _ => cs_needBytes _ _ fun p => ?_
  exact .ite (cs_fail _) (.ite (cs_fail _) ((cs_modHeader _).bind fun _ => .ite (cs_fail _) ((cs_modHeader _).bind fun _ =>
    (cs_gzExtraData _).chk ((cs_gzStr _ _).chk ((cs_gzStr _ _).chk ((cs_gzCRC _).chk cs_setGzip))))))

theorem cs_readHeaderOf {f : Format} (hf : f ≠ .default) : Cs (readHeaderOf E f) := by
  cases f with
  | default => exact absurd rfl hf
  | raw => exact cs_readHeaderRaw
  | zlib => exact cs_readHeaderZlib
  | gzip => exact cs_readHeaderGZIP

end
end Flate.Proof.R
