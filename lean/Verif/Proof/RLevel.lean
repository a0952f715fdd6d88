/-
Two runs of the goroutine side by side, with different memory levels (sizes of the decode buffer) and with slices of different lengths from the window.
-/
import Verif.Proof.RSim

namespace Flate.Proof.R.Lev
open Flate.Spec Flate.Model Flate.Model.Rd Flate.Proof.R.Sim

/-- the data put out before the first error -/
def early : List Act → List UInt8
  | .data d :: as => d ++ early as
  | _ => []

/-- one is the beginning of the other -/
def Cmp (a b : List UInt8) : Prop := a <+: b ∨ b <+: a

theorem cmp_of_append {a b x y : List UInt8} (h : a ++ x = b ++ y) : Cmp a b := by
  rcases List.append_eq_append_iff.1 h with ⟨z, h1, _⟩ | ⟨z, h1, _⟩
  · exact Or.inl ⟨z, h1.symm⟩
  · exact Or.inr ⟨z, h1.symm⟩

theorem early_all : ∀ {l : List Act}, actErr l = none → early l = actData l
  | [], _ => rfl
  | .data p :: r, h => by
    show p ++ early r = p ++ actData r
    rw [early_all (l := r) h]
  | .err _ :: _, h => by cases h

theorem early_append : ∀ {l m : List Act}, actErr l ≠ none → early (l ++ m) = early l
  | [], _, h => absurd rfl h
  | .data p :: r, m, h => by
    show p ++ early (r ++ m) = p ++ early r
    rw [early_append (l := r) h]
  | .err _ :: _, _, _ => rfl

theorem early_err : ∀ {l : List Act} (e : Err), actErr l = none → early (l ++ [.err e]) = actData l
  | [], _, _ => rfl
  | .data p :: r, e, h => by
    show p ++ early (r ++ [.err e]) = p ++ actData r
    rw [early_err (l := r) e h]
  | .err _ :: _, _, h => by cases h

theorem actErr_append : ∀ (l m : List Act), actErr (l ++ m) = (actErr l).or (actErr m)
  | [], _ => by simp [actErr]
  | .data _ :: r, m => actErr_append r m
  | .err _ :: _, _ => rfl

theorem actErr_datas (ds : List (List UInt8)) : actErr (ds.map .data) = none := by
  induction ds with
  | nil => rfl
  | cons d ds ih => exact ih

theorem actData_datas (ds : List (List UInt8)) : actData (ds.map .data) = ds.flatten := by
  induction ds with
  | nil => rfl
  | cons d ds ih => show d ++ actData (ds.map .data) = _; rw [ih]; rfl

/-- the errors reported -/
def errs (l : List Act) : List Act := l.filter isErr

theorem errs_datas (ds : List (List UInt8)) : errs (ds.map .data) = [] := by
  induction ds with
  | nil => rfl
  | cons d ds ih => exact ih

theorem actErr_errs : ∀ {l l' : List Act}, errs l' = errs l → actErr l' = actErr l := by
  have key : ∀ l, actErr l = actErr (errs l) := by
    intro l
    induction l with
    | nil => rfl
    | cons a r ih =>
      cases a with
      | data p => exact ih
      | err e => rfl
  intro l l' h
  rw [key l, key l', h]

/-- the same parameters, except for the memory level and the slices -/
structure Same (E E' : Env) : Prop where
  lib : E'.L = E.L
  word : E'.W = E.W
  format : E'.o.format = E.o.format
  wbits : E'.o.wbits = E.o.wbits
  dict : E'.o.dict = E.o.dict
  o : Env.Open E
  o' : Env.Open E'

/-- the output sides agree about what has been decompressed; if `z`, the decode buffers are empty -/
structure OL (K : Nat) (z : Bool) (o o' : Out) : Prop where
  win : o'.window = o.window
  small : o.window.length ≤ K
  stop : o.stopIsForced = false
  stop' : o'.stopIsForced = false
  set : o'.errorWasSet = o.errorWasSet
  nos : actErr o.acts = none → errs o.acts = []
  ers : errs o'.acts = errs o.acts
  yet : o.errorWasSet = false → actErr o.acts = none
  cmp : actErr o.acts ≠ none → Cmp (early o.acts) (early o'.acts)
  dat : actData o.acts ++ o.decodeBuffer = actData o'.acts ++ o'.decodeBuffer
  tot : o.outTotal + o.decodeBuffer.length = o'.outTotal + o'.decodeBuffer.length
  str : o.outStream + o.decodeBuffer.length = o'.outStream + o'.decodeBuffer.length
  sum : ∃ d d', CrcIs o.crc d ∧ AdlerIs o.adler d ∧ CrcIs o'.crc d' ∧ AdlerIs o'.adler d' ∧ d ++ o.decodeBuffer = d' ++ o'.decodeBuffer
  empty : z = true → o.decodeBuffer = [] ∧ o'.decodeBuffer = []

/-- an event, apart from the counts of bytes delivered -/
def brief (e : Event) : Event := { e with outTotal := 0, outStream := 0 }

structure SL (K : Nat) (z : Bool) (s s' : RState) : Prop where
  inp : s'.inp = s.inp
  out : OL K z s.out s'.out
  num : s'.numStreams = s.numStreams
  hdr : s'.header = s.header
  fmt : s'.actualFormat = s.actualFormat
  ev : s'.events.map brief = s.events.map brief

/-! ### the combinators, for two functions -/

def Two {σ α : Type} (R Q : σ → σ → Prop) (f f' : Go σ α) : Prop := ∀ s s', R s s' → Agree Q (f s) (f' s')

section
variable {σ α β : Type} {R Q P : σ → σ → Prop}

theorem Two.pure (a : α) : Two R R (Pure.pure a : Go σ α) (Pure.pure a) := fun _ s' h => ⟨s', rfl, h⟩

theorem Two.panic (p : Panic) : Two R Q (Go.panic p : Go σ α) (Go.panic p) := fun _ _ _ => rfl

theorem Two.lift (x : Except Panic α) : Two R R (Go.lift x : Go σ α) (Go.lift x) := by
  rcases x with p | v
  · exact fun _ _ _ => rfl
  · exact fun _ s' h => ⟨s', rfl, h⟩

theorem Two.bind {x x' : Go σ α} {f f' : α → Go σ β} (hx : Two R Q x x') (hf : ∀ a, Two Q P (f a) (f' a)) : Two R P (x >>= f) (x' >>= f') := by
  intro s s' h
  have h1 := hx s s' h
  show Agree P (match x s with | .ok (a, t) => f a t | .error e => .error e) (match x' s' with | .ok (a, t) => f' a t | .error e => .error e)
  rcases hxs : x s with p | ⟨a, t⟩
  · rw [hxs] at h1
    rw [show x' s' = .error p from h1]
    rfl
  · rw [hxs] at h1
    obtain ⟨t', e, hr⟩ := h1
    rw [e]
    exact hf a t t' hr

theorem Two.weaken {R' Q' : σ → σ → Prop} {x x' : Go σ α} (h : Two R Q x x') (h1 : ∀ s s', R' s s' → R s s') (h2 : ∀ s s', Q s s' → Q' s s') : Two R' Q' x x' := by
  intro s s' hr
  have h3 := h s s' (h1 s s' hr)
  rcases hxs : x s with p | ⟨a, t⟩
  · rw [hxs] at h3; exact h3
  · rw [hxs] at h3
    obtain ⟨t', e, hq⟩ := h3
    exact ⟨t', e, h2 _ _ hq⟩

theorem Two.chk {x x' y y' : Go σ Bool} (hx : Two R Q x x') (hy : Two Q P y y') (hw : ∀ s s', Q s s' → P s s') : Two R P (Go.chk x y) (Go.chk x' y') := by
  intro s s' h
  have h1 := hx s s' h
  unfold Go.chk
  rcases hxs : x s with p | ⟨a, t⟩
  · rw [hxs] at h1
    rw [show x' s' = .error p from h1]
    rfl
  · rw [hxs] at h1
    obtain ⟨t', e, hr⟩ := h1
    rw [e]
    cases a
    · exact ⟨t', rfl, hw _ _ hr⟩
    · exact hy t t' hr

theorem Two.ite {c : Prop} [Decidable c] {x x' y y' : Go σ α} (hx : Two R Q x x') (hy : Two R Q y y') : Two R Q (if c then x else y) (if c then x' else y') := by
  split
  · exact hx
  · exact hy

end

/-! ### output -/

section
variable {K : Nat} {z : Bool} {E E' : Env}

theorem lastN_le (K : Nat) {w : List UInt8} (h : w.length ≤ K) : w = lastN K w := (lastN_self h).symm

/-- data are added on both sides -/
theorem ol_emit (hE : Same E E') {o o1 o' o1' : Out} {p : List UInt8} (h : OL (2 ^ E.o.wbits) z o o') (m : Emit E o p o1) (m' : Emit E' o' p o1') : OL (2 ^ E.o.wbits) false o1 o1' := by
  obtain ⟨ds, a1, a2, a3, a4, a5, a6⟩ := m.pieces
  obtain ⟨es, b1, b2, b3, b4, b5, b6⟩ := m'.pieces
  have w := m.window _ (lastN_le _ h.small)
  have w' := m'.window _ (lastN_le _ (by rw [h.win, hE.wbits]; exact h.small))
  rw [h.win, hE.wbits] at w'
  have k1 : actErr o1.acts = actErr o.acts := by rw [a1, actErr_append, actErr_datas]; simp
  have k2 : errs o1.acts = errs o.acts := by rw [a1]; unfold errs; rw [List.filter_append]; show _ ++ errs _ = _; rw [errs_datas]; simp
  have k2' : errs o1'.acts = errs o'.acts := by rw [b1]; unfold errs; rw [List.filter_append]; show _ ++ errs _ = _; rw [errs_datas]; simp
  have la := congrArg List.length a2
  have lb := congrArg List.length b2
  simp only [List.length_append] at la lb
  have hdat := h.dat
  have ht := h.tot
  have hst := h.str
  constructor
  case win => rw [w', w]
  case small => rw [w, lastN_length]; exact Nat.min_le_left _ _
  case stop => rw [m.stop]; exact h.stop
  case stop' => rw [m'.stop]; exact h.stop'
  case set => rw [m.err, m'.err]; exact h.set
  case nos => rw [k1, k2]; exact h.nos
  case ers => rw [k2, k2']; exact h.ers
  case yet => rw [k1, m.err]; exact h.yet
  case cmp =>
    intro he
    rw [k1] at he
    have he' : actErr o'.acts ≠ none := by rw [actErr_errs h.ers]; exact he
    rw [a1, b1, early_append he, early_append he']
    exact h.cmp he
  case dat =>
    rw [a1, b1, actData_append, actData_append, actData_datas, actData_datas, List.append_assoc, List.append_assoc, a2, b2, ← List.append_assoc, ← List.append_assoc, hdat]
  case tot => rw [a3, b3]; omega
  case str => rw [a4, b4]; omega
  case sum =>
    obtain ⟨d, d', c1, c2, c3, c4, c5⟩ := h.sum
    refine ⟨d ++ ds.flatten, d' ++ es.flatten, a5 _ c1, a6 _ c2, b5 _ c3, b6 _ c4, ?_⟩
    rw [List.append_assoc, List.append_assoc, a2, b2, ← List.append_assoc, ← List.append_assoc, c5]
  case empty => intro e; cases e

theorem OL.weak {o o' : Out} (h : OL K z o o') : OL K false o o' := { h with empty := fun e => (by cases e) }

theorem ol_flush (hE : Same E E') {o o' : Out} (h : OL (2 ^ E.o.wbits) z o o') : OL (2 ^ E.o.wbits) true (mustFlush E o) (mustFlush E' o') := by
  obtain ⟨m, e⟩ := emit_mustFlush hE.o h.stop
  obtain ⟨m', e'⟩ := emit_mustFlush hE.o' h.stop'
  exact { ol_emit hE h m m' with empty := fun _ => ⟨e, e'⟩ }

theorem ol_close {o o' : Out} (e : Err) (h : OL K z o o') :
    OL K z (if o.errorWasSet then ((), o) else ((), { o with acts := o.acts ++ [.err e], errorWasSet := true })).2
      (if o'.errorWasSet then ((), o') else ((), { o' with acts := o'.acts ++ [.err e], errorWasSet := true })).2 := by
  rw [h.set]
  by_cases hs : o.errorWasSet = true
  · simp only [hs, if_true]; exact h
  · simp only [hs]
    have hn := h.yet (by simpa using hs)
    have hn' : actErr o'.acts = none := by rw [actErr_errs h.ers]; exact hn
    have hd := h.dat
    constructor
    case set => rfl
    case nos => intro x; have x : actErr (o.acts ++ [.err e]) = none := x; rw [actErr_append, hn] at x; cases x
    case ers => show errs (o'.acts ++ [.err e]) = errs (o.acts ++ [.err e]); have := h.ers; unfold errs at *; rw [List.filter_append, List.filter_append, this]
    case yet => intro x; cases x
    case cmp =>
      intro _
      show Cmp (early (o.acts ++ [.err e])) (early (o'.acts ++ [.err e]))
      rw [early_err e hn, early_err e hn']
      exact cmp_of_append hd
    case dat =>
      show actData (o.acts ++ [.err e]) ++ _ = actData (o'.acts ++ [.err e]) ++ _
      rw [actData_append, actData_append]
      simpa [actData] using hd
    case win => exact h.win
    case small => exact h.small
    case stop => exact h.stop
    case stop' => exact h.stop'
    case tot => exact h.tot
    case str => exact h.str
    case sum => exact h.sum
    case empty => exact h.empty

/-! ### the functions used by headers, footers and blocks -/

variable {α : Type}

abbrev TwoR (K : Nat) (z y : Bool) (f f' : Go RState α) : Prop := Two (SL K z) (SL K y) f f'

theorem SL.weak {s s' : RState} (h : SL K z s s') : SL K false s s' := { h with out := h.out.weak }

theorem sl_onInp (f : Bool → Go Inp α) : TwoR K z z (onInp f) (onInp f) := by
  intro s s' h
  unfold onInp
  rw [h.inp, h.out.stop, h.out.stop']
  rcases f false s.inp with p | ⟨b, i⟩
  · rfl
  · exact ⟨_, rfl, { h with inp := rfl }⟩

theorem sl_close (e : Err) : TwoR K z z (closeWithError e) (closeWithError e) := fun s s' h => by
  have h1 := ol_close e h.out
  unfold closeWithError onOut
  simp only [h.out.set] at h1 ⊢
  by_cases hs : s.out.errorWasSet = true
  · simp only [hs, if_true]
    exact ⟨_, rfl, h⟩
  · simp only [hs] at h1 ⊢
    exact ⟨_, rfl, { h with out := h1 }⟩

theorem sl_propagate (b : Bool) : TwoR K z z (propagateError b) (propagateError b) := by
  intro s s' h
  unfold propagateError
  rw [h.inp]
  rcases s.inp.inputError with _ | e
  · exact ⟨_, rfl, h⟩
  · exact sl_close _ s s' h

theorem sl_corruptf (m : Spec.Problem) : TwoR K z z (corruptf m) (corruptf m) := by
  intro s s' h
  unfold corruptf
  rw [h.inp]
  exact sl_close _ s s' h

theorem sl_exhausted (fl : α) : TwoR K z z (exhausted fl) (exhausted fl) := Two.bind (sl_propagate _) fun _ => Two.pure _

theorem sl_fail (m : Spec.Problem) : TwoR K z z (fail m) (fail m) := Two.bind (sl_corruptf m) fun _ => Two.pure _

theorem sl_corrupt_none (m : Spec.Problem) (fl : α) : TwoR K z z (do corruptf m; Pure.pure fl) (do corruptf m; Pure.pure fl) := Two.bind (sl_corruptf m) fun _ => Two.pure _

theorem sl_modHeader (f : Header → Header) : TwoR K z z (modHeader f) (modHeader f) :=
  fun s s' h => ⟨_, rfl, { h with hdr := by show f s'.header = f s.header; rw [h.hdr] }⟩

theorem sl_event (k : EvKind) : TwoR K z z (sendEvent k) (sendEvent k) := by
  refine fun s s' h => ⟨_, rfl, { h with ev := ?_ }⟩
  show (s'.events ++ [_]).map brief = (s.events ++ [_]).map brief
  rw [List.map_append, List.map_append, h.ev]
  simp only [List.map_cons, List.map_nil, brief, h.inp, h.num, h.fmt]

theorem sl_needBytes {y : Bool} (hy : ∀ s s', SL K z s s' → SL K y s s') (fl : α) (n : Nat) {k k' : List UInt8 → Go RState α} (hk : ∀ p, TwoR K z y (k p) (k' p)) :
    TwoR K z y (needBytes fl n k) (needBytes fl n k') :=
  Two.bind (sl_onInp _) fun r => by
    rcases r with ⟨p, ok⟩
    exact Two.ite ((sl_exhausted fl).weaken (fun _ _ h => h) hy) (hk p)

theorem sl_needBits (hE : Same E E') (fl : α) (n : Nat) {k k' : Nat → Go RState α} (hk : ∀ v, TwoR K z false (k v) (k' v)) : TwoR K z false (needBits E fl n k) (needBits E' fl n k') := by
  unfold needBits
  rw [hE.word]
  exact Two.bind (sl_onInp _) fun ok => Two.ite ((sl_exhausted fl).weaken (fun _ _ h => h) fun _ _ h => h.weak) (Two.bind (sl_onInp _) hk)

theorem sl_readSymbol (hE : Same E E') (lens : List Nat) : TwoR K z z (readSymbol E lens) (readSymbol E' lens) := by
  unfold readSymbol
  rw [hE.word, hE.lib]
  exact sl_onInp _

theorem sl_addBits (hE : Same E E') (fl : α) (n base : Nat) {k k' : Nat → Go RState α} (hk : ∀ v, TwoR K z false (k v) (k' v)) :
    TwoR K z false (addBits E fl n base k) (addBits E' fl n base k') := by
  unfold addBits
  exact Two.ite (sl_needBits hE fl n fun _ => hk _) (hk _)

abbrev TwoE (E : Env) (f f' : Go RState α) : Prop := TwoR (2 ^ E.o.wbits) false false f f'

theorem sl_emit (hE : Same E E') {f f' : Go RState α} {a : α} {s s' : RState} (h : SL (2 ^ E.o.wbits) z s s') {o o' : Out} {p : List UInt8}
    (e : f s = .ok (a, { s with out := o })) (m : Emit E s.out p o) (e' : f' s' = .ok (a, { s' with out := o' })) (m' : Emit E' s'.out p o') : Agree (SL (2 ^ E.o.wbits) false) (f s) (f' s') := by
  rw [e, e']
  exact ⟨_, rfl, { h with out := ol_emit hE h.out m m' }⟩

theorem sl_dbWrite (hE : Same E E') (p : List UInt8) : TwoE E (dbWrite E p) (dbWrite E' p) := by
  intro s s' h
  obtain ⟨o, e, m⟩ := emit_dbWrite hE.o p h.out.stop
  obtain ⟨o', e', m'⟩ := emit_dbWrite hE.o' p h.out.stop'
  exact sl_emit hE h e m e' m'

theorem sl_dbWriteByte (hE : Same E E') (ch : UInt8) : TwoE E (dbWriteByte E ch) (dbWriteByte E' ch) := by
  intro s s' h
  obtain ⟨o, e, m⟩ := emit_dbWriteByte hE.o ch h.out.stop
  obtain ⟨o', e', m'⟩ := emit_dbWriteByte hE.o' ch h.out.stop'
  exact sl_emit hE h e m e' m'

theorem sl_copyMatch (hE : Same E E') (d len : Nat) : TwoE E (copyMatch E d len) (copyMatch E' d len) := by
  intro s s' h
  have hw := lastN_le _ h.out.small
  have hw' : s'.out.window = lastN (2 ^ E'.o.wbits) s.out.window := by rw [h.out.win, hE.wbits]; exact hw
  by_cases h0 : 1 ≤ d
  · by_cases hd : d ≤ 2 ^ E.o.wbits ∧ d ≤ s.out.window.length
    · obtain ⟨o, p, e, m, q⟩ := copyMatch_ok (len := len) hE.o h0 hd.1 h.out.stop hw hd.2
      obtain ⟨o', p', e', m', q'⟩ := copyMatch_ok (len := len) hE.o' h0 (by rw [hE.wbits]; exact hd.1) h.out.stop' hw' hd.2
      have : p' = p := List.append_cancel_left (q'.trans q.symm)
      subst this
      exact sl_emit hE h e m e' m'
    · rw [copyMatch_far h0 hw hd, copyMatch_far h0 hw' (by rw [hE.wbits]; exact hd), hE.wbits]
      exact sl_fail _ s s' h
  · have key : ∀ (E : Env) (s : RState), copyMatch E d len s = fail (.tooFar d (2 ^ E.o.wbits)) s := by
      intro E s
      unfold copyMatch lookupSlice
      rw [if_neg (by omega)]
    rw [key, key, hE.wbits]
    exact sl_fail _ s s' h

/-! ### blocks -/

theorem sl_readStored (hE : Same E E') : TwoE E (readStored E) (readStored E') :=
  sl_needBytes (fun _ _ h => h) _ _ fun p => sl_needBytes (fun _ _ h => h) _ _ fun q => Two.ite (sl_fail _)
    (sl_needBytes (fun _ _ h => h) _ _ fun d => Two.bind (sl_dbWrite hE d) fun _ => Two.pure _)

theorem sl_decodeLL (hE : Same E E') (sym : Nat) : TwoE E (decodeLL E sym) (decodeLL E' sym) := by
  unfold decodeLL
  refine Two.ite (Two.pure _) (Two.ite (Two.pure _) ?_)
  rcases lenSym sym with _ | ⟨base, n⟩
  · exact sl_corrupt_none _ _
  · exact sl_addBits hE none n base fun _ => Two.bind (Two.lift _) fun _ => Two.pure _

theorem sl_decodeD (hE : Same E E') (sym len : Nat) : TwoE E (decodeD E sym len) (decodeD E' sym len) := by
  unfold decodeD
  rcases distSym sym with _ | ⟨base, n⟩
  · exact sl_corrupt_none _ _
  · exact sl_addBits hE none n base fun _ => Two.bind (Two.lift _) fun _ => Two.pure _

theorem sl_huffLoop (hE : Same E E') (ll d : List Nat) : ∀ fuel, TwoE E (huffLoop E ll d fuel) (huffLoop E' ll d fuel)
  | 0 => Two.panic _
  | fuel + 1 => by
    have ih := sl_huffLoop hE ll d fuel
    unfold huffLoop
    refine Two.bind (sl_readSymbol hE ll) fun r => ?_
    rcases r with _ | sym
    · exact sl_fail _
    · refine Two.bind (sl_decodeLL hE sym) fun t => ?_
      rcases t with _ | t
      · exact Two.pure _
      · refine Two.ite (Two.ite (Two.pure _) (Two.bind (sl_dbWriteByte hE _) fun _ => ih)) ?_
        refine Two.bind (sl_readSymbol hE d) fun r => ?_
        rcases r with _ | sym
        · exact sl_fail _
        · refine Two.bind (sl_decodeD hE sym _) fun t => ?_
          rcases t with _ | t
          · exact Two.pure _
          · exact Two.chk (sl_copyMatch hE _ _) ih (fun _ _ h => h)

theorem sl_huffBlock (hE : Same E E') (ll d : List Nat) : TwoE E (decodeHuffmanBlock E ll d) (decodeHuffmanBlock E' ll d) := by
  intro s s' h
  unfold decodeHuffmanBlock
  rw [h.inp]
  exact sl_huffLoop hE ll d _ s s' h

theorem sl_readStatic (hE : Same E E') (f : Bool) : TwoE E (readStatic E f) (readStatic E' f) :=
  Two.bind (sl_event _) fun _ => sl_huffBlock hE _ _

theorem sl_readCL (hE : Same E E') : ∀ is sX, TwoE E (readCL E is sX) (readCL E' is sX)
  | [], _ => Two.pure _
  | _ :: is, _ => sl_needBits hE none 3 fun _ => sl_readCL hE is _

theorem sl_decodeX (hE : Same E E') (sym total : Nat) (acc : List Nat) : TwoE E (decodeX E sym total acc) (decodeX E' sym total acc) := by
  unfold decodeX
  refine Two.ite (Two.ite (Two.pure _) (Two.panic _)) (Two.ite (Two.ite (sl_corrupt_none _ _) ?_) (Two.ite ?_ (Two.ite ?_ (Two.pure _))))
  · exact sl_needBits hE none _ fun _ => Two.ite (sl_corrupt_none _ _) (Two.ite (Two.pure _) (Two.panic _))
  · exact sl_needBits hE none _ fun _ => Two.ite (sl_corrupt_none _ _) (Two.pure _)
  · exact sl_needBits hE none _ fun _ => Two.ite (sl_corrupt_none _ _) (Two.pure _)

theorem sl_lensLoop (hE : Same E E') (lens : List Nat) (total : Nat) : ∀ fuel acc, TwoE E (lensLoop E lens total fuel acc) (lensLoop E' lens total fuel acc)
  | 0, _ => Two.panic _
  | fuel + 1, acc => by
    unfold lensLoop
    refine Two.ite ?_ (Two.pure _)
    refine Two.bind (sl_readSymbol hE lens) fun r => ?_
    rcases r with _ | sym
    · exact sl_corrupt_none _ _
    · refine Two.bind (sl_decodeX hE sym total acc) fun t => ?_
      rcases t with _ | t
      · exact Two.pure _
      · exact sl_lensLoop hE lens total fuel t

theorem sl_checkCounts (x y : Nat) : TwoR K z z (checkCounts x y) (checkCounts x y) := by
  unfold checkCounts
  have h1 : ∀ (p : Prop) [Decidable p] (m : Spec.Problem), TwoR K z z (if p then corruptf m else Pure.pure ()) (if p then corruptf m else Pure.pure ()) := fun p _ m =>
    Two.ite (sl_corruptf m) (Two.pure _)
  exact Two.ite (Two.bind (sl_corruptf _) fun _ => h1 (y > logicalNumDCodes) _) (h1 (y > logicalNumDCodes) _)

theorem sl_trees (hE : Same E E') (f : Bool) : TwoE E (readDynamicTrees E f) (readDynamicTrees E' f) := by
  unfold readDynamicTrees
  rw [hE.lib]
  refine sl_needBits hE none _ fun v => Two.bind (sl_checkCounts _ _) fun _ => Two.bind (sl_readCL hE _ _) fun r => ?_
  cases r with
  | none => exact Two.pure _
  | some sX =>
    refine Two.ite (sl_corrupt_none _ _) (Two.bind (Q := SL (2 ^ E.o.wbits) false) (fun s s' h => ?_) fun r => ?_)
    · unfold lensStart
      rw [h.inp]
      exact sl_lensLoop hE _ _ _ _ s s' h
    cases r with
    | none => exact Two.pure _
    | some lens =>
      refine Two.ite (sl_corrupt_none _ _) (Two.ite (sl_corrupt_none _ _) ?_)
      exact Two.bind (sl_event _) fun _ => Two.pure _

theorem sl_dynamic (hE : Same E E') (f : Bool) : TwoE E (readDynamic E f) (readDynamic E' f) := by
  unfold readDynamic
  refine Two.bind (sl_trees hE f) fun r => ?_
  cases r with
  | none => exact Two.pure _
  | some p => exact sl_huffBlock hE _ _

theorem sl_blockOf (hE : Same E E') (f : Bool) (bt : BlockType) : TwoE E (readBlockOf E f bt) (readBlockOf E' f bt) := by
  cases bt with
  | stored => exact sl_readStored hE
  | static => exact sl_readStatic hE f
  | dynamic => exact sl_dynamic hE f
  | invalid => exact sl_fail _

theorem sl_block (hE : Same E E') : TwoE E (readFlateBlock E) (readFlateBlock E') := by
  unfold readFlateBlock
  refine sl_needBits hE none _ fun v => Two.bind (sl_event _) fun _ => Two.bind (sl_blockOf hE _ _) fun ok => ?_
  exact Two.ite (Two.bind (sl_event _) fun _ => Two.pure _) (Two.pure _)

theorem sl_blockLoop (hE : Same E E') : ∀ fuel, TwoE E (blockLoop E fuel) (blockLoop E' fuel)
  | 0 => Two.panic _
  | fuel + 1 => by
    unfold blockLoop
    refine Two.bind (sl_block hE) fun r => ?_
    rcases r with _ | _ | _
    · exact Two.pure _
    · exact sl_blockLoop hE fuel
    · exact Two.pure _

theorem sl_blocks (hE : Same E E') : TwoE E (readBlocks E) (readBlocks E') := by
  intro s s' h
  unfold readBlocks
  rw [h.inp]
  exact sl_blockLoop hE _ s s' h

/-! ### headers and footers -/

theorem sl_raw : TwoR K z z readHeaderRaw readHeaderRaw :=
  fun s s' h => ⟨_, rfl, { h with fmt := rfl, hdr := by show { s'.header with compressLevel := -1 } = { s.header with compressLevel := -1 }; rw [h.hdr] }⟩

theorem sl_setZlib : TwoR K z z setZlib setZlib := fun s s' h => ⟨_, rfl, { h with fmt := rfl }⟩

theorem sl_setGzip : TwoR K z z setGzip setGzip := fun s s' h => ⟨_, rfl, { h with fmt := rfl }⟩

theorem sl_zlib (hE : Same E E') : TwoR K z z (readHeaderZlib E) (readHeaderZlib E') := by
  unfold readHeaderZlib
  rw [hE.wbits, hE.dict]
  refine sl_needBytes (fun _ _ h => h) _ _ fun p => Two.ite (sl_fail _) (Two.ite (sl_fail _) ?_)
  refine Two.bind (sl_modHeader _) fun _ => Two.ite (sl_fail _) ?_
  refine Two.bind (sl_modHeader _) fun _ => Two.ite ?_ ?_
  · refine sl_needBytes (fun _ _ h => h) _ _ fun q => ?_
    cases E.o.dict with
    | none => exact sl_fail _
    | some d => exact Two.ite (sl_fail _) sl_setZlib
  · cases E.o.dict with
    | none => exact sl_setZlib
    | some d => exact sl_fail _

theorem sl_extra (b : Bool) : TwoR K z z (gzExtraData b) (gzExtraData b) := by
  unfold gzExtraData
  exact Two.ite (sl_needBytes (fun _ _ h => h) _ _ fun _ => sl_needBytes (fun _ _ h => h) _ _ fun _ => Two.bind (Two.lift _) fun _ => Two.bind (sl_modHeader _) fun _ => Two.pure _) (Two.pure _)

theorem sl_gzStr (b : Bool) (f : List UInt8 → Header → Header) : TwoR K z z (gzStr b f) (gzStr b f) := by
  unfold gzStr
  refine Two.ite (Two.bind (sl_onInp _) fun r => ?_) (Two.pure _)
  exact Two.ite (sl_exhausted _) (Two.bind (sl_modHeader _) fun _ => Two.pure _)

theorem sl_gzCRC (b : Bool) : TwoR K z z (gzCRC b) (gzCRC b) := by
  intro s s' h
  unfold gzCRC gzCRC16
  rw [h.inp]
  have : TwoR K z z (if b = true then needBytes false 2 fun p => if s.inp.crc.toNat % 65536 ≠ leVal p then fail (.gzipHeaderSum (leVal p) (s.inp.crc.toNat % 65536)) else Pure.pure true else Pure.pure true)
      (if b = true then needBytes false 2 fun p => if s.inp.crc.toNat % 65536 ≠ leVal p then fail (.gzipHeaderSum (leVal p) (s.inp.crc.toNat % 65536)) else Pure.pure true else Pure.pure true) :=
    Two.ite (sl_needBytes (fun _ _ h => h) _ _ fun _ => Two.ite (sl_fail _) (Two.pure _)) (Two.pure _)
  exact this s s' h

theorem sl_gzip : TwoR K z z readHeaderGZIP readHeaderGZIP := by
  unfold readHeaderGZIP
  have i : ∀ s s', SL K z s s' → SL K z s s' := fun _ _ h => h
  refine Two.bind (sl_onInp _) fun _ => sl_needBytes i _ _ fun p => ?_
  refine Two.ite (sl_fail _) (Two.ite (sl_fail _) (Two.bind (sl_modHeader _) fun _ => Two.ite (sl_fail _) (Two.bind (sl_modHeader _) fun _ => ?_)))
  exact Two.chk (sl_extra _) (Two.chk (sl_gzStr _ _) (Two.chk (sl_gzStr _ _) (Two.chk (sl_gzCRC _) sl_setGzip i) i) i) i

theorem sl_headerOf (hE : Same E E') (f : Format) : TwoR K z z (readHeaderOf E f) (readHeaderOf E' f) := by
  cases f with
  | raw => exact sl_raw
  | zlib => exact sl_zlib hE
  | gzip => exact sl_gzip
  | default =>
    intro s s' h
    show Agree _ (readHeaderAuto E s) (readHeaderAuto E' s')
    unfold readHeaderAuto
    rw [h.inp]
    split
    · split
      · exact sl_gzip s s' h
      · split
        · exact sl_zlib hE s s' h
        · exact sl_raw s s' h
    · exact sl_raw s s' h

/-- the window at the beginning of a stream -/
def startWin (E : Env) : List UInt8 := match E.o.dict with | none => [] | some d => windowWrite E.o.wbits [] d

theorem startWin_le (E : Env) : (startWin E).length ≤ 2 ^ E.o.wbits := by
  unfold startWin
  cases E.o.dict with
  | none => exact Nat.zero_le _
  | some d => simp only [windowWrite, List.nil_append, List.length_drop]; generalize 2 ^ E.o.wbits = k; omega

theorem sl_header (hE : Same E E') : TwoR (2 ^ E.o.wbits) true true (readHeader E) (readHeader E') := by
  unfold readHeader
  refine Two.bind (Q := SL (2 ^ E.o.wbits) true) (fun s s' h => ⟨_, rfl, { h with inp := ?_, out := { h.out with str := ?_ } }⟩) fun _ => ?_
  · show { s'.inp with inStream := 0 } = { s.inp with inStream := 0 }
    rw [h.inp]
  · obtain ⟨e, e'⟩ := h.out.empty rfl
    show 0 + s.out.decodeBuffer.length = 0 + s'.out.decodeBuffer.length
    rw [e, e']
  refine Two.bind (sl_onInp _) fun empty => Two.ite (Two.bind (sl_propagate _) fun _ => Two.pure _) ?_
  refine Two.bind (Q := SL (2 ^ E.o.wbits) true) (fun s s' h => ⟨_, rfl, { h with num := ?_, fmt := rfl, out := { h.out with win := ?_, small := startWin_le E } }⟩) fun _ => ?_
  · show startWin E' = startWin E
    unfold startWin
    rw [hE.dict, hE.wbits]
  · show s'.numStreams + 1 = s.numStreams + 1
    rw [h.num]
  refine Two.bind (sl_event _) fun _ => Two.bind (Q := SL (2 ^ E.o.wbits) true) (fun s s' h => ⟨_, rfl, { h with hdr := rfl }⟩) fun _ => ?_
  rw [hE.format]
  refine Two.chk (sl_headerOf hE _) ?_ (fun _ _ h => h)
  intro s s' h
  simp only [h.hdr]
  exact Two.bind (sl_event _) (fun _ => Two.pure true) s s' h

theorem sl_footerOf (f : Format) (x y : BitVec 32) : TwoR K true true (readFooterOf f x y) (readFooterOf f x y) := by
  have i : ∀ s s', SL K true s s' → SL K true s s' := fun _ _ h => h
  cases f with
  | raw => exact Two.pure _
  | zlib =>
    show TwoR K true true (readFooterZlib x) (readFooterZlib x)
    unfold readFooterZlib
    exact sl_needBytes i _ _ fun _ => Two.ite (sl_fail _) (Two.pure _)
  | gzip =>
    show TwoR K true true (readFooterGZIP y) (readFooterGZIP y)
    unfold readFooterGZIP
    refine sl_needBytes i _ _ fun p => sl_needBytes i _ _ fun q => fun s s' h => ?_
    have hst := h.out.str
    obtain ⟨e, e'⟩ := h.out.empty rfl
    rw [e, e'] at hst
    have hst : s'.out.outStream = s.out.outStream := hst.symm
    simp only [hst]
    split
    · exact sl_fail _ s s' h
    · split
      · exact sl_fail _ s s' h
      · exact ⟨_, rfl, h⟩
  | default => exact Two.panic _

theorem sl_sums {s s' : RState} (h : SL K true s s') : s'.out.crc = s.out.crc ∧ s'.out.adler = s.out.adler := by
  obtain ⟨d, d', c1, c2, c3, c4, c5⟩ := h.out.sum
  obtain ⟨e, e'⟩ := h.out.empty rfl
  rw [e, e', List.append_nil, List.append_nil] at c5
  subst c5
  exact ⟨c3.trans c1.symm, BitVec.eq_of_toNat_eq (c4.trans c2.symm)⟩

theorem sl_footer : TwoR K true true readFooter readFooter := by
  unfold readFooter
  refine Two.bind (sl_onInp _) fun _ => ?_
  intro s s' h
  obtain ⟨e1, e2⟩ := sl_sums h
  simp only [h.fmt, e1, e2]
  exact Two.bind (sl_event _) (fun _ => Two.chk (sl_footerOf _ _ _) (Two.bind (sl_event _) fun _ => Two.pure _) (fun _ _ h => h)) s s' h

/-! ### the goroutine -/

theorem sl_stream (hE : Same E E') : TwoR (2 ^ E.o.wbits) true true (readStream E) (readStream E') := by
  unfold readStream
  refine Two.chk (sl_header hE) ?_ (fun _ _ h => h)
  refine Two.bind (Q := SL (2 ^ E.o.wbits) false) (fun s s' h => ⟨_, rfl, ?_⟩) fun _ => Two.bind (sl_blocks hE) fun _ => Two.bind (Q := SL (2 ^ E.o.wbits) true) ?_ fun _ => sl_footer
  · obtain ⟨e, e'⟩ := h.out.empty rfl
    exact { h.weak with out := { h.out.weak with sum := ⟨[], [], rfl, rfl, rfl, rfl, by show [] ++ s.out.decodeBuffer = [] ++ s'.out.decodeBuffer; rw [e, e']⟩ } }
  · exact fun s s' h => ⟨_, rfl, { h with out := ol_flush hE h.out }⟩

theorem sl_streamLoop (hE : Same E E') : ∀ fuel, TwoR (2 ^ E.o.wbits) true true (streamLoop E fuel) (streamLoop E' fuel)
  | 0 => Two.panic _
  | fuel + 1 => by
    intro s s' h
    unfold streamLoop
    rw [h.inp]
    split
    · have h1 := sl_stream hE s s' h
      rcases hx : readStream E s with p | ⟨b, t⟩
      · rw [hx] at h1
        rw [show readStream E' s' = .error p from h1]
        rfl
      · rw [hx] at h1
        obtain ⟨t', e, ht⟩ := h1
        rw [e]
        cases b
        · exact ⟨_, rfl, ht⟩
        · exact sl_streamLoop hE fuel t t' ht
    · exact ⟨_, rfl, h⟩

theorem sl_thread (hE : Same E E') : TwoR (2 ^ E.o.wbits) true true (readThread E) (readThread E') := by
  unfold readThread
  refine Two.bind (Q := SL (2 ^ E.o.wbits) true) (fun s s' h => ⟨_, rfl, { h with num := rfl }⟩) fun _ => Two.bind (Q := SL (2 ^ E.o.wbits) true) (fun s s' h => ?_) fun _ => ?_
  · rw [h.inp]
    exact sl_streamLoop hE _ s s' h
  · unfold finishThread
    exact Two.bind (sl_onInp _) fun _ => sl_propagate _

theorem sl_start (K : Nat) (src : Src) : SL K true (start src false) (start src false) :=
  ⟨rfl, ⟨rfl, Nat.zero_le _, rfl, rfl, rfl, fun _ => rfl, rfl, fun _ => rfl, fun h => absurd rfl h, rfl, rfl, rfl, ⟨[], [], rfl, rfl, rfl, rfl, rfl⟩, fun _ => ⟨rfl, rfl⟩⟩, rfl, rfl, rfl, rfl⟩

end
end Flate.Proof.R.Lev
