/-
Reading stream headers, when everything the source will deliver is in the input buffer.
-/
import Verif.Proof.RBlocks
import Verif.Spec.Container

namespace Flate.Proof.R
open Flate.Spec Flate.Model Flate.Model.Rd

/-! ### what the Reader reports -/

/-- the records of an extra field -/
def gotExtra : Option (List UInt8) → List ExtraRec
  | none => []
  | some e => match parseExtra e [] with
    | .ok rs => rs
    | .error _ => []

/-- the `Header` reported for a gzip member header -/
def gzReport (g : GzHeader) : Header where
  fileName := g.name.getD []
  comment := g.comment.getD []
  lastModified := if g.mtime ≠ 0 then some (g.mtime : Int) else none
  dataType := if g.text then .text else .binary
  osType := osDecode g.os
  extra := gotExtra g.extra
  compressLevel := if g.xfl = 2 then 9 else if g.xfl = 4 then 1 else -1

/-- the `Header` reported for a zlib header -/
def zlibReport (cmf flg : UInt8) : Header where
  windowBits := 8 + (cmf.toNat >>> 4)
  compressLevel := [(1 : Int), 2, -1, 9].getD (flg.toNat >>> 6) (-1)

/-- the `Header` reported for header bytes -/
def Reports : Container → List UInt8 → Header → Prop
  | .raw, _, h => h = { compressLevel := -1 }
  | .zlib, hdr, h => ∃ cmf flg rest, hdr = cmf :: flg :: rest ∧ h = zlibReport cmf flg
  | .gzip, hdr, h => ∃ g : GzHeader, (∀ e, g.extra = some e → ExtraOK e) ∧ g.Valid ∧ hdr = g.bytes ∧ h = gzReport g

/-! ### taking bytes -/

/-- no bits are pending -/
def Flat (i : Inp) : Prop := i.ibLen = 0 ∧ i.ibBlock = 0

theorem flat_takeIn (p r : List UInt8) (i : Inp) : Flat (takeIn p r i) := ⟨rfl, rfl⟩

theorem takeIn_nil {i : Inp} (h : Flat i) : takeIn [] i.buf i = i := by
  obtain ⟨h1, h2⟩ := h
  obtain ⟨a, b, c, d, e, f, g, k⟩ := i
  simp only at h1 h2
  subst h1 h2
  simp [takeIn, countIn, Rd.discard, genericUpdate_eq]

theorem takeIn_takeIn (p q r r' : List UInt8) (i : Inp) : takeIn q r' (takeIn p r i) = takeIn (p ++ q) r' i := by
  simp [takeIn, countIn, Rd.discard, crc_append]
  omega

section
variable {E : Env} {e0 : Err} {s : RState}

theorem flat_nat {i : Inp} (h : Flat i) : natBits i.ibLen i.ibBlock = [] := by rw [h.1]; rfl

/-! ### parts of gzip headers -/

def extraBytes : Option (List UInt8) → List UInt8
  | none => []
  | some e => leBytes 2 e.length ++ e

def strBytes : Option (List UInt8) → List UInt8
  | none => []
  | some n => n ++ [0]

/-- the panic of `ExtraData.Parse` -/
def ExtraPanics (buf : List UInt8) : Prop := ∃ e r, buf = leBytes 2 e.length ++ e ++ r ∧ e.length < 65536 ∧ ¬ ExtraOK e

theorem gzExtra_ok (hs : s.inp.inputError = some e0) (hf : Flat s.inp) {x : Option (List UInt8)} {r : List UInt8} (hl : ∀ e, x = some e → e.length < 65536 ∧ ExtraOK e)
    (hb : s.inp.buf = extraBytes x ++ r) (hh : s.header.extra = []) :
    gzExtraData x.isSome s = .ok (true, { s with inp := takeIn (extraBytes x) r s.inp, header := { s.header with extra := gotExtra x } }) := by
  unfold gzExtraData
  cases x with
  | none =>
    have : r = s.inp.buf := by simpa [extraBytes] using hb.symm
    subst this
    simp only [Option.isSome_none, Bool.false_eq_true, if_false, extraBytes, takeIn_nil hf, gotExtra]
    rw [← hh]
    rfl
  | some e =>
    obtain ⟨h1, h2⟩ := hl e rfl
    simp only [Option.isSome_some, if_true]
    simp only [extraBytes, List.append_assoc] at hb
    rw [needBytes_ok hs false _ hb (by simp)]
    rw [leVal_leBytes _ _ (by omega)]
    rw [needBytes_ok (s := { s with inp := takeIn (leBytes 2 e.length) (e ++ r) s.inp }) hs false _ (p := e) (r := r) rfl rfl]
    obtain ⟨rs, h3⟩ := parseExtra_ok h2
    rw [Go.bind_ok (lift_run h3 _)]
    simp only [takeIn_takeIn, extraBytes, gotExtra, h3]
    rfl

theorem gzExtra_sound (hs : s.inp.inputError = some e0) (hf : Flat s.inp) (bit : Bool) (hh : s.header.extra = []) :
    (∃ x r, x.isSome = bit ∧ (∀ e, x = some e → e.length < 65536 ∧ ExtraOK e) ∧ s.inp.buf = extraBytes x ++ r ∧
      gzExtraData bit s = .ok (true, { s with inp := takeIn (extraBytes x) r s.inp, header := { s.header with extra := gotExtra x } })) ∨
    (∃ s', gzExtraData bit s = .ok (false, s') ∧ Failed e0 s s') ∨
    (bit = true ∧ gzExtraData bit s = .error .bounds ∧ ExtraPanics s.inp.buf) := by
  cases bit with
  | false =>
    left
    exact ⟨none, s.inp.buf, rfl, by simp, rfl, gzExtra_ok hs hf (x := none) (by simp) rfl hh⟩
  | true =>
    have ok : ∀ e r, e.length < 65536 → ExtraOK e → s.inp.buf = leBytes 2 e.length ++ e ++ r → (∃ x r, x.isSome = true ∧ (∀ e, x = some e → e.length < 65536 ∧ ExtraOK e) ∧ s.inp.buf = extraBytes x ++ r ∧
      gzExtraData true s = .ok (true, { s with inp := takeIn (extraBytes x) r s.inp, header := { s.header with extra := gotExtra x } })) := by
      intro e r h1 h2 h3
      have hl : ∀ e', some e = some e' → e'.length < 65536 ∧ ExtraOK e' := fun e' h => by cases h; exact ⟨h1, h2⟩
      exact ⟨some e, r, rfl, hl, h3, gzExtra_ok hs hf (x := some e) hl h3 hh⟩
    rcases needBytes_eq hs false 2 (fun p => needBytes false (leVal p) fun raw => do
      let recs ← Go.lift (parseExtra raw [])
      modHeader fun h => { h with extra := recs }
      pure true) with ⟨p, r1, b1, l1, e1⟩ | ⟨_, s', e1, f1⟩
    swap
    · right; left; exact ⟨s', e1, f1⟩
    rcases needBytes_eq (s := { s with inp := takeIn p r1 s.inp }) hs false (leVal p) (fun raw => do
      let recs ← Go.lift (parseExtra raw [])
      modHeader fun h => { h with extra := recs }
      pure true) with ⟨e, r2, b2, l2, e2⟩ | ⟨_, s', e2, f2⟩
    swap
    · right; left; exact ⟨s', e1.trans e2, f2.step (takeIn_step b1)⟩
    have hlt := leVal_lt p
    rw [l1] at hlt
    have hlen : e.length < 65536 := by rw [l2]; exact hlt
    have hbuf : s.inp.buf = leBytes 2 e.length ++ e ++ r2 := by
      rw [l2, ← l1, leBytes_leVal, List.append_assoc]
      rw [b1]; congr 1
    by_cases hx : ExtraOK e
    · left; exact ok e r2 hlen hx hbuf
    · right; right
      refine ⟨rfl, ?_, e, r2, hbuf, hlen, hx⟩
      rcases parseExtra_spec e with ⟨_, _, h, _⟩ | ⟨h, _⟩
      · exact absurd h hx
      · refine (e1.trans e2).trans ?_
        exact Go.bind_error (by rw [h]; rfl)

theorem gzStr_ok (hs : s.inp.inputError = some e0) (hf : Flat s.inp) {x : Option (List UInt8)} {r : List UInt8} (hl : ∀ n, x = some n → 0 ∉ n)
    (hb : s.inp.buf = strBytes x ++ r) (set : List UInt8 → Header → Header) (hh : set [] s.header = s.header) :
    gzStr x.isSome set s = .ok (true, { s with inp := takeIn (strBytes x) r s.inp, header := set (x.getD []) s.header }) := by
  unfold gzStr
  cases x with
  | none =>
    have : r = s.inp.buf := by simpa [strBytes] using hb.symm
    subst this
    simp only [Option.isSome_none, Bool.false_eq_true, if_false, strBytes, takeIn_nil hf, Option.getD_none]
    rw [hh]
    rfl
  | some n =>
    simp only [Option.isSome_some, if_true]
    rcases stringZLoop_eq (st := s.out.stopIsForced) (s.inp.size + 1) [] hs (by unfold Inp.size; omega) with ⟨str, r', i', b1, h0, e1, h2⟩ | ⟨h0, _⟩
    · have h00 := hl n rfl
      have heq : str = n ∧ r' = r := by
        have : n ++ 0 :: r = str ++ 0 :: r' := by rw [← b1, hb]; simp [strBytes]
        clear e1 h2 b1 hb hl
        induction n generalizing str with
        | nil =>
          cases str with
          | nil => simp at this; exact ⟨rfl, this.symm⟩
          | cons c str => simp only [List.nil_append, List.cons_append, List.cons.injEq] at this; exact absurd (by rw [← this.1]; simp) h0
        | cons c n ih =>
          cases str with
          | nil => simp only [List.nil_append, List.cons_append, List.cons.injEq] at this; exact absurd (by rw [this.1]; simp) h00
          | cons d str =>
            simp only [List.cons_append, List.cons.injEq] at this
            obtain ⟨rfl, h⟩ := this
            have := ih str (fun h => h0 (by simp [h])) (fun h => h00 (by simp [h])) h
            exact ⟨by rw [this.1], this.2⟩
      obtain ⟨rfl, rfl⟩ := heq
      have e2 : onInp readStringZ s = .ok ((str, true), { s with inp := i' }) := onInp_ok (by simpa [readStringZ] using e1)
      rw [Go.bind_ok e2]
      have : i' = takeIn (str ++ [0]) r' s.inp := by
        rw [h2]
        obtain ⟨f1, f2⟩ := hf
        unfold takeIn Rd.discard
        congr 1
        simp only [f1, f2]
      rw [this]
      rfl
    · exfalso; apply h0; rw [hb]; simp [strBytes]

theorem gzStr_sound (hs : s.inp.inputError = some e0) (hf : Flat s.inp) (bit : Bool) (set : List UInt8 → Header → Header) (hh : set [] s.header = s.header) :
    (∃ x r, x.isSome = bit ∧ (∀ n, x = some n → 0 ∉ n) ∧ s.inp.buf = strBytes x ++ r ∧
      gzStr bit set s = .ok (true, { s with inp := takeIn (strBytes x) r s.inp, header := set (x.getD []) s.header })) ∨
    (∃ s', gzStr bit set s = .ok (false, s') ∧ Failed e0 s s') := by
  cases bit with
  | false => left; exact ⟨none, s.inp.buf, rfl, by simp, rfl, gzStr_ok hs hf (x := none) (by simp) rfl set hh⟩
  | true =>
    rcases stringZLoop_eq (st := s.out.stopIsForced) (s.inp.size + 1) [] hs (by unfold Inp.size; omega) with ⟨str, r', i', b1, h0, _, _⟩ | ⟨h0, i', e1, h1, h2⟩
    · left
      have hl : ∀ n, some str = some n → 0 ∉ n := fun n h => by cases h; exact h0
      have hb : s.inp.buf = strBytes (some str) ++ r' := by rw [b1]; simp [strBytes]
      exact ⟨some str, r', rfl, hl, hb, gzStr_ok hs hf (x := some str) hl hb set hh⟩
    · right
      have e2 : onInp readStringZ s = .ok ((s.inp.buf, false), { s with inp := i' }) := onInp_ok (by simpa [readStringZ] using e1)
      refine ⟨_, ?_, i', _, h1, Or.inl rfl, rfl⟩
      unfold gzStr
      simp only [if_true]
      rw [Go.bind_ok e2]
      simp only [Bool.not_false, if_true]
      exact exhausted_eq false (s := { s with inp := i' }) (h1.err.trans hs)

def crcBytes (bit : Bool) (m : List UInt8) : List UInt8 := if bit then leBytes 2 ((crc32 m).toNat % 65536) else []

theorem gzCRC_ok (hs : s.inp.inputError = some e0) (hf : Flat s.inp) {m r : List UInt8} (bit : Bool) (hm : CrcIs s.inp.crc m)
    (hb : s.inp.buf = crcBytes bit m ++ r) :
    gzCRC bit s = .ok (true, { s with inp := takeIn (crcBytes bit m) r s.inp }) := by
  unfold gzCRC gzCRC16
  cases bit with
  | false =>
    have : r = s.inp.buf := by simpa [crcBytes] using hb.symm
    subst this
    simp only [crcBytes, Bool.false_eq_true, if_false, takeIn_nil hf]
    rfl
  | true =>
    simp only [crcBytes, if_true] at hb ⊢
    rw [needBytes_ok hs false _ hb (by simp), leVal_leBytes _ _ (by omega), hm, if_neg (by simp)]
    rfl

theorem gzCRC_sound (hs : s.inp.inputError = some e0) (hf : Flat s.inp) {m : List UInt8} (bit : Bool) (hm : CrcIs s.inp.crc m) :
    (∃ r, s.inp.buf = crcBytes bit m ++ r ∧ gzCRC bit s = .ok (true, { s with inp := takeIn (crcBytes bit m) r s.inp })) ∨
    (∃ s', gzCRC bit s = .ok (false, s') ∧ Failed e0 s s') := by
  cases bit with
  | false => left; exact ⟨s.inp.buf, rfl, gzCRC_ok hs hf false hm rfl⟩
  | true =>
    rcases needBytes_eq hs false 2 (fun p =>
      if s.inp.crc.toNat % 65536 ≠ leVal p then fail (.gzipHeaderSum (leVal p) (s.inp.crc.toNat % 65536)) else pure true) with ⟨p, r1, b1, l1, e1⟩ | ⟨_, s', e1, f1⟩
    swap
    · right; exact ⟨s', e1, f1⟩
    by_cases hc : s.inp.crc.toNat % 65536 ≠ leVal p
    · right
      rw [if_pos hc] at e1
      obtain ⟨s', e2, f2⟩ := fail_eq (.gzipHeaderSum (leVal p) (s.inp.crc.toNat % 65536)) { s with inp := takeIn p r1 s.inp } e0
      exact ⟨s', e1.trans e2, f2.step (takeIn_step b1)⟩
    · left
      have hp : p = crcBytes true m := by
        unfold crcBytes
        rw [if_pos rfl, ← hm, Decidable.not_not.1 hc, ← l1, leBytes_leVal]
      refine ⟨r1, by rw [← hp]; exact b1, gzCRC_ok hs hf true hm (by rw [← hp]; exact b1)⟩

/-! ### gzip headers -/

def flagsOf (t h e n c : Bool) : Nat := t.toNat + 2 * h.toNat + 4 * e.toNat + 8 * n.toNat + 16 * c.toNat

theorem flags_split : ∀ v < 256, v &&& 0xe0 = 0 →
    v = flagsOf (decide (v &&& 1 ≠ 0)) (decide (v &&& 2 ≠ 0)) (decide (v &&& 4 ≠ 0)) (decide (v &&& 8 ≠ 0)) (decide (v &&& 0x10 ≠ 0)) := by decide +kernel

theorem flags_bits : ∀ t h e n c : Bool, flagsOf t h e n c < 32 ∧ flagsOf t h e n c &&& 0xe0 = 0 ∧ decide (flagsOf t h e n c &&& 1 ≠ 0) = t ∧
    decide (flagsOf t h e n c &&& 2 ≠ 0) = h ∧ decide (flagsOf t h e n c &&& 4 ≠ 0) = e ∧ decide (flagsOf t h e n c &&& 8 ≠ 0) = n ∧ decide (flagsOf t h e n c &&& 0x10 ≠ 0) = c := by decide

theorem low5 : ∀ f < 32, f &&& 0xe0 = 0 := by decide

/-- `readHeaderGZIP` after the fixed part -/
def gzRest (f : Nat) : Go RState Bool :=
  Go.chk (gzExtraData (f &&& 4 ≠ 0)) <|
    Go.chk (gzStr (f &&& 8 ≠ 0) fun str h => { h with fileName := str }) <|
    Go.chk (gzStr (f &&& 0x10 ≠ 0) fun str h => { h with comment := str }) <|
    Go.chk (gzCRC (f &&& 2 ≠ 0)) setGzip

/-- `readHeaderGZIP` with the first ten bytes -/
def gzBody (p : List UInt8) : Go RState Bool := do
    let p3 := (p.getD 3 0).toNat
    if p.getD 0 0 ≠ 0x1f ∨ p.getD 1 0 ≠ 0x8b then fail .gzipMagic
    else if p.getD 2 0 ≠ 8 then fail (.gzipMethod (p.getD 2 0).toNat)
    else do
      let mtime := leVal ((p.drop 4).take 4)
      modHeader fun h => { h with
        lastModified := if mtime ≠ 0 then some (mtime : Int) else h.lastModified
        compressLevel := if p.getD 8 0 = 2 then 9 else if p.getD 8 0 = 4 then 1 else -1
        osType := osDecode (p.getD 9 0) }
      if p3 &&& 0xe0 ≠ 0 then fail (.gzipFlags (p3 &&& 0xe0))
      else do
        modHeader fun h => { h with dataType := if p3 &&& 1 ≠ 0 then .text else .binary }
        gzRest p3

theorem gz_eq (s : RState) : readHeaderGZIP s = needBytes false 10 gzBody { s with inp := { s.inp with crc := Crc.init } } := by
  unfold readHeaderGZIP
  exact (Go.bind_ok (onInp_ok (s := s) (a := ()) (i := { s.inp with crc := Crc.init }) rfl)).trans rfl

/-- the part of `gzReport` known after the fixed part -/
def gzFixed (t : Bool) (mtime : Nat) (xfl os : UInt8) : Header where
  lastModified := if mtime ≠ 0 then some (mtime : Int) else none
  dataType := if t then .text else .binary
  osType := osDecode os
  compressLevel := if xfl = 2 then 9 else if xfl = 4 then 1 else -1

theorem gz_fixed (hs : s.inp.inputError = some e0) (hh : s.header = {}) :
    (∃ f t x o r, f < 32 ∧ t < 2 ^ 32 ∧ s.inp.buf = [0x1f, 0x8b, 8, UInt8.ofNat f] ++ leBytes 4 t ++ [x, o] ++ r ∧
      readHeaderGZIP s = gzRest f { s with inp := takeIn ([0x1f, 0x8b, 8, UInt8.ofNat f] ++ leBytes 4 t ++ [x, o]) r { s.inp with crc := Crc.init }, header := gzFixed (decide (f &&& 1 ≠ 0)) t x o }) ∨
    ((∀ f t x o r, f < 32 → t < 2 ^ 32 → s.inp.buf ≠ [0x1f, 0x8b, 8, UInt8.ofNat f] ++ leBytes 4 t ++ [x, o] ++ r) ∧
      ∃ s' h, readHeaderGZIP s = .ok (false, s') ∧ Failed e0 { s with inp := { s.inp with crc := Crc.init }, header := h } s') := by
  rw [gz_eq]
  have hs0 : ({ s with inp := { s.inp with crc := Crc.init } } : RState).inp.inputError = some e0 := hs
  rcases needBytes_eq hs0 false 10 gzBody with ⟨p, r, b1, l1, e1⟩ | ⟨h1, s', e1, f1⟩
  swap
  · right
    refine ⟨fun f t x o r _ _ hb => ?_, s', s.header, e1, f1⟩
    rw [show ({ s with inp := { s.inp with crc := Crc.init } } : RState).inp.buf = s.inp.buf from rfl, hb] at h1
    simp at h1
    omega
  match p, l1 with
  | [a0, a1, a2, a3, t0, t1, t2, t3, x, o], _ =>
    rw [e1]
    unfold gzBody
    simp only [List.getD_cons_zero, List.getD_cons_succ, List.drop_succ_cons, List.drop_zero, List.take_succ_cons, List.take_zero]
    have hb : s.inp.buf = [a0, a1, a2, a3, t0, t1, t2, t3, x, o] ++ r := b1
    have step : RStep { s.inp with crc := Crc.init } (takeIn [a0, a1, a2, a3, t0, t1, t2, t3, x, o] r { s.inp with crc := Crc.init }) := takeIn_step b1
    have nope : ∀ h, (a0 ≠ 0x1f ∨ a1 ≠ 0x8b ∨ a2 ≠ 8 ∨ a3.toNat &&& 0xe0 ≠ 0) → ∀ m, (∀ f t x o r, f < 32 → t < 2 ^ 32 → s.inp.buf ≠ [0x1f, 0x8b, 8, UInt8.ofNat f] ++ leBytes 4 t ++ [x, o] ++ r) ∧
      ∃ s' h', fail m { s with inp := takeIn [a0, a1, a2, a3, t0, t1, t2, t3, x, o] r { s.inp with crc := Crc.init }, header := h } = .ok (false, s') ∧ Failed e0 { s with inp := { s.inp with crc := Crc.init }, header := h' } s' := by
      intro h hne m
      refine ⟨fun f t x' o' r' hf ht hb' => ?_, ?_⟩
      · rw [hb] at hb'
        simp only [leBytes, List.cons_append, List.nil_append, List.cons.injEq] at hb'
        obtain ⟨rfl, rfl, rfl, rfl, _⟩ := hb'
        rcases hne with h | h | h | h
        · exact h rfl
        · exact h rfl
        · exact h rfl
        · apply h
          rw [UInt8.toNat_ofNat', Nat.mod_eq_of_lt (by omega)]
          exact low5 f hf
      · obtain ⟨s', e2, f2⟩ := fail_eq m { s with inp := takeIn [a0, a1, a2, a3, t0, t1, t2, t3, x, o] r { s.inp with crc := Crc.init }, header := h } e0
        exact ⟨s', h, e2, Failed.step (s := { s with inp := { s.inp with crc := Crc.init }, header := h }) (i := takeIn [a0, a1, a2, a3, t0, t1, t2, t3, x, o] r { s.inp with crc := Crc.init }) f2 step⟩
    by_cases c0 : a0 ≠ 0x1f ∨ a1 ≠ 0x8b
    · right
      rw [if_pos c0]
      exact nope s.header (by tauto) _
    rw [if_neg c0]
    by_cases c1 : a2 ≠ 8
    · right
      rw [if_pos c1]
      exact nope s.header (by tauto) _
    rw [if_neg c1]
    refine Or.imp ?_ ?_ (em (a3.toNat &&& 0xe0 = 0))
    · intro c2
      have h32 : a3.toNat < 32 := by
        have := a3.toNat_lt
        have h := flags_split a3.toNat this c2
        have h' := (flags_bits (decide (a3.toNat &&& 1 ≠ 0)) (decide (a3.toNat &&& 2 ≠ 0)) (decide (a3.toNat &&& 4 ≠ 0)) (decide (a3.toNat &&& 8 ≠ 0)) (decide (a3.toNat &&& 0x10 ≠ 0))).1
        omega
      have ht : leBytes 4 (leVal [t0, t1, t2, t3]) = [t0, t1, t2, t3] := leBytes_leVal [t0, t1, t2, t3]
      have hbytes : [0x1f, 0x8b, 8, UInt8.ofNat a3.toNat] ++ leBytes 4 (leVal [t0, t1, t2, t3]) ++ [x, o] = [a0, a1, a2, a3, t0, t1, t2, t3, x, o] := by
        rw [ht]
        have e0 : a0 = 0x1f := by tauto
        have e1 : a1 = 0x8b := by tauto
        have e2 : a2 = 8 := by tauto
        rw [e0, e1, e2, UInt8.ofNat_toNat]; rfl
      refine ⟨a3.toNat, leVal [t0, t1, t2, t3], x, o, r, h32, leVal_lt [t0, t1, t2, t3], by rw [hbytes]; exact hb, ?_⟩
      rw [hbytes]
      unfold modHeader
      rw [Go.bind_ok (Go.modify_apply _ _), if_neg (by simp [c2]), Go.bind_ok (Go.modify_apply _ _)]
      congr 1
      simp only [hh, gzFixed]
      congr 2
      by_cases h : a3.toNat &&& 1 = 0 <;> simp [h]
    · intro c2
      have := nope { s.header with
        lastModified := if leVal [t0, t1, t2, t3] ≠ 0 then some (leVal [t0, t1, t2, t3] : Int) else s.header.lastModified
        compressLevel := if x = 2 then 9 else if x = 4 then 1 else -1
        osType := osDecode o } (by tauto) (.gzipFlags (a3.toNat &&& 0xe0))
      unfold modHeader
      rw [Go.bind_ok (Go.modify_apply _ _), if_pos c2]
      exact this

theorem crc_first (p : List UInt8) : CrcIs (Crc.genericUpdate Crc.init p) p := by simpa using crc_update crc_init p

theorem chk_true {x y : Go RState Bool} {s s' : RState} (h : x s = .ok (true, s')) : Go.chk x y s = y s' := by unfold Go.chk; rw [h]
theorem chk_false {x y : Go RState Bool} {s s' : RState} (h : x s = .ok (false, s')) : Go.chk x y s = .ok (false, s') := by unfold Go.chk; rw [h]
theorem chk_error {x y : Go RState Bool} {s : RState} {p : Panic} (h : x s = .error p) : Go.chk x y s = .error p := by unfold Go.chk; rw [h]

/-- the variable part of a gzip header before the checksum -/
def gzVar (e n c : Option (List UInt8)) : List UInt8 := extraBytes e ++ strBytes n ++ strBytes c

theorem gzRest_sound (hs : s.inp.inputError = some e0) (hf : Flat s.inp) {m : List UInt8} (hm : CrcIs s.inp.crc m) (h1 : s.header.extra = []) (h2 : s.header.fileName = [])
    (h3 : s.header.comment = []) {f : Nat} :
    (∃ e n c r, e.isSome = decide (f &&& 4 ≠ 0) ∧ n.isSome = decide (f &&& 8 ≠ 0) ∧ c.isSome = decide (f &&& 0x10 ≠ 0) ∧
      (∀ x, e = some x → x.length < 65536 ∧ ExtraOK x) ∧ (∀ x, n = some x → 0 ∉ x) ∧ (∀ x, c = some x → 0 ∉ x) ∧
      s.inp.buf = gzVar e n c ++ crcBytes (decide (f &&& 2 ≠ 0)) (m ++ gzVar e n c) ++ r ∧
      gzRest f s = .ok (true, { s with inp := takeIn (gzVar e n c ++ crcBytes (decide (f &&& 2 ≠ 0)) (m ++ gzVar e n c)) r s.inp, header := { s.header with extra := gotExtra e, fileName := n.getD [], comment := c.getD [] }, actualFormat := .gzip })) ∨
    (∃ s' h, gzRest f s = .ok (false, s') ∧ Failed e0 { s with header := h } s') ∨
    (f &&& 4 ≠ 0 ∧ gzRest f s = .error .bounds ∧ ExtraPanics s.inp.buf) := by
  unfold gzRest
  rcases gzExtra_sound hs hf (decide (f &&& 4 ≠ 0)) h1 with ⟨e, r1, a1, a2, b1, e1⟩ | ⟨s', e1, f1⟩ | ⟨a1, e1, f1⟩
  rotate_left
  · right; left; exact ⟨s', s.header, chk_false e1, f1⟩
  · right; right; exact ⟨of_decide_eq_true a1, chk_error e1, f1⟩
  rw [chk_true e1]
  rcases gzStr_sound (s := { s with inp := takeIn (extraBytes e) r1 s.inp, header := { s.header with extra := gotExtra e } }) hs (flat_takeIn _ _ _) (decide (f &&& 8 ≠ 0))
    (fun str h => { h with fileName := str }) (by simp only [← h2]) with ⟨n, r2, a3, a4, b2, e2⟩ | ⟨s', e2, f2⟩
  swap
  · right; left; exact ⟨s', { s.header with extra := gotExtra e }, chk_false e2, Failed.step (s := { s with header := { s.header with extra := gotExtra e } }) (i := takeIn (extraBytes e) r1 s.inp) f2 (takeIn_step b1)⟩
  rw [chk_true e2]
  have b2' : s.inp.buf = extraBytes e ++ strBytes n ++ r2 := by rw [b1, List.append_assoc]; congr 1
  simp only [takeIn_takeIn]
  rcases gzStr_sound (s := { s with inp := takeIn (extraBytes e ++ strBytes n) r2 s.inp, header := { s.header with extra := gotExtra e, fileName := n.getD [] } }) hs (flat_takeIn _ _ _) (decide (f &&& 0x10 ≠ 0))
    (fun str h => { h with comment := str }) (by simp only [← h3]) with ⟨c, r3, a5, a6, b3, e3⟩ | ⟨s', e3, f3⟩
  swap
  · right; left
    exact ⟨s', { s.header with extra := gotExtra e, fileName := n.getD [] }, chk_false e3, Failed.step (s := { s with header := { s.header with extra := gotExtra e, fileName := n.getD [] } }) (i := takeIn (extraBytes e ++ strBytes n) r2 s.inp) f3 (takeIn_step b2')⟩
  rw [chk_true e3]
  have b3' : s.inp.buf = gzVar e n c ++ r3 := by
    unfold gzVar
    rw [b2', List.append_assoc _ (strBytes c)]; congr 1
  simp only [takeIn_takeIn]
  have hm' : CrcIs (takeIn (gzVar e n c) r3 s.inp).crc (m ++ gzVar e n c) := crc_update hm _
  rcases gzCRC_sound (s := { s with inp := takeIn (gzVar e n c) r3 s.inp, header := { s.header with extra := gotExtra e, fileName := n.getD [], comment := c.getD [] } }) hs (flat_takeIn _ _ _) (decide (f &&& 2 ≠ 0)) hm' with
    ⟨r4, b4, e4⟩ | ⟨s', e4, f4⟩
  swap
  · right; left
    exact ⟨s', { s.header with extra := gotExtra e, fileName := n.getD [], comment := c.getD [] }, chk_false e4,
      Failed.step (s := { s with header := { s.header with extra := gotExtra e, fileName := n.getD [], comment := c.getD [] } }) (i := takeIn (gzVar e n c) r3 s.inp) f4 (takeIn_step b3')⟩
  left
  refine ⟨e, n, c, r4, a1, a3, a5, a2, a4, a6, ?_, ?_⟩
  · rw [b3', List.append_assoc]; congr 1
  · refine (chk_true e4).trans ?_
    simp only [takeIn_takeIn]
    rfl

theorem gzRest_ok (hs : s.inp.inputError = some e0) (hf : Flat s.inp) {m : List UInt8} (hm : CrcIs s.inp.crc m) (h1 : s.header.extra = []) (h2 : s.header.fileName = [])
    (h3 : s.header.comment = []) {f : Nat} {e n c : Option (List UInt8)} {r : List UInt8} (a1 : e.isSome = decide (f &&& 4 ≠ 0)) (a3 : n.isSome = decide (f &&& 8 ≠ 0)) (a5 : c.isSome = decide (f &&& 0x10 ≠ 0))
    (a2 : ∀ x, e = some x → x.length < 65536 ∧ ExtraOK x) (a4 : ∀ x, n = some x → 0 ∉ x) (a6 : ∀ x, c = some x → 0 ∉ x)
    (hb : s.inp.buf = gzVar e n c ++ crcBytes (decide (f &&& 2 ≠ 0)) (m ++ gzVar e n c) ++ r) :
    gzRest f s = .ok (true, { s with inp := takeIn (gzVar e n c ++ crcBytes (decide (f &&& 2 ≠ 0)) (m ++ gzVar e n c)) r s.inp, header := { s.header with extra := gotExtra e, fileName := n.getD [], comment := c.getD [] }, actualFormat := .gzip }) := by
  unfold gzRest
  rw [← a1, ← a3, ← a5]
  rw [chk_true (gzExtra_ok hs hf a2 (r := strBytes n ++ (strBytes c ++ (crcBytes (decide (f &&& 2 ≠ 0)) (m ++ gzVar e n c) ++ r))) (by rw [hb]; simp [gzVar]) h1)]
  rw [chk_true (gzStr_ok (s := { s with inp := takeIn (extraBytes e) _ s.inp, header := { s.header with extra := gotExtra e } }) hs (flat_takeIn _ _ _) a4 rfl (fun str h => { h with fileName := str }) (by simp only [← h2]))]
  simp only [takeIn_takeIn]
  rw [chk_true (gzStr_ok (s := { s with inp := takeIn (extraBytes e ++ strBytes n) _ s.inp, header := { s.header with extra := gotExtra e, fileName := n.getD [] } }) hs (flat_takeIn _ _ _) a6 rfl (fun str h => { h with comment := str }) (by simp only [← h3]))]
  simp only [takeIn_takeIn]
  have hm' : CrcIs (takeIn (gzVar e n c) (crcBytes (decide (f &&& 2 ≠ 0)) (m ++ gzVar e n c) ++ r) s.inp).crc (m ++ gzVar e n c) := crc_update hm _
  refine (chk_true (gzCRC_ok (s := { s with inp := takeIn (gzVar e n c) _ s.inp, header := { s.header with extra := gotExtra e, fileName := n.getD [], comment := c.getD [] } }) hs (flat_takeIn _ _ _) _ hm' rfl)).trans ?_
  simp only [takeIn_takeIn]
  rfl

def gzPrefix (f t : Nat) (x o : UInt8) : List UInt8 := [0x1f, 0x8b, 8, UInt8.ofNat f] ++ leBytes 4 t ++ [x, o]

theorem gz_main (g : GzHeader) : g.main = gzPrefix g.flags g.mtime g.xfl g.os ++ gzVar g.extra g.name g.comment := by
  unfold GzHeader.main gzPrefix gzVar
  cases g.extra <;> cases g.name <;> cases g.comment <;> simp [extraBytes, strBytes]

theorem gz_bytes (g : GzHeader) : g.bytes = gzPrefix g.flags g.mtime g.xfl g.os ++ (gzVar g.extra g.name g.comment ++ crcBytes g.hcrc (gzPrefix g.flags g.mtime g.xfl g.os ++ gzVar g.extra g.name g.comment)) := by
  unfold GzHeader.bytes crcBytes
  rw [gz_main]; simp

theorem gzPrefix_inj {f t f' t' : Nat} {x o x' o' : UInt8} {r r' : List UInt8} (hf : f < 32) (hf' : f' < 32) (ht : t < 2 ^ 32) (ht' : t' < 2 ^ 32)
    (h : gzPrefix f t x o ++ r = gzPrefix f' t' x' o' ++ r') : f = f' ∧ t = t' ∧ x = x' ∧ o = o' ∧ r = r' := by
  unfold gzPrefix at h
  simp only [List.append_assoc, List.cons_append, List.nil_append, List.cons.injEq, true_and] at h
  obtain ⟨h1, h2⟩ := h
  obtain ⟨h3, h4⟩ := List.append_inj h2 (by simp)
  simp only [List.cons.injEq] at h4
  refine ⟨?_, leBytes_inj h3 ht ht', h4.1, h4.2.1, h4.2.2⟩
  have := congrArg UInt8.toNat h1
  rw [UInt8.toNat_ofNat', UInt8.toNat_ofNat'] at this
  omega

/-- a malformed extra field in the header -/
def GzPanics (buf : List UInt8) : Prop := ∃ f t x o r, f < 32 ∧ t < 2 ^ 32 ∧ f &&& 4 ≠ 0 ∧ buf = gzPrefix f t x o ++ r ∧ ExtraPanics r

theorem gz_sound (hs : s.inp.inputError = some e0) (hh : s.header = {}) :
    (∃ (g : GzHeader) (r : List UInt8), (∀ e, g.extra = some e → ExtraOK e) ∧ g.Valid ∧ s.inp.buf = g.bytes ++ r ∧
      readHeaderGZIP s = .ok (true, { s with inp := takeIn g.bytes r { s.inp with crc := Crc.init }, header := gzReport g, actualFormat := .gzip })) ∨
    (∃ s' h, readHeaderGZIP s = .ok (false, s') ∧ Failed e0 { s with inp := { s.inp with crc := Crc.init }, header := h } s') ∨
    (readHeaderGZIP s = .error .bounds ∧ GzPanics s.inp.buf) := by
  rcases gz_fixed hs hh with ⟨f, t, x, o, r1, h1, h2, b1, e1⟩ | ⟨_, s', h, e1, f1⟩
  swap
  · right; left; exact ⟨s', h, e1, f1⟩
  rw [e1]
  have step : RStep { s.inp with crc := Crc.init } (takeIn (gzPrefix f t x o) r1 { s.inp with crc := Crc.init }) := takeIn_step b1
  have hm : CrcIs (takeIn (gzPrefix f t x o) r1 { s.inp with crc := Crc.init }).crc (gzPrefix f t x o) := crc_first (gzPrefix f t x o)
  rcases gzRest_sound (s := { s with inp := takeIn (gzPrefix f t x o) r1 { s.inp with crc := Crc.init }, header := gzFixed (decide (f &&& 1 ≠ 0)) t x o }) hs (flat_takeIn _ _ _)
    (m := gzPrefix f t x o) hm rfl rfl rfl (f := f) with ⟨e, n, c, r, a1, a2, a3, a4, a5, a6, b2, e2⟩ | ⟨s', h, e2, f2⟩ | ⟨a1, e2, p2⟩
  · left
    refine ⟨{ text := decide (f &&& 1 ≠ 0), hcrc := decide (f &&& 2 ≠ 0), mtime := t, xfl := x, os := o, extra := e, name := n, comment := c }, r, fun x hx => (a4 x hx).2, ⟨h2, fun x hx => (a4 x hx).1, a5, a6⟩, ?_, ?_⟩
    all_goals
      have hfl : GzHeader.flags { text := decide (f &&& 1 ≠ 0), hcrc := decide (f &&& 2 ≠ 0), mtime := t, xfl := x, os := o, extra := e, name := n, comment := c } = f := by
        unfold GzHeader.flags
        rw [a1, a2, a3]
        exact (flags_split f (by omega) (low5 f h1)).symm
    · rw [gz_bytes, hfl]
      rw [b1]
      show gzPrefix f t x o ++ r1 = _
      rw [List.append_assoc]
      congr 1
    · rw [gz_bytes, hfl]
      refine e2.trans ?_
      rw [takeIn_takeIn]
      rfl
  · right; left
    exact ⟨s', h, e2, Failed.step (s := { s with inp := { s.inp with crc := Crc.init }, header := h }) (i := takeIn (gzPrefix f t x o) r1 { s.inp with crc := Crc.init }) f2 step⟩
  · right; right
    exact ⟨e2, f, t, x, o, r1, h1, h2, a1, b1, p2⟩

theorem gz_ok (hs : s.inp.inputError = some e0) (hh : s.header = {}) {g : GzHeader} {r : List UInt8} (hx : ∀ e, g.extra = some e → ExtraOK e) (hv : g.Valid)
    (hb : s.inp.buf = g.bytes ++ r) :
    readHeaderGZIP s = .ok (true, { s with inp := takeIn g.bytes r { s.inp with crc := Crc.init }, header := gzReport g, actualFormat := .gzip }) := by
  obtain ⟨v1, v2, v3, v4⟩ := hv
  have hflags : g.flags = flagsOf g.text g.hcrc g.extra.isSome g.name.isSome g.comment.isSome := rfl
  obtain ⟨k1, k2, k3, k4, k5, k6, k7⟩ := flags_bits g.text g.hcrc g.extra.isSome g.name.isSome g.comment.isSome
  rw [← hflags] at k1 k2 k3 k4 k5 k6 k7
  have hb' := hb
  rw [gz_bytes, List.append_assoc] at hb'
  rcases gz_fixed hs hh with ⟨f, t, x, o, r1, h1, h2, b1, e1⟩ | ⟨hno, _⟩
  swap
  · exact absurd hb' (hno _ _ _ _ _ k1 v1)
  obtain ⟨rfl, rfl, rfl, rfl, b2⟩ := gzPrefix_inj h1 k1 h2 v1 (b1.symm.trans hb')
  rw [e1, k3]
  have hm : CrcIs (takeIn (gzPrefix g.flags g.mtime g.xfl g.os) r1 { s.inp with crc := Crc.init }).crc (gzPrefix g.flags g.mtime g.xfl g.os) := crc_first (gzPrefix g.flags g.mtime g.xfl g.os)
  have := gzRest_ok (s := { s with inp := takeIn (gzPrefix g.flags g.mtime g.xfl g.os) r1 { s.inp with crc := Crc.init }, header := gzFixed g.text g.mtime g.xfl g.os }) hs (flat_takeIn _ _ _)
    (m := gzPrefix g.flags g.mtime g.xfl g.os) hm rfl rfl rfl (f := g.flags) (e := g.extra) (n := g.name) (c := g.comment) (r := r)
    k5.symm k6.symm k7.symm (fun x h => ⟨v2 x h, hx x h⟩) v3 v4 (by rw [k4]; exact b2)
  refine this.trans ?_
  rw [takeIn_takeIn, k4, ← gz_bytes]
  rfl

/-! ### zlib headers -/

theorem flg5 : ∀ v < 256, (v &&& 0x20 ≠ 0) ↔ v.testBit 5 = true := by decide +kernel

theorem beVal_two (a b : UInt8) : beVal [a, b] = a.toNat * 256 + b.toNat := by
  simp [beVal, leVal]; omega

theorem beBytes_beVal (l : List UInt8) : beBytes l.length (beVal l) = l := by
  unfold beBytes beVal
  have := leBytes_leVal l.reverse
  rw [List.length_reverse] at this
  rw [this, List.reverse_reverse]

theorem beVal_beBytes (n v : Nat) (h : v < 2 ^ (8 * n)) : beVal (beBytes n v) = v := by
  unfold beVal beBytes
  rw [List.reverse_reverse, leVal_leBytes n v h]

theorem adler_checksum (d : List UInt8) : (Adler.checksum d).toNat = adler32 d := by
  have := adler_update adler_init d
  rw [List.nil_append] at this
  exact this

theorem adler_lt (d : List UInt8) : adler32 d < 2 ^ 32 := by
  rw [← adler_checksum]; exact (Adler.checksum d).isLt

/-- `readHeaderZlib` after the first two bytes -/
def zlibBody (E : Env) (p : List UInt8) : Go RState Bool := do
    let u16 := beVal p
    let p0 := (p.getD 0 0).toNat
    let p1 := (p.getD 1 0).toNat
    if u16 % 31 ≠ 0 then fail (.zlibCheck u16 (u16 % 31))
    else if p0 &&& 0x0f ≠ 8 then fail (.zlibMethod (p0 &&& 0x0f))
    else do
      modHeader fun h => { h with windowBits := 8 + (p0 >>> 4) }
      if 8 + (p0 >>> 4) > E.o.wbits then fail (.zlibWindow (8 + (p0 >>> 4)) E.o.wbits)
      else do
        modHeader fun h => { h with compressLevel := [(1 : Int), 2, -1, 9].getD (p1 >>> 6) (-1) }
        if p1 &&& 0x20 ≠ 0 then
          needBytes false 4 fun q =>
            match E.o.dict with
            | none => fail (.dictNeeded (beVal q))
            | some d =>
              if beVal q ≠ (Adler.checksum d).toNat then fail (.dictOther (beVal q) (Adler.checksum d).toNat)
              else setZlib
        else
          match E.o.dict with
          | some d => fail (.dictNeedless (Adler.checksum d).toNat)
          | none => setZlib

theorem zlib_eq (E : Env) : readHeaderZlib E = needBytes false 2 (zlibBody E) := rfl

theorem dict_bytes {q : List UInt8} (h : q.length = 4) : beBytes 4 (beVal q) = q := by
  have := beBytes_beVal q
  rwa [h] at this

theorem zlib_sound (hs : s.inp.inputError = some e0) (hh : s.header = {}) :
    (∃ cmf flg cinfo hdr rest r, hdr = cmf :: flg :: rest ∧ ZlibHeader E.o.dict cinfo hdr ∧ 2 ^ (cinfo + 8) ≤ 2 ^ E.o.wbits ∧ s.inp.buf = hdr ++ r ∧
      readHeaderZlib E s = .ok (true, { s with inp := takeIn hdr r s.inp, header := zlibReport cmf flg, actualFormat := .zlib })) ∨
    (∃ s' h, readHeaderZlib E s = .ok (false, s') ∧ Failed e0 { s with header := h } s') := by
  rw [zlib_eq]
  rcases needBytes_eq hs false 2 (zlibBody E) with ⟨p, r, b1, l1, e1⟩ | ⟨_, s', e1, f1⟩
  swap
  · right; exact ⟨s', s.header, e1, f1⟩
  rw [e1]
  have step := takeIn_step b1
  have nope : ∀ h m, ∃ s' h', fail m { s with inp := takeIn p r s.inp, header := h } = .ok (false, s') ∧ Failed e0 { s with header := h' } s' := by
    intro h m
    obtain ⟨s', e2, f2⟩ := fail_eq m { s with inp := takeIn p r s.inp, header := h } e0
    exact ⟨s', h, e2, Failed.step (s := { s with header := h }) (i := takeIn p r s.inp) f2 step⟩
  match p, l1 with
  | [cmf, flg], _ =>
    unfold zlibBody
    simp only [List.getD_cons_zero, List.getD_cons_succ, beVal_two]
    have hc := cmf.toNat_lt
    have hg := flg.toNat_lt
    by_cases c1 : (cmf.toNat * 256 + flg.toNat) % 31 ≠ 0
    · right; rw [if_pos c1]; exact nope s.header _
    rw [if_neg c1]
    by_cases c2 : cmf.toNat &&& 0x0f ≠ 8
    · right; rw [if_pos c2]; exact nope s.header _
    rw [if_neg c2]
    unfold modHeader
    rw [Go.bind_ok (Go.modify_apply _ _)]
    by_cases c3 : 8 + (cmf.toNat >>> 4) > E.o.wbits
    · right; rw [if_pos c3]; exact nope _ _
    rw [if_neg c3]
    rw [Go.bind_ok (Go.modify_apply _ _)]
    have hr : ({ { s.header with windowBits := 8 + (cmf.toNat >>> 4) } with compressLevel := [(1 : Int), 2, -1, 9].getD (flg.toNat >>> 6) (-1) } : Header) = zlibReport cmf flg := by
      rw [hh]; rfl
    have k1 : cmf.toNat % 16 = 8 := by rw [and15] at c2; exact Decidable.not_not.1 c2
    have k2 : (cmf.toNat * 256 + flg.toNat) % 31 = 0 := Decidable.not_not.1 c1
    have k3 : 2 ^ (cmf.toNat / 16 + 8) ≤ 2 ^ E.o.wbits := by
      apply Nat.pow_le_pow_right (by omega)
      rw [Nat.shiftRight_eq_div_pow] at c3; omega
    by_cases c4 : flg.toNat &&& 0x20 ≠ 0
    · rw [if_pos c4]
      rcases needBytes_eq (s := { s with inp := takeIn [cmf, flg] r s.inp, header := zlibReport cmf flg }) hs false 4 (fun q => match E.o.dict with
            | none => fail (.dictNeeded (beVal q))
            | some d =>
              if beVal q ≠ (Adler.checksum d).toNat then fail (.dictOther (beVal q) (Adler.checksum d).toNat)
              else setZlib) with ⟨q, r2, b2, l2, e2⟩ | ⟨_, s', e2, f2⟩
      swap
      · right
        refine ⟨s', zlibReport cmf flg, ?_, Failed.step (s := { s with header := zlibReport cmf flg }) (i := takeIn [cmf, flg] r s.inp) f2 step⟩
        rw [← e2]
        simp only [hh]
        rfl
      have e2' := e2
      have b2' : s.inp.buf = [cmf, flg] ++ q ++ r2 := by rw [b1, List.append_assoc]; congr 1
      have nope2 : ∀ m, ∃ s' h', fail m { s with inp := takeIn q r2 (takeIn [cmf, flg] r s.inp), header := zlibReport cmf flg } = .ok (false, s') ∧ Failed e0 { s with header := h' } s' := by
        intro m
        obtain ⟨s', e3, f3⟩ := fail_eq m { s with inp := takeIn q r2 (takeIn [cmf, flg] r s.inp), header := zlibReport cmf flg } e0
        exact ⟨s', zlibReport cmf flg, e3, Failed.step (s := { s with header := zlibReport cmf flg }) (i := takeIn q r2 (takeIn [cmf, flg] r s.inp)) f3 (step.trans (takeIn_step b2))⟩
      simp only [hh]
      cases hd : E.o.dict with
      | none =>
        right
        rw [hd] at e2
        obtain ⟨s', h', e3, f3⟩ := nope2 (.dictNeeded (beVal q))
        exact ⟨s', h', e2.trans e3, f3⟩
      | some d =>
        rw [hd] at e2
        simp only [] at e2
        by_cases c5 : beVal q ≠ (Adler.checksum d).toNat
        · right
          rw [if_pos c5] at e2
          obtain ⟨s', h', e3, f3⟩ := nope2 (.dictOther (beVal q) (Adler.checksum d).toNat)
          exact ⟨s', h', e2.trans e3, f3⟩
        · left
          rw [if_neg c5] at e2
          refine ⟨cmf, flg, cmf.toNat / 16, [cmf, flg] ++ q, q, r2, rfl, ⟨cmf, flg, k1, rfl, k2, (flg5 _ hg).1 c4, ?_⟩, k3, b2', ?_⟩
          · rw [← adler_checksum, ← Decidable.not_not.1 c5, dict_bytes l2]
          · refine Eq.trans e2 ?_
            rw [takeIn_takeIn]
            rfl
    · rw [if_neg c4]
      cases hd : E.o.dict with
      | some d => right; exact nope _ _
      | none =>
        left
        refine ⟨cmf, flg, cmf.toNat / 16, [cmf, flg], [], r, rfl, ⟨cmf, flg, k1, rfl, k2, ?_, rfl⟩, k3, b1, ?_⟩
        · have := (flg5 _ hg).not.1 c4
          simpa using this
        · simp only [hh]; rfl

theorem zlib_ok (hs : s.inp.inputError = some e0) (hh : s.header = {}) {cinfo : Nat} {hdr r : List UInt8} (hz : ZlibHeader E.o.dict cinfo hdr)
    (hw : 2 ^ (cinfo + 8) ≤ 2 ^ E.o.wbits) (hb : s.inp.buf = hdr ++ r) :
    ∃ cmf flg rest, hdr = cmf :: flg :: rest ∧ readHeaderZlib E s = .ok (true, { s with inp := takeIn hdr r s.inp, header := zlibReport cmf flg, actualFormat := .zlib }) := by
  obtain ⟨cmf, flg, k1, k2, k3, k4⟩ := hz
  have hw' : cinfo + 8 ≤ E.o.wbits := (Nat.pow_le_pow_iff_right (by omega)).1 hw
  rw [zlib_eq]
  have body : ∀ (rest : List UInt8), hdr = cmf :: flg :: rest → readHeaderZlib E s = (if flg.toNat &&& 0x20 ≠ 0 then
          needBytes false 4 fun q =>
            match E.o.dict with
            | none => fail (.dictNeeded (beVal q))
            | some d =>
              if beVal q ≠ (Adler.checksum d).toNat then fail (.dictOther (beVal q) (Adler.checksum d).toNat)
              else setZlib
        else
          match E.o.dict with
          | some d => fail (.dictNeedless (Adler.checksum d).toNat)
          | none => setZlib) { s with inp := takeIn [cmf, flg] (rest ++ r) s.inp, header := zlibReport cmf flg } := by
    intro rest hrest
    rw [zlib_eq, needBytes_ok (n := 2) hs false _ (p := [cmf, flg]) (r := rest ++ r) (by rw [hb, hrest]; rfl) rfl]
    unfold zlibBody
    simp only [List.getD_cons_zero, List.getD_cons_succ, beVal_two]
    rw [if_neg (by simp [k3]), if_neg (by rw [and15]; simp [k1])]
    unfold modHeader
    rw [Go.bind_ok (Go.modify_apply _ _), if_neg (by rw [Nat.shiftRight_eq_div_pow]; omega), Go.bind_ok (Go.modify_apply _ _)]
    simp only [hh]
    rfl
  cases hd : E.o.dict with
  | none =>
    rw [hd] at k4
    simp only [] at k4
    refine ⟨cmf, flg, [], k4.2, ?_⟩
    rw [← zlib_eq, body [] k4.2, if_neg (by rw [flg5 _ flg.toNat_lt, k4.1]; simp), hd, k4.2]
    rfl
  | some d =>
    rw [hd] at k4
    simp only [] at k4
    have k5 : hdr = cmf :: flg :: beBytes 4 (adler32 d) := k4.2
    refine ⟨cmf, flg, beBytes 4 (adler32 d), k5, ?_⟩
    rw [← zlib_eq, body _ k5, if_pos (by rw [flg5 _ flg.toNat_lt, k4.1])]
    rw [needBytes_ok (n := 4) (s := { s with inp := takeIn [cmf, flg] (beBytes 4 (adler32 d) ++ r) s.inp, header := zlibReport cmf flg }) hs false _ (p := beBytes 4 (adler32 d)) (r := r) rfl (by simp)]
    rw [hd]
    simp only [beVal_beBytes 4 _ (adler_lt d), adler_checksum, ne_eq, not_true_eq_false, if_false, takeIn_takeIn]
    rw [k5]
    rfl

end
end Flate.Proof.R
