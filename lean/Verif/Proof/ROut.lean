/-
Delivering decompressed data, while nobody closes the Reader.
-/
import Verif.Model.Reader
import Verif.Proof.Checksum

namespace Flate.Proof.R
open Flate.Spec Flate.Model Flate.Model.Rd

/-- the last `n` elements -/
def lastN {α : Type} (n : Nat) (l : List α) : List α := l.drop (l.length - n)

theorem lastN_length {α : Type} (n : Nat) (l : List α) : (lastN n l).length = min n l.length := by
  simp [lastN]; omega

theorem lastN_append {α : Type} (n : Nat) (a b : List α) : lastN n (lastN n a ++ b) = lastN n (a ++ b) := by
  unfold lastN
  simp only [List.length_append, List.length_drop, List.drop_append, List.drop_drop]
  congr 1
  · congr 1; omega
  · congr 1; omega

theorem lastN_self {α : Type} {n : Nat} {l : List α} (h : l.length ≤ n) : lastN n l = l := by
  unfold lastN
  rw [show l.length - n = 0 by omega]; rfl

theorem windowWrite_eq (n : Nat) (h p : List UInt8) :
    windowWrite n (lastN (2 ^ n) h) p = lastN (2 ^ n) (h ++ p) := by
  rw [← lastN_append]; rfl

/-- The Reader is not being closed. -/
def Env.Open (E : Env) : Prop := ∀ n, E.stop n = none

/-- `p` has been added to the decompressed data. -/
structure Emit (E : Env) (o : Out) (p : List UInt8) (o' : Out) : Prop where
  window : ∀ h, o.window = lastN (2 ^ E.o.wbits) h → o'.window = lastN (2 ^ E.o.wbits) (h ++ p)
  pieces : ∃ ds : List (List UInt8), o'.acts = o.acts ++ ds.map .data ∧
    ds.flatten ++ o'.decodeBuffer = o.decodeBuffer ++ p ∧
    o'.outTotal = o.outTotal + ds.flatten.length ∧ o'.outStream = o.outStream + ds.flatten.length ∧
    (∀ d, CrcIs o.crc d → CrcIs o'.crc (d ++ ds.flatten)) ∧ (∀ d, AdlerIs o.adler d → AdlerIs o'.adler (d ++ ds.flatten))
  err : o'.errorWasSet = o.errorWasSet
  stop : o'.stopIsForced = o.stopIsForced
  fits : o.decodeBuffer.length ≤ E.cap → o'.decodeBuffer.length ≤ E.cap

theorem Emit.refl (E : Env) (o : Out) : Emit E o [] o := by
  refine ⟨fun h e => by simpa using e, ⟨[], by simp, by simp, by simp, by simp, by simp, by simp⟩, rfl, rfl, id⟩

theorem Emit.trans {E : Env} {o o1 o2 : Out} {p q : List UInt8} (h : Emit E o p o1) (h' : Emit E o1 q o2) :
    Emit E o (p ++ q) o2 := by
  obtain ⟨w, ⟨ds, a1, a2, a3, a4, a5, a6⟩, e, st, ft⟩ := h
  obtain ⟨w', ⟨ds', b1, b2, b3, b4, b5, b6⟩, e', st', ft'⟩ := h'
  refine ⟨fun h hw => by rw [← List.append_assoc]; exact w' _ (w _ hw), ⟨ds ++ ds', ?_, ?_, ?_, ?_, ?_, ?_⟩, e'.trans e, st'.trans st, fun h => ft' (ft h)⟩
  · rw [b1, a1]; simp
  · rw [List.flatten_append, List.append_assoc, b2, ← List.append_assoc, a2, List.append_assoc]
  · rw [b3, a3]; simp; omega
  · rw [b4, a4]; simp; omega
  · intro d h; simpa using b5 _ (a5 d h)
  · intro d h; simpa using b6 _ (a6 d h)

theorem emit_mustFlush {E : Env} (hE : Env.Open E) {o : Out} (hs : o.stopIsForced = false) :
    Emit E o [] (mustFlush E o) ∧ (mustFlush E o).decodeBuffer = [] := by
  unfold mustFlush
  have hn := hE o.nFlush
  simp only [hs, Bool.false_eq_true, if_false, hn]
  by_cases hb : o.decodeBuffer.isEmpty = true
  · simp only [hb, if_true]
    have hb' : o.decodeBuffer = [] := by simpa using hb
    refine ⟨⟨fun h e => by simpa using e, ⟨[], by simp, by simp, by simp, by simp, by simp, by simp⟩, rfl, by first | rfl | exact hs.symm | (simp [hs, countOut]), id⟩, hb'⟩
  · simp only [hb, if_false]
    refine ⟨⟨fun h e => by simpa [countOut] using e, ⟨[o.decodeBuffer], ?_, ?_, ?_, ?_, ?_, ?_⟩, rfl, by first | rfl | exact hs.symm | (simp [hs, countOut]), fun _ => Nat.zero_le _⟩, rfl⟩
    · simp
    · simp
    · simp [countOut]
    · simp [countOut]
    · intro d h; simpa [countOut] using crc_update h o.decodeBuffer
    · intro d h; simpa [countOut] using adler_update h o.decodeBuffer

theorem cap_pos (E : Env) : 0 < E.cap := Nat.two_pow_pos _

theorem emit_tryFlush {E : Env} (hE : Env.Open E) {o : Out} (hs : o.stopIsForced = false) :
    Emit E o [] (tryFlush E o) ∧ (tryFlush E o).decodeBuffer.length < E.cap := by
  unfold tryFlush
  by_cases h : o.decodeBuffer.length ≥ E.cap
  · simp only [h, if_true]
    obtain ⟨h1, h2⟩ := emit_mustFlush hE hs
    exact ⟨h1, by rw [h2]; exact cap_pos E⟩
  · simp only [h, if_false]
    exact ⟨Emit.refl E o, by omega⟩

theorem emit_put (E : Env) (o : Out) (p : List UInt8) (hp : o.decodeBuffer.length + p.length ≤ E.cap) :
    Emit E o p { o with decodeBuffer := o.decodeBuffer ++ p, window := windowWrite E.o.wbits o.window p } := by
  refine ⟨fun h e => ?_, ⟨[], by simp, by simp, by simp, by simp, by simp, by simp⟩, rfl, rfl, fun _ => by simpa using hp⟩
  show windowWrite E.o.wbits o.window p = _
  rw [e, windowWrite_eq]

theorem emit_dbWriteLoop {E : Env} (hE : Env.Open E) : ∀ (fuel : Nat) (p : List UInt8) {o : Out}, o.stopIsForced = false →
    p.length < fuel → ∃ o', dbWriteLoop E fuel p o = .ok o' ∧ Emit E o p o'
  | 0, p, o, _, h => by omega
  | fuel + 1, p, o, hs, h => by
    unfold dbWriteLoop
    by_cases hp : p.length > 0
    · simp only [hp, if_true]
      obtain ⟨h1, h2⟩ := emit_tryFlush hE hs
      generalize hn : min p.length (E.cap - (tryFlush E o).decodeBuffer.length) = n
      have h3 := h1.trans (emit_put E (tryFlush E o) (p.take n) (by rw [List.length_take]; omega))
      obtain ⟨o', h4, h5⟩ := emit_dbWriteLoop hE fuel (p.drop n) (o := { tryFlush E o with decodeBuffer := (tryFlush E o).decodeBuffer ++ p.take n, window := windowWrite E.o.wbits (tryFlush E o).window (p.take n) })
        (h3.stop.trans hs) (by simp only [List.length_drop]; omega)
      refine ⟨o', h4, ?_⟩
      have := h3.trans h5
      simpa using this
    · simp only [hp, if_false]
      have : p = [] := by cases p with
        | nil => rfl
        | cons => simp at hp
      subst this
      exact ⟨o, rfl, Emit.refl E o⟩

theorem emit_dbWrite {E : Env} (hE : Env.Open E) (p : List UInt8) {s : RState} (hs : s.out.stopIsForced = false) :
    ∃ o', dbWrite E p s = .ok ((), { s with out := o' }) ∧ Emit E s.out p o' := by
  obtain ⟨o', h1, h2⟩ := emit_dbWriteLoop hE (p.length + 1) p hs (by omega)
  exact ⟨o', by unfold dbWrite; rw [h1], h2⟩

theorem emit_dbWriteByte {E : Env} (hE : Env.Open E) (ch : UInt8) {s : RState} (hs : s.out.stopIsForced = false) :
    ∃ o', dbWriteByte E ch s = .ok ((), { s with out := o' }) ∧ Emit E s.out [ch] o' := by
  obtain ⟨h1, h2⟩ := emit_tryFlush hE hs
  refine ⟨_, ?_, h1.trans (emit_put E (tryFlush E s.out) [ch] h2)⟩
  unfold dbWriteByte onOut
  simp only [h2, if_true]

/-! ### matches -/

theorem lzCopy_add (h : List UInt8) (d a b : Nat) : lzCopy h d (a + b) = lzCopy (lzCopy h d a) d b := by
  induction a generalizing h with
  | zero => simp [lzCopy]
  | succ a ih => rw [show a + 1 + b = (a + b) + 1 by omega]; simp only [lzCopy]; exact ih _

theorem lzCopy_short (d : Nat) : ∀ (k : Nat) (h : List UInt8), k ≤ d → d ≤ h.length →
    lzCopy h d k = h ++ (h.drop (h.length - d)).take k
  | 0, h, _, _ => by simp [lzCopy]
  | k + 1, h, h1, h2 => by
    have e : lzCopy h d (k + 1) = lzCopy h d k ++ [(lzCopy h d k).getD ((lzCopy h d k).length - d) 0] := by
      rw [lzCopy_add]; rfl
    rw [e, lzCopy_short d k h (by omega) h2]
    have hl : (h ++ (h.drop (h.length - d)).take k).length = h.length + k := by simp; omega
    rw [hl, List.append_assoc]
    congr 1
    rw [show h.length + k - d = (h.length - d) + k by omega]
    have hlt : k < (h.drop (h.length - d)).length := by simp; omega
    rw [List.take_add_one]
    congr 1
    rw [List.getElem?_drop]
    have : (h.length - d) + k < h.length := by omega
    simp [List.getD, List.getElem?_append, this]

theorem lookupByte_eq {K : Nat} {w h : List UInt8} (hw : w = lastN K h) {dist : Nat} (h1 : 1 ≤ dist) :
    lookupByte w dist = if dist ≤ K ∧ dist ≤ h.length then some (h.getD (h.length - dist) 0) else none := by
  have hl := lastN_length K h
  unfold lookupByte
  rw [hw, hl]
  by_cases hc : dist ≤ K ∧ dist ≤ h.length
  · rw [if_pos (by omega), if_pos hc]
    congr 1
    unfold lastN
    simp only [List.getD, List.getElem?_drop]
    congr 2
    omega
  · rw [if_neg (by omega), if_neg hc]

theorem lookupSlice_eq {K : Nat} {w h : List UInt8} (hw : w = lastN K h) {dist : Nat} (h1 : 1 ≤ dist) (len clip : Nat) :
    lookupSlice w dist len clip = if dist ≤ K ∧ dist ≤ h.length then
      some ((h.drop (h.length - dist)).take (min len clip)) else none := by
  have hl := lastN_length K h
  unfold lookupSlice
  rw [hw, hl]
  by_cases hc : dist ≤ K ∧ dist ≤ h.length
  · rw [if_pos (by omega), if_pos hc]
    congr 2
    unfold lastN
    rw [List.drop_drop]
    congr 1
    omega
  · rw [if_neg (by omega), if_neg hc]

theorem copyLoop_eq {E : Env} (hE : Env.Open E) {dist : Nat} (h1 : 1 ≤ dist) (h2 : dist ≤ 2 ^ E.o.wbits) : ∀ (n : Nat) {s : RState} {h : List UInt8},
    s.out.stopIsForced = false → s.out.window = lastN (2 ^ E.o.wbits) h → dist ≤ h.length →
    ∃ o' p, copyLoop E dist n s = .ok (true, { s with out := o' }) ∧ Emit E s.out p o' ∧ h ++ p = lzCopy h dist n
  | 0, s, h, _, _, _ => ⟨s.out, [], rfl, Emit.refl E _, by simp [lzCopy]⟩
  | n + 1, s, h, hs, hw, hd => by
    unfold copyLoop
    rw [lookupByte_eq hw h1, if_pos ⟨h2, hd⟩]
    simp only []
    obtain ⟨o1, e1, m1⟩ := emit_dbWriteByte hE (h.getD (h.length - dist) 0) hs
    rw [Go.bind_ok e1]
    obtain ⟨o2, p, e2, m2, e3⟩ := copyLoop_eq hE h1 h2 n (s := { s with out := o1 }) (m1.stop.trans hs) (m1.window h hw) (by simp; omega)
    refine ⟨o2, [h.getD (h.length - dist) 0] ++ p, e2, m1.trans m2, ?_⟩
    rw [← List.append_assoc, e3]; rfl

theorem emit_look (E : Env) (o : Out) (n : Nat) : Emit E o [] { o with nLook := n } := by
  refine ⟨fun h e => by simpa using e, ⟨[], by simp, by simp, by simp, by simp, by simp, by simp⟩, rfl, rfl, id⟩

theorem copyMatch_ok {E : Env} (hE : Env.Open E) {dist len : Nat} (h1 : 1 ≤ dist) (h2 : dist ≤ 2 ^ E.o.wbits) {s : RState} {h : List UInt8}
    (hs : s.out.stopIsForced = false) (hw : s.out.window = lastN (2 ^ E.o.wbits) h) (hd : dist ≤ h.length) :
    ∃ o' p, copyMatch E dist len s = .ok (true, { s with out := o' }) ∧ Emit E s.out p o' ∧ h ++ p = lzCopy h dist len := by
  unfold copyMatch
  rw [lookupSlice_eq hw h1, if_pos ⟨h2, hd⟩]
  simp only []
  generalize hp : (h.drop (h.length - dist)).take (min len (E.clip s.out.nLook)) = p
  rw [Go.bind_ok (Go.modify_apply _ _)]
  have m0 := emit_look E s.out (s.out.nLook + 1)
  obtain ⟨o1, e1, m1⟩ := emit_dbWrite hE p (s := { s with out := { s.out with nLook := s.out.nLook + 1 } }) hs
  rw [Go.bind_ok e1]
  have m01 := m0.trans m1
  simp only [List.nil_append] at m01
  have hlen : p.length = min (min len (E.clip s.out.nLook)) dist := by rw [← hp]; simp; omega
  have hc : lzCopy h dist p.length = h ++ p := by
    rw [lzCopy_short dist _ h (by omega) hd]
    congr 1
    rw [← hp, List.length_take, ← List.take_eq_take_min]
  obtain ⟨o2, q, e2, m2, e3⟩ := copyLoop_eq hE h1 h2 (len - p.length) (s := { s with out := o1 }) (h := h ++ p) (m01.stop.trans hs) (m01.window h hw) (by simp; omega)
  refine ⟨o2, p ++ q, e2, m01.trans m2, ?_⟩
  rw [← List.append_assoc, e3, ← hc, ← lzCopy_add]
  congr 1
  omega

theorem copyMatch_far {E : Env} {dist len : Nat} (h1 : 1 ≤ dist) {s : RState} {h : List UInt8}
    (hw : s.out.window = lastN (2 ^ E.o.wbits) h) (hd : ¬ (dist ≤ 2 ^ E.o.wbits ∧ dist ≤ h.length)) :
    copyMatch E dist len s = fail (.tooFar dist (2 ^ E.o.wbits)) s := by
  unfold copyMatch
  rw [lookupSlice_eq hw h1, if_neg hd]

end Flate.Proof.R
