/-
Output side of the Writer: bytes and bits reaching the underlying writer.
-/
import Verif.Model.Writer
import Verif.Proof.Cmd
import Verif.Proof.Checksum

namespace Flate.Proof
open Flate.Spec Flate.Model

/-- bytes handed to the output buffer so far -/
def pushed (s : WState) : List UInt8 := s.sink.out ++ s.output

/-- all bits produced so far: delivered bytes and bits waiting in the accumulator -/
def view (s : WState) : List Bool := bytesBits (pushed s) ++ natBits s.obLen s.obBlock

/-- the Writer between two output operations which all succeeded so far -/
structure WInv (s : WState) : Prop where
  hW : s.W = 32 ∨ s.W = 64
  lt : s.obLen < s.W
  blk : s.obBlock < 2 ^ s.obLen
  out : s.output = []

/-- what output operations leave alone -/
structure Core (s t : WState) : Prop where
  W : t.W = s.W
  o : t.o = s.o
  outBits : t.outBits = s.outBits
  adler : t.adler = s.adler
  crcIn : t.crcIn = s.crcIn
  lz : t.lz = s.lz
  inTotal : t.inTotal = s.inTotal
  inStream : t.inStream = s.inStream
  numStreams : t.numStreams = s.numStreams
  header : t.header = s.header
  wfail : t.sink.wfail = s.sink.wfail
  ffail : t.sink.ffail = s.sink.ffail
  sfail : t.sink.sfail = s.sink.sfail
  hasFlush : t.sink.hasFlush = s.sink.hasFlush
  hasSync : t.sink.hasSync = s.sink.hasSync
  nFlush : t.sink.nFlush = s.sink.nFlush
  nSync : t.sink.nSync = s.sink.nSync

theorem Core.refl (s : WState) : Core s s := by constructor <;> rfl
theorem Core.trans {s t u : WState} (h : Core s t) (k : Core t u) : Core s u := by
  constructor
  · exact k.W.trans h.W
  · exact k.o.trans h.o
  · exact k.outBits.trans h.outBits
  · exact k.adler.trans h.adler
  · exact k.crcIn.trans h.crcIn
  · exact k.lz.trans h.lz
  · exact k.inTotal.trans h.inTotal
  · exact k.inStream.trans h.inStream
  · exact k.numStreams.trans h.numStreams
  · exact k.header.trans h.header
  · exact k.wfail.trans h.wfail
  · exact k.ffail.trans h.ffail
  · exact k.sfail.trans h.sfail
  · exact k.hasFlush.trans h.hasFlush
  · exact k.hasSync.trans h.hasSync
  · exact k.nFlush.trans h.nFlush
  · exact k.nSync.trans h.nSync

/-- the underlying writer accepts everything -/
def Reliable (s : WState) : Prop := ∀ n, s.sink.wfail n = none

/-- the underlying writer has returned an error, and the Writer has recorded it -/
def Failed (s t : WState) : Prop :=
  t.state = .error ∧ ∃ pre e, t.sink.errs = s.sink.errs ++ pre ++ [e] ∧ t.err = some (.io e)

theorem Failed.pre {s t u : WState} (h : Failed t u) (hp : s.sink.errs <+: t.sink.errs) : Failed s u := by
  obtain ⟨h1, pre, e, h2, h3⟩ := h
  obtain ⟨r, hr⟩ := hp
  exact ⟨h1, r ++ pre, e, by rw [h2, ← hr]; simp, h3⟩

/-- a counter is monotone along a log of events -/
def MonoLog (f : Event → Nat) : Nat → List Sent → Nat → Prop
  | a, [], b => a ≤ b
  | a, e :: es, b => a ≤ f e.ev ∧ MonoLog f (f e.ev) es b

theorem MonoLog.le {f : Event → Nat} {a b : Nat} {es : List Sent} (h : MonoLog f a es b) : a ≤ b := by
  induction es generalizing a with
  | nil => exact h
  | cons e es ih => exact Nat.le_trans h.1 (ih h.2)

theorem MonoLog.append {f : Event → Nat} {a b c : Nat} {es es' : List Sent} (h : MonoLog f a es b)
    (h' : MonoLog f b es' c) : MonoLog f a (es ++ es') c := by
  induction es generalizing a with
  | nil =>
    cases es' with
    | nil => exact Nat.le_trans h h'
    | cons e es' => exact ⟨Nat.le_trans h h'.1, h'.2⟩
  | cons e es ih => exact ⟨h.1, ih h.2⟩

/-- kinds of the events of a log -/
def kinds (es : List Sent) : List EvKind := es.map fun p => p.ev.kind

@[simp] theorem kinds_append (a b : List Sent) : kinds (a ++ b) = kinds a ++ kinds b := by simp [kinds]

/-- what is true after any output operation, whether it succeeded or not -/
structure Step (s t : WState) (es : List Sent) : Prop where
  core : Core s t
  out : s.sink.out <+: t.sink.out
  errs : s.sink.errs <+: t.sink.errs
  pfx : pushed s <+: pushed t
  tot : t.outTotal + (pushed s).length = s.outTotal + (pushed t).length
  str : t.outStream + (pushed s).length = s.outStream + (pushed t).length
  ev : t.events = s.events ++ es
  evOut : ∀ p ∈ es, p.ev.outTotal + (pushed s).length = s.outTotal + p.delivered ∧
    p.ev.outStream + (pushed s).length = s.outStream + p.delivered
  evIn : ∀ p ∈ es, p.ev.inTotal = s.inTotal ∧ p.ev.inStream = s.inStream ∧ p.ev.numStreams = s.numStreams ∧
    p.ev.format = s.o.format ∧ p.buffered = s.lz.buf.length
  mono : MonoLog Event.outTotal s.outTotal es t.outTotal
  state : t.state = s.state ∨ t.state = .error

theorem Step.refl (s : WState) : Step s s [] :=
  ⟨Core.refl s, List.prefix_refl _, List.prefix_refl _, List.prefix_refl _, rfl, rfl, by simp, by simp, by simp, Nat.le_refl _, Or.inl rfl⟩

theorem Step.trans {s t u : WState} {es es' : List Sent} (h : Step s t es) (k : Step t u es') :
    Step s u (es ++ es') := by
  refine ⟨h.core.trans k.core, h.out.trans k.out, h.errs.trans k.errs, h.pfx.trans k.pfx, ?_, ?_, ?_, ?_, ?_, h.mono.append k.mono, ?_⟩
  · have := h.tot; have := k.tot; omega
  · have := h.str; have := k.str; omega
  · rw [k.ev, h.ev, List.append_assoc]
  · intro p hp
    rcases List.mem_append.1 hp with hp | hp
    · exact h.evOut p hp
    · have := k.evOut p hp; have := h.tot; have := h.str; omega
  · intro p hp
    rcases List.mem_append.1 hp with hp | hp
    · exact h.evIn p hp
    · have := k.evIn p hp
      rw [h.core.inTotal, h.core.inStream, h.core.numStreams, h.core.o, h.core.lz] at this
      exact this
  · rcases k.state with e | e
    · rw [e]; exact h.state
    · exact Or.inr e

/-- what is true in addition after a successful one -/
structure Adv (s t : WState) (bits : List Bool) : Prop where
  inv : WInv t
  state : t.state = s.state
  err : t.err = s.err
  errs : t.sink.errs = s.sink.errs
  view : view t = view s ++ bits
  crc : ∃ bs, pushed t = pushed s ++ bs ∧ t.crcOut = Crc.genericUpdate s.crcOut bs

theorem genericUpdate_append (c : BitVec 32) (p q : List UInt8) :
    Crc.genericUpdate c (p ++ q) = Crc.genericUpdate (Crc.genericUpdate c p) q := by
  simp [genericUpdate_eq, bytesBits]

theorem genericUpdate_nil (c : BitVec 32) : Crc.genericUpdate c [] = c := by
  simp [genericUpdate_eq, bytesBits]

theorem Adv.refl {s : WState} (h : WInv s) : Adv s s [] :=
  ⟨h, rfl, rfl, rfl, by simp, [], by simp, (genericUpdate_nil _).symm⟩

theorem Adv.trans {s t u : WState} {a b : List Bool} (h : Adv s t a) (k : Adv t u b) : Adv s u (a ++ b) := by
  refine ⟨k.inv, k.state.trans h.state, k.err.trans h.err, k.errs.trans h.errs, ?_, ?_⟩
  · rw [k.view, h.view, List.append_assoc]
  · obtain ⟨x, hx, cx⟩ := h.crc
    obtain ⟨y, hy, cy⟩ := k.crc
    exact ⟨x ++ y, by rw [hy, hx, List.append_assoc], by rw [cy, cx, genericUpdate_append]⟩

/-- An output operation which, when nothing fails, produces the given bits and events. -/
def Does (f : Go WState Bool) (s : WState) (bits : List Bool) (ks : List EvKind) : Prop :=
  ∃ b t es, f s = .ok (b, t) ∧ Step s t es ∧ (b = true → Adv s t bits ∧ kinds es = ks) ∧
    (b = false → Failed s t ∧ kinds es <+: ks) ∧ (Reliable s → b = true)

theorem Does.pure {s : WState} (h : WInv s) : Does (pure true) s [] [] :=
  ⟨true, s, [], rfl, Step.refl s, fun _ => ⟨Adv.refl h, rfl⟩, by simp, fun _ => rfl⟩

theorem reliable_of_core {s t : WState} (h : Core s t) (r : Reliable s) : Reliable t := by
  intro n; rw [h.wfail]; exact r n

theorem Does.chk {x y : Go WState Bool} {s : WState} {a b : List Bool} {k l : List EvKind}
    (hx : Does x s a k)
    (hy : ∀ t, WInv t → Core s t → t.state = s.state → view t = view s ++ a → Does y t b l) :
    Does (Go.chk x y) s (a ++ b) (k ++ l) := by
  obtain ⟨r, t, es, e, st, ok, bad, rel⟩ := hx
  cases r with
  | false =>
    refine ⟨false, t, es, chk_false e, st, by simp, fun _ => ?_, fun h => absurd (rel h) (by simp)⟩
    obtain ⟨f, p⟩ := bad rfl
    exact ⟨f, p.trans (List.prefix_append _ _)⟩
  | true =>
    obtain ⟨av, ke⟩ := ok rfl
    obtain ⟨r', u, es', e', st', ok', bad', rel'⟩ := hy t av.inv st.core av.state av.view
    refine ⟨r', u, es ++ es', by rw [chk_ok e]; exact e', st.trans st', ?_, ?_, ?_⟩
    · intro h
      obtain ⟨av', ke'⟩ := ok' h
      exact ⟨av.trans av', by rw [kinds_append, ke, ke']⟩
    · intro h
      obtain ⟨f, p⟩ := bad' h
      exact ⟨f.pre st.errs, by rw [kinds_append, ke]; exact List.prefix_append_right_inj _ |>.2 p⟩
    · intro h
      exact rel' (reliable_of_core st.core h)

/-! ### writing bytes -/

theorem outLoop_spec (p : List UInt8) : ∀ (fuel : Nat) (s : WState),
    2 * p.length + (if s.output.length < 2 ^ s.outBits then 0 else 1) < fuel →
    ∃ b t, outLoop fuel p s = .ok (b, t) ∧ Step s t [] ∧ t.obLen = s.obLen ∧ t.obBlock = s.obBlock ∧
      (b = true → t.state = s.state ∧ t.err = s.err ∧ t.sink.errs = s.sink.errs ∧ pushed t = pushed s ++ p ∧
        t.crcOut = Crc.genericUpdate s.crcOut p ∧ (p ≠ [] → t.output = []) ∧ (p = [] → t.output = s.output)) ∧
      (b = false → Failed s t) ∧ (Reliable s → b = true) := by
  have key : ∀ (m fuel : Nat) (p : List UInt8) (s : WState), m < fuel →
      2 * p.length + (if s.output.length < 2 ^ s.outBits then 0 else 1) = m →
      ∃ b t, outLoop fuel p s = .ok (b, t) ∧ Step s t [] ∧ t.obLen = s.obLen ∧ t.obBlock = s.obBlock ∧
      (b = true → t.state = s.state ∧ t.err = s.err ∧ t.sink.errs = s.sink.errs ∧ pushed t = pushed s ++ p ∧
        t.crcOut = Crc.genericUpdate s.crcOut p ∧ (p ≠ [] → t.output = []) ∧ (p = [] → t.output = s.output)) ∧
      (b = false → Failed s t) ∧ (Reliable s → b = true) := by
    intro m
    induction m using Nat.strongRecOn with
    | ind m ih =>
      intro fuel p s hf hm
      cases fuel with
      | zero => omega
      | succ fuel =>
        by_cases hp : p = []
        · subst hp
          refine ⟨true, s, by simp [outLoop], Step.refl s, rfl, rfl, fun _ => ?_, by simp, fun _ => rfl⟩
          exact ⟨rfl, rfl, rfl, by simp, (genericUpdate_nil _).symm, by simp, fun _ => rfl⟩
        · have hpl : 0 < p.length := List.length_pos_iff.2 hp
          generalize hnn : min p.length (2 ^ s.outBits - s.output.length) = nn
          let s1 : WState := { s with output := s.output ++ p.take nn, crcOut := Crc.genericUpdate s.crcOut (p.take nn), outTotal := s.outTotal + nn, outStream := s.outStream + nn }
          have hnl : (p.take nn).length = nn := by rw [List.length_take]; omega
          have hp1 : pushed s1 = pushed s ++ p.take nn := by simp [pushed, s1]
          have step1 : Step s s1 [] := by
            refine ⟨by constructor <;> rfl, List.prefix_refl _, List.prefix_refl _, ?_, ?_, ?_, by simp [s1], by simp, by simp, ?_, Or.inl rfl⟩
            · rw [hp1]; exact List.prefix_append _ _
            · rw [hp1, List.length_append, hnl]; show s.outTotal + nn + _ = _; omega
            · rw [hp1, List.length_append, hnl]; show s.outStream + nn + _ = _; omega
            · show s.outTotal ≤ s.outTotal + nn; omega
          have heq : outLoop (fuel + 1) p s = Go.chk outputBufferFlush (outLoop fuel (p.drop nn)) s1 := by
            simp only [outLoop, hp, if_false, hnn]
            rfl
          rw [heq]
          by_cases ho : s1.output = []
          · -- nothing to write: impossible unless the capacity is 0
            exfalso
            have h1 : (s.output ++ p.take nn).length = 0 := by
              have : (s.output ++ p.take nn) = [] := ho
              rw [this]; rfl
            rw [List.length_append, hnl] at h1
            have : 0 < 2 ^ s.outBits := Nat.two_pow_pos _
            omega
          · cases hw : s1.sink.wfail s1.sink.nWrites with
            | some ke =>
              obtain ⟨k, e⟩ := ke
              let t : WState := { s1 with sink := { s1.sink with out := s1.sink.out ++ s1.output.take k, nWrites := s1.sink.nWrites + 1, log := s1.sink.log ++ [.write s1.output], errs := s1.sink.errs ++ [e] }, output := s1.output.drop k, state := .error, err := some (.io e) }
              have hpt : pushed t = pushed s1 := by
                show s1.sink.out ++ s1.output.take k ++ s1.output.drop k = s1.sink.out ++ s1.output
                rw [List.append_assoc, List.take_append_drop]
              refine ⟨false, t, ?_, ?_, rfl, rfl, by simp, fun _ => ⟨rfl, [], e, by simp [t, s1], rfl⟩, ?_⟩
              · apply chk_false
                unfold outputBufferFlush sinkWrite
                rw [if_neg ho, hw]
              · have : Step s1 t [] := by
                  refine ⟨by constructor <;> rfl, List.prefix_append _ _, by simp [t, s1], ?_, ?_, ?_, by simp [t], by simp, by simp, ?_, Or.inr rfl⟩
                  · rw [hpt]; exact List.prefix_refl _
                  · rw [hpt]
                  · rw [hpt]
                  · exact Nat.le_refl _
                exact step1.trans this
              · intro hr
                have := hr s.sink.nWrites
                rw [show s.sink.wfail s.sink.nWrites = some (k, e) from hw] at this
                simp at this
            | none =>
              let t : WState := { s1 with sink := { s1.sink with out := s1.sink.out ++ s1.output, nWrites := s1.sink.nWrites + 1, log := s1.sink.log ++ [.write s1.output] }, output := [] }
              have hpt : pushed t = pushed s1 := by
                show s1.sink.out ++ s1.output ++ [] = s1.sink.out ++ s1.output
                rw [List.append_nil]
              have hflush : outputBufferFlush s1 = .ok (true, t) := by
                unfold outputBufferFlush sinkWrite
                rw [if_neg ho, hw]
              have stept : Step s1 t [] := by
                refine ⟨by constructor <;> rfl, List.prefix_append _ _, by simp [t, s1], ?_, ?_, ?_, by simp [t], by simp, by simp, ?_, Or.inl rfl⟩
                · rw [hpt]; exact List.prefix_refl _
                · rw [hpt]
                · rw [hpt]
                · exact Nat.le_refl _
              have hcap : 0 < 2 ^ s.outBits := Nat.two_pow_pos _
              have hdl : (p.drop nn).length = p.length - nn := List.length_drop
              obtain ⟨b, u, e, st, o1, o2, ok, bad, rel⟩ := ih (2 * (p.drop nn).length + 0) (by
                  rw [hdl]
                  split at hm
                  · omega
                  · omega) fuel (p.drop nn) t (by
                  rw [hdl]
                  split at hm
                  · omega
                  · omega) (by
                  show _ + (if ([] : List UInt8).length < 2 ^ s.outBits then 0 else 1) = _
                  rw [List.length_nil, if_pos hcap])
              refine ⟨b, u, by rw [chk_ok hflush]; exact e, (step1.trans stept).trans st, o1, o2, ?_, bad, ?_⟩
              · intro hb
                obtain ⟨a1, a2, ae, a3, a4, a5, a6⟩ := ok hb
                refine ⟨a1, a2, ae, ?_, ?_, ?_, fun h => absurd h hp⟩
                · rw [a3, hpt, hp1, List.append_assoc, List.take_append_drop]
                · rw [a4]
                  show Crc.genericUpdate (Crc.genericUpdate s.crcOut (p.take nn)) (p.drop nn) = _
                  rw [← genericUpdate_append, List.take_append_drop]
                · intro _
                  by_cases hd : p.drop nn = []
                  · exact a6 hd
                  · exact a5 hd
              · intro hr
                exact rel fun n => hr n
  intro fuel s hf
  exact key _ fuel p s hf rfl

theorem outWrite_any (p : List UInt8) (s : WState) :
    ∃ b t, outWrite p s = .ok (b, t) ∧ Step s t [] ∧ t.obLen = s.obLen ∧ t.obBlock = s.obBlock ∧
      (b = true → t.state = s.state ∧ t.err = s.err ∧ t.sink.errs = s.sink.errs ∧ pushed t = pushed s ++ p ∧
        t.crcOut = Crc.genericUpdate s.crcOut p ∧ (p ≠ [] → t.output = []) ∧ (p = [] → t.output = s.output)) ∧
      (b = false → Failed s t) ∧ (Reliable s → b = true) :=
  outLoop_spec p _ s (by split <;> omega)

/-- `outputBitsFlush`: pad to a byte boundary -/
theorem natBits_zeros (n : Nat) : natBits n 0 = List.replicate n false := by
  rw [natBits_eq_map]
  apply List.ext_getElem <;> simp

theorem natBits_pad {m n v : Nat} (h : v < 2 ^ m) : natBits (m + n) v = natBits m v ++ List.replicate n false := by
  rw [natBits_add, Nat.div_eq_of_lt h, natBits_zeros]

theorem view_length (s : WState) : (view s).length = 8 * (pushed s).length + s.obLen := by
  simp [view]

theorem padLen_view (s : WState) : padLen (view s).length = padLen s.obLen := by
  rw [view_length]; unfold padLen; omega

theorem take_leBytes (k n v : Nat) (h : k ≤ n) : (leBytes n v).take k = leBytes k v := by
  induction k generalizing n v with
  | zero => rfl
  | succ k ih =>
    cases n with
    | zero => omega
    | succ n => simp only [leBytes, List.take_succ_cons, ih n (v / 256) (by omega)]

/-- pad to the next byte boundary -/
def padBits (pos : Nat) : List Bool := List.replicate (padLen pos) false

/-- flush when the accumulator may be full -/
theorem wBitsFlush_gen {s : WState} (hW : s.W = 32 ∨ s.W = 64) (hl : s.obLen ≤ s.W)
    (hb : s.obBlock < 2 ^ s.obLen) (ho : s.output = []) :
    ∃ b t, wBitsFlush s = .ok (b, t) ∧ Step s t [] ∧
      (b = true → Adv s t (padBits (view s).length) ∧ t.obLen = 0) ∧
      (b = false → Failed s t) ∧ (Reliable s → b = true) := by
  unfold wBitsFlush
  by_cases h0 : s.obLen = 0
  · refine ⟨true, s, by rw [if_pos h0], Step.refl s, fun _ => ⟨?_, h0⟩, by simp, fun _ => rfl⟩
    have : padBits (view s).length = [] := by
      unfold padBits; rw [padLen_view, h0]; rfl
    rw [this]
    exact Adv.refl ⟨hW, by omega, hb, ho⟩
  · rw [if_neg h0]
    let s0 : WState := { s with obLen := 0, obBlock := 0 }
    have step0 : Step s s0 [] :=
      ⟨by constructor <;> rfl, List.prefix_refl _, List.prefix_refl _, List.prefix_refl _, rfl, rfl, by simp [s0], by simp, by simp,
        Nat.le_refl _, Or.inl rfl⟩
    obtain ⟨b, t, e, st, o1, o2, ok, bad, rel⟩ :=
      outWrite_any ((leBytes (s.W / 8) s.obBlock).take ((s.obLen + 7) / 8)) s0
    refine ⟨b, t, e, step0.trans st, ?_, bad, fun hr => rel fun n => hr n⟩
    intro hb'
    obtain ⟨a1, a2, ae, a3, a4, a5, a6⟩ := ok hb'
    have hlen : (s.obLen + 7) / 8 ≤ s.W / 8 := by rcases hW with h | h <;> omega
    have hne : (leBytes (s.W / 8) s.obBlock).take ((s.obLen + 7) / 8) ≠ [] := by
      intro hc
      have := congrArg List.length hc
      simp at this
      omega
    have hout := a5 hne
    refine ⟨⟨⟨by rw [st.core.W]; exact hW, ?_, ?_, hout⟩, a1, a2, ae, ?_, _, a3, a4⟩, o1⟩
    · rw [o1, st.core.W]; show 0 < s.W; rcases hW with h | h <;> omega
    · rw [o1, o2]; show 0 < 2 ^ 0; omega
    · unfold view
      rw [o1, o2, a3, take_leBytes _ _ _ hlen]
      simp only [bytesBits_append, bytesBits_leBytes]
      show (bytesBits (pushed s) ++ natBits (8 * ((s.obLen + 7) / 8)) s.obBlock) ++ [] = _
      rw [List.append_nil, show padBits (List.length (bytesBits (pushed s) ++ natBits s.obLen s.obBlock)) =
        List.replicate (padLen s.obLen) false by unfold padBits; rw [← padLen_view]; rfl,
        show 8 * ((s.obLen + 7) / 8) = s.obLen + padLen s.obLen by unfold padLen; omega,
        natBits_pad hb, List.append_assoc]

theorem wBitsFlush_does {s : WState} (h : WInv s) : Does wBitsFlush s (padBits (view s).length) [] := by
  obtain ⟨b, t, e, st, ok, bad, rel⟩ := wBitsFlush_gen h.hW (Nat.le_of_lt h.lt) h.blk h.out
  exact ⟨b, t, [], e, st, fun hb => ⟨(ok hb).1, rfl⟩, fun hb => ⟨bad hb, List.prefix_refl _⟩, rel⟩

theorem padBits_aligned {n : Nat} (h : n % 8 = 0) : padBits n = [] := by
  unfold padBits padLen; rw [h]; rfl

theorem wBufWrite_does {s : WState} (h : WInv s) (p : List UInt8) :
    Does (wBufWrite p) s (padBits (view s).length ++ bytesBits p) [] := by
  unfold wBufWrite
  obtain ⟨b, t, e, st, ok, bad, rel⟩ := wBitsFlush_gen h.hW (Nat.le_of_lt h.lt) h.blk h.out
  cases b with
  | false =>
    exact ⟨false, t, [], chk_false e, st, by simp, fun _ => ⟨bad rfl, List.prefix_refl _⟩,
      fun hr => absurd (rel hr) (by simp)⟩
  | true =>
    obtain ⟨av, hz⟩ := ok rfl
    obtain ⟨b2, u, e2, st2, o1, o2, ok2, bad2, rel2⟩ := outWrite_any p t
    refine ⟨b2, u, [] ++ [], by rw [chk_ok e]; exact e2, st.trans st2, ?_,
      fun hb => ⟨(bad2 hb).pre st.errs, List.prefix_refl _⟩, fun hr => rel2 (reliable_of_core st.core hr)⟩
    intro hb
    obtain ⟨a1, a2, ae, a3, a4, a5, a6⟩ := ok2 hb
    have hout : u.output = [] := by
      by_cases hp : p = []
      · rw [a6 hp]; exact av.inv.out
      · exact a5 hp
    refine ⟨av.trans ⟨⟨by rw [st2.core.W]; exact av.inv.hW, by rw [o1, st2.core.W]; exact av.inv.lt,
      by rw [o1, o2]; exact av.inv.blk, hout⟩, a1, a2, ae, ?_, _, a3, a4⟩, rfl⟩
    unfold view
    rw [o1, o2, a3, hz]
    simp [natBits]

/-! ### writing bits -/

theorem and_mask (v W n : Nat) (h : n ≤ W) : v &&& makeMask W n = v % 2 ^ n := by
  unfold makeMask
  by_cases h0 : n = 0
  · subst h0; simp [Nat.mod_one]
  · rw [if_neg h0]
    by_cases h1 : n ≥ W
    · have : n = W := by omega
      subst this; rw [if_pos h1]; exact Nat.and_two_pow_sub_one_eq_mod _ _
    · rw [if_neg h1]; exact Nat.and_two_pow_sub_one_eq_mod _ _

theorem bitsLoop_spec : ∀ (fuel n v : Nat) (s : WState), n < fuel → WInv s →
    ∃ b t, bitsLoop fuel n v s = .ok (b, t) ∧ Step s t [] ∧ (b = true → Adv s t (natBits n v)) ∧
      (b = false → Failed s t) ∧ (Reliable s → b = true) := by
  intro fuel
  induction fuel with
  | zero => intro n v s h; omega
  | succ fuel ih =>
    intro n v s hn hi
    by_cases h0 : n = 0
    · subst h0
      exact ⟨true, s, by simp [bitsLoop], Step.refl s, fun _ => Adv.refl hi, by simp, fun _ => rfl⟩
    · generalize hB : min (s.W - s.obLen) n = B
      have hlt := hi.lt
      have hB1 : 1 ≤ B := by omega
      have hBn : B ≤ n := by omega
      have hBW : s.obLen + B ≤ s.W := by omega
      let s1 : WState := { s with obBlock := s.obBlock ||| (((v &&& makeMask s.W B) <<< s.obLen) % 2 ^ s.W), obLen := s.obLen + B }
      have hval : s1.obBlock = s.obBlock + (v % 2 ^ B) * 2 ^ s.obLen := by
        show s.obBlock ||| (((v &&& makeMask s.W B) <<< s.obLen) % 2 ^ s.W) = _
        have h1 : v % 2 ^ B < 2 ^ B := Nat.mod_lt _ (Nat.two_pow_pos _)
        have h2 : (v % 2 ^ B) * 2 ^ s.obLen < 2 ^ s.W := by
          calc (v % 2 ^ B) * 2 ^ s.obLen < 2 ^ B * 2 ^ s.obLen :=
                Nat.mul_lt_mul_of_pos_right h1 (Nat.two_pow_pos _)
            _ = 2 ^ (B + s.obLen) := (Nat.pow_add ..).symm
            _ ≤ 2 ^ s.W := Nat.pow_le_pow_right (by omega) (by omega)
        rw [and_mask v s.W B (by omega), Nat.shiftLeft_eq, Nat.mod_eq_of_lt h2, Nat.mul_comm,
          Nat.lor_comm, ← Nat.two_pow_add_eq_or_of_lt hi.blk, Nat.add_comm]
      have hblk : s1.obBlock < 2 ^ s1.obLen := by
        rw [hval]
        show _ < 2 ^ (s.obLen + B)
        have h1 : v % 2 ^ B + 1 ≤ 2 ^ B := Nat.mod_lt _ (Nat.two_pow_pos _)
        have h2 := Nat.mul_le_mul_right (2 ^ s.obLen) h1
        rw [Nat.add_mul, Nat.one_mul] at h2
        have := hi.blk
        rw [Nat.pow_add, Nat.mul_comm (2 ^ s.obLen)]
        omega
      have hview : view s1 = view s ++ natBits B v := by
        have hb : natBits (s.obLen + B) s1.obBlock = natBits s.obLen s.obBlock ++ natBits B v := by
          rw [natBits_add, hval, ← natBits_mod s.obLen, Nat.add_mul_mod_self_right, natBits_mod,
            Nat.add_mul_div_right _ _ (Nat.two_pow_pos _), Nat.div_eq_of_lt hi.blk, Nat.zero_add, natBits_mod]
        show bytesBits (pushed s) ++ natBits (s.obLen + B) s1.obBlock = _
        rw [hb, ← List.append_assoc]; rfl
      have step1 : Step s s1 [] :=
        ⟨by constructor <;> rfl, List.prefix_refl _, List.prefix_refl _, List.prefix_refl _, rfl, rfl, by simp [s1], by simp, by simp,
          Nat.le_refl _, Or.inl rfl⟩
      have hsplit : natBits n v = natBits B v ++ natBits (n - B) (v >>> B) := by
        rw [Nat.shiftRight_eq_div_pow, ← natBits_add]; congr 1; omega
      by_cases hf : s1.obLen = s.W
      · have heq : bitsLoop (fuel + 1) n v s =
            Go.chk wBitsFlush (bitsLoop fuel (n - B) (v >>> B)) s1 := by
          simp only [bitsLoop, h0, if_false, hB]
          exact if_pos hf
        rw [heq]
        obtain ⟨b, t, e, st, ok, bad, rel⟩ :=
          wBitsFlush_gen (s := s1) hi.hW (Nat.le_of_eq hf) hblk hi.out
        cases b with
        | false =>
          exact ⟨false, t, chk_false e, step1.trans st, by simp, bad, fun hr => absurd (rel fun n => hr n) (by simp)⟩
        | true =>
          obtain ⟨av, hz⟩ := ok rfl
          obtain ⟨b2, u, e2, st2, ok2, bad2, rel2⟩ := ih (n - B) (v >>> B) t (by omega) av.inv
          refine ⟨b2, u, by rw [chk_ok e]; exact e2, (step1.trans st).trans st2, ?_, fun hb => (bad2 hb).pre (step1.trans st).errs,
            fun hr => rel2 (reliable_of_core st.core fun n => hr n)⟩
          intro hb
          have av2 := ok2 hb
          have hpad : padBits (view s1).length = [] := by
            unfold padBits; rw [padLen_view, hf]
            rcases hi.hW with h | h <;> rw [h] <;> rfl
          have avv : Adv s t (natBits B v) := by
            refine ⟨av.inv, av.state, av.err, av.errs, ?_, av.crc⟩
            rw [av.view, hpad, List.append_nil, hview]
          rw [hsplit]
          exact avv.trans av2
      · have heq : bitsLoop (fuel + 1) n v s = bitsLoop fuel (n - B) (v >>> B) s1 := by
          simp only [bitsLoop, h0, if_false, hB]
          exact if_neg hf
        rw [heq]
        have hlt1 : s1.obLen < s.W := by
          have : s1.obLen = s.obLen + B := rfl
          omega
        have inv1 : WInv s1 := ⟨hi.hW, hlt1, hblk, hi.out⟩
        obtain ⟨b2, u, e2, st2, ok2, bad2, rel2⟩ := ih (n - B) (v >>> B) s1 (by omega) inv1
        refine ⟨b2, u, e2, step1.trans st2, ?_, bad2, fun hr => rel2 fun n => hr n⟩
        intro hb
        have avv : Adv s s1 (natBits B v) := ⟨inv1, rfl, rfl, rfl, hview, [], by simp [pushed, s1], (genericUpdate_nil _).symm⟩
        rw [hsplit]
        exact avv.trans (ok2 hb)

theorem wBitsWrite_does {s : WState} (h : WInv s) {n : Nat} (hn : n ≤ s.W) (v : Nat) :
    Does (wBitsWrite n v) s (natBits n v) [] := by
  obtain ⟨b, t, e, st, ok, bad, rel⟩ := bitsLoop_spec (n + 2) n v s (by omega) h
  refine ⟨b, t, [], ?_, st, fun hb => ⟨ok hb, rfl⟩, fun hb => ⟨bad hb, List.prefix_refl _⟩, rel⟩
  unfold wBitsWrite
  rw [if_pos (Nat.le_of_lt h.lt), if_pos hn]
  exact e

/-! ### commands -/

/-- the bits of a command when `pos` bits precede -/
def cmdBits (pos : Nat) : Cmd → List Bool
  | .ev _ => []
  | .bits n v => natBits n v
  | .flush => padBits pos
  | .u16 v => padBits pos ++ natBits 16 v
  | .bytes p => padBits pos ++ bytesBits p

def cmdEvs : Cmd → List EvKind
  | .ev k => [k]
  | _ => []

def cmdOK (W : Nat) : Cmd → Prop
  | .bits n _ => n ≤ W
  | _ => True

def cmdsBits : Nat → List Cmd → List Bool
  | _, [] => []
  | pos, c :: cs => cmdBits pos c ++ cmdsBits (pos + (cmdBits pos c).length) cs

theorem cmdsBits_append (pos : Nat) (a b : List Cmd) :
    cmdsBits pos (a ++ b) = cmdsBits pos a ++ cmdsBits (pos + (cmdsBits pos a).length) b := by
  induction a generalizing pos with
  | nil => simp [cmdsBits]
  | cons c a ih => simp [cmdsBits, ih, Nat.add_assoc]

theorem wSendEvent_does {s : WState} (h : WInv s) (k : EvKind) : Does (evStep wBW k) s [] [k] := by
  let t : WState := { s with events := s.events ++ [⟨wEvent s k, s.sink.out.length, s.lz.buf.length⟩] }
  have hp : (pushed s).length = s.sink.out.length := by simp [pushed, h.out]
  refine ⟨true, t, [⟨wEvent s k, s.sink.out.length, s.lz.buf.length⟩], rfl, ?_, fun _ => ⟨?_, rfl⟩, by simp, fun _ => rfl⟩
  · refine ⟨by constructor <;> rfl, List.prefix_refl _, List.prefix_refl _, List.prefix_refl _, rfl, rfl, rfl, ?_, ?_, ?_, Or.inl rfl⟩
    · intro p hp'
      rw [List.mem_singleton] at hp'
      subst hp'
      rw [hp]
      exact ⟨rfl, rfl⟩
    · intro p hp'
      rw [List.mem_singleton] at hp'
      subst hp'
      exact ⟨rfl, rfl, rfl, rfl, rfl⟩
    · exact ⟨Nat.le_refl _, Nat.le_refl _⟩
  · exact ⟨⟨h.hW, h.lt, h.blk, h.out⟩, rfl, rfl, rfl, by simp [view, pushed, t], [], by simp [pushed, t],
      (genericUpdate_nil _).symm⟩

theorem exec_does {s : WState} (h : WInv s) {c : Cmd} (hc : cmdOK s.W c) :
    Does (exec wBW c) s (cmdBits (view s).length c) (cmdEvs c) := by
  cases c with
  | ev k => exact wSendEvent_does h k
  | bits n v => exact wBitsWrite_does h hc v
  | flush => exact wBitsFlush_does h
  | u16 v =>
    have := wBufWrite_does h (leBytes 2 v)
    rw [bytesBits_leBytes] at this
    exact this
  | bytes p => exact wBufWrite_does h p

theorem run_does (cs : List Cmd) : ∀ {s : WState}, WInv s → (∀ c ∈ cs, cmdOK s.W c) →
    Does (run wBW cs) s (cmdsBits (view s).length cs) (cs.flatMap cmdEvs) := by
  induction cs with
  | nil => intro s h _; exact Does.pure h
  | cons c cs ih =>
    intro s h hc
    apply (exec_does h (hc c (by simp))).chk
    intro t ht hcore _ hv
    have := ih ht (fun c' hc' => by rw [hcore.W]; exact hc c' (by simp [hc']))
    rw [hv, List.length_append] at this
    exact this

end Flate.Proof
