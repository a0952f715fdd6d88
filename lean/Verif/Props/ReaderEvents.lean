/-
What the trace events of a Reader say: C35 (counters), C34 (checksums) in every run, C54 (headers).
-/
import Verif.Proof.RTrack
import Verif.Proof.RGrammar
import Verif.Props.ReaderSafe
import Verif.Props.ReadExamples

namespace Flate.Props
open Flate.Spec Flate.Model Flate.Model.Rd Flate.Proof Flate.Proof.R

/-! ### the log, by position -/

theorem snoc_ind {α : Type} {P : List α → Prop} (h0 : P []) (h1 : ∀ l x, P l → P (l ++ [x])) (l : List α) : P l := by
  have : ∀ n (l : List α), l.length = n → P l := by
    intro n
    induction n with
    | zero => intro l hl; rw [List.length_eq_zero_iff.1 hl]; exact h0
    | succ n ih =>
      intro l hl
      rcases List.eq_nil_or_concat l with rfl | ⟨l', x, rfl⟩
      · exact h0
      · rw [List.concat_eq_append] at hl ⊢; exact h1 _ _ (ih l' (by simpa using hl))
  exact this _ l rfl

theorem log_prefix : ∀ {r l : List Event} {a b n : Nat}, Log (l ++ r) a b n → ∃ a b n, Log l a b n := by
  intro r
  induction r using snoc_ind with
  | h0 => intro l a b n h; exact ⟨a, b, n, by simpa using h⟩
  | h1 r e ih =>
    intro l a b n h
    rw [← List.append_assoc] at h
    generalize hx : l ++ r ++ [e] = x at h
    cases h with
    | nil => simp at hx
    | start h1 _ _ _ _ =>
      obtain ⟨rfl, _⟩ := List.append_inj' hx rfl
      exact ih h1
    | mid h1 _ _ _ _ =>
      obtain ⟨rfl, _⟩ := List.append_inj' hx rfl
      exact ih h1

/-- the number of StreamBegin events -/
def begins (l : List Event) : Nat := (l.filter fun e => decide (e.kind = .streamBegin)).length

theorem log_begins {l : List Event} {a b n : Nat} (h : Log l a b n) : n = begins l := by
  induction h with
  | nil => rfl
  | start _ hk _ _ _ ih => simp [begins, hk, ih]
  | mid _ hk _ _ _ ih => simp [begins, hk, ih]

theorem log_last {l : List Event} {e : Event} {a b n : Nat} (h : Log (l ++ [e]) a b n) :
    e.numStreams = n ∧ e.inTotal = a + e.inStream ∧ e.outTotal = b + e.outStream ∧
      (e.kind = .streamBegin → e.inStream = 0 ∧ e.outStream = 0) ∧
      (e.kind ≠ .streamBegin → Log l a b n) := by
  generalize hx : l ++ [e] = x at h
  cases h with
  | nil => simp at hx
  | start h1 h2 h3 h4 h5 =>
    obtain ⟨rfl, he⟩ := List.append_inj' hx rfl
    cases he
    exact ⟨h3, by omega, by omega, fun _ => ⟨h4, h5⟩, fun hk => absurd h2 hk⟩
  | mid h1 h2 h3 h4 h5 =>
    obtain ⟨rfl, he⟩ := List.append_inj' hx rfl
    cases he
    exact ⟨h3, h4, h5, fun hk => absurd hk h2, fun _ => h1⟩

theorem log_since {l : List Event} {x : Event} : ∀ {m : List Event} {a b n : Nat}, Log (l ++ x :: m) a b n → x.kind = .streamBegin →
    (∀ e ∈ m, e.kind ≠ .streamBegin) → a = x.inTotal ∧ b = x.outTotal := by
  intro m
  induction m using snoc_ind with
  | h0 =>
    intro a b n h hx _
    obtain ⟨_, h2, h3, h4, _⟩ := log_last h
    obtain ⟨h5, h6⟩ := h4 hx
    omega
  | h1 m e ih =>
    intro a b n h hx hm
    rw [← List.cons_append, ← List.append_assoc] at h
    obtain ⟨_, _, _, _, h5⟩ := log_last h
    exact ih (h5 (hm e (by simp))) hx fun y hy => hm y (by simp [hy])

/-! ### C35 -/

/-- **C35 (Reader).** In every run, whatever the input and whenever `Close` is called, the number of streams carried by an event is the
number of StreamBegin events sent so far, that event included. -/
theorem C35_reader_streams {c : RSetup} {src : Src} {stop : Nat → Option Nat} {closed : Bool} {s : RState}
    (hr : readThread (c.envStop stop) (start src closed) = .ok ((), s)) {l r : List Event} {e : Event} (he : s.events = l ++ e :: r) :
    e.numStreams = ((l ++ [e]).filter fun x => decide (x.kind = .streamBegin)).length := by
  obtain ⟨a, b, h⟩ := (track_thread hr).log
  rw [he, List.append_cons] at h
  obtain ⟨a', b', n, h1⟩ := log_prefix h
  rw [(log_last h1).1]
  exact log_begins h1

/-- **C35 (Reader).** In every run the per-stream counters of an event are counted from the latest StreamBegin event. -/
theorem C35_reader_perStream {c : RSetup} {src : Src} {stop : Nat → Option Nat} {closed : Bool} {s : RState}
    (hr : readThread (c.envStop stop) (start src closed) = .ok ((), s)) {l m r : List Event} {x e : Event}
    (he : s.events = l ++ x :: (m ++ e :: r)) (hx : x.kind = .streamBegin) (hm : ∀ y ∈ m, y.kind ≠ .streamBegin) (hk : e.kind ≠ .streamBegin) :
    x.inStream = 0 ∧ x.outStream = 0 ∧ e.inTotal = x.inTotal + e.inStream ∧ e.outTotal = x.outTotal + e.outStream := by
  obtain ⟨a, b, h⟩ := (track_thread hr).log
  have h1 : s.events = (l ++ x :: (m ++ [e])) ++ r := by rw [he]; simp
  have h2 : s.events = (l ++ [x]) ++ (m ++ e :: r) := by rw [he]; simp
  have hl := h
  rw [h1] at h
  rw [h2] at hl
  obtain ⟨a1, b1, n1, h3⟩ := log_prefix h
  obtain ⟨a2, b2, n2, h4⟩ := log_prefix hl
  obtain ⟨_, _, _, h5, _⟩ := log_last h4
  obtain ⟨h6, h7⟩ := h5 hx
  obtain ⟨h8, h9⟩ := log_since h3 hx fun y hy => by
    rcases List.mem_append.1 hy with hy | hy
    · exact hm y hy
    · rw [List.mem_singleton] at hy; subst hy; exact hk
  rw [← List.cons_append, ← List.append_assoc] at h3
  obtain ⟨_, h10, h11, _⟩ := log_last h3
  exact ⟨h6, h7, by omega, by omega⟩

/-! ### C34: checksums -/

/-- **C34 (checksums).** In every run, also of corrupt input and if `Close` is called, each StreamEnd event carries the Adler-32 and
CRC-32 checksums of the data delivered for that stream: of the last `OutputBytesStream` of the first `OutputBytesTotal` bytes delivered. -/
theorem C34_footer {c : RSetup} {src : Src} {stop : Nat → Option Nat} {closed : Bool} {s : RState}
    (hr : readThread (c.envStop stop) (start src closed) = .ok ((), s)) {e : Event} (he : e ∈ s.events) {a x : BitVec 32} (hk : e.kind = .streamEnd a x) :
    e.outStream ≤ e.outTotal ∧ e.outTotal ≤ (actData s.out.acts).length ∧
    a.toNat = adler32 (((actData s.out.acts).take e.outTotal).drop (e.outTotal - e.outStream)) ∧
    x = crc32 (((actData s.out.acts).take e.outTotal).drop (e.outTotal - e.outStream)) :=
  (track_thread hr).ends e he a x hk

/-! ### C34: order -/

/-- **C34 (order).** In every run, whatever the input and whenever `Close` is called, the events come in the order of the grammar, except that the
blocks of a stream may stop early: after a complete block which is not final, or after the first one or two events of a block.  In particular:
trees are only announced in Huffman blocks, StreamEnd and StreamClose only come after a StreamHeader of the same stream, StreamClose follows StreamEnd
immediately, and a stream is only begun when the one before is closed. -/
theorem C34_order {c : RSetup} {src : Src} {stop : Nat → Option Nat} {closed : Bool} {s : RState}
    (hr : readThread (c.envStop stop) (start src closed) = .ok ((), s)) : LooseTrace (evKinds s) := loose_thread hr

/-- Complete streams are a special case. -/
theorem closed_of_stream {ks : List EvKind} (h : StreamTrace ks) : LooseClosed ks := by
  cases h with
  | mk h bs last a c h1 h2 => exact ⟨h, bs.flatten ++ last, a, c, ⟨bs, last, h1, rfl, Or.inl h2⟩, by simp⟩

/-! ### examples -/

/-- the counters of an event, and its checksums if it is a StreamEnd event -/
def evNums (e : Event) : List Nat :=
  [e.numStreams, e.inTotal, e.inStream, e.outTotal, e.outStream] ++ (match e.kind with | .streamEnd a x => [a.toNat, x.toNat] | _ => [])

/-- the same for all events of a run -/
def runNums (r : Except Panic (Unit × RState)) : Option (List (List Nat)) := match r with
  | .ok (_, s) => some (s.events.map evNums)
  | .error _ => none

/-- two streams: the counters of the second one are counted from its StreamBegin event -/
example : runNums (readThread (rdemo [.format .gzip]).env (start ⟨[(0x1f, (storedGz [65] ++ storedGz [66, 67]).drop 1)], [], .eof⟩ false)) =
    some [[1, 0, 0, 0, 0], [1, 10, 10, 0, 0], [1, 11, 11, 0, 0], [1, 16, 16, 0, 0], [1, 16, 16, 1, 1, 4325442, 3554254475], [1, 24, 24, 1, 1],
      [2, 24, 0, 1, 0], [2, 34, 10, 1, 0], [2, 35, 11, 1, 0], [2, 41, 17, 1, 0], [2, 41, 17, 3, 2, 13172870, 1816342354], [2, 49, 25, 3, 2]] := by
  decide +kernel

/-- a corrupt stream: a block of a reserved type; StreamEnd is sent, with the checksums of no data -/
example : runNums (readThread (rdemo [.format .gzip]).env (start ⟨[], [0x1f, 0x8b, 8, 0, 0, 0, 0, 0, 0, 255, 7], .eof⟩ false)) =
    some [[1, 0, 0, 0, 0], [1, 10, 10, 0, 0], [1, 11, 11, 0, 0], [1, 11, 11, 0, 0, 1, 0]] := by
  decide +kernel

end Flate.Props
