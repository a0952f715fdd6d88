/-
C110: the ranges of bytes of which a Reader's tracers are told are adjacent.
-/
import Verif.Props.Tiles
import Verif.Props.ReaderEvents

namespace Flate.Props
open Flate.Spec Flate.Model Flate.Model.Rd Flate.Proof Flate.Proof.R

/-- the event was sent at the place where the Reader is -/
def SentAt (e : Event) (s : RState) : Prop := e.inTotal = s.inp.inTotal ∧ e.outTotal = s.out.outTotal

theorem need_true {n : Nat} {k : List UInt8 → Go RState Bool} {s s' : RState} (e : needBytes false n k s = .ok (true, s')) :
    ∃ p i, i.inTotal = s.inp.inTotal + n ∧ k p { s with inp := i } = .ok (true, s') := by
  unfold needBytes at e
  obtain ⟨⟨p, ok⟩, s1, e1, e2⟩ := Go.bind_eq_ok.1 e
  unfold onInp at e1
  simp only [] at e1
  obtain ⟨p', ok', i', h1, h2, h3, h4, h5⟩ := bufRead_A s.out.stopIsForced n s.inp
  rw [h1] at e1
  cases e1
  cases ok with
  | false =>
    simp only [Bool.not_false, if_true] at e2
    unfold exhausted at e2
    obtain ⟨_, _, _, e4⟩ := Go.bind_eq_ok.1 e2
    cases e4
  | true =>
    simp only [Bool.not_true, Bool.false_eq_true, if_false] at e2
    refine ⟨p, i', ?_, e2⟩
    obtain ⟨u, u1, u2⟩ := h2.took
    have := congrArg List.length (u1.symm.trans h4)
    simp only [List.length_append] at this
    have := h3 rfl
    omega

theorem fail_false {q : Spec.Problem} {s s' : RState} {b : Bool} (e : fail q s = .ok (b, s')) : b = false := by
  unfold fail at e
  obtain ⟨_, _, _, e4⟩ := Go.bind_eq_ok.1 e
  cases e4; rfl

theorem footerOf_true {f : Format} {a c : BitVec 32} {s s' : RState} (e : readFooterOf f a c s = .ok (true, s')) :
    ∃ i, s' = { s with inp := i } ∧ i.inTotal = s.inp.inTotal + footerBytes f := by
  cases f with
  | raw => cases e; exact ⟨_, rfl, rfl⟩
  | default => cases e
  | zlib =>
    simp only [readFooterOf, readFooterZlib] at e
    obtain ⟨p, i, h1, h2⟩ := need_true e
    split at h2
    · exact absurd (fail_false h2) (by simp)
    · cases h2; exact ⟨i, rfl, h1⟩
  | gzip =>
    simp only [readFooterOf, readFooterGZIP] at e
    obtain ⟨p, i, h1, h2⟩ := need_true e
    obtain ⟨q, j, h3, h4⟩ := need_true h2
    simp only [] at h4
    split at h4
    · exact absurd (fail_false h4) (by simp)
    · split at h4
      · exact absurd (fail_false h4) (by simp)
      · cases h4
        refine ⟨j, rfl, ?_⟩
        have h3 : j.inTotal = i.inTotal + 4 := h3
        show j.inTotal = _ + 8
        omega

/-- the event which is sent -/
def evOf (k : EvKind) (s : RState) : Event :=
  { kind := k, inTotal := s.inp.inTotal, inStream := s.inp.inStream, outTotal := s.out.outTotal, outStream := s.out.outStream, numStreams := s.numStreams, format := s.actualFormat }

/-- the events of a footer -/
theorem footer_gap {s s' : RState} {b : Bool} (e : readFooter s = .ok (b, s')) :
    ∃ e1 : Event, (∃ a c, e1.kind = .streamEnd a c) ∧
      ((b = false ∧ s'.events = s.events ++ [e1]) ∨
        (b = true ∧ ∃ e2 : Event, s'.events = s.events ++ [e1, e2] ∧ e2.kind = .streamClose ∧ e2.inTotal = e1.inTotal + footerBytes e1.format ∧ e2.outTotal = e1.outTotal ∧
          e2.format = e1.format ∧ SentAt e2 s')) := by
  unfold readFooter at e
  obtain ⟨_, s1, e1, e2⟩ := Go.bind_eq_ok.1 e
  cases e1
  generalize hg : ({ s with inp := discard s.inp } : RState) = g at e2
  have hge : g.events = s.events := by rw [← hg]
  have e' : Go.chk (readFooterOf g.actualFormat g.out.adler g.out.crc) (do sendEvent .streamClose; pure true) (sent (.streamEnd g.out.adler g.out.crc) g) = .ok (b, s') := e2
  unfold Go.chk at e'
  rcases hx : readFooterOf g.actualFormat g.out.adler g.out.crc (sent (.streamEnd g.out.adler g.out.crc) g) with p | ⟨ok, s1⟩
  · rw [hx] at e'; cases e'
  · rw [hx] at e'
    have h1 : s1.events = _ := noEv_flow.footerOf _ _ _ _ _ _ hx
    cases ok with
    | false =>
      cases e'
      exact ⟨_, ⟨_, _, rfl⟩, Or.inl ⟨rfl, by rw [h1, ← hge]; rfl⟩⟩
    | true =>
      obtain ⟨i, rfl, hi⟩ := footerOf_true hx
      cases e'
      refine ⟨evOf (.streamEnd g.out.adler g.out.crc) g, ⟨_, _, rfl⟩, Or.inr ⟨rfl, evOf .streamClose { g with inp := i }, (by rw [← hge]; simp only [sent]; rw [List.append_assoc]; rfl), rfl, hi, rfl, rfl, rfl, rfl⟩⟩

/-- what neighbouring events have to do with each other -/
def RGap (p e : Event) : Prop :=
  (e.kind = .streamBegin → p.kind = .streamClose ∧ e.inTotal = p.inTotal ∧ e.outTotal = p.outTotal) ∧
  (e.kind = .streamClose → (∃ a x, p.kind = .streamEnd a x) ∧ e.inTotal = p.inTotal + footerBytes p.format ∧ e.outTotal = p.outTotal ∧ e.format = p.format)

theorem chain_snoc {α : Type} {R : α → α → Prop} {x : α} : ∀ {l : List α}, List.IsChain R l → (∀ l' p, l = l' ++ [p] → R p x) → List.IsChain R (l ++ [x])
  | [], _, _ => .singleton x
  | [a], _, h => .cons_cons (h [] a rfl) (.singleton x)
  | a :: b :: l, .cons_cons hab hc, h => .cons_cons hab (chain_snoc (l := b :: l) hc fun l' p e => h (a :: l') p (by rw [e]; rfl))

theorem chain_more {α : Type} {R : α → α → Prop} : ∀ {m l : List α}, List.IsChain R l → (∀ x ∈ m, ∀ p, R p x) → List.IsChain R (l ++ m)
  | [], l, h, _ => by simpa using h
  | x :: m, l, h, hm => by
    rw [List.append_cons]
    exact chain_more (chain_snoc h fun _ p _ => hm x (by simp) p) fun y hy => hm y (by simp [hy])

theorem chain_at {α : Type} {R : α → α → Prop} {p e : α} {r : List α} : ∀ {l : List α}, List.IsChain R (l ++ p :: e :: r) → R p e := by
  intro l
  induction l with
  | nil => intro h; cases h with | cons_cons h _ => exact h
  | cons x l ih =>
    intro h
    apply ih
    cases l with
    | nil => cases h with | cons_cons _ h => exact h
    | cons y l => cases h with | cons_cons _ h => exact h

/-- between streams: the last event is at the place where the Reader is -/
def TInv (s : RState) : Prop := List.IsChain RGap s.events ∧ ∀ l e, s.events = l ++ [e] → e.kind = .streamClose ∧ SentAt e s

theorem loose_about {ks : List EvKind} (h : LooseBlocks ks) : ∀ k ∈ ks, AboutBlock k := by
  obtain ⟨bs, last, b1, rfl, b3⟩ := h
  intro k hk
  rcases List.mem_append.1 hk with hk | hk
  · obtain ⟨y, hy, hk⟩ := List.mem_flatten.1 hk
    exact (blockTrace_about (b1 y hy)).1 k hk
  · rcases b3 with b3 | rfl | ⟨f, b3⟩
    · exact (blockTrace_about b3).1 k hk
    · cases hk
    · have : ∀ k ∈ last, AboutBlock k := by cases b3 <;> simp [AboutBlock]
      exact this k hk

theorem body_chain {E : Env} {s s' : RState} {b : Bool} (h : List.IsChain RGap s.events) (e : bodyRest E s = .ok (b, s')) :
    List.IsChain RGap s'.events ∧ (b = true → TInv s') := by
  unfold bodyRest at e
  obtain ⟨_, s1, e1, e⟩ := Go.bind_eq_ok.1 e
  cases e1
  obtain ⟨_, s2, e2, e⟩ := Go.bind_eq_ok.1 e
  obtain ⟨_, s3, e3, e⟩ := Go.bind_eq_ok.1 e
  have h3 : s3.events = s2.events := by cases e3; rfl
  obtain ⟨l, hl, hb⟩ := emits_blockLoop E _ _ _ _ e2
  have hl : s2.events = s.events ++ l := hl
  have hc : List.IsChain RGap s3.events := by
    rw [h3, hl]
    refine chain_more h fun x hx p => ?_
    have hm : x.kind ∈ l.map (·.kind) := List.mem_map.2 ⟨x, hx, rfl⟩
    have := loose_about hb _ hm
    have : x.kind ≠ .streamBegin ∧ x.kind ≠ .streamClose := ⟨fun h => (by rw [h] at this; exact this.elim), fun h => (by rw [h] at this; exact this.elim)⟩
    exact ⟨fun h => absurd h this.1, fun h => absurd h this.2⟩
  obtain ⟨x1, ⟨a, c, k1⟩, ⟨rfl, hx⟩ | ⟨rfl, x2, hx, k2, p1, p2, p3, p4⟩⟩ := footer_gap e
  all_goals have hc1 : List.IsChain RGap (s3.events ++ [x1]) := chain_snoc hc fun _ p _ => ⟨fun h => (by rw [k1] at h; cases h), fun h => (by rw [k1] at h; cases h)⟩
  · rw [hx]
    exact ⟨hc1, fun h => by cases h⟩
  · have hc2 : List.IsChain RGap s'.events := by
      rw [hx, show s3.events ++ [x1, x2] = (s3.events ++ [x1]) ++ [x2] by simp]
      refine chain_snoc hc1 fun l' p hp => ?_
      obtain ⟨_, hp⟩ := List.append_inj' hp rfl
      cases hp
      exact ⟨fun h => (by rw [k2] at h; cases h), fun _ => ⟨⟨a, c, k1⟩, p1, p2, p3⟩⟩
    refine ⟨hc2, fun _ => ⟨hc2, fun l e he => ?_⟩⟩
    rw [hx, show s3.events ++ [x1, x2] = (s3.events ++ [x1]) ++ [x2] by simp] at he
    obtain ⟨_, hp⟩ := List.append_inj' he rfl
    cases hp
    exact ⟨k2, p4⟩

theorem stream_chain {E : Env} {s s' : RState} {b : Bool} (h : TInv s) (e : readStream E s = .ok (b, s')) : List.IsChain RGap s'.events ∧ (b = true → TInv s') := by
  obtain ⟨f1, f2, f3, f4, f5, f6⟩ := filled_frame s
  rw [readStream_split] at e
  split at e
  · have h1 : s'.events = (filled s).events := Keeps.bind noEv_flow.toPre (noEv_propagate _) (fun _ => Keeps.pure noEv_flow.toPre _) _ _ _ e
    obtain ⟨_, s1, _, e2⟩ := Go.bind_eq_ok.1 e
    cases e2
    rw [h1, f5]
    exact ⟨h.1, fun h => by cases h⟩
  · unfold Go.chk at e
    rcases hx : headRest E (filled s) with p | ⟨b1, s1⟩
    · rw [hx] at e; cases e
    · rw [hx] at e
      rw [headRest_eq] at hx
      unfold Go.chk at hx
      rcases hy : readHeaderOf E E.o.format (Flate.Proof.R.begun E (filled s)) with p | ⟨b2, s2⟩
      · rw [hy] at hx; cases hx
      · rw [hy] at hx
        have h2 : s2.events = (Flate.Proof.R.begun E (filled s)).events := noEv_flow.headerOf E _ _ _ _ hy
        obtain ⟨ev, hev, hk, hi, ho⟩ : ∃ ev : Event, s2.events = s.events ++ [ev] ∧ ev.kind = .streamBegin ∧ ev.inTotal = s.inp.inTotal ∧ ev.outTotal = s.out.outTotal :=
          ⟨_, by rw [h2, ← f5]; rfl, rfl, f4, rfl⟩
        have hc2 : List.IsChain RGap s2.events := by
          rw [hev]
          refine chain_snoc h.1 fun l p hp => ⟨fun _ => ?_, fun h => by rw [hk] at h; cases h⟩
          obtain ⟨q1, q2, q3⟩ := h.2 l p hp
          exact ⟨q1, hi.trans q2.symm, ho.trans q3.symm⟩
        cases b2 with
        | false => cases hx; cases e; exact ⟨hc2, fun h => by cases h⟩
        | true =>
          cases hx
          simp only [] at e
          exact body_chain (chain_snoc hc2 fun _ p _ => ⟨fun h => (by cases h), fun h => (by cases h)⟩) e

theorem loop_chain {E : Env} : ∀ (fuel : Nat) {s : RState} {r : Unit} {s' : RState}, TInv s → streamLoop E fuel s = .ok (r, s') → List.IsChain RGap s'.events
  | 0, _, _, _, _, e => by cases e
  | fuel + 1, s, r, s', h, e => by
    unfold streamLoop at e
    split at e
    · rcases hx : readStream E s with p | ⟨b, s1⟩
      · rw [hx] at e; cases e
      · rw [hx] at e
        have h1 := stream_chain h hx
        cases b with
        | false => cases e; exact h1.1
        | true => exact loop_chain fuel (h1.2 rfl) e
    · cases e; exact h.1

/-- **C110.** In every run of a Reader, whatever the input and whenever `Close` is called: the first event is at byte 0; a StreamBegin event comes right after the StreamClose event of
the stream before, at the same byte of input and output; a StreamClose event comes right after a StreamEnd event, one footer of the recognised format later. -/
theorem C110_tiles {c : RSetup} {src : Src} {stop : Nat → Option Nat} {closed : Bool} {s : RState} (hr : readThread (c.envStop stop) (start src closed) = .ok ((), s)) :
    (∀ e r, s.events = e :: r → e.inTotal = 0) ∧
    ∀ l p e r, s.events = l ++ p :: e :: r →
      (e.kind = .streamBegin → p.kind = .streamClose ∧ e.inTotal = p.inTotal ∧ e.outTotal = p.outTotal) ∧
      (e.kind = .streamClose → (∃ a x, p.kind = .streamEnd a x) ∧ e.inTotal = p.inTotal + footerBytes p.format ∧ e.outTotal = p.outTotal ∧ e.format = p.format) := by
  refine ⟨fun e r he => reader_first hr he, fun l p e r he => ?_⟩
  have hst : readThread (c.envStop stop) (start src closed) = ((fun s => streamLoop (c.envStop stop) (s.inp.size + 2) s : Go RState Unit) >>= fun _ => finishThread) (start src closed) := by
    unfold readThread
    exact Go.bind_ok (Go.modify_apply _ _)
  obtain ⟨_, s1, e1, e2⟩ := Go.bind_eq_ok.1 (hst.symm.trans hr)
  have h3 : s.events = s1.events := Keeps.bind noEv_flow.toPre (noEv_flow.onInp fun _ i a i' e => by cases e; exact steady_of rfl rfl (Nat.le_refl _)) (fun _ => noEv_propagate _) _ _ _ e2
  have h0 : TInv (start src closed) := ⟨.nil, fun l e he => by cases l <;> cases he⟩
  have := loop_chain _ h0 e1
  rw [← h3, he] at this
  exact chain_at (R := RGap) this

/-! ### a case: the three streams of C109, read in two pieces -/

def rtilesOf : List (Char × Nat × Nat) :=
  match runOps refLib (threeOps ++ [.close]) (demo [.format .gzip, .mlevel 1]).start with
  | .ok (_, t) => (match readThread (rdemo [.format .gzip]).env (start (inTwo t.sink.out) false) with
    | .ok (_, s) => s.events.filterMap fun e => match e.kind with
      | .streamBegin => some ('b', e.inTotal, e.outTotal)
      | .streamEnd _ _ => some ('e', e.inTotal, e.outTotal)
      | .streamClose => some ('c', e.inTotal, e.outTotal)
      | _ => none
    | .error _ => [])
  | .error _ => []
/-- (The third stream is not read: see C07.) -/
example : rtilesOf = [('b', 0, 0), ('e', 17, 0), ('c', 25, 0), ('b', 25, 0), ('e', 55, 3), ('c', 63, 3)] := by decide +kernel

end Flate.Props
