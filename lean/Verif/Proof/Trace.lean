/-
An automaton for the event protocol, and its agreement with the grammar.
-/
import Verif.Spec.Trace

namespace Flate.Proof
open Flate.Spec Flate.Model

inductive Phase where
  | idle | begun | opened | block (t : BlockType) (f : Bool) | trees (t : BlockType) (f : Bool) | last | ended
  deriving DecidableEq, Repr

def evNext (p : Phase) (k : EvKind) : Option Phase :=
  match p with
  | .idle => match k with
    | .streamBegin => some .begun
    | _ => none
  | .begun => match k with
    | .streamHeader _ => some .opened
    | _ => none
  | .opened => match k with
    | .blockBegin t f => if t = .invalid then none else some (.block t f)
    | _ => none
  | .block t f => match k with
    | .blockTrees t' f' _ => if t ≠ .stored ∧ t = t' ∧ f = f' then some (.trees t f) else none
    | .blockEnd t' f' => if t = .stored ∧ t = t' ∧ f = f' then some (if f then .last else .opened) else none
    | _ => none
  | .trees t f => match k with
    | .blockEnd t' f' => if t = t' ∧ f = f' then some (if f then .last else .opened) else none
    | _ => none
  | .last => match k with
    | .streamEnd _ _ => some .ended
    | _ => none
  | .ended => match k with
    | .streamClose => some .idle
    | _ => none

def runPh : Phase → List EvKind → Option Phase
  | p, [] => some p
  | p, k :: ks => (evNext p k).bind fun p => runPh p ks

theorem runPh_append (p : Phase) (a b : List EvKind) : runPh p (a ++ b) = (runPh p a).bind fun q => runPh q b := by
  induction a generalizing p with
  | nil => rfl
  | cons k a ih =>
    simp only [List.cons_append, runPh]
    cases evNext p k with
    | none => rfl
    | some q => exact ih q

theorem runPh_prefix {p q : Phase} {a b : List EvKind} (h : runPh p b = some q) (hp : a <+: b) :
    ∃ r, runPh p a = some r := by
  obtain ⟨c, rfl⟩ := hp
  rw [runPh_append] at h
  cases ha : runPh p a with
  | none => rw [ha] at h; simp at h
  | some r => exact ⟨r, rfl⟩

theorem runPh_trans {p q r : Phase} {a b : List EvKind} (h : runPh p a = some q) (k : runPh q b = some r) :
    runPh p (a ++ b) = some r := by
  rw [runPh_append, h]; exact k

theorem runPh_block {f : Bool} {ks : List EvKind} (h : BlockTrace f ks) :
    runPh .opened ks = some (if f then Phase.last else Phase.opened) := by
  cases h <;> cases f <;> rfl

/-- What the automaton has accepted in each phase, in terms of the grammar. -/
def PhaseOK (ks : List EvKind) : Phase → Prop
  | .idle => ∃ streams : List (List EvKind), (∀ st ∈ streams, StreamTrace st) ∧ ks = streams.flatten
  | .begun => ∃ ks0, (∃ streams : List (List EvKind), (∀ st ∈ streams, StreamTrace st) ∧ ks0 = streams.flatten) ∧
      ks = ks0 ++ [.streamBegin]
  | .opened => ∃ (streams : List (List EvKind)) (h : Header) (blocks : List (List EvKind)),
      (∀ st ∈ streams, StreamTrace st) ∧
      (∀ b ∈ blocks, BlockTrace false b) ∧ ks = streams.flatten ++ [.streamBegin, .streamHeader h] ++ blocks.flatten
  | .block t f => t ≠ .invalid ∧ ∃ (streams : List (List EvKind)) (h : Header) (blocks : List (List EvKind)),
      (∀ st ∈ streams, StreamTrace st) ∧
      (∀ b ∈ blocks, BlockTrace false b) ∧
      ks = streams.flatten ++ [.streamBegin, .streamHeader h] ++ blocks.flatten ++ [.blockBegin t f]
  | .trees t f => t ≠ .invalid ∧ t ≠ .stored ∧
      ∃ (streams : List (List EvKind)) (h : Header) (blocks : List (List EvKind)) (tr : Trees),
      (∀ st ∈ streams, StreamTrace st) ∧
      (∀ b ∈ blocks, BlockTrace false b) ∧
      ks = streams.flatten ++ [.streamBegin, .streamHeader h] ++ blocks.flatten ++ [.blockBegin t f, .blockTrees t f tr]
  | .last => ∃ (streams : List (List EvKind)) (h : Header) (blocks : List (List EvKind)) (l : List EvKind),
      (∀ st ∈ streams, StreamTrace st) ∧
      (∀ b ∈ blocks, BlockTrace false b) ∧ BlockTrace true l ∧
      ks = streams.flatten ++ [.streamBegin, .streamHeader h] ++ blocks.flatten ++ l
  | .ended => ∃ (streams : List (List EvKind)) (h : Header) (blocks : List (List EvKind)) (l : List EvKind)
      (a c : BitVec 32), (∀ st ∈ streams, StreamTrace st) ∧
      (∀ b ∈ blocks, BlockTrace false b) ∧ BlockTrace true l ∧
      ks = streams.flatten ++ [.streamBegin, .streamHeader h] ++ blocks.flatten ++ l ++ [.streamEnd a c]

theorem phase_blockEnd {ks : List EvKind} {streams : List (List EvKind)} {h : Header} {blocks : List (List EvKind)}
    {b : List EvKind} {f : Bool} (h1 : ∀ st ∈ streams, StreamTrace st) (h2 : ∀ b ∈ blocks, BlockTrace false b)
    (hb : BlockTrace f b) (hk : ks = streams.flatten ++ [.streamBegin, .streamHeader h] ++ blocks.flatten ++ b) :
    PhaseOK ks (if f then Phase.last else Phase.opened) := by
  cases f with
  | true => exact ⟨streams, h, blocks, b, h1, h2, hb, hk⟩
  | false =>
    refine ⟨streams, h, blocks ++ [b], h1, ?_, ?_⟩
    · intro x hx
      rcases List.mem_append.1 hx with hx | hx
      · exact h2 x hx
      · rw [List.mem_singleton] at hx; subst hx; exact hb
    · rw [hk]; simp

theorem phase_next {ks : List EvKind} {p q : Phase} {k : EvKind} (h : PhaseOK ks p) (e : evNext p k = some q) :
    PhaseOK (ks ++ [k]) q := by
  cases p with
  | idle =>
    cases k with
    | streamBegin => cases e; exact ⟨ks, h, rfl⟩
    | _ => cases e
  | begun =>
    cases k with
    | streamHeader hd =>
      cases e
      obtain ⟨ks0, ⟨streams, h1, rfl⟩, rfl⟩ := h
      exact ⟨streams, hd, [], h1, by simp, by simp⟩
    | _ => cases e
  | opened =>
    cases k with
    | blockBegin t f =>
      have e' : (if t = .invalid then none else some (Phase.block t f)) = some q := e
      split at e'
      · cases e'
      · cases e'
        obtain ⟨streams, hd, blocks, h1, h2, rfl⟩ := h
        exact ⟨by assumption, streams, hd, blocks, h1, h2, rfl⟩
    | _ => cases e
  | block t f =>
    cases k with
    | blockTrees t' f' tr =>
      have e' : (if t ≠ .stored ∧ t = t' ∧ f = f' then some (Phase.trees t f) else none) = some q := e
      split at e'
      · rename_i hc
        cases e'
        obtain ⟨c1, rfl, rfl⟩ := hc
        obtain ⟨c0, streams, hd, blocks, h1, h2, rfl⟩ := h
        exact ⟨c0, c1, streams, hd, blocks, tr, h1, h2, by simp⟩
      · cases e'
    | blockEnd t' f' =>
      have e' : (if t = .stored ∧ t = t' ∧ f = f' then some (if f then Phase.last else Phase.opened) else none) = some q := e
      split at e'
      · rename_i hc
        cases e'
        obtain ⟨rfl, rfl, rfl⟩ := hc
        obtain ⟨c0, streams, hd, blocks, h1, h2, rfl⟩ := h
        exact phase_blockEnd (h := hd) h1 h2 BlockTrace.stored (by simp)
      · cases e'
    | _ => cases e
  | trees t f =>
    cases k with
    | blockEnd t' f' =>
      have e' : (if t = t' ∧ f = f' then some (if f then Phase.last else Phase.opened) else none) = some q := e
      split at e'
      · rename_i hc
        cases e'
        obtain ⟨rfl, rfl⟩ := hc
        obtain ⟨c0, c1, streams, hd, blocks, tr, h1, h2, rfl⟩ := h
        have hb : BlockTrace f [.blockBegin t f, .blockTrees t f tr, .blockEnd t f] := by
          cases t with
          | invalid => exact absurd rfl c0
          | stored => exact absurd rfl c1
          | static => exact BlockTrace.static tr
          | dynamic => exact BlockTrace.dynamic tr
        exact phase_blockEnd (h := hd) h1 h2 hb (by simp)
      · cases e'
    | _ => cases e
  | last =>
    cases k with
    | streamEnd a c =>
      cases e
      obtain ⟨streams, hd, blocks, l, h1, h2, hl, rfl⟩ := h
      exact ⟨streams, hd, blocks, l, _, _, h1, h2, hl, rfl⟩
    | _ => cases e
  | ended =>
    cases k with
    | streamClose =>
      cases e
      obtain ⟨streams, hd, blocks, l, a, c, h1, h2, hl, rfl⟩ := h
      refine ⟨streams ++ [[.streamBegin, .streamHeader hd] ++ blocks.flatten ++ l ++ [.streamEnd a c, .streamClose]], ?_, ?_⟩
      · intro st hst
        rcases List.mem_append.1 hst with hst | hst
        · exact h1 st hst
        · rw [List.mem_singleton] at hst; subst hst; exact .mk hd blocks l a c h2 hl
      · simp
    | _ => cases e

theorem phase_run {p q : Phase} {ks ks' : List EvKind} (h : PhaseOK ks p) (e : runPh p ks' = some q) :
    PhaseOK (ks ++ ks') q := by
  induction ks' generalizing ks p with
  | nil => simp only [runPh] at e; cases e; simpa using h
  | cons k ks' ih =>
    simp only [runPh] at e
    cases hk : evNext p k with
    | none => rw [hk] at e; simp at e
    | some r =>
      rw [hk] at e
      have := ih (phase_next h hk) e
      simpa using this

theorem phase_idle : PhaseOK [] .idle := ⟨[], by simp, rfl⟩

theorem tracePrefix_of_streams {streams : List (List EvKind)} (h1 : ∀ st ∈ streams, StreamTrace st)
    (h : Header) {blocks : List (List EvKind)} (h2 : ∀ b ∈ blocks, BlockTrace false b) {ks x rest l : List EvKind}
    (hl : BlockTrace true l)
    (hk : ks = streams.flatten ++ [.streamBegin, .streamHeader h] ++ blocks.flatten ++ x) (a c : BitVec 32)
    (hx : x ++ rest = l ++ [.streamEnd a c, .streamClose]) : TracePrefix ks := by
  refine ⟨streams ++ [[.streamBegin, .streamHeader h] ++ blocks.flatten ++ l ++ [.streamEnd a c, .streamClose]],
    rest, ?_, ?_⟩
  · intro st hst
    rcases List.mem_append.1 hst with hst | hst
    · exact h1 st hst
    · rw [List.mem_singleton] at hst; subst hst; exact .mk h blocks l _ _ h2 hl
  · rw [hk, List.append_assoc, hx]; simp

/-- Whatever the automaton accepts is a prefix of the grammar. -/
theorem phaseOK_prefix {ks : List EvKind} {p : Phase} (h : PhaseOK ks p) : TracePrefix ks := by
  cases p with
  | idle => obtain ⟨streams, h1, rfl⟩ := h; exact ⟨streams, [], h1, by simp⟩
  | begun =>
    obtain ⟨ks0, ⟨streams, h1, rfl⟩, rfl⟩ := h
    refine ⟨streams ++ [[.streamBegin, .streamHeader {}] ++ ([] : List (List EvKind)).flatten ++
      [.blockBegin .stored true, .blockEnd .stored true] ++ [.streamEnd 0 0, .streamClose]],
      [.streamHeader {}, .blockBegin .stored true, .blockEnd .stored true, .streamEnd 0 0, .streamClose], ?_, by simp⟩
    intro st hst
    rcases List.mem_append.1 hst with hst | hst
    · exact h1 st hst
    · rw [List.mem_singleton] at hst; subst hst; exact .mk {} [] _ _ _ (by simp) .stored
  | opened =>
    obtain ⟨streams, hd, blocks, h1, h2, rfl⟩ := h
    exact tracePrefix_of_streams h1 hd h2 .stored (by simp) 0 0 (List.nil_append _)
  | block t f =>
    obtain ⟨c0, streams, hd, blocks, h1, h2, rfl⟩ := h
    obtain ⟨r, hr⟩ : ∃ r, BlockTrace f ([.blockBegin t f] ++ r) := by
      cases t with
      | invalid => exact absurd rfl c0
      | stored => exact ⟨_, .stored⟩
      | static => exact ⟨_, .static {}⟩
      | dynamic => exact ⟨_, .dynamic {}⟩
    cases f with
    | true => exact tracePrefix_of_streams h1 hd h2 hr rfl 0 0 (by simp; rfl)
    | false =>
      have h2' : ∀ b ∈ blocks ++ [[.blockBegin t false] ++ r], BlockTrace false b := by
        intro x hx
        rcases List.mem_append.1 hx with hx | hx
        · exact h2 x hx
        · rw [List.mem_singleton] at hx; subst hx; exact hr
      obtain ⟨st, rest, g1, g2⟩ := tracePrefix_of_streams (x := []) h1 hd h2' .stored rfl 0 0 (List.nil_append _)
      exact ⟨st, r ++ rest, g1, by rw [← g2]; simp⟩
  | trees t f =>
    obtain ⟨c0, c1, streams, hd, blocks, tr, h1, h2, rfl⟩ := h
    have hr : BlockTrace f ([.blockBegin t f, .blockTrees t f tr] ++ [.blockEnd t f]) := by
      cases t with
      | invalid => exact absurd rfl c0
      | stored => exact absurd rfl c1
      | static => exact .static tr
      | dynamic => exact .dynamic tr
    cases f with
    | true => exact tracePrefix_of_streams h1 hd h2 hr rfl 0 0 (by simp; rfl)
    | false =>
      have h2' : ∀ b ∈ blocks ++ [[.blockBegin t false, .blockTrees t false tr] ++ [.blockEnd t false]], BlockTrace false b := by
        intro x hx
        rcases List.mem_append.1 hx with hx | hx
        · exact h2 x hx
        · rw [List.mem_singleton] at hx; subst hx; exact hr
      obtain ⟨st, rest, g1, g2⟩ := tracePrefix_of_streams (x := []) h1 hd h2' .stored rfl 0 0 (List.nil_append _)
      exact ⟨st, [.blockEnd t false] ++ rest, g1, by rw [← g2]; simp⟩
  | last =>
    obtain ⟨streams, hd, blocks, l, h1, h2, hl, rfl⟩ := h
    exact tracePrefix_of_streams h1 hd h2 hl rfl 0 0 rfl
  | ended =>
    obtain ⟨streams, hd, blocks, l, a, c, h1, h2, hl, rfl⟩ := h
    exact tracePrefix_of_streams (x := l ++ [.streamEnd a c]) h1 hd h2 hl (by simp) a c
      (by simp; rfl)

end Flate.Proof
