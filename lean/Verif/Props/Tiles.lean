/-
C109: the ranges of bytes of which a Writer's tracers are told tile the output and the data.
-/
import Verif.Props.Story

namespace Flate.Props
open Flate.Spec Flate.Model Flate.Proof

/-- the number of bytes between StreamEnd and StreamClose: Adler-32 for zlib, CRC-32 and length for gzip -/
def footerBytes : Format → Nat
  | .zlib => 4
  | .gzip => 8
  | _ => 0

theorem footLen_bytes (f : Format) : footLen f = footerBytes f := by cases f <;> rfl

theorem streamTrace_last {st : List EvKind} (h : StreamTrace st) : ∃ pre, st = pre ++ [.streamClose] := by
  obtain ⟨h, A, a, b, e, _⟩ := stream_parts h
  exact ⟨.streamBegin :: .streamHeader h :: (A ++ [.streamEnd a b]), by rw [e]; simp⟩

theorem events_last {l : List (List EvKind)} (h : ∀ st ∈ l, StreamTrace st) (hne : l.flatten ≠ []) : ∃ pre, l.flatten = pre ++ [.streamClose] := by
  rcases List.eq_nil_or_concat l with rfl | ⟨l', x, rfl⟩
  · exact absurd rfl hne
  · obtain ⟨pre, hp⟩ := streamTrace_last (h x (by simp))
    exact ⟨l'.flatten ++ pre, by simp [hp]⟩

/-- which kinds of events can follow which, as far as the ends of streams are concerned -/
def Follows (p e : EvKind) : Prop := (e = .streamBegin → p = .streamClose) ∧ (e = .streamClose → ∃ a x, p = .streamEnd a x)

theorem follows_at {p e : EvKind} {r : List EvKind} : ∀ {l : List EvKind}, List.IsChain Follows (l ++ p :: e :: r) → Follows p e := by
  intro l
  induction l with
  | nil => intro h; cases h with | cons_cons h _ => exact h
  | cons x l ih =>
    intro h
    apply ih
    cases l with
    | nil => cases h with | cons_cons _ h => exact h
    | cons y l => cases h with | cons_cons _ h => exact h

theorem follows_blocks {A : List EvKind} (hA : ∀ k ∈ A, AboutBlock k) {a : BitVec 32} {b : BitVec 32} {rest : List EvKind} (hr : List.IsChain Follows (.streamClose :: rest)) :
    ∀ p, List.IsChain Follows (p :: (A ++ .streamEnd a b :: .streamClose :: rest)) := by
  induction A with
  | nil =>
    intro p
    exact .cons_cons ⟨fun h => (by cases h), fun h => (by cases h)⟩ (.cons_cons ⟨fun h => (by cases h), fun _ => ⟨_, _, rfl⟩⟩ hr)
  | cons k A ih =>
    intro p
    have hk := hA k (by simp)
    refine .cons_cons ⟨fun h => ?_, fun h => ?_⟩ (ih (fun k hk => hA k (by simp [hk])) k)
    · rw [h] at hk; exact hk.elim
    · rw [h] at hk; exact hk.elim

theorem follows_streams : ∀ {l : List (List EvKind)}, (∀ st ∈ l, StreamTrace st) → List.IsChain Follows (.streamClose :: l.flatten) := by
  intro l
  induction l with
  | nil => intro _; exact .singleton _
  | cons x l ih =>
    intro h
    obtain ⟨hd, A, a, b, e, hA⟩ := stream_parts (h x (by simp))
    rw [List.flatten_cons, e]
    have := follows_blocks hA (a := a) (b := b) (ih fun st hs => h st (by simp [hs])) (.streamHeader hd)
    simp only [List.cons_append, List.append_assoc, List.nil_append]
    exact .cons_cons ⟨fun _ => rfl, fun h => (by cases h)⟩ (.cons_cons ⟨fun h => (by cases h), fun h => (by cases h)⟩ this)

/-- **C109.** As long as no call fails: the first event is at byte 0 of output and data; a StreamBegin which follows a StreamClose is at the same place as that, in output and data;
a StreamClose is one footer after the event before it. -/
theorem C109_tiles {c : Setup} (hc : c.OK) {ops : List WOp} {rs : List WRes} {t : WState} (h : c.Runs ops rs t) (hn : NoErr rs) :
    (∀ e r, t.events.map (·.ev) = e :: r → e.outTotal = 0 ∧ e.inTotal = 0) ∧
    ∀ l p e r, t.events.map (·.ev) = l ++ p :: e :: r →
      (e.kind = .streamBegin → p.kind = .streamClose ∧ e.outTotal = p.outTotal ∧ e.inTotal = p.inTotal) ∧
      (e.kind = .streamClose → (∃ a x, p.kind = .streamEnd a x) ∧ e.outTotal = p.outTotal + footerBytes c.o.format ∧ e.inTotal = p.inTotal) := by
  refine ⟨fun e r he => first_event hc h hn he, fun l p e r he => ?_⟩
  obtain ⟨⟨w, hw, _⟩, _, ho⟩ := ev_reach hc h hn
  have hg := hw.gaps l p e r he
  rw [ho, footLen_bytes] at hg
  obtain ⟨streams, rest, hst, hks⟩ := C33_prefix hc h
  have hch := follows_streams hst
  rw [← hks, show (t.events.map fun p => p.ev.kind) = (t.events.map (·.ev)).map (·.kind) by rw [List.map_map]; rfl, he] at hch
  have hf : Follows p.kind e.kind := by
    rw [show (EvKind.streamClose :: ((l ++ p :: e :: r).map (·.kind) ++ rest)) = (.streamClose :: l.map (·.kind)) ++ p.kind :: e.kind :: (r.map (·.kind) ++ rest) by simp] at hch
    exact follows_at hch
  exact ⟨fun hk => ⟨hf.1 hk, hg.1 hk (hf.1 hk)⟩, fun hk => ⟨hf.2 hk, hg.2 hk⟩⟩

/-- **C109**, after `Close`: there is a last event, StreamClose, and it is at the end of the output and of the data. -/
theorem C109_end {c : Setup} (hc : c.OK) {ops : List WOp} (hcl : WOp.close ∉ ops) {rs : List WRes} {t : WState} (h : c.Runs (ops ++ [.close]) rs t) (hn : NoErr rs) :
    ∃ l e, t.events.map (·.ev) = l ++ [e] ∧ e.kind = .streamClose ∧ e.outTotal + c.sink.out.length = t.sink.out.length ∧ e.inTotal = (writtenData ops).length := by
  obtain ⟨bytes, data, streams, _, _, hd, hst, hev, hlen⟩ := C107_streams hc hcl h hn
  have hne : t.events.map (fun p => p.ev.kind) ≠ [] := by
    intro h0
    rw [hev] at h0
    cases streams with
    | nil =>
      rw [hd] at hlen
      have := List.length_eq_zero_iff.1 hlen.symm
      unfold segsOf at this
      rw [List.foldl_append] at this
      simp only [List.foldl_cons, List.foldl_nil, Segs.step, Segs.finish] at this
      split at this
      · simp at this
      · split at this
        · simp at this
        · contradiction
    | cons x l =>
      obtain ⟨pre, hp⟩ := streamTrace_last (hst x (by simp))
      rw [List.flatten_cons, hp] at h0
      simp at h0
  obtain ⟨pre, hp⟩ := events_last hst (hev ▸ hne)
  rw [← hev] at hp
  rcases List.eq_nil_or_concat (t.events.map (·.ev)) with h0 | ⟨l, e, he⟩
  · exact absurd (by rw [List.map_eq_nil_iff.1 h0]; rfl) hne
  · rw [List.concat_eq_append] at he
    obtain ⟨⟨w, hw, hi⟩, _⟩ := ev_reach hc h hn
    have hk : e.kind = .streamClose := by
      have hp : (t.events.map (·.ev)).map (·.kind) = pre ++ [.streamClose] := by rw [List.map_map]; exact hp
      rw [he, List.map_append] at hp
      simpa using (List.append_inj' hp rfl).2
    obtain ⟨g1, g2⟩ := (hw.stop (hi (by simp))).1 l e he
    refine ⟨l, e, he, hk, ?_, by rw [g1, closed_total hc hcl h hn]⟩
    obtain ⟨es, k, hh, _⟩ := reach hc h
    have := hh.tot
    rw [out_pushed hc.fresh.inv, out_pushed hw.inv, show c.start.outTotal = 0 from rfl, show c.start.sink.out = c.sink.out from rfl] at this
    rw [g2 hk]
    omega

/-! ### a case -/

/-- the hypotheses hold of the history `threeOps` of C107, with three streams -/
example : ∃ rs t, (demo [.format .gzip, .mlevel 1]).Runs (threeOps ++ [.close]) rs t ∧ NoErr rs ∧ WOp.close ∉ threeOps := by
  obtain ⟨rs, t, h1, h2⟩ := (demo_ok (opts := [.format .gzip, .mlevel 1]) (by decide)).run_close_ok (ops := threeOps) (Or.inr (by decide)) (demo_sink _) (by simp [threeOps])
  exact ⟨rs, t, h1, h2, by simp [threeOps]⟩

/-- in short: the events at the ends of the streams, with their places in the output and in the data -/
def tilesOf : List (Char × Nat × Nat) :=
  match runOps refLib (threeOps ++ [.close]) (demo [.format .gzip, .mlevel 1]).start with
  | .ok (_, t) => t.events.filterMap fun p => match p.ev.kind with
    | .streamBegin => some ('b', p.ev.outTotal, p.ev.inTotal)
    | .streamEnd _ _ => some ('e', p.ev.outTotal, p.ev.inTotal)
    | .streamClose => some ('c', p.ev.outTotal, p.ev.inTotal)
    | _ => none
  | .error _ => []

example : tilesOf = [('b', 0, 0), ('e', 17, 0), ('c', 25, 0), ('b', 25, 0), ('e', 55, 3), ('c', 63, 3), ('b', 63, 3), ('e', 86, 4), ('c', 94, 4)] := by decide +kernel

end Flate.Props
