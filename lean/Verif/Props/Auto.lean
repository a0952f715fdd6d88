/-
C07 and C08 for a Reader which recognises formats by itself: sequences of streams.
-/
import Verif.Proof.RAuto
import Verif.Props.ReadCalls
import Verif.Props.ReadExamples

namespace Flate.Props
open Flate.Spec Flate.Model Flate.Model.Rd Flate.Model.Conc Flate.Proof Flate.Proof.R Flate.Proof.Cc

/-- gzip and zlib streams are recognised, whatever follows them -/
theorem known {c : RSetup} {k : Container} {S data x : List UInt8} (hS : c.Stream k S data) (hr : k = .raw → autodetect (S ++ x) = .raw) : autodetect (S ++ x) = k := by
  by_cases hk : k = .raw
  · rw [hk]; exact hr hk
  · have h1 := autodetect_stream hk hS
    rcases S with _ | ⟨p, _ | ⟨q, S⟩⟩
    · exact absurd h1.symm hk
    · exact absurd h1.symm hk
    · exact h1

/-- **C08 (partial), all streams; C07 for `DefaultFormat`.**  The input is a concatenation of well-formed streams `ps` of any formats.  What begins with a raw one does not look like
gzip or zlib (`ha`), no piece which the source returns ends one byte after the beginning of a stream (`hcut`), and the last piece, which comes with the source's
error, is not longer than the last stream (`hlast`, as in C07).  Then a Reader without a format option delivers the contents of all the streams, and then `io.EOF`. -/
theorem C08_streams_partial {c : RSetup} (h : c.OK) (hf : c.o.format = .default) {src : Src} {ps : List Given} (hb : src.bytes = ps.flatMap (·.bytes))
    (hS : ∀ p ∈ ps, c.Stream p.k p.bytes p.data) (ha : ∀ a p b, ps = a ++ p :: b → p.k = .raw → autodetect ((p :: b).flatMap (·.bytes)) = .raw)
    (hcut : ∀ a p b pre post, ps = a ++ p :: b → src.full = pre ++ post → (pieceBytes pre).length ≠ (a.flatMap (·.bytes)).length + 1)
    (hlast : ∀ a p, ps = a ++ [p] → src.last.length ≤ p.bytes.length) : c.Delivers src (ps.flatMap (·.data)) src.err := by
  have hlen : src.bytes.length = (pieceBytes src.full).length + src.last.length := by simp [Src.bytes, pieceBytes]
  have hlast' : ∀ {q : List Given} {a}, ps = a ++ q → q ≠ [] → src.last.length ≤ (q.flatMap (·.bytes)).length := by
    intro q a e hq
    obtain ⟨x, p, rfl⟩ : ∃ x p, q = x ++ [p] := ⟨q.dropLast, q.getLast hq, (List.dropLast_concat_getLast hq).symm⟩
    have := hlast (a ++ x) p (by rw [e]; simp)
    simp; omega
  have key : ∀ (b a : List Given), ps = a ++ b → Recognisable c.env src b := by
    intro b
    induction b with
    | nil => exact fun _ _ => trivial
    | cons p b ih =>
      intro a e
      refine ⟨hS p (by rw [e]; simp), ?_, fun post hp hx => ?_, fun hn => hlast' (a := a ++ [p]) (by rw [e]; simp) hn, ih (a ++ [p]) (by rw [e]; simp)⟩
      · show detect c.o.format _ = _
        rw [hf, detect_auto]
        exact known (hS p (by rw [e]; simp)) fun hk => by simpa using ha a p b e hk
      · obtain ⟨pre, hpre⟩ := hp
        have h1 := hcut a p b pre post e hpre.symm
        apply h1
        rw [hb, e, ← hpre] at hlen
        simp [pieceBytes] at hlen hx ⊢
        omega
  exact run_auto h.env hb (key ps [] rfl)

/-- the same for calls of `Read`, under every schedule -/
theorem C08_calls_partial {c : RSetup} (h : c.OK) (hf : c.o.format = .default) {src : Src} {ps : List Given} (hb : src.bytes = ps.flatMap (·.bytes))
    (hS : ∀ p ∈ ps, c.Stream p.k p.bytes p.data) (ha : ∀ a p b, ps = a ++ p :: b → p.k = .raw → autodetect ((p :: b).flatMap (·.bytes)) = .raw)
    (hcut : ∀ a p b pre post, ps = a ++ p :: b → src.full = pre ++ post → (pieceBytes pre).length ≠ (a.flatMap (·.bytes)).length + 1)
    (hlast : ∀ a p, ps = a ++ [p] → src.last.length ≤ p.bytes.length) {cap n : Nat} {t : St} (hc : 0 < cap) (hh : c.Calls ReadOnly src cap n t) :
    Yields t.log (ps.flatMap (·.data)) src.err :=
  delivers_yields (C08_streams_partial h hf hb hS ha hcut hlast) hc hh

/-- a raw stream and a gzip stream in one piece, `io.EOF` by itself: both are recognised -/
example : (rdemo []).Delivers ⟨[(1, (storedRaw [65, 66] ++ storedGz [67]).tail)], [], .eof⟩ [65, 66, 67] .eof := by
  have h1 : storedRaw [65, 66] = 1 :: (storedRaw [65, 66]).tail := by decide +kernel
  have := C08_streams_partial (c := rdemo []) (rdemo_ok (by decide)) rfl (src := ⟨[(1, (storedRaw [65, 66] ++ storedGz [67]).tail)], [], .eof⟩)
    (ps := [⟨.raw, storedRaw [65, 66], [65, 66]⟩, ⟨.gzip, storedGz [67], [67]⟩]) (by decide +kernel)
    (by
      intro p hp
      simp at hp
      rcases hp with rfl | rfl
      · exact storedRaw_deflate (d := [65, 66]) (by decide) _ _
      · exact storedGz_stream (by decide) _)
    (by
      intro a p b e hk
      rcases a with _ | ⟨a1, _ | ⟨a2, a⟩⟩
      · simp at e; obtain ⟨rfl, rfl⟩ := e; decide +kernel
      · simp at e; obtain ⟨_, rfl, rfl⟩ := e; cases hk
      · simp at e)
    (by
      intro a p b pre post e hp
      rcases a with _ | ⟨a1, _ | ⟨a2, a⟩⟩
      · rcases pre with _ | ⟨p1, _ | ⟨p2, pre⟩⟩
        · simp [pieceBytes]
        · simp at hp; rw [← hp.1]; decide +kernel
        · simp at hp
      · simp at e; obtain ⟨rfl, _⟩ := e
        rcases pre with _ | ⟨p1, _ | ⟨p2, pre⟩⟩
        · simp [pieceBytes]
        · simp at hp; rw [← hp.1]; decide +kernel
        · simp at hp
      · simp at e)
    (by intro a p _; simp)
  simpa using this

end Flate.Props
