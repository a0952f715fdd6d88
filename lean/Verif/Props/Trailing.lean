/-
C88: bytes after the last stream (trailing garbage).
-/
import Verif.Props.ReadCalls
import Verif.Props.ReadExamples

namespace Flate.Props
open Flate.Spec Flate.Model Flate.Model.Rd Flate.Model.Conc Flate.Proof Flate.Proof.R Flate.Proof.Cc

/-- Bytes which follow the last stream and are not the beginning of a longer input: there are some, and no well-formed stream is at their beginning. -/
structure RSetup.Garbage (c : RSetup) (k : Container) (g : List UInt8) : Prop where
  ne : g ≠ []
  no_stream : ∀ S data r, c.Stream k S data → g ≠ S ++ r

/-- How the streams which a Reader finds in `ps` and more relate to `ps`. -/
theorem items_cat_more {c : RSetup} (h : c.OK) {k : Container} (hk : c.o.format = fmtOf k) {g : List UInt8} {l : List RItem} {w r : List UInt8} (hl : Items c.env l w r) :
    ∀ {ps : List (List UInt8 × List UInt8)}, (∀ p ∈ ps, c.Stream k p.1 p.2) → w = ps.flatMap Prod.fst ++ g →
    (∃ p2, ps = l.map (fun it => (it.S, it.data)) ++ p2 ∧ r = p2.flatMap Prod.fst ++ g) ∨
      ∃ (it : RItem) (l2 : List (List UInt8 × List UInt8)), l.map (fun it => (it.S, it.data)) = ps ++ (it.S, it.data) :: l2 ∧ c.Stream k it.S it.data ∧ ∃ x, g = it.S ++ x := by
  induction hl with
  | nil r => exact fun _ hp => Or.inl ⟨_, by simp, hp⟩
  | cons h1 h2 h3 ih =>
    rename_i it l w r
    intro ps hp hw
    have hc : it.c = k := by
      obtain ⟨b, _, _, e⟩ := h2
      rw [e]
      show detect c.o.format b = k
      rw [hk]; exact detect_fmtOf _ _
    have hst : c.Stream k it.S it.data := hc ▸ h1.1
    rcases ps with _ | ⟨⟨S, d⟩, ps⟩
    · exact Or.inr ⟨it, l.map (fun it => (it.S, it.data)), by simp, hst, w, by simpa using hw.symm⟩
    · have hS := hp (S, d) (by simp)
      obtain ⟨e1, e2⟩ := stream_unique h.env (hc ▸ h1.1) (show Spec.Stream (Env.ok c.env) (2 ^ c.env.o.wbits) c.env.o.dict k S d from hS)
        (r := w) (r' := ps.flatMap Prod.fst ++ g) (by simpa using hw)
      subst e1
      have hw : w = ps.flatMap Prod.fst ++ g := by simpa using hw
      rcases ih (fun p hp' => hp p (by simp [hp'])) hw with ⟨p2, q1, q2⟩ | ⟨it', l2, q1, q2⟩
      · exact Or.inl ⟨p2, by rw [q1, ← e2]; simp, q2⟩
      · exact Or.inr ⟨it', l2, by rw [List.map_cons, q1, ← e2]; simp, q2⟩

theorem only_kind {c : RSetup} {k : Container} (hk : c.o.format = fmtOf k) {c' : Container} {b : List UInt8} (h : Chosen c.env c' b) : c' = k := by
  obtain ⟨x, _, _, e⟩ := h
  rw [e]
  show detect c.o.format x = k
  rw [hk]; exact detect_fmtOf _ _

/-- **C88 (partial).** The input consists of the well-formed streams `ps` and then garbage `g`, and the source's last piece (which comes together with its error) is
within the garbage, for instance because `io.EOF` is reported by itself.  Then the content of all the streams is delivered before an error, and the error is not `io.EOF`: it is a
`CorruptInputError`, the source's own error, or, for `io.EOF`, `io.ErrUnexpectedEOF`.  (`hr`: the goroutine does not panic; see C09 for when it does.) -/
theorem C88_trailing_partial {c : RSetup} (h : c.OK) {k : Container} (hk : c.o.format = fmtOf k) {src : Src} {ps : List (List UInt8 × List UInt8)} {g : List UInt8}
    (hS : ∀ p ∈ ps, c.Stream k p.1 p.2) (hg : c.Garbage k g) (hb : src.bytes = ps.flatMap Prod.fst ++ g) (hlast : src.last.length ≤ g.length)
    {s : RState} (hr : c.Runs src s) :
    ∃ (ds : List (List UInt8)) (e : Err) (post : List Act), s.out.acts = ds.map .data ++ .err e :: post ∧ ps.flatMap Prod.snd <+: ds.flatten ∧
      (e = (if src.err = .eof then .unexpectedEOF else src.err) ∨ ∃ a b m, e = .corrupt a b m) := by
  obtain ⟨l, r, hl, hf, hst, hc⟩ := run_sound h.env src
  rcases items_cat_more h hk hl hS hb with ⟨p2, e1, e2⟩ | ⟨it, l2, e1, e2, x, e3⟩
  · have hno : NoStream c.env k r → p2 = [] := by
      intro hn
      rcases p2 with _ | ⟨p, p2⟩
      · rfl
      · exact absurd (by rw [e2]; simp) (hn p.1 p.2 (p2.flatMap Prod.fst ++ g) (hS p (by rw [e1]; simp)))
    unfold RSetup.Runs at hr
    rcases hc with ⟨s', ds, h1, h2, h3, h4, _⟩ | ⟨c', p, h1, _, h3, h4, _, ⟨s', ds, e, post, q1, q2, q3, _, _, _, q4⟩ | ⟨q1, _⟩⟩ | ⟨h1, _⟩
    · exfalso
      have hpos : 0 < g.length := List.length_pos_iff.2 hg.ne
      rw [e2] at h4
      rcases h4 with h4 | h4
      · simp at h4; exact hg.ne h4.2
      · simp at h4; omega
    · rw [q1] at hr; cases hr
      have hp2 := hno (only_kind hk h3 ▸ h4)
      subst hp2
      refine ⟨ds, e, post, q2, ?_, ?_⟩
      · rw [e1]
        simpa [datas, List.flatMap, Function.comp_def] using q4
      · rcases q3 with q3 | q3
        · left; rw [q3]; unfold propErr; rfl
        · exact Or.inr q3
    · rw [q1] at hr; cases hr
    · rw [h1] at hr; cases hr
  · exact absurd e3 (hg.no_stream _ _ _ e2)

/-- **C88 (partial), for calls of `Read`**: under every schedule, a call which returns an error comes after calls which returned at least the content of all the streams, and the error is not `io.EOF`. -/
theorem C88_calls_partial {c : RSetup} (h : c.OK) {k : Container} (hk : c.o.format = fmtOf k) {src : Src} {ps : List (List UInt8 × List UInt8)} {g : List UInt8}
    (hS : ∀ p ∈ ps, c.Stream k p.1 p.2) (hg : c.Garbage k g) (hb : src.bytes = ps.flatMap Prod.fst ++ g) (hlast : src.last.length ≤ g.length)
    {cap n : Nat} {t : St} (hc : 0 < cap) (hh : c.Calls ReadOnly src cap n t) {pre post : List (Nat × Res)} {i : Nat} {p : List UInt8} {e : Err}
    (hx : t.log = pre ++ (i, .read p (some e)) :: post) : e ≠ .eof ∧ ps.flatMap Prod.snd <+: got pre := by
  obtain ⟨s, hr, hre⟩ := hh
  obtain ⟨ds, e0, po, h1, h2, h3⟩ := C88_trailing_partial h hk hS hg hb hlast hr
  rw [h1] at hre
  have hd : actErr (ds.map Act.data) = none := by
    clear h1 h2 hre
    induction ds with
    | nil => rfl
    | cons d ds ih => simpa [actErr] using ih
  have hdat : actData (ds.map Act.data) = ds.flatten := by
    clear h1 h2 hre hd
    induction ds with
    | nil => rfl
    | cons d ds ih => simp [actData, ih]
  obtain ⟨_, rfl, q⟩ := C41_partial hd hc hre hx
  rw [hdat] at q
  refine ⟨?_, h2.trans q⟩
  rintro rfl
  rcases h3 with h3 | ⟨_, _, _, h3⟩
  · split at h3
    · cases h3
    · rename_i hne; exact hne h3.symm
  · cases h3

/-- **C88 is false**: garbage is silently ignored, whatever it is, when the source returns it together with at least the last byte of the last stream and its error in one piece:
the content of the streams is delivered, and then `io.EOF`.  (Every input smaller than the Reader's input buffer is such a case if the source reports `io.EOF` with the data or
if `ReadFrom` of the buffer reads on until it gets an error.) -/
theorem C88_ignored {c : RSetup} (h : c.OK) {k : Container} (hk : c.o.format = fmtOf k) {src : Src} {ps : List (List UInt8 × List UInt8)} {q : List UInt8 × List UInt8} {g : List UInt8}
    (hS : ∀ p ∈ ps ++ [q], c.Stream k p.1 p.2) (hb : src.bytes = (ps ++ [q]).flatMap Prod.fst ++ g) (hlast : g.length < src.last.length) (hq : src.last.length ≤ q.1.length + g.length) :
    c.Delivers src ((ps ++ [q]).flatMap Prod.snd) src.err := by
  obtain ⟨l, r, hl, hf, hst, hc⟩ := run_sound h.env src
  have hmany : ∀ {p2}, ps ++ [q] = l.map (fun it => (it.S, it.data)) ++ p2 → r = p2.flatMap Prod.fst ++ g → p2 ≠ [] → q.1.length + g.length ≤ r.length := by
    intro p2 e1 e2 hp
    have h5 : (l.map (fun it => (it.S, it.data)) ++ p2).getLast? = some q := by rw [← e1]; simp
    rw [List.getLast?_append, Option.or_of_isSome (by simpa using hp)] at h5
    obtain ⟨x, rfl⟩ : ∃ x, p2 = x ++ [q] := by
      rw [List.getLast?_eq_some_iff] at h5; exact h5
    rw [e2]; simp
  rcases items_cat_more h hk hl hS hb with ⟨p2, e1, e2⟩ | ⟨it, l2, e1, e2, x, e3⟩
  · have hno : NoStream c.env k r → p2 = [] := by
      intro hn
      rcases p2 with _ | ⟨p, p2⟩
      · rfl
      · exact absurd (by rw [e2]; simp) (hn p.1 p.2 (p2.flatMap Prod.fst ++ g) (hS p (by rw [e1]; simp)))
    rcases hc with ⟨s', ds, h1, h2, h3, h4, _⟩ | ⟨c', p, ⟨h1, h1'⟩, _, h3, h4, _⟩ | ⟨h1, _, h3, h4, _, h5⟩
    · have hp : p2 = [] := by
        by_cases hp : p2 = []
        · exact hp
        · exfalso
          have h6 := hmany e1 e2 hp
          rcases h4 with h4 | h4
          · rw [h4] at h6; simp at h6
            exact stream_ne (hS q (by simp)) h6.1
          · omega
      subst hp
      refine ⟨s', ds, h1, h2, ?_⟩
      rw [h3, e1]
      simp [datas, List.flatMap, Function.comp_def]
    · have hp := hno (only_kind hk h3 ▸ h4)
      subst hp
      rw [e2] at h1'
      simp at h1'; omega
    · have hp := hno (only_kind hk h3 ▸ h4)
      subst hp
      rw [e2] at h5
      simp at h5; omega
  · exfalso
    obtain ⟨l1, l3, h5, h6, h7⟩ := List.map_eq_append_iff.1 e1
    have hn : l3 ≠ [] := by rintro rfl; simp at h7
    have h8 := hst l1 l3 h5 hn
    have h9 := congrArg List.length hl.split
    have h10 : (l1.flatMap (·.S)).length = ((ps ++ [q]).flatMap Prod.fst).length := by rw [← h6]; simp [List.flatMap, Function.comp_def]
    rw [hb, h5] at h9
    simp only [List.flatMap_append, List.length_append] at h9 h10
    omega


/-- **C88 (partial)**, any format and any input: when reading ends with `io.EOF`, all of the input has been consumed, or what has not been consumed is part of the piece which the source returned
together with `io.EOF`. -/
theorem C88_eof_partial {c : RSetup} (h : c.OK) {src : Src} {s : RState} (hr : c.Runs src s) (he : actErr s.out.acts = some .eof) :
    ∃ rest, src.bytes = src.bytes.take s.inp.inTotal ++ rest ∧ (rest = [] ∨ rest.length < src.last.length) := by
  obtain ⟨l, r, hl, hf, hst, hc⟩ := run_sound h.env src
  have hactErr : ∀ (ds : List (List UInt8)) (e : Err) (post : List Act), actErr (ds.map Act.data ++ .err e :: post) = some e := by
    intro ds e post
    induction ds with
    | nil => rfl
    | cons d ds ih => simpa [actErr] using ih
  unfold RSetup.Runs at hr
  rcases hc with ⟨s', ds, h1, h2, h3, h4, _, h5, _⟩ | ⟨c', p, _, _, _, _, _, ⟨s', ds, e, post, h1, h2, h3, _⟩ | ⟨h1, _⟩⟩ | ⟨h1, _⟩
  · rw [h1] at hr; cases hr
    refine ⟨r, ?_, h4⟩
    rw [h5, hl.split]
    simp
  · rw [h1] at hr; cases hr
    rw [h2, hactErr] at he
    exact absurd (by simpa using he) h3.ne_eof
  · rw [h1] at hr; cases hr
  · rw [h1] at hr; cases hr

/-! ### cases -/

/-- zeros, as a tape may have them after an archive -/
theorem zeros_garbage (c : RSetup) (n : Nat) : c.Garbage .gzip (List.replicate (n + 1) 0) := by
  refine ⟨by simp, fun S data r hS he => ?_⟩
  obtain ⟨hdr, body, hh, _, rfl⟩ := streamOf_iff.1 (show Spec.StreamOf (BlockEnc c.ok (2 ^ c.o.wbits)) (2 ^ c.o.wbits) c.o.dict .gzip S data from hS)
  obtain ⟨hd, _, _, rfl⟩ := hh
  have := congrArg List.head? he
  simp [GzHeader.bytes, GzHeader.main, List.replicate_succ] at this

/-- two archives and zeros, `io.EOF` by itself: the hypotheses can be met -/
example {s : RState} (hr : (rdemo [.format .gzip]).Runs ⟨[(0x1f, (storedGz [65] ++ storedGz [66] ++ List.replicate 4 0).tail)], [], .eof⟩ s) :
    ∃ (ds : List (List UInt8)) (e : Err) (post : List Act), s.out.acts = ds.map .data ++ .err e :: post ∧ [65, 66] <+: ds.flatten ∧
      (e = .unexpectedEOF ∨ ∃ a b m, e = .corrupt a b m) := by
  have := C88_trailing_partial (c := rdemo [.format .gzip]) (rdemo_ok (by decide)) (k := .gzip) rfl (ps := [(storedGz [65], [65]), (storedGz [66], [66])]) (g := List.replicate 4 0)
    (by intro q hq; simp at hq; rcases hq with rfl | rfl <;> exact storedGz_stream (by decide) _) (zeros_garbage _ 3) (by decide +kernel) (by simp) hr
  simpa using this

/-- **C88 is false**: an archive and zeros in one piece, which comes with `io.EOF`; the zeros are not complained about -/
theorem C88_fails (n : Nat) : (rdemo [.format .gzip]).Garbage .gzip (List.replicate (n + 1) 0) ∧
    (rdemo [.format .gzip]).Delivers ⟨[], storedGz [65, 66] ++ List.replicate (n + 1) 0, .eof⟩ [65, 66] .eof := by
  refine ⟨zeros_garbage _ n, ?_⟩
  have hl : (storedGz [65, 66]).length ≠ 0 := by decide +kernel
  have := C88_ignored (c := rdemo [.format .gzip]) (rdemo_ok (by decide)) (k := .gzip) rfl (src := ⟨[], storedGz [65, 66] ++ List.replicate (n + 1) 0, .eof⟩)
    (ps := []) (q := (storedGz [65, 66], [65, 66])) (g := List.replicate (n + 1) 0)
    (by intro q hq; simp at hq; subst hq; exact storedGz_stream (by decide) _) (by simp [Src.bytes]) (by simp; omega) (by simp)
  simpa using this

end Flate.Props
