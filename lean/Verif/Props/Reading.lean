/-
What a Reader makes of its input: C03, C04, C05, C06, C07, C08, C47.
-/
import Verif.Props.RSession

namespace Flate.Props
open Flate.Spec Flate.Model Flate.Model.Rd Flate.Proof Flate.Proof.R

/-! ### preparations -/

theorem gzPanics_ne : ¬ GzPanics [] := by
  rintro ⟨f, t, x, o, r, _, _, _, h, _⟩
  simp [gzPrefix] at h

theorem items_nil {E : Env} {l : List RItem} {w r : List UInt8} (h : Items E l w r) (hw : w = []) : l = [] ∧ r = [] := by
  cases h with
  | nil r => exact ⟨rfl, hw⟩
  | cons h1 _ _ => simp at hw; exact absurd hw.1 (stream_ne h1.1)

theorem prefix_bytes {E : Env} {l : List RItem} {w r : List UInt8} (h : Items E l w r) : r.length ≤ w.length := by
  rw [h.split]; simp

theorem last_bytes (src : Src) : src.last.length ≤ src.bytes.length := by simp [Src.bytes]

/-- When the input begins with a valid stream, that is the first one read. -/
theorem first_read {c : RSetup} (h : c.OK) {k : Container} {src : Src} {S data x : List UInt8} (ht : detect c.env.o.format src.first = k)
    (hS : c.Stream k S data) (hb : src.bytes = S ++ x) {l : List RItem} {r : List UInt8} (hl : Items c.env l src.bytes r)
    (hf : ∀ it ∈ l.head?, it.c = detect c.env.o.format src.first) :
    l = [] ∧ r = S ++ x ∨ ∃ it l', l = it :: l' ∧ it.S = S ∧ it.data = data ∧ it.c = k ∧ it.Valid c.env ∧ Items c.env l' x r := by
  rw [hb] at hl
  generalize hw : S ++ x = w at hl
  cases hl with
  | nil r => exact Or.inl ⟨rfl, rfl⟩
  | cons h1 h2 h3 =>
    rename_i it l' w'
    right
    have hc : it.c = k := (hf it (by simp)).trans ht
    obtain ⟨e1, e2⟩ := stream_unique h.env (show Spec.Stream (Env.ok c.env) (2 ^ c.env.o.wbits) c.env.o.dict k S data from hS) (hc ▸ h1.1) hw
    refine ⟨it, l', rfl, e1.symm, e2.symm, hc, h1, ?_⟩
    subst e1
    have := List.append_cancel_left hw
    rw [this]; exact h3

/-! ### C03 -/

/-- A source which delivers exactly one valid stream: its content is delivered, then the source's error (`.eof` normally); the
events are those of the stream. -/
theorem read_stream {c : RSetup} (h : c.OK) {k : Container} {src : Src} {S data : List UInt8} (ht : detect c.env.o.format src.first = k)
    (hS : c.Stream k S data) (hb : src.bytes = S) :
    ∃ (s : RState) (ds : List (List UInt8)) (it : RItem), c.Runs src s ∧ s.out.acts = ds.map .data ++ [.err src.err] ∧ ds.flatten = data ∧ it.Valid c.env ∧
      it.S = S ∧ it.data = data ∧ it.c = k ∧ kinds s = it.ks := by
  obtain ⟨l, r, hl, hf, hst, hc⟩ := run_sound h.env src
  rcases first_read h ht hS (by rw [hb]; simp : src.bytes = S ++ []) hl hf with ⟨rfl, rfl⟩ | ⟨it, l', rfl, e1, e2, e3, e4, e5⟩
  · exfalso
    have hne := stream_ne hS
    have hlen := last_bytes src
    rw [hb] at hlen
    rcases hc with ⟨s, ds, _, _, _, h3, _⟩ | ⟨c', p, _, h2, _, h3, _⟩ | ⟨_, h2, _, h3, _⟩
    · rcases h3 with h3 | h3
      · simp at h3; exact hne h3
      · simp at h3; omega
    · have := (h2 rfl).trans ht
      subst this
      exact h3 S data [] hS rfl
    · have := (h2 rfl).trans ht
      subst this
      exact h3 S data [] hS rfl
  · obtain ⟨rfl, rfl⟩ := items_nil e5 rfl
    rcases hc with ⟨s, ds, h1, h2, h3, _, h5, _⟩ | ⟨c', p, h1, _⟩ | ⟨_, _, _, _, h3⟩
    · exact ⟨s, ds, it, h1, h2, by rw [h3, ← e2]; simp [datas], e4, e1, e2, e3, by rw [h5]; simp⟩
    · exact absurd rfl h1.1
    · exact absurd h3.1 gzPanics_ne

/-- **C03.** Given any well-formed stream, however it is cut in pieces, the Reader delivers exactly its content and then the
end of file (or whatever the source ends with). -/
theorem C03_decodes {c : RSetup} (h : c.OK) {k : Container} {src : Src} {data : List UInt8} (ht : c.Takes k src) (hS : c.Stream k src.bytes data) :
    c.Delivers src data src.err := by
  obtain ⟨s, ds, _, h1, h2, h3, _⟩ := read_stream h ht.det hS rfl
  exact ⟨s, ds, h1, h2, h3⟩

/-- **C03** for streams with any complete Huffman codes, whatever else the library accepts. -/
theorem C03_complete {c : RSetup} (h : c.OK) {k : Container} {src : Src} {data : List UInt8} (ht : c.Takes k src)
    (hS : Spec.Stream IsComplete (2 ^ c.o.wbits) c.o.dict k src.bytes data) : c.Delivers src data src.err :=
  C03_decodes h ht (stream_imp (fun _ _ _ _ _ => blockEnc_ok fun _ hx => h.lawful.accepts_complete hx) hS)

/-! ### C04 -/

theorem items_streams {c : RSetup} {l : List RItem} {w r : List UInt8} (h : Items c.env l w r) :
    ∃ used, w = used ++ r ∧ used = l.flatMap (·.S) ∧ ∀ pre ss, StreamsOf (fun b d => ∃ k, (c.o.format = fmtOf k ∨ c.o.format = .default) ∧ c.Stream k b d) pre ss →
      StreamsOf (fun b d => ∃ k, (c.o.format = fmtOf k ∨ c.o.format = .default) ∧ c.Stream k b d) (pre ++ used) (ss ++ l.map (·.data)) := by
  induction h with
  | nil r => exact ⟨[], rfl, rfl, fun pre ss hp => by simpa using hp⟩
  | cons h1 h2 h3 ih =>
    rename_i it l w r
    obtain ⟨used, u1, u2, u3⟩ := ih
    refine ⟨it.S ++ used, by rw [u1]; simp, by rw [u2]; simp, fun pre ss hp => ?_⟩
    have hk : c.o.format = fmtOf it.c ∨ c.o.format = .default := by
      obtain ⟨b, _, _, hb⟩ := h2
      have hb : it.c = detect c.o.format b := hb
      rw [hb]
      cases hf : c.o.format
      · right; rfl
      all_goals · left; rfl
    have := u3 (pre ++ it.S) (ss ++ [it.data]) (.snoc hp ⟨it.c, hk, h1.1⟩)
    simpa using this

/-- **C04.** If reading ends with `io.EOF`, then the source did, what was consumed is a sequence of well-formed streams of the
format asked for, and what was delivered is their content, nothing more. -/
theorem C04_sound {c : RSetup} (h : c.OK) {src : Src} {s : RState} (hr : c.Runs src s) (he : actErr s.out.acts = some .eof) :
    ∃ used rest datas, src.bytes = used ++ rest ∧ s.inp.inTotal = used.length ∧ src.err = .eof ∧
      StreamsOf (fun b d => ∃ k, (c.o.format = fmtOf k ∨ c.o.format = .default) ∧ c.Stream k b d) used datas ∧
      actData s.out.acts = datas.flatten := by
  obtain ⟨l, r, hl, hf, hst, hc⟩ := run_sound h.env src
  obtain ⟨used, u1, u2, u3⟩ := items_streams hl
  have hactErr : ∀ (ds : List (List UInt8)) (e : Err) (post : List Act), actErr (ds.map Act.data ++ .err e :: post) = some e := by
    intro ds e post
    induction ds with
    | nil => rfl
    | cons d ds ih => simpa [actErr] using ih
  have hactData : ∀ (ds : List (List UInt8)) (e : Err), actData (ds.map Act.data ++ [.err e]) = ds.flatten := by
    intro ds e
    induction ds with
    | nil => rfl
    | cons d ds ih => simp [actData, ih]
  unfold RSetup.Runs at hr
  rcases hc with ⟨s', ds, h1, h2, h3, _, _, h4, _⟩ | ⟨c', p, _, _, _, _, _, ⟨s', ds, e, post, h1, h2, h3, _⟩ | ⟨h1, _⟩⟩ | ⟨h1, _⟩
  · rw [h1] at hr; cases hr
    rw [h2, hactErr] at he
    refine ⟨used, r, l.map (·.data), u1, by rw [h4, u2], by simpa using he, by simpa using u3 [] [] .nil, ?_⟩
    rw [h2, hactData, h3]
    simp [datas, List.flatMap]
  · rw [h1] at hr; cases hr
    rw [h2, hactErr] at he
    exact absurd (by simpa using he) h3.ne_eof
  · rw [h1] at hr; cases hr
  · rw [h1] at hr; cases hr

/-! ### C05 -/

theorem gzPanics_append {b : List UInt8} (h : GzPanics b) (x : List UInt8) : GzPanics (b ++ x) := by
  obtain ⟨f, t, a, o, r, h1, h2, h3, h4, e, r2, h5, h6, h7⟩ := h
  exact ⟨f, t, a, o, r ++ x, h1, h2, h3, by rw [h4]; simp, e, r2 ++ x, by rw [h5]; simp, h6, h7⟩

theorem stream_not_panics {c : RSetup} {S data r : List UInt8} (hS : c.Stream .gzip S data) : ¬ GzPanics (S ++ r) := by
  obtain ⟨hdr, body, h1, _, h3⟩ := streamOf_iff.1 (show StreamOf (BlockEnc c.ok (2 ^ c.o.wbits)) (2 ^ c.o.wbits) c.o.dict .gzip S data from hS)
  rw [h3, List.append_assoc, List.append_assoc]
  exact header_not_panics h1

/-- What happens when the input is a proper, non-empty beginning of a valid stream. -/
theorem read_truncated {c : RSetup} (h : c.OK) {k : Container} {src : Src} {S data x : List UInt8} (ht : detect c.env.o.format src.first = k)
    (hS : c.Stream k S data) (hb : src.bytes ++ x = S) (h0 : src.bytes ≠ []) (hx : x ≠ []) :
    ∃ (s : RState) (ds : List (List UInt8)) (e : Err) (post : List Act), c.Runs src s ∧ s.out.acts = ds.map .data ++ .err e :: post ∧ Bad src.err e ∧ post.countP isErr = 0 := by
  obtain ⟨l, r, hl, hf, hst, hc⟩ := run_sound h.env src
  have hl0 : l = [] ∧ r = src.bytes := by
    generalize hw : src.bytes = w at hl
    cases hl with
    | nil r => exact ⟨rfl, rfl⟩
    | cons h1 h2 h3 =>
      clear hst
      rename_i it l' w'
      exfalso
      have hc : it.c = k := (hf it (by simp)).trans ht
      obtain ⟨e1, _⟩ := stream_unique h.env (hc ▸ h1.1) (show Spec.Stream (Env.ok c.env) (2 ^ c.env.o.wbits) c.env.o.dict k S data from hS)
        (r := w' ++ x) (r' := []) (by rw [← hb, hw]; simp)
      have := congrArg List.length hb
      rw [hw, ← e1] at this
      have hxl := List.length_pos_iff.2 hx
      simp only [List.length_append] at this; omega
  obtain ⟨rfl, rfl⟩ := hl0
  have hlen := last_bytes src
  rcases hc with ⟨_, _, _, _, _, h4, _⟩ | ⟨c', p, _, h2, _, _, _, ⟨s', ds, e, post, h1, h3, h4, h5, _⟩ | ⟨_, h3⟩⟩ | ⟨_, h2, _, h4, h5⟩
  · rcases h4 with h4 | h4
    · exact absurd h4 h0
    · omega
  · exact ⟨s', ds, e, post, h1, h3, h4, h5⟩
  · have := (h2 rfl).trans ht
    subst this
    exact absurd (by rw [List.append_nil]; exact hb) (h3 x S data [] hS)
  · have := (h2 rfl).trans ht
    subst this
    exact absurd (by rw [← hb]; simpa using gzPanics_append h5.1 x) (stream_not_panics (r := []) hS)

/-- **C05.** If the input is a proper non-empty beginning of a well-formed stream, reading ends with an error which is not `io.EOF`
(and does not panic), however the input is cut in pieces and whatever the source ends with. -/
theorem C05_truncated {c : RSetup} (h : c.OK) {k : Container} {src : Src} {S data x : List UInt8} (ht : c.Takes k src)
    (hS : c.Stream k S data) (hb : src.bytes ++ x = S) (h0 : src.bytes ≠ []) (hx : x ≠ []) :
    ∃ s e, c.Runs src s ∧ actErr s.out.acts = some e ∧ e ≠ .eof := by
  obtain ⟨s, ds, e, post, h1, h2, h3, _⟩ := read_truncated h ht.det hS hb h0 hx
  refine ⟨s, e, h1, ?_, h3.ne_eof⟩
  rw [h2]
  clear h2
  induction ds with
  | nil => rfl
  | cons d ds ih => simpa [actErr] using ih

/-! ### C07 -/

/-- the streams which are read are the first ones of the input -/
theorem items_cat {c : RSetup} (h : c.OK) {k : Container} (hk : c.o.format = fmtOf k) {l : List RItem} {w r : List UInt8} (hl : Items c.env l w r) :
    ∀ {ps : List (List UInt8 × List UInt8)}, (∀ p ∈ ps, c.Stream k p.1 p.2) → w = ps.flatMap Prod.fst →
    ∃ p2, ps = l.map (fun it => (it.S, it.data)) ++ p2 ∧ r = p2.flatMap Prod.fst := by
  induction hl with
  | nil r => exact fun _ hp => ⟨_, by simp, hp⟩
  | cons h1 h2 h3 ih =>
    rename_i it l w r
    intro ps hp hw
    have hc : it.c = k := by
      obtain ⟨b, _, _, e⟩ := h2
      rw [e]
      show detect c.o.format b = k
      rw [hk]; exact detect_fmtOf _ _
    rcases ps with _ | ⟨⟨S, d⟩, ps⟩
    · simp at hw; exact absurd hw.1 (stream_ne h1.1)
    · have hS := hp (S, d) (by simp)
      obtain ⟨e1, e2⟩ := stream_unique h.env (hc ▸ h1.1) (show Spec.Stream (Env.ok c.env) (2 ^ c.env.o.wbits) c.env.o.dict k S d from hS)
        (r := w) (r' := ps.flatMap Prod.fst) (by simpa using hw)
      subst e1
      have hw : w = ps.flatMap Prod.fst := by simpa using hw
      obtain ⟨p2, q1, q2⟩ := ih (fun p hp' => hp p (by simp [hp'])) hw
      exact ⟨p2, by rw [q1, ← e2]; simp, q2⟩

/-- **C07, what really happens.** If the input is a concatenation of well-formed streams `ps` (each given by its bytes and its content), the Reader
delivers the contents of the first streams, `p1`, and then `io.EOF`.  It silently ignores the other streams, `p2`: those which begin
within the last piece which the source returns together with its error. -/
theorem C07_some {c : RSetup} (h : c.OK) {k : Container} (hk : c.o.format = fmtOf k) {src : Src} {ps : List (List UInt8 × List UInt8)}
    (hS : ∀ p ∈ ps, c.Stream k p.1 p.2) (hb : src.bytes = ps.flatMap Prod.fst) :
    ∃ p1 p2, ps = p1 ++ p2 ∧ c.Delivers src (p1.flatMap Prod.snd) src.err ∧
      (p2 ≠ [] → (p2.flatMap Prod.fst).length < src.last.length) ∧
      (∀ a b, p1 = a ++ b → b ≠ [] → src.last.length ≤ ((b ++ p2).flatMap Prod.fst).length) := by
  obtain ⟨l, r, hl, hf, hst, hc⟩ := run_sound h.env src
  obtain ⟨p2, e1, e2⟩ := items_cat h hk hl hS hb
  have hkind : ∀ {c' : Container} {b : List UInt8}, Chosen c.env c' b → c' = k := by
    rintro c' b ⟨x, _, _, e⟩
    rw [e]
    show detect c.o.format x = k
    rw [hk]; exact detect_fmtOf _ _
  have hno : r ≠ [] → ¬ NoStream c.env k r := by
    intro hr hn
    rcases p2 with _ | ⟨p, p2⟩
    · exact hr e2
    · exact hn p.1 p.2 (p2.flatMap Prod.fst) (hS p (by rw [e1]; simp)) (by rw [e2]; simp)
  rcases hc with ⟨s', ds, h1, h2, h3, h4, _⟩ | ⟨c', p, h1, _, h3, h4, _⟩ | ⟨_, _, h3, h4, h5⟩
  · refine ⟨l.map (fun it => (it.S, it.data)), p2, e1, ⟨s', ds, h1, h2, ?_⟩, ?_, ?_⟩
    · rw [h3]; simp [datas, List.flatMap, Function.comp_def]
    · intro hp
      rw [← e2]
      rcases h4 with h4 | h4
      · exfalso
        rcases p2 with _ | ⟨p, p2⟩
        · exact hp rfl
        · rw [h4] at e2
          have : p.1 = [] := by
            have := e2.symm
            simp only [List.flatMap_cons, List.append_eq_nil_iff] at this
            exact this.1
          exact stream_ne (hS p (by rw [e1]; simp)) this
      · exact h4
    · intro a b hab hbn
      obtain ⟨l1, l2, h5, rfl, rfl⟩ := List.map_eq_append_iff.1 hab
      have := hst l1 l2 h5 (by rintro rfl; exact hbn rfl)
      rw [e2] at this
      simpa [List.flatMap, Function.comp_def] using this
  · exact absurd (hkind h3 ▸ h4) (hno h1.1)
  · refine absurd (hkind h3 ▸ h4) (hno ?_)
    rintro rfl; exact gzPanics_ne h5.1

/-- **C07 (partial).** If the source's last piece (the one which comes together with its error) is not longer than the last stream, for instance if
it reports `io.EOF` by itself, then all streams are read: the Reader delivers the concatenation of the contents and then `io.EOF`. -/
theorem C07_partial {c : RSetup} (h : c.OK) {k : Container} (hk : c.o.format = fmtOf k) {src : Src} {ps : List (List UInt8 × List UInt8)} {q : List UInt8 × List UInt8}
    (hS : ∀ p ∈ ps ++ [q], c.Stream k p.1 p.2) (hb : src.bytes = (ps ++ [q]).flatMap Prod.fst) (hlast : src.last.length ≤ q.1.length) :
    c.Delivers src ((ps ++ [q]).flatMap Prod.snd) src.err := by
  obtain ⟨p1, p2, h1, h2, h3, _⟩ := C07_some h hk hS hb
  by_cases hp : p2 = []
  · subst hp
    rw [h1, List.append_nil]; exact h2
  · exfalso
    have h4 := h3 hp
    have h5 : (p1 ++ p2).getLast? = some q := by rw [← h1]; simp
    rw [List.getLast?_append, Option.or_of_isSome (by simpa using hp)] at h5
    obtain ⟨x, rfl⟩ : ∃ x, p2 = x ++ [q] := by
      rw [List.getLast?_eq_some_iff] at h5; exact h5
    simp at h4
    omega

/-- **C07 is false.** Whenever the source returns everything in one piece together with `io.EOF` (so for every input which is smaller than the Reader's
input buffer), only the first stream is read; the others are silently ignored. -/
theorem C07_fails {c : RSetup} (h : c.OK) {k : Container} (hk : c.o.format = fmtOf k) {e : Err} {p : List UInt8 × List UInt8} {ps : List (List UInt8 × List UInt8)}
    (hS : ∀ q ∈ p :: ps, c.Stream k q.1 q.2) : c.Delivers ⟨[], (p :: ps).flatMap Prod.fst, e⟩ p.2 e := by
  obtain ⟨p1, p2, h1, h2, h3, h4⟩ := C07_some h hk (src := ⟨[], (p :: ps).flatMap Prod.fst, e⟩) hS (by simp [Src.bytes])
  have hp : p.1.length ≠ 0 := fun h0 => stream_ne (hS p (by simp)) (List.length_eq_zero_iff.1 h0)
  have h5 : p1 = [p] := by
    rcases p1 with _ | ⟨p', _ | ⟨p'', p1⟩⟩
    · exfalso
      rw [List.nil_append] at h1
      have := h3 (by rw [← h1]; simp)
      rw [← h1] at this
      simp at this
    · rw [List.cons_append] at h1; cases h1; rfl
    · exfalso
      rw [List.cons_append] at h1
      cases h1
      have := h4 [p] (p'' :: p1) rfl (by simp)
      simp at this; omega
  rw [h5] at h2
  simpa using h2

end Flate.Props
