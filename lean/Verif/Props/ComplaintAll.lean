/-
C92: every first problem of a stream is reported, by its name and at its place.
-/
import Verif.Props.Complaint
import Verif.Props.ReadCalls
import Verif.Props.ReadExamples
import Verif.Props.Auto
import Verif.Proof.RTellAll

namespace Flate.Props
open Flate.Spec Flate.Model Flate.Model.Rd Flate.Model.Conc Flate.Proof Flate.Proof.R Flate.Proof.Cc

/-- **C92.** If the input, taken for a stream of container format `k`, is in order up to a problem (`Spec.StreamWrong`: a fact about the format for each of the messages) which comes to an end
with its `n`th byte, then the Reader reports a `CorruptInputError` with this problem, at the offset `n`.  (For "no code word", the offset is not determined by the format:
how far the Reader looks for one depends on the size of its bit buffer and on the Huffman library.) -/
theorem C92_reported {c : RSetup} (h : c.OK) {src : Src} {s : RState} (hr : c.Runs src s) (hsrc : ∀ t i p, src.err ≠ .corrupt t i p) {k : Container} (ht : c.Takes k src)
    {problem : Spec.Problem} {n : Nat} (hw : StreamWrong c.ok (2 ^ c.o.wbits) c.o.dict k problem src.bytes n) :
    ∃ b, actErr s.out.acts = some (.corrupt b b problem) ∧ (problem ∉ noCodeMessages → b = n) := by
  rw [← ht.det] at hw
  exact Wrong.run_tell h.env src hsrc hr hw

/-- The same for a stream which comes after other, complete ones: the total offset is then reckoned from the beginning of the input, the other from the beginning of the stream.
The streams must be of the format the Reader was asked for, and the last piece, with which the source returns its error, must not be longer than the
bad stream with all that follows: otherwise the Reader stops before it, see C07. -/
theorem C92_later {c : RSetup} (h : c.OK) {k : Container} (hk : c.o.format = fmtOf k) {src : Src} {s : RState} (hr : c.Runs src s) (hsrc : ∀ t i p, src.err ≠ .corrupt t i p)
    {ps : List (List UInt8 × List UInt8)} {cur : List UInt8} (hS : ∀ p ∈ ps, c.Stream k p.1 p.2) (hb : src.bytes = ps.flatMap Prod.fst ++ cur) (hlast : ps ≠ [] → src.last.length ≤ cur.length)
    {problem : Spec.Problem} {n : Nat} (hw : StreamWrong c.ok (2 ^ c.o.wbits) c.o.dict k problem cur n) :
    ∃ b, actErr s.out.acts = some (.corrupt ((ps.flatMap Prod.fst).length + b) b problem) ∧ (problem ∉ noCodeMessages → b = n) := by
  have hfm : ∀ ps : List (List UInt8 × List UInt8), (ps.map fun p => Given.mk k p.1 p.2).flatMap (·.bytes) = ps.flatMap Prod.fst := by
    intro ps; simp [List.flatMap_map]
  have hseen : ∀ ps : List (List UInt8 × List UInt8), (∀ p ∈ ps, c.Stream k p.1 p.2) → Wrong.AllSeen c.env src k cur (ps.map fun p => Given.mk k p.1 p.2) := by
    intro ps
    induction ps with
    | nil => exact fun _ => Or.inl hk
    | cons p ps ih => exact fun hS => ⟨hS p (by simp), Or.inl hk, ih fun q hq => hS q (List.mem_cons_of_mem _ hq)⟩
  have := Wrong.run_tell_all h.env hsrc hr (k := k) (ps := ps.map fun p => Given.mk k p.1 p.2) (cur := cur) (by rw [hfm]; exact hb) (hseen ps hS) (by simpa using hlast) hw
  rw [hfm] at this
  exact this

/-- The same for a Reader which recognises the formats by itself, with the conditions of C08. -/
theorem C92_auto {c : RSetup} (h : c.OK) (hf : c.o.format = .default) {src : Src} {s : RState} (hr : c.Runs src s) (hsrc : ∀ t i p, src.err ≠ .corrupt t i p)
    {ps : List Given} {k : Container} {cur : List UInt8} (hS : ∀ p ∈ ps, c.Stream p.k p.bytes p.data) (hb : src.bytes = ps.flatMap (·.bytes) ++ cur)
    (ha : ∀ a p b, ps = a ++ p :: b → p.k = .raw → autodetect ((p :: b).flatMap (·.bytes) ++ cur) = .raw) (hk : autodetect cur = k)
    (hcut : ∀ a b pre post, ps = a ++ b → src.full = pre ++ post → (pieceBytes pre).length ≠ (a.flatMap (·.bytes)).length + 1)
    (hlast : ps ≠ [] → src.last.length ≤ cur.length)
    {problem : Spec.Problem} {n : Nat} (hw : StreamWrong c.ok (2 ^ c.o.wbits) c.o.dict k problem cur n) :
    ∃ b, actErr s.out.acts = some (.corrupt ((ps.flatMap (·.bytes)).length + b) b problem) ∧ (problem ∉ noCodeMessages → b = n) := by
  have hlen : src.bytes.length = (pieceBytes src.full).length + src.last.length := by simp [Src.bytes, pieceBytes]
  have key : ∀ (b a : List Given), ps = a ++ b → Wrong.AllSeen c.env src k cur b := by
    intro b
    induction b with
    | nil =>
      intro a e
      refine Or.inr ⟨?_, fun post hp hx => ?_⟩
      · show detect c.o.format _ = _
        rw [hf, detect_auto]; exact hk
      · obtain ⟨pre, hpre⟩ := hp
        have h1 := hcut a [] pre post e hpre.symm
        apply h1
        rw [hb, e, ← hpre] at hlen
        simp [pieceBytes] at hlen hx ⊢
        omega
    | cons p b ih =>
      intro a e
      refine ⟨hS p (by rw [e]; simp), Or.inr ⟨?_, fun post hp hx => ?_⟩, ih (a ++ [p]) (by rw [e]; simp)⟩
      · show detect c.o.format _ = _
        rw [hf, detect_auto]
        exact known (hS p (by rw [e]; simp)) fun hk => by simpa using ha a p b e hk
      · obtain ⟨pre, hpre⟩ := hp
        have h1 := hcut a (p :: b) pre post e hpre.symm
        apply h1
        rw [hb, e, ← hpre] at hlen
        simp [pieceBytes] at hlen hx ⊢
        omega
  exact Wrong.run_tell_all h.env hsrc hr hb (key ps [] rfl) hlast hw

/-- With C91: the Reader complains about the first stream of its input with a message if and only if the stream has, as its first, the problem of which the message speaks. -/
theorem C92_iff {c : RSetup} (h : c.OK) {src : Src} {s : RState} (hr : c.Runs src s) (hsrc : ∀ t i p, src.err ≠ .corrupt t i p) {k : Container} (ht : c.Takes k src) (problem : Spec.Problem) :
    (∃ b, actErr s.out.acts = some (.corrupt b b problem)) ↔ ∃ n, StreamWrong c.ok (2 ^ c.o.wbits) c.o.dict k problem src.bytes n := by
  constructor
  · rintro ⟨b, hb⟩
    obtain ⟨done, cur, _, k', h1, _, h3, _, h5, h6⟩ := C91_problem h hr hsrc hb
    have hd : done = [] := List.eq_nil_of_length_eq_zero (by omega)
    subst hd
    rw [List.nil_append] at h1
    rw [h5 k ht rfl, ← h1] at h6
    exact ⟨_, h6⟩
  · rintro ⟨n, hn⟩
    obtain ⟨b, hb, _⟩ := C92_reported h hr hsrc ht hn
    exact ⟨b, hb⟩

/-- The specification is not ambiguous: the first problem of an input is only one (and its place, too, except for "no code word"); and an input which has one does not begin with a valid stream. -/
theorem C92_one {c : RSetup} (h : c.OK) {src : Src} {s : RState} (hr : c.Runs src s) (hsrc : ∀ t i p, src.err ≠ .corrupt t i p) {k : Container} (ht : c.Takes k src)
    {problem : Spec.Problem} {n : Nat} (hw : StreamWrong c.ok (2 ^ c.o.wbits) c.o.dict k problem src.bytes n) :
    c.NoneAt k src.bytes ∧ ∀ problem' n', StreamWrong c.ok (2 ^ c.o.wbits) c.o.dict k problem' src.bytes n' → problem' = problem ∧ (problem ∉ noCodeMessages → n' = n) := by
  obtain ⟨b, hb, hbn⟩ := C92_reported h hr hsrc ht hw
  refine ⟨?_, fun p' n' hw' => ?_⟩
  · obtain ⟨done, cur, _, k', h1, _, h3, _, _, h5, h6, _⟩ := corrupt_at h (Wrong.step_why h.env) hr hsrc hb
    have hd : done = [] := List.eq_nil_of_length_eq_zero (by omega)
    subst hd
    rw [List.nil_append] at h1
    rw [h5 k ht rfl, ← h1] at h6
    exact h6
  · obtain ⟨b', hb', hbn'⟩ := C92_reported h hr hsrc ht hw'
    rw [hb] at hb'
    cases hb'
    exact ⟨rfl, fun hm => (hbn' hm).symm.trans (hbn hm)⟩

/-- What the calls of `Read` return: under every schedule, no other error than the one which says what is wrong. -/
theorem C92_calls {c : RSetup} (h : c.OK) {src : Src} (hsrc : ∀ t i p, src.err ≠ .corrupt t i p) {k : Container} (ht : c.Takes k src)
    {problem : Spec.Problem} {n : Nat} (hw : StreamWrong c.ok (2 ^ c.o.wbits) c.o.dict k problem src.bytes n) {cap m : Nat} {t : St} (hc : 0 < cap) (hh : c.Calls ReadOnly src cap m t) :
    ∃ b, (problem ∉ noCodeMessages → b = n) ∧ ∀ i p e, (i, .read p (some e)) ∈ t.log → e = .corrupt b b problem := by
  obtain ⟨s, hr, hre⟩ := hh
  obtain ⟨b, hb, hbn⟩ := C92_reported h hr hsrc ht hw
  refine ⟨b, hbn, fun i p e hm => ?_⟩
  have := (C45_first hc hre hm).2
  rw [hb] at this; cases this; rfl

/-- **C47, exactly; C05, exactly.**  If the input does not begin with a complete valid stream, then the error reported is a `CorruptInputError` if and only if the input has a problem (C91, C92); if it has none, it is
the error of the source, or `io.ErrUnexpectedEOF` for `io.EOF`. -/
theorem C47_exact {c : RSetup} (h : c.OK) {src : Src} {s : RState} (hr : c.Runs src s) (hsrc : ∀ t i p, src.err ≠ .corrupt t i p) {k : Container} (ht : c.Takes k src)
    (h0 : src.bytes ≠ []) (hn : c.NoneAt k src.bytes) :
    (∃ problem n b, StreamWrong c.ok (2 ^ c.o.wbits) c.o.dict k problem src.bytes n ∧ actErr s.out.acts = some (.corrupt b b problem)) ∨
    (∀ problem n, ¬ StreamWrong c.ok (2 ^ c.o.wbits) c.o.dict k problem src.bytes n) ∧ actErr s.out.acts = some (if src.err = .eof then .unexpectedEOF else src.err) := by
  have first : ∀ {l : List RItem} {r : List UInt8}, Items c.env l src.bytes r → (∀ it ∈ l.head?, it.c = detect c.env.o.format src.first) → l = [] := by
    intro l r hl hf
    rw [ht.det] at hf
    generalize hw : src.bytes = w at hl
    cases hl with
    | nil => rfl
    | @cons it l w' _ hv _ _ =>
      have := hf it (by simp)
      subst this
      exact absurd hw (hn _ _ _ hv.1)
  by_cases hw : ∃ problem n, StreamWrong c.ok (2 ^ c.o.wbits) c.o.dict k problem src.bytes n
  · obtain ⟨p, n, hw⟩ := hw
    obtain ⟨b, hb, _⟩ := C92_reported h hr hsrc ht hw
    exact Or.inl ⟨p, n, b, hw, hb⟩
  · right
    refine ⟨fun p n hx => hw ⟨p, n, hx⟩, ?_⟩
    have hnc : ∀ T b p, actErr s.out.acts ≠ some (.corrupt T b p) := by
      intro T b p he
      obtain ⟨l, r, k2, g1, g2, g3, _, _, g5, _, _, g8⟩ := Pos.run_pos h.env (Wrong.step_why h.env) src hsrc hr he
      have hl := first g1 g2
      subst hl
      rw [g5 rfl, ht.det] at g8
      generalize hw' : src.bytes = w at g1
      cases g1
      rw [hw'] at hw
      exact hw ⟨_, _, g8⟩
    have hactErr : ∀ (ds : List (List UInt8)) (e : Err) (post : List Act), actErr (ds.map Act.data ++ .err e :: post) = some e := by
      intro ds e post
      induction ds with
      | nil => rfl
      | cons d ds ih => simpa [actErr] using ih
    obtain ⟨l, r, hl, hf, hst, hc⟩ := run_sound h.env src
    have hl0 := first hl hf
    subst hl0
    have hr' := hr
    unfold RSetup.Runs at hr'
    rcases hc with ⟨s', ds', h1, h2, h3, h4, _⟩ | ⟨c', p, _, _, _, _, hp, ⟨s', ds', e', post', h1, h2, h3, _⟩ | ⟨h1, _⟩⟩ | ⟨h1, _⟩
    · exfalso
      generalize hw' : src.bytes = w at hl
      cases hl
      rw [hw'] at h0
      rcases h4 with h4 | h4
      · exact h0 h4
      · rw [← hw'] at h4
        simp only [Src.bytes, List.length_append] at h4
        omega
    · rw [h1] at hr'; cases hr'
      rcases h3 with h3 | ⟨a, b, m, h3⟩
      · rw [h2, hactErr, h3]; rfl
      · exact absurd (by rw [h2, hactErr, h3]) (hnc a b m)
    · rw [h1] at hr'; cases hr'
    · rw [h1] at hr'; cases hr'

/-- A header with two problems: neither is the checksum right nor the compression method; what is reported is the checksum, whatever follows and in whatever pieces it comes. -/
example {x : List UInt8} {cs : List (UInt8 × List UInt8)} {s : RState} (hr : (rdemo [.format .zlib]).Runs ⟨(0x79, 0x02 :: x) :: cs, [], .eof⟩ s) :
    actErr s.out.acts = some (.corrupt 2 2 (.zlibCheck 0x7902 9)) := by
  have hb : (⟨(0x79, 0x02 :: x) :: cs, [], .eof⟩ : Src).bytes = [0x79, 0x02] ++ (x ++ cs.flatMap fun p => p.1 :: p.2) := by simp [Src.bytes]
  have hw : StreamWrong (rdemo [.format .zlib]).ok (2 ^ (rdemo [.format .zlib]).o.wbits) (rdemo [.format .zlib]).o.dict .zlib (.zlibCheck 0x7902 9)
      (⟨(0x79, 0x02 :: x) :: cs, [], .eof⟩ : Src).bytes 2 := by
    rw [hb]
    exact .zlib (.check 0x79 0x02 (by decide))
  obtain ⟨b, h1, h2⟩ := C92_reported (c := rdemo [.format .zlib]) (rdemo_ok (by simp [Opt.valid])) hr (fun _ _ _ e => by cases e) (Or.inl rfl) hw
  rw [h2 (by decide)] at h1
  exact h1

/-- A raw stream, and after it one which begins with a block of the reserved type: two bits of the second are enough. -/
example {x : List UInt8} {s : RState} (hr : (rdemo [.format .raw]).Runs ⟨[(1, [0, 0, 255, 255, 7] ++ x)], [], .eof⟩ s) :
    actErr s.out.acts = some (.corrupt 6 1 .reserved) := by
  have hS : ∀ p ∈ ([(storedRaw [], [])] : List (List UInt8 × List UInt8)), (rdemo [.format .raw]).Stream .raw p.1 p.2 := by
    intro p hp
    simp at hp
    subst hp
    exact storedRaw_deflate (d := []) (by decide) _ _
  have hw : StreamWrong (rdemo [.format .raw]).ok (2 ^ (rdemo [.format .raw]).o.wbits) (rdemo [.format .raw]).o.dict .raw .reserved (7 :: x) 1 := by
    have hbw : BlocksWrong (rdemo [.format .raw]).ok (2 ^ (rdemo [.format .raw]).o.wbits) 0 ((rdemo [.format .raw]).o.dict.getD []) .reserved [true, true, true]
        ([false, false, false, false, false] ++ bytesBits x) := .here (.reserved true)
    have := StreamWrong.blocks (c := .raw) (hdr := []) (body := 7 :: x) (n := 1) (win := 2 ^ (rdemo [.format .raw]).o.wbits) (dict := (rdemo [.format .raw]).o.dict) rfl hbw
      (by
        have : bytesBits (7 :: x) = bytesBits [7] ++ bytesBits x := by rw [← bytesBits_append]; rfl
        rw [this, show bytesBits [7] = [true, true, true] ++ [false, false, false, false, false] by decide]; simp)
      (by simp) (by decide) (by decide)
    simpa using this
  obtain ⟨b, h1, h2⟩ := C92_later (c := rdemo [.format .raw]) (rdemo_ok (by simp [Opt.valid])) (k := .raw) rfl hr (fun _ _ _ e => by cases e) hS (cur := 7 :: x)
    (by rw [show [(storedRaw [], ([] : List UInt8))].flatMap Prod.fst = [1, 0, 0, 255, 255] by decide +kernel]; simp [Src.bytes]) (by simp) hw
  rw [h2 (by decide)] at h1
  rw [show [(storedRaw [], ([] : List UInt8))].flatMap Prod.fst = [1, 0, 0, 255, 255] by decide +kernel] at h1
  exact h1

end Flate.Props
