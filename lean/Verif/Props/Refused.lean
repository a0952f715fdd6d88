/-
C105: of an input whose header is not acceptable, nothing is delivered; in particular, of one in another format than the Reader was told.
-/
import Verif.Proof.RNoHead
import Verif.Props.ComplaintAll
import Verif.Props.Recognise

namespace Flate.Props
open Flate.Spec Flate.Model Flate.Model.Rd Flate.Model.Conc Flate.Proof Flate.Proof.R Flate.Proof.Cc

/-- the input does not begin with a header of format `k` which this Reader accepts -/
def RSetup.NoHeader (c : RSetup) (k : Container) (bytes : List UInt8) : Prop := ∀ hdr r, HeaderOf (2 ^ c.o.wbits) c.o.dict k hdr → bytes ≠ hdr ++ r

theorem RSetup.NoHeader.none {c : RSetup} {k : Container} {w : List UInt8} (h : c.NoHeader k w) : c.NoneAt k w := by
  intro S data r hS e
  obtain ⟨hdr, body, h1, _, h3⟩ := streamOf_iff.1 hS
  exact h hdr (body ++ footerOf data k ++ r) h1 (by rw [e, h3]; simp)

/-- **C105.** If the (non-empty) input does not begin with a header of the container format in question (with an acceptable window size and the right dictionary), no byte is delivered, not even
after the error, and the error is not `io.EOF`. -/
theorem C105_nothing {c : RSetup} (h : c.OK) {src : Src} {s : RState} (hr : c.Runs src s) {k : Container} (ht : c.Takes k src) (h0 : src.bytes ≠ []) (hn : c.NoHeader k src.bytes) :
    actData s.out.acts = [] ∧ ∃ e, actErr s.out.acts = some e ∧ e ≠ .eof := by
  refine ⟨noHead_thread (E := c.env) (by rw [ht.det]; exact hn) hr, ?_⟩
  have hactErr : ∀ (ds : List (List UInt8)) (e : Err) (post : List Act), actErr (ds.map Act.data ++ .err e :: post) = some e := by
    intro ds e post
    induction ds with
    | nil => rfl
    | cons d ds ih => simpa [actErr] using ih
  obtain ⟨l, r, hl, hf, hst, hc⟩ := run_sound h.env src
  have hl0 : l = [] := by
    rw [ht.det] at hf
    generalize hw : src.bytes = w at hl
    cases hl with
    | nil => rfl
    | @cons it l w' _ hv _ _ =>
      have := hf it (by simp)
      subst this
      exact absurd hw (hn.none _ _ _ hv.1)
  subst hl0
  have hr' := hr
  unfold RSetup.Runs at hr'
  rcases hc with ⟨s', ds', h1, h2, h3, h4, _⟩ | ⟨c', p, _, _, _, _, hp, ⟨s', ds', e', post', h1, h2, h3, _⟩ | ⟨h1, _⟩⟩ | ⟨h1, _⟩
  · exfalso
    generalize hw' : src.bytes = w at hl
    cases hl
    rw [hw'] at h0
    rcases h4 with h4 | h4
    · exact h0 h4
    · rw [← hw'] at h4
      simp only [Src.bytes, List.length_append] at h4
      omega
  · rw [h1] at hr'; cases hr'
    exact ⟨e', by rw [h2, hactErr], h3.ne_eof⟩
  · rw [h1] at hr'; cases hr'
  · rw [h1] at hr'; cases hr'

/-- **C105, no panic.**  The goroutine runs to its end, unless it panics because of the extra data of a gzip header (C06, C17). -/
theorem C105_runs {c : RSetup} (h : c.OK) {src : Src} {k : Container} (ht : c.Takes k src) (hn : c.NoHeader k src.bytes) (hp : k = .gzip → ¬ [0x1f, 0x8b] <+: src.bytes) : ∃ s, c.Runs src s := by
  refine noHead_runs (E := c.env) h.env (by rw [ht.det]; exact hn) ?_
  rw [ht.det]
  rintro rfl ⟨f, t, x, o, r, _, _, _, e, _⟩
  exact hp rfl ⟨_, by rw [e]; rfl⟩

/-- **C105, the calls.**  `Read` never returns any data, whether or not `Close` is called; and never `io.EOF`. -/
theorem C105_calls {c : RSetup} (h : c.OK) {src : Src} {k : Container} (ht : c.Takes k src) (h0 : src.bytes ≠ []) (hn : c.NoHeader k src.bytes) {cap n : Nat} (hc : 0 < cap) :
    (∀ t, c.Calls NoReset src cap n t → got t.log = []) ∧
    ∀ t, c.Calls ReadOnly src cap n t → ∀ i p e, (i, .read p (some e)) ∈ t.log → p = [] ∧ e ≠ .eof := by
  refine ⟨?_, ?_⟩
  · rintro t ⟨s, hr, hre⟩
    have h1 := (C105_nothing h hr ht h0 hn).1
    have := C39_prefix hc hre
    rw [← reach_source hre, (good hc (fun _ h => h) hre).sc, h1] at this
    exact List.prefix_nil.1 this
  · rintro t ⟨s, hr, hre⟩ i p e hm
    obtain ⟨_, e', h2, h3⟩ := C105_nothing h hr ht h0 hn
    obtain ⟨h4, h5⟩ := C45_first hc hre hm
    rw [h2] at h5; cases h5
    exact ⟨h4, h3⟩

theorem noHeader_other {c : RSetup} {k : Container} (hk : k ≠ .raw) {w : List UInt8} (ha : autodetect w ≠ k) : c.NoHeader k w := by
  intro hdr r hh e
  refine ha ?_
  rw [e]
  cases k with
  | raw => exact absurd rfl hk
  | gzip =>
    obtain ⟨g, _, _, rfl⟩ := hh
    simp [GzHeader.bytes, GzHeader.main, autodetect]
  | zlib =>
    obtain ⟨ci, ⟨cmf, flg, z1, z2, z3, z4⟩, _⟩ := hh
    obtain ⟨r', rfl⟩ : ∃ r', hdr = cmf :: flg :: r' := by
      split at z4
      · exact ⟨_, z4.2⟩
      · exact ⟨_, z4.2⟩
    show (if cmf = 0x1f ∧ flg = 0x8b then Container.gzip else if cmf.toNat % 16 = 8 ∧ (cmf.toNat * 256 + flg.toNat) % 31 = 0 then .zlib else .raw) = .zlib
    have hne : ¬ (cmf = 0x1f ∧ flg = 0x8b) := by
      rintro ⟨rfl, rfl⟩
      revert z1; decide
    rw [if_neg hne, if_pos ⟨z1, z3⟩]

/-- **C105, gzip.**  A Reader told that the format is gzip, given a (non-empty) input which does not begin with the bytes 1f 8b, delivers nothing.  The error is a `CorruptInputError` at offset 10, or,
if there are not even 10 bytes, `io.ErrUnexpectedEOF` (or the source's error). -/
theorem C105_gzip {c : RSetup} (h : c.OK) (hf : c.o.format = .gzip) {src : Src} (hsrc : ∀ t i p, src.err ≠ .corrupt t i p) (h0 : src.bytes ≠ []) (ha : autodetect src.bytes ≠ .gzip) :
    ∃ s, c.Runs src s ∧ actData s.out.acts = [] ∧
      actErr s.out.acts = some (if 10 ≤ src.bytes.length then .corrupt 10 10 .gzipMagic else if src.err = .eof then .unexpectedEOF else src.err) := by
  have hm : ¬ [0x1f, 0x8b] <+: src.bytes := by
    rintro ⟨r, e⟩
    exact ha (by rw [← e]; rfl)
  have ht : c.Takes .gzip src := Or.inl hf
  have hn : c.NoHeader .gzip src.bytes := noHeader_other (by decide) ha
  obtain ⟨s, hr⟩ := C105_runs h ht hn fun _ => hm
  refine ⟨s, hr, (C105_nothing h hr ht h0 hn).1, ?_⟩
  have hw10 : ∀ {p n}, StreamWrong c.ok (2 ^ c.o.wbits) c.o.dict .gzip p src.bytes n → 10 ≤ src.bytes.length := by
    intro p n hw
    generalize src.bytes = w at hw hn hm
    have hlen : ∀ g : GzHeader, g.Valid → 10 ≤ g.main.length := by
      intro g _; simp [GzHeader.main]; omega
    generalize hk : Container.gzip = k at hw
    cases hw with
    | zlib _ => cases hk
    | gzip hg =>
      cases hg with
      | magic p hp _ => simp; omega
      | method => simp; omega
      | flags => simp; omega
      | crc g p hv => have := hlen g hv; simp; omega
    | blocks hh _ _ _ _ _ => subst hk; exact absurd rfl (hn _ _ hh)
    | @footer _ _ hdr body data foot r hh _ _ => subst hk; exact absurd (by simp) (hn hdr (body ++ foot ++ r) hh)
  split
  · rename_i hl
    have hw : StreamWrong c.ok (2 ^ c.o.wbits) c.o.dict .gzip .gzipMagic (src.bytes.take 10 ++ src.bytes.drop 10) (src.bytes.take 10).length := by
      refine StreamWrong.gzip (.magic _ (by simp; omega) ?_)
      intro hx
      exact hm (hx.trans (List.take_prefix _ _))
    rw [List.take_append_drop] at hw
    obtain ⟨b, hb, hbn⟩ := C92_reported h hr hsrc ht hw
    rw [hb, hbn (by decide), List.length_take, Nat.min_eq_left hl]
  · rename_i hl
    rcases C47_exact h hr hsrc ht h0 hn.none with ⟨p, n, b, hw, _⟩ | ⟨_, he⟩
    · exact absurd (hw10 hw) hl
    · exact he

/-- **C105, zlib.**  A Reader told that the format is zlib, given a (non-empty) input of which the first two bytes are not as in a zlib header, delivers nothing.  The error is a `CorruptInputError` at offset 2;
if there is only one byte, `io.ErrUnexpectedEOF` (or the source's error). -/
theorem C105_zlib {c : RSetup} (h : c.OK) (hf : c.o.format = .zlib) {src : Src} (hsrc : ∀ t i p, src.err ≠ .corrupt t i p) (h0 : src.bytes ≠ []) (ha : autodetect src.bytes ≠ .zlib) :
    ∃ s, c.Runs src s ∧ actData s.out.acts = [] ∧
      ((∃ p, 2 ≤ src.bytes.length ∧ actErr s.out.acts = some (.corrupt 2 2 p)) ∨
       src.bytes.length = 1 ∧ actErr s.out.acts = some (if src.err = .eof then .unexpectedEOF else src.err)) := by
  have ht : c.Takes .zlib src := Or.inl hf
  have hn : c.NoHeader .zlib src.bytes := noHeader_other (by decide) ha
  obtain ⟨s, hr⟩ := C105_runs h ht hn fun e => by cases e
  refine ⟨s, hr, (C105_nothing h hr ht h0 hn).1, ?_⟩
  rcases hw : src.bytes with _ | ⟨p0, _ | ⟨p1, r⟩⟩
  · exact absurd hw h0
  · right
    refine ⟨rfl, ?_⟩
    rcases C47_exact h hr hsrc ht h0 hn.none with ⟨p, n, b, hw', _⟩ | ⟨_, he⟩
    · exfalso
      generalize hk : Container.zlib = k at hw'
      rw [hw] at hw' hn
      generalize hl : [p0] = w at hw'
      cases hw' with
      | zlib hz => cases hz <;> simp at hl
      | gzip _ => cases hk
      | blocks hh _ _ _ _ _ => subst hk; exact hn _ _ hh hl
      | @footer _ _ hdr body data foot r hh _ _ => subst hk; exact hn hdr (body ++ foot ++ r) hh (by rw [hl]; simp)
    · exact he
  · left
    by_cases hc : (p0.toNat * 256 + p1.toNat) % 31 = 0
    · by_cases hm : p0.toNat % 16 = 8
      · exfalso
        rw [hw] at ha
        refine ha ?_
        show (if p0 = 0x1f ∧ p1 = 0x8b then Container.gzip else if p0.toNat % 16 = 8 ∧ (p0.toNat * 256 + p1.toNat) % 31 = 0 then .zlib else .raw) = .zlib
        have hne : ¬ (p0 = 0x1f ∧ p1 = 0x8b) := by
          rintro ⟨rfl, rfl⟩
          revert hm; decide
        rw [if_neg hne, if_pos ⟨hm, hc⟩]
      · obtain ⟨b, hb, hbn⟩ := C92_reported h hr hsrc ht (problem := .zlibMethod (p0.toNat % 16)) (n := 2) (by rw [hw]; exact StreamWrong.zlib (.method p0 p1 hc hm))
        rw [hbn (by simp [noCodeMessages])] at hb
        exact ⟨_, by simp, hb⟩
    · obtain ⟨b, hb, hbn⟩ := C92_reported h hr hsrc ht (n := 2) (by rw [hw]; exact StreamWrong.zlib (.check p0 p1 hc))
      rw [hbn (by simp [noCodeMessages])] at hb
      exact ⟨_, by simp, hb⟩

/-- **C105, another format.**  What a Writer has written in one format, a Reader which was told gzip or zlib refuses if it is another one: no data, and an error. -/
theorem C105_written {c : Setup} (h : c.OK) {ops : List WOp} (hc : WOp.close ∉ ops) {rs : List WRes} {t : WState} (hr : c.Runs (ops ++ [.close]) rs t) (he : NoErr rs) (h0 : c.sink.out = [])
    {r : RSetup} (hok : r.OK) {k : Container} (hk : k ≠ .raw) (hf : r.o.format = fmtOf k) (hne : container c.o.format ≠ k) {src : Src} (hsrc : ∀ t i p, src.err ≠ .corrupt t i p)
    (hb : src.bytes = t.sink.out) :
    ∃ s, r.Runs src s ∧ actData s.out.acts = [] ∧ ∃ e, actErr s.out.acts = some e ∧ e ≠ .eof := by
  obtain ⟨ps, ho, hp, hS, hd⟩ := C104_recognised h hc hr he
  have hps : ps ≠ [] := by
    rintro rfl
    have hx : (segsOf (ops ++ [.close])).done = [] := hp.symm
    simp only [segsOf, List.foldl_append, List.foldl_cons, List.foldl_nil, Segs.step, Segs.finish] at hx
    split at hx
    · simp at hx
    · split at hx
      · cases hx
      · contradiction
  obtain ⟨p, ps, rfl⟩ := List.exists_cons_of_ne_nil hps
  have hbytes : src.bytes = p.1 ++ ps.flatMap Prod.fst := by rw [hb, ho, h0]; simp
  have ha : autodetect src.bytes ≠ k := by
    rw [hbytes, hd p (by simp)]; exact hne
  have hn0 : src.bytes ≠ [] := by
    rw [hbytes]
    intro e
    exact stream_ne (hS p (by simp)) (List.append_eq_nil_iff.1 e).1
  have ht : r.Takes k src := Or.inl hf
  have hn := noHeader_other (c := r) hk ha
  obtain ⟨s, hrs⟩ := C105_runs hok ht hn (by
    rintro rfl ⟨x, e⟩
    exact ha (by rw [← e]; rfl))
  exact ⟨s, hrs, C105_nothing hok hrs ht hn0 hn⟩

/-- **C105, raw.**  A Reader told that the data are raw, given a gzip stream: the first block would be of the reserved type 3, and before the `CorruptInputError` which says so no data are delivered.
(Data may be delivered after it, see C46_fails.) -/
theorem C105_raw {c : RSetup} (h : c.OK) (hf : c.o.format = .raw) {src : Src} (hsrc : ∀ t i p, src.err ≠ .corrupt t i p) (ha : autodetect src.bytes = .gzip) {s : RState} (hr : c.Runs src s) :
    ∃ (ds : List (List UInt8)) (post : List Act), s.out.acts = ds.map .data ++ .err (.corrupt 1 1 .reserved) :: post ∧ ds.flatten = [] := by
  obtain ⟨p0, w, rest, hw, hbits⟩ : ∃ p0 w rest, src.bytes = p0 :: w ∧ bytesBits src.bytes = [true, true, true] ++ rest := by
    rcases hs : src.bytes with _ | ⟨p0, _ | ⟨p1, r⟩⟩
    · rw [hs] at ha; cases ha
    · rw [hs] at ha; cases ha
    · rw [hs] at ha
      have : p0 = 0x1f := by
        simp only [autodetect] at ha
        split at ha
        · rename_i hx; exact hx.1
        · split at ha <;> cases ha
      subst this
      exact ⟨_, _, (byteBits 0x1f).drop 3 ++ bytesBits (p1 :: r), rfl, rfl⟩
  have ht : c.Takes .raw src := Or.inl hf
  have nob : ∀ {bits : List Bool} {x y : Bool} {l : List Bool}, bits <+: [true, true, true] ++ rest → bits = [x, y, !y] ++ l → False := by
    intro bits x y l hb e
    rw [e] at hb
    obtain ⟨z, hz⟩ := hb
    simp at hz
    cases y <;> simp_all
  have nob0 : ∀ {bits : List Bool} {x : Bool} {l : List Bool}, bits <+: [true, true, true] ++ rest → bits = [x, false, false] ++ l → False := by
    intro bits x l hb e
    rw [e] at hb
    obtain ⟨z, hz⟩ := hb
    simp at hz
  have noblock : ∀ {pos f h b h' l}, BlockEnc c.ok (2 ^ c.o.wbits) pos f h b h' → b ++ l <+: [true, true, true] ++ rest → False := by
    intro pos f h b h' l hb hp
    cases hb with
    | stored pad data _ _ => exact nob0 hp (by simp only [List.append_assoc]; rfl)
    | fixed is => exact nob hp (y := true) (by simp only [List.append_assoc]; rfl)
    | dynamic hd is => exact nob hp (y := false) (by simp only [List.append_assoc]; rfl)
  have hwrong : StreamWrong c.ok (2 ^ c.o.wbits) c.o.dict .raw .reserved src.bytes 1 := by
    have := StreamWrong.blocks (ok := c.ok) (win := 2 ^ c.o.wbits) (dict := c.o.dict) (c := .raw) (hdr := []) (body := src.bytes) (n := 1) rfl (.here (.reserved true)) hbits
      (by rw [hw]; simp) (by decide) (by decide)
    simpa using this
  obtain ⟨b, hb, hbn⟩ := C92_reported h hr hsrc ht hwrong
  rw [hbn (by decide)] at hb
  have hnone := (C92_one h hr hsrc ht hwrong).1
  have hactErr : ∀ (ds : List (List UInt8)) (e : Err) (post : List Act), actErr (ds.map Act.data ++ .err e :: post) = some e := by
    intro ds e post
    induction ds with
    | nil => rfl
    | cons d ds ih => simpa [actErr] using ih
  obtain ⟨l, r, hl, hf', hst, hc⟩ := run_sound h.env src
  have hl0 : l = [] := by
    rw [ht.det] at hf'
    generalize hw : src.bytes = w at hl hnone
    cases hl with
    | nil => rfl
    | @cons it l w' _ hv _ _ =>
      have := hf' it (by simp)
      have hv1 := hv.1
      rw [this] at hv1
      exact absurd rfl (hnone _ _ _ hv1)
  subst hl0
  have hr' := hr
  unfold RSetup.Runs at hr'
  rcases hc with ⟨s', ds', h1, h2, h3, h4, _⟩ | ⟨c', p, _, hk, _, _, hp, ⟨s', ds', e', post', h1, h2, h3, _, h5, _⟩ | ⟨h1, _⟩⟩ | ⟨h1, _⟩
  · exfalso
    rw [h1] at hr'; cases hr'
    rw [h2, hactErr] at hb
    exact hsrc _ _ _ (Option.some.inj hb)
  · rw [h1] at hr'; cases hr'
    rw [h2, hactErr] at hb
    cases hb
    refine ⟨ds', post', h2, ?_⟩
    have hr0 : r = src.bytes := by
      generalize src.bytes = w at hl
      cases hl; rfl
    obtain rfl : c' = .raw := (hk rfl).trans ht.det
    have hp0 : p = [] := by
      rcases hp with hp | ⟨hdr, r', bits, g1, g2, g3, g4⟩
      · exact hp
      · obtain rfl : hdr = [] := g1
        rw [List.nil_append] at g2
        subst g2
        rw [hr0, hbits] at g3
        have none : ∀ {bs h h1}, Blocks (BlockEnc c.ok (2 ^ c.o.wbits)) 0 h bs h1 → (∃ l, bs ++ l <+: [true, true, true] ++ rest) → bs = [] ∧ h1 = h := by
          intro bs h h1 hbs hx
          cases hbs with
          | nil => exact ⟨rfl, rfl⟩
          | cons hb _ =>
            obtain ⟨l, hx⟩ := hx
            rw [List.append_assoc] at hx
            exact (noblock hb hx).elim
        rcases g4 with ⟨bs, b, h1, q1, q2, rfl⟩ | ⟨bs, b, h1, q1, q2, rfl⟩
        · obtain ⟨rfl, rfl⟩ := none q1 ⟨_, g3⟩
          generalize hq : c.env.o.dict.getD [] ++ p = q at q2
          cases q2 with
          | nothing => simpa using hq
          | fixed f is h' => exact (nob g3 (x := f) (y := true) (by simp only [List.nil_append, List.append_assoc]; rfl)).elim
          | dynamic f hd is h' => exact (nob g3 (x := f) (y := false) (by simp only [List.nil_append, List.append_assoc]; rfl)).elim
        · obtain ⟨rfl, rfl⟩ := none q1 ⟨_, g3⟩
          exact (noblock (l := []) q2 (by simpa using g3)).elim
    rw [hp0] at h5
    exact List.prefix_nil.1 h5
  · rw [h1] at hr'; cases hr'
  · rw [h1] at hr'; cases hr'

/-- gzip Reader, zlib stream -/
example : ∃ s, (rdemo [.format .gzip]).Runs ⟨[], zlibFile.bytes, .eof⟩ s ∧ actData s.out.acts = [] ∧ actErr s.out.acts = some (.corrupt 10 10 .gzipMagic) :=
  C105_gzip (rdemo_ok (by decide)) rfl (by simp) (by decide) (by decide)

/-- zlib Reader, raw data -/
example : ∃ s, (rdemo [.format .zlib]).Runs ⟨[(0, [2])], [0, 253, 255, 65, 66, 1, 0, 0, 255, 255], .eof⟩ s ∧ actData s.out.acts = [] ∧
    ((∃ p, 2 ≤ 12 ∧ actErr s.out.acts = some (.corrupt 2 2 p)) ∨ 12 = 1 ∧ actErr s.out.acts = some .unexpectedEOF) :=
  C105_zlib (rdemo_ok (by decide)) rfl (by simp) (by decide) (by decide)

/-- zlib Reader, a complete zlib stream, but made for a larger window, or without the dictionary -/
example : (rdemo [.format .zlib, .wbits 9]).NoHeader .zlib zlibFile.bytes ∧ (rdemo [.format .zlib, .dict (some [1])]).NoHeader .zlib zlibFile.bytes := by
  constructor
  · rintro hdr r ⟨ci, ⟨cmf, flg, z1, z2, z3, z4⟩, hw⟩ e
    obtain ⟨_, rfl⟩ := z4
    obtain rfl : 120 = cmf := (List.cons.inj e).1
    subst z2
    revert hw; decide
  · rintro hdr r ⟨ci, ⟨cmf, flg, z1, z2, z3, z4⟩, hw⟩ e
    obtain ⟨hb, rfl⟩ := z4
    have e2 := (List.cons.inj e).2
    obtain rfl : 156 = flg := (List.cons.inj e2).1
    revert hb; decide

/-- C105_raw: the hypotheses are satisfied; here, the source reports `io.EOF` with the last bytes -/
example : ∃ s, (rdemo [.format .raw, .mlevel 1]).Runs ⟨[], [0x1f, 0x8b, 8, 0, 0, 0, 0, 0, 0, 255, 1, 0, 0, 255, 255, 0, 0, 0, 0, 0, 0, 0, 0], .eof⟩ s ∧
    s.out.acts = [.err (.corrupt 1 1 .reserved)] :=
  acts?_some (by decide +kernel)

/-- C105_written: the raw file, a gzip Reader -/
example : ∃ s, (rdemo [.format .gzip]).Runs ⟨[], rawFile.bytes, .eof⟩ s ∧ actData s.out.acts = [] ∧ ∃ e, actErr s.out.acts = some e ∧ e ≠ .eof := by
  obtain ⟨hc, rs, t, hr, he, hb⟩ := rawFile_for.output
  exact C105_written rawFile_for.ok hc hr he rfl (rdemo_ok (by decide)) (k := .gzip) (by decide) rfl (by decide) (by simp) (by rw [hb]; rfl)

end Flate.Props
