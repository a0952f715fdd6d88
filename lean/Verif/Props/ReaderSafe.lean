/-
What holds of every run of the Reader's goroutine, whatever the input and whenever `Close` is called: C09, C35, C45, C52; and what can be said about runs
which end in an error: C34, C46, C47.
-/
import Verif.Props.ReadExamples
import Verif.Proof.RPanic

namespace Flate.Props
open Flate.Spec Flate.Model Flate.Model.Rd Flate.Proof Flate.Proof.R

/-- The goroutine's parameters if `Close` may be called: `stop n = some k` means that during the n-th flush of decoded data a `Close` takes effect,
after `k` bytes. -/
def RSetup.envStop (c : RSetup) (stop : Nat → Option Nat) : Env := { c.env with stop := stop }

theorem RSetup.OK.lib {c : RSetup} (h : c.OK) (stop : Nat → Option Nat) : LibOK (c.envStop stop) :=
  ⟨h.lawful, by rcases h.word with e | e <;> · show 32 ≤ c.W; omega⟩

/-- Somewhere in the input is a gzip header (RFC 1952) with an extra field `raw` which is not a sequence of subfields (followed by at most three more bytes). -/
def MalformedExtra (bytes : List UInt8) : Prop :=
  ∃ (pre : List UInt8) (flags : UInt8) (fixed raw post : List UInt8), bytes = pre ++ ([0x1f, 0x8b, 8, flags] ++ fixed ++ leBytes 2 raw.length ++ raw ++ post) ∧
    fixed.length = 6 ∧ flags.toNat &&& 4 ≠ 0 ∧ raw.length < 65536 ∧ ¬ ExtraOK raw

theorem run_safe {c : RSetup} (h : c.OK) (src : Src) (stop : Nat → Option Nat) (closed : Bool) :
    (∃ s, readThread (c.envStop stop) (start src closed) = .ok ((), s) ∧ Past (start src closed) s ∧ s.out.errorWasSet = true) ∨
    (readThread (c.envStop stop) (start src closed) = .error .bounds ∧ (c.o.format = .gzip ∨ c.o.format = .default) ∧ MalformedExtra src.bytes) := by
  refine safe_readThread (h.lib stop) src closed ?_
  rintro ⟨h0, pre, hdr, raw, post, h1, ⟨f, r, rfl, h2, _, h3⟩, h4, h5⟩
  exact ⟨h0, pre, f, r, raw, post, by rw [← h1]; simp [allB], h2, h3, h4, h5⟩

/-! ### C09, C52 -/

/-- **C09 (partial).** Whatever the input, its pieces and the options, and whenever `Close` is called: the goroutine does not panic, except (with an index out of range) if
the Reader may be reading gzip and the input contains a gzip header with a malformed extra field.  (`C09_fails`: then it can panic.) -/
theorem C09_partial {c : RSetup} (h : c.OK) (src : Src) (stop : Nat → Option Nat) (closed : Bool)
    (hx : c.o.format = .raw ∨ c.o.format = .zlib ∨ ¬ MalformedExtra src.bytes) :
    ∃ s, readThread (c.envStop stop) (start src closed) = .ok ((), s) := by
  rcases run_safe h src stop closed with ⟨s, e, _⟩ | ⟨_, h1, h2⟩
  · exact ⟨s, e⟩
  · rcases hx with hx | hx | hx
    · rw [hx] at h1; simp at h1
    · rw [hx] at h1; simp at h1
    · exact absurd h2 hx

/-- **C09 is false, in general**: a Reader which takes the input for gzip — because the format was given as an option, or because the first piece of the input begins with the
magic number — panics on EVERY input beginning with a header whose extra field is malformed: whatever the other options, the rest of the header and of the input, and its pieces. -/
theorem C09_panics {c : RSetup} (h : c.OK) (src : Src) (hf : c.o.format = .gzip ∨ c.o.format = .default ∧ [0x1f, 0x8b] <+: src.first)
    {flags : UInt8} {fixed raw post : List UInt8} (hb : src.bytes = [0x1f, 0x8b, 8, flags] ++ fixed ++ leBytes 2 raw.length ++ raw ++ post) (h6 : fixed.length = 6)
    (h0 : flags.toNat < 32) (h4 : flags.toNat &&& 4 ≠ 0) (hl : raw.length < 65536) (hx : ¬ ExtraOK raw) :
    readThread c.env (start src false) = .error .bounds := by
  have hlen : (fixed.take 4).length = 4 := by simp [h6]
  have h2 : (fixed.drop 4).length = 2 := by simp [h6]
  obtain ⟨x, o, hxo⟩ : ∃ x o, fixed.drop 4 = [x, o] := by
    generalize fixed.drop 4 = l at h2
    rcases l with _ | ⟨x, _ | ⟨o, _ | ⟨_, _⟩⟩⟩ <;> simp at h2
    exact ⟨x, o, rfl⟩
  have hfix : fixed = leBytes 4 (leVal (fixed.take 4)) ++ [x, o] := by
    have : leBytes 4 (leVal (fixed.take 4)) = fixed.take 4 := by rw [← hlen, hlen]; have := leBytes_leVal (fixed.take 4); rwa [hlen] at this
    rw [this, ← hxo, List.take_append_drop]
  refine thread_panics h.env src ?_ ⟨flags.toNat, leVal (fixed.take 4), x, o, leBytes 2 raw.length ++ raw ++ post, h0, ?_, h4, ?_, raw, post, rfl, hl, hx⟩
  · show detect c.o.format src.first = _
    rcases hf with hf | ⟨hf, hp⟩
    · rw [hf]; rfl
    · rw [hf]
      obtain ⟨t, ht⟩ := hp
      rw [← ht]; simp [detect]
  · have := leVal_lt (fixed.take 4)
    rw [hlen] at this
    exact this
  · rw [hb]
    unfold gzPrefix
    rw [UInt8.ofNat_toNat]
    conv_lhs => rw [hfix]
    simp

/-- **C52.** Whatever the input and whenever `Close` is called, the goroutine terminates: it needs no more rounds of any of its loops than the model allows, where
the number of streams is limited by the number of input bytes, and the numbers of blocks and of symbols by the number of input bits. -/
theorem C52_terminates {c : RSetup} (h : c.OK) (src : Src) (stop : Nat → Option Nat) (closed : Bool) :
    readThread (c.envStop stop) (start src closed) ≠ .error .fuel := by
  rcases run_safe h src stop closed with ⟨s, e, _⟩ | ⟨e, _⟩ <;> rw [e] <;> simp

/-! ### C45 -/

/-- **C45 (the goroutine's part).** At most one error is recorded; if `Close` is not called, exactly one. -/
theorem C45_once {c : RSetup} (h : c.OK) {src : Src} {stop : Nat → Option Nat} {closed : Bool} {s : RState}
    (hr : readThread (c.envStop stop) (start src closed) = .ok ((), s)) :
    s.out.acts.countP isErr ≤ 1 ∧ (s.out.stopIsForced = false → s.out.acts.countP isErr = 1) := by
  rcases run_safe h src stop closed with ⟨s', e, m, hset⟩ | ⟨e, _⟩
  · rw [hr] at e; cases e
    obtain ⟨l, l1, _, l3, l4⟩ := m.out.acts
    have : s.out.acts = l := l1
    rw [this]
    refine ⟨?_, fun hs => ?_⟩
    · have : s.out.errorWasSet.toNat ≤ 1 := by cases s.out.errorWasSet <;> decide
      omega
    · have h5 := (l4 hs).1
      rw [hset] at h5
      have : (start src closed).out.errorWasSet = false := by
        cases closed with
        | false => rfl
        | true => have := m.out.stop rfl; rw [this] at hs; cases hs
      rw [this] at h5
      simp at h5; omega
  · rw [hr] at e; cases e

/-! ### C35 -/

/-- **C35 (Reader).** The counters in every event are the numbers of bytes consumed and delivered when it was sent: the output counter is the number of bytes delivered by
the first of the goroutine's actions; both never decrease; the input counter never exceeds the number of bytes of the input. -/
theorem C35_reader {c : RSetup} (h : c.OK) {src : Src} {stop : Nat → Option Nat} {closed : Bool} {s : RState}
    (hr : readThread (c.envStop stop) (start src closed) = .ok ((), s)) :
    (∀ e ∈ s.events, e.inTotal ≤ s.inp.inTotal ∧ ∃ acts, acts <+: s.out.acts ∧ e.outTotal = (actData acts).length) ∧
    s.events.Pairwise (fun a b => a.inTotal ≤ b.inTotal ∧ a.outTotal ≤ b.outTotal) ∧
    (∃ used rest, src.bytes = used ++ rest ∧ s.inp.inTotal = used.length) ∧ s.out.outTotal = (actData s.out.acts).length := by
  rcases run_safe h src stop closed with ⟨s', e, m, hset⟩ | ⟨e, _⟩
  · rw [hr] at e; cases e
    obtain ⟨used, u1, u2⟩ := m.took
    obtain ⟨l, l1, l2, l3⟩ := m.ev
    have hl : s.events = l := l1
    obtain ⟨acts, a1, a2, _⟩ := m.out.acts
    have ha : s.out.acts = acts := a1
    rw [hl]
    refine ⟨fun e he => ?_, l3, ⟨used, allB s.inp, u1, by rw [u2]; simp [start]⟩, by rw [ha, a2]; simp [start]⟩
    obtain ⟨_, q2, p, q, q3, q4⟩ := l2 e he
    exact ⟨q2, p, ⟨q, by rw [q3]; rfl⟩, by rw [q4]; simp [start]⟩
  · rw [hr] at e; cases e

/-! ### C46, C47, C34 -/

/-- **C46 (partial).** All bytes which are delivered before an error are the content of complete streams at the beginning of the input, `ps`, and what blocks at the beginning of
the next one decode to.  (`C46_fails`: more can be delivered after the error.) -/
theorem C46_partial {c : RSetup} (h : c.OK) {src : Src} {s : RState} (hr : c.Runs src s) {ds : List (List UInt8)} {e : Err} {post : List Act}
    (ha : s.out.acts = ds.map .data ++ .err e :: post) :
    ∃ (used rest : List UInt8) (datas : List (List UInt8)) (k : Container) (p : List UInt8), src.bytes = used ++ rest ∧
      StreamsOf (fun b d => ∃ k, (c.o.format = fmtOf k ∨ c.o.format = .default) ∧ c.Stream k b d) used datas ∧
      PartOf c.ok (2 ^ c.o.wbits) c.o.dict k rest p ∧ ds.flatten <+: datas.flatten ++ p := by
  obtain ⟨l, r, hl, hf, hst, hc⟩ := run_sound h.env src
  obtain ⟨used, u1, u2, u3⟩ := items_streams hl
  have inj : ∀ {ds ds' : List (List UInt8)} {e e' : Err} {p p' : List Act}, ds.map Act.data ++ .err e :: p = ds'.map Act.data ++ .err e' :: p' → ds = ds' := by
    intro ds
    induction ds with
    | nil =>
      intro ds' e e' p p' h
      rcases ds' with _ | ⟨d, ds'⟩
      · rfl
      · simp at h
    | cons d ds ih =>
      intro ds' e e' p p' h
      rcases ds' with _ | ⟨d', ds'⟩
      · simp at h
      · simp only [List.map_cons, List.cons_append, List.cons.injEq, Act.data.injEq] at h
        rw [h.1, ih h.2]
  have hdat : (l.map (·.data)).flatten = datas l := by simp [datas, List.flatMap]
  unfold RSetup.Runs at hr
  rcases hc with ⟨s', ds', h1, h2, h3, _⟩ | ⟨c', p, _, _, _, _, hp, ⟨s', ds', e', post', h1, h2, _, _, h4, _⟩ | ⟨h1, _⟩⟩ | ⟨h1, _⟩
  · rw [h1] at hr; cases hr
    rw [ha] at h2
    have := inj h2
    subst this
    exact ⟨used, r, l.map (·.data), .raw, [], u1, by simpa using u3 [] [] .nil, Or.inl rfl, by rw [hdat, ← h3]; simp⟩
  · rw [h1] at hr; cases hr
    rw [ha] at h2
    have := inj h2
    subst this
    exact ⟨used, r, l.map (·.data), c', p, u1, by simpa using u3 [] [] .nil, hp, by rw [hdat]; exact h4⟩
  · rw [h1] at hr; cases hr
  · rw [h1] at hr; cases hr

/-- **C47 (partial).** If the source fails with `e`, then the Reader reports either `e` itself or that the input is corrupt; it never reports `io.EOF`, nor any other
error.  (`C47_fails`: it may say that the input is corrupt although it is not.) -/
theorem C47_partial {c : RSetup} (h : c.OK) {src : Src} {s : RState} (hr : c.Runs src s) (he : src.err ≠ .eof) :
    ∃ e, actErr s.out.acts = some e ∧ (e = src.err ∨ ∃ a b m, e = .corrupt a b m) := by
  obtain ⟨l, r, hl, hf, hst, hc⟩ := run_sound h.env src
  have hactErr : ∀ (ds : List (List UInt8)) (e : Err) (post : List Act), actErr (ds.map Act.data ++ .err e :: post) = some e := by
    intro ds e post
    induction ds with
    | nil => rfl
    | cons d ds ih => simpa [actErr] using ih
  unfold RSetup.Runs at hr
  rcases hc with ⟨s', ds', h1, h2, h3, _⟩ | ⟨c', p, _, _, _, _, hp, ⟨s', ds', e', post', h1, h2, h3, _⟩ | ⟨h1, _⟩⟩ | ⟨h1, _⟩
  · rw [h1] at hr; cases hr
    exact ⟨src.err, by rw [h2, hactErr], Or.inl rfl⟩
  · rw [h1] at hr; cases hr
    refine ⟨e', by rw [h2, hactErr], ?_⟩
    rcases h3 with h3 | h3
    · left; rw [h3]; unfold propErr; rw [if_neg he]
    · exact Or.inr h3
  · rw [h1] at hr; cases hr
  · rw [h1] at hr; cases hr

/-- the kinds of a run's events -/
def evKinds (s : RState) : List EvKind := s.events.map (·.kind)

/-- **C34 (partial).** If reading ends with `io.EOF`, the events are exactly those of the streams read, in order, each of them complete, with the checksums of the
content in its footer event. -/
theorem C34_partial {c : RSetup} (h : c.OK) {src : Src} {s : RState} (hr : c.Runs src s) (he : actErr s.out.acts = some .eof) :
    ∃ (sts : List (List EvKind × List UInt8)), evKinds s = sts.flatMap Prod.fst ∧ actData s.out.acts = sts.flatMap Prod.snd ∧
      ∀ st ∈ sts, StreamTrace st.1 ∧ ∃ a x, EvKind.streamEnd a x ∈ st.1 ∧ a.toNat = adler32 st.2 ∧ x = crc32 st.2 := by
  obtain ⟨l, r, hl, hf, hst, hc⟩ := run_sound h.env src
  have hactErr : ∀ (ds : List (List UInt8)) (e : Err) (post : List Act), actErr (ds.map Act.data ++ .err e :: post) = some e := by
    intro ds e post
    induction ds with
    | nil => rfl
    | cons d ds ih => simpa [actErr] using ih
  have hactData : ∀ (ds : List (List UInt8)) (e : Err), actData (ds.map Act.data ++ [.err e]) = ds.flatten := by
    intro ds e
    induction ds with
    | nil => rfl
    | cons d ds ih => simp [actData, ih]
  have hval : ∀ {l : List RItem} {w r : List UInt8}, Items c.env l w r → ∀ it ∈ l, it.Valid c.env := by
    intro l w r hl
    induction hl with
    | nil r => simp
    | cons h1 h2 h3 ih => intro it hit; rcases List.mem_cons.1 hit with rfl | hh; exacts [h1, ih it hh]
  unfold RSetup.Runs at hr
  rcases hc with ⟨s', ds', h1, h2, h3, _, h5, _⟩ | ⟨c', p, _, _, _, _, hp, ⟨s', ds', e', post', h1, h2, h3, _⟩ | ⟨h1, _⟩⟩ | ⟨h1, _⟩
  · rw [h1] at hr; cases hr
    refine ⟨l.map fun it => (it.ks, it.data), ?_, ?_, ?_⟩
    · show kinds s = _
      rw [h5]; simp [List.flatMap, Function.comp_def]
    · rw [h2, hactData, h3]; simp [datas, List.flatMap, Function.comp_def]
    · intro st hs
      obtain ⟨it, hit, rfl⟩ := List.mem_map.1 hs
      obtain ⟨_, _, hev⟩ := hval hl it hit
      refine ⟨hev.trace, ?_⟩
      obtain ⟨bks, a, x, _, h7, h8, h9⟩ := hev
      exact ⟨a, x, by simp [h9, endEvents], h7, h8⟩
  · rw [h1] at hr; cases hr
    rw [h2, hactErr] at he
    exact absurd (by simpa using he) h3.ne_eof
  · rw [h1] at hr; cases hr
  · rw [h1] at hr; cases hr

/-- **C34 is false** of corrupt input: a stream which is not valid at all is reported as completed. -/
theorem C34_fails : ∃ (src : Src) (s : RState), (rdemo [.format .raw]).Fills src ∧ (rdemo [.format .raw]).Runs src s ∧ ¬ TracePrefix (evKinds s) ∧
    evKinds s = [.streamBegin, .streamHeader { compressLevel := -1 }, .blockBegin .invalid true, .streamEnd 1 0, .streamClose] := by
  have h1 : (match readThread (rdemo [.format .raw]).env (start ⟨[], [7], .eof⟩ false) with | .ok (_, s) => some (evKinds s) | .error _ => none) =
    some [.streamBegin, .streamHeader { compressLevel := -1 }, .blockBegin .invalid true, .streamEnd 1 0, .streamClose] := by decide +kernel
  split at h1
  · rename_i u s e
    refine ⟨⟨[], [7], .eof⟩, s, ⟨by simp, by decide⟩, e, ?_, Option.some.inj h1⟩
    rw [Option.some.inj h1]
    rintro ⟨streams, rest, g1, g2⟩
    have hm : EvKind.blockBegin .invalid true ∈ streams.flatten := by rw [← g2]; simp
    obtain ⟨st, hst, hm⟩ := List.mem_flatten.1 hm
    have hb : ∀ {f : Bool} {b : List EvKind}, BlockTrace f b → EvKind.blockBegin .invalid true ∉ b := by
      intro f b hb; cases hb <;> simp
    obtain ⟨hd, blocks, last, a, x, q1, q2⟩ := g1 st hst
    simp only [List.mem_append, List.mem_flatten] at hm
    rcases hm with ((hm | ⟨b, hb1, hb2⟩) | hm) | hm
    · simp at hm
    · exact hb (q1 b hb1) hb2
    · exact hb q2 hm
    · simp at hm
  · cases h1

/-! ### the hypotheses can be met -/

/-- a run to a clean end of file (C34, C35, C45) -/
example : ∃ s, (rdemo [.format .gzip]).Runs ⟨[], storedGz [65, 66], .eof⟩ s ∧ actErr s.out.acts = some .eof ∧ actData s.out.acts = [65, 66] := by
  have h1 : acts? (readThread (rdemo [.format .gzip]).env (start ⟨[], storedGz [65, 66], .eof⟩ false)) = some [.data [65, 66], .err .eof] := by decide +kernel
  obtain ⟨s, r1, a1⟩ := acts?_some h1
  exact ⟨s, r1, by rw [a1]; rfl, by rw [a1]; rfl⟩

/-- a run in which data is followed by an error (C46): the checksum is wrong -/
example : ∃ s a b m, (rdemo [.format .gzip]).Runs ⟨[], (storedGz [65, 66]).take 17 ++ [0, 0, 0, 0, 2, 0, 0, 0], .eof⟩ s ∧
    s.out.acts = [[65, 66]].map .data ++ .err (.corrupt a b m) :: [] := by
  have h1 : acts? (readThread (rdemo [.format .gzip]).env (start ⟨[], (storedGz [65, 66]).take 17 ++ [0, 0, 0, 0, 2, 0, 0, 0], .eof⟩ false)) =
    some [.data [65, 66], .err (.corrupt 25 25 (.gzipSum 0 812207111))] := by decide +kernel
  obtain ⟨s, r1, a1⟩ := acts?_some h1
  exact ⟨s, _, _, _, r1, a1⟩

/-- a source which fails (C47) -/
example : ∃ s, (rdemo [.format .gzip]).Runs ⟨[], (storedGz [65, 66]).take 17, .io 5⟩ s ∧ actErr s.out.acts = some (.io 5) := by
  have h1 : acts? (readThread (rdemo [.format .gzip]).env (start ⟨[], (storedGz [65, 66]).take 17, .io 5⟩ false)) = some [.data [65, 66], .err (.io 5)] := by decide +kernel
  obtain ⟨s, r1, a1⟩ := acts?_some h1
  exact ⟨s, r1, by rw [a1]; rfl⟩

/-- a `Close` during the first flush (C09, C52): the goroutine ends without an error of its own -/
example : acts? (readThread ((rdemo [.format .gzip]).envStop fun n => if n = 0 then some 1 else none) (start ⟨[], storedGz [65, 66], .eof⟩ false)) = some [.data [65]] := by
  decide +kernel

/-- C09_panics: a header recognised as gzip, arriving in two pieces, whose extra field of 8 bytes consists of a good subfield and one which claims to have 2 bytes and has none -/
example : readThread (rdemo [.dict (some [1, 2])]).env (start ⟨[(0x1f, [0x8b, 8, 4, 0])], [0, 0, 0, 0, 255, 8, 0, 65, 65, 0, 0, 66, 66, 2, 0, 7, 7], .io 3⟩ false) = .error .bounds := by
  refine C09_panics (rdemo_ok (by simp [Opt.valid])) _ (Or.inr ⟨rfl, by decide⟩) (flags := 4) (fixed := [0, 0, 0, 0, 0, 255]) (raw := [65, 65, 0, 0, 66, 66, 2, 0]) (post := [7, 7])
    (by decide) rfl (by decide) (by decide) (by decide) fun hx => ?_
  have h : parseExtra [65, 65, 0, 0, 66, 66, 2, 0] [] = .error .bounds := by rfl
  rcases parseExtra_spec [65, 65, 0, 0, 66, 66, 2, 0] with ⟨_, e, _⟩ | ⟨_, h2⟩
  · rw [h] at e; cases e
  · exact h2 hx

end Flate.Props
