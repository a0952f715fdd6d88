/-
The program cmd/gzip, decompressing (C55), and the pipeline (C56).
-/
import Verif.Proof.Gunzip
import Verif.Props.Gzip
import Verif.Props.Recognise

namespace Flate.Props
open Flate.Spec Flate.Model Flate.Model.Rd Flate.Model.Conc Flate.Model.Gz Flate.Model.Text Flate.Proof Flate.Proof.R Flate.Proof.Cc

/-! ### every run ends -/

def pcRank : DPc → Nat
  | .copy => 5
  | .read => 4
  | .copied => 3
  | .close => 2
  | .exit _ => 1

def dRank (script : List Act) (s : DSt) : Nat := 2 * ((actData script).length - (got s.rd.log).length) + pcRank s.pc

theorem got_closed (log : List (Nat × Res)) (i : Nat) : got (log ++ [(i, .closed)]) = got log := by simp [got]

theorem dinv_got {cap : Nat} {script : List Act} {s : St} (hcap : 0 < cap) (h : Reach NoReset cap script 1 s) : (got s.log).length ≤ (actData script).length := by
  have h1 := C39_prefix hcap h
  have h2 := reach_source h
  rw [(good hcap (fun _ h => h) h).sc] at h2
  rw [← h2] at h1
  exact h1.length_le

theorem dstep_rank {cap : Nat} {script : List Act} {k0 : Sink} {s t : DSt} (hcap : 0 < cap) (i : DInv cap script k0 s) (h : DStep s t) :
    (∃ l, Internal l ∧ Step s.rd l t.rd ∧ dRank script t = dRank script s) ∨ dRank script t < dRank script s := by
  have i' := i.step hcap h
  have hg := dinv_got hcap i'.nr
  cases h with
  | callRead hpc hs =>
    right
    have hl : ∀ {c : St}, Step s.rd (.callRead 0 copyBuf) c → c.log = s.rd.log := by intro c h; cases h; rfl
    simp only [dRank, hpc, pcRank, hl hs]; omega
  | callClose hpc hs =>
    right
    have hl : ∀ {c : St}, Step s.rd (.callClose 0) c → c.log = s.rd.log := by intro c h; cases h; rfl
    simp only [dRank, hpc, pcRank, hl hs]; omega
  | inside hne hl hs hlog =>
    left
    exact ⟨_, hl, hs, by simp only [dRank, hlog]⟩
  | readRet hpc hl hs hlog =>
    right
    rename_i c l p e
    have hgs : (got c.log).length = (got s.rd.log).length + p.length := by rw [hlog, got_snoc]; simp
    dsimp only at hg
    obtain ⟨m, hm, _, hne, _⟩ := C39_sizes hcap i.nr hs hlog
    have hp := i.pcs
    rw [hpc] at hp
    obtain ⟨_, ⟨c0, h2, h3⟩, _⟩ := hp
    have hm0 : m = copyBuf := by
      rw [h2] at hm
      rcases hm with hm | hm
      · obtain ⟨_, rfl⟩ := one_get hm
        have : CKind.read m = .read copyBuf := h3
        injection this
      · obtain ⟨_, rfl⟩ := one_get hm
        have : CKind.read m = .read copyBuf := h3
        injection this
    have hpl : (afterRead p e s.out).1 = .copy → 0 < p.length := by
      intro ha
      have : e = none := by
        cases e with
        | none => rfl
        | some x =>
          exfalso
          unfold afterRead at ha
          split at ha
          · cases ha
          · cases x <;> cases ha
      exact List.length_pos_iff.2 (hne this (by rw [hm0]; decide))
    have hnr : (afterRead p e s.out).1 ≠ .read := by
      unfold afterRead
      split
      · simp
      · rcases e with _ | x
        · simp
        · cases x <;> simp
    simp only [dRank, hpc]
    generalize (afterRead p e s.out).1 = pc at hpl hnr
    cases pc with
    | copy => have := hpl rfl; simp only [pcRank]; omega
    | read => exact absurd rfl hnr
    | copied => simp only [pcRank]; omega
    | close => simp only [pcRank]; omega
    | exit n => simp only [pcRank]; omega
  | closeRet hpc hl hs hlog =>
    right
    simp only [dRank, hpc, pcRank, hlog, got_closed]; omega

theorem d_no_infinite {cap : Nat} {script : List Act} {k0 : Sink} (hcap : 0 < cap) (he : actErr script ≠ none) :
    ∀ (n : Nat) (s : DSt), dRank script s ≤ n → DInv cap script k0 s → ¬ ∃ f : Nat → DSt, f 0 = s ∧ ∀ k, DStep (f k) (f (k + 1)) := by
  intro n
  induction n with
  | zero =>
    rintro s hn i _
    have : 1 ≤ pcRank s.pc := by cases s.pc <;> simp [pcRank]
    unfold dRank at hn
    omega
  | succ n ih =>
    rintro s hn i ⟨f, h0, hf⟩
    have inv : ∀ k, DInv cap script k0 (f k) := by
      intro k
      induction k with
      | zero => rw [h0]; exact i
      | succ k ih => exact ih.step hcap (hf k)
    by_cases hall : ∀ k, ∃ l, Internal l ∧ Step (f k).rd l (f (k + 1)).rd
    · exact (C42_live hcap he i.nr).1 ⟨fun k => (f k).rd, congrArg DSt.rd h0, hall⟩
    · obtain ⟨k, hk⟩ := Classical.not_forall.1 hall
      have mono : ∀ k, dRank script (f k) ≤ dRank script s := by
        intro k
        induction k with
        | zero => rw [h0]
        | succ k ih =>
          rcases dstep_rank hcap (inv k) (hf k) with ⟨_, _, _, e⟩ | e <;> omega
      rcases dstep_rank hcap (inv k) (hf k) with ⟨l, h1, h2, _⟩ | e
      · exact hk ⟨l, h1, h2⟩
      · have := mono k
        exact ih (f (k + 1)) (by omega) (inv (k + 1)) ⟨fun j => f (k + 1 + j), rfl, fun j => hf (k + 1 + j)⟩

theorem d_progress {cap : Nat} {script : List Act} {k0 : Sink} {s : DSt} (hcap : 0 < cap) (he : actErr script ≠ none) (i : DInv cap script k0 s)
    (hx : ∀ n, s.pc ≠ .exit n) : ∃ t, DStep s t := by
  have hp := i.pcs
  have live := (C42_live hcap he i.nr).2 s.rd .refl
  cases hpc : s.pc with
  | exit n => exact absurd hpc (hx n)
  | copy =>
    rw [hpc] at hp
    obtain ⟨_, ⟨c, h2, h3⟩, _⟩ := hp
    have := idle_of_kind h3
    subst this
    exact ⟨_, .callRead hpc (.callRead copyBuf (by rw [h2]; rfl))⟩
  | copied =>
    rw [hpc] at hp
    obtain ⟨⟨c, h2, h3⟩, _⟩ := hp
    have := idle_of_kind h3
    subst this
    exact ⟨_, .callClose hpc (.callClose (by rw [h2]; rfl))⟩
  | read =>
    rw [hpc] at hp
    obtain ⟨_, ⟨c, h2, h3⟩, _⟩ := hp
    obtain ⟨l, u, h4, h5⟩ := live ⟨c, by rw [h2]; simp, by rintro rfl; cases h3⟩
    obtain ⟨c', _, ⟨e, _⟩ | ⟨_, ⟨_, _, _, _, e⟩ | ⟨e, _⟩⟩⟩ := single_step h4 h5 h2 (by rw [h3]; simp)
    · exact ⟨_, .inside hx h5 h4 e⟩
    · exact ⟨_, .readRet hpc h5 h4 e⟩
    · rw [h3] at e; cases e
  | close =>
    rw [hpc] at hp
    obtain ⟨⟨c, h2, h3⟩, _⟩ := hp
    obtain ⟨l, u, h4, h5⟩ := live ⟨c, by rw [h2]; simp, by rintro rfl; cases h3⟩
    obtain ⟨c', _, ⟨e, _⟩ | ⟨_, ⟨_, _, _, e, _⟩ | ⟨_, e⟩⟩⟩ := single_step h4 h5 h2 (by rw [h3]; simp)
    · exact ⟨_, .inside hx h5 h4 e⟩
    · rw [h3] at e; cases e
    · exact ⟨_, .closeRet hpc h5 h4 e⟩

/-! ### C55 -/

/-- The program decompresses `src` and writes to `k`: after some steps it is in state `t`. -/
def RSetup.Gunzips (c : RSetup) (src : Src) (k : Sink) (t : DSt) : Prop := ∃ s, c.Runs src s ∧ DSteps (dStart c.o s.out.acts k) t

theorem RSetup.Gunzips.inv {c : RSetup} {src : Src} {k : Sink} {t : DSt} (h : c.Gunzips src k t) : ∃ s, c.Runs src s ∧ DInv (2 ^ (c.o.mlevel + 6)) s.out.acts k t := by
  obtain ⟨s, h1, h2⟩ := h
  exact ⟨s, h1, (dinv_start _ _).steps (Nat.pow_pos (by decide)) h2⟩

/-- **C55, soundness.** If the program exits successfully, then its standard input came to an end, and begins with a sequence of complete valid streams; the standard output has received
exactly their contents. -/
theorem C55_sound {c : RSetup} (h : c.OK) {src : Src} {k : Sink} {t : DSt} (ht : c.Gunzips src k t) (he : t.pc = .exit 0) :
    ∃ used rest datas, src.bytes = used ++ rest ∧ src.err = .eof ∧
      StreamsOf (fun b d => ∃ f, (c.o.format = fmtOf f ∨ c.o.format = .default) ∧ c.Stream f b d) used datas ∧ t.out.out = k.out ++ datas.flatten := by
  obtain ⟨s, h1, i⟩ := ht.inv
  have hp := i.pcs
  rw [he] at hp
  rcases hp with ⟨_, c', pre, h2, h3, h4⟩ | ⟨h2, _⟩
  · obtain ⟨used, rest, datas, e1, e2, e3, e4, _⟩ := C04_calls h (Nat.pow_pos (by decide)) ⟨s, h1, h2⟩ (pre := pre) (post := []) (i := 0) (p := []) h3
    exact ⟨used, rest, datas, e1, e2, e3, by rw [h4, e4]⟩
  · cases h2

/-- **C55, liveness.** Whatever the input and however the standard output behaves: the program cannot run forever, and it is never stuck before it exits, with status 0 or 1. -/
theorem C55_ends {c : RSetup} (h : c.OK) {src : Src} {k : Sink} {t : DSt} (ht : c.Gunzips src k t) :
    (¬ ∃ f : Nat → DSt, f 0 = t ∧ ∀ n, DStep (f n) (f (n + 1))) ∧ (t.pc = .exit 0 ∨ t.pc = .exit 1 ∨ ∃ u, DStep t u) := by
  obtain ⟨s, h1, i⟩ := ht.inv
  have he := runs_err h h1
  refine ⟨d_no_infinite (Nat.pow_pos (by decide)) he _ t (Nat.le_refl _) i, ?_⟩
  by_cases hx : ∀ n, t.pc ≠ .exit n
  · exact Or.inr (Or.inr (d_progress (Nat.pow_pos (by decide)) he i hx))
  · obtain ⟨n, hn⟩ := Classical.not_forall.1 hx
    have hn : t.pc = .exit n := Classical.not_not.1 hn
    have hp := i.pcs
    rw [hn] at hp
    rcases hp with ⟨rfl, _⟩ | ⟨rfl, _⟩
    · exact Or.inl hn
    · exact Or.inr (Or.inl hn)

/-- **C55, valid input.** At every moment, the standard output has received a prefix of the contents of the stream; if the standard output has not failed, the program does not exit with an error status, and when
it exits, everything has been written. -/
theorem C55_valid {c : RSetup} (h : c.OK) {f : Container} {src : Src} {data : List UInt8} (hT : c.Takes f src) (hS : c.Stream f src.bytes data) (hend : src.err = .eof)
    {k : Sink} (hk : ∀ n, k.wfail n = none) {t : DSt} (ht : c.Gunzips src k t) :
    (∃ d, t.out.out = k.out ++ d ∧ d <+: data) ∧ ∀ n, t.pc = .exit n → n = 0 ∧ t.out.out = k.out ++ data := by
  obtain ⟨s, h1, i⟩ := ht.inv
  have hc : 0 < 2 ^ (c.o.mlevel + 6) := Nat.pow_pos (by decide)
  have Y : ∀ c', Reach ReadOnly (2 ^ (c.o.mlevel + 6)) s.out.acts 1 c' → Yields c'.log data src.err := fun c' hr => C03_calls h hT hS hc ⟨s, h1, hr⟩
  constructor
  · obtain ⟨c', d, h2, h3, h4⟩ := i.part
    exact ⟨d, h3, h4.trans (Y c' h2).1⟩
  · intro n hn
    have hp := i.pcs
    rw [hn] at hp
    rcases hp with ⟨rfl, c', pre, h2, h3, h4⟩ | ⟨_, h2 | ⟨c', pre, e, h2, h3, h4⟩⟩
    · obtain ⟨_, _, h5, _⟩ := (Y c' h2).2 pre 0 [] .eof [] h3
      exact ⟨rfl, by rw [h4, h5]⟩
    · rw [i.safe hk] at h2; omega
    · obtain ⟨_, h5, _⟩ := (Y c' h2).2 pre 0 [] e [] h4
      rw [hend] at h5
      exact absurd h5 h3

/-- **C55, failure.** If the program exits with an error status, then the standard output has failed, or the Reader has reported an error other than the end of the file. -/
theorem C55_failure {c : RSetup} {src : Src} {k : Sink} {t : DSt} (ht : c.Gunzips src k t) (he : t.pc = .exit 1) :
    (∃ n, k.wfail n ≠ none) ∨ ∃ s e, c.Runs src s ∧ actErr s.out.acts = some e ∧ e ≠ .eof := by
  obtain ⟨s, h1, i⟩ := ht.inv
  have hp := i.pcs
  rw [he] at hp
  rcases hp with ⟨h2, _⟩ | ⟨_, h2 | ⟨c', pre, e, h2, h3, h4⟩⟩
  · cases h2
  · left
    refine Classical.byContradiction fun hn => ?_
    have : ∀ n, k.wfail n = none := fun n => Classical.byContradiction fun h => hn ⟨n, h⟩
    rw [i.safe this] at h2
    omega
  · exact Or.inr ⟨s, e, h1, (C45_first (Nat.pow_pos (by decide)) h2 (i := 0) (p := []) (by rw [h4]; simp)).2, h3⟩

/-- **C55, truncated input.** If the input is cut off, the program does not exit successfully. -/
theorem C55_truncated {c : RSetup} (h : c.OK) {f : Container} {src : Src} {S data x : List UInt8} (hT : c.Takes f src) (hS : c.Stream f S data)
    (hb : src.bytes ++ x = S) (h0 : src.bytes ≠ []) (hx : x ≠ []) {k : Sink} {t : DSt} (ht : c.Gunzips src k t) : t.pc ≠ .exit 0 := by
  intro he
  obtain ⟨s, h1, i⟩ := ht.inv
  have hp := i.pcs
  rw [he] at hp
  rcases hp with ⟨_, c', pre, h2, h3, h4⟩ | ⟨h2, _⟩
  · obtain ⟨e, h5, h6⟩ := C05_calls h hT hS hb h0 hx (Nat.pow_pos (by decide)) ⟨s, h1, h2⟩
    exact h5 (h6 0 [] .eof (by rw [h3]; simp)).symm
  · cases h2

/-- **C55 (flags).** What the flags of `gzip -d` mean, if the program gets as far as reading its input: the streams are to be of the format asked for (of any format if none is), their windows
at most as large as asked for (32 KiB), and the dictionary is the argument of `--dictionary`, or the contents of the file which it names.  Flags about compression have no meaning. -/
theorem C55_flags {f : Flags} (hm : f.decompress = true) {readFile : List UInt8 → Option (List UInt8)} {opts : List Opt} (hp : prepare f readFile = .go opts) :
    (∀ (L : HuffLib) W clip, L.Lawful → W = 32 ∨ W = 64 → RSetup.OK ⟨L, W, clip, opts⟩) ∧ (ROptions.new opts).format = f.format ∧
      2 ^ (ROptions.new opts).wbits = (if f.wbits = 0 then 32768 else 2 ^ f.wbits) ∧
      (f.dict = [] ∧ (ROptions.new opts).dict = none ∨
        (∃ name d, f.dict = 0x40 :: name ∧ readFile name = some d ∧ (ROptions.new opts).dict = some d) ∨
        f.dict ≠ [] ∧ f.dict.head? ≠ some 0x40 ∧ (ROptions.new opts).dict = some f.dict) := by
  unfold prepare at hp
  rcases hd : f.dictionary readFile with _ | d
  · rw [hd] at hp; cases hp
  rw [hd] at hp
  simp only at hp
  split at hp
  · split at hp
    · rename_i hv
      injection hp with e
      subst e
      have o1 : (ROptions.new (f.opts d)).format = f.format ∧ (ROptions.new (f.opts d)).dict = d ∧ (ROptions.new (f.opts d)).wbits = (if f.wbits = 0 then 15 else f.wbits) := by
        rcases d with _ | d <;> simp [Flags.opts, Flags.fmt, Options.apply, Opt.apply, Options.readerDefaults, Flate.Model.Rd.ROptions.new, Flate.Model.Rd.ROptions.take, hm]
      refine ⟨fun L W clip hl hw => ⟨hl, hw, List.all_eq_true.1 hv⟩, o1.1, ?_, ?_⟩
      · rw [o1.2.2]; split <;> rfl
      · rw [o1.2.1]
        unfold Flags.dictionary at hd
        rcases hf : f.dict with _ | ⟨a, name⟩
        · rw [hf] at hd
          exact Or.inl ⟨rfl, (Option.some.inj hd).symm⟩
        · rw [hf] at hd
          simp only at hd
          right
          by_cases ha : a = 0x40
          · rw [if_pos ha] at hd
            rcases hr : readFile name with _ | x
            · rw [hr] at hd; cases hd
            · rw [hr] at hd
              exact Or.inl ⟨name, x, by rw [ha], hr, (Option.some.inj hd).symm⟩
          · rw [if_neg ha] at hd
            exact Or.inr ⟨by simp, by simpa using ha, (Option.some.inj hd).symm⟩
    · cases hp
  · cases hp

example : (ROptions.new [.tracers [0], .format .zlib, .strategy .default, .clevel 9, .mlevel 0, .wbits 9, .dict (some [1, 2])]).dict = some [1, 2] := by
  have hp : prepare { format := .zlib, wbits := 9, decompress := true, digit := fun n => n == 9, dict := [0x40, 0x78] } (fun n => if n = [0x78] then some [1, 2] else none) =
    .go [.tracers [0], .format .zlib, .strategy .default, .clevel 9, .mlevel 0, .wbits 9, .dict (some [1, 2])] := by rfl
  rcases (C55_flags rfl hp).2.2.2 with ⟨h, _⟩ | ⟨name, d, h1, h2, h3⟩ | ⟨_, h, _⟩
  · cases h
  · injection h1 with _ h1
    rw [h3, ← h2, ← h1]
    rfl
  · exact absurd rfl h

/-! ### C56 -/

/-- the format of what the first program has written can be seen -/
theorem compress_recognised {c : Setup} {f : Flags} {d : Option (List UInt8)} (h : GzSetup c f d) {stdin : Stdin} {w : WState} (hr : compress c.L f.header stdin c.start = .ok (true, w)) :
    autodetect w.sink.out = gzContainer f := by
  obtain ⟨_, _, rs, h2, h3⟩ := compress_run hr
  obtain ⟨ps, h4, h5, -, h6⟩ := C104_recognised h.ok (gzOps_close f stdin) h2 h3
  rw [gzOps_segs] at h5
  rw [h.empty, List.nil_append] at h4
  have : container c.o.format = gzContainer f := by
    rw [h.o.1]
    unfold gzContainer
    cases f.format <;> rfl
  rw [this] at h6
  rcases ps with _ | ⟨p, _ | ⟨q, ps⟩⟩
  · cases h5
  · have := h6 p (by simp) []
    rw [h4]
    simpa using this
  · simp at h5

/-- the second program understands what the first one has written -/
theorem pipeline_takes {c : Setup} {f : Flags} {d : Option (List UInt8)} (h : GzSetup c f d) {stdin : Stdin} {w : WState} (hr : compress c.L f.header stdin c.start = .ok (true, w))
    {r : RSetup} (hL : r.L = c.L) {f' : Flags} (hm : f'.decompress = true) (ho : r.opts = f'.opts d) (hw : gzWindow f ≤ gzWindow f')
    {src : Src} (hsrc : src.bytes = w.sink.out)
    (hf : f'.format = fmtOf (gzContainer f) ∨ f'.format = .default ∧ (f.format = .raw ∨ 2 ≤ src.first.length)) :
    r.Takes (gzContainer f) src ∧ r.Stream (gzContainer f) src.bytes (stdinData stdin) := by
  obtain ⟨_, hS⟩ := C54_compress h hr
  have o1 : r.o.format = f'.format ∧ r.o.dict = d ∧ 2 ^ r.o.wbits = gzWindow f' := by
    unfold RSetup.o gzWindow
    rw [ho]
    rcases d with _ | d <;> simp [Flags.opts, Flags.fmt, Options.apply, Opt.apply, Options.readerDefaults, Flate.Model.Rd.ROptions.new, Flate.Model.Rd.ROptions.take, hm]
  have hS' : r.Stream (gzContainer f) src.bytes (stdinData stdin) := by
    unfold RSetup.Stream RSetup.ok
    rw [o1.2.1, o1.2.2, hL, hsrc]
    exact stream_win hw hS
  have hT : r.Takes (gzContainer f) src := by
    rcases hf with e | ⟨e, h2⟩
    · exact Or.inl (by rw [o1.1]; exact e)
    · refine Or.inr ⟨by rw [o1.1]; exact e, by rw [hsrc]; exact compress_recognised h hr, h2.imp (fun e => ?_) id⟩
      unfold gzContainer
      rw [e]
  exact ⟨hT, hS'⟩

/-- **C56.** `gzip FLAGS | gzip -d FLAGS'`, with the same dictionary, a window which is at least as large, and the same format or none at all: what the second program writes is always
a prefix of what the first has read, and if it exits, it does so successfully, having written all of it. -/
theorem C56_pipeline {c : Setup} {f : Flags} {d : Option (List UInt8)} (h : GzSetup c f d) {stdin : Stdin} {w : WState} (hr : compress c.L f.header stdin c.start = .ok (true, w))
    {r : RSetup} (hok : r.OK) (hL : r.L = c.L) {f' : Flags} (hm : f'.decompress = true) (ho : r.opts = f'.opts d) (hw : gzWindow f ≤ gzWindow f')
    {src : Src} (hsrc : src.bytes = w.sink.out) (hend : src.err = .eof)
    (hf : f'.format = fmtOf (gzContainer f) ∨ f'.format = .default ∧ (f.format = .raw ∨ 2 ≤ src.first.length))
    {k : Sink} (hk : ∀ n, k.wfail n = none) {t : DSt} (ht : r.Gunzips src k t) :
    (∃ p, t.out.out = k.out ++ p ∧ p <+: stdinData stdin) ∧ ∀ n, t.pc = .exit n → n = 0 ∧ t.out.out = k.out ++ stdinData stdin := by
  obtain ⟨hT, hS'⟩ := pipeline_takes h hr hL hm ho hw hsrc hf
  exact C55_valid hok hT hS' hend hk ht

/-- without infinite runs, and with progress, the program can exit -/
theorem C55_exits {c : RSetup} (h : c.OK) {src : Src} {k : Sink} {t : DSt} (ht : c.Gunzips src k t) :
    ∃ u, DSteps t u ∧ c.Gunzips src k u ∧ (u.pc = .exit 0 ∨ u.pc = .exit 1) := by
  have trans : ∀ {u v : DSt}, DSteps t u → DStep u v → c.Gunzips src k u → DSteps t v ∧ c.Gunzips src k v := by
    rintro u v h1 h2 ⟨s, h3, h4⟩
    exact ⟨.step h1 h2, s, h3, .step h4 h2⟩
  refine Classical.byContradiction fun hn => ?_
  have next : ∀ u : { u : DSt // DSteps t u ∧ c.Gunzips src k u }, ∃ v : { v : DSt // DSteps t v ∧ c.Gunzips src k v }, DStep u.1 v.1 := by
    rintro ⟨u, h1, h2⟩
    rcases (C55_ends h h2).2 with h3 | h3 | ⟨v, h3⟩
    · exact absurd ⟨u, h1, h2, Or.inl h3⟩ hn
    · exact absurd ⟨u, h1, h2, Or.inr h3⟩ hn
    · exact ⟨⟨v, trans h1 h3 h2⟩, h3⟩
  let g := fun u => Classical.choose (next u)
  have hg : ∀ u, DStep u.1 (g u).1 := fun u => Classical.choose_spec (next u)
  let f : Nat → { u : DSt // DSteps t u ∧ c.Gunzips src k u } := fun n => Nat.rec ⟨t, .refl, ht⟩ (fun _ u => g u) n
  exact (C55_ends h ht).1 ⟨fun n => (f n).1, rfl, fun n => hg (f n)⟩

/-- for a valid stream the Reader's goroutine does not panic: the program can be run -/
theorem gunzip_starts {c : RSetup} (h : c.OK) {f : Container} {src : Src} {data : List UInt8} (hT : c.Takes f src) (hS : c.Stream f src.bytes data) (k : Sink) : ∃ t, c.Gunzips src k t := by
  obtain ⟨s, _, h1, _⟩ := C03_decodes h hT hS
  exact ⟨_, s, h1, .refl⟩

/-- **C56.** Moreover the second program can be run, and exits. -/
theorem C56_exits {c : Setup} {f : Flags} {d : Option (List UInt8)} (h : GzSetup c f d) {stdin : Stdin} {w : WState} (hr : compress c.L f.header stdin c.start = .ok (true, w))
    {r : RSetup} (hok : r.OK) (hL : r.L = c.L) {f' : Flags} (hm : f'.decompress = true) (ho : r.opts = f'.opts d) (hw : gzWindow f ≤ gzWindow f')
    {src : Src} (hsrc : src.bytes = w.sink.out) (hend : src.err = .eof)
    (hf : f'.format = fmtOf (gzContainer f) ∨ f'.format = .default ∧ (f.format = .raw ∨ 2 ≤ src.first.length))
    {k : Sink} (hk : ∀ n, k.wfail n = none) : ∃ t, r.Gunzips src k t ∧ t.pc = .exit 0 ∧ t.out.out = k.out ++ stdinData stdin := by
  obtain ⟨hT, hS⟩ := pipeline_takes h hr hL hm ho hw hsrc hf
  obtain ⟨t, ht⟩ := gunzip_starts hok hT hS k
  obtain ⟨u, _, hu, hx⟩ := C55_exits hok ht
  have := (C56_pipeline h hr hok hL hm ho hw hsrc hend hf hk hu).2
  rcases hx with hx | hx
  · exact ⟨u, hu, hx, (this 0 hx).2⟩
  · exact absurd (this 1 hx).1 (by decide)

/-! ### the hypotheses can be met -/

def gzDemo (f : Flags) : Setup := ⟨refLib, 64, fun _ => none, {}, f.opts none⟩

theorem gzDemo_setup {f : Flags} (hf : GzFlagsOK f) (hm : f.decompress = false) : GzSetup (gzDemo f) f none := ⟨refLib_lawful, Or.inr rfl, hf, hm, rfl, by simp, rfl⟩

/-- `gzip -1 --filename=a | gzip -d --format=gzip` with the input `[1, 2, 3, 4]` in two pieces -/
example (f : Flags) (hf : f = { digit := fun n => n == 1, fileName := [97] }) (f' : Flags) (hf' : f' = { decompress := true, format := .gzip }) :
    ∃ w t, compress refLib f.header [([1, 2, 3], none), ([], none), ([4], some .eof)] (gzDemo f).start = .ok (true, w) ∧
      (rdemo (f'.opts none)).Gunzips ⟨[], w.sink.out, .eof⟩ {} t ∧ t.pc = .exit 0 ∧ t.out.out = [1, 2, 3, 4] := by
  have h1 : GzFlagsOK f := by subst hf; exact ⟨by decide, by decide, by decide⟩
  have h2 : GzFlagsOK f' := by subst hf'; exact ⟨by decide, by decide, by decide⟩
  have hs := gzDemo_setup h1 (by subst hf; rfl)
  have hh : HeaderOK f.header := by subst hf; exact (headerOK_iff _).1 (by decide)
  obtain ⟨w, hw⟩ := C54_succeeds hs hh ⟨fun _ => rfl, fun _ => rfl, fun _ _ h => by cases h⟩ (stdin := [([1, 2, 3], none), ([], none), ([4], some .eof)])
    (by intro x hx; simp only [List.mem_cons, List.not_mem_nil, or_false] at hx; rcases hx with rfl | rfl | rfl <;> simp [copyBuf]) rfl
  obtain ⟨t, k1, k2, k3⟩ := C56_exits hs hw (r := rdemo (f'.opts none)) (rdemo_ok (List.all_eq_true.1 ((opts_valid h2 none).2 (by simp)))) rfl (f' := f') (by subst hf'; rfl) rfl
    (by subst hf hf'; decide) (src := ⟨[], w.sink.out, .eof⟩) (by simp [Src.bytes]) rfl (Or.inl (by subst hf hf'; rfl)) (k := {}) (fun _ => rfl)
  exact ⟨w, t, hw, k1, k2, k3⟩

/-! ### C57: the flags -/

/-- the values which the `Parse` methods store -/
theorem parsed_flags (s : List Char) :
    ((clevelParse s).1 = true → -1 ≤ (clevelParse s).2 ∧ (clevelParse s).2 ≤ 9) ∧ ((mlevelParse s).1 = true → (mlevelParse s).2 ≤ 9) ∧
    ((wbitsParse s).1 = true → (wbitsParse s).2 = 0 ∨ 8 ≤ (wbitsParse s).2 ∧ (wbitsParse s).2 ≤ 15) := by
  refine ⟨?_, ?_, ?_⟩
  · unfold clevelParse
    split
    · intro _; simp
    · split
      · intro _; simp
      · cases parseUint s 10 8 with
        | none => intro h; cases h
        | some u =>
          simp only
          split
          · intro h; cases h
          · intro _; simp only; omega
  · unfold mlevelParse
    split
    · intro _; simp
    · cases parseUint s 10 8 with
      | none => intro h; cases h
      | some u =>
        simp only
        split
        · intro h; cases h
        · intro _; simp only; omega
  · unfold wbitsParse
    split
    · intro _; simp
    · cases parseUint s 10 8 with
      | none => intro h; cases h
      | some u =>
        simp only
        split
        · intro h; cases h
        · split
          · intro h; cases h
          · intro _; simp only; omega

/-- **C57 (part).** Unless the dictionary is an empty file, the flags do not make the program panic: it starts with valid options, or it exits with an error status, which happens exactly if the dictionary's file cannot be read,
or there are arguments and `--stdout` is not given. -/
theorem C57_partial {f : Flags} (h : GzFlagsOK f) (readFile : List UInt8 → Option (List UInt8)) (hd : ∀ name, f.dict = 0x40 :: name → readFile name ≠ some []) :
    ((∃ d, f.dictionary readFile = some d ∧ prepare f readFile = .go (f.opts d) ∧ (∀ x ∈ f.opts d, x.valid = true)) ∨ prepare f readFile = .fatal) ∧
    (prepare f readFile = .fatal ↔ (∃ name, f.dict = 0x40 :: name ∧ readFile name = none) ∨ (f.stdout = false ∧ f.nargs ≠ 0)) := by
  have hne : ∀ d, f.dictionary readFile = some d → d ≠ some [] := by
    intro d hx hd0
    subst hd0
    unfold Flags.dictionary at hx
    split at hx
    · cases hx
    · rename_i c name hc
      split at hx
      · rename_i h40
        subst h40
        cases hr : readFile name with
        | none => rw [hr] at hx; cases hx
        | some y => rw [hr] at hx; cases hx; exact hd name hc hr
      · rw [hc] at hx; cases hx
  have hnone : f.dictionary readFile = none ↔ ∃ name, f.dict = 0x40 :: name ∧ readFile name = none := by
    unfold Flags.dictionary
    constructor
    · intro hx
      split at hx
      · cases hx
      · rename_i c name hc
        split at hx
        · rename_i h40
          subst h40
          cases hr : readFile name with
          | none => exact ⟨name, hc, hr⟩
          | some y => rw [hr] at hx; cases hx
        · cases hx
    · rintro ⟨name, h1, h2⟩
      rw [h1]
      simp [h2]
  unfold prepare
  cases hdic : f.dictionary readFile with
  | none =>
    refine ⟨Or.inr rfl, ?_⟩
    exact ⟨fun _ => Or.inl (hnone.1 hdic), fun _ => rfl⟩
  | some d =>
    have hv := (opts_valid h d).2 (hne d hdic)
    have hno : ¬ ∃ name, f.dict = 0x40 :: name ∧ readFile name = none := fun hx => by
      rw [hnone.2 hx] at hdic; cases hdic
    simp only
    by_cases ho : f.stdout = true ∨ f.nargs = 0
    · rw [if_pos ho, if_pos hv]
      refine ⟨Or.inl ⟨d, rfl, rfl, List.all_eq_true.1 hv⟩, ?_⟩
      constructor
      · intro hx; cases hx
      · rintro (hx | ⟨hx, hy⟩)
        · exact absurd hx hno
        · rcases ho with ho | ho
          · rw [hx] at ho; cases ho
          · exact absurd ho hy
    · rw [if_neg ho]
      refine ⟨Or.inr rfl, fun _ => Or.inr ⟨?_, fun h0 => ho (Or.inr h0)⟩, fun _ => rfl⟩
      cases hs : f.stdout with
      | false => rfl
      | true => exact absurd (Or.inl hs) ho

/-- **C57 is false**: `gzip --dictionary=@file` with an empty file panics. -/
theorem C57_fails : ∃ (f : Flags) (readFile : List UInt8 → Option (List UInt8)), GzFlagsOK f ∧ prepare f readFile = .panic :=
  ⟨{ dict := [0x40, 102] }, fun _ => some [], ⟨by decide, by decide, by decide⟩, rfl⟩

/-- the level: the smallest digit given, or else `--compress-level`, or else 6 -/
theorem C57_level (f : Flags) : (∀ n < 10, f.digit n = true → (∀ m < n, f.digit m = false) → f.level = n) ∧ ((∀ n < 10, f.digit n = false) → f.level = f.clevel) := by
  unfold Flags.level
  constructor
  · intro n hn h1 h2
    have : (List.range 10).find? f.digit = some n := by
      rw [List.find?_range_eq_some]
      exact ⟨h1, by simpa using hn, fun m hm => by simp [h2 m hm]⟩
    rw [this]
  · intro h
    have : (List.range 10).find? f.digit = none := by
      rw [List.find?_eq_none]
      intro n hn
      rw [h n (List.mem_range.1 hn)]; simp
    rw [this]

end Flate.Props
