/-
The program cmd/gzip: C54, C55, C56.
-/
import Verif.Model.Gzip
import Verif.Props.RoundTrip
import Verif.Props.ReadCalls
import Verif.Props.Text

namespace Flate.Props
open Flate.Spec Flate.Model Flate.Model.Rd Flate.Model.Conc Flate.Model.Gz Flate.Proof Flate.Proof.R

/-! ### flags -/

/-- The values of the flags are among those which the `Parse` methods accept (or the defaults); see `parsed_flags`. -/
structure GzFlagsOK (f : Flags) : Prop where
  clevel : -1 ≤ f.clevel ∧ f.clevel ≤ 9
  mlevel : f.mlevel ≤ 9
  wbits : f.wbits = 0 ∨ 8 ≤ f.wbits ∧ f.wbits ≤ 15

/-- the compression level asked for -/
theorem level_ok {f : Flags} (h : GzFlagsOK f) : -1 ≤ f.level ∧ f.level ≤ 9 := by
  unfold Flags.level
  cases hd : (List.range 10).find? f.digit with
  | none => exact h.clevel
  | some d =>
    have := List.mem_of_find?_eq_some hd
    rw [List.mem_range] at this
    simp only
    omega

/-- only an empty dictionary is refused -/
theorem opts_valid {f : Flags} (h : GzFlagsOK f) (d : Option (List UInt8)) : (f.opts d).all Opt.valid = true ↔ d ≠ some [] := by
  have h1 : decide (-1 ≤ f.level ∧ f.level ≤ 9) = true := decide_eq_true (level_ok h)
  have h2 : decide (f.mlevel ≤ 9) = true := decide_eq_true h.mlevel
  have h3 : decide (f.wbits = 0 ∨ 8 ≤ f.wbits ∧ f.wbits ≤ 15) = true := decide_eq_true h.wbits
  have hl := level_ok h
  have hm := h.mlevel
  have hw := h.wbits
  rcases d with _ | d
  · simp [Flags.opts, Opt.valid, hl, hm, hw]
  · cases d with
    | nil => simp [Flags.opts, Opt.valid]
    | cons b d => simp [Flags.opts, Opt.valid, hl, hm, hw]

/-! ### compression -/

/-- The calls of `Write` which `io.Copy` makes if all goes well. -/
def gzWrites : Stdin → List WOp
  | [] => []
  | (p, e) :: rest => (if p = [] then [] else [.write p]) ++ match e with
    | none => gzWrites rest
    | some _ => []

/-- what can be read from the standard input, up to the first error or the end of the file -/
def stdinData : Stdin → List UInt8
  | [] => []
  | (p, none) :: rest => p ++ stdinData rest
  | (p, some _) :: _ => p

/-- how it ends -/
def stdinErr : Stdin → Err
  | [] => .eof
  | (_, none) :: rest => stdinErr rest
  | (_, some e) :: _ => e

theorem gzWrites_data (stdin : Stdin) : writtenData (gzWrites stdin) = stdinData stdin := by
  induction stdin with
  | nil => rfl
  | cons x rest ih =>
    obtain ⟨p, e⟩ := x
    have hp : writtenData (if p = [] then [] else [.write p]) = p := by
      by_cases hp : p = []
      · simp [hp, writtenData]
      · simp [hp, writtenData]
    have happ : ∀ a b, writtenData (a ++ b) = writtenData a ++ writtenData b := by intro a b; simp [writtenData]
    cases e with
    | none => simp only [gzWrites, stdinData, happ, hp, ih]
    | some e => simp only [gzWrites, stdinData, happ, hp]; simp [writtenData]

theorem gzWrites_mem {stdin : Stdin} {op : WOp} (h : op ∈ gzWrites stdin) : ∃ p, op = .write p ∧ ∃ e, (p, e) ∈ stdin := by
  induction stdin with
  | nil => cases h
  | cons x rest ih =>
    obtain ⟨p, e⟩ := x
    rcases List.mem_append.1 h with h | h
    · split at h
      · cases h
      · obtain rfl := List.mem_singleton.1 h
        exact ⟨p, rfl, e, by simp⟩
    · cases e with
      | none =>
        obtain ⟨q, h1, e, h2⟩ := ih h
        exact ⟨q, h1, e, by simp [h2]⟩
      | some e => cases h

theorem gzWrites_cons {p : List UInt8} (hp : p ≠ []) (e : Option Err) (rest : Stdin) : gzWrites ((p, e) :: rest) = .write p :: (match e with
    | none => gzWrites rest
    | some _ => []) := by simp [gzWrites, hp]

theorem copyIn_cons (L : HuffLib) {p : List UInt8} (hp : p ≠ []) (e : Option Err) (rest : Stdin) {s u : WState} {n : Nat} {ew : Option Err} (hw : wWrite L p s = .ok ((n, ew), u)) :
    copyIn L ((p, e) :: rest) s = if ew ≠ none ∨ n ≠ p.length then .ok (false, u)
      else match e with
        | none => copyIn L rest u
        | some .eof => .ok (true, u)
        | some _ => .ok (false, u) := by
  conv => lhs; unfold copyIn
  rw [if_neg hp, hw]
  simp only
  split
  · rfl
  · cases e with
    | none => rfl
    | some e => cases e <;> rfl

theorem stepOp_write {L : HuffLib} {p : List UInt8} {s u : WState} {n : Nat} {ew : Option Err} (hw : wWrite L p s = .ok ((n, ew), u)) :
    stepOp L (.write p) s = .ok (.write n ew, u) := by unfold stepOp; dsimp only; rw [hw]

/-- `io.Copy` makes some of these calls, all of them if it is successful. -/
theorem copyIn_runs (L : HuffLib) : ∀ (stdin : Stdin) (s : WState), ∃ ops, ops <+: gzWrites stdin ∧
    (∀ x, copyIn L stdin s = .error x → ∃ x', runOps L ops s = .error x') ∧
    (∀ b t, copyIn L stdin s = .ok (b, t) → ∃ rs, runOps L ops s = .ok (rs, t) ∧
      (b = true → ops = gzWrites stdin ∧ NoErr rs ∧ stdinErr stdin = .eof)) := by
  intro stdin
  induction stdin with
  | nil =>
    intro s
    refine ⟨[], List.prefix_rfl, fun x h => (nomatch h), fun b t h => ?_⟩
    cases h
    exact ⟨[], rfl, fun _ => ⟨rfl, by simp [NoErr], rfl⟩⟩
  | cons x rest ih =>
    intro s
    obtain ⟨p, e⟩ := x
    by_cases hp : p = []
    · subst hp
      cases e with
      | none =>
        obtain ⟨ops, h1, h2, h3⟩ := ih s
        exact ⟨ops, by simpa [gzWrites] using h1, fun x h => h2 x h, fun b t h => by simpa [gzWrites, stdinErr] using h3 b t h⟩
      | some e =>
        refine ⟨[], by simp, fun x h => ?_, fun b t h => ?_⟩
        · cases e <;> cases h
        · refine ⟨[], ?_, ?_⟩
          · cases e <;> cases h <;> rfl
          · intro hb; subst hb
            cases e <;> cases h
            exact ⟨rfl, by simp [NoErr], rfl⟩
    · cases hw : wWrite L p s with
      | error x =>
        have hs : stepOp L (.write p) s = .error x := by unfold stepOp; dsimp only; rw [hw]
        refine ⟨[.write p], ?_, fun x' _ => ⟨x, ?_⟩, fun b t h => ?_⟩
        · rw [gzWrites_cons hp]; exact ⟨_, rfl⟩
        · unfold runOps; rw [hs]
        · unfold copyIn at h; rw [if_neg hp, hw] at h; cases h
      | ok y =>
        obtain ⟨⟨n, ew⟩, u⟩ := y
        have hs := stepOp_write hw
        have hc := copyIn_cons L hp e rest hw
        by_cases hbad : ew ≠ none ∨ n ≠ p.length
        · refine ⟨[.write p], ?_, fun x h => ?_, fun b t h => ?_⟩
          · rw [gzWrites_cons hp]; exact ⟨_, rfl⟩
          · rw [hc, if_pos hbad] at h; cases h
          · rw [hc, if_pos hbad] at h
            cases h
            exact ⟨[.write n ew], run_cons hs rfl, fun h => by cases h⟩
        · rw [if_neg hbad] at hc
          have he : ew = none := by
            cases ew with
            | none => rfl
            | some e => exact absurd (Or.inl (by simp)) hbad
          subst he
          rw [hc, gzWrites_cons hp]
          cases e with
          | none =>
            obtain ⟨ops, h1, h2, h3⟩ := ih u
            refine ⟨.write p :: ops, List.cons_prefix_cons.2 ⟨rfl, h1⟩, fun x h => ?_, fun b t h => ?_⟩
            · obtain ⟨x', hx⟩ := h2 x h
              refine ⟨x', ?_⟩
              unfold runOps; rw [hs]; dsimp only; rw [hx]
            · obtain ⟨rs, k1, k2⟩ := h3 b t h
              refine ⟨.write n none :: rs, run_cons hs k1, fun hb => ?_⟩
              obtain ⟨q1, q2, q3⟩ := k2 hb
              refine ⟨by rw [q1], ?_, q3⟩
              intro r hr
              rcases List.mem_cons.1 hr with rfl | hr
              · rfl
              · exact q2 r hr
          | some e =>
            refine ⟨[.write p], List.prefix_rfl, fun x h => ?_, fun b t h => ?_⟩
            · cases e <;> cases h
            · refine ⟨[.write n none], ?_, ?_⟩
              · cases e <;> cases h <;> exact run_cons hs rfl
              · intro hb; subst hb
                cases e <;> cases h
                refine ⟨rfl, ?_, rfl⟩
                intro r hr
                obtain rfl := List.mem_singleton.1 hr
                rfl

/-- if the calls are successful, and the input ends with end of file, then `io.Copy` is successful -/
theorem copyIn_ok (L : HuffLib) : ∀ (stdin : Stdin) (s t : WState) (rs : List WRes), runOps L (gzWrites stdin) s = .ok (rs, t) → NoErr rs →
    List.Forall₂ WriteContract (gzWrites stdin) rs → stdinErr stdin = .eof → copyIn L stdin s = .ok (true, t) := by
  intro stdin
  induction stdin with
  | nil => intro s t rs h _ _ _; cases h; rfl
  | cons x rest ih =>
    intro s t rs h hn hcon he
    obtain ⟨p, e⟩ := x
    by_cases hp : p = []
    · subst hp
      cases e with
      | none => exact ih s t rs (by simpa [gzWrites] using h) hn (by simpa [gzWrites] using hcon) he
      | some e =>
        have he : e = .eof := he
        subst he
        have h : runOps L [] s = .ok (rs, t) := by simpa [gzWrites] using h
        cases h
        rfl
    · rw [gzWrites_cons hp] at h hcon
      obtain ⟨r, u, rs', h1, h2, rfl⟩ := run_cons_inv h
      rw [List.forall₂_cons] at hcon
      have hr : r = .write p.length none := by
        rcases hcon.1 p rfl with h | ⟨e, h⟩
        · exact h
        · subst h
          have : some e = none := hn (.write 0 (some e)) (by simp)
          cases this
      subst hr
      have hw : wWrite L p s = .ok ((p.length, none), u) := by
        unfold stepOp at h1
        dsimp only at h1
        generalize wWrite L p s = y at h1 ⊢
        rcases y with e | ⟨⟨n, ew⟩, v⟩
        · cases h1
        · cases h1; rfl
      rw [copyIn_cons L hp e rest hw, if_neg (by simp)]
      cases e with
      | none => exact ih u t rs' h2 (fun r hr => hn r (by simp [hr])) hcon.2 he
      | some e =>
        have he : e = .eof := he
        subst he
        cases h2
        rfl

theorem gzHeader_iff (f : Flags) (s : WState) : wSetHeader f.header s = .ok (headerOK f.header, if headerOK f.header then { s with header := f.header } else s) := by
  unfold wSetHeader; split <;> simp_all

/-- the calls made by a successful run of the program -/
def gzOps (f : Flags) (stdin : Stdin) : List WOp := [.setHeader f.header] ++ gzWrites stdin ++ [.flush .finishFlush]

theorem compress_run {L : HuffLib} {f : Flags} {stdin : Stdin} {s t : WState} (h : compress L f.header stdin s = .ok (true, t)) :
    HeaderOK f.header ∧ stdinErr stdin = .eof ∧ ∃ rs, runOps L (gzOps f stdin ++ [.close]) s = .ok (rs, t) ∧ NoErr rs := by
  unfold compress Go.chk at h
  by_cases hh : headerOK f.header = true
  · have e1 : wSetHeader f.header s = .ok (true, { s with header := f.header }) := by rw [gzHeader_iff, hh]; rfl
    rw [e1] at h
    dsimp only at h
    obtain ⟨ops, _, _, h3⟩ := copyIn_runs L stdin { s with header := f.header }
    cases hc : copyIn L stdin { s with header := f.header } with
    | error x => rw [hc] at h; cases h
    | ok y =>
      obtain ⟨b, u⟩ := y
      rw [hc] at h
      cases b with
      | false => cases h
      | true =>
        obtain ⟨rs, k1, k2⟩ := h3 true u hc
        obtain ⟨rfl, k3, k4⟩ := k2 rfl
        dsimp only at h
        cases hf : wFlush L .finishFlush u with
        | error x => rw [hf] at h; cases h
        | ok y =>
          obtain ⟨e, v⟩ := y
          rw [hf] at h
          cases e with
          | some e => cases h
          | none =>
            dsimp only at h
            cases hcl : wClose L v with
            | error x => rw [hcl] at h; cases h
            | ok y =>
              obtain ⟨e, w⟩ := y
              rw [hcl] at h
              cases e with
              | some e => cases h
              | none =>
                cases h
                refine ⟨(headerOK_iff _).1 hh, k4, .header true :: (rs ++ [.flush none, .close none]), ?_, ?_⟩
                · have s1 : stepOp L (.setHeader f.header) s = .ok (.header true, { s with header := f.header }) := by unfold stepOp; dsimp only; rw [e1]
                  have s2 : stepOp L (.flush .finishFlush) u = .ok (.flush none, v) := by unfold stepOp; dsimp only; rw [hf]
                  have s3 : stepOp L .close v = .ok (.close none, t) := by unfold stepOp; dsimp only; rw [hcl]
                  have : gzOps f stdin ++ [.close] = .setHeader f.header :: (gzWrites stdin ++ [.flush .finishFlush, .close]) := by simp [gzOps]
                  rw [this]
                  exact run_cons s1 (run_append_ok k1 (run_cons s2 (run_cons s3 rfl)))
                · intro r hr
                  simp only [List.mem_append, List.mem_cons, List.not_mem_nil, or_false] at hr
                  rcases hr with rfl | hr | rfl | rfl
                  · rfl
                  · exact k3 r hr
                  · rfl
                  · rfl
  · have e1 : wSetHeader f.header s = .ok (false, s) := by
      rw [gzHeader_iff]; simp [hh]
    rw [e1] at h; cases h

theorem gzOps_close (f : Flags) (stdin : Stdin) : WOp.close ∉ gzOps f stdin := by
  intro h
  simp only [gzOps, List.mem_append, List.mem_singleton] at h
  rcases h with (h | h) | h
  · cases h
  · obtain ⟨p, h, _⟩ := gzWrites_mem h; cases h
  · cases h

theorem gzOps_segs (f : Flags) (stdin : Stdin) : (segsOf (gzOps f stdin ++ [.close])).done = [stdinData stdin] := by
  have hc : ∀ op ∈ [WOp.setHeader f.header] ++ gzWrites stdin, Continues op := by
    intro op h
    rcases List.mem_append.1 h with h | h
    · obtain rfl := List.mem_singleton.1 h; trivial
    · obtain ⟨p, rfl, _⟩ := gzWrites_mem h; trivial
  have h1 := segs_single hc
  have hd : writtenData ([WOp.setHeader f.header] ++ gzWrites stdin) = stdinData stdin := by
    rw [← gzWrites_data]; simp [writtenData]
  rw [hd] at h1
  have h2 : (segsOf (gzOps f stdin ++ [.close])).done = ((segsOf ([WOp.setHeader f.header] ++ gzWrites stdin)).finish.finish).done := by
    simp [segsOf, gzOps, Segs.step]
  have h3 : (segsOf ([WOp.setHeader f.header] ++ gzWrites stdin ++ [.close])) = (segsOf ([WOp.setHeader f.header] ++ gzWrites stdin)).finish := by
    simp [segsOf, Segs.step]
  rw [h3] at h1
  rw [h2]
  generalize segsOf ([WOp.setHeader f.header] ++ gzWrites stdin) = g at h1 ⊢
  have h4 : g.finish.cur = none := by
    unfold Segs.finish; split
    · rfl
    · split
      · rfl
      · assumption
  generalize g.finish = g' at h1 h4 ⊢
  unfold Segs.finish
  rw [h4]
  simp only [h1]
  simp [h1]

/-- the program's options -/
structure GzSetup (c : Setup) (f : Flags) (d : Option (List UInt8)) : Prop where
  lawful : c.L.Lawful
  word : c.W = 32 ∨ c.W = 64
  flags : GzFlagsOK f
  mode : f.decompress = false
  opts : c.opts = f.opts d
  dict : d ≠ some []
  empty : c.sink.out = []

theorem GzSetup.ok {c : Setup} {f : Flags} {d : Option (List UInt8)} (h : GzSetup c f d) : c.OK := by
  refine ⟨h.lawful, h.word, ?_⟩
  rw [h.opts]
  exact List.all_eq_true.1 ((opts_valid h.flags d).2 h.dict)

theorem GzSetup.o {c : Setup} {f : Flags} {d : Option (List UInt8)} (h : GzSetup c f d) :
    c.o.format = (if f.format = .default then .gzip else f.format) ∧ c.o.dict = d ∧ c.o.wbits = (if f.wbits = 0 then 15 else f.wbits) := by
  unfold Setup.o effective
  rw [h.opts]
  have hm := h.mode
  rcases d with _ | d <;> rcases hf : f.format <;> simp [Flags.opts, Flags.fmt, Options.apply, Opt.apply, Options.writerDefaults, Options.readerDefaults, hf, hm]

/-- the window size asked for -/
def gzWindow (f : Flags) : Nat := 2 ^ (if f.wbits = 0 then 15 else f.wbits)

/-- the format asked for: gzip by default -/
def gzContainer (f : Flags) : Container := match f.format with
  | .default => .gzip
  | .gzip => .gzip
  | .zlib => .zlib
  | .raw => .raw

/-- **C54.** If the program exits successfully, it has read its standard input to the end, and has written exactly one complete well-formed stream, of the format
asked for (gzip by default), which holds exactly what it has read. -/
theorem C54_compress {c : Setup} {f : Flags} {d : Option (List UInt8)} (h : GzSetup c f d) {stdin : Stdin} {t : WState}
    (hr : compress c.L f.header stdin c.start = .ok (true, t)) :
    stdinErr stdin = .eof ∧ Spec.Stream c.ok (gzWindow f) d (gzContainer f) t.sink.out (stdinData stdin) := by
  obtain ⟨_, h1, rs, h2, h3⟩ := compress_run hr
  obtain ⟨b, h4, h5⟩ := C02_conforming h.ok (gzOps_close f stdin) h2 h3
  rw [gzOps_segs] at h5
  rw [h.empty, List.nil_append] at h4
  have h6 := streamsOf_single h5
  obtain ⟨o1, o2, o3⟩ := h.o
  rw [o2, o3, ← h4] at h6
  have : container c.o.format = (gzContainer f) := by
    rw [o1]
    unfold gzContainer
    cases f.format <;> rfl
  rw [this] at h6
  exact ⟨h1, h6⟩

theorem abs_finish_idem (cf : AbsCfg) (a : Abs) : (a.finish cf).finish cf = a.finish cf := by
  have h1 : (a.finish cf).cur = none := finish_cur _ _
  have h2 : (a.finish cf).done ≠ [] := by
    unfold Abs.finish
    split
    · simp
    · split
      · simp
      · assumption
  generalize a.finish cf = b at h1 h2 ⊢
  unfold Abs.finish
  rw [h1]
  simp only [if_neg h2]

/-- **C54, the header.** In gzip format, the member's header has the file name, the comment and the modification time given by the flags (and they are acceptable). -/
theorem C54_header {c : Setup} {f : Flags} {d : Option (List UInt8)} (h : GzSetup c f d) (hf : f.format = .default ∨ f.format = .gzip) {stdin : Stdin} {t : WState}
    (hr : compress c.L f.header stdin c.start = .ok (true, t)) :
    HeaderOK f.header ∧ ∃ g, GzMember (BlockEnc c.ok (gzWindow f)) d g t.sink.out (stdinData stdin) ∧
      g.name = (if f.fileName = [] then none else some f.fileName) ∧ g.comment = (if f.comment = [] then none else some f.comment) ∧
      (g.mtime : Int) = f.lastModified.getD 0 ∧ g.extra = none ∧ g.os = 3 := by
  obtain ⟨h0, _, rs, h2, h3⟩ := compress_run hr
  refine ⟨h0, ?_⟩
  obtain ⟨o1, o2, o3⟩ := h.o
  have hfmt : c.o.format = .gzip := by rw [o1]; rcases hf with e | e <;> rw [e] <;> rfl
  obtain ⟨b, h4, h5⟩ := gzip_members h.ok hfmt (gzOps_close f stdin) h2 h3
  rw [h.empty, List.nil_append] at h4
  have hw : ∀ op ∈ gzWrites stdin, (∃ p, op = .write p) ∨ ∃ ft, op = .flush ft ∧ ft ≠ .finishFlush := by
    intro op ho
    obtain ⟨p, e, _⟩ := gzWrites_mem ho
    exact Or.inl ⟨p, e⟩
  have e1 : absOf c.cfg (gzOps f stdin ++ [.close]) = absOf c.cfg ([.setHeader f.header] ++ gzWrites stdin ++ [.close]) := by
    unfold absOf gzOps
    simp only [List.foldl_append, List.foldl_cons, List.foldl_nil, Abs.step]
    rw [abs_finish_idem]
  rw [e1, abs_single c.cfg h0 hw, gzWrites_data] at h5
  obtain ⟨g, k1, k2, k3⟩ := streams_one h5
  rw [o2, o3, ← h4] at k3
  refine ⟨g, k3, k1.name, k1.comment, ?_, by rw [k1.extra]; rfl, ?_⟩
  · have m1 := k1.mtime.1
    have m2 := k1.mtime.2
    cases hm : f.lastModified with
    | none => rw [m1 hm]; rfl
    | some x => exact m2 x hm
  · have := k1.os
    exact UInt8.toNat_inj.1 (this.trans rfl)

/-- the pieces which `io.Copy` reads are at most 32 KiB -/
def SmallPieces (stdin : Stdin) : Prop := ∀ x ∈ stdin, x.1.length ≤ copyBuf

theorem gz_fits {c : Setup} {stdin : Stdin} (h : SmallPieces stdin) {ops : List WOp} (ho : ∀ p, WOp.write p ∈ ops → WOp.write p ∈ gzWrites stdin) : c.Fits ops := by
  refine Or.inr fun p hp => ?_
  obtain ⟨q, e, x, hx⟩ := gzWrites_mem (ho p hp)
  cases e
  have := h _ hx
  simp only [copyBuf] at this
  omega

theorem forall₂_left {α β : Type} {R : α → β → Prop} : ∀ {a a' : List α} {b b' : List β}, a.length = b.length → List.Forall₂ R (a ++ a') (b ++ b') → List.Forall₂ R a b
  | [], _, [], _, _, _ => .nil
  | x :: a, a', y :: b, b', h, hr => by
    rw [List.cons_append, List.cons_append, List.forall₂_cons] at hr
    exact .cons hr.1 (forall₂_left (by simpa using h) hr.2)

/-- **C54, completeness.** If the flags give an acceptable header, the standard input can be read to its end, and the standard output does not fail, then the program exits successfully. -/
theorem C54_succeeds {c : Setup} {f : Flags} {d : Option (List UInt8)} (h : GzSetup c f d) (hh : HeaderOK f.header) (hs : c.SinkOK) {stdin : Stdin} (hp : SmallPieces stdin)
    (he : stdinErr stdin = .eof) : ∃ t, compress c.L f.header stdin c.start = .ok (true, t) := by
  have hfits : c.Fits (gzOps f stdin) := gz_fits hp fun p ho => by
    simpa [gzOps] using ho
  obtain ⟨rs, t, hr, hn⟩ := h.ok.run_close_fits hs hfits (gzOps_close f stdin)
  have hcon := C18_write h.ok hr
  unfold Setup.Runs at hr
  have : gzOps f stdin ++ [.close] = .setHeader f.header :: (gzWrites stdin ++ [.flush .finishFlush, .close]) := by simp [gzOps]
  rw [this] at hr hcon
  obtain ⟨r1, u1, rs1, s1, hr1, rfl⟩ := run_cons_inv hr
  obtain ⟨rs2, u2, rs3, s2, hr2, rfl⟩ := run_append_inv hr1
  obtain ⟨r3, u3, rs4, s3, hr3, rfl⟩ := run_cons_inv hr2
  obtain ⟨r4, u4, rs5, s4, hr4, rfl⟩ := run_cons_inv hr3
  cases hr4
  have hlen : ∀ {ops : List WOp} {s t : WState} {rs : List WRes}, runOps c.L ops s = .ok (rs, t) → rs.length = ops.length := by
    intro ops
    induction ops with
    | nil => intro s t rs h; cases h; rfl
    | cons op ops ih =>
      intro s t rs h
      obtain ⟨r, u, rs', _, h2, rfl⟩ := run_cons_inv h
      simp [ih h2]
  have hcon2 : List.Forall₂ WriteContract (gzWrites stdin) rs2 := by
    rw [List.forall₂_cons] at hcon
    exact forall₂_left (hlen s2).symm hcon.2
  have e1 : wSetHeader f.header c.start = .ok (true, u1) := by
    have hx := (C22_setHeader f.header c.start).1 hh
    unfold stepOp at s1
    dsimp only at s1
    rw [hx] at s1 ⊢
    cases s1; rfl
  have e2 := copyIn_ok c.L stdin u1 u2 rs2 s2 (fun r hr => hn r (by simp [hr])) hcon2 he
  have e3 : wFlush c.L .finishFlush u2 = .ok (none, u3) := by
    unfold stepOp at s3
    dsimp only at s3
    have h3 : r3.err = none := hn r3 (by simp)
    generalize wFlush c.L .finishFlush u2 = y at s3 ⊢
    rcases y with e | ⟨e, v⟩
    · cases s3
    · cases s3
      have h3 : e = none := h3
      subst h3; rfl
  have e4 : wClose c.L u3 = .ok (none, t) := by
    unfold stepOp at s4
    dsimp only at s4
    have h3 : r4.err = none := hn r4 (by simp)
    generalize wClose c.L u3 = y at s4 ⊢
    rcases y with e | ⟨e, v⟩
    · cases s4
    · cases s4
      have h3 : e = none := h3
      subst h3; rfl
  refine ⟨t, ?_⟩
  unfold compress Go.chk
  rw [e1]
  dsimp only
  rw [e2]
  dsimp only
  rw [e3]
  dsimp only
  rw [e4]
  rfl

/-- **C54, no panic.** Whatever the flags, the input (in pieces of at most 32 KiB) and the failures of the standard output. -/
theorem C54_no_panic {c : Setup} {f : Flags} {d : Option (List UInt8)} (h : GzSetup c f d) {stdin : Stdin} (hp : SmallPieces stdin) :
    ∃ b t, compress c.L f.header stdin c.start = .ok (b, t) := by
  have hrun : ∀ ops, (∀ p, WOp.write p ∈ ops → WOp.write p ∈ gzWrites stdin) → ∃ rs t, runOps c.L ops c.start = .ok (rs, t) :=
    fun ops ho => C10_writes_partial h.ok (gz_fits hp ho)
  cases hok : headerOK f.header with
  | false =>
    have e1 : wSetHeader f.header c.start = .ok (false, c.start) := by rw [gzHeader_iff]; simp [hok]
    exact ⟨false, c.start, by unfold compress Go.chk; rw [e1]⟩
  | true =>
    have e1 : wSetHeader f.header c.start = .ok (true, { c.start with header := f.header }) := by rw [gzHeader_iff, hok]; rfl
    have s1 : stepOp c.L (.setHeader f.header) c.start = .ok (.header true, { c.start with header := f.header }) := by unfold stepOp; dsimp only; rw [e1]
    generalize hu : ({ c.start with header := f.header } : WState) = u1 at e1 s1
    obtain ⟨ops, p1, p2, p3⟩ := copyIn_runs c.L stdin u1
    have hsub : ∀ p, WOp.write p ∈ ops → WOp.write p ∈ gzWrites stdin := fun p ho => p1.subset ho
    cases hc : copyIn c.L stdin u1 with
    | error x =>
      obtain ⟨x', hx⟩ := p2 x hc
      obtain ⟨rs, t, hr⟩ := hrun (.setHeader f.header :: ops) (fun p ho => by
        rcases List.mem_cons.1 ho with e | ho
        · cases e
        · exact hsub p ho)
      obtain ⟨r, v, rs', k1, k2, _⟩ := run_cons_inv hr
      rw [s1] at k1
      cases k1
      rw [hx] at k2; cases k2
    | ok y =>
      obtain ⟨b, u2⟩ := y
      obtain ⟨rs2, k1, _⟩ := p3 b u2 hc
      cases b with
      | false => exact ⟨false, u2, by unfold compress Go.chk; rw [e1]; dsimp only; rw [hc]⟩
      | true =>
        obtain ⟨rs, t, hr⟩ := hrun (.setHeader f.header :: (ops ++ [.flush .finishFlush, .close])) (fun p ho => by
          rcases List.mem_cons.1 ho with e | ho
          · cases e
          · rcases List.mem_append.1 ho with ho | ho
            · exact hsub p ho
            · simp at ho)
        obtain ⟨r, v, rs', j1, j2, _⟩ := run_cons_inv hr
        rw [s1] at j1
        cases j1
        obtain ⟨rs3, v2, rs4, j3, j4, _⟩ := run_append_inv j2
        rw [k1] at j3
        cases j3
        obtain ⟨r3, v3, rs5, j5, j6, _⟩ := run_cons_inv j4
        obtain ⟨r4, v4, rs6, j7, j8, _⟩ := run_cons_inv j6
        unfold stepOp at j5 j7
        dsimp only at j5 j7
        cases hfl : wFlush c.L .finishFlush u2 with
        | error x => rw [hfl] at j5; cases j5
        | ok y =>
          obtain ⟨e, w⟩ := y
          rw [hfl] at j5
          cases j5
          cases e with
          | some e => exact ⟨false, v3, by unfold compress Go.chk; rw [e1]; dsimp only; rw [hc]; dsimp only; rw [hfl]⟩
          | none =>
            cases hcl : wClose c.L v3 with
            | error x => rw [hcl] at j7; cases j7
            | ok y =>
              obtain ⟨e, w2⟩ := y
              exact ⟨e.isNone, w2, by unfold compress Go.chk; rw [e1]; dsimp only; rw [hc]; dsimp only; rw [hfl]; dsimp only; rw [hcl]⟩

end Flate.Props
