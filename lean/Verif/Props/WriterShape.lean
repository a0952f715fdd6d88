/-
The shape of the Writer's output: C12, C25 (Writer), C29, C30, C31, C32, C49 (Writer).
-/
import Verif.Props.WriterCalls

namespace Flate.Props
open Flate.Spec Flate.Model Flate.Proof

/-! ### C29 -/

/-- a block RFC 1951 allows which takes at most 3 + padding + 32 + 8·n bits, where n is the number of bytes it encodes -/
def ShortBlock (ok : List Nat → Prop) (win : Nat) : BlockRel := fun pos f h b h' =>
  BlockEnc ok win pos f h b h' ∧ b.length + 8 * h.length ≤ 8 * h'.length + 35 + padLen (pos + 3)

/-- **C29.** Every block of the output takes no more bits than storing its data would. -/
theorem C29_bounded {c : Setup} (h : c.OK) {ops : List WOp} (hc : WOp.close ∉ ops) {rs : List WRes} {t : WState}
    (hr : c.Runs (ops ++ [.close]) rs t) (he : NoErr rs) :
    ∃ bytes, t.sink.out = c.sink.out ++ bytes ∧
      StreamsOf (StreamOf (ShortBlock c.ok (2 ^ c.o.wbits)) (2 ^ c.o.wbits) c.o.dict (container c.o.format)) bytes
        (segsOf (ops ++ [.close])).done :=
  out_streams h (blockOK_short _ _ True (maxDist_window h.full rfl)) (fun _ _ _ => trivial) hc hr he

example : ∃ rs t, (demo [.format .raw, .mlevel 2]).Runs ([.write [1, 2, 3, 1, 2, 3, 9], .flush .blockFlush, .write [7]] ++ [.close]) rs t ∧ NoErr rs :=
  (demo_ok (by decide)).run_close_ok (Or.inr (by decide)) (demo_sink _) (by simp)

/-- number of blocks -/
inductive BlocksN (E : BlockRel) : Nat → Nat → List UInt8 → List Bool → List UInt8 → Prop
  | nil (pos : Nat) (h : List UInt8) : BlocksN E 0 pos h [] h
  | cons {n pos : Nat} {h h1 h2 : List UInt8} {b bs : List Bool} :
      E pos false h b h1 → BlocksN E n (pos + b.length) h1 bs h2 → BlocksN E (n + 1) pos h (b ++ bs) h2

theorem blocks_count {E : BlockRel} {pos : Nat} {h : List UInt8} {bs : List Bool} {h' : List UInt8} (hb : Blocks E pos h bs h') :
    ∃ n, BlocksN E n pos h bs h' := by
  induction hb with
  | nil pos h => exact ⟨0, .nil _ _⟩
  | cons hx _ ih => obtain ⟨n, hn⟩ := ih; exact ⟨n + 1, .cons hx hn⟩

theorem blocksN_short {ok : List Nat → Prop} {win n pos : Nat} {h : List UInt8} {bs : List Bool} {h' : List UInt8}
    (hb : BlocksN (ShortBlock ok win) n pos h bs h') : bs.length + 8 * h.length ≤ 8 * h'.length + 42 * n := by
  induction hb with
  | nil pos h => simp
  | cons hx _ ih =>
    have := hx.2
    have h7 : ∀ k, padLen k ≤ 7 := by intro k; unfold padLen; omega
    rename_i pos _ _ _ _ _ _
    have := h7 (pos + 3)
    rw [List.length_append]
    omega

/-- **C29**, summed up: a stream of `n` blocks is at most `6 n` bytes longer than its data (the container apart). -/
theorem C29_total {ok : List Nat → Prop} {win : Nat} {dict bytes data : List UInt8}
    (hd : DeflateOf (ShortBlock ok win) dict bytes data) :
    ∃ n bs b pad h, BlocksN (ShortBlock ok win) n 0 dict bs h ∧ ShortBlock ok win bs.length true h b (dict ++ data) ∧
      bytesBits bytes = bs ++ b ++ pad ∧ bytes.length ≤ data.length + 6 * (n + 1) := by
  obtain ⟨bs, b, pad, h, h1, h2, h3, h4⟩ := hd
  obtain ⟨n, hn⟩ := blocks_count h1
  refine ⟨n, bs, b, pad, h, hn, h2, h3, ?_⟩
  have e1 := blocksN_short hn
  have e2 := h2.2
  have e3 := congrArg List.length h3
  simp only [bytesBits_length, List.length_append] at e1 e2 e3
  have h7 : ∀ k, padLen k ≤ 7 := by intro k; unfold padLen; omega
  have := h7 (bs.length + 3)
  omega

/-! ### C25 (Writer), C32 -/

theorem refDist_pos {di dx : Nat} (h : di < 30) : 1 ≤ refDist di dx := by
  unfold refDist
  have : ∀ d < 30, 1 ≤ distBase.getD d 0 := by decide
  have := this di h
  omega

theorem expand_dist {win : Nat} : ∀ {is : List Item} {h h' : List UInt8}, expand win h is = some h' →
    ∀ i ∈ is, i.Dist (· ≤ win) := by
  intro is
  induction is with
  | nil => intro _ _ _ i hi; cases hi
  | cons x is ih =>
    intro h h' he i hi
    cases x with
    | lit b =>
      rcases List.mem_cons.1 hi with rfl | hi
      · trivial
      · exact ih he i hi
    | ref li lx di dx =>
      simp only [expand] at he
      split at he
      · rename_i hc
        rcases List.mem_cons.1 hi with rfl | hi
        · exact hc.1
        · exact ih he i hi
      · cases he

theorem blockItems {P : Item → Prop} {ok : List Nat → Prop} {win : Nat} (hP : ∀ (ll d : List Nat) (i : Item), i.Valid ll d → i.Dist (· ≤ win) → P i)
    {pos : Nat} {f : Bool} {h : List UInt8} {b : List Bool} {h' : List UInt8} (e : BlockEnc ok win pos f h b h') :
    BlockItems P ok win pos f h b h' := by
  cases e with
  | stored pad data h1 h2 => exact .stored pad data h1 h2
  | fixed is h' h1 h2 => exact .fixed is h' (fun i hi => ⟨h1 i hi, hP _ _ i (h1 i hi) (expand_dist h2 i hi)⟩) h2
  | dynamic hd is h' h1 h2 h3 h4 => exact .dynamic hd is h' h1 (fun i hi => ⟨h2 i hi, hP _ _ i (h2 i hi) (expand_dist h4 i hi)⟩) h3 h4

/-- **C25 (Writer).** No distance in the output exceeds the window size; nor does one reach before the beginning of the data and the
dictionary (this is part of `expand`, which otherwise has no result). -/
theorem C25_writer {c : Setup} (h : c.OK) {ops : List WOp} (hc : WOp.close ∉ ops) {rs : List WRes} {t : WState}
    (hr : c.Runs (ops ++ [.close]) rs t) (he : NoErr rs) :
    ∃ bytes, t.sink.out = c.sink.out ++ bytes ∧
      StreamsOf (StreamOf (BlockItems (Item.Dist (· ≤ 2 ^ c.o.wbits)) c.ok (2 ^ c.o.wbits)) (2 ^ c.o.wbits) c.o.dict
        (container c.o.format)) bytes (segsOf (ops ++ [.close])).done := by
  obtain ⟨bytes, ho, hs⟩ := C02_conforming h hc hr he
  exact ⟨bytes, ho, streams_imp (fun b a => stream_imp (fun _ _ _ _ _ => blockItems fun _ _ _ _ hx => hx)) hs⟩

/-- **C32**, level 0: without `PartialFlush`, only stored blocks are emitted -/
theorem C32_stored_partial {c : Setup} (h : c.OK) (h0 : c.o.clevel = 0) {ops : List WOp} (hc : WOp.close ∉ ops)
    (hp : WOp.flush .partialFlush ∉ ops) {rs : List WRes} {t : WState}
    (hr : c.Runs (ops ++ [.close]) rs t) (he : NoErr rs) :
    ∃ bytes, t.sink.out = c.sink.out ++ bytes ∧
      StreamsOf (StreamOf StoredEnc (2 ^ c.o.wbits) c.o.dict (container c.o.format)) bytes (segsOf (ops ++ [.close])).done := by
  refine out_streams h (blockOK_stored c.L _ ?_) ?_ hc hr he
  · show (c.o.clevel == 0) = true; rw [h0]; rfl
  · intro op hop hu
    have hu : op = .flush .partialFlush := hu
    rw [hu] at hop
    exact hp hop

/-- **C32**, level 0, in general: `PartialFlush` adds static blocks, but they are empty -/
theorem C32_static_partial {c : Setup} (h : c.OK) (h0 : c.o.clevel = 0) {ops : List WOp} (hc : WOp.close ∉ ops)
    {rs : List WRes} {t : WState} (hr : c.Runs (ops ++ [.close]) rs t) (he : NoErr rs) :
    ∃ bytes, t.sink.out = c.sink.out ++ bytes ∧
      StreamsOf (StreamOf (fun pos f h b h' => StoredEnc pos f h b h' ∨ EmptyStatic pos f h b h') (2 ^ c.o.wbits) c.o.dict
        (container c.o.format)) bytes (segsOf (ops ++ [.close])).done := by
  refine out_streams h (blockOK_stored_static c.L _ True ?_) (fun _ _ _ => trivial) hc hr he
  show (c.o.clevel == 0) = true; rw [h0]; rfl

example : (demo [.clevel 0]).o.clevel = 0 := by decide
example : ∃ rs t, (demo [.clevel 0, .format .gzip]).Runs ([.write [1, 2, 3, 1, 2, 3, 9], .flush .partialFlush, .write [7]] ++ [.close]) rs t ∧ NoErr rs :=
  (demo_ok (by decide)).run_close_ok (Or.inl (by decide)) (demo_sink _) (by simp)

/-- **C32**, HuffmanOnlyStrategy: no back-references -/
theorem C32_huffmanOnly {c : Setup} (h : c.OK) (hs : c.o.strategy = .huffmanOnly) {ops : List WOp} (hc : WOp.close ∉ ops)
    {rs : List WRes} {t : WState} (hr : c.Runs (ops ++ [.close]) rs t) (he : NoErr rs) :
    ∃ bytes, t.sink.out = c.sink.out ++ bytes ∧
      StreamsOf (StreamOf (BlockItems Item.IsLit c.ok (2 ^ c.o.wbits)) (2 ^ c.o.wbits) c.o.dict (container c.o.format)) bytes
        (segsOf (ops ++ [.close])).done := by
  have hlim : c.start.lz.maxDist ≤ 0 := by
    show LZ.maxDist { opts := hybridOptions c.o, propose := c.propose } ≤ 0
    unfold LZ.maxDist hybridOptions
    simp only [hs]; simp
  obtain ⟨bytes, ho, hst⟩ := out_streams h (blockOK_any c.L _ True hlim) (fun _ _ _ => trivial) hc hr he
  refine ⟨bytes, ho, streams_imp (fun b a => stream_imp (fun _ _ _ _ _ e => ?_)) hst⟩
  have e' := blockItems (P := Item.IsLit) (fun ll d i hv hx => by
    cases i with
    | lit b => trivial
    | ref li lx di dx =>
      have := refDist_pos (dx := dx) hv.2.2.1
      have hx : refDist di dx ≤ 0 := hx
      omega) e
  cases e' with
  | stored pad data h1 h2 => exact .stored pad data h1 h2
  | fixed is _ h1 h2 => exact .fixed is _ h1 (expand_mono (Nat.zero_le _) h2)
  | dynamic hd is _ h1 h2 h3 h4 => exact .dynamic hd is _ h1 h2 h3 (expand_mono (Nat.zero_le _) h4)

/-- **C32**, HuffmanRLEStrategy: all back-references have distance 1 -/
theorem C32_rle {c : Setup} (h : c.OK) (hs : c.o.strategy = .huffmanRLE) {ops : List WOp} (hc : WOp.close ∉ ops)
    {rs : List WRes} {t : WState} (hr : c.Runs (ops ++ [.close]) rs t) (he : NoErr rs) :
    ∃ bytes, t.sink.out = c.sink.out ++ bytes ∧
      StreamsOf (StreamOf (BlockItems (Item.Dist (· = 1)) c.ok (2 ^ c.o.wbits)) (2 ^ c.o.wbits) c.o.dict (container c.o.format)) bytes
        (segsOf (ops ++ [.close])).done := by
  have hlim : c.start.lz.maxDist ≤ 1 := by
    show LZ.maxDist { opts := hybridOptions c.o, propose := c.propose } ≤ 1
    unfold LZ.maxDist hybridOptions
    simp only [hs]; simp
  obtain ⟨bytes, ho, hst⟩ := out_streams h (blockOK_any c.L _ True hlim) (fun _ _ _ => trivial) hc hr he
  refine ⟨bytes, ho, streams_imp (fun b a => stream_imp (fun _ _ _ _ _ e => ?_)) hst⟩
  have e' := blockItems (P := Item.Dist (· = 1)) (fun ll d i hv hx => by
    cases i with
    | lit b => trivial
    | ref li lx di dx =>
      have := refDist_pos (dx := dx) hv.2.2.1
      have hx : refDist di dx ≤ 1 := hx
      show refDist di dx = 1
      omega) e
  have h1 : 1 ≤ 2 ^ c.o.wbits := Nat.one_le_two_pow
  cases e' with
  | stored pad data h1 h2 => exact .stored pad data h1 h2
  | fixed is _ h1 h2 => exact .fixed is _ h1 (expand_mono Nat.one_le_two_pow h2)
  | dynamic hd is _ h1 h2 h3 h4 => exact .dynamic hd is _ h1 h2 h3 (expand_mono Nat.one_le_two_pow h4)

example : ∃ rs t, (demo [.strategy .huffmanRLE, .mlevel 1]).Runs ([.write [1, 1, 1, 1, 1, 1, 9], .flush .syncFlush, .write [7]] ++ [.close]) rs t ∧ NoErr rs :=
  (demo_ok (by decide)).run_close_ok (Or.inr (by decide)) (demo_sink _) (by simp)
example : (demo [.strategy .huffmanRLE, .mlevel 1]).o.strategy = .huffmanRLE := by decide

/-! ### C12 -/

/-- **C12 (part).** When `Flush(PartialFlush)` returns nil while a stream is open, all blocks have been handed over to the underlying
writer except for fewer bits than a machine word has.  (The property says there should be none left.) -/
theorem C12_partial {c : Setup} (h : c.OK) {ops : List WOp} (hc : WOp.close ∉ ops) {rs : List WRes} {t : WState}
    (hr : c.Runs (ops ++ [.flush .partialFlush]) rs t) (he : NoErr rs) {d : List UInt8} (hd : (segsOf ops).cur = some d) :
    ∃ bytes hdr bs left, bytesBits t.sink.out ++ left = bytesBits (c.sink.out ++ bytes ++ hdr) ++ bs ∧ left.length < c.W ∧
      StreamsOf (Stream c.ok (2 ^ c.o.wbits) c.o.dict (container c.o.format)) bytes (segsOf ops).done ∧
      HeaderOf (2 ^ c.o.wbits) c.o.dict (container c.o.format) hdr ∧
      Blocks (BlockEnc c.ok (2 ^ c.o.wbits)) 0 (c.o.dict.getD []) bs (c.o.dict.getD [] ++ d) := by
  obtain ⟨rs1, s, rs2, h1, h2, rfl⟩ := run_append_inv hr
  obtain ⟨hd', bytes, es, k, hh, hl, hcur, hk, hst, hs, ho, hsum⟩ :=
    cur_open h (h.any True) (fun _ _ _ => trivial) hc h1 (fun r x => he r (by simp [x])) hd
  obtain ⟨r, u, rs', h3, h4, rfl⟩ := run_cons_inv h2
  cases h4
  obtain ⟨kp, hb, _, h0, it⟩ := flush_step h.lawful hl hcur ((h.any True).hist hh) (by simp) (fun _ => trivial) h3 (he r (by simp))
  have := kp.openAt _ _ _ ho
  rw [List.append_nil] at this
  obtain ⟨bs, cc, v1, v2, v3, v4⟩ := this
  rw [hb, List.append_nil] at v4
  subst v4
  refine ⟨bytes, headerBytes c.o hd', bs, natBits t.obLen t.obBlock, ?_, ?_, hs, headerBytes_of h.full hk, v2⟩
  · rw [← v1, view, out_pushed it]
  · rw [natBits_length]
    have hW : t.W = c.W := by
      have hr' := reach h hr
      obtain ⟨_, _, hh', _⟩ := hr'
      exact hh'.W
    rw [← hW]; exact it.lt

example : ∃ rs t, (demo [.format .raw, .mlevel 1]).Runs ([.write [1, 2], .flush .blockFlush, .write [3]] ++ [.flush .partialFlush]) rs t ∧ NoErr rs :=
  (demo_ok (by decide)).run_ok (Or.inr (by decide)) (demo_sink _) (by simp)

/-- results, output and event kinds of a history -/
def Setup.eval (c : Setup) (ops : List WOp) : Option (List WRes × List UInt8 × List EvKind) :=
  match runOps c.L ops c.start with
  | .ok (rs, t) => some (rs, t.sink.out, t.events.map fun p => p.ev.kind)
  | _ => none

theorem Setup.eval_runs {c : Setup} {ops : List WOp} {rs : List WRes} {out : List UInt8} {ks : List EvKind}
    (h : c.eval ops = some (rs, out, ks)) :
    ∃ t, c.Runs ops rs t ∧ t.sink.out = out ∧ t.events.map (fun p => p.ev.kind) = ks := by
  unfold Setup.eval at h
  unfold Setup.Runs
  cases e : runOps c.L ops c.start with
  | error x => rw [e] at h; cases h
  | ok x =>
    obtain ⟨rs', t⟩ := x
    rw [e] at h
    cases h
    exact ⟨t, rfl, rfl, rfl⟩

def wit : Setup := ⟨refLib, 64, fun _ => some (1, 99), {}, [.format .raw]⟩
theorem wit_ok : wit.OK := ⟨refLib_lawful, Or.inr rfl, by decide⟩

/-- **C12 is false**: after writing 100 bytes and a successful `PartialFlush`, the underlying writer has received nothing at all. -/
theorem C12_fails : wit.OK ∧ wit.SinkOK ∧ ∃ t, wit.Runs [.write (List.replicate 100 7), .flush .partialFlush] [.write 100 none, .flush none] t ∧
    t.sink.out = [] := by
  refine ⟨wit_ok, ⟨fun _ => rfl, fun _ => rfl, fun _ _ h => by cases h⟩, ?_⟩
  have : (wit.eval [.write (List.replicate 100 7), .flush .partialFlush]).map (fun x => (x.1, x.2.1)) =
      some ([.write 100 none, .flush none], []) := by decide +kernel
  obtain ⟨⟨a, b, ks⟩, h1, h2⟩ := Option.map_eq_some_iff.1 this
  cases h2
  obtain ⟨t, r, e, _⟩ := Setup.eval_runs h1
  exact ⟨t, r, e⟩

/-! ### C30 -/

/-- **C30**, estimates: the number of bits the Writer counts for a static block is the number of bits it then emits
(`view` is everything produced so far: the delivered bytes and the bits in the accumulator). -/
theorem C30_static {s : WState} (hi : WInv s) {ts : List Token} {is : List Item} (ht : ToksAre ts is) (f : Bool) :
    ∃ n, countBits s.W (fun bw => writeStaticBlock bw ts f) = .ok n ∧
      ∀ t, writeStaticBlock wBW ts f s = .ok (true, t) → (view t).length = (view s).length + n := by
  refine ⟨(cmdsBits 0 (staticCmds is f)).length, ?_, ?_⟩
  · unfold countBits
    dsimp only
    rw [writeStaticBlock_eq (bitcounter s.W) ht f, counter_run (static_ok (ge32 hi.hW) is f)]
    simp
  · intro t e
    obtain ⟨b, u, es, e', _, ok, _⟩ := writeStaticBlock_does hi ht f
    rw [e] at e'
    cases e'
    rw [(ok rfl).1.view, List.length_append, static_bits]

/-- the same for a dynamic block with any codes for the symbols which occur -/
theorem C30_dynamic {L : HuffLib} (hL : L.Lawful) {s : WState} (hi : WInv s) {ts : List Token} {is : List Item} (ht : ToksAre ts is)
    {sLL sD : List Nat} (hc : CodesOK L sLL sD) (f : Bool) :
    ∃ n, countBits s.W (fun bw => writeDynamicBlock bw L sLL sD ts f) = .ok n ∧
      ∀ t, writeDynamicBlock wBW L sLL sD ts f s = .ok (true, t) → (view t).length = (view s).length + n := by
  obtain ⟨hd, v, e1, e2, hdyn⟩ := writeDynamicBlock_eq hL hc
  refine ⟨(cmdsBits 0 (dynCmds hd is f)).length, ?_, ?_⟩
  · unfold countBits
    dsimp only
    rw [hdyn (bitcounter s.W) ht f, counter_run (dyn_ok (ge32 hi.hW) hL v is f)]
    simp
  · intro t e
    rw [hdyn wBW ht f] at e
    obtain ⟨b, u, es, e', _, ok, _⟩ := run_does _ hi (dyn_ok (ge32 hi.hW) hL v is f)
    rw [e] at e'
    cases e'
    rw [(ok rfl).1.view, List.length_append, dyn_bits v, dyn_bits v]

/-- the estimate for a stored block (3 + 32 + 8 n) leaves out the padding -/
theorem C30_stored {s : WState} (hi : WInv s) {data : List UInt8} (hd : data.length ≤ 65535) (f : Bool) :
    ∀ t, writeStoredBlock wBW data f s = .ok (true, t) →
      (view t).length = (view s).length + (data.length * 8 + 35) + padLen ((view s).length + 3) := by
  intro t e
  obtain ⟨b, u, es, e', _, ok, _⟩ := writeStoredBlock_does hi hd f
  rw [e] at e'
  cases e'
  rw [(ok rfl).1.view]
  simp [padBits]; omega

/-- **C30 (part)**, choice: the encoding chosen is never larger than the dynamic one, and if it is not `stored` it is the smaller one of
static and dynamic.  -/
theorem C30_choice_partial {L : HuffLib} (hL : L.Lawful) {s : WState} (hi : WInv s) {ts : List Token} {is : List Item} (ht : ToksAre ts is)
    (data : List UInt8) (f : Bool) :
    ∃ fLL fD nd ns, studyFrequenciesLLD ts = .ok (fLL, fD) ∧
      countBits s.W (fun bw => writeDynamicBlock bw L (L.sizes 288 fLL) (L.sizes 32 fD) ts f) = .ok nd ∧
      countBits s.W (fun bw => writeStaticBlock bw ts f) = .ok ns ∧
      (data.length * 8 + 35 < nd → compressTokens wBW s.W L data ts f s = writeStoredBlock wBW data f s) ∧
      (nd ≤ data.length * 8 + 35 → ns ≤ nd → compressTokens wBW s.W L data ts f s = writeStaticBlock wBW ts f s) ∧
      (nd ≤ data.length * 8 + 35 → nd < ns →
        compressTokens wBW s.W L data ts f s = writeDynamicBlock wBW L (L.sizes 288 fLL) (L.sizes 32 fD) ts f s) := by
  obtain ⟨fLL, fD, e, hc, hv⟩ := study_codes hL ht
  obtain ⟨nd, h1, _⟩ := C30_dynamic hL hi ht hc f
  obtain ⟨ns, h2, _⟩ := C30_static hi ht f
  refine ⟨fLL, fD, nd, ns, e, h1, h2, ?_, ?_, ?_⟩
  all_goals
    intros
    unfold compressTokens
    rw [e]
    simp only [lift_ok, Go.pure_bind, physicalNumLLCodes, physicalNumDCodes]
    rw [h1, h2]
    simp only [lift_ok, Go.pure_bind]
  · rw [if_pos (by assumption)]
  · rw [if_neg (by omega), if_pos (by assumption)]
  · rw [if_neg (by omega), if_neg (by omega)]

/-- **C30 (part)**, size of the block written: when the dynamic form is no larger than the stored form without padding (`35` bits
and the data), the block written has the size of the smallest of the three forms; otherwise it is stored, and at most `6` bits larger
than the dynamic form would have been.  What is missing for the whole claim: in the second case the static form may be the smallest. -/
theorem C30_best_partial {L : HuffLib} (hL : L.Lawful) {s : WState} (hi : WInv s) {ts : List Token} {is : List Item} (ht : ToksAre ts is)
    {data : List UInt8} (hd : data.length ≤ 65535) (f : Bool) :
    ∃ fLL fD nd ns, studyFrequenciesLLD ts = .ok (fLL, fD) ∧
      (∀ t, writeDynamicBlock wBW L (L.sizes 288 fLL) (L.sizes 32 fD) ts f s = .ok (true, t) → (view t).length = (view s).length + nd) ∧
      (∀ t, writeStaticBlock wBW ts f s = .ok (true, t) → (view t).length = (view s).length + ns) ∧
      ∀ t, compressTokens wBW s.W L data ts f s = .ok (true, t) →
        (nd ≤ data.length * 8 + 35 → (view t).length = (view s).length + min ns nd ∧
          ∀ u, writeStoredBlock wBW data f s = .ok (true, u) → (view t).length ≤ (view u).length) ∧
        (data.length * 8 + 35 < nd → writeStoredBlock wBW data f s = .ok (true, t) ∧ (view t).length ≤ (view s).length + nd + 6) := by
  obtain ⟨fLL, fD, e, hc, hv⟩ := study_codes hL ht
  obtain ⟨nd, h1, h1'⟩ := C30_dynamic hL hi ht hc f
  obtain ⟨ns, h2, h2'⟩ := C30_static hi ht f
  obtain ⟨fLL2, fD2, nd2, ns2, e2, g1, g2, a1, a2, a3⟩ := C30_choice_partial hL hi ht data f
  rw [e] at e2
  cases e2
  rw [h1] at g1
  cases g1
  rw [h2] at g2
  cases g2
  refine ⟨fLL, fD, nd, ns, e, h1', h2', fun t ht => ⟨fun hn => ?_, fun hn => ?_⟩⟩
  · have hl : (view t).length = (view s).length + min ns nd := by
      by_cases hm : ns ≤ nd
      · rw [a2 hn hm] at ht
        rw [h2' t ht]
        omega
      · rw [a3 hn (by omega)] at ht
        rw [h1' t ht]
        omega
    refine ⟨hl, fun u hu => ?_⟩
    rw [C30_stored hi hd f u hu, hl]
    omega
  · rw [a1 hn] at ht
    refine ⟨ht, ?_⟩
    rw [C30_stored hi hd f t ht]
    have : padLen ((view s).length + 3) < 8 := by unfold padLen; omega
    omega

example : ∃ is, ToksAre [makeLiteralToken 7, ⟨5, 1⟩, makeStopToken] is := by
  obtain ⟨li, lx, di, dx, ht, _, _⟩ := tokIs_copy (len := 5) (dist := 1) (by decide) (by decide) (by decide) (by decide)
  exact ⟨_, toks_stop (.cons (.lit 7) (.cons ht .nil))⟩

/-- **C30 is false**: the single byte 7 is stored, in 43 bits and padding, while a static block takes 18 bits. -/
theorem C30_fails : wit.OK ∧ (∃ t, wit.Runs [.write [7], .close] [.write 1 none, .close none] t ∧
      t.sink.out = [0, 1, 0, 254, 255, 7] ++ [1, 0, 0, 255, 255]) ∧
    StoredEnc 0 false [] (bytesBits [0, 1, 0, 254, 255, 7]) [7] ∧
    ∃ bits, BlockEnc wit.ok (2 ^ wit.o.wbits) 0 false [] bits [7] ∧ bits.length = 18 := by
  refine ⟨wit_ok, ?_, ⟨[false, false, false, false, false], [7], by decide, by decide, by decide, rfl⟩, ?_⟩
  · have : (wit.eval [.write [7], .close]).map (fun x => (x.1, x.2.1)) =
        some ([.write 1 none, .close none], [0, 1, 0, 254, 255, 7, 1, 0, 0, 255, 255]) := by decide +kernel
    obtain ⟨⟨a, b, ks⟩, h1, h2⟩ := Option.map_eq_some_iff.1 this
    cases h2
    obtain ⟨t, r, e, _⟩ := Setup.eval_runs h1
    exact ⟨t, r, e⟩
  · refine ⟨_, .fixed [.lit 7] [7] ?_ rfl, by decide +kernel⟩
    intro i hi
    rw [List.mem_singleton] at hi
    subst hi
    exact fixed_used (by decide)

/-! ### C32 and C31: refuted -/

/-- **C32 is false** of level 0 if `Flush(PartialFlush)` is called: it writes an empty block which is not a stored one. -/
theorem C32_fails : (demo [.format .raw, .clevel 0]).OK ∧
    ∃ rs t, (demo [.format .raw, .clevel 0]).Runs [.write [7], .flush .partialFlush, .close] rs t ∧ NoErr rs ∧
      .blockBegin .static false ∈ t.events.map (fun p => p.ev.kind) := by
  refine ⟨demo_ok (by decide), ?_⟩
  have : ((demo [.format .raw, .clevel 0]).eval [.write [7], .flush .partialFlush, .close]).map (fun x => (x.1, x.2.2.contains (.blockBegin .static false))) =
      some ([.write 1 none, .flush none, .close none], true) := by decide +kernel
  obtain ⟨⟨a, b, ks⟩, h1, h2⟩ := Option.map_eq_some_iff.1 this
  obtain ⟨t, r, _, ek⟩ := Setup.eval_runs h1
  have h3 := congrArg Prod.fst h2
  have h4 := congrArg Prod.snd h2
  dsimp only at h3 h4
  refine ⟨a, t, r, ?_, by rw [ek]; simpa using h4⟩
  rw [h3]
  intro x hx
  simp at hx
  rcases hx with rfl | rfl | rfl <;> rfl

def witFixed : Setup := ⟨refLib, 64, fun _ => none, {}, [.format .raw, .strategy .fixed]⟩

/-- **C31 is false**: with FixedStrategy, 200 equal bytes are emitted as a dynamic block. -/
theorem C31_fails : witFixed.OK ∧ witFixed.o.strategy = .fixed ∧
    ∃ rs t, witFixed.Runs [.write (List.replicate 200 7), .close] rs t ∧ NoErr rs ∧
      .blockBegin .dynamic false ∈ t.events.map (fun p => p.ev.kind) := by
  refine ⟨⟨refLib_lawful, Or.inr rfl, by decide⟩, by decide, ?_⟩
  have : (witFixed.eval [.write (List.replicate 200 7), .close]).map (fun x => (x.1, x.2.2.contains (.blockBegin .dynamic false))) =
      some ([.write 200 none, .close none], true) := by decide +kernel
  obtain ⟨⟨a, b, ks⟩, h1, h2⟩ := Option.map_eq_some_iff.1 this
  obtain ⟨t, r, _, ek⟩ := Setup.eval_runs h1
  have h3 := congrArg Prod.fst h2
  have h4 := congrArg Prod.snd h2
  dsimp only at h3 h4
  refine ⟨a, t, r, ?_, by rw [ek]; simpa using h4⟩
  rw [h3]
  intro x hx
  simp at hx
  rcases hx with rfl | rfl <;> rfl

/-! ### C49 (Writer) -/

/-- what the Writer can be asked to put out -/
inductive Field where
  /-- the `n` low bits of `v`, least significant first -/
  | bits (n v : Nat)
  /-- pad with zeros up to a byte boundary -/
  | align
  /-- whole bytes, on a byte boundary -/
  | bytes (p : List UInt8)

/-- the bit sequence meant -/
def packed (acc : List Bool) : List Field → List Bool
  | [] => acc
  | .bits n v :: r => packed (acc ++ natBits n v) r
  | .align :: r => packed (acc ++ List.replicate (padLen acc.length) false) r
  | .bytes p :: r => packed (acc ++ List.replicate (padLen acc.length) false ++ bytesBits p) r

/-- the Writer's functions for these -/
def putFields : List Field → Go WState Bool
  | [] => fun s => .ok (true, s)
  | .bits n v :: r => Go.chk (wBitsWrite n v) (putFields r)
  | .align :: r => Go.chk wBitsFlush (putFields r)
  | .bytes p :: r => Go.chk (wBufWrite p) (putFields r)

def Field.cmd : Field → Cmd
  | .bits n v => .bits n v
  | .align => .flush
  | .bytes p => .bytes p

theorem putFields_run (fs : List Field) : putFields fs = run wBW (fs.map Field.cmd) := by
  induction fs with
  | nil => rfl
  | cons f fs ih =>
    cases f <;> (unfold putFields; rw [ih]; rfl)

theorem packed_cmds (fs : List Field) (acc : List Bool) : packed acc fs = acc ++ cmdsBits acc.length (fs.map Field.cmd) := by
  induction fs generalizing acc with
  | nil => simp [packed, cmdsBits]
  | cons f fs ih =>
    cases f <;>
      (simp only [packed, ih, List.map_cons, Field.cmd, cmdsBits, cmdBits, padBits, List.length_append, List.append_assoc, Nat.add_assoc])

/-- **C49 (Writer).** Whatever fields a Writer (32 or 64 bits) puts out: if the underlying writer accepts everything, then the bytes it
has received, followed by fewer than a word of pending bits, are exactly the LSB-first packing of the fields, appended to what was there
before; and if the fields end with an `align` or `bytes` nothing is pending. -/
theorem C49_writer {s : WState} (hi : WInv s) (hr : Reliable s) (h0 : s.obLen = 0) {fs : List Field}
    (hf : ∀ n v, .bits n v ∈ fs → n ≤ s.W) :
    ∃ t left, putFields fs s = .ok (true, t) ∧ bytesBits t.sink.out ++ left = packed (bytesBits s.sink.out) fs ∧ left.length < s.W ∧
      (∀ fs' p, fs = fs' ++ [.align] ∨ fs = fs' ++ [.bytes p] → left = []) := by
  have hok : ∀ c ∈ fs.map Field.cmd, cmdOK s.W c := by
    intro c hc
    obtain ⟨f, hf', rfl⟩ := List.mem_map.1 hc
    cases f with
    | bits n v => exact hf n v hf'
    | align => trivial
    | bytes p => trivial
  obtain ⟨b, t, es, e, st, ok, bad, rel⟩ := run_does (fs.map Field.cmd) hi hok
  have hb := rel hr
  subst hb
  obtain ⟨av, _⟩ := ok rfl
  have hv := av.view
  rw [view_zero h0, out_pushed hi] at hv
  refine ⟨t, natBits t.obLen t.obBlock, by rw [putFields_run]; exact e, ?_, ?_, ?_⟩
  · rw [packed_cmds, ← hv, view, out_pushed av.inv]
  · rw [natBits_length, ← st.core.W]; exact av.inv.lt
  · intro fs' p hx
    have hz : t.obLen = 0 := by
      rcases hx with rfl | rfl
      · rw [List.map_append, run_append] at e
        obtain ⟨u, e1, e2⟩ := chk_true_inv e
        rw [List.map_singleton, run_one] at e2
        exact wBitsFlush_zero e2
      · rw [List.map_append, run_append] at e
        obtain ⟨u, e1, e2⟩ := chk_true_inv e
        rw [List.map_singleton, run_one] at e2
        exact wBufWrite_zero e2
    rw [hz]; rfl

/-- in particular the bytes do not depend on the word size -/
theorem C49_words {s s' : WState} (hi : WInv s) (hi' : WInv s') (hr : Reliable s) (hr' : Reliable s') (h0 : s.obLen = 0) (h0' : s'.obLen = 0)
    (hs : s.sink.out = s'.sink.out) {fs : List Field} (hf : ∀ n v, .bits n v ∈ fs → n ≤ 32) :
    ∃ t t', putFields (fs ++ [.align]) s = .ok (true, t) ∧ putFields (fs ++ [.align]) s' = .ok (true, t') ∧ t.sink.out = t'.sink.out := by
  have hf1 : ∀ {u : WState}, WInv u → ∀ n v, Field.bits n v ∈ fs ++ [.align] → n ≤ u.W := by
    intro u hu n v h
    have := ge32 hu.hW
    have := hf n v (by simpa using h)
    omega
  obtain ⟨t, l, e, h1, _, h2⟩ := C49_writer hi hr h0 (hf1 hi)
  obtain ⟨t', l', e', h1', _, h2'⟩ := C49_writer hi' hr' h0' (hf1 hi')
  refine ⟨t, t', e, e', ?_⟩
  rw [h2 fs [] (Or.inl rfl), List.append_nil] at h1
  rw [h2' fs [] (Or.inl rfl), List.append_nil, ← hs] at h1'
  exact bytesBits_inj (h1.trans h1'.symm)

example : WInv wit.start ∧ Reliable wit.start ∧ wit.start.obLen = 0 := ⟨wit_ok.fresh.inv, fun _ => rfl, rfl⟩

end Flate.Props
