/-
The forms a Reader accepts: C24 and C25 (Reader), C26 and C27 (decoding), C28.
-/
import Verif.Props.RoundTrip
import Verif.Props.Symbols

namespace Flate.Props
open Flate.Spec Flate.Model Flate.Model.Rd Flate.Proof Flate.Proof.R

/-! ### C24, C25: what the header of an accepted stream looks like -/

/-- The first stream: if the Reader takes the input for container format `k` and ends with `io.EOF`, the input begins with a valid
stream of this format. -/
theorem first_accepted {c : RSetup} (h : c.OK) {k : Container} {src : Src} (ht : c.Takes k src) (hne : src.bytes ≠ []) {s : RState} (hr : c.Runs src s)
    (he : actErr s.out.acts = some .eof) : ∃ S data x, c.Stream k S data ∧ src.bytes = S ++ x := by
  obtain ⟨l, r, hl, hf, _, hc⟩ := run_sound h.env src
  have hactErr : ∀ (ds : List (List UInt8)) (e : Err) (post : List Act), actErr (ds.map Act.data ++ .err e :: post) = some e := by
    intro ds e post
    induction ds with
    | nil => rfl
    | cons d ds ih => simpa [actErr] using ih
  unfold RSetup.Runs at hr
  rcases hc with ⟨s', ds, h1, h2, h3, h4, _⟩ | ⟨c', p, _, _, _, _, _, ⟨s', ds, e, post, h1, h2, h3, _⟩ | ⟨h1, _⟩⟩ | ⟨h1, _⟩
  · generalize hw : src.bytes = w at hl
    cases hl with
    | nil =>
      exfalso
      have := last_bytes src
      rw [hw] at this
      rcases h4 with h4 | h4
      · exact hne (hw.trans h4)
      · omega
    | @cons it l' w' _ g1 g2 g3 =>
      have : it.c = k := (hf it (by simp)).trans ht.det
      exact ⟨it.S, it.data, w', this ▸ g1.1, rfl⟩
  · rw [h1] at hr; cases hr
    rw [h2, hactErr] at he
    exact absurd (by simpa using he) h3.ne_eof
  · rw [h1] at hr; cases hr
  · rw [h1] at hr; cases hr

/-- two zlib headers at the same place agree in everything they say -/
theorem zlibHeader_agree {d d' : Option (List UInt8)} {ci ci' : Nat} {hd hd' x x' : List UInt8} (h : ZlibHeader d ci hd) (h' : ZlibHeader d' ci' hd') (he : hd ++ x = hd' ++ x') :
    ci = ci' ∧ d.isSome = d'.isSome ∧ ∀ e e', d = some e → d' = some e' → adler32 e = adler32 e' := by
  obtain ⟨a, b, h1, h2, h3, h4⟩ := h
  obtain ⟨a', b', h1', h2', h3', h4'⟩ := h'
  have key : ∀ (p q : List UInt8), hd = [a, b] ++ p → hd' = [a', b'] ++ q → a = a' ∧ b = b' ∧ p ++ x = q ++ x' := by
    intro p q e1 e2
    rw [e1, e2] at he
    simp at he
    exact he
  cases d with
  | none =>
    cases d' with
    | none =>
      obtain ⟨rfl, rfl, _⟩ := key [] [] (by simpa using h4.2) (by simpa using h4'.2)
      exact ⟨h2.symm.trans h2', rfl, fun _ _ h => by cases h⟩
    | some e' =>
      obtain ⟨rfl, rfl, _⟩ := key [] _ (by simpa using h4.2) h4'.2
      rw [h4.1] at h4'; exact absurd h4'.1 (by simp)
  | some e =>
    cases d' with
    | none =>
      obtain ⟨rfl, rfl, _⟩ := key _ [] h4.2 (by simpa using h4'.2)
      rw [h4.1] at h4'; exact absurd h4'.1 (by simp)
    | some e' =>
      obtain ⟨rfl, rfl, h5⟩ := key _ _ h4.2 h4'.2
      refine ⟨h2.symm.trans h2', rfl, fun _ _ g g' => ?_⟩
      cases g; cases g'
      have h6 := (List.append_inj h5 (by simp [beBytes])).1
      have h7 := congrArg beVal h6
      rwa [beVal_beBytes 4 _ (adler_lt e), beVal_beBytes 4 _ (adler_lt e')] at h7

/-- **C24, C25** (Reader).  If a Reader takes its input for zlib (because the caller said so or because it looks like it) and reports no error, then the
input begins with a zlib header (CM = 8, divisible by 31) which declares a window not larger than the Reader's, which announces
a preset dictionary exactly when the Reader was given one, and then names the Adler-32 of that very dictionary. -/
theorem C24_reader {c : RSetup} (h : c.OK) {src : Src} (ht : c.Takes .zlib src) (hne : src.bytes ≠ []) {s : RState} (hr : c.Runs src s)
    (he : actErr s.out.acts = some .eof) :
    ∃ cinfo hdr rest, src.bytes = hdr ++ rest ∧ ZlibHeader c.o.dict cinfo hdr ∧ 2 ^ (cinfo + 8) ≤ 2 ^ c.o.wbits := by
  obtain ⟨S, data, x, ⟨ci, hdr, body, h1, h2, _, h4⟩, hb⟩ := first_accepted h ht hne hr he
  exact ⟨ci, hdr, body ++ beBytes 4 (adler32 data) ++ x, by rw [hb, h4]; simp, h1, h2⟩

/-- **C24** (Reader), the other way round: input with the header of another dictionary, or with a dictionary where there should be none or
none where there should be one, does not end with `io.EOF`. -/
theorem C24_wrong_dict {c : RSetup} (h : c.OK) {src : Src} (ht : c.Takes .zlib src) {dict : Option (List UInt8)} {cinfo : Nat} {hdr rest : List UInt8}
    (hz : ZlibHeader dict cinfo hdr) (hb : src.bytes = hdr ++ rest)
    (hw : dict.isSome ≠ c.o.dict.isSome ∨ ∃ d d', dict = some d ∧ c.o.dict = some d' ∧ adler32 d ≠ adler32 d') {s : RState} (hr : c.Runs src s) :
    actErr s.out.acts ≠ some .eof := by
  intro he
  have hne : src.bytes ≠ [] := by
    obtain ⟨a, b, _, _, _, h4⟩ := hz
    rw [hb]
    intro h0
    cases dict with
    | none => rw [h4.2] at h0; simp at h0
    | some d => rw [h4.2] at h0; simp at h0
  obtain ⟨ci, hdr', rest', e1, e2, _⟩ := C24_reader h ht hne hr he
  obtain ⟨_, g2, g3⟩ := zlibHeader_agree hz e2 (hb.symm.trans e1)
  rcases hw with hw | ⟨d, d', w1, w2, w3⟩
  · exact hw g2
  · exact w3 (g3 d d' w1 w2)

/-- **C25** (Reader): a stream which declares a window larger than the Reader's is not accepted. -/
theorem C25_declared {c : RSetup} (h : c.OK) {src : Src} (ht : c.Takes .zlib src) {dict : Option (List UInt8)} {cinfo : Nat} {hdr rest : List UInt8}
    (hz : ZlibHeader dict cinfo hdr) (hb : src.bytes = hdr ++ rest) (hw : c.o.wbits < cinfo + 8) {s : RState} (hr : c.Runs src s) :
    actErr s.out.acts ≠ some .eof := by
  intro he
  have hne : src.bytes ≠ [] := by
    obtain ⟨a, b, _, _, _, h4⟩ := hz
    rw [hb]
    intro h0
    cases dict with
    | none => rw [h4.2] at h0; simp at h0
    | some d => rw [h4.2] at h0; simp at h0
  obtain ⟨ci, hdr', rest', e1, e2, e3⟩ := C24_reader h ht hne hr he
  obtain ⟨g1, _⟩ := zlibHeader_agree hz e2 (hb.symm.trans e1)
  subst g1
  have := (Nat.pow_le_pow_iff_right (by omega : 1 < 2)).1 e3
  omega

/-- **C25** (Reader): in everything a Reader accepts, no back-reference reaches beyond the Reader's window, nor before the beginning of the
data and the dictionary (the latter is part of `expand`, which otherwise has no result). -/
theorem C25_distances {c : RSetup} (h : c.OK) {src : Src} {s : RState} (hr : c.Runs src s) (he : actErr s.out.acts = some .eof) :
    ∃ used rest datas, src.bytes = used ++ rest ∧
      StreamsOf (fun b d => ∃ k, StreamOf (BlockItems (Item.Dist (· ≤ 2 ^ c.o.wbits)) c.ok (2 ^ c.o.wbits)) (2 ^ c.o.wbits) c.o.dict k b d) used datas ∧
      actData s.out.acts = datas.flatten := by
  obtain ⟨used, rest, datas, h1, _, _, h4, h5⟩ := C04_sound h hr he
  refine ⟨used, rest, datas, h1, streams_imp (fun b d hx => ?_) h4, h5⟩
  obtain ⟨k, _, hk⟩ := hx
  exact ⟨k, stream_imp (fun _ _ _ _ _ => blockItems fun _ _ _ _ hx => hx) hk⟩

/-! ### C26, C27: decoding symbols -/

/-- the bits the Reader can still get: those in the accumulator, those in the input buffer, and those the source will deliver (unless it has
already reported its end) -/
def unread (i : Inp) : List Bool := natBits i.ibLen i.ibBlock ++ bytesBits (i.buf ++ if i.inputError.isSome then [] else i.src.bytes)

/-- nobody has closed the Reader, and fewer than 8 bits are in the accumulator, as always between two read operations -/
structure Reading (s : RState) : Prop where
  stop : s.out.stopIsForced = false
  small : Small s.inp

theorem Reading.nm {s : RState} (h : Reading s) : Nm (s.inp.inputError.getD s.inp.src.err) (nrm s) := ⟨rfl, h.stop, ⟨h.small.len, h.small.lt⟩⟩

theorem Reading.run {α : Type} {s : RState} (h : Reading s) {f : Go RState α} (hf : Cm f) {a : α} {s2 : RState} (he : f (nrm s) = .ok (a, s2)) :
    ∃ s1, f s = .ok (a, s1) ∧ nrm s1 = s2 := by
  rw [(hf s h.stop).1] at he
  obtain ⟨s', h1, h2⟩ := mapS_ok he
  exact ⟨s', h1, h2.symm⟩

/-- an error has been reported (the one now, or one before) -/
def Complained (s : RState) : Prop := s.out.errorWasSet = true

/-- **C26**, decoding a length: symbol `257 + li` followed by the extra bits `lx` is the length RFC 1951 says, and no bits beyond are used up. -/
theorem C26_decode_length {c : RSetup} (h : c.OK) {s : RState} (hs : Reading s) {li lx : Nat} (h1 : li < 29) (h2 : lx < 2 ^ lenExtra.getD li 0) {r : List Bool}
    (hb : unread s.inp = natBits (lenExtra.getD li 0) lx ++ r) :
    ∃ s' t, decodeLL c.env (257 + li) s = .ok (some t, s') ∧ t.ll = lenBase.getD li 0 + lx ∧ unread s'.inp = r ∧ s'.out = s.out := by
  obtain ⟨i', a, e⟩ := decodeLL_ok h.env hs.nm h1 h2 hb
  obtain ⟨s1, g1, g2⟩ := hs.run (cm_decodeLL _) e
  refine ⟨s1, _, g1, rfl, ?_, ?_⟩
  · have : vb i' = r := List.append_cancel_left (a.bits.symm.trans hb)
    rw [← this]
    exact congrArg (fun s => vb s.inp) g2
  · exact congrArg (·.out) g2

/-- **C26**, decoding a distance. -/
theorem C26_decode_distance {c : RSetup} (h : c.OK) {s : RState} (hs : Reading s) {di dx len : Nat} (h1 : di < 30) (h2 : dx < 2 ^ distExtra.getD di 0)
    (h3 : 3 ≤ len) (h4 : len ≤ 258) {r : List Bool} (hb : unread s.inp = natBits (distExtra.getD di 0) dx ++ r) :
    ∃ s', decodeD c.env di len s = .ok (some ⟨len, distBase.getD di 0 + dx⟩, s') ∧ unread s'.inp = r ∧ s'.out = s.out := by
  obtain ⟨i', a, e⟩ := decodeD_ok h.env hs.nm h1 h2 h3 h4 hb
  obtain ⟨s1, g1, g2⟩ := hs.run (cm_decodeD _ _) e
  refine ⟨s1, g1, ?_, congrArg (·.out) g2⟩
  have : vb i' = r := List.append_cancel_left (a.bits.symm.trans hb)
  rw [← this]
  exact congrArg (fun s => vb s.inp) g2

/-- **C26**: whatever bits follow, a length symbol yields a legal length or an error. -/
theorem C26_decode_legal {c : RSetup} (h : c.OK) {s : RState} (hs : Reading s) (sym : Nat) :
    (∃ s' t, decodeLL c.env sym s = .ok (some t, s') ∧ (t = ⟨sym, 0⟩ ∧ sym ≤ 256 ∨ 257 ≤ sym ∧ sym < 286 ∧ t.dist ≠ 0 ∧ 3 ≤ t.ll ∧ t.ll ≤ 258)) ∨
    (∃ s', decodeLL c.env sym s = .ok (none, s') ∧ Complained s') := by
  by_cases h1 : sym < 256
  · exact Or.inl ⟨s, _, decodeLL_lit h1, Or.inl ⟨rfl, by omega⟩⟩
  by_cases h2 : sym = 256
  · subst h2; exact Or.inl ⟨s, _, decodeLL_stop, Or.inl ⟨rfl, by omega⟩⟩
  by_cases h3 : sym < 286
  · obtain ⟨li, rfl⟩ : ∃ li, sym = 257 + li := ⟨sym - 257, by omega⟩
    rcases decodeLL_ref h.env hs.nm (li := li) (by omega) with ⟨lx, i', g1, _, e⟩ | ⟨_, s', e, f⟩
    · obtain ⟨s1, k1, _⟩ := hs.run (cm_decodeLL _) e
      have := refLen_range (li := li) (by omega) g1
      exact Or.inl ⟨s1, _, k1, Or.inr ⟨by omega, h3, by simp, this.1, this.2⟩⟩
    · obtain ⟨s1, k1, k2⟩ := hs.run (cm_decodeLL _) e
      refine Or.inr ⟨s1, k1, ?_⟩
      obtain ⟨_, _, _, _, rfl⟩ := f
      have := congrArg (fun s => s.out.errorWasSet) k2
      exact this.trans (closeOut_set _ _)
  · obtain ⟨s', e, f⟩ := decodeLL_bad (E := c.env) (s := s) (sym := sym) (by omega) .eof
    refine Or.inr ⟨s', e, ?_⟩
    obtain ⟨_, _, _, _, rfl⟩ := f
    exact closeOut_set _ _

/-- **C26**: the literal/length symbols 286 and 287 and the distance symbols 30 and 31 (and anything larger) are rejected: the function fails and an
error is reported. -/
theorem C26_rejected (c : RSetup) (s : RState) :
    (∀ sym, 286 ≤ sym → ∃ s', decodeLL c.env sym s = .ok (none, s') ∧ Complained s') ∧
    (∀ sym len, 30 ≤ sym → ∃ s', decodeD c.env sym len s = .ok (none, s') ∧ Complained s') := by
  constructor
  · intro sym hsym
    obtain ⟨s', e, _, _, _, _, rfl⟩ := decodeLL_bad (E := c.env) (s := s) (sym := sym) hsym .eof
    exact ⟨_, e, closeOut_set _ _⟩
  · intro sym len hsym
    obtain ⟨s', e, _, _, _, _, rfl⟩ := decodeD_bad (E := c.env) (s := s) (sym := sym) (len := len) hsym .eof
    exact ⟨_, e, closeOut_set _ _⟩

/-- **C26**: decoding inverts encoding.  For every length and distance, the Reader makes the same length and distance of the symbols and
extra bits which the Writer chooses. -/
theorem C26_inverse {c : RSetup} (h : c.OK) {len dist : Nat} (h1 : 3 ≤ len) (h2 : len ≤ 258) (h3 : 1 ≤ dist) (h4 : dist ≤ 32768) :
    ∃ sl nl xl sd nd xd, Token.symbolLL ⟨len, dist⟩ = .ok (some sl, nl, xl) ∧ Token.symbolD ⟨len, dist⟩ = .ok (some sd, nd, xd) ∧
      (∀ s r, Reading s → unread s.inp = natBits nl xl ++ r → ∃ s' t, decodeLL c.env sl s = .ok (some t, s') ∧ t.ll = len ∧ t.dist ≠ 0 ∧ unread s'.inp = r) ∧
      (∀ s r, Reading s → unread s.inp = natBits nd xd ++ r → ∃ s', decodeD c.env sd len s = .ok (some ⟨len, dist⟩, s') ∧ unread s'.inp = r) := by
  obtain ⟨li, lx, e1, g1, g2, g3⟩ := C26_encode_length (dist := dist) h1 h2 (by omega)
  obtain ⟨di, dx, e2, k1, k2, k3⟩ := C26_encode_distance (len := len) h3 h4
  refine ⟨_, _, _, _, _, _, e1, e2, fun s r hs hb => ?_, fun s r hs hb => ?_⟩
  · obtain ⟨s', t, q1, q2, q3, _⟩ := C26_decode_length h hs g1 g2 hb
    refine ⟨s', t, q1, q2.trans g3, ?_, q3⟩
    rcases C26_decode_legal h hs (257 + li) with ⟨_, t', w1, w2⟩ | ⟨_, w1, _⟩
    · rw [q1] at w1
      cases w1
      rcases w2 with ⟨_, w2⟩ | w2
      · omega
      · exact w2.2.2.1
    · rw [q1] at w1; cases w1
  · obtain ⟨s', q1, q2, _⟩ := C26_decode_distance h hs k1 k2 h1 h2 hb
    rw [k3] at q1
    exact ⟨s', q1, q2⟩

/-- **C27**, decoding: the code lengths which the Reader obtains, when it asks for `total` of them, are those RFC 1951 3.2.7 assigns to the sequence of
code length symbols read, and exactly `total`; otherwise it fails with an error.  (The model's function would panic if it wrote a length beyond
the `total`-th.) -/
theorem C27_decode {c : RSetup} (h : c.OK) {s : RState} (hs : Reading s) {cl : List Nat} (ha : c.ok cl) (hcl : cl.length = 19) (total : Nat) :
    (∃ rle lens s', lensStart c.env cl total s = .ok (some lens, s') ∧ (∀ p ∈ rle, Used cl p.1 ∧ p.2 < 2 ^ clExtra p.1) ∧ clExpand [] rle = some lens ∧ lens.length = total ∧
      unread s.inp = rle.flatMap (fun p => codeBits cl p.1 ++ natBits (clExtra p.1) p.2) ++ unread s'.inp) ∨
    (∃ s', lensStart c.env cl total s = .ok (none, s') ∧ Complained s') := by
  have hcm : Cm (lensStart c.env cl total) := cm_lensStart _ _
  rcases lensLoop_sound h.env ha hcl (total := total) ((nrm s).inp.bits + 1) [] hs.nm (by simp) (by have := vb_bits (nrm s).inp; omega) with ⟨rle, lens, i', g1, g2, g3, g4, e⟩ | ⟨s', e, f⟩
  · obtain ⟨s1, k1, k2⟩ := hs.run hcm e
    refine Or.inl ⟨rle, lens, s1, k1, g1, g2, g3, ?_⟩
    have := congrArg (fun s => vb s.inp) k2
    have e2 : unread s1.inp = vb i' := this
    rw [e2]
    exact g4.bits
  · obtain ⟨s1, k1, k2⟩ := hs.run hcm e
    refine Or.inr ⟨s1, k1, ?_⟩
    obtain ⟨_, _, _, _, rfl⟩ := f
    have := congrArg (fun s => s.out.errorWasSet) k2
    exact this.trans (closeOut_set _ _)

/-- **C27**, decoding: every sequence of code length symbols which makes `total` lengths is understood. -/
theorem C27_decode_all {c : RSetup} (h : c.OK) {s : RState} (hs : Reading s) {cl : List Nat} (ha : c.ok cl) (hcl : cl.length = 19) {rle : List (Nat × Nat)} {lens : List Nat} {r : List Bool}
    (h1 : ∀ p ∈ rle, Used cl p.1 ∧ p.2 < 2 ^ clExtra p.1) (h2 : clExpand [] rle = some lens) (hb : unread s.inp = rle.flatMap (fun p => codeBits cl p.1 ++ natBits (clExtra p.1) p.2) ++ r) :
    ∃ s', lensStart c.env cl lens.length s = .ok (some lens, s') ∧ unread s'.inp = r := by
  have hcm : Cm (lensStart c.env cl lens.length) := cm_lensStart _ _
  obtain ⟨i', a, e⟩ := lensLoop_ok h.env ha hcl (total := lens.length) rle ((nrm s).inp.bits + 1) (acc := []) (lens := lens) hs.nm h1 h2 rfl hb (by
    have e3 : rle.length ≤ (rleBits cl rle).length := by
      clear hb h2
      unfold rleBits
      induction rle with
      | nil => simp
      | cons p l ih =>
        have u := (h1 p (by simp)).1
        have := ih fun p hp => h1 p (by simp [hp])
        unfold Used at u
        simp only [List.flatMap_cons, List.length_append, List.length_cons, codeBits_length]
        omega
    have e4 := vb_bits (nrm s).inp
    have e5 : vb (nrm s).inp = rleBits cl rle ++ r := hb
    rw [e5, List.length_append] at e4
    omega)
  obtain ⟨s1, k1, k2⟩ := hs.run hcm e
  refine ⟨s1, k1, ?_⟩
  have : vb i' = r := List.append_cancel_left (a.bits.symm.trans hb)
  rw [← this]
  exact congrArg (fun s => vb s.inp) k2

/-! ### C28 -/

/-- literals and copies of legal length and distance, followed by the end-of-block token -/
def LegalTokens (ts : List Token) : Prop :=
  ∃ body, ts = body ++ [makeStopToken] ∧ ∀ t ∈ body, t.dist = 0 ∧ t.ll < 256 ∨ 3 ≤ t.ll ∧ t.ll ≤ 258 ∧ 1 ≤ t.dist ∧ t.dist ≤ 32768

theorem LegalTokens.items {ts : List Token} (h : LegalTokens ts) : ∃ is, ToksAre ts is := by
  obtain ⟨body, rfl, hb⟩ := h
  induction body with
  | nil => exact ⟨[], .stop⟩
  | cons t body ih =>
    obtain ⟨is, his⟩ := ih fun t ht => hb t (by simp [ht])
    obtain ⟨l, d⟩ := t
    rcases hb ⟨l, d⟩ (by simp) with ⟨h1, h2⟩ | ⟨h1, h2, h3, h4⟩
    · have h1 : d = 0 := h1
      have h2 : l < 256 := h2
      subst h1
      have e : (⟨l, 0⟩ : Token) = makeLiteralToken (UInt8.ofNat l) := by
        unfold makeLiteralToken
        rw [UInt8.toNat_ofNat_of_lt' (by simpa using h2)]
      rw [e]
      exact ⟨_, .cons (.lit _) his⟩
    · obtain ⟨li, lx, di, dx, h5, _⟩ := tokIs_copy h1 h2 h3 h4
      exact ⟨_, .cons h5 his⟩

/-- **C28.** Whatever code lengths `sLL`, `sD` (which the Huffman library accepts, with a code for the end of block and none for the
symbols which do not exist) a Writer is to use for a dynamic block: the bits it puts out consist of the three bits of the block header, the
description of the codes, and data; and a Reader which finds the description (wherever it begins within a byte, however the source cuts
it in pieces, whatever follows) obtains exactly `sLL` and `sD`, and reports them to its tracers. -/
theorem C28_round_trip {c : RSetup} (h : c.OK) {sLL sD : List Nat} (hc : CodesOK c.L sLL sD) {ts : List Token} (ht : LegalTokens ts) (final : Bool)
    {w t : WState} (hw : WInv w) (hrun : writeDynamicBlock wBW c.L sLL sD ts final w = .ok (true, t)) :
    ∃ desc data, view t = view w ++ ([final, false, true] ++ desc ++ data) ∧
      ∀ (s : RState) (r : List Bool), Reading s → unread s.inp = desc ++ r →
        ∃ s' tr, readDynamicTrees c.env final s = .ok (some (sLL, sD), s') ∧ unread s'.inp = r ∧
          s'.events.map (·.kind) = s.events.map (·.kind) ++ [.blockTrees .dynamic final tr] ∧ tr.ll = sLL ∧ tr.d = sD := by
  obtain ⟨is, his⟩ := ht.items
  obtain ⟨hd, hv, e1, e2, hdo⟩ := writeDynamicBlock_eq h.lawful hc
  rw [hdo wBW his final] at hrun
  have hW := ge32 hw.hW
  obtain ⟨b, t', es, g1, _, g3, _⟩ := run_does (dynCmds hd is final) hw (dyn_ok hW h.lawful hv is final)
  rw [hrun] at g1
  cases g1
  obtain ⟨av, _⟩ := g3 rfl
  refine ⟨hd.bits, dataBits hd.ll hd.d is, ?_, fun s r hs hb => ?_⟩
  · rw [av.view, dyn_bits hv]
  · obtain ⟨tr, s2, q1, q2, q3, q4⟩ := trees_ok h.env hs.nm final hv hb
    obtain ⟨s1, k1, k2⟩ := hs.run (cm_trees final) q1
    rw [e1, e2] at k1
    refine ⟨s1, tr, k1, ?_, ?_, by rw [q4]; exact e1, by rw [q4]; exact e2⟩
    · have : vb s2.inp = r := List.append_cancel_left (q2.adv.bits.symm.trans hb)
      rw [← this, ← k2]; rfl
    · have := q2.ev
      rw [← k2] at this
      exact this

/-- **C28** for the code lengths which the Writer chooses for the tokens of a block. -/
theorem C28_chosen {c : RSetup} (h : c.OK) {ts : List Token} (ht : LegalTokens ts) :
    ∃ fLL fD, studyFrequenciesLLD ts = .ok (fLL, fD) ∧ CodesOK c.L (c.L.sizes 288 fLL) (c.L.sizes 32 fD) := by
  obtain ⟨is, his⟩ := ht.items
  obtain ⟨fLL, fD, h1, h2, _⟩ := study_codes h.lawful his
  exact ⟨fLL, fD, h1, h2⟩

/-! ### examples -/

example : Reading (start ⟨[(1, [2, 3])], [4], .eof⟩ false) := ⟨rfl, by show 0 ≤ 7; omega, by show 0 < 1; omega⟩

example : LegalTokens [⟨65, 0⟩, ⟨258, 1⟩, ⟨10, 32768⟩, makeStopToken] :=
  ⟨[⟨65, 0⟩, ⟨258, 1⟩, ⟨10, 32768⟩], rfl, by intro t ht; simp at ht; rcases ht with rfl | rfl | rfl <;> simp⟩

/-- the header of a stream with dictionary "a" and a window of 32 KiB -/
example : ZlibHeader (some [0x61]) 7 [0x78, 0xbb, 0, 0x62, 0, 0x62] := ⟨0x78, 0xbb, by decide, by decide, by decide, by decide, by decide +kernel⟩

end Flate.Props
