/-
C104: a Reader which detects the format recognises what a Writer has written.
-/
import Verif.Props.Auto
import Verif.Props.Determines

namespace Flate.Props
open Flate.Spec Flate.Model Flate.Model.Rd Flate.Model.Conc Flate.Proof Flate.Proof.R Flate.Proof.Cc

/-- a block RFC 1951 allows, with zeros where a decoder skips bits -/
def CleanBlock (ok : List Nat → Prop) (win : Nat) : BlockRel := fun pos f h b h' => BlockEnc ok win pos f h b h' ∧ PadZero pos b

/-- **C104, padding.** The bits which a decoder skips (before the length of a stored block) are zero. -/
theorem C104_padding {c : Setup} (h : c.OK) {ops : List WOp} (hc : WOp.close ∉ ops) {rs : List WRes} {t : WState}
    (hr : c.Runs (ops ++ [.close]) rs t) (he : NoErr rs) :
    ∃ bytes, t.sink.out = c.sink.out ++ bytes ∧
      StreamsOf (StreamOf (CleanBlock c.ok (2 ^ c.o.wbits)) (2 ^ c.o.wbits) c.o.dict (container c.o.format)) bytes (segsOf (ops ++ [.close])).done :=
  out_streams h (blockOK_padZero _ _ True (maxDist_window h.full rfl)) (fun _ _ _ => trivial) hc hr he

theorem byte_cases : ∀ p : UInt8, (((byteBits p).getD 1 false = true ∧ (byteBits p).getD 2 false = false) ∨ ((byteBits p).getD 1 false = false ∧ (byteBits p).getD 2 false = true) ∨
    ((byteBits p).getD 1 false = false ∧ (byteBits p).getD 2 false = false ∧ (byteBits p).getD 3 false = false)) → p ≠ 0x1f ∧ p.toNat % 16 ≠ 8 := by
  intro p
  have : ∀ v < 256, (((byteBits (UInt8.ofNat v)).getD 1 false = true ∧ (byteBits (UInt8.ofNat v)).getD 2 false = false) ∨
      ((byteBits (UInt8.ofNat v)).getD 1 false = false ∧ (byteBits (UInt8.ofNat v)).getD 2 false = true) ∨
      ((byteBits (UInt8.ofNat v)).getD 1 false = false ∧ (byteBits (UInt8.ofNat v)).getD 2 false = false ∧ (byteBits (UInt8.ofNat v)).getD 3 false = false)) →
      UInt8.ofNat v ≠ 0x1f ∧ (UInt8.ofNat v).toNat % 16 ≠ 8 := by decide +kernel
  have h := this p.toNat (UInt8.toNat_lt p)
  rwa [UInt8.ofNat_toNat] at h

/-- The first byte of compressed data with clean blocks is neither that of a gzip nor that of a zlib header. -/
theorem clean_first {ok : List Nat → Prop} {win : Nat} {dict S data : List UInt8} (hS : DeflateOf (CleanBlock ok win) dict S data) :
    ∃ p r, S = p :: r ∧ p ≠ 0x1f ∧ p.toNat % 16 ≠ 8 := by
  have hne : S ≠ [] := deflate_ne (deflate_imp (F := BlockEnc ok win) (fun _ _ _ _ _ h => h.1) hS)
  obtain ⟨p, r, rfl⟩ := List.exists_cons_of_ne_nil hne
  refine ⟨p, r, rfl, byte_cases p ?_⟩
  obtain ⟨bs, b, pad, h, h1, h2, h3, -⟩ := hS
  obtain ⟨f, h0, b0, h0', rest, e, hb⟩ : ∃ f h0 b0 h0' rest, CleanBlock ok win 0 f h0 b0 h0' ∧ bytesBits (p :: r) = b0 ++ rest := by
    cases h1 with
    | nil => exact ⟨_, _, _, _, _, h2, by rw [h3]; rfl⟩
    | cons hx _ => exact ⟨_, _, _, _, _, hx, by rw [h3, List.append_assoc, List.append_assoc]⟩
  have hget : ∀ i, i < 8 → (byteBits p).getD i false = (b0 ++ rest).getD i false := by
    intro i hi
    rw [← hb]
    show _ = (byteBits p ++ bytesBits r).getD i false
    have hl : (byteBits p).length = 8 := by simp [byteBits]
    simp only [List.getD_eq_getElem?_getD]
    rw [List.getElem?_append_left (by omega)]
  rw [hget 1 (by decide), hget 2 (by decide), hget 3 (by decide)]
  obtain ⟨e, z⟩ := e
  cases e with
  | stored pad data hp hd =>
    right; right
    refine ⟨rfl, rfl, ?_⟩
    have := z f (pad ++ natBits 16 data.length ++ natBits 16 (65535 - data.length) ++ bytesBits data) (by simp)
    obtain ⟨x, pad', rfl⟩ : ∃ x pad', pad = x :: pad' := List.exists_cons_of_ne_nil (by intro h; rw [h] at hp; revert hp; decide)
    exact this x (by rw [show padLen (0 + 3) = 5 by decide]; simp)
  | fixed is h' _ _ => left; exact ⟨rfl, rfl⟩
  | dynamic hd is h' _ _ _ _ => right; left; exact ⟨rfl, rfl⟩

/-- what begins with a raw stream of clean blocks is taken for raw -/
theorem clean_raw {ok : List Nat → Prop} {win : Nat} {dict S data : List UInt8} (hS : DeflateOf (CleanBlock ok win) dict S data) (x : List UInt8) : autodetect (S ++ x) = .raw := by
  obtain ⟨p, r, rfl, h1, h2⟩ := clean_first hS
  show autodetect (p :: (r ++ x)) = .raw
  cases r ++ x with
  | nil => rfl
  | cons q y =>
    show (if p = 0x1f ∧ q = 0x8b then Container.gzip else if p.toNat % 16 = 8 ∧ (p.toNat * 256 + q.toNat) % 31 = 0 then .zlib else .raw) = .raw
    rw [if_neg (fun h => h1 h.1), if_neg (fun h => h2 h.1)]

/-- what begins with a stream of clean blocks is taken for what it is -/
theorem clean_known {ok : List Nat → Prop} {win : Nat} {dict : Option (List UInt8)} {k : Container} {S data : List UInt8}
    (hS : StreamOf (CleanBlock ok win) win dict k S data) (x : List UInt8) : autodetect (S ++ x) = k := by
  by_cases hk : k = .raw
  · subst hk; exact clean_raw hS x
  · have h1 := autodetect_of hk hS
    rcases S with _ | ⟨p, _ | ⟨q, S⟩⟩
    · exact absurd h1.symm hk
    · exact absurd h1.symm hk
    · exact h1

/-- **C104, the format is visible.** Whatever the options, the data and the calls: from the beginning of any of the streams that a Writer has produced, whatever follows it, one can tell the format. -/
theorem C104_recognised {c : Setup} (h : c.OK) {ops : List WOp} (hc : WOp.close ∉ ops) {rs : List WRes} {t : WState} (hr : c.Runs (ops ++ [.close]) rs t) (he : NoErr rs) :
    ∃ ps : List (List UInt8 × List UInt8), t.sink.out = c.sink.out ++ ps.flatMap Prod.fst ∧ ps.map Prod.snd = (segsOf (ops ++ [.close])).done ∧
      (∀ p ∈ ps, Spec.Stream c.ok (2 ^ c.o.wbits) c.o.dict (container c.o.format) p.1 p.2) ∧ ∀ p ∈ ps, ∀ x, autodetect (p.1 ++ x) = container c.o.format := by
  obtain ⟨bytes, e, hs⟩ := C104_padding h hc hr he
  obtain ⟨ps, rfl, e2, h3⟩ := streamsOf_list hs
  exact ⟨ps, e, e2.symm, fun p hp => stream_imp (fun _ _ _ _ _ h => h.1) (h3 p hp), fun p hp x => clean_known (h3 p hp) x⟩

/-- **C104, round trip.** As C01, with a Reader which has not been told the format, for all formats: it delivers exactly the bytes written. -/
theorem C104_round_trip {c : Setup} (h : c.OK) {ops : List WOp} (hops : ∀ op ∈ ops, Continues op) {rs : List WRes} {t : WState} (hr : c.Runs (ops ++ [.close]) rs t) (he : NoErr rs)
    (h0 : c.sink.out = []) {r : RSetup} (hok : r.OK) (hL : r.L = c.L) (hfmt : r.o.format = .default) (hd : r.o.dict = c.o.dict) (hw : c.o.wbits ≤ r.o.wbits)
    {src : Src} (hsrc : src.bytes = t.sink.out) (h2 : container c.o.format = .raw ∨ 2 ≤ src.first.length) :
    r.Delivers src (writtenData ops) src.err := by
  obtain ⟨ps, ho, hp, hS, hk⟩ := C104_recognised h (continues_close hops) hr he
  rw [segs_single hops] at hp
  obtain ⟨S, _, rfl, rfl⟩ : ∃ S d, ps = [(S, d)] ∧ d = writtenData ops := by
    rcases ps with _ | ⟨p, _ | ⟨q, ps⟩⟩
    · cases hp
    · simp at hp; exact ⟨p.1, p.2, rfl, hp⟩
    · simp at hp
  rw [h0] at ho
  simp at ho
  have hst : r.Stream (container c.o.format) src.bytes (writtenData ops) := by
    have := stream_win (Nat.pow_le_pow_right (by decide : 0 < 2) hw) (hS (S, writtenData ops) (by simp))
    unfold RSetup.Stream RSetup.ok
    rw [hd, hL, hsrc, ho]
    exact this
  refine C03_decodes hok (k := container c.o.format) (Or.inr ⟨hfmt, ?_, h2⟩) hst
  have := hk (S, writtenData ops) (by simp) []
  rw [hsrc, ho]
  simpa using this

/-- one file: a Writer, what it was told, what it wrote -/
structure Written where
  c : Setup
  ops : List WOp
  bytes : List UInt8

/-- The file is one stream, complete; the Reader has the same dictionary and a window which is at least as large. -/
structure Written.For (w : Written) (r : RSetup) : Prop where
  ok : w.c.OK
  single : ∀ op ∈ w.ops, Continues op
  output : w.c.Output w.ops w.bytes
  lib : r.L = w.c.L
  dict : r.o.dict = w.c.o.dict
  window : w.c.o.wbits ≤ r.o.wbits

theorem Written.For.given {w : Written} {r : RSetup} (h : w.For r) :
    r.Stream (container w.c.o.format) w.bytes (writtenData w.ops) ∧ ∀ x, autodetect (w.bytes ++ x) = container w.c.o.format := by
  obtain ⟨hc, rs, t, hr, he, hb⟩ := h.output
  obtain ⟨ps, ho, hp, hS, hk⟩ := C104_recognised h.ok hc hr he
  rw [segs_single h.single] at hp
  obtain ⟨S, _, rfl, rfl⟩ : ∃ S d, ps = [(S, d)] ∧ d = writtenData w.ops := by
    rcases ps with _ | ⟨p, _ | ⟨q, ps⟩⟩
    · cases hp
    · simp at hp; exact ⟨p.1, p.2, rfl, hp⟩
    · simp at hp
  obtain rfl : w.bytes = S := by simpa using List.append_cancel_left (hb.symm.trans ho)
  refine ⟨?_, hk (w.bytes, writtenData w.ops) (by simp)⟩
  have := stream_win (Nat.pow_le_pow_right (by decide : 0 < 2) h.window) (hS (w.bytes, writtenData w.ops) (by simp))
  unfold RSetup.Stream RSetup.ok
  rw [h.dict, h.lib]
  exact this

/-- **C104, files of different formats.** Files, each written by some Writer in some format, are concatenated.  If no piece which the source returns ends one byte after the beginning of
a file (see C08_fails) and the last piece, which comes with the source's error, is not longer than the last file (see C07), then a Reader which has not been told the format delivers the contents
of all of them. -/
theorem C104_files {r : RSetup} (hok : r.OK) (hfmt : r.o.format = .default) {ws : List Written} (hw : ∀ w ∈ ws, w.For r) {src : Src} (hb : src.bytes = ws.flatMap (·.bytes))
    (hcut : ∀ a w b pre post, ws = a ++ w :: b → src.full = pre ++ post → (pieceBytes pre).length ≠ (a.flatMap (·.bytes)).length + 1)
    (hlast : ∀ a w, ws = a ++ [w] → src.last.length ≤ w.bytes.length) : r.Delivers src (ws.flatMap fun w => writtenData w.ops) src.err := by
  let g : Written → Given := fun w => ⟨container w.c.o.format, w.bytes, writtenData w.ops⟩
  have e1 : ∀ l : List Written, (l.map g).flatMap (·.bytes) = l.flatMap (·.bytes) := fun l => by rw [List.flatMap_map]
  have e2 : ∀ l : List Written, (l.map g).flatMap (·.data) = l.flatMap fun w => writtenData w.ops := fun l => by rw [List.flatMap_map]
  rw [← e2]
  have split : ∀ {a : List Given} {p : Given} {b : List Given}, ws.map g = a ++ p :: b → ∃ a' w b', ws = a' ++ w :: b' ∧ a = a'.map g ∧ p = g w ∧ b = b'.map g := by
    intro a p b e
    obtain ⟨a', q, rfl, rfl, h3⟩ := List.map_eq_append_iff.1 e
    obtain ⟨w, b', rfl, rfl, rfl⟩ := List.map_eq_cons_iff.1 h3
    exact ⟨a', w, b', rfl, rfl, rfl, rfl⟩
  refine C08_streams_partial hok hfmt (ps := ws.map g) (by rw [hb, e1]) ?_ ?_ ?_ ?_
  · intro p hp
    obtain ⟨w, hx, rfl⟩ := List.mem_map.1 hp
    exact (hw w hx).given.1
  · intro a p b e hk
    obtain ⟨a', w, b', rfl, rfl, rfl, rfl⟩ := split e
    rw [← hk]
    exact (hw w (by simp)).given.2 _
  · intro a p b pre post e hp
    obtain ⟨a', w, b', rfl, rfl, rfl, rfl⟩ := split e
    rw [e1]
    exact hcut a' w b' pre post rfl hp
  · intro a p e
    obtain ⟨a', w, b', e', rfl, rfl, hb'⟩ := split (b := []) e
    obtain rfl : b' = [] := by simpa using hb'.symm
    exact hlast a' w e'

def rawFile : Written := ⟨demo [.format .raw, .mlevel 1], [.write [65, 66]], [0, 2, 0, 253, 255, 65, 66, 1, 0, 0, 255, 255]⟩
def zlibFile : Written := ⟨demo [.format .zlib, .mlevel 1], [.write [67]], [120, 156, 0, 1, 0, 254, 255, 67, 1, 0, 0, 255, 255, 0, 68, 0, 68]⟩

theorem rawFile_for : rawFile.For (rdemo []) := by
  refine ⟨demo_ok (by decide), ?_, ⟨by simp [rawFile], ?_⟩, rfl, rfl, by decide +kernel⟩
  · intro op ho; simp [rawFile] at ho; subst ho; trivial
  · have : (rawFile.c.eval [.write [65, 66], .close]).map (fun x => (x.1, x.2.1)) = some ([.write 2 none, .close none], rawFile.bytes) := by decide +kernel
    obtain ⟨⟨a, b, ks⟩, h1, h2⟩ := Option.map_eq_some_iff.1 this
    cases h2
    obtain ⟨t, r, e, _⟩ := Setup.eval_runs h1
    exact ⟨_, t, r, by simp [NoErr, WRes.err], e⟩

theorem zlibFile_for : zlibFile.For (rdemo []) := by
  refine ⟨demo_ok (by decide), ?_, ⟨by simp [zlibFile], ?_⟩, rfl, rfl, by decide +kernel⟩
  · intro op ho; simp [zlibFile] at ho; subst ho; trivial
  · have : (zlibFile.c.eval [.write [67], .close]).map (fun x => (x.1, x.2.1)) = some ([.write 1 none, .close none], zlibFile.bytes) := by decide +kernel
    obtain ⟨⟨a, b, ks⟩, h1, h2⟩ := Option.map_eq_some_iff.1 this
    cases h2
    obtain ⟨t, r, e, _⟩ := Setup.eval_runs h1
    exact ⟨_, t, r, by simp [NoErr, WRes.err], e⟩

/-- a raw file and a zlib file, in pieces of three bytes and the rest -/
example : (rdemo []).Delivers ⟨[(0, [2, 0]), (253, [255, 65, 66, 1, 0, 0, 255, 255] ++ zlibFile.bytes)], [], .eof⟩ [65, 66, 67] .eof := by
  have := C104_files (r := rdemo []) (rdemo_ok (by decide)) rfl (ws := [rawFile, zlibFile])
    (by intro w hw; simp at hw; rcases hw with rfl | rfl; exacts [rawFile_for, zlibFile_for])
    (src := ⟨[(0, [2, 0]), (253, [255, 65, 66, 1, 0, 0, 255, 255] ++ zlibFile.bytes)], [], .eof⟩) (by decide +kernel)
    (by
      intro a w b pre post e hp
      have hpre : (pieceBytes pre).length = 0 ∨ (pieceBytes pre).length = 3 ∨ (pieceBytes pre).length = 29 := by
        rcases pre with _ | ⟨p1, _ | ⟨p2, _ | ⟨p3, pre⟩⟩⟩
        · left; rfl
        · right; left; simp at hp; rw [← hp.1]; rfl
        · right; right; simp at hp; rw [← hp.1, ← hp.2.1]; decide +kernel
        · simp at hp
      have ha : (a.flatMap (·.bytes)).length = 0 ∨ (a.flatMap (·.bytes)).length = 12 := by
        rcases a with _ | ⟨a1, _ | ⟨a2, a⟩⟩
        · left; rfl
        · right; simp at e; rw [← e.1]; rfl
        · simp at e
      omega)
    (by intro a w _; simp)
  have e : ([rawFile, zlibFile].flatMap fun w => writtenData w.ops) = [65, 66, 67] := by decide +kernel
  rw [e] at this
  exact this

def rawOps : List WOp := [.write [1, 2, 3], .flush .syncFlush, .write [120, 156]]

/-- a raw Writer with several options and flushes; the bytes arrive one by one -/
example : ∃ t, (∃ rs, (demo [.format .raw, .mlevel 1, .wbits 9]).Runs (rawOps ++ [.close]) rs t ∧ NoErr rs) ∧
    (rdemo []).Delivers ⟨t.sink.out.map fun b => (b, []), [], .eof⟩ (writtenData rawOps) .eof := by
  obtain ⟨rs, t, hr, he⟩ : ∃ rs t, (demo [.format .raw, .mlevel 1, .wbits 9]).Runs (rawOps ++ [.close]) rs t ∧ NoErr rs :=
    (demo_ok (by decide)).run_close_ok (Or.inr (by decide)) (demo_sink _) (by simp [rawOps])
  refine ⟨t, ⟨rs, hr, he⟩, ?_⟩
  have hops : ∀ op ∈ rawOps, Continues op := by simp [rawOps, Continues]
  have hfmt : container (demo [.format .raw, .mlevel 1, .wbits 9]).o.format = .raw := rfl
  have hw : (demo [.format .raw, .mlevel 1, .wbits 9]).o.wbits ≤ (rdemo []).o.wbits := by decide +kernel
  have hsrc : Src.bytes ⟨t.sink.out.map fun b => (b, []), [], .eof⟩ = t.sink.out := by simp [Src.bytes, List.flatMap_map]
  exact C104_round_trip (r := rdemo []) (demo_ok (by decide)) hops hr he rfl (rdemo_ok (by decide)) rfl rfl rfl hw hsrc (Or.inl hfmt)

end Flate.Props
