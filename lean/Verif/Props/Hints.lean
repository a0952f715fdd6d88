/-
C85: what a Reader reports about the compression level and the window of a stream written by a Writer.
-/
import Verif.Props.RoundTrip
import Verif.Props.ReaderHeader

namespace Flate.Props
open Flate.Spec Flate.Model Flate.Model.Rd Flate.Proof Flate.Proof.R

/-- the Writer was asked to be fast: level 0 or 1, or a strategy without (real) matches -/
def AskedFast (o : Options) : Prop := o.strategy = .huffmanOnly ∨ o.strategy = .huffmanRLE ∨ o.clevel ≤ 1

instance (o : Options) : Decidable (AskedFast o) := by unfold AskedFast; infer_instance

/-- What is to be reported about the compression level (-1 is DefaultCompression).  zlib headers (RFC 1950, 2.2) tell four classes of levels from each other: fastest, fast, default, slow; gzip headers
(RFC 1952, 2.3.1) fastest, slowest, and others; raw streams tell nothing. -/
def hintLevel : Container → Options → Int
  | .raw, _ => -1
  | .zlib, o => if AskedFast o then 1 else if o.clevel ≤ 5 then 2 else if o.clevel = 6 then -1 else 9
  | .gzip, o => if AskedFast o then 1 else if o.clevel = 9 then 9 else -1

/-- only zlib headers tell the size of the window -/
def hintWindow : Container → Options → Nat
  | .zlib, o => o.wbits
  | _, _ => 0

theorem zlib_level : ∀ (w : Fin 8) (l : Fin 4) (d : Bool),
    let b0 : UInt8 := (UInt8.ofNat w.val <<< 4) ||| 0x08
    let b1 : UInt8 := UInt8.ofNat l.val <<< 6
    let b1 : UInt8 := if d then b1 ||| 0x20 else b1
    let u16 := b0.toNat * 256 + b1.toNat
    let remainder := if u16 % 31 = 0 then 31 else u16 % 31
    let b1 : UInt8 := b1 ||| UInt8.ofNat (31 - remainder)
    b0.toNat / 16 = w.val ∧ b1.toNat / 64 = l.val := by
  decide +kernel

theorem zlib_two (o : Options) (h1 : 8 ≤ o.wbits) (h2 : o.wbits ≤ 15) :
    ∃ cmf flg rest, zlibHeaderBytes o = cmf :: flg :: rest ∧ cmf.toNat / 16 = o.wbits - 8 ∧ flg.toNat / 64 = fLevel o := by
  obtain ⟨a, b⟩ := zlib_level ⟨o.wbits - 8, by omega⟩ ⟨fLevel o, fLevel_lt o⟩ o.dict.isSome
  dsimp only at a b
  unfold zlibHeaderBytes
  cases hd : o.dict with
  | none => rw [hd] at b; exact ⟨_, _, _, rfl, a, b⟩
  | some x => rw [hd] at b; exact ⟨_, _, _, rfl, a, b⟩

theorem says_hint {c : Setup} (h : c.OK) {hd : Header} (hk : headerOK hd = true) {hdr x y : List UInt8} {got : Header} (hr : Reports (container c.o.format) hdr got)
    (he : hdr ++ x = headerBytes c.o hd ++ y) : got.compressLevel = hintLevel (container c.o.format) c.o ∧ got.windowBits = hintWindow (container c.o.format) c.o := by
  have hfull := h.full
  unfold headerBytes at he
  cases hf : c.o.format with
  | raw => rw [hf] at hr; rw [show got = _ from hr]; exact ⟨rfl, rfl⟩
  | default => exact absurd hf hfull.format
  | zlib =>
    rw [hf] at hr he
    obtain ⟨cmf, flg, rest, h1, h2, h3⟩ := zlib_two c.o hfull.wbits.1 hfull.wbits.2
    obtain ⟨cmf', flg', rest', h4, h5⟩ := reports_says hr
    simp only at he
    rw [h1, h4, List.cons_append, List.cons_append, List.cons_append, List.cons_append] at he
    injection he with e1 he
    injection he with e2 he
    subst e1 e2
    rw [h5, h2, h3]
    have hw := hfull.wbits.1
    refine ⟨?_, show 8 + (c.o.wbits - 8) = c.o.wbits by omega⟩
    show (if fLevel c.o = 0 then (1 : Int) else if fLevel c.o = 1 then 2 else if fLevel c.o = 2 then -1 else 9) =
      if AskedFast c.o then 1 else if c.o.clevel ≤ 5 then 2 else if c.o.clevel = 6 then -1 else 9
    by_cases ha : AskedFast c.o
    · rw [if_pos ha]
      have : fLevel c.o = 0 := by
        unfold fLevel
        rw [if_pos]
        unfold AskedFast at ha
        rcases ha with ha | ha | ha
        · exact Or.inl ha
        · exact Or.inr (Or.inl ha)
        · exact Or.inr (Or.inr (by omega))
      rw [this]; rfl
    · rw [if_neg ha]
      have hn : ¬ (c.o.strategy = .huffmanOnly ∨ c.o.strategy = .huffmanRLE ∨ c.o.clevel < 2) := by
        intro hx
        refine ha ?_
        rcases hx with hx | hx | hx
        · exact Or.inl hx
        · exact Or.inr (Or.inl hx)
        · exact Or.inr (Or.inr (by omega))
      unfold fLevel
      rw [if_neg hn]
      by_cases h5 : c.o.clevel ≤ 5
      · rw [if_pos (show c.o.clevel < 6 by omega), if_pos h5]; rfl
      · rw [if_neg (show ¬ c.o.clevel < 6 by omega), if_neg h5]
        by_cases h6 : c.o.clevel = 6
        · rw [if_pos h6, if_pos h6]; rfl
        · rw [if_neg h6, if_neg h6]; rfl
  | gzip =>
    rw [hf] at hr he
    obtain ⟨g, g1, g2, g3, g4⟩ := hr
    simp only at he
    rw [g3] at he
    have := gz_report_unique g1 g2 (gzHd_extra hk) (gzHd_valid hk) he
    rw [g4, this]
    refine ⟨?_, rfl⟩
    show (if (gzHd c.o hd).xfl = 2 then (9 : Int) else if (gzHd c.o hd).xfl = 4 then 1 else -1) = if AskedFast c.o then 1 else if c.o.clevel = 9 then 9 else -1
    by_cases ha : AskedFast c.o
    · rw [if_pos ha]
      have : (gzHd c.o hd).xfl = 4 := by
        show (if c.o.strategy = .huffmanOnly ∨ c.o.strategy = .huffmanRLE ∨ c.o.clevel < 2 then (0x04 : UInt8) else if c.o.clevel = 9 then 0x02 else 0x00) = 4
        rw [if_pos]
        unfold AskedFast at ha
        rcases ha with ha | ha | ha
        · exact Or.inl ha
        · exact Or.inr (Or.inl ha)
        · exact Or.inr (Or.inr (by omega))
      rw [this]; decide
    · rw [if_neg ha]
      have hn : ¬ (c.o.strategy = .huffmanOnly ∨ c.o.strategy = .huffmanRLE ∨ c.o.clevel < 2) := by
        intro hx
        refine ha ?_
        rcases hx with hx | hx | hx
        · exact Or.inl hx
        · exact Or.inr (Or.inl hx)
        · exact Or.inr (Or.inr (by omega))
      have : (gzHd c.o hd).xfl = if c.o.clevel = 9 then 0x02 else 0x00 := by
        show (if c.o.strategy = .huffmanOnly ∨ c.o.strategy = .huffmanRLE ∨ c.o.clevel < 2 then (0x04 : UInt8) else if c.o.clevel = 9 then 0x02 else 0x00) = _
        rw [if_neg hn]
      rw [this]
      by_cases h9 : c.o.clevel = 9
      · rw [if_pos h9, if_pos h9]; decide
      · rw [if_neg h9, if_neg h9]; decide

/-- **C85.** A suitable Reader, given the stream which a Writer has written in the course of any calls, reports exactly one header (its second event); the compression level in it is the one
which the Writer's level and strategy amount to in this format, and the window size (zlib only) is the Writer's, whatever `SetHeader` was given in these fields. -/
theorem C85_reported {c : Setup} (h : c.OK) {ops : List WOp} (hx : ∀ op ∈ ops, Continues op) {rs : List WRes} {t : WState} (hr : c.Runs (ops ++ [.close]) rs t) (he : NoErr rs)
    (h0 : c.sink.out = []) {r : RSetup} (hok : r.OK) (hs : Suits c r) {src : Src} (hsrc : src.bytes = t.sink.out) :
    ∃ (s : RState) (got : Header) (rest : List EvKind), r.Runs src s ∧ s.events.map (·.kind) = .streamBegin :: .streamHeader got :: rest ∧ (∀ x, EvKind.streamHeader x ∉ rest) ∧
      got.compressLevel = hintLevel (container c.o.format) c.o ∧ got.windowBits = hintWindow (container c.o.format) c.o := by
  have hc : WOp.close ∉ ops := fun hm => (hx _ hm : Continues .close)
  obtain ⟨es, k, hh, cl, _⟩ := run_close h.lawful (h.live _) (h.any True) (fun _ _ _ => trivial) hc hr he
  obtain ⟨bytes, hst, ho⟩ := cl.out
  rw [hh.o, c.start_o] at hst
  have hfull := h.full
  have hseg : ((absOf (cfgOf c.start) (ops ++ [.close])).done).map Prod.snd = [writtenData ops] := by
    have := segs_open hx {} rfl
    unfold absOf
    rw [segs_done]
    unfold segsOf
    rw [List.foldl_append]
    exact this
  obtain ⟨⟨hd, d⟩, hone, hd2⟩ : ∃ p, (absOf (cfgOf c.start) (ops ++ [.close])).done = [p] ∧ p.2 = writtenData ops := by
    generalize (absOf (cfgOf c.start) (ops ++ [.close])).done = l at hseg
    rcases l with _ | ⟨p, _ | ⟨q, l⟩⟩
    · simp at hseg
    · exact ⟨p, rfl, by simpa using hseg⟩
    · simp at hseg
  have hst' : StreamsOf (WStream (BlockEnc c.ok (2 ^ c.o.wbits)) c.o) bytes (absOf (cfgOf c.start) (ops ++ [.close])).done := hst
  rw [hone] at hst'
  have hW := streams_one hst'
  have hS0 := WStream.stream hW hfull.format hfull.wbits.1 hfull.wbits.2
  obtain ⟨hk, body, _, hb⟩ := hW
  rw [h0, List.nil_append] at ho
  have hS : r.Stream (container c.o.format) src.bytes d := by
    rw [hsrc, ho]
    exact hs.stream hS0
  have ht : detect r.env.o.format src.first = container c.o.format := by show detect r.o.format src.first = _; rw [hs.format]; exact detect_fmtOf _ _
  obtain ⟨s, ds, it, q1, q2, q3, ⟨_, ⟨hdr, q4, q5⟩, q6⟩, q7, q8, q9, q10⟩ := read_stream hok ht hS rfl
  rw [q9] at q5
  obtain ⟨x, hx'⟩ := q4
  obtain ⟨bks, a, cc, ⟨bl, last, b1, b2, b3⟩, _, _, b4⟩ := q6
  refine ⟨s, it.h, bks ++ endEvents a cc, q1, ?_, ?_, ?_⟩
  · show kinds s = _
    rw [q10, b4]; simp
  · intro x hx
    have hb : ∀ {f : Bool} {b : List EvKind}, BlockTrace f b → EvKind.streamHeader x ∉ b := by
      intro f b hb; cases hb <;> simp
    rcases List.mem_append.1 hx with hx | hx
    · rw [b3] at hx
      rcases List.mem_append.1 hx with hx | hx
      · obtain ⟨y, y1, y2⟩ := List.mem_flatten.1 hx
        exact hb (b1 y y1) y2
      · exact hb b2 hx
    · simp [endEvents] at hx
  · refine says_hint h hk q5 (x := x) (y := body ++ footerBytes c.o d) ?_
    rw [hx', q7, hsrc, ho, hb, List.append_assoc]

/-- the hints of all levels -/
example : [0, 1, 2, 5, 6, 7, 9].map (fun l => hintLevel .zlib { clevel := l }) = [1, 1, 2, 2, -1, 9, 9] ∧
    [0, 1, 2, 8, 9].map (fun l => hintLevel .gzip { clevel := l }) = [1, 1, -1, -1, 9] := by decide

example : ∃ rs t s got, (demo [.format .zlib, .mlevel 1, .clevel 7, .wbits 10]).Runs ([.setHeader { compressLevel := 3, windowBits := 12 }, .write [1, 2]] ++ [.close]) rs t ∧
    (rdemo [.format .zlib]).Runs ⟨[], t.sink.out, .eof⟩ s ∧ EvKind.streamHeader got ∈ s.events.map (·.kind) ∧ got.compressLevel = 9 ∧ got.windowBits = 10 := by
  obtain ⟨rs, t, hr, he⟩ := (demo_ok (opts := [.format .zlib, .mlevel 1, .clevel 7, .wbits 10]) (by decide)).run_close_ok (Or.inr (by decide)) (demo_sink _)
    (ops := [.setHeader { compressLevel := 3, windowBits := 12 }, .write [1, 2]]) (by simp)
  have hx : ∀ op ∈ [WOp.setHeader { compressLevel := 3, windowBits := 12 }, .write [1, 2]], Continues op := by simp [Continues]
  have hs : Suits (demo [.format .zlib, .mlevel 1, .clevel 7, .wbits 10]) (rdemo [.format .zlib]) := ⟨rfl, rfl, rfl, by decide⟩
  obtain ⟨s, got, rest, q1, q2, _, q3, q4⟩ := C85_reported (demo_ok (by decide)) hx hr he rfl (rdemo_ok (by decide)) hs (src := ⟨[], t.sink.out, .eof⟩) rfl
  exact ⟨rs, t, s, got, hr, q1, by rw [q2]; simp, q3, q4⟩

end Flate.Props
