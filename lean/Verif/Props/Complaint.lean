/-
C91: what the Reader says is wrong with the input, is wrong with it.
-/
import Verif.Props.Position
import Verif.Proof.RWhyRun
import Verif.Model.Message

namespace Flate.Props
open Flate.Spec Flate.Model Flate.Model.Rd Flate.Proof Flate.Proof.R

/-- **C91.** When the Reader reports a `CorruptInputError` with `OffsetTotal` = `total`, `OffsetStream` = `inStream` and the message `problem`: the input before the offset
`total - inStream` consists of complete valid streams; and the stream which begins there is in order up to the problem which the message names (`Spec.StreamWrong`: which is
a fact about the format for each of the messages), which comes to an end with the byte before the offset reported. -/
theorem C91_problem {c : RSetup} (h : c.OK) {src : Src} {s : RState} (hr : c.Runs src s) (hsrc : ∀ t i p, src.err ≠ .corrupt t i p)
    {total inStream : Nat} {problem : Spec.Problem} (he : actErr s.out.acts = some (.corrupt total inStream problem)) :
    ∃ done cur datas k, src.bytes = done ++ cur ∧
      StreamsOf (fun b d => ∃ k, (c.o.format = fmtOf k ∨ c.o.format = .default) ∧ c.Stream k b d) done datas ∧
      total = done.length + inStream ∧ c.MayTake k cur ∧ (∀ k', c.Takes k' src → done = [] → k = k') ∧
      StreamWrong c.ok (2 ^ c.o.wbits) c.o.dict k problem cur inStream := by
  obtain ⟨done, cur, datas, k, h1, h2, h3, _, h5, h6, _, _, h9⟩ := corrupt_at h (Wrong.step_why h.env) hr hsrc he
  exact ⟨done, cur, datas, k, h1, h2, h3, h5, h6, h9⟩

/-- How the messages begin: there are no others. -/
theorem C91_messages (lib : String) (problem : Spec.Problem) :
    ∃ t ∈ ["invalid zlib header checksum -- expected ",
      "invalid zlib compression method -- expected 0x8 (DEFLATE), got ",
      "zlib window size is too big -- data uses 2**",
      "zlib stream was compressed with a pre-set dictionary -- Adler-32 checksum of the dictionary required to decompress this stream is ",
      "zlib stream was compressed with a different pre-set dictionary -- Adler-32 checksum of the required dictionary is ",
      "zlib stream was not compressed with a pre-set dictionary -- Adler-32 checksum of the supplied dictionary is ",
      "invalid zlib Adler-32 checksum -- footer value ",
      "invalid gzip header identification bytes",
      "invalid gzip compression method ",
      "invalid gzip flag bits ",
      "invalid gzip header CRC-16 checksum -- header value ",
      "invalid gzip CRC-32 checksum -- footer value ",
      "invalid gzip decompressed length (mod 2**32) -- footer value ",
      "BTYPE 11 is reserved",
      "got LEN ",
      "degenerate literal/length Huffman code",
      "degenerate distance Huffman code",
      "degenerate bootstrap Huffman code",
      "invalid literal/length symbol ",
      "invalid distance symbol ",
      "distance ",
      "HLIT ",
      "HDIST ",
      "failed to initialize bootstrap Huffman decoder: ",
      "failed to initialize literal/length Huffman decoder: ",
      "failed to initialize distance Huffman decoder: ",
      "attempt to repeat -1'st length",
      "attempt to repeat "], t.toList <+: (Msg.problem lib problem).toList := by
  have app : ∀ {t a b : String}, t.toList <+: a.toList → t.toList <+: (a ++ b).toList := fun h => by
    rw [String.toList_append]; exact h.trans (List.prefix_append _ _)
  cases problem with
  | zlibCheck v r => exact ⟨"invalid zlib header checksum -- expected ", by simp, (app (app (app List.prefix_rfl)))⟩
  | zlibMethod m => exact ⟨"invalid zlib compression method -- expected 0x8 (DEFLATE), got ", by simp, (app List.prefix_rfl)⟩
  | zlibWindow b l => exact ⟨"zlib window size is too big -- data uses 2**", by simp, (app (app (app List.prefix_rfl)))⟩
  | dictNeeded s => exact ⟨"zlib stream was compressed with a pre-set dictionary -- Adler-32 checksum of the dictionary required to decompress this stream is ", by simp, (app List.prefix_rfl)⟩
  | dictOther s o => exact ⟨"zlib stream was compressed with a different pre-set dictionary -- Adler-32 checksum of the required dictionary is ", by simp, (app (app (app List.prefix_rfl)))⟩
  | dictNeedless o => exact ⟨"zlib stream was not compressed with a pre-set dictionary -- Adler-32 checksum of the supplied dictionary is ", by simp, (app List.prefix_rfl)⟩
  | zlibSum s c => exact ⟨"invalid zlib Adler-32 checksum -- footer value ", by simp, (app (app (app List.prefix_rfl)))⟩
  | gzipMagic => exact ⟨"invalid gzip header identification bytes", by simp, List.prefix_rfl⟩
  | gzipMethod m => exact ⟨"invalid gzip compression method ", by simp, (app (app List.prefix_rfl))⟩
  | gzipFlags f => exact ⟨"invalid gzip flag bits ", by simp, (app List.prefix_rfl)⟩
  | gzipHeaderSum s c => exact ⟨"invalid gzip header CRC-16 checksum -- header value ", by simp, (app (app (app List.prefix_rfl)))⟩
  | gzipSum s c => exact ⟨"invalid gzip CRC-32 checksum -- footer value ", by simp, (app (app (app List.prefix_rfl)))⟩
  | gzipLength s c => exact ⟨"invalid gzip decompressed length (mod 2**32) -- footer value ", by simp, (app (app (app List.prefix_rfl)))⟩
  | reserved => exact ⟨"BTYPE 11 is reserved", by simp, List.prefix_rfl⟩
  | storedLen l n w => exact ⟨"got LEN ", by simp, (app (app (app (app (app List.prefix_rfl)))))⟩
  | noLitLen => exact ⟨"degenerate literal/length Huffman code", by simp, List.prefix_rfl⟩
  | noDist => exact ⟨"degenerate distance Huffman code", by simp, List.prefix_rfl⟩
  | noCodeLen => exact ⟨"degenerate bootstrap Huffman code", by simp, List.prefix_rfl⟩
  | badLitLen s => exact ⟨"invalid literal/length symbol ", by simp, (app List.prefix_rfl)⟩
  | badDist s => exact ⟨"invalid distance symbol ", by simp, (app List.prefix_rfl)⟩
  | tooFar dist size => exact ⟨"distance ", by simp, (app (app (app List.prefix_rfl)))⟩
  | hlit n l => exact ⟨"HLIT ", by simp, (app (app (app List.prefix_rfl)))⟩
  | hdist n l => exact ⟨"HDIST ", by simp, (app (app (app List.prefix_rfl)))⟩
  | codeLenCode => exact ⟨"failed to initialize bootstrap Huffman decoder: ", by simp, (app List.prefix_rfl)⟩
  | litLenCode => exact ⟨"failed to initialize literal/length Huffman decoder: ", by simp, (app List.prefix_rfl)⟩
  | distCode => exact ⟨"failed to initialize distance Huffman decoder: ", by simp, (app List.prefix_rfl)⟩
  | repeatNothing => exact ⟨"attempt to repeat -1'st length", by simp, List.prefix_rfl⟩
  | repeatMany c l => exact ⟨"attempt to repeat ", by simp, (app (app (app (app List.prefix_rfl))))⟩

/-- A zlib stream with a wrong checksum at the end: the message is about this, and the theorem says so. -/
example : ∃ s, (rdemo [.format .zlib]).Runs ⟨[(0x78, [1, 1, 0, 0, 255, 255, 0, 0, 0, 2])], [], .eof⟩ s ∧
    actErr s.out.acts = some (.corrupt 11 11 (.zlibSum 2 1)) := by
  obtain ⟨s, h1, h2⟩ := acts?_some (c := rdemo [.format .zlib]) (src := ⟨[(0x78, [1, 1, 0, 0, 255, 255, 0, 0, 0, 2])], [], .eof⟩)
    (as := [.err (.corrupt 11 11 (.zlibSum 2 1))]) (by decide +kernel)
  exact ⟨s, h1, by rw [h2]; rfl⟩

/-- What follows from this message, with `FootWrong`: there is compressed data with some content `data`, and the four bytes after it are not its Adler-32 checksum. -/
example {c : RSetup} (h : c.OK) {src : Src} {s : RState} (hr : c.Runs src s) (hsrc : ∀ t i p, src.err ≠ .corrupt t i p) {total inStream stored computed : Nat}
    (he : actErr s.out.acts = some (.corrupt total inStream (.zlibSum stored computed))) :
    ∃ done hdr body data sum r, src.bytes = done ++ (hdr ++ body ++ sum ++ r) ∧ DeflateOf (BlockEnc c.ok (2 ^ c.o.wbits)) (c.o.dict.getD []) body data ∧
      sum.length = 4 ∧ sum ≠ beBytes 4 (adler32 data) ∧ stored = beValue sum ∧ computed = adler32 data ∧ total = (done ++ hdr ++ body ++ sum).length := by
  obtain ⟨done, cur, _, k, h1, _, h3, _, _, hw⟩ := C91_problem h hr hsrc he
  have blocks : ∀ {ok win pos h m bits rest}, BlocksWrong ok win pos h m bits rest → m ≠ (.zlibSum stored computed) := by
    intro ok win pos h m bits rest hb
    have data : ∀ {win ll d h m bits rest}, DataWrong win ll d h m bits rest → m ≠ (.zlibSum stored computed) := by
      intro win ll d h m bits rest hd
      induction hd <;> simp_all
    have lens : ∀ {cl total acc m bits rest}, LensWrong cl total acc m bits rest → m ≠ (.zlibSum stored computed) := by
      intro cl total acc m bits rest hd
      induction hd <;> simp_all
    induction hb with
    | after _ _ ih => exact ih
    | here hb =>
      cases hb with
      | reserved => simp
      | stored => simp
      | fixed _ hd => exact data hd
      | dynamic _ _ _ hd => exact data hd
      | trees _ ht =>
        cases ht with
        | lens _ _ hl => exact lens hl
        | _ => simp
  generalize hm : Spec.Problem.zlibSum stored computed = m at hw
  cases hw with
  | zlib hz => cases hz <;> simp at hm
  | gzip hz => cases hz <;> simp at hm
  | blocks _ hb => exact absurd hm.symm (blocks hb)
  | @footer _ _ hdr body data foot r _ hd hz =>
    cases hz with
    | crc => simp at hm
    | length => simp at hm
    | adler _ l1 l2 =>
      injection hm with e1 e2
      refine ⟨done, hdr, body, data, foot, r, h1, hd, l1, l2, e1, e2, ?_⟩
      rw [h3]; simp only [List.length_append]; omega

/-- A raw stream of two blocks, the second with the reserved block type. -/
example : ∃ s, (rdemo [.format .raw]).Runs ⟨[(0, [0, 0, 255, 255, 7, 9, 9])], [], .eof⟩ s ∧ actErr s.out.acts = some (.corrupt 6 6 .reserved) := by
  obtain ⟨s, h1, h2⟩ := acts?_some (c := rdemo [.format .raw]) (src := ⟨[(0, [0, 0, 255, 255, 7, 9, 9])], [], .eof⟩)
    (as := [.err (.corrupt 6 6 .reserved)]) (by decide +kernel)
  exact ⟨s, h1, by rw [h2]; rfl⟩

/-- A complement which does not fit. -/
example : ∃ s, (rdemo [.format .raw]).Runs ⟨[(1, [1, 0, 255, 255, 65, 7])], [], .eof⟩ s ∧ actErr s.out.acts = some (.corrupt 5 5 (.storedLen 1 65535 65534)) := by
  obtain ⟨s, h1, h2⟩ := acts?_some (c := rdemo [.format .raw]) (src := ⟨[(1, [1, 0, 255, 255, 65, 7])], [], .eof⟩)
    (as := [.err (.corrupt 5 5 (.storedLen 1 65535 65534))]) (by decide +kernel)
  exact ⟨s, h1, by rw [h2]; rfl⟩

end Flate.Props
