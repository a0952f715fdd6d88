/-
C93: what can be decompressed of a damaged or incomplete input is delivered.
-/
import Verif.Props.ComplaintAll
import Verif.Props.ReaderFlush
import Verif.Proof.RSalvage

namespace Flate.Props
open Flate.Spec Flate.Model Flate.Model.Rd Flate.Model.Conc Flate.Proof Flate.Proof.R Flate.Proof.Cc

/-- `cur` begins, for a decompressor with largest window `win` and dictionary `dict`, with a header, complete blocks which are not final, and the beginning of a compressed block with some
complete symbols, the content of all of which is `p`.  Whatever may follow. -/
def Begins (ok : List Nat → Prop) (win : Nat) (dict : Option (List UInt8)) (k : Container) (cur p : List UInt8) : Prop :=
  ∃ (hdr r h1 : List UInt8) (bs b : List Bool), cur = hdr ++ r ∧ HeaderOf win dict k hdr ∧ Blocks (BlockEnc ok win) 0 (dict.getD []) bs h1 ∧
    BlockPart ok win h1 b (dict.getD [] ++ p) ∧ bs ++ b <+: bytesBits r

theorem kept_data {acts : List Act} {ds : List (List UInt8)} {db p q : List UInt8} {post : List Act} {cap : Nat} (h1 : acts = ds.map .data ++ post) (h2 : ds.flatten ++ db = p) (h3 : db.length ≤ cap)
    (h4 : actData post = db ++ q) : p <+: actData acts ∧ p.length ≤ (dataBefore acts).length + cap := by
  have hd : ∀ ds : List (List UInt8), actData (ds.map Act.data ++ post) = ds.flatten ++ actData post ∧ ds.flatten <+: dataBefore (ds.map Act.data ++ post) := by
    intro ds
    induction ds with
    | nil => exact ⟨by simp, List.nil_prefix⟩
    | cons d ds ih =>
      refine ⟨by simp [actData, ih.1], ?_⟩
      simp only [List.map_cons, List.cons_append, dataBefore, List.flatten_cons]
      exact (List.prefix_append_right_inj d).2 ih.2
  obtain ⟨a1, a2⟩ := hd ds
  subst h1
  refine ⟨⟨q, by rw [a1, h4, ← h2]; simp⟩, ?_⟩
  have := a2.length_le
  rw [← h2, List.length_append]
  omega

/-- **C93 (partial).** Whatever the input and however it is delivered: what its beginning decompresses to - complete blocks, and complete symbols of an incomplete compressed block - is delivered; and all of it but the last
`2 ^ (MemoryLevel + 6)` bytes before any error is reported.  (Of an incomplete stored block nothing is delivered: `C93_fails`.) -/
theorem C93_partial {c : RSetup} (h : c.OK) {src : Src} {s : RState} (hr : c.Runs src s) {k : Container} (ht : c.Takes k src) {p : List UInt8}
    (hp : Begins c.ok (2 ^ c.o.wbits) c.o.dict k src.bytes p) : p <+: actData s.out.acts ∧ p.length ≤ (dataBefore s.out.acts).length + 2 ^ (c.o.mlevel + 6) := by
  obtain ⟨hdr, r, h1, bs, b, k1, k2, k3, k4, k5⟩ := hp
  by_cases hne : src.bytes = []
  · rw [hne] at k1
    obtain ⟨rfl, rfl⟩ := List.append_eq_nil_iff.1 k1.symm
    have := List.append_eq_nil_iff.1 (List.prefix_nil.1 k5)
    rw [this.1] at k3; rw [this.2] at k4
    have e1 := blocks_empty (fun _ _ _ _ _ => blockEnc_ne) k3 rfl
    have e2 : c.o.dict.getD [] ++ p = h1 := by
      generalize hb : ([] : List Bool) = b at k4
      cases k4 with
      | nothing => rfl
      | fixed => simp at hb
      | dynamic => simp at hb
    rw [e1] at e2
    have : p = [] := by simpa using e2
    subst this
    exact ⟨List.nil_prefix, by simp⟩
  have hcalm : Calm (start src false) := ⟨rfl, rfl, ⟨rfl, rfl⟩, rfl, rfl⟩
  have hfc : firstC c.env (start src false) = k := by
    rw [← ht.det]
    unfold firstC filled refill start fill Src.first
    rcases src with ⟨_ | ⟨⟨b, bs⟩, cs⟩, last, err⟩ <;> simp
  obtain ⟨ds, db, post, q, q1, q2, q3, q4⟩ := Salvage.run_kept (E := c.env) hr (p := p) fun sf e =>
    Salvage.loop_last h.env (by rw [size_eq]; omega) hcalm (hdr := hdr) (r := r) (bits := bs ++ b) k1 hne (by rw [hfc]; exact k2) ⟨bs, b, h1, k3, k4, rfl⟩ k5 e
  exact kept_data q1 q2 q3 q4

/-- The same after complete streams `ps` (with a format asked for, and the condition of C07 on the source's last piece). -/
theorem C93_later_partial {c : RSetup} (h : c.OK) {k : Container} (hk : c.o.format = fmtOf k) {src : Src} {s : RState} (hr : c.Runs src s)
    {ps : List (List UInt8 × List UInt8)} {cur : List UInt8} (hS : ∀ p ∈ ps, c.Stream k p.1 p.2) (hb : src.bytes = ps.flatMap Prod.fst ++ cur) (hne : cur ≠ [])
    (hlast : ps ≠ [] → src.last.length ≤ cur.length) {p : List UInt8} (hp : Begins c.ok (2 ^ c.o.wbits) c.o.dict k cur p) :
    ps.flatMap Prod.snd ++ p <+: actData s.out.acts ∧ (ps.flatMap Prod.snd ++ p).length ≤ (dataBefore s.out.acts).length + 2 ^ (c.o.mlevel + 6) := by
  obtain ⟨hdr, r, h1, bs, b, k1, k2, k3, k4, k5⟩ := hp
  have hfm : ∀ ps : List (List UInt8 × List UInt8), (ps.map fun p => Given.mk k p.1 p.2).flatMap (·.bytes) = ps.flatMap Prod.fst ∧
      (ps.map fun p => Given.mk k p.1 p.2).flatMap (·.data) = ps.flatMap Prod.snd := by
    intro ps; exact ⟨by simp [List.flatMap_map], by simp [List.flatMap_map]⟩
  have hseen : ∀ ps : List (List UInt8 × List UInt8), (∀ p ∈ ps, c.Stream k p.1 p.2) → Wrong.AllSeen c.env src k cur (ps.map fun p => Given.mk k p.1 p.2) := by
    intro ps
    induction ps with
    | nil => exact fun _ => Or.inl hk
    | cons p ps ih => exact fun hS => ⟨hS p (by simp), Or.inl hk, ih fun q hq => hS q (List.mem_cons_of_mem _ hq)⟩
  have hcalm : Calm (start src false) := ⟨rfl, rfl, ⟨rfl, rfl⟩, rfl, rfl⟩
  obtain ⟨ds, db, post, q, q1, q2, q3, q4⟩ := Salvage.run_kept (E := c.env) hr (p := ps.flatMap Prod.snd ++ p) fun sf e => by
    have := Salvage.loop_salvage (E := c.env) h.env (bits := bs ++ b) k1 hne k2 ⟨bs, b, h1, k3, k4, rfl⟩ k5 (ps.map fun p : List UInt8 × List UInt8 => Given.mk k p.1 p.2) _ (start src false) sf
      (by rw [size_eq]; omega) hcalm (by rw [(hfm ps).1]; exact hb) (show Wrong.AllSeen c.env src k cur _ from hseen ps hS) (fun hq => hlast (by simpa using hq)) e
    rw [(hfm ps).2] at this
    exact this
  exact kept_data q1 q2 q3 q4

/-- For the calls of `Read`, from any number of goroutines and under every schedule: what has been returned before a call returns an error agrees with `p`, and is all of it but the last
`2 ^ (MemoryLevel + 6)` bytes at least. -/
theorem C93_calls_partial {c : RSetup} (h : c.OK) {src : Src} {k : Container} (ht : c.Takes k src) {p : List UInt8} (hp : Begins c.ok (2 ^ c.o.wbits) c.o.dict k src.bytes p)
    {cap n : Nat} {t : St} (hc : 0 < cap) (hh : c.Calls ReadOnly src cap n t) {pre post : List (Nat × Res)} {i : Nat} {q : List UInt8} {e : Err}
    (hx : t.log = pre ++ (i, .read q (some e)) :: post) : p.length ≤ (got pre).length + 2 ^ (c.o.mlevel + 6) ∧ (p <+: got pre ∨ got pre <+: p) := by
  obtain ⟨s, hr, hre⟩ := hh
  obtain ⟨h1, h2⟩ := C93_partial h hr ht hp
  obtain ⟨ds, e0, d2, hs⟩ : ∃ (ds : List (List UInt8)) (e0 : Err) (d2 : List Act), s.out.acts = ds.map Act.data ++ .err e0 :: d2 := by
    rcases runs_shape h hr with ⟨ds, h⟩ | ⟨ds, e0, d2, h, _⟩
    · exact ⟨ds, _, [], h⟩
    · exact ⟨ds, e0, d2, h⟩
  obtain ⟨s0, _, _, g1, _, _, g2, _, _⟩ := log_split hre hx (Nat.zero_le _)
  have hgp := C39_prefix hc g1
  rw [← reach_source g1, (good hc readOnly_noReset g1).sc, g2] at hgp
  refine ⟨?_, List.prefix_or_prefix_of_prefix h1 hgp⟩
  rw [hs] at hre h2
  have h3 := (C41_partial (by simpa [actErr] using (data_script ds []).2) hc hre hx).2.2.length_le
  rw [before_data] at h2
  have : actData (ds.map Act.data) = ds.flatten := by simpa [actData] using (data_script ds []).1
  rw [this] at h3
  omega

/-- **C93 is false** for stored blocks: of two bytes of a stored block of five, none is delivered. -/
theorem C93_fails : ∃ s, (rdemo [.format .raw]).Runs ⟨[(1, [5, 0, 250, 255, 65, 66])], [], .eof⟩ s ∧ actData s.out.acts = [] ∧ actErr s.out.acts = some .unexpectedEOF ∧
    (rdemo [.format .raw]).Stream .raw ([1, 5, 0, 250, 255, 65, 66] ++ [67, 68, 69]) [65, 66, 67, 68, 69] := by
  obtain ⟨s, h1, h2⟩ := acts?_some (c := rdemo [.format .raw]) (src := ⟨[(1, [5, 0, 250, 255, 65, 66])], [], .eof⟩)
    (as := [.err .unexpectedEOF]) (by decide +kernel)
  refine ⟨s, h1, by rw [h2]; rfl, by rw [h2]; rfl, ?_⟩
  have e : ([1, 5, 0, 250, 255, 65, 66] ++ [67, 68, 69] : List UInt8) = storedRaw [65, 66, 67, 68, 69] := by decide +kernel
  rw [e]
  exact storedRaw_stream (by decide) _

/-! ### the hypotheses can be met -/

/-- a stored block with the byte 66, and a compressed block which ends after the symbol of its byte 65 -/
theorem broken_begins (c : RSetup) (hd : c.o.dict = none) : Begins c.ok (2 ^ c.o.wbits) c.o.dict .raw [0, 1, 0, 254, 255, 66, 115, 4] [66, 65] := by
  rw [hd]
  refine ⟨[], _, [66], _, [true, true, false] ++ [Item.lit 65].flatMap (Item.bits fixedLL fixedD), rfl, rfl,
    .cons (.stored (List.replicate 5 false) [66] (by decide) (by decide)) (.nil _ _), .fixed true [.lit 65] [66, 65] (fun i hi => by cases List.mem_singleton.1 hi; exact (by decide +kernel : Used fixedLL 65)) rfl, by decide +kernel⟩

theorem broken_runs : ∃ s, (rdemo [.format .raw]).Runs ⟨[(0, [1, 0, 254, 255, 66, 115])], [4], .eof⟩ s ∧ actData s.out.acts = [66, 65] := by
  rcases hr : readThread (rdemo [.format .raw]).env (start ⟨[(0, [1, 0, 254, 255, 66, 115])], [4], .eof⟩ false) with p | ⟨⟨⟩, s⟩
  · have : (acts? (readThread (rdemo [.format .raw]).env (start ⟨[(0, [1, 0, 254, 255, 66, 115])], [4], .eof⟩ false))).isSome = true := by decide +kernel
    rw [hr] at this; cases this
  · have : (acts? (readThread (rdemo [.format .raw]).env (start ⟨[(0, [1, 0, 254, 255, 66, 115])], [4], .eof⟩ false))).map actData = some [66, 65] := by decide +kernel
    rw [hr] at this
    exact ⟨s, hr, Option.some.inj this⟩

example : [66, 65] <+: actData (broken_runs.choose).out.acts :=
  (C93_partial (rdemo_ok (by decide)) broken_runs.choose_spec.1 (k := .raw) (Or.inl rfl) (broken_begins _ rfl)).1

end Flate.Props
