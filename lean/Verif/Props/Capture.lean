/-
C95: what tracers, in particular `CaptureHeader`, know when `Read` returns data.

`t.sent` are the events which have been sent to the tracers; `Tracer.run captureHeader t.sent h0` is what the variable given to `CaptureHeader` holds then (`h0` is what it held before);
`got t.rd.log` is what `Read` has returned so far.
-/
import Verif.Proof.Notify
import Verif.Proof.RHeads
import Verif.Props.ReaderHeader
import Verif.Props.ReadCalls
import Verif.Props.ReadExamples

namespace Flate.Props
open Flate.Spec Flate.Model Flate.Model.Rd Flate.Model.Conc Flate.Proof Flate.Proof.R Flate.Proof.Cc

theorem runs_placed {c : RSetup} (h : c.OK) {src : Src} {s : RState} (hr : c.Runs src s) : Placed s.out.acts s.events := by
  obtain ⟨h1, h2, _⟩ := C35_reader h (stop := fun _ => none) (closed := false) hr
  exact ⟨h2.imp fun x => x.2, fun e he => (h1 e he).2⟩

/-- **C95 (events come first).** Whatever the input and the schedule: all events have been sent which the Reader sends before the last byte which `Read` has returned so far was
decompressed.  Until `Close` takes effect (`forced`), what has been sent is ahead of what has been returned by no more than the capacity of the Reader's buffer; events are sent in order, none is lost. -/
theorem C95_events {c : RSetup} (h : c.OK) {src : Src} {s : RState} (hr : c.Runs src s) {cap n : Nat} (hc : 0 < cap) {t : ESt} (ht : EReach cap s.out.acts s.events n t) :
    (∀ e ∈ s.events, e.outTotal < (got t.rd.log).length → e ∈ t.sent) ∧
    (t.rd.forced = false → s.events = t.sent ++ t.todo ∧ ∀ e ∈ t.sent, e.outTotal ≤ (got t.rd.log).length + cap) := by
  have i := ereach_inv hc (runs_placed h hr) ht
  refine ⟨i.seen, fun hf => ⟨(i.opn hf).all.symm, fun e he => ?_⟩⟩
  · have h1 := (i.opn hf).before e he
    have h2 := reach_room i.rd
    rw [reach_cap i.rd] at h2
    omega

theorem capture_heads : ∀ (es : List Event) (h0 : Header), Tracer.run captureHeader es h0 = ((heads es).getLast?.map Prod.snd).getD h0
  | [], _ => rfl
  | e :: es, h0 => by
    have h1 : heads (e :: es) = heads [e] ++ heads es := heads_append [e] es
    refine (capture_heads es (captureHeader.onEvent e h0)).trans ?_
    rw [h1, List.getLast?_append]
    cases hk : e.kind <;> cases hl : (heads es).getLast? <;> simp [heads, hk, captureHeader]

theorem captured {sent todo : List Event} {A B : List (Nat × Header)} {n g cap : Nat} {hd : Header} (hh : heads (sent ++ todo) = A ++ (n, hd) :: B) (hn : n < g)
    (hB : ∀ m x, (m, x) ∈ B → g + cap < m) (h1 : ∀ e ∈ todo, g ≤ e.outTotal) (h2 : ∀ e ∈ sent, e.outTotal ≤ g + cap) : heads sent = A ++ [(n, hd)] ∧ heads todo = B := by
  have mem : ∀ {l : List Event} {m : Nat} {x : Header}, (m, x) ∈ heads l → ∃ e ∈ l, e.outTotal = m := by
    intro l m x hm
    obtain ⟨e, he, hx⟩ := List.mem_filterMap.1 hm
    refine ⟨e, he, ?_⟩
    split at hx
    · cases hx; rfl
    · cases hx
  rw [heads_append] at hh
  rcases List.append_eq_append_iff.1 hh with ⟨x, e1, e2⟩ | ⟨x, e1, e2⟩
  · -- the event has not been sent
    exfalso
    have hm : (n, hd) ∈ heads todo := by rw [e2]; simp
    obtain ⟨e, he, hx⟩ := mem hm
    have := h1 e he; omega
  · rcases x with _ | ⟨y, x⟩
    · exfalso
      have hm : (n, hd) ∈ heads todo := by rw [List.nil_append] at e2; rw [← e2]; simp
      obtain ⟨e, he, hx⟩ := mem hm
      have := h1 e he; omega
    · simp only [List.cons_append, List.cons.injEq] at e2
      obtain ⟨e3, e4⟩ := e2
      subst e3
      rcases x with _ | ⟨⟨m, z⟩, x⟩
      · exact ⟨e1, e4.symm⟩
      · exfalso
        have h3 := hB m z (by rw [e4]; simp)
        have hm : (m, z) ∈ heads sent := by rw [e1]; simp
        obtain ⟨e, he, hx⟩ := mem hm
        have := h2 e he; omega

theorem headsAt_append : ∀ (l l' : List RItem) (n : Nat), headsAt n (l ++ l') = headsAt n l ++ headsAt (n + (datas l).length) l'
  | [], l', n => by simp [headsAt, datas]
  | it :: l, l', n => by
    have := headsAt_append l l' (n + it.data.length)
    simp only [datas, List.flatMap_cons, List.length_append, List.cons_append, headsAt] at this ⊢
    rw [this]
    simp [Nat.add_assoc]

theorem headsAt_ge : ∀ (l : List RItem) (n m : Nat) (x : Header), (m, x) ∈ headsAt n l → n ≤ m
  | [], _, _, _, h => by cases h
  | it :: l, n, m, x, h => by
    rcases List.mem_cons.1 h with h | h
    · cases h; exact Nat.le_refl _
    · have := headsAt_ge l _ m x h; omega

theorem items_mem {c : RSetup} {k : Container} (hk : c.o.format = fmtOf k) {l : List RItem} {w r : List UInt8} (hl : Items c.env l w r) : ∀ it ∈ l, it.c = k ∧ it.Valid c.env := by
  induction hl with
  | nil r => intro it hit; cases hit
  | cons g1 g2 g3 ih =>
    intro it hit
    rcases List.mem_cons.1 hit with rfl | hit
    · refine ⟨?_, g1⟩
      obtain ⟨b, _, _, e⟩ := g2
      rw [e]
      show detect c.o.format b = k
      rw [hk]; exact detect_fmtOf _ _
    · exact ih it hit

/-- **C95 (partial).** The input is a concatenation of well-formed streams.  When `Read` has returned some of the data of a stream (`S` with content `d`), and there are no further streams or the Reader's buffer is too small for
the data of this one which has not been returned, and no `Close` has taken effect, then the variable given to `CaptureHeader` holds what the header of this stream says, and the goroutine is not about to change it.
Missing: the case that the rest of the data fits into the buffer and another stream follows (`C95_fails`). -/
theorem C95_partial {c : RSetup} (h : c.OK) {k : Container} (hk : c.o.format = fmtOf k) {src : Src} {ps qs : List (List UInt8 × List UInt8)} {S d : List UInt8}
    (hS : ∀ p ∈ ps ++ (S, d) :: qs, c.Stream k p.1 p.2) (hb : src.bytes = (ps ++ (S, d) :: qs).flatMap Prod.fst)
    {s : RState} (hr : c.Runs src s) {cap n : Nat} (hc : 0 < cap) {t : ESt} (ht : EReach cap s.out.acts s.events n t) (hf : t.rd.forced = false)
    (h1 : (ps.flatMap Prod.snd).length < (got t.rd.log).length)
    (h2 : qs = [] ∨ (got t.rd.log).length + cap < (ps.flatMap Prod.snd).length + d.length) (h0 : Header) :
    (∃ hdr, hdr <+: S ∧ HeaderSays k hdr (Tracer.run captureHeader t.sent h0)) ∧
    ∀ l t', EStep t l t' → t'.sent = t.sent ∨ ∃ e, t'.sent = t.sent ++ [e] ∧ ∀ x, e.kind ≠ .streamHeader x := by
  obtain ⟨l, r, tail, i1, i2, i3⟩ := run_heads h.env hr
  obtain ⟨p2, e1, e2⟩ := items_cat h hk i1 hS hb
  have hno : r ≠ [] → ¬ NoStream c.env k r := by
    intro hr hn
    rcases p2 with _ | ⟨p, p2⟩
    · exact hr e2
    · exact hn p.1 p.2 (p2.flatMap Prod.fst) (hS p (by rw [e1]; simp)) (by rw [e2]; simp)
  rcases i3 with ⟨rfl, i3⟩ | ⟨c', ⟨b, b1, b2, b3⟩, i4⟩
  · have i := ereach_inv hc (runs_placed h hr) ht
    have io := i.opn hf
    have hb := (flushed_bounds hc i.rd hf).1
    have hlen : (got t.rd.log).length ≤ (datas l).length := by
      have : flushed t.rd ≤ (actData t.rd.script).length := Nat.sub_le _ _
      rw [(good hc (fun _ h => h) i.rd).sc, i3] at this
      omega
    have hroom := reach_room i.rd
    rw [reach_cap i.rd] at hroom
    -- the stream is one of those which are read
    obtain ⟨l1, it, l2, rfl, f1, f2, f3⟩ : ∃ l1 it l2, l = l1 ++ it :: l2 ∧ ps = l1.map (fun it => (it.S, it.data)) ∧ (S, d) = (it.S, it.data) ∧ qs = l2.map (fun it => (it.S, it.data)) ++ p2 := by
      rcases List.append_eq_append_iff.1 e1 with ⟨x, g1, g2⟩ | ⟨x, g1, g2⟩
      · rcases x with _ | ⟨y, x⟩
        · exfalso
          rw [List.append_nil] at g1
          rw [← g1] at h1
          have : (l.map (fun it => (it.S, it.data))).flatMap Prod.snd = datas l := by simp [datas, List.flatMap, Function.comp_def]
          rw [this] at h1
          omega
        · simp only [List.cons_append, List.cons.injEq] at g2
          obtain ⟨l1, l2, q1, q2, q3⟩ := List.map_eq_append_iff.1 g1
          obtain ⟨it, l3, q4, q5, q6⟩ := List.map_eq_cons_iff.1 q3
          exact ⟨l1, it, l3, by rw [q1, q4], q2.symm, by rw [g2.1, q5], by rw [g2.2, q6]⟩
      · exfalso
        have h3 : ps.flatMap Prod.snd = datas l ++ x.flatMap Prod.snd := by rw [g1]; simp [datas, List.flatMap, Function.comp_def]
        rw [h3, List.length_append] at h1
        omega
    obtain ⟨j1, j2, ⟨hdr, j3, j4⟩, j5⟩ := items_mem hk i1 it (by simp)
    have hps : (ps.flatMap Prod.snd).length = (datas l1).length := by rw [f1]; simp [datas, List.flatMap, Function.comp_def]
    cases f2
    have hh : heads (t.sent ++ t.todo) = headsAt 0 l1 ++ ((datas l1).length, it.h) :: headsAt ((datas l1).length + it.data.length) l2 := by
      rw [io.all, i2, headsAt_append]
      simp [headsAt]
    obtain ⟨k1, k2⟩ := captured (g := (got t.rd.log).length) (cap := cap) hh (by omega) (fun m x hm => by
      rcases h2 with h2 | h2
      · rw [h2] at f3
        have := (List.append_eq_nil_iff.1 f3.symm).1
        rw [List.map_eq_nil_iff.1 this] at hm
        cases hm
      · have := headsAt_ge _ _ _ _ hm
        omega) (fun e he => by have := io.later e he; omega) (fun e he => by have := io.before e he; omega)
    refine ⟨⟨hdr, j3, ?_⟩, fun l t' hs => ?_⟩
    · rw [capture_heads, k1]
      simp
      exact j1 ▸ reports_says j4
    · cases hs with
      | other _ _ => exact Or.inl rfl
      | late e g => rw [hf] at g; cases g
      | @event e r _ g1 g2 g3 =>
        refine Or.inr ⟨e, rfl, fun x hx => ?_⟩
        have hm : (e.outTotal, x) ∈ heads t.todo := by
          rw [g2]
          exact List.mem_filterMap.2 ⟨e, by simp, by simp [hx]⟩
        rw [k2] at hm
        have hfl := (flushed_bounds hc i.rd hf).2 g1
        rcases h2 with h2 | h2
        · rw [h2] at f3
          have := (List.append_eq_nil_iff.1 f3.symm).1
          rw [List.map_eq_nil_iff.1 this] at hm
          cases hm
        · have := headsAt_ge _ _ _ _ hm
          omega
  · exfalso
    have hr0 : r ≠ [] := by
      intro h0; rw [h0] at b2; exact b1 (List.prefix_nil.1 b2)
    have : c' = k := by
      rw [b3]
      show detect c.o.format b = k
      rw [hk]; exact detect_fmtOf _ _
    exact hno hr0 (this ▸ i4)

/-! ### the property is false if another stream follows -/

/-- a gzip member with a file name of one letter -/
def namedGz (x : UInt8) (d : List UInt8) : List UInt8 :=
  [0x1f, 0x8b, 8, 8, 0, 0, 0, 0, 0, 255, x, 0] ++ storedRaw d ++ leBytes 4 (crc32 d).toNat ++ leBytes 4 (d.length % 2 ^ 32)

def nameHeader (x : UInt8) : GzHeader := ⟨false, false, 0, 0, 255, none, some [x], none⟩

theorem nameHeader_bytes (x : UInt8) : (nameHeader x).bytes = [0x1f, 0x8b, 8, 8, 0, 0, 0, 0, 0, 255, x, 0] := by
  have h1 : UInt8.ofNat (nameHeader x).flags = 8 := by
    show UInt8.ofNat 8 = 8
    decide
  have h2 : leBytes 4 (nameHeader x).mtime = [0, 0, 0, 0] := by
    show leBytes 4 0 = _
    decide
  have h3 : (nameHeader x).main = [0x1f, 0x8b, 8, 8, 0, 0, 0, 0, 0, 255, x, 0] := by
    unfold GzHeader.main
    rw [h1, h2]
    rfl
  unfold GzHeader.bytes
  rw [h3]
  rfl

theorem nameHeader_valid {x : UInt8} (hx : x ≠ 0) : (nameHeader x).Valid := ⟨by simp [nameHeader], by simp [nameHeader], by simpa [nameHeader] using hx.symm, by simp [nameHeader]⟩

theorem namedGz_stream {x : UInt8} (hx : x ≠ 0) {d : List UInt8} (h : d.length < 65536) (c : RSetup) : c.Stream .gzip (namedGz x d) d := by
  refine ⟨nameHeader x, by simp [nameHeader], storedRaw d, nameHeader_valid hx, storedRaw_deflate h _ _, ?_⟩
  rw [nameHeader_bytes]
  rfl

/-- what its header says -/
theorem namedGz_says {x : UInt8} (hx : x ≠ 0) {d hdr : List UInt8} {h : Header} (hp : hdr <+: namedGz x d) (hs : HeaderSays .gzip hdr h) : h.fileName = [x] := by
  obtain ⟨g, h1, rfl, h3⟩ := hs
  obtain ⟨r, hr⟩ := hp
  have hg' : namedGz x d = (nameHeader x).bytes ++ (storedRaw d ++ leBytes 4 (crc32 d).toNat ++ leBytes 4 (d.length % 2 ^ 32)) := by
    rw [nameHeader_bytes]
    unfold namedGz
    simp
  have hfl : UInt8.ofNat g.flags = 8 := by
    have := congrArg (fun l : List UInt8 => l[3]?) hr
    simpa [GzHeader.bytes, GzHeader.main, namedGz] using this
  have hex : g.extra = none := by
    cases he : g.extra with
    | none => rfl
    | some e =>
      exfalso
      unfold GzHeader.flags at hfl
      rw [he] at hfl
      revert hfl
      generalize g.text = a, g.hcrc = b, g.name.isSome = n, g.comment.isSome = m
      revert a b n m
      simp only [Option.isSome_some]
      decide
  have hn := congrArg Header.fileName (gz_report_unique (g := g) (g' := nameHeader x) (by rw [hex]; simp) h1 (by simp [nameHeader]) (nameHeader_valid hx) (hr.trans hg'))
  rw [h3.name]
  exact hn

def twoNamed : Src := ⟨[(0x1f, (namedGz 97 [65, 66]).tail)], namedGz 98 [67], .eof⟩

/-- one byte is read; meanwhile the goroutine goes on with the second stream -/
def readOne : List (Option Lab) := [some (.callRead 0 1), some (.client 0), some (.client 0), some .thread, none, none, none, none] ++ List.replicate 6 (some .thread) ++
  [some (.client 0), some (.client 0)] ++ List.replicate 5 none

def namesAfter (ls : List (Option Lab)) (r : Except Panic (Unit × RState)) : Option (List UInt8 × List UInt8 × Bool) := match r with
  | .ok (_, s) => (eexecs ⟨initial 128 s.out.acts 1, [], s.events⟩ ls).map fun t => (got t.rd.log, (Tracer.run captureHeader t.sent {} : Header).fileName, t.rd.forced)
  | .error _ => none

theorem namesAfter_some {c : RSetup} {src : Src} {ls : List (Option Lab)} {p f : List UInt8} (hn : namesAfter ls (readThread c.env (start src false)) = some (p, f, false))
    (hl : ∀ l ∈ ls, ∀ x, l = some x → NoReset x) :
    ∃ (s : RState) (t : ESt), c.Runs src s ∧ EReach 128 s.out.acts s.events 1 t ∧ got t.rd.log = p ∧ (Tracer.run captureHeader t.sent {} : Header).fileName = f ∧ t.rd.forced = false := by
  rcases hr : readThread c.env (start src false) with e | ⟨u, s⟩
  · rw [hr] at hn; cases hn
  · rw [hr] at hn
    obtain ⟨t, h1, h2⟩ := Option.map_eq_some_iff.1 hn
    simp only [Prod.mk.injEq] at h2
    exact ⟨s, t, hr, eexecs_ok .refl h1 hl, h2.1, h2.2.1, h2.2.2⟩

/-- **C95 is false if another stream follows**: two gzip members, called "a" and "b".  One byte of the two in the first one has been read; the variable already holds the header of the second one
(and was changed by the goroutine at a time at which the caller may look at it). -/
theorem C95_fails : ∃ (c : RSetup) (src : Src) (S S' d d' : List UInt8) (s : RState) (t : ESt), c.OK ∧ c.o.format = .gzip ∧ c.Stream .gzip S d ∧ c.Stream .gzip S' d' ∧ src.bytes = S ++ S' ∧
    c.Runs src s ∧ EReach (2 ^ (c.o.mlevel + 6)) s.out.acts s.events 1 t ∧ t.rd.forced = false ∧ got t.rd.log ≠ [] ∧ (∃ x, x ≠ [] ∧ d = got t.rd.log ++ x) ∧
    ¬ ∃ hdr, hdr <+: S ∧ HeaderSays .gzip hdr (Tracer.run captureHeader t.sent {}) := by
  have hl : ∀ l ∈ readOne, ∀ x, l = some x → NoReset x := by
    have : ∀ l ∈ readOne, (l.map fun x => decide (NoReset x)) ≠ some false := by decide +kernel
    intro l h x hx
    have := this l h
    subst hx
    simpa using this
  obtain ⟨s, t, h1, h2, h3, h4, h5⟩ := namesAfter_some (c := rdemo [.format .gzip, .mlevel 1]) (src := twoNamed) (ls := readOne) (p := [65]) (f := [98]) (by decide +kernel) hl
  refine ⟨rdemo [.format .gzip, .mlevel 1], twoNamed, namedGz 97 [65, 66], namedGz 98 [67], [65, 66], [67], s, t, rdemo_ok (by decide), rfl, namedGz_stream (by decide) (by decide) _,
    namedGz_stream (by decide) (by decide) _, by decide +kernel, h1, h2, h5, by rw [h3]; simp, ⟨[66], by simp, by rw [h3]; rfl⟩, ?_⟩
  rintro ⟨hdr, q1, q2⟩
  have := namedGz_says (by decide) q1 q2
  rw [h4] at this
  cases this

/-! ### the hypotheses can be met -/

/-- one stream, of whose two bytes one has been read -/
example : ∃ (s : RState) (t : ESt), (rdemo [.format .gzip, .mlevel 1]).Runs ⟨[], namedGz 97 [65, 66], .eof⟩ s ∧ EReach 128 s.out.acts s.events 1 t ∧ got t.rd.log = [65] ∧
    (Tracer.run captureHeader t.sent {} : Header).fileName = [97] := by
  have hl : ∀ l ∈ readOne.take 16, ∀ x, l = some x → NoReset x := by
    have : ∀ l ∈ readOne.take 16, (l.map fun x => decide (NoReset x)) ≠ some false := by decide +kernel
    intro l h x hx
    have := this l h
    subst hx
    simpa using this
  obtain ⟨s, t, h1, h2, h3, h4, h5⟩ := namesAfter_some (c := rdemo [.format .gzip, .mlevel 1]) (src := ⟨[], namedGz 97 [65, 66], .eof⟩) (ls := readOne.take 16) (p := [65]) (f := [97]) (by decide +kernel) hl
  refine ⟨s, t, h1, h2, h3, ?_⟩
  obtain ⟨⟨hdr, q1, q2⟩, _⟩ := C95_partial (rdemo_ok (by decide)) (k := .gzip) rfl (ps := []) (qs := []) (S := namedGz 97 [65, 66]) (d := [65, 66])
    (by intro p hp; simp at hp; subst hp; exact namedGz_stream (by decide) (by decide) _) (by decide +kernel) h1 (by decide) h2 h5 (by rw [h3]; simp) (Or.inl rfl) {}
  exact namedGz_says (by decide) q1 q2

end Flate.Props
