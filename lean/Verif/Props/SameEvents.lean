/-
C106: the tracers of a Reader are told of the same blocks as those of the Writer.
-/
import Verif.Proof.SameBlocks
import Verif.Props.WBlockEvents
import Verif.Props.BlockEvents
import Verif.Props.WriterEvents
import Verif.Props.ReaderHeader
import Verif.Props.RoundTrip
import Verif.Props.ReaderSafe

namespace Flate.Props
open Flate.Spec Flate.Model Flate.Model.Rd Flate.Proof Flate.Proof.R

/-! ### where a header ends -/

theorem gz_end_unique {g g' : GzHeader} (hx : ∀ e, g.extra = some e → ExtraOK e) (hv : g.Valid) (hx' : ∀ e, g'.extra = some e → ExtraOK e) (hv' : g'.Valid)
    {r r' : List UInt8} (h : g.bytes ++ r = g'.bytes ++ r') : g.bytes = g'.bytes := by
  let s : RState := { inp := { src := ⟨[], [], .eof⟩, inputError := some .eof, buf := g.bytes ++ r } }
  have h1 := gz_ok (s := s) (e0 := .eof) rfl rfl hx hv (r := r) rfl
  have h2 := gz_ok (s := s) (e0 := .eof) rfl rfl hx' hv' (r := r') h
  rw [h1] at h2
  have h3 : (true, ({ s with inp := takeIn g.bytes r { s.inp with crc := Crc.init }, header := gzReport g, actualFormat := .gzip } : RState)) =
    (true, { s with inp := takeIn g'.bytes r' { s.inp with crc := Crc.init }, header := gzReport g', actualFormat := .gzip }) := by injection h2
  have h4 : r = r' := congrArg (fun x : Bool × RState => x.2.inp.buf) h3
  subst h4
  exact List.append_cancel_right h

/-- `hdr` is a zlib header, with or without the checksum of a dictionary -/
theorem zlib_end_unique {d d' : Option (List UInt8)} {ci ci' : Nat} {a b r r' : List UInt8} (h : ZlibHeader d ci a) (h' : ZlibHeader d' ci' b) (e : a ++ r = b ++ r') : a = b := by
  obtain ⟨cmf, flg, _, _, _, h1⟩ := h
  obtain ⟨cmf', flg', _, _, _, h2⟩ := h'
  cases d with
  | none =>
    obtain ⟨i1, rfl⟩ := h1
    cases d' with
    | none => obtain ⟨i2, rfl⟩ := h2; exact (List.append_inj e rfl).1
    | some x =>
      obtain ⟨i2, rfl⟩ := h2
      have : flg = flg' := by simp at e; exact e.2.1
      rw [this, i2] at i1; cases i1
  | some x =>
    obtain ⟨i1, rfl⟩ := h1
    cases d' with
    | none =>
      obtain ⟨i2, rfl⟩ := h2
      have : flg = flg' := by simp at e; exact e.2.1
      rw [this, i2] at i1; cases i1
    | some y => obtain ⟨i2, rfl⟩ := h2; exact (List.append_inj e (by simp [beBytes])).1

/-! ### the blocks of a complete stream -/

/-- the event is about a block -/
def AboutBlock : EvKind → Prop
  | .blockBegin _ _ => True
  | .blockTrees _ _ _ => True
  | .blockEnd _ _ => True
  | _ => False

theorem blockTrace_about {f : Bool} {ks : List EvKind} (h : BlockTrace f ks) : (∀ k ∈ ks, AboutBlock k) ∧ ∃ l t, ks = l ++ [.blockEnd t f] := by
  cases h with
  | stored => exact ⟨by simp [AboutBlock], [_], _, rfl⟩
  | static tr => exact ⟨by simp [AboutBlock], [_, _], _, rfl⟩
  | dynamic tr => exact ⟨by simp [AboutBlock], [_, _], _, rfl⟩

/-- what follows the header in the events of complete streams -/
theorem after_header : ∀ {streams : List (List EvKind)}, (∀ st ∈ streams, StreamTrace st) → ∀ {L R : List EvKind} {h : Header}, L ++ .streamHeader h :: R = streams.flatten →
    ∃ A t a b rest, R = A ++ .blockEnd t true :: .streamEnd a b :: rest ∧ ∀ k ∈ A, AboutBlock k
  | [], _, L, R, h, e => by simp at e
  | st :: streams, hs, L, R, h, e => by
    obtain ⟨h0, blocks, last, a, b, hb, hl⟩ := hs st (by simp)
    obtain ⟨l1, l, t, l2⟩ := blockTrace_about hl
    have hmem : ∀ k ∈ blocks.flatten ++ last, AboutBlock k := by
      intro k hk
      rcases List.mem_append.1 hk with hk | hk
      · obtain ⟨x, hx, hk⟩ := List.mem_flatten.1 hk
        exact (blockTrace_about (hb x hx)).1 k hk
      · exact l1 k hk
    generalize hX : blocks.flatten ++ last = X at hmem
    have e' : L ++ .streamHeader h :: R = .streamBegin :: .streamHeader h0 :: (X ++ .streamEnd a b :: .streamClose :: streams.flatten) := by
      rw [e, ← hX]; simp
    have hXl : X = (blocks.flatten ++ l) ++ [.blockEnd t true] := by rw [← hX, l2]; simp
    cases L with
    | nil => simp at e'
    | cons x L =>
      simp only [List.cons_append, List.cons.injEq] at e'
      obtain ⟨rfl, e'⟩ := e'
      cases L with
      | nil =>
        simp only [List.nil_append, List.cons.injEq] at e'
        obtain ⟨_, e'⟩ := e'
        refine ⟨blocks.flatten ++ l, t, a, b, .streamClose :: streams.flatten, by rw [e', hXl]; simp, fun k hk => hmem k ?_⟩
        rw [hXl]; exact List.mem_append_left _ hk
      | cons x L =>
        simp only [List.cons_append, List.cons.injEq] at e'
        obtain ⟨rfl, e'⟩ := e'
        have hno : ∀ k ∈ X ++ [.streamEnd a b, .streamClose], k ≠ .streamHeader h := by
          intro k hk
          rcases List.mem_append.1 hk with hk | hk
          · have := hmem k hk
            rintro rfl
            exact this
          · rcases List.mem_cons.1 hk with rfl | hk
            · simp
            · rcases List.mem_singleton.1 hk; simp
        have e2 : L ++ .streamHeader h :: R = (X ++ [.streamEnd a b, .streamClose]) ++ streams.flatten := by rw [e']; simp
        rcases List.append_eq_append_iff.1 e2 with ⟨u, g1, g2⟩ | ⟨u, g1, g2⟩
        · cases u with
          | nil => exact after_header (fun st hst => hs st (List.mem_cons_of_mem _ hst)) (L := []) (R := R) (h := h) (by simpa using g2)
          | cons y u =>
            simp only [List.cons_append, List.cons.injEq] at g2
            exact absurd g2.1.symm (hno y (by rw [g1]; simp))
        · exact after_header (fun st hst => hs st (List.mem_cons_of_mem _ hst)) g2.symm

theorem about_split {A A' R R' : List EvKind} (h : ∀ k ∈ A, AboutBlock k) (h' : ∀ k ∈ A', AboutBlock k) {a b a' b' : BitVec 32}
    (e : A ++ .streamEnd a b :: R = A' ++ .streamEnd a' b' :: R') : A = A' ∧ a = a' ∧ b = b' ∧ R = R' := by
  induction A generalizing A' with
  | nil =>
    cases A' with
    | nil => simp at e; exact ⟨rfl, e.1.1, e.1.2, e.2⟩
    | cons y A' => simp at e; have := h' y (by simp); rw [← e.1] at this; exact this.elim
  | cons x A ih =>
    cases A' with
    | nil => simp at e; have := h x (by simp); rw [e.1] at this; exact this.elim
    | cons y A' =>
      simp only [List.cons_append, List.cons.injEq] at e
      obtain ⟨rfl, e⟩ := e
      obtain ⟨rfl, g⟩ := ih (fun k hk => h k (List.mem_cons_of_mem _ hk)) (fun k hk => h' k (List.mem_cons_of_mem _ hk)) e
      exact ⟨rfl, g⟩

theorem wblocks_about {ok : List Nat → Prop} {win W : Nat} {B : List Bool} {p : Nat} {h : List UInt8} {n : Nat} {es : List Event} (hw : WBlocks ok win W B p h n es) :
    ∀ e ∈ es, AboutBlock e.kind := by
  induction hw with
  | nothing => simp
  | cons f b es es' data hb _ _ _ ih =>
    intro e he
    rcases List.mem_append.1 he with he | he
    · cases hb with
      | stored pad data x x' _ _ _ _ h4 h5 => rcases List.mem_cons.1 he with rfl | he; rw [h4.1]; trivial; rcases List.mem_singleton.1 he; rw [h5.1]; trivial
      | coded t c tr is data x x' x'' _ _ _ _ _ _ h4 h5 h6 =>
        rcases List.mem_cons.1 he with rfl | he; rw [h4.1]; trivial
        rcases List.mem_cons.1 he with rfl | he; rw [h5.1]; trivial
        rcases List.mem_singleton.1 he; rw [h6.1]; trivial
    · exact ih e he

theorem blockRun_about {ok : List Nat → Prop} {B : List UInt8} {p : Nat} {es : List Event} (h : BlockRun ok B p es) : ∀ e ∈ es, AboutBlock e.kind := by
  induction h with
  | nothing p => simp
  | begun f t e _ h2 => simp [h2.1, AboutBlock]
  | tables f t h tr e e' _ _ h3 h4 => simp [h3.1, h4.1, AboutBlock]
  | stored f pad data e e' es b _ _ _ _ h5 h6 _ _ ih => simpa [h5.1, h6.1, AboutBlock] using ih
  | coded f t h tr is e e' e'' es b _ _ _ _ _ h6 h7 h8 _ _ ih => simpa [h6.1, h7.1, h8.1, AboutBlock] using ih

/-! ### C106 -/

/-- the event `e` of a Writer and the event `e'` of a Reader are about streams which begin with the same byte of the file and are in the same format -/
def SameStart (e e' : Event) : Prop := e.format = e'.format ∧ e'.inTotal - e'.inStream = e.outTotal - e.outStream

theorem take_slice {O : List UInt8} {a b : Nat} (h : a ≤ b) : (O.take b).drop a ++ O.drop b = O.drop a := by
  have : O.drop a = (O.take b ++ O.drop b).drop a := by rw [List.take_append_drop]
  rw [this]
  by_cases hb : b ≤ O.length
  · rw [List.drop_append_of_le_length (by simp; omega)]
  · rw [List.drop_eq_nil_of_le (as := O) (i := b) (by omega)]; simp

/-- the headers are the same bytes -/
theorem headers_agree {c : Setup} (hc : c.OK) {ops : List WOp} {rs : List WRes} {t : WState} (h : c.Runs ops rs t) (h0 : c.sink.out = [])
    {d : RSetup} (hd : d.OK) {src : Src} (hsrc : src.bytes <+: t.sink.out) {stop : Nat → Option Nat} {closed : Bool} {s : RState}
    (hr : readThread (d.envStop stop) (start src closed) = .ok ((), s)) {e e' : Event} {hW hR : Header} (he : e ∈ t.events.map (·.ev)) (hk : e.kind = .streamHeader hW)
    (he' : e' ∈ s.events) (hk' : e'.kind = .streamHeader hR) (hs : SameStart e e') : e.outTotal = e'.inTotal ∧ e.outStream = e'.inStream ∧ e.outStream ≤ e.outTotal ∧ e.outTotal ≤ t.sink.out.length := by
  obtain ⟨p, hp, rfl⟩ := List.mem_map.1 he
  obtain ⟨o1, o2⟩ := (C35_output hc h).1 p hp
  rw [h0, List.length_nil, Nat.add_zero] at o1
  obtain ⟨_, _, w3, w4, w5⟩ := C53_header hc h hp hk
  rw [← o1] at w3 w4 w5
  obtain ⟨r1, r2, k, r3, _, r5, _⟩ := C59_header hd hr he' hk'
  obtain ⟨s1, s2⟩ := hs
  obtain ⟨tail, htail⟩ := hsrc
  generalize t.sink.out = O at w4 w5 htail
  have hsl : (src.bytes.take e'.inTotal).drop (e'.inTotal - e'.inStream) = (O.take e'.inTotal).drop (e'.inTotal - e'.inStream) := by
    rw [← htail, List.take_append_of_le_length r2]
  rw [hsl] at r5
  have hl : e'.inTotal ≤ O.length := by rw [← htail, List.length_append]; omega
  have key : (O.take p.ev.outTotal).drop (p.ev.outTotal - p.ev.outStream) ++ O.drop p.ev.outTotal = (O.take e'.inTotal).drop (e'.inTotal - e'.inStream) ++ O.drop e'.inTotal := by
    rw [take_slice (Nat.sub_le _ _), take_slice (Nat.sub_le _ _), s2]
  have same : (O.take p.ev.outTotal).drop (p.ev.outTotal - p.ev.outStream) = (O.take e'.inTotal).drop (e'.inTotal - e'.inStream) := by
    rw [o2, r3] at s1
    unfold Announces at w5
    rw [s1] at w5
    cases k with
    | raw => exact w5.trans (show (O.take e'.inTotal).drop (e'.inTotal - e'.inStream) = [] from r5).symm
    | zlib => obtain ⟨ci, r5, _⟩ := r5; exact zlib_end_unique w5 r5 key
    | gzip =>
      obtain ⟨g, _, v1, v2, v3⟩ := w5
      obtain ⟨g', v4, v5, v6⟩ := r5
      rw [v3, v6] at key ⊢
      exact gz_end_unique v2 v1 v4 v5 key
  have hlen := congrArg List.length same
  simp only [List.length_drop, List.length_take] at hlen
  omega

/-- **C106.** A file is written by a Writer without an error and closed; the file, or the beginning of it, is read by any Reader (with any options; it may also be closed early).
Whenever a stream of which the Writer's tracers have been told and a stream of which the Reader's tracers have been told begin with the same byte, the headers end with the same byte,
and the block events between StreamHeader and StreamEnd are of the same kinds, with the same block types, final marks and code lengths:
those of the Reader are the first of those of the Writer, and they are all if the Reader has read the end of the final block. -/
theorem C106_blocks {c : Setup} (hc : c.OK) {ops : List WOp} (hcl : WOp.close ∉ ops) {rs : List WRes} {t : WState} (h : c.Runs (ops ++ [.close]) rs t) (hn : NoErr rs) (h0 : c.sink.out = [])
    {d : RSetup} (hd : d.OK) (hL : d.L = c.L) {src : Src} (hsrc : src.bytes <+: t.sink.out) {stop : Nat → Option Nat} {closed : Bool} {s : RState}
    (hr : readThread (d.envStop stop) (start src closed) = .ok ((), s))
    {l r : List Event} {e : Event} {hW : Header} (he : t.events.map (·.ev) = l ++ e :: r) (hk : e.kind = .streamHeader hW)
    {l' r' : List Event} {e' : Event} {hR : Header} (he' : s.events = l' ++ e' :: r') (hk' : e'.kind = .streamHeader hR) (hs : SameStart e e') :
    e.outTotal = e'.inTotal ∧
    ∃ ks ks' a b a' b' rest rest', r.map (·.kind) = ks ++ .streamEnd a b :: rest ∧ r'.map (·.kind) = ks' ++ .streamEnd a' b' :: rest' ∧ (∀ k ∈ ks, AboutBlock k) ∧ (∀ k ∈ ks', AboutBlock k) ∧
      ks' <+: ks ∧ (∀ t, ks'.getLast? = some (.blockEnd t true) → ks' = ks) := by
  obtain ⟨q1, _, _, _⟩ := headers_agree hc h h0 hd hsrc hr (by rw [he]; simp) hk (by rw [he']; simp) hk' hs
  refine ⟨q1, ?_⟩
  -- the Writer
  obtain ⟨out, pend, o1, _, o3, o4⟩ := C70_blocks hc h hn
  have hpend := o3 (by simp)
  subst hpend
  rw [h0, List.nil_append] at o1
  rw [List.append_nil, ← o1] at o4
  obtain ⟨bks, rest, g1, g2, g3⟩ := o4 l e r hW he hk
  obtain ⟨streams, t1, t2⟩ := C33_complete hc hcl h hn
  have he2 : (l.map (·.kind)) ++ .streamHeader hW :: r.map (·.kind) = streams.flatten := by
    rw [← t2, show (t.events.map fun p => p.ev.kind) = (t.events.map (·.ev)).map (·.kind) by simp, he, List.map_append, List.map_cons, hk]
  obtain ⟨A, bt, a, b, rest2, f1, f2⟩ := after_header t1 he2
  have hA : ∀ k ∈ A ++ [.blockEnd bt true], AboutBlock k := by
    intro k hk
    rcases List.mem_append.1 hk with hk | hk
    · exact f2 k hk
    · rw [List.mem_singleton.1 hk]; trivial
  have hbk : ∀ k ∈ bks.map (·.kind), AboutBlock k := by
    intro k hk
    obtain ⟨x, hx, rfl⟩ := List.mem_map.1 hk
    exact wblocks_about g3 x hx
  have hends : bks.map (·.kind) = A ++ [.blockEnd bt true] := by
    have e1 : bks.map (·.kind) ++ rest.map (·.kind) = (A ++ [.blockEnd bt true]) ++ .streamEnd a b :: rest2 := by rw [← List.map_append, ← g1, f1]; simp
    rcases g2 with rfl | ⟨x, rest', a2, b2, rfl, hx⟩
    · rw [List.map_nil, List.append_nil] at e1
      exact absurd (hbk (.streamEnd a b) (by rw [e1]; simp)) (fun h => h)
    · rw [List.map_cons, hx] at e1
      exact (about_split hbk hA e1).1
  have hfin : FinalEnd bks := by
    obtain ⟨u, v, w1, w2, w3⟩ := List.map_eq_append_iff.1 hends
    obtain ⟨x, rfl, hx⟩ := List.map_eq_singleton_iff.1 w3
    exact ⟨u, x, bt, w1, hx⟩
  -- the Reader
  obtain ⟨bks', x, rest', a', b', j1, j2, j3⟩ := C68_blocks hd hr he' hk'
  have j2' := blockRun_mono hsrc j2
  rw [hL, ← q1] at j2'
  obtain ⟨i1, i2⟩ := blocks_agree (ok := fun l => c.L.accepts l = true) (fun l hl => hc.lawful.accepts_code hl) g3 hfin j2'
  refine ⟨bks.map (·.kind), bks'.map (·.kind), a, b, a', b', rest2, rest'.map (·.kind), ?_, ?_, hbk, ?_, i1, ?_⟩
  · rw [hends, f1]; simp
  · rw [j1, List.map_append, List.map_cons, j3]
  · intro k hk
    obtain ⟨y, hy, rfl⟩ := List.mem_map.1 hk
    exact blockRun_about j2 y hy
  · intro bt' hl
    refine i2 ?_
    obtain ⟨ini, hini⟩ := List.getLast?_eq_some_iff.1 hl
    obtain ⟨u, v, w1, w2, w3⟩ := List.map_eq_append_iff.1 hini
    obtain ⟨y, rfl, hy⟩ := List.map_eq_singleton_iff.1 w3
    exact ⟨u, y, bt', w1, hy⟩

/-- **C106**, if the Reader comes to the end of its input without an error: the block events of the two streams are of the same kinds. -/
theorem C106_complete {c : Setup} (hc : c.OK) {ops : List WOp} (hcl : WOp.close ∉ ops) {rs : List WRes} {t : WState} (h : c.Runs (ops ++ [.close]) rs t) (hn : NoErr rs) (h0 : c.sink.out = [])
    {d : RSetup} (hd : d.OK) (hL : d.L = c.L) {src : Src} (hsrc : src.bytes <+: t.sink.out) {s : RState} (hr : d.Runs src s) (heof : actErr s.out.acts = some .eof)
    {l r : List Event} {e : Event} {hW : Header} (he : t.events.map (·.ev) = l ++ e :: r) (hk : e.kind = .streamHeader hW)
    {l' r' : List Event} {e' : Event} {hR : Header} (he' : s.events = l' ++ e' :: r') (hk' : e'.kind = .streamHeader hR) (hs : SameStart e e') :
    ∃ ks a b a' b' rest rest', r.map (·.kind) = ks ++ .streamEnd a b :: rest ∧ r'.map (·.kind) = ks ++ .streamEnd a' b' :: rest' ∧ (∀ k ∈ ks, AboutBlock k) := by
  have hr' : readThread (d.envStop fun _ => none) (start src false) = .ok ((), s) := hr
  obtain ⟨_, ks, ks', a, b, a', b', rest, rest', h1, h2, h3, h4, _, h6⟩ := C106_blocks hc hcl h hn h0 hd hL hsrc hr' he hk he' hk' hs
  obtain ⟨sts, t1, _, t3⟩ := C34_partial hd hr heof
  have he2 : (l'.map (·.kind)) ++ .streamHeader hR :: r'.map (·.kind) = (sts.map Prod.fst).flatten := by
    have : evKinds s = (l'.map (·.kind)) ++ .streamHeader hR :: r'.map (·.kind) := by unfold evKinds; rw [he', List.map_append, List.map_cons, hk']
    rw [← this, t1, List.flatMap_def]
  obtain ⟨A, bt, x, y, rest2, f1, f2⟩ := after_header (fun st hst => by obtain ⟨p, hp, rfl⟩ := List.mem_map.1 hst; exact (t3 p hp).1) he2
  have hA : ∀ k ∈ A ++ [.blockEnd bt true], AboutBlock k := by
    intro k hk
    rcases List.mem_append.1 hk with hk | hk
    · exact f2 k hk
    · rw [List.mem_singleton.1 hk]; trivial
  have e3 : ks' ++ .streamEnd a' b' :: rest' = (A ++ [.blockEnd bt true]) ++ .streamEnd x y :: rest2 := by rw [← h2, f1]; simp
  have hks : ks' = A ++ [.blockEnd bt true] := (about_split h4 hA e3).1
  obtain rfl := h6 bt (by rw [hks]; simp)
  exact ⟨ks', a, b, a', b', rest, rest', h1, h2, h3⟩

/-! ### a case -/

/-- two streams in one file -/
def tracedOps : List WOp := [.write [97, 97, 97, 97, 98], .flush .partialFlush, .write [97, 97, 97], .flush .finishFlush, .write [98], .flush .syncFlush]

/-- where the streams of a list of events begin, and in which format they are -/
def firstBytes (out : Bool) (es : List Event) : List (Nat × Format) :=
  es.filterMap fun e => match e.kind with | .streamHeader _ => some (if out then e.outTotal - e.outStream else e.inTotal - e.inStream, e.format) | _ => none

/-- the number of block events after each header, and the types of the blocks -/
def blockTypes (es : List Event) : List (Option BlockType × Bool) := es.filterMap fun e => match e.kind with
  | .streamHeader _ => some (none, false)
  | .blockEnd t f => some (some t, f)
  | _ => none

/-- the source delivers the first 44 bytes and then the rest -/
def inTwo (bytes : List UInt8) : Src := ⟨[(bytes.headD 0, (bytes.drop 1).take 43)], bytes.drop 44, .eof⟩

def tracedBlocks : List (Option BlockType × Bool) := [(none, false), (some .stored, false), (some .static, false), (some .stored, false), (some .stored, true),
  (none, false), (some .stored, false), (some .stored, false), (some .stored, true)]

/-- both streams begin at the same place in the two histories, the blocks are as above in both, and the Reader comes to the end -/
def tracedBoth : Bool :=
  match runOps refLib (tracedOps ++ [.close]) (demo [.format .gzip, .mlevel 1]).start with
  | .ok (_, t) => (match readThread (rdemo []).env (start (inTwo t.sink.out) false) with
    | .ok (_, s) => decide (firstBytes true (t.events.map (·.ev)) = [(0, .gzip), (44, .gzip)]) && decide (firstBytes false s.events = [(0, .gzip), (44, .gzip)]) &&
        decide (blockTypes (t.events.map (·.ev)) = tracedBlocks) && decide (blockTypes s.events = tracedBlocks) && (match actErr s.out.acts with | some .eof => true | _ => false)
    | .error _ => false)
  | .error _ => false

example : tracedBoth = true := by decide +kernel

/-- and the Writer's history is one of those of which `C106_blocks` speaks -/
example : ∃ rs t, (demo [.format .gzip, .mlevel 1]).Runs (tracedOps ++ [.close]) rs t ∧ NoErr rs ∧ WOp.close ∉ tracedOps ∧ (demo [.format .gzip, .mlevel 1]).sink.out = [] := by
  obtain ⟨rs, t, h1, h2⟩ := (demo_ok (opts := [.format .gzip, .mlevel 1]) (by decide)).run_close_ok (ops := tracedOps) (Or.inr (by decide)) (demo_sink _) (by simp [tracedOps])
  exact ⟨rs, t, h1, h2, by simp [tracedOps], rfl⟩

end Flate.Props
