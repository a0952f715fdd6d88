/-
Block events of a Writer: from calls to sequences of events.
-/
import Verif.Proof.WEvents

namespace Flate.Proof
open Flate.Spec Flate.Model

/-- the events sent so far -/
def evs (s : WState) : List Event := s.events.map (·.ev)

/-- what the Writer's state has to do with the place -/
def WAt (s : WState) : Wh → Prop
  | .idle => s.obLen = 0
  | .opn h n => s.lz.hist <:+ h ∧ s.inStream = n
  | .fin => True

/-- nothing has been written before the first event -/
def FirstAt (s : WState) : Prop := (evs s = [] → s.outTotal = 0 ∧ s.inTotal = 0) ∧ ∀ e ∈ (evs s).head?, e.outTotal = 0 ∧ e.inTotal = 0

/-- nothing has been consumed since the last event, nor, if that is StreamClose, since the one before -/
def LastAt (s : WState) : Prop := (∀ l e, evs s = l ++ [e] → e.inTotal = s.inTotal ∧ (e.kind = .streamClose → e.outTotal = s.outTotal)) ∧
  ∀ l e f, evs s = l ++ [e, f] → f.kind = .streamClose → e.inTotal = s.inTotal

theorem snoc_two {α : Type} {E l : List α} {x e f : α} (h : E ++ [x] = l ++ [e, f]) : E = l ++ [e] ∧ x = f := by
  have h : E ++ [x] = (l ++ [e]) ++ [f] := by rw [h]; simp
  obtain ⟨h1, h2⟩ := List.append_inj' h rfl
  exact ⟨h1, by simpa using h2⟩

theorem snoc_one {α : Type} {E l : List α} {x e : α} (h : E ++ [x] = l ++ [e]) : x = e := by
  obtain ⟨_, h2⟩ := List.append_inj' h rfl
  simpa using h2

/-- another event -/
theorem LastAt.push {s t : WState} {x : Event} (h : x.kind = .streamClose → LastAt s) (e : evs t = evs s ++ [x]) (hx : x.inTotal = t.inTotal) (hx' : x.outTotal = t.outTotal) (ht : t.inTotal = s.inTotal) : LastAt t := by
  refine ⟨fun l y hy => ?_, fun l y f hy hf => ?_⟩
  · rw [e] at hy
    rw [← snoc_one hy]
    exact ⟨hx, fun _ => hx'⟩
  · rw [e] at hy
    obtain ⟨h1, rfl⟩ := snoc_two hy
    rw [ht]
    exact ((h hf).1 _ _ h1).1

/-- the last event is not StreamClose -/
def Inside (es : List Event) : Prop := ∃ l e, es = l ++ [e] ∧ e.kind ≠ .streamClose

theorem Inside.ne {es : List Event} (h : Inside es) : es ≠ [] := by
  obtain ⟨l, e, rfl, _⟩ := h; simp

theorem LastAt.inside {s t : WState} (h : LastAt s) (hi : Inside (evs s)) (e : evs t = evs s) (o : t.inTotal = s.inTotal) : LastAt t := by
  obtain ⟨l0, e0, h0, k0⟩ := hi
  refine ⟨fun l y hy => ?_, fun l y f hy hf => ?_⟩
  · rw [e] at hy
    rw [o]
    have : e0 = y := snoc_one (h0.symm.trans hy)
    exact ⟨(h.1 _ _ hy).1, fun hk => absurd (this ▸ hk) k0⟩
  · rw [e] at hy
    rw [o]; exact h.2 _ _ _ hy hf

/-- how many bytes follow the compressed data of a stream -/
def footLen : Format → Nat
  | .zlib => 4
  | .gzip => 8
  | _ => 0

/-- a stream is begun where the one before was closed, and closed after its footer -/
def GapOK (n : Nat) (p e : Event) : Prop :=
  (e.kind = .streamBegin → p.kind = .streamClose → e.outTotal = p.outTotal ∧ e.inTotal = p.inTotal) ∧
  (e.kind = .streamClose → e.outTotal = p.outTotal + n ∧ e.inTotal = p.inTotal)

def Gaps (n : Nat) (es : List Event) : Prop := ∀ l p e r, es = l ++ p :: e :: r → GapOK n p e

theorem Gaps.push {n : Nat} {es : List Event} {x : Event} (h : Gaps n es) (hx : ∀ l p, es = l ++ [p] → GapOK n p x) : Gaps n (es ++ [x]) := by
  intro l p e r he
  rcases List.eq_nil_or_concat r with rfl | ⟨r', y, rfl⟩
  · obtain ⟨h1, rfl⟩ := snoc_two he
    exact hx _ _ h1
  · rw [List.concat_eq_append] at he
    have he : es ++ [x] = (l ++ p :: e :: r') ++ [y] := by rw [he]; simp
    obtain ⟨h1, _⟩ := List.append_inj' he rfl
    exact h _ _ _ _ h1

theorem gapOK_other {n : Nat} {p e : Event} (h1 : e.kind ≠ .streamBegin) (h2 : e.kind ≠ .streamClose) : GapOK n p e := ⟨fun h => absurd h h1, fun h => absurd h h2⟩

theorem Gaps.blocks {n : Nat} : ∀ {es' es : List Event}, Gaps n es → (∀ e ∈ es', e.kind ≠ .streamBegin ∧ e.kind ≠ .streamClose) → Gaps n (es ++ es') := by
  intro es'
  induction es' with
  | nil => intro es h _; simpa using h
  | cons a l ih =>
    intro es h hk
    rw [List.append_cons]
    exact ih (h.push fun _ _ _ => gapOK_other (hk a (by simp)).1 (hk a (by simp)).2) fun e he => hk e (by simp [he])

theorem wblock_kinds {ok : List Nat → Prop} {win W p : Nat} {h : List UInt8} {n : Nat} {f : Bool} {b : List Bool} {es : List Event} {data : List UInt8} (hb : WBlock ok win W p h n f b es data) :
    ∀ e ∈ es, e.kind ≠ .streamBegin ∧ e.kind ≠ .streamClose := by
  intro e he
  cases hb with
  | stored pad data e1 e2 b _ _ _ h1 h2 =>
    simp only [List.mem_cons, List.not_mem_nil, or_false] at he
    rcases he with rfl | rfl
    · rw [h1.1]; simp
    · rw [h2.1]; simp
  | coded t c tr is data e1 e2 e3 b _ _ _ _ _ h1 h2 h3 =>
    simp only [List.mem_cons, List.not_mem_nil, or_false] at he
    rcases he with rfl | rfl | rfl
    · rw [h1.1]; simp
    · rw [h2.1]; simp
    · rw [h3.1]; simp

theorem FirstAt.keep {s t : WState} (h : FirstAt s) (hne : evs s ≠ []) {x : List Event} (e : evs t = evs s ++ x) : FirstAt t := by
  unfold FirstAt at h ⊢
  rw [e]
  cases hx : evs s with
  | nil => exact absurd hx hne
  | cons a l =>
    rw [hx] at h
    exact ⟨by simp, h.2⟩

theorem Tr.ne {ok : List Nat → Prop} {win W : Nat} {dict : List UInt8} {w : Wh} {es : List Event} {B : List Bool} (h : Tr ok win W dict w es B) (hw : w ≠ .idle) : es ≠ [] := by
  induction h with
  | start => exact absurd rfl hw
  | bits => exact absurd rfl hw
  | fbits _ _ ih => exact ih hw
  | other => exact absurd rfl hw
  | header => simp
  | block _ _ ih => intro e; exact ih (by simp) (List.append_eq_nil_iff.1 e).1
  | last _ _ ih => intro e; exact ih (by simp) (List.append_eq_nil_iff.1 e).1
  | stop => exact absurd rfl hw

structure Ev (L : HuffLib) (base : List UInt8) (win : Nat) (s : WState) (w : Wh) : Prop where
  inv : WInv s
  conf : Conf s
  out : OutAt base.length s
  lim : s.lz.maxDist ≤ win
  tr : ∃ B, view s = bytesBits base ++ B ∧ Tr (fun l => L.accepts l = true) win s.W (s.o.dict.getD []) w (evs s) B
  pos : WAt s w
  first : FirstAt s
  stop : w = .idle → LastAt s
  gaps : Gaps (footLen s.o.format) (evs s)

section
variable {L : HuffLib} {base : List UInt8} {win : Nat}

theorem Ev.block {s s1 t : WState} {h d : List UInt8} {n : Nat} {cs : List Cmd} {f : Bool} (he : Ev L base win s (.opn h n)) (ha : Eat s s1 d) (e : run wBW cs s1 = .ok (true, t))
    (ok : ∀ c ∈ cs, cmdOK s.W c)
    (hw : ∀ es q p, q = 8 * base.length + p → SentAll s.W base.length (n + d.length) es (evPos q cs) →
      WBlock (fun l => L.accepts l = true) win s.W p h n f (cmdsBits q cs) (es.map (·.ev)) d) :
    Ev L base win t (if f then .fin else .opn (h ++ d) (n + d.length)) ∧ t.state = s.state ∧ t.lz = s1.lz := by
  have hv1 : view s1 = view s := by rw [ha.eq]; rfl
  have o1 : OutAt base.length s1 := by have := he.out; rw [ha.eq]; exact this
  have hW1 : s1.W = s.W := by rw [ha.eq]
  obtain ⟨it, ot, ct, st, vt, es, ev, hs⟩ := run_sent cs (eat_inv ha he.inv) o1 (by rw [hW1]; exact ok) e
  obtain ⟨B, hB, tr⟩ := he.tr
  rw [hv1] at vt hs
  obtain ⟨hh, hn⟩ := he.pos
  have hq : (view s).length = 8 * base.length + B.length := by rw [hB]; simp
  have hin : s1.inStream = n + d.length := by rw [ha.eq, ← hn]
  rw [hW1, hin] at hs
  have hb := hw es _ B.length hq hs
  have hWt : t.W = s.W := ct.W.trans hW1
  have hot : t.o = s.o := by rw [ct.o, ha.eq]
  have hst : t.state = s.state := by rw [st, ha.eq]
  have hopts : t.lz.opts = s.lz.opts := by rw [ct.lz]; exact ha.opts
  have hev : evs t = evs s ++ es.map (·.ev) := by unfold evs; rw [ev, ha.eq]; simp
  refine ⟨⟨it, he.conf.of hot hopts (by rw [ct.header, ha.eq]; exact he.conf.hdr), ot, by rw [maxDist_congr hopts]; exact he.lim,
    ⟨B ++ cmdsBits (view s).length cs, by rw [vt, hB, List.append_assoc], ?_⟩, ?_, he.first.keep (tr.ne (by simp)) hev, (by cases f <;> simp), (by rw [hot, hev]; exact he.gaps.blocks (wblock_kinds hb))⟩, hst, ct.lz⟩
  · rw [hWt, hot, hev]
    cases f with
    | false => exact tr.block hb
    | true => exact tr.last hb
  · cases f with
    | false =>
      refine ⟨?_, ct.inStream.trans hin⟩
      rw [ct.lz, ha.hist]
      obtain ⟨x, rfl⟩ := hh
      exact ⟨x, by simp⟩
    | true => trivial

/-- the state and the place -/
def Mode : WS → Wh → Prop
  | .noStream, .idle => True
  | .closedStream, .idle => True
  | .openStream, .opn _ _ => True
  | .closingStream, .fin => True
  | _, _ => False

/-- the same without the place -/
def Evm (L : HuffLib) (base : List UInt8) (win : Nat) (s : WState) : Prop := ∃ w, Ev L base win s w ∧ Mode s.state w

theorem Evm.opn {s : WState} (h : Evm L base win s) (hs : s.state = .openStream) : ∃ h n, Ev L base win s (.opn h n) := by
  obtain ⟨w, he, hm⟩ := h
  rw [hs] at hm
  cases w with
  | opn h n => exact ⟨h, n, he⟩
  | idle => exact hm.elim
  | fin => exact hm.elim

theorem Evm.fin {s : WState} (h : Evm L base win s) (hs : s.state = .closingStream) : Ev L base win s .fin := by
  obtain ⟨w, he, hm⟩ := h
  rw [hs] at hm
  cases w with
  | fin => exact he
  | idle => exact hm.elim
  | opn h n => exact hm.elim

theorem Evm.idle {s : WState} (h : Evm L base win s) (hs : s.state = .noStream ∨ s.state = .closedStream) : Ev L base win s .idle := by
  obtain ⟨w, he, hm⟩ := h
  cases w with
  | idle => exact he
  | fin => rcases hs with hs | hs <;> (rw [hs] at hm; exact hm.elim)
  | opn h n => rcases hs with hs | hs <;> (rw [hs] at hm; exact hm.elim)

theorem Evm.states {s : WState} (h : Evm L base win s) : s.state = .noStream ∨ s.state = .openStream ∨ s.state = .closingStream ∨ s.state = .closedStream := by
  obtain ⟨w, he, hm⟩ := h
  cases hs : s.state <;> simp
  all_goals (rw [hs] at hm; cases w <;> exact hm.elim)

/-- changes which do not matter -/
theorem Ev.lz {s : WState} {w : Wh} (h : Ev L base win s w) {z : LZ} (ho : z.opts = s.lz.opts) (hh : z.hist = s.lz.hist ∨ z.hist = []) :
    Ev L base win { s with lz := z } w := by
  refine ⟨⟨h.inv.hW, h.inv.lt, h.inv.blk, h.inv.out⟩, h.conf.of rfl ho h.conf.hdr, h.out, ?_, h.tr, ?_, h.first, h.stop, h.gaps⟩
  · show z.maxDist ≤ win; rw [maxDist_congr ho]; exact h.lim
  · cases w with
    | idle => exact h.pos
    | fin => trivial
    | opn x n =>
      refine ⟨?_, h.pos.2⟩
      show z.hist <:+ x
      rcases hh with hh | hh
      · rw [hh]; exact h.pos.1
      · rw [hh]; exact List.nil_suffix

theorem Ev.st {s : WState} {w : Wh} (h : Ev L base win s w) (x : WS) : Ev L base win { s with state := x } w :=
  ⟨⟨h.inv.hW, h.inv.lt, h.inv.blk, h.inv.out⟩, ⟨h.conf.fmt, h.conf.wb1, h.conf.wb2, h.conf.lz, h.conf.hdr⟩, h.out, h.lim, h.tr, (by cases w <;> exact h.pos), h.first, h.stop, h.gaps⟩

theorem Ev.hd {s : WState} {w : Wh} (h : Ev L base win s w) {x : Header} (hx : headerOK x = true) : Ev L base win { s with header := x } w :=
  ⟨⟨h.inv.hW, h.inv.lt, h.inv.blk, h.inv.out⟩, ⟨h.conf.fmt, h.conf.wb1, h.conf.wb2, h.conf.lz, hx⟩, h.out, h.lim, h.tr, (by cases w <;> exact h.pos), h.first, h.stop, h.gaps⟩

theorem Ev.snk {s : WState} {w : Wh} (h : Ev L base win s w) {k : Sink} (hk : k.out = s.sink.out) : Ev L base win { s with sink := k } w := by
  have hp : pushed { s with sink := k } = pushed s := by show k.out ++ s.output = _; rw [hk]; rfl
  have hv : view { s with sink := k } = view s := by unfold view; rw [hp]
  refine ⟨⟨h.inv.hW, h.inv.lt, h.inv.blk, h.inv.out⟩, ⟨h.conf.fmt, h.conf.wb1, h.conf.wb2, h.conf.lz, h.conf.hdr⟩, ?_, h.lim, ?_, (by cases w <;> exact h.pos), h.first, h.stop, h.gaps⟩
  · show s.outTotal + base.length = (pushed { s with sink := k }).length
    rw [hp]; exact h.out
  · rw [hv]; exact h.tr

/-! ### data -/

theorem Ev.stored {s s1 t : WState} {h d : List UInt8} {n : Nat} {f : Bool} (he : Ev L base win s (.opn h n)) (ha : Eat s s1 d) (e : writeStoredBlock wBW d f s1 = .ok (true, t)) :
    Ev L base win t (if f then .fin else .opn (h ++ d) (n + d.length)) ∧ t.state = s.state ∧ t.lz = s1.lz := by
  by_cases hd : d.length ≤ 65535
  · rw [writeStoredBlock_eq wBW hd] at e
    exact he.block ha e (stored_ok (ge32 he.inv.hW) d f) (fun es q p hq hs => stored_wblock (by omega) hq hs h)
  · rw [writeStoredBlock_panic wBW hd] at e
    cases e

theorem storeLoop_ev : ∀ (fuel : Nat) (k : Nat) {s t : WState} {h : List UInt8} {n : Nat}, Ev L base win s (.opn h n) → s.state = .openStream → storeLoop fuel k s = .ok (true, t) →
    ∃ h' n', Ev L base win t (.opn h' n') ∧ t.state = .openStream := by
  intro fuel
  induction fuel with
  | zero => intro k s t h n _ _ e; simp only [storeLoop] at e; cases e
  | succ fuel ih =>
    intro k s t h n he hs e
    simp only [storeLoop] at e
    by_cases h0 : k = 0
    · rw [if_pos h0] at e; cases e; exact ⟨h, n, he, hs⟩
    · rw [if_neg h0] at e
      obtain ⟨s1, e1, ha, _⟩ := inputBufferRead_spec s storedBlockSize
      rw [Go.bind_ok e1] at e
      obtain ⟨u, e2, e3⟩ := chk_true_inv e
      obtain ⟨hu, su, _⟩ := he.stored ha e2
      exact ih _ hu (su.trans hs) e3

theorem compressSlow_ev (hL : L.Lawful) {all : Bool} {s t : WState} {h : List UInt8} {n : Nat} (he : Ev L base win s (.opn h n)) (hs : s.state = .openStream)
    (e : compressSlow L all s = .ok (true, t)) : ∃ h' n', Ev L base win t (.opn h' n') ∧ t.state = .openStream := by
  unfold compressSlow at e
  dsimp only at e
  by_cases h0 : s.lz.buf.length < 4096 ∧ all = false ∧ s.lz.buf.length < s.lz.cap
  · rw [if_pos h0] at e; cases e; exact ⟨h, n, he, hs⟩
  · rw [if_neg h0] at e
    obtain ⟨ts, is, s1, e1, ha, hT, hx, _⟩ := tokenLoop_spec (s.lz.buf.length + 1) s [] [] (by omega) he.conf.lz
    rw [Go.bind_ok e1] at e
    have e : compressTokens wBW s.W L s.lz.buf (ts ++ [makeStopToken]) false s1 = .ok (true, t) := e
    obtain ⟨hd, v, hv, hu, hcase⟩ := compressTokens_cases hL (toks_stop hT) (ge32 he.inv.hW)
    rw [hcase] at e
    have hexp := expand_mono he.lim (hx h he.pos.1)
    by_cases c1 : s.lz.buf.length * 8 + 35 < (cmdsBits 0 (dynCmds hd is false)).length
    · rw [if_pos c1] at e
      obtain ⟨hu, su, _⟩ := he.stored ha e
      exact ⟨_, _, hu, su.trans hs⟩
    · rw [if_neg c1] at e
      by_cases c2 : (cmdsBits 0 (staticCmds is false)).length ≤ (cmdsBits 0 (dynCmds hd is false)).length
      · rw [if_pos c2] at e
        obtain ⟨hu, su, _⟩ := he.block ha e (f := false) (static_ok (ge32 he.inv.hW) is false)
          (fun es q p hq hs => static_wblock hq hs (toksAre_range (toks_stop hT)) hexp)
        exact ⟨_, _, hu, su.trans hs⟩
      · rw [if_neg c2] at e
        obtain ⟨hu, su, _⟩ := he.block ha e (f := false) (dyn_ok (ge32 he.inv.hW) hL v is false)
          (fun es q p hq hs => dyn_wblock hq hs v hv hu hexp)
        exact ⟨_, _, hu, su.trans hs⟩

/-! ### headers and footers -/

theorem Ev.bytes {s t : WState} {f : Go WState Bool} {p : List UInt8} (he : Ev L base win s .idle) (hin : Inside (evs s)) (hf : BytesOut f s p) (e : f s = .ok (true, t)) :
    Ev L base win t .idle ∧ Core s t ∧ evs t = evs s ∧ t.outTotal = s.outTotal + p.length := by
  obtain ⟨b, t', e', st, ok, _⟩ := hf
  rw [e] at e'
  cases e'
  obtain ⟨it, _, _, _, z, pu⟩ := ok rfl
  have z0 : s.obLen = 0 := he.pos
  obtain ⟨B, hB, tr⟩ := he.tr
  have tot := st.tot
  have ho := he.out
  have hev : evs t = evs s := by unfold evs; rw [st.ev, List.append_nil]
  refine ⟨⟨it, he.conf.of st.core.o (by rw [st.core.lz]) (by rw [st.core.header]; exact he.conf.hdr), by unfold OutAt at ho ⊢; omega, by rw [st.core.lz]; exact he.lim,
    ⟨B ++ bytesBits p, ?_, ?_⟩, z, he.first.keep hin.ne (x := []) (by rw [hev]; simp), fun _ => (he.stop rfl).inside hin hev st.core.inTotal, (by rw [st.core.o, hev]; exact he.gaps)⟩, st.core, hev, by rw [pu, List.length_append] at tot; omega⟩
  · rw [view_zero z0] at hB
    rw [view_zero z, pu, bytesBits_append, hB, List.append_assoc]
  · rw [st.core.W, st.core.o]
    have : evs t = evs s := by unfold evs; rw [st.ev, List.append_nil]
    rw [this]
    exact tr.bits _

theorem header_ev {s t : WState} (he : Ev L base win s .idle) (e : Go.chk writeHeader (setState .openStream) s = .ok (true, t)) :
    ∃ h n, Ev L base win t (.opn h n) ∧ t.state = .openStream := by
  obtain ⟨u, e1, e2⟩ := chk_true_inv e
  rw [writeHeader_eq] at e1
  obtain ⟨v, e3, e4⟩ := chk_true_inv e1
  have z0 : s.obLen = 0 := he.pos
  have i1 : WInv (headed s) := ⟨he.inv.hW, he.inv.lt, he.inv.blk, he.inv.out⟩
  have h1 : Ev L base win (headed s) .idle := by
    refine ⟨i1, ⟨he.conf.fmt, he.conf.wb1, he.conf.wb2, he.conf.lz.congr rfl, fillHeader_ok he.conf.hdr⟩, he.out, ?_, ?_, z0, ?_, fun _ => .push (fun hk => by cases hk) (show evs (headed s) = evs s ++ [{ kind := .streamBegin, inTotal := s.inTotal, inStream := 0, outTotal := s.outTotal, outStream := 0, numStreams := s.numStreams + 1, format := s.o.format }] by simp [evs, headed]) rfl rfl rfl, ?_⟩
    · show LZ.maxDist { s.lz with hist := s.o.dict.getD [] } ≤ win
      rw [maxDist_congr (z' := { s.lz with hist := s.o.dict.getD [] }) (z := s.lz) rfl]; exact he.lim
    · obtain ⟨B, hB, tr⟩ := he.tr
      refine ⟨B, hB, ?_⟩
      have : evs (headed s) = evs s ++ [{ kind := .streamBegin, inTotal := s.inTotal, inStream := 0, outTotal := s.outTotal, outStream := 0, numStreams := s.numStreams + 1, format := s.o.format }] := by
        simp [evs, headed]
      rw [this]
      exact tr.other (by intro h hk; cases hk)
    · have hev : evs (headed s) = evs s ++ [{ kind := .streamBegin, inTotal := s.inTotal, inStream := 0, outTotal := s.outTotal, outStream := 0, numStreams := s.numStreams + 1, format := s.o.format }] := by
        simp [evs, headed]
      by_cases hx : evs s = []
      · unfold FirstAt
        rw [hev, hx]
        refine ⟨by simp, ?_⟩
        have := he.first.1 hx
        simp [this.1, this.2]
      · exact he.first.keep hx hev
    · show Gaps (footLen s.o.format) (evs (headed s))
      rw [show evs (headed s) = evs s ++ [{ kind := .streamBegin, inTotal := s.inTotal, inStream := 0, outTotal := s.outTotal, outStream := 0, numStreams := s.numStreams + 1, format := s.o.format }] by simp [evs, headed]]
      refine he.gaps.push fun l p hp => ⟨fun _ hk => ?_, fun hk => by cases hk⟩
      have := (he.stop rfl).1 l p hp
      exact ⟨(this.2 hk).symm, this.1.symm⟩
  have hfmt : BytesOut (match s.o.format with
    | .raw => pure true
    | .zlib => writeHeaderZlib
    | .gzip => writeHeaderGZIP
    | .default => Go.panic (.assert "Format not implemented")) (headed s) (headerBytes s.o (fillHeader s)) := by
    unfold headerBytes
    cases h : s.o.format with
    | default => exact absurd h he.conf.fmt
    | raw => exact (ByteOut.pure i1 z0).weaken
    | zlib => exact (wBufWrite_byteOut i1 z0 _).weaken
    | gzip => exact writeHeaderGZIP_out (s := headed s) i1 z0 (fillHeader_ok he.conf.hdr)
  obtain ⟨h2, c2, c3, _⟩ := h1.bytes ⟨evs s, _, by simp [evs, headed]; rfl, by simp⟩ hfmt e3
  cases e4
  cases e2
  obtain ⟨B, hB, tr⟩ := h2.tr
  have zv : v.obLen = 0 := h2.pos
  refine ⟨v.o.dict.getD [], 0, ⟨⟨h2.inv.hW, h2.inv.lt, h2.inv.blk, h2.inv.out⟩, ⟨h2.conf.fmt, h2.conf.wb1, h2.conf.wb2, h2.conf.lz, h2.conf.hdr⟩, h2.out, h2.lim, ⟨B, hB, ?_⟩, ⟨?_, ?_⟩, h2.first.keep (x := [wEvent v (.streamHeader v.header)]) (by rw [c3]; simp [evs, headed]) (by simp [evs]), (by simp), ?_⟩, rfl⟩
  · have : (v.events ++ [(⟨wEvent v (.streamHeader v.header), v.sink.out.length, v.lz.buf.length⟩ : Sent)]).map Sent.ev = evs v ++ [wEvent v (.streamHeader v.header)] := by simp [evs]
    show Tr _ win v.W (v.o.dict.getD []) _ ((v.events ++ [(⟨wEvent v (.streamHeader v.header), v.sink.out.length, v.lz.buf.length⟩ : Sent)]).map Sent.ev) B
    rw [this]
    refine tr.header (h := v.header) rfl ?_
    show 8 * v.outTotal = B.length
    have ho := h2.out
    unfold OutAt at ho
    rw [view_zero zv] at hB
    have := congrArg List.length hB
    simp at this
    omega
  · show v.lz.hist <:+ v.o.dict.getD []
    rw [c2.lz, c2.o]
    exact List.suffix_refl _
  · exact c2.inStream
  · show Gaps (footLen v.o.format) ((v.events ++ [(⟨wEvent v (.streamHeader v.header), v.sink.out.length, v.lz.buf.length⟩ : Sent)]).map Sent.ev)
    rw [show (v.events ++ [(⟨wEvent v (.streamHeader v.header), v.sink.out.length, v.lz.buf.length⟩ : Sent)]).map Sent.ev = evs v ++ [wEvent v (.streamHeader v.header)] by simp [evs]]
    exact h2.gaps.push fun _ _ _ => gapOK_other (by simp [wEvent]) (by simp [wEvent])

theorem Ev.other {s : WState} (he : Ev L base win s .idle) (hne : evs s ≠ []) {k : EvKind} (hk : ∀ h, k ≠ .streamHeader h) (hg : ∀ l p, evs s = l ++ [p] → GapOK (footLen s.o.format) p (wEvent s k)) (a b : Nat) :
    Ev L base win { s with events := s.events ++ [⟨wEvent s k, a, b⟩] } .idle := by
  refine ⟨⟨he.inv.hW, he.inv.lt, he.inv.blk, he.inv.out⟩, ⟨he.conf.fmt, he.conf.wb1, he.conf.wb2, he.conf.lz, he.conf.hdr⟩, he.out, he.lim, ?_, he.pos, he.first.keep hne (x := [wEvent s k]) (by simp [evs]), fun _ => .push (fun _ => he.stop rfl) (x := wEvent s k) (by simp [evs]) rfl rfl rfl, ?_⟩
  · obtain ⟨B, hB, tr⟩ := he.tr
    refine ⟨B, hB, ?_⟩
    have : evs { s with events := s.events ++ [⟨wEvent s k, a, b⟩] } = evs s ++ [wEvent s k] := by simp [evs]
    rw [this]
    exact tr.other hk
  · show Gaps (footLen s.o.format) (evs { s with events := s.events ++ [⟨wEvent s k, a, b⟩] })
    rw [show evs { s with events := s.events ++ [⟨wEvent s k, a, b⟩] } = evs s ++ [wEvent s k] by simp [evs]]
    exact he.gaps.push hg

theorem footer_ev {s t : WState} (he : Ev L base win s .fin) (e : Go.chk writeFooter (setState .closedStream) s = .ok (true, t)) :
    Ev L base win t .idle ∧ t.state = .closedStream := by
  obtain ⟨u, e1, e2⟩ := chk_true_inv e
  unfold writeFooter at e1
  obtain ⟨v, e3, e4⟩ := chk_true_inv e1
  obtain ⟨b, v', e3', st, ok, _, _⟩ := wBitsFlush_gen he.inv.hW (Nat.le_of_lt he.inv.lt) he.inv.blk he.inv.out
  rw [e3] at e3'
  cases e3'
  obtain ⟨av, zv⟩ := ok rfl
  rw [Go.bind_ok (Go.get_apply v)] at e4
  let v2 : WState := { v with events := v.events ++ [⟨wEvent v (.streamEnd v.adler v.crcIn), v.sink.out.length, v.lz.buf.length⟩] }
  have h2 : Ev L base win v2 .idle := by
    obtain ⟨B, hB, tr⟩ := he.tr
    refine ⟨⟨av.inv.hW, av.inv.lt, av.inv.blk, av.inv.out⟩, he.conf.of st.core.o (by show v.lz.opts = _; rw [st.core.lz]) (by show headerOK v.header = true; rw [st.core.header]; exact he.conf.hdr), ?_, ?_,
      ⟨B ++ padBits (view s).length, ?_, ?_⟩, zv, he.first.keep (tr.ne (by simp)) (x := [wEvent v (.streamEnd v.adler v.crcIn)]) (by simp [evs, v2, st.ev]), fun _ => .push (s := s) (x := wEvent v (.streamEnd v.adler v.crcIn)) (fun hk => by cases hk) (by simp [evs, v2, st.ev]) rfl rfl st.core.inTotal, ?_⟩
    · have tot := st.tot
      have ho := he.out
      show v.outTotal + base.length = (pushed v).length
      unfold OutAt at ho; omega
    · show v.lz.maxDist ≤ win; rw [st.core.lz]; exact he.lim
    · show view v = _; rw [av.view, hB, List.append_assoc]
    · have : evs v2 = evs s ++ [wEvent v (.streamEnd v.adler v.crcIn)] := by simp [evs, v2, st.ev]
      rw [this]
      show Tr _ win v.W (v.o.dict.getD []) _ _ _
      rw [st.core.W, st.core.o]
      exact (tr.fbits _).stop rfl
    · show Gaps (footLen v.o.format) (evs v2)
      rw [st.core.o, show evs v2 = evs s ++ [wEvent v (.streamEnd v.adler v.crcIn)] by simp [evs, v2, st.ev]]
      exact he.gaps.push fun _ _ _ => gapOK_other (by simp [wEvent]) (by simp [wEvent])
  have e4 : Go.chk (match v.o.format with
        | .raw => pure true
        | .zlib => writeFooterZlib v.adler
        | .gzip => writeFooterGZIP v.crcIn
        | .default => Go.panic (.assert "Format not implemented")) (do wSendEvent .streamClose; pure true) v2 = .ok (true, u) := e4
  obtain ⟨x, e5, e6⟩ := chk_true_inv e4
  have hbytes : ∃ p, p.length = footLen v.o.format ∧ BytesOut (match v.o.format with
        | .raw => pure true
        | .zlib => writeFooterZlib v.adler
        | .gzip => writeFooterGZIP v.crcIn
        | .default => Go.panic (.assert "Format not implemented")) v2 p := by
    cases h : v.o.format with
    | default => rw [st.core.o] at h; exact absurd h he.conf.fmt
    | raw => exact ⟨_, rfl, (ByteOut.pure h2.inv zv).weaken⟩
    | zlib => exact ⟨_, by simp [footLen, beBytes], (wBufWrite_byteOut h2.inv zv _).weaken⟩
    | gzip => exact ⟨_, by simp [footLen, leBytes], writeFooterGZIP_out h2.inv zv v.crcIn⟩
  obtain ⟨p, hpl, hp⟩ := hbytes
  have hv2 : evs v2 = evs v ++ [wEvent v (.streamEnd v.adler v.crcIn)] := by simp [evs, v2]
  obtain ⟨h3, c3, c4, c5⟩ := h2.bytes ⟨evs v, _, hv2, by simp [wEvent]⟩ hp e5
  cases e6
  cases e2
  exact ⟨((h3.other (by rw [c4]; simp [evs, v2]) (k := .streamClose) (by simp) (fun l q hq => ⟨fun hk => (by cases hk), fun _ => (by
    rw [c4, hv2] at hq
    rw [← snoc_one hq, c3.o]
    exact ⟨c5.trans (by rw [hpl]; rfl), c3.inTotal⟩)⟩) x.sink.out.length x.lz.buf.length)).st .closedStream, rfl⟩

/-! ### calls -/

theorem finishClosing_ev {s t : WState} (h : Evm L base win s) (e : finishClosing s = .ok (true, t)) : Evm L base win t ∧ t.state ≠ .closingStream ∧
    (s.state ≠ .closingStream → t = s) ∧ (s.state = .closingStream → t.state = .closedStream) := by
  unfold finishClosing at e
  by_cases hs : s.state = .closingStream
  · rw [if_pos hs] at e
    obtain ⟨h1, h2⟩ := footer_ev (h.fin hs) e
    exact ⟨⟨.idle, h1, by rw [h2]; trivial⟩, by rw [h2]; simp, fun x => absurd hs x, fun _ => h2⟩
  · rw [if_neg hs] at e
    cases e
    exact ⟨h, hs, fun _ => rfl, fun x => absurd x hs⟩

theorem compressImpl_ev (hL : L.Lawful) {all : Bool} {s t : WState} (h : Evm L base win s) (e : compressImpl L all s = .ok (true, t)) : Evm L base win t := by
  unfold compressImpl at e
  by_cases hb : s.lz.buf = []
  · rw [if_pos hb] at e; cases e; exact h
  · rw [if_neg hb] at e
    obtain ⟨u, e1, e2⟩ := chk_true_inv e
    obtain ⟨hu, nu, _⟩ := finishClosing_ev h e1
    obtain ⟨v, e3, e4⟩ := chk_true_inv e2
    have hv : Evm L base win v ∧ v.state = .openStream := by
      by_cases hs : u.state = .noStream ∨ u.state = .closedStream
      · rw [if_pos hs] at e3
        obtain ⟨x, n, h1, h2⟩ := header_ev (hu.idle hs) e3
        exact ⟨⟨_, h1, by rw [h2]; trivial⟩, h2⟩
      · rw [if_neg hs] at e3
        cases e3
        refine ⟨hu, ?_⟩
        rcases hu.states with k | k | k | k
        · exact absurd (Or.inl k) hs
        · exact k
        · exact absurd k nu
        · exact absurd (Or.inr k) hs
    obtain ⟨x, n, hx⟩ := hv.1.opn hv.2
    by_cases hst : usesStore v.o = true
    · rw [if_pos hst] at e4
      unfold compressStore at e4
      dsimp only at e4
      split at e4
      · cases e4; exact hv.1
      · obtain ⟨_, _, h1, h2⟩ := storeLoop_ev _ _ hx hv.2 e4
        exact ⟨_, h1, by rw [h2]; trivial⟩
    · rw [if_neg hst] at e4
      obtain ⟨_, _, h1, h2⟩ := compressSlow_ev hL hx hv.2 e4
      exact ⟨_, h1, by rw [h2]; trivial⟩

theorem flushGuts_ev {ty : FlushType} {s t : WState} (h : Evm L base win s) (hs : s.state = .openStream) (e : flushGuts ty s = .ok (true, t)) : Evm L base win t ∧
    (ty = .finishFlush → t.state = .closingStream) := by
  obtain ⟨x, n, hx⟩ := h.opn hs
  have stored : ∀ {f : Bool} {u : WState}, writeStoredBlock wBW [] f s = .ok (true, u) → Ev L base win u (if f then .fin else .opn x n) ∧ u.state = .openStream := by
    intro f u e
    obtain ⟨h1, h2, _⟩ := hx.stored (Eat.refl s) e
    simp only [List.append_nil, List.length_nil, Nat.add_zero] at h1
    exact ⟨h1, h2.trans hs⟩
  cases ty with
  | blockFlush => cases e; exact ⟨h, by simp⟩
  | partialFlush =>
    have ht : ToksAre [makeStopToken] [] := toks_stop .nil
    have e : writeStaticBlock wBW [makeStopToken] false s = .ok (true, t) := e
    rw [writeStaticBlock_eq wBW ht] at e
    obtain ⟨h1, h2, _⟩ := hx.block (Eat.refl s) e (f := false) (static_ok (ge32 hx.inv.hW) [] false)
      (fun es q p hq hs => static_wblock hq hs (by simp) (by simp [expand]))
    exact ⟨⟨_, h1, by rw [h2, hs]; trivial⟩, by simp⟩
  | syncFlush =>
    obtain ⟨h1, h2⟩ := stored (f := false) e
    exact ⟨⟨_, h1, by rw [h2]; trivial⟩, by simp⟩
  | fullFlush =>
    obtain ⟨u, e1, e2⟩ := chk_true_inv e
    obtain ⟨h1, h2⟩ := stored e1
    cases e2
    exact ⟨⟨_, Ev.lz (z := { u.lz with hist := [] }) h1 rfl (Or.inr rfl), by show Mode u.state _; rw [h2]; trivial⟩, by simp⟩
  | finishFlush =>
    obtain ⟨u, e1, e2⟩ := chk_true_inv e
    obtain ⟨h1, h2⟩ := stored e1
    cases e2
    exact ⟨⟨_, (Ev.lz (z := { u.lz with hist := [] }) h1 rfl (Or.inr rfl)).st .closingStream, trivial⟩, fun _ => rfl⟩

theorem flushImpl_ev (hL : L.Lawful) {ty : FlushType} {s t : WState} (h : Evm L base win s) (e : flushImpl L ty s = .ok (true, t)) : Evm L base win t ∧
    (ty = .finishFlush → t.state = .closedStream) := by
  unfold flushImpl at e
  obtain ⟨a, e1, e⟩ := chk_true_inv e
  obtain ⟨b, e2, e⟩ := chk_true_inv e
  obtain ⟨c, e3, e⟩ := chk_true_inv e
  obtain ⟨d, e4, e⟩ := chk_true_inv e
  obtain ⟨f, e5, e6⟩ := chk_true_inv e
  have ha := compressImpl_ev hL h e1
  have hb : Evm L base win b ∧ (ty = .finishFlush → b.state ≠ .noStream) := by
    by_cases hs : ty = .finishFlush ∧ a.state = .noStream
    · rw [if_pos hs] at e2
      obtain ⟨x, n, h1, h2⟩ := header_ev (ha.idle (Or.inl hs.2)) e2
      exact ⟨⟨_, h1, by rw [h2]; trivial⟩, fun _ => by rw [h2]; simp⟩
    · rw [if_neg hs] at e2; cases e2
      exact ⟨ha, fun x y => hs ⟨x, y⟩⟩
  have hc : Evm L base win c ∧ (ty = .finishFlush → c.state = .closingStream ∨ c.state = .closedStream) := by
    by_cases hs : b.state = .openStream
    · rw [if_pos hs] at e3
      obtain ⟨h1, h2⟩ := flushGuts_ev hb.1 hs e3
      exact ⟨h1, fun x => Or.inl (h2 x)⟩
    · rw [if_neg hs] at e3; cases e3
      refine ⟨hb.1, fun x => ?_⟩
      rcases hb.1.states with k | k | k | k
      · exact absurd k (hb.2 x)
      · exact absurd k hs
      · exact Or.inl k
      · exact Or.inr k
  obtain ⟨hd, _, d1, d2⟩ := finishClosing_ev hc.1 e4
  have hd' : ty = .finishFlush → d.state = .closedStream := by
    intro x
    rcases hc.2 x with k | k
    · exact d2 k
    · rw [d1 (by rw [k]; simp)]; exact k
  have hf : Evm L base win f ∧ f.state = d.state := by
    obtain ⟨w, h1, h2⟩ := hd
    unfold sinkFlush at e5
    dsimp only at e5
    split at e5
    · split at e5
      · cases e5
      · cases e5; exact ⟨⟨w, h1.snk rfl, h2⟩, rfl⟩
    · cases e5; exact ⟨⟨w, h1, h2⟩, rfl⟩
  have ht : Evm L base win t ∧ t.state = f.state := by
    obtain ⟨w, h1, h2⟩ := hf.1
    unfold sinkSync at e6
    dsimp only at e6
    split at e6
    · split at e6
      · split at e6
        · cases e6; exact ⟨⟨w, h1.snk rfl, h2⟩, rfl⟩
        · cases e6
      · cases e6; exact ⟨⟨w, h1.snk rfl, h2⟩, rfl⟩
    · cases e6; exact ⟨⟨w, h1, h2⟩, rfl⟩
  exact ⟨ht.1, fun x => by rw [ht.2, hf.2, hd' x]⟩

theorem writeLoop_ev (hL : L.Lawful) : ∀ (fuel : Nat) (p : List UInt8) {s t : WState}, Evm L base win s → writeLoop L fuel p s = .ok (none, t) → Evm L base win t := by
  intro fuel
  induction fuel with
  | zero => intro p s t _ e; simp only [writeLoop] at e; cases e
  | succ fuel ih =>
    intro p s t h e
    simp only [writeLoop] at e
    by_cases hp : p = []
    · rw [if_pos hp] at e; cases e; exact h
    · rw [if_neg hp] at e
      have h1 : Evm L base win { s with lz := (s.lz.write p).2 } := by
        obtain ⟨w, h1, h2⟩ := h
        exact ⟨w, h1.lz rfl (Or.inl rfl), h2⟩
      rcases hc : compressImpl L (((s.lz.write p).1 == 0) || decide ((s.lz.write p).1 < p.length)) { s with lz := (s.lz.write p).2 } with x | ⟨b, u⟩
      · rw [hc] at e; cases e
      · rw [hc] at e
        cases b with
        | false => cases e
        | true => exact ih _ (compressImpl_ev hL h1 hc) e

theorem Call.err {f : Go WState Bool} {s t : WState} {n : List UInt8} {p0 p1 : Phase} {Q : WState → Prop} (h : Call f s n p0 p1 Q) (e : f s = .ok (false, t)) : t.err ≠ none := by
  rcases h with ⟨h, _⟩ | ⟨b, t', _, _, h, _, _, _, bad, _⟩
  · rw [e] at h; cases h
  · rw [e] at h; cases h
    obtain ⟨_, _, x, _, h⟩ := (bad rfl).1
    rw [h]; simp

/-- a Writer none of whose calls has failed -/
def Fine (L : HuffLib) (E : BlockRel) (base : List UInt8) (win : Nat) (s : WState) : Prop :=
  (Evm L base win s ∧ ∃ n0 a, Live E base n0 s a) ∨ (s.state = .closed ∧ Ev L base win s .idle)

theorem stepOp_ev (hL : L.Lawful) {E : BlockRel} {op : WOp} {s t : WState} {r : WRes} (h : Fine L E base win s) (hE : BlockOK L s.o s.lz.maxDist True E)
    (e : stepOp L op s = .ok (r, t)) (hr : r.err = none) :
    Fine L E base win t ∧ (op = .close → t.state = .closed) ∧ BlockOK L t.o t.lz.maxDist True E ∧ t.W = s.W ∧ t.o = s.o := by
  rcases h with ⟨h, n0, a, hl⟩ | ⟨hs, h⟩
  · have n1 : s.state ≠ .closed := by rcases h.states with k | k | k | k <;> rw [k] <;> simp
    have n2 : s.state ≠ .error := by rcases h.states with k | k | k | k <;> rw [k] <;> simp
    rcases stepOp_live hL hl hE op (fun _ => trivial) with ⟨e', _⟩ | ⟨r', t', es, k, e', hh, ok, _⟩
    · rw [e] at e'; cases e'
    rw [e] at e'
    cases e'
    obtain ⟨_, _, hcl, hli⟩ := ok hr
    refine ⟨?_, ?_, hE.hist hh, hh.W, hh.o⟩
    · by_cases hop : op = .close
      · refine Or.inr ⟨(hcl hop).state, ?_⟩
        subst hop
        simp only [stepOp, wClose] at e
        rw [if_neg n1, if_neg n2] at e
        rcases hw : flushImpl L .finishFlush s with x | ⟨b, u⟩
        · rw [hw] at e; cases e
        · rw [hw] at e
          cases b with
          | true =>
            cases e
            obtain ⟨h1, h2⟩ := flushImpl_ev hL h hw
            exact (h1.idle (Or.inr (h2 rfl))).st .closed
          | false => cases e; exact absurd hr ((flush_live hL hl hE .finishFlush (by simp)).err hw)
      · refine Or.inl ⟨?_, _, _, hli hop⟩
        cases op with
        | close => exact absurd rfl hop
        | write p =>
          simp only [stepOp, wWrite] at e
          rw [if_neg n1, if_neg n2] at e
          rcases hw : writeLoop L (2 * p.length + 2) p s with x | ⟨x, u⟩
          · rw [hw] at e; cases e
          · rw [hw] at e
            cases x with
            | none => cases e; exact writeLoop_ev hL _ _ h hw
            | some x =>
              cases e
              rw [writeLoop_eq] at hw
              rcases hb : writeLoopB L (2 * p.length + 2) p s with y | ⟨b, v⟩
              · rw [hb] at hw; cases hw
              · rw [hb] at hw
                cases b with
                | true => cases hw
                | false => cases hw; exact absurd hr ((write_live hL hl hE p).err hb)
        | flush ty =>
          simp only [stepOp, wFlush] at e
          rw [if_neg n1, if_neg n2] at e
          rcases hw : flushImpl L ty s with x | ⟨b, u⟩
          · rw [hw] at e; cases e
          · rw [hw] at e
            cases b with
            | true => cases e; exact (flushImpl_ev hL h hw).1
            | false => cases e; exact absurd hr ((flush_live hL hl hE ty (by simp)).err hw)
        | setHeader hd =>
          simp only [stepOp, wSetHeader] at e
          obtain ⟨w, h1, h2⟩ := h
          by_cases hk : headerOK hd = true
          · rw [if_pos hk] at e; cases e; exact ⟨w, h1.hd hk, h2⟩
          · rw [if_neg hk] at e; cases e; exact ⟨w, h1, h2⟩
    · intro hop; exact (hcl hop).state
  · cases op with
    | setHeader hd =>
      simp only [stepOp, wSetHeader] at e
      by_cases hk : headerOK hd = true
      · rw [if_pos hk] at e; cases e; exact ⟨Or.inr ⟨hs, h.hd hk⟩, by simp, hE, rfl, rfl⟩
      · rw [if_neg hk] at e; cases e; exact ⟨Or.inr ⟨hs, h⟩, by simp, hE, rfl, rfl⟩
    | write p => simp only [stepOp, wWrite] at e; rw [if_pos hs] at e; cases e; cases hr
    | flush ty => simp only [stepOp, wFlush] at e; rw [if_pos hs] at e; cases e; cases hr
    | close => simp only [stepOp, wClose] at e; rw [if_pos hs] at e; cases e; cases hr

theorem run_ev (hL : L.Lawful) {E : BlockRel} : ∀ (ops : List WOp) {s t : WState} {rs : List WRes}, Fine L E base win s → BlockOK L s.o s.lz.maxDist True E →
    runOps L ops s = .ok (rs, t) → (∀ r ∈ rs, r.err = none) → Fine L E base win t ∧ (s.state = .closed ∨ WOp.close ∈ ops → t.state = .closed) ∧ t.W = s.W ∧ t.o = s.o := by
  intro ops
  induction ops with
  | nil => intro s t rs h _ e _; cases e; exact ⟨h, (by rintro (h | h); exacts [h, by cases h]), rfl, rfl⟩
  | cons op ops ih =>
    intro s t rs h hE e hr
    obtain ⟨r, u, rs', h1, h2, rfl⟩ := run_cons_inv e
    obtain ⟨hu, hc, hE', hW, ho⟩ := stepOp_ev hL h hE h1 (hr r (by simp))
    obtain ⟨ht, hct, hWt, hot⟩ := ih hu hE' h2 (fun x hx => hr x (by simp [hx]))
    refine ⟨ht, ?_, hWt.trans hW, hot.trans ho⟩
    rintro (k | k)
    · refine hct (Or.inl ?_)
      obtain ⟨r', u', e', _, _, k', _⟩ := stepOp_dead (L := L) s (Or.inl k) op
      rw [h1] at e'; cases e'
      exact (k' k).1
    · rcases List.mem_cons.1 k with k | k
      · exact hct (Or.inl (hc k.symm))
      · exact hct (Or.inr k)

end

end Flate.Proof
