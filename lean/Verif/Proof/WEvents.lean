/-
Block events of a Writer.
-/
import Verif.Spec.WBlockEvents
import Verif.Proof.WRun

namespace Flate.Proof
open Flate.Spec Flate.Model

/-! ### events of command sequences -/

/-- the events of a command sequence, with the positions at which they are sent -/
def evPos : Nat → List Cmd → List (EvKind × Nat)
  | _, [] => []
  | pos, c :: cs => (cmdEvs c).map (fun k => (k, pos)) ++ evPos (pos + (cmdBits pos c).length) cs

theorem evPos_append (a b : List Cmd) : ∀ pos, evPos pos (a ++ b) = evPos pos a ++ evPos (pos + (cmdsBits pos a).length) b := by
  induction a with
  | nil => intro pos; simp [evPos, cmdsBits]
  | cons c a ih => intro pos; simp [evPos, cmdsBits, ih, Nat.add_assoc]

theorem evPos_none {cs : List Cmd} (h : cs.flatMap cmdEvs = []) : ∀ pos, evPos pos cs = [] := by
  induction cs with
  | nil => intro pos; rfl
  | cons c cs ih =>
    intro pos
    rw [List.flatMap_cons, List.append_eq_nil_iff] at h
    simp [evPos, h.1, ih h.2]

/-- the counters of the Writer: `base` bytes had been in the output before -/
def OutAt (base : Nat) (s : WState) : Prop := s.outTotal + base = (pushed s).length

/-- events and what was to be expected -/
inductive SentAll (W base n : Nat) : List Sent → List (EvKind × Nat) → Prop
  | nil : SentAll W base n [] []
  | cons {p : Sent} {k : EvKind} {q : Nat} {es : List Sent} {ks : List (EvKind × Nat)} : p.ev.kind = k → 8 * (p.ev.outTotal + base) ≤ q → q < 8 * (p.ev.outTotal + base) + W →
      p.ev.inStream = n → SentAll W base n es ks → SentAll W base n (p :: es) ((k, q) :: ks)

theorem exec_none {s t : WState} {c : Cmd} {b : Bool} (hi : WInv s) (hc : cmdOK s.W c) (h0 : cmdEvs c = []) (e : exec wBW c s = .ok (b, t)) : t.events = s.events := by
  obtain ⟨b', t', es, e', st, ok, bad, _⟩ := exec_does hi hc
  rw [e] at e'
  cases e'
  have : kinds es = [] := by
    cases b with
    | true => rw [(ok rfl).2, h0]
    | false => have := (bad rfl).2; rw [h0] at this; simpa using this
  have : es = [] := by simpa [kinds] using this
  rw [st.ev, this, List.append_nil]

/-- what a command does when it succeeds -/
theorem exec_true {s t : WState} {c : Cmd} (hi : WInv s) (hc : cmdOK s.W c) (e : exec wBW c s = .ok (true, t)) :
    WInv t ∧ Core s t ∧ t.state = s.state ∧ view t = view s ++ cmdBits (view s).length c ∧ t.outTotal + (pushed s).length = s.outTotal + (pushed t).length := by
  obtain ⟨b', t', es, e', st, ok, _, _⟩ := exec_does hi hc
  rw [e] at e'
  cases e'
  obtain ⟨a, _⟩ := ok rfl
  exact ⟨a.inv, st.core, a.state, a.view, st.tot⟩

theorem run_sent {base : Nat} (cs : List Cmd) : ∀ {s t : WState}, WInv s → OutAt base s → (∀ c ∈ cs, cmdOK s.W c) → run wBW cs s = .ok (true, t) →
    WInv t ∧ OutAt base t ∧ Core s t ∧ t.state = s.state ∧ view t = view s ++ cmdsBits (view s).length cs ∧
      ∃ es, t.events = s.events ++ es ∧ SentAll s.W base s.inStream es (evPos (view s).length cs) := by
  induction cs with
  | nil =>
    intro s t hi ho _ e
    cases e
    exact ⟨hi, ho, Core.refl s, rfl, by simp [cmdsBits], [], by simp, .nil⟩
  | cons c cs ih =>
    intro s t hi ho hc e
    obtain ⟨u, e1, e2⟩ := chk_true_inv e
    obtain ⟨iu, cu, su, vu, tu⟩ := exec_true hi (hc c (by simp)) e1
    have ou : OutAt base u := by unfold OutAt at ho ⊢; omega
    obtain ⟨it, ot, ct, st, vt, es, ev, hs⟩ := ih iu ou (fun c' hc' => by rw [cu.W]; exact hc c' (by simp [hc'])) e2
    refine ⟨it, ot, cu.trans ct, st.trans su, by rw [vt, vu]; simp [cmdsBits], ?_⟩
    rw [vu, List.length_append] at hs
    rw [cu.W, cu.inStream] at hs
    cases c with
    | ev k =>
      have hu : u = { s with events := s.events ++ [⟨wEvent s k, s.sink.out.length, s.lz.buf.length⟩] } := by cases e1; rfl
      refine ⟨⟨wEvent s k, s.sink.out.length, s.lz.buf.length⟩ :: es, by rw [ev, hu]; simp, ?_⟩
      have hl := view_length s
      unfold OutAt at ho
      refine SentAll.cons rfl ?_ ?_ rfl hs
      · show 8 * (s.outTotal + base) ≤ _; omega
      · show _ < 8 * (s.outTotal + base) + _; have := hi.lt; omega
    | bits n v => exact ⟨es, by rw [ev, exec_none hi (hc _ (by simp)) rfl e1], hs⟩
    | flush => exact ⟨es, by rw [ev, exec_none hi (hc _ (by simp)) rfl e1], hs⟩
    | u16 v => exact ⟨es, by rw [ev, exec_none hi (hc _ (by simp)) rfl e1], hs⟩
    | bytes p => exact ⟨es, by rw [ev, exec_none hi (hc _ (by simp)) rfl e1], hs⟩

/-! ### the three kinds of blocks -/

theorem evPos_stored {data : List UInt8} (h : data.length < 65536) (f : Bool) (pos : Nat) : evPos pos (storedCmds data f) =
    [(.blockBegin .stored f, pos), (.blockEnd .stored f, pos + (cmdsBits pos (storedCmds data f)).length)] := by
  have e : storedCmds data f = (.ev (.blockBegin .stored f) :: [.bits 3 (if f then 1 else 0), .flush, .u16 (data.length % 65536),
   .u16 (65535 - data.length % 65536), .bytes data]) ++ [.ev (.blockEnd .stored f)] := rfl
  have e2 : (cmdsBits pos (storedCmds data f)).length = (cmdsBits pos (.ev (.blockBegin .stored f) :: [.bits 3 (if f then 1 else 0), .flush, .u16 (data.length % 65536),
   .u16 (65535 - data.length % 65536), .bytes data])).length := by
    rw [e, cmdsBits_append]; simp [cmdsBits, cmdBits]
  rw [e2, e, evPos_append]
  rfl

theorem evPos_static (is : List Item) (f : Bool) (pos : Nat) : evPos pos (staticCmds is f) =
    [(.blockBegin .static f, pos), (.blockTrees .static f { ll := fixedLL, d := fixedD }, pos + 3), (.blockEnd .static f, pos + (cmdsBits pos (staticCmds is f)).length)] := by
  have e2 : (cmdsBits pos (staticCmds is f)).length = (cmdsBits pos ([.ev (.blockBegin .static f), .bits 3 (if f then 3 else 2),
   .ev (.blockTrees .static f { ll := fixedSizesLL, d := fixedSizesD })] ++ dataCmds fixedSizesLL fixedSizesD is)).length := by
    unfold staticCmds; rw [cmdsBits_append]; simp [cmdsBits, cmdBits]
  rw [e2]
  unfold staticCmds
  rw [evPos_append, evPos_append, evPos_none (evs_data _ _ is), fixedSizesLL_eq, fixedSizesD_eq]
  simp [evPos, cmdEvs, cmdBits]

theorem evPos_dyn {ok : List Nat → Prop} {hd : DynHeader} (hv : hd.Valid ok) (is : List Item) (f : Bool) (pos : Nat) : evPos pos (dynCmds hd is f) =
    [(.blockBegin .dynamic f, pos), (.blockTrees .dynamic f (Trees.mk hd.hclen hd.hlit hd.hdist hd.cl hd.ll hd.d), pos + 3 + hd.bits.length),
     (.blockEnd .dynamic f, pos + (cmdsBits pos (dynCmds hd is f)).length)] := by
  let a : List Cmd := [.ev (.blockBegin .dynamic f), .bits 3 (if f then 5 else 4), .bits 5 (hd.hlit - 257), .bits 5 (hd.hdist - 1), .bits 4 (hd.hclen - 4)] ++
    ((List.range hd.hclen).map fun i => .bits 3 (lenOf hd.cl (clOrder.getD i 0))) ++ hd.rle.flatMap (xCmds hd.cl)
  let tr : Cmd := .ev (.blockTrees .dynamic f (Trees.mk hd.hclen hd.hlit hd.hdist hd.cl hd.ll hd.d))
  have h1 : ((List.range hd.hclen).map fun i => Cmd.bits 3 (lenOf hd.cl (clOrder.getD i 0))).flatMap cmdEvs = [] := by
    rw [List.flatMap_eq_nil_iff]; intro c hc
    obtain ⟨i, _, rfl⟩ := List.mem_map.1 hc; rfl
  have h2 : (hd.rle.flatMap (xCmds hd.cl)).flatMap cmdEvs = [] := by
    rw [List.flatMap_eq_nil_iff]; intro c hc
    obtain ⟨p, _, hc⟩ := List.mem_flatMap.1 hc
    simp only [xCmds, List.mem_cons] at hc
    rcases hc with rfl | hc
    · rfl
    · unfold extraCmds at hc
      split at hc
      · simp at hc
      · rw [List.mem_singleton] at hc; subst hc; rfl
  have e : dynCmds hd is f = a ++ ([tr] ++ (dataCmds hd.ll hd.d is ++ [.ev (.blockEnd .dynamic f)])) := by
    show _ = ([_, _, _, _, _] ++ _ ++ _) ++ _
    unfold dynCmds; simp [tr]
  have pl : ∀ c ∈ a, Plain c := fun c hc => plain_dyn (hd := hd) (is := is) (f := f) c (by rw [e]; simp [hc])
  have ha : ∀ q, (cmdsBits q a).length = 3 + hd.bits.length := by
    intro q
    have hb := dyn_bits hv is f q
    rw [e, cmdsBits_append q a, cmdsBits_append _ [tr], cmdsBits_append _ (dataCmds hd.ll hd.d is)] at hb
    have hdat : ∀ q, cmdsBits q (dataCmds hd.ll hd.d is) = dataBits hd.ll hd.d is := by
      intro q; rw [plain_bits plain_data, dataCmds_bits]
    rw [hdat] at hb
    have := congrArg List.length hb
    rw [List.length_append, List.length_append, List.length_append] at this
    simp [cmdsBits, cmdBits, tr] at this
    omega
  have hae : ∀ q, evPos q a = [(.blockBegin .dynamic f, q)] := by
    intro q
    show evPos q ([_, _, _, _, _] ++ _ ++ _) = _
    rw [evPos_append, evPos_append, evPos_none h1, evPos_none h2]
    rfl
  have hl : (cmdsBits pos (dynCmds hd is f)).length = (cmdsBits pos (a ++ ([tr] ++ dataCmds hd.ll hd.d is))).length := by
    rw [e, ← List.append_assoc [tr], ← List.append_assoc a, cmdsBits_append]; simp [cmdsBits, cmdBits]
  rw [hl, e, ← List.append_assoc [tr], ← List.append_assoc a, evPos_append, evPos_append, hae, ha, evPos_append, evPos_none (evs_data _ _ is)]
  simp [evPos, cmdEvs, tr, Nat.add_assoc]

theorem wrote {W base n : Nat} {p : Sent} {k : EvKind} {q r : Nat} (h1 : p.ev.kind = k) (h2 : 8 * (p.ev.outTotal + base) ≤ q) (h3 : q < 8 * (p.ev.outTotal + base) + W) (h4 : p.ev.inStream = n)
    (hq : q = 8 * base + r) : WroteAt W p.ev k r n := ⟨h1, by omega, by omega, h4⟩

section
variable {ok : List Nat → Prop} {win : Nat}

theorem stored_wblock {W base n : Nat} {es : List Sent} {data : List UInt8} {f : Bool} {q p : Nat} (hd : data.length < 65536) (hq : q = 8 * base + p)
    (h : SentAll W base (n + data.length) es (evPos q (storedCmds data f))) (hist : List UInt8) :
    WBlock ok win W p hist n f (cmdsBits q (storedCmds data f)) (es.map (·.ev)) data := by
  rw [evPos_stored hd] at h
  cases h with
  | cons a1 a2 a3 a4 h =>
    cases h with
    | cons b1 b2 b3 b4 h =>
      cases h
      exact .stored (padBits (q + 3)) data _ _ _ (stored_bits hd f q) (by simp only [padBits, List.length_replicate]; exact padLen_mod (by omega)) hd
        (wrote a1 a2 a3 a4 hq) (wrote b1 b2 b3 b4 (by omega))

theorem static_wblock {W base n : Nat} {es : List Sent} {data : List UInt8} {is : List Item} {f : Bool} {q p : Nat} (hq : q = 8 * base + p)
    (h : SentAll W base (n + data.length) es (evPos q (staticCmds is f))) {hist : List UInt8} (hv : ∀ i ∈ is, ItemRange i) (hx : expand win hist is = some (hist ++ data)) :
    WBlock ok win W p hist n f (cmdsBits q (staticCmds is f)) (es.map (·.ev)) data := by
  rw [evPos_static] at h
  cases h with
  | cons a1 a2 a3 a4 h =>
    cases h with
    | cons b1 b2 b3 b4 h =>
      cases h with
      | cons c1 c2 c3 c4 h =>
        cases h
        exact .coded .static [] _ is data _ _ _ _ (by rw [static_bits]; rfl) .static (fun i hi => valid_fixed (hv i hi)) (fixed_used (by omega)) hx
          (wrote a1 a2 a3 a4 hq) (wrote b1 b2 b3 b4 (by simp; omega)) (wrote c1 c2 c3 c4 (by omega))

theorem dyn_wblock {W base n : Nat} {es : List Sent} {data : List UInt8} {hd : DynHeader} {is : List Item} {f : Bool} {q p : Nat} (hq : q = 8 * base + p)
    (h : SentAll W base (n + data.length) es (evPos q (dynCmds hd is f))) {hist : List UInt8} (hval : hd.Valid ok) (hv : ∀ i ∈ is, i.Valid hd.ll hd.d) (hu : Used hd.ll 256)
    (hx : expand win hist is = some (hist ++ data)) :
    WBlock ok win W p hist n f (cmdsBits q (dynCmds hd is f)) (es.map (·.ev)) data := by
  rw [evPos_dyn hval] at h
  cases h with
  | cons a1 a2 a3 a4 h =>
    cases h with
    | cons b1 b2 b3 b4 h =>
      cases h with
      | cons c1 c2 c3 c4 h =>
        cases h
        exact .coded .dynamic hd.bits _ is data _ _ _ _ (by rw [dyn_bits hval]; rfl) (.dynamic hd hval) hv hu hx
          (wrote a1 a2 a3 a4 hq) (wrote b1 b2 b3 b4 (by omega)) (wrote c1 c2 c3 c4 (by omega))

end

/-! ### sequences of events and the bits they describe -/

/-- where the Writer is: between streams, in a stream (with this history and so many bytes of data), behind the final block -/
inductive Wh where
  | idle
  | opn (h : List UInt8) (n : Nat)
  | fin

inductive Tr (ok : List Nat → Prop) (win W : Nat) (dict : List UInt8) : Wh → List Event → List Bool → Prop
  | start : Tr ok win W dict .idle [] []
  | bits {es : List Event} {B : List Bool} (x : List Bool) : Tr ok win W dict .idle es B → Tr ok win W dict .idle es (B ++ x)
  | fbits {es : List Event} {B : List Bool} (x : List Bool) : Tr ok win W dict .fin es B → Tr ok win W dict .fin es (B ++ x)
  | other {es : List Event} {B : List Bool} {e : Event} : Tr ok win W dict .idle es B → (∀ h, e.kind ≠ .streamHeader h) → Tr ok win W dict .idle (es ++ [e]) B
  | header {es : List Event} {B : List Bool} {e : Event} {h : Header} : Tr ok win W dict .idle es B → e.kind = .streamHeader h → 8 * e.outTotal = B.length →
      Tr ok win W dict (.opn dict 0) (es ++ [e]) B
  | block {es es' : List Event} {B b : List Bool} {h data : List UInt8} {n : Nat} : Tr ok win W dict (.opn h n) es B → WBlock ok win W B.length h n false b es' data →
      Tr ok win W dict (.opn (h ++ data) (n + data.length)) (es ++ es') (B ++ b)
  | last {es es' : List Event} {B b : List Bool} {h data : List UInt8} {n : Nat} : Tr ok win W dict (.opn h n) es B → WBlock ok win W B.length h n true b es' data →
      Tr ok win W dict .fin (es ++ es') (B ++ b)
  | stop {es : List Event} {B : List Bool} {e : Event} {a c : BitVec 32} : Tr ok win W dict .fin es B → e.kind = .streamEnd a c → Tr ok win W dict .idle (es ++ [e]) B

section
variable {ok : List Nat → Prop} {win W : Nat}

/-- non-final blocks, and where they end -/
inductive Path (ok : List Nat → Prop) (win W : Nat) (B : List Bool) : Nat → List UInt8 → Nat → List Event → Nat → List UInt8 → Nat → Prop
  | nil (p : Nat) (h : List UInt8) (n : Nat) : Path ok win W B p h n [] p h n
  | cons {p : Nat} {h : List UInt8} {n : Nat} {b : List Bool} {es es' : List Event} {data : List UInt8} {p' : Nat} {h' : List UInt8} {n' : Nat} : WBlock ok win W p h n false b es data →
      (∃ pre r, B = pre ++ b ++ r ∧ pre.length = p) → Path ok win W B (p + b.length) (h ++ data) (n + data.length) es' p' h' n' → Path ok win W B p h n (es ++ es') p' h' n'

theorem Path.grow {B : List Bool} {p : Nat} {h : List UInt8} {n : Nat} {es : List Event} {p' : Nat} {h' : List UInt8} {n' : Nat} (x : List Bool)
    (hp : Path ok win W B p h n es p' h' n') : Path ok win W (B ++ x) p h n es p' h' n' := by
  induction hp with
  | nil p h n => exact .nil p h n
  | cons hb hB _ ih =>
    obtain ⟨pre, r, e, l⟩ := hB
    exact .cons hb ⟨pre, r ++ x, by rw [e]; simp, l⟩ ih

theorem WBlocks.grow {B : List Bool} {p : Nat} {h : List UInt8} {n : Nat} {es : List Event} (x : List Bool)
    (hp : WBlocks ok win W B p h n es) : WBlocks ok win W (B ++ x) p h n es := by
  induction hp with
  | nothing p h n => exact .nothing p h n
  | cons f b es es' data hb hB hf _ ih =>
    obtain ⟨pre, r, e, l⟩ := hB
    exact .cons f b es es' data hb ⟨pre, r ++ x, by rw [e]; simp, l⟩ hf ih

/-- another block after these -/
theorem Path.snoc {B : List Bool} {p : Nat} {h : List UInt8} {n : Nat} {es : List Event} {p' : Nat} {h' : List UInt8} {n' : Nat} (hp : Path ok win W B p h n es p' h' n')
    {b : List Bool} {es' : List Event} {data : List UInt8} (hb : WBlock ok win W p' h' n' false b es' data) (hB : ∃ pre r, B = pre ++ b ++ r ∧ pre.length = p') :
    Path ok win W B p h n (es ++ es') (p' + b.length) (h' ++ data) (n' + data.length) := by
  induction hp with
  | nil p h n => have := Path.cons hb hB (.nil _ _ _); simpa using this
  | cons hb' hB' _ ih => rw [List.append_assoc]; exact .cons hb' hB' (ih hb hB)

theorem Path.last {B : List Bool} {p : Nat} {h : List UInt8} {n : Nat} {es : List Event} {p' : Nat} {h' : List UInt8} {n' : Nat} (hp : Path ok win W B p h n es p' h' n')
    {b : List Bool} {es' : List Event} {data : List UInt8} (hb : WBlock ok win W p' h' n' true b es' data) (hB : ∃ pre r, B = pre ++ b ++ r ∧ pre.length = p') :
    WBlocks ok win W B p h n (es ++ es') := by
  induction hp with
  | nil p h n => have := WBlocks.cons true b es' [] data hb hB (fun _ => rfl) (.nothing _ _ _); simpa using this
  | cons hb' hB' _ ih => rw [List.append_assoc]; exact .cons false _ _ _ _ hb' hB' (by simp) (ih hb hB)

theorem Path.blocks {B : List Bool} {p : Nat} {h : List UInt8} {n : Nat} {es : List Event} {p' : Nat} {h' : List UInt8} {n' : Nat} (hp : Path ok win W B p h n es p' h' n') :
    WBlocks ok win W B p h n es := by
  induction hp with
  | nil p h n => exact .nothing _ _ _
  | cons hb' hB' _ ih => exact .cons false _ _ _ _ hb' hB' (by simp) ih

/-- the stream whose header event is followed by `r` is over -/
def Over (ok : List Nat → Prop) (win W : Nat) (dict : List UInt8) (B : List Bool) (p : Nat) (r : List Event) : Prop :=
  ∃ bks x rest a c, r = bks ++ x :: rest ∧ x.kind = .streamEnd a c ∧ WBlocks ok win W B p dict 0 bks

/-- what follows a header event: in each of the three situations -/
def After (ok : List Nat → Prop) (win W : Nat) (dict : List UInt8) (w : Wh) (B : List Bool) (p : Nat) (r : List Event) : Prop :=
  Over ok win W dict B p r ∨ match w with
    | .idle => False
    | .opn h n => Path ok win W B p dict 0 r B.length h n
    | .fin => WBlocks ok win W B p dict 0 r

theorem Over.grow {dict : List UInt8} {B : List Bool} {p : Nat} {r : List Event} (x : List Bool) (y : List Event) (h : Over ok win W dict B p r) : Over ok win W dict (B ++ x) p (r ++ y) := by
  obtain ⟨bks, e, rest, a, c, h1, h2, h3⟩ := h
  exact ⟨bks, e, rest ++ y, a, c, by rw [h1]; simp, h2, WBlocks.grow x h3⟩

theorem split_snoc {es es' l r : List Event} {e : Event} (h : es ++ es' = l ++ e :: r) (hn : e ∉ es') : ∃ r', es = l ++ e :: r' ∧ r = r' ++ es' := by
  rcases List.append_eq_append_iff.1 h with ⟨a, h1, h2⟩ | ⟨a, h1, h2⟩
  · exact absurd (by rw [h2]; simp) hn
  · cases a with
    | nil => rw [List.nil_append] at h2; exact absurd (by rw [← h2]; simp) hn
    | cons y ys =>
      rw [List.cons_append, List.cons.injEq] at h2
      exact ⟨ys, by rw [h1, h2.1], h2.2⟩

theorem wblock_noHeader {p : Nat} {h : List UInt8} {n : Nat} {f : Bool} {b : List Bool} {es : List Event} {data : List UInt8} (hb : WBlock ok win W p h n f b es data) :
    ∀ e ∈ es, ∀ hd, e.kind ≠ .streamHeader hd := by
  intro e he hd hk
  cases hb with
  | stored pad data e1 e2 b _ _ _ h1 h2 =>
    simp only [List.mem_cons, List.not_mem_nil, or_false] at he
    rcases he with rfl | rfl
    · have := h1.1; rw [hk] at this; cases this
    · have := h2.1; rw [hk] at this; cases this
  | coded t c tr is data e1 e2 e3 b _ _ _ _ _ h1 h2 h3 =>
    simp only [List.mem_cons, List.not_mem_nil, or_false] at he
    rcases he with rfl | rfl | rfl
    · have := h1.1; rw [hk] at this; cases this
    · have := h2.1; rw [hk] at this; cases this
    · have := h3.1; rw [hk] at this; cases this

theorem Tr.after {dict : List UInt8} {w : Wh} {es : List Event} {B : List Bool} (h : Tr ok win W dict w es B) :
    ∀ l e r hd, es = l ++ e :: r → e.kind = .streamHeader hd → After ok win W dict w B (8 * e.outTotal) r := by
  induction h with
  | start => intro l e r hd h _; simp at h
  | bits x _ ih =>
    intro l e r hd h hk
    rcases ih l e r hd h hk with o | o
    · left; have := o.grow x []; simpa using this
    · exact o.elim
  | fbits x _ ih =>
    intro l e r hd h hk
    rcases ih l e r hd h hk with o | o
    · left; have := o.grow x []; simpa using this
    · right; exact WBlocks.grow x o
  | @other es B x _ hx ih =>
    intro l e r hd h hk
    obtain ⟨r', h1, rfl⟩ := split_snoc h (by rw [List.mem_singleton]; rintro rfl; exact hx hd hk)
    rcases ih l e r' hd h1 hk with o | o
    · left; have := o.grow [] [x]; simpa using this
    · exact o.elim
  | @header es B x hx _ hkx hl ih =>
    intro l e r hd h hk
    by_cases hr : r = []
    · subst hr
      obtain ⟨rfl, h2⟩ := List.append_inj' h rfl
      cases h2
      right
      rw [hl]
      exact .nil _ _ _
    · obtain ⟨r', y, rfl⟩ : ∃ r' y, r = r' ++ [y] := ⟨r.dropLast, r.getLast hr, (List.dropLast_concat_getLast hr).symm⟩
      rw [show l ++ e :: (r' ++ [y]) = (l ++ e :: r') ++ [y] by simp] at h
      obtain ⟨h1, h2⟩ := List.append_inj' h rfl
      rcases ih l e r' hd h1 hk with o | o
      · left; have := o.grow [] [y]; simpa using this
      · exact o.elim
  | @block es es' B b h0 data n _ hb ih =>
    intro l e r hd h hk
    obtain ⟨r', h1, rfl⟩ := split_snoc h (fun he => wblock_noHeader hb e he hd hk)
    rcases ih l e r' hd h1 hk with o | o
    · exact Or.inl (o.grow b es')
    · right
      have := (Path.grow b o).snoc hb ⟨B, [], by simp, rfl⟩
      rw [← List.length_append] at this
      exact this
  | @last es es' B b h0 data n _ hb ih =>
    intro l e r hd h hk
    obtain ⟨r', h1, rfl⟩ := split_snoc h (fun he => wblock_noHeader hb e he hd hk)
    rcases ih l e r' hd h1 hk with o | o
    · exact Or.inl (o.grow b es')
    · right
      exact (Path.grow b o).last hb ⟨B, [], by simp, rfl⟩
  | @stop es B x a c _ hx ih =>
    intro l e r hd h hk
    obtain ⟨r', h1, rfl⟩ := split_snoc h (by rw [List.mem_singleton]; rintro rfl; rw [hx] at hk; cases hk)
    rcases ih l e r' hd h1 hk with o | o
    · left; have := o.grow [] [x]; simpa using this
    · left; exact ⟨r', x, [], a, c, by simp, hx, o⟩

end

end Flate.Proof
