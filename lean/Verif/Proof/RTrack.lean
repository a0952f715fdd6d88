/-
What the events of a Reader say, in every run: numbers of streams, per-stream counters, checksums.
-/
import Verif.Proof.RKeep

namespace Flate.Proof.R
open Flate.Spec Flate.Model Flate.Model.Rd

/-! ### one step -/

/-- reading a header: no event, no data -/
structure Quiet (s s' : RState) : Prop where
  inp : Steady s.inp s'.inp
  num : s'.numStreams = s.numStreams
  events : s'.events = s.events
  total : s'.out.outTotal = s.out.outTotal
  stream : s'.out.outStream = s.out.outStream
  data : actData s'.out.acts = actData s.out.acts

theorem actData_closeOut (e : Err) (o : Out) : actData (closeOut e o).acts = actData o.acts := by
  unfold closeOut
  split
  · rfl
  · simp [actData_append, actData]

theorem quiet_close (s : RState) (e : Err) : Quiet s { s with out := closeOut e s.out } :=
  ⟨steady_pre.refl _, rfl, rfl, by unfold closeOut; split <;> rfl, by unfold closeOut; split <;> rfl, actData_closeOut e s.out⟩

theorem quiet_flow : Flow Quiet where
  refl _ := ⟨steady_pre.refl _, rfl, rfl, rfl, rfl, rfl⟩
  trans _ _ _ h h' := ⟨steady_pre.trans _ _ _ h.inp h'.inp, h'.num.trans h.num, h'.events.trans h.events, h'.total.trans h.total, h'.stream.trans h.stream, h'.data.trans h.data⟩
  inp _ _ h := ⟨h, rfl, rfl, rfl, rfl, rfl⟩
  close s e _ := quiet_close s e
  hdr _ _ _ := ⟨steady_pre.refl _, rfl, rfl, rfl, rfl, rfl⟩

theorem quiet_propagate (t : Bool) : Keeps Quiet (propagateError t) := keeps_propagate quiet_flow.toPre quiet_close t

/-- data has been delivered: the counters and the checksums have followed -/
def Gives (o o' : Out) (p : List UInt8) : Prop :=
  actData o'.acts = actData o.acts ++ p ∧ o'.outTotal = o.outTotal + p.length ∧ o'.outStream = o.outStream + p.length ∧
    ∀ d, AdlerIs o.adler d → CrcIs o.crc d → AdlerIs o'.adler (d ++ p) ∧ CrcIs o'.crc (d ++ p)

theorem gives_none {o o' : Out} (h1 : actData o'.acts = actData o.acts) (h2 : o'.outTotal = o.outTotal) (h3 : o'.outStream = o.outStream)
    (h4 : o'.adler = o.adler) (h5 : o'.crc = o.crc) : Gives o o' [] :=
  ⟨by simp [h1], by simp [h2], by simp [h3], fun d ha hc => by rw [h4, h5]; simp [ha, hc]⟩

theorem Gives.trans {a b c : Out} {p q : List UInt8} (h : Gives a b p) (h' : Gives b c q) : Gives a c (p ++ q) :=
  ⟨by rw [h'.1, h.1]; simp, by rw [h'.2.1, h.2.1]; simp; omega, by rw [h'.2.2.1, h.2.2.1]; simp; omega, fun d ha hc => by
    obtain ⟨x, y⟩ := h.2.2.2 d ha hc
    rw [← List.append_assoc]
    exact h'.2.2.2 _ x y⟩

theorem gives_flush (E : Env) (o : Out) : ∃ p, Gives o (mustFlush E o) p := by
  have hd : ∀ (p : List UInt8) (o' : Out), o'.acts = o.acts ++ [.data p] → o'.outTotal = o.outTotal + p.length → o'.outStream = o.outStream + p.length →
      o'.adler = Adler.update o.adler p → o'.crc = Crc.genericUpdate o.crc p → Gives o o' p := fun p o' h1 h2 h3 h4 h5 =>
    ⟨by rw [h1, actData_append]; simp [actData], h2, h3, fun d ha hc => by rw [h4, h5]; exact ⟨adler_update ha p, crc_update hc p⟩⟩
  unfold mustFlush
  split
  · exact ⟨[], gives_none rfl rfl rfl rfl rfl⟩
  · simp only []
    split
    · exact ⟨[], gives_none rfl rfl rfl rfl rfl⟩
    · split
      · split
        · exact ⟨_, hd _ _ rfl rfl rfl rfl rfl⟩
        · exact ⟨_, hd _ _ rfl rfl rfl rfl rfl⟩
      · exact ⟨_, hd _ _ rfl rfl rfl rfl rfl⟩

/-- an event sent in the same stream, when `q` had been delivered -/
structure InEv (s : RState) (q : List UInt8) (e : Event) : Prop where
  kind : e.kind ≠ .streamBegin
  num : e.numStreams = s.numStreams
  inp : e.inStream + s.inp.inTotal = s.inp.inStream + e.inTotal
  total : e.outTotal = s.out.outTotal + q.length
  stream : e.outStream = s.out.outStream + q.length
  sums : ∀ a c, e.kind = .streamEnd a c → ∀ d, AdlerIs s.out.adler d → CrcIs s.out.crc d → AdlerIs a (d ++ q) ∧ CrcIs c (d ++ q)

/-- reading the blocks and the footer of a stream -/
structure Within (s s' : RState) : Prop where
  inp : Steady s.inp s'.inp
  num : s'.numStreams = s.numStreams
  out : ∃ p, Gives s.out s'.out p ∧ ∃ l, s'.events = s.events ++ l ∧ ∀ e ∈ l, ∃ q, q <+: p ∧ InEv s q e

theorem Within.none {s s' : RState} (h1 : Steady s.inp s'.inp) (h2 : s'.numStreams = s.numStreams) {p : List UInt8} (h3 : Gives s.out s'.out p)
    (h4 : s'.events = s.events) : Within s s' := ⟨h1, h2, p, h3, [], by simp [h4], by simp⟩

theorem InEv.left {s s1 : RState} {p q : List UInt8} {e : Event} (h1 : Steady s.inp s1.inp) (h2 : s1.numStreams = s.numStreams) (h3 : Gives s.out s1.out p)
    (h : InEv s1 q e) : InEv s (p ++ q) e := by
  refine ⟨h.kind, h.num.trans h2, by have := h.inp; unfold Steady at h1; omega, by rw [h.total, h3.2.1]; simp; omega, by rw [h.stream, h3.2.2.1]; simp; omega,
    fun a c hk d ha hc => ?_⟩
  obtain ⟨x, y⟩ := h3.2.2.2 d ha hc
  rw [← List.append_assoc]
  exact h.sums a c hk _ x y

theorem inEv_sent (k : EvKind) (hk : k ≠ .streamBegin) (s : RState) (he : ∀ a c, k = .streamEnd a c → a = s.out.adler ∧ c = s.out.crc) : Within s (sent k s) := by
  refine ⟨steady_pre.refl _, rfl, [], gives_none rfl rfl rfl rfl rfl, _, rfl, fun e h => ?_⟩
  rw [List.mem_singleton] at h
  subst h
  refine ⟨[], List.prefix_rfl, ⟨hk, rfl, rfl, rfl, rfl, fun a c hk d ha hc => ?_⟩⟩
  obtain ⟨rfl, rfl⟩ := he a c hk
  simp [ha, hc]

theorem within_flow : BFlow Within where
  refl _ := .none (steady_pre.refl _) rfl (gives_none rfl rfl rfl rfl rfl) rfl
  trans s s' s'' h h' := by
    obtain ⟨i1, n1, p, g1, l, e1, f1⟩ := h
    obtain ⟨i2, n2, q, g2, m, e2, f2⟩ := h'
    refine ⟨steady_pre.trans _ _ _ i1 i2, n2.trans n1, p ++ q, g1.trans g2, l ++ m, by rw [e2, e1]; simp, fun e he => ?_⟩
    rcases List.mem_append.1 he with he | he
    · obtain ⟨x, hx, hi⟩ := f1 e he
      exact ⟨x, hx.trans (List.prefix_append _ _), hi⟩
    · obtain ⟨x, hx, hi⟩ := f2 e he
      exact ⟨p ++ x, (List.prefix_append_right_inj p).2 hx, hi.left i1 n1 g1⟩
  inp _ _ h := .none h rfl (gives_none rfl rfl rfl rfl rfl) rfl
  close s e _ := .none (steady_pre.refl _) rfl (gives_none (actData_closeOut e s.out) (by unfold closeOut; split <;> rfl) (by unfold closeOut; split <;> rfl)
    (by unfold closeOut; split <;> rfl) (by unfold closeOut; split <;> rfl)) rfl
  hdr _ _ _ := .none (steady_pre.refl _) rfl (gives_none rfl rfl rfl rfl rfl) rfl
  flush E s := by
    obtain ⟨p, hp⟩ := gives_flush E s.out
    exact .none (steady_pre.refl _) rfl hp rfl
  keep _ _ _ _ := .none (steady_pre.refl _) rfl (gives_none rfl rfl rfl rfl rfl) rfl
  event s k hk := inEv_sent k (fun e => by subst e; cases hk) s fun a c e => by subst e; cases hk

/-! ### the log -/

/-- A list of events as it is sent: `a` and `b` are the totals at the latest StreamBegin event, `n` is the number of these events. -/
inductive Log : List Event → Nat → Nat → Nat → Prop
  | nil : Log [] 0 0 0
  | start {l : List Event} {a b n : Nat} {e : Event} : Log l a b n → e.kind = .streamBegin → e.numStreams = n + 1 → e.inStream = 0 → e.outStream = 0 →
      Log (l ++ [e]) e.inTotal e.outTotal (n + 1)
  | mid {l : List Event} {a b n : Nat} {e : Event} : Log l a b n → e.kind ≠ .streamBegin → e.numStreams = n → e.inTotal = a + e.inStream → e.outTotal = b + e.outStream →
      Log (l ++ [e]) a b n

theorem Log.mids {l : List Event} {a b n : Nat} (h : Log l a b n) : ∀ {m : List Event},
    (∀ e ∈ m, e.kind ≠ .streamBegin ∧ e.numStreams = n ∧ e.inTotal = a + e.inStream ∧ e.outTotal = b + e.outStream) → Log (l ++ m) a b n := by
  intro m
  induction m generalizing l with
  | nil => intro _; simpa using h
  | cons e m ih =>
    intro hm
    rw [List.append_cons]
    obtain ⟨h1, h2, h3, h4⟩ := hm e (by simp)
    exact ih (.mid h h1 h2 h3 h4) fun x hx => hm x (by simp [hx])

/-- a StreamEnd event carries the checksums of the stream's data, `D` being the data delivered -/
def EndOK (D : List UInt8) (e : Event) : Prop := ∀ a c, e.kind = .streamEnd a c →
  e.outStream ≤ e.outTotal ∧ e.outTotal ≤ D.length ∧ AdlerIs a ((D.take e.outTotal).drop (e.outTotal - e.outStream)) ∧
    CrcIs c ((D.take e.outTotal).drop (e.outTotal - e.outStream))

theorem EndOK.append {D : List UInt8} {e : Event} (h : EndOK D e) (x : List UInt8) : EndOK (D ++ x) e := by
  intro a c hk
  obtain ⟨h1, h2, h3⟩ := h a c hk
  rw [List.take_append_of_le_length h2]
  exact ⟨h1, by simp; omega, h3⟩

theorem endOK_no {D : List UInt8} {e : Event} (h : ∀ a c, e.kind ≠ .streamEnd a c) : EndOK D e := fun a c hk => absurd hk (h a c)

/-- the log so far, between streams -/
structure Track (s : RState) : Prop where
  log : ∃ a b, Log s.events a b s.numStreams
  total : s.out.outTotal = (actData s.out.acts).length
  ends : ∀ e ∈ s.events, EndOK (actData s.out.acts) e

/-- … within a stream -/
structure TrackIn (s : RState) : Prop where
  log : ∃ a b, Log s.events a b s.numStreams ∧ s.inp.inTotal = a + s.inp.inStream ∧ s.out.outTotal = b + s.out.outStream
  total : s.out.outTotal = (actData s.out.acts).length
  ends : ∀ e ∈ s.events, EndOK (actData s.out.acts) e

theorem TrackIn.between {s : RState} (h : TrackIn s) : Track s := by
  obtain ⟨a, b, h1, _⟩ := h.log
  exact ⟨⟨a, b, h1⟩, h.total, h.ends⟩

theorem TrackIn.quiet {s s' : RState} (h : TrackIn s) (q : Quiet s s') : TrackIn s' := by
  obtain ⟨a, b, h1, h2, h3⟩ := h.log
  refine ⟨⟨a, b, by rw [q.events, q.num]; exact h1, ?_, by rw [q.total, q.stream]; exact h3⟩, by rw [q.total, q.data]; exact h.total, fun e he => ?_⟩
  · have := q.inp; unfold Steady at this; omega
  · rw [q.events] at he; rw [q.data]; exact h.ends e he

theorem TrackIn.within {s s' : RState} (h : TrackIn s) (w : Within s s') (h0 : s.out.outStream = 0) (ha : s.out.adler = Adler.init) (hc : s.out.crc = Crc.init) :
    TrackIn s' := by
  obtain ⟨a, b, h1, h2, h3⟩ := h.log
  obtain ⟨i, n, p, g, l, el, hl⟩ := w
  refine ⟨⟨a, b, ?_, ?_, by rw [g.2.1, g.2.2.1]; omega⟩, by rw [g.2.1, g.1, h.total]; simp, fun e he => ?_⟩
  · rw [el, n]
    refine h1.mids fun e he => ?_
    obtain ⟨q, _, hq⟩ := hl e he
    refine ⟨hq.kind, hq.num, ?_, ?_⟩
    · have := hq.inp; omega
    · rw [hq.total, hq.stream]; omega
  · unfold Steady at i; omega
  · rw [g.1]
    rw [el] at he
    rcases List.mem_append.1 he with he | he
    · exact (h.ends e he).append p
    · obtain ⟨q, ⟨r, rfl⟩, hq⟩ := hl e he
      intro x c hk
      obtain ⟨y, z⟩ := hq.sums x c hk [] (by rw [ha]; exact adler_init) (by rw [hc]; exact crc_init)
      have ht : e.outTotal = (actData s.out.acts).length + q.length := by rw [hq.total, h.total]
      have hs : e.outStream = q.length := by rw [hq.stream, h0, Nat.zero_add]
      have hb : ((actData s.out.acts ++ (q ++ r)).take e.outTotal).drop (e.outTotal - e.outStream) = q := by
        rw [← List.append_assoc, List.take_append_of_le_length (by simp; omega), List.take_of_length_le (by simp; omega), ht, hs, Nat.add_sub_cancel,
          List.drop_append_of_le_length (Nat.le_refl _), List.drop_length, List.nil_append]
      refine ⟨by omega, by simp; omega, ?_, ?_⟩
      · rw [hb]; exact y
      · rw [hb]; exact z

theorem TrackIn.send {s : RState} (h : TrackIn s) {k : EvKind} (hk : EvKind.mid k = true) : TrackIn (sent k s) := by
  obtain ⟨a, b, h1, h2, h3⟩ := h.log
  refine ⟨⟨a, b, .mid h1 (fun e => ?_) rfl h2 h3, h2, h3⟩, h.total, fun e he => ?_⟩
  · simp only [] at e; subst e; cases hk
  · rcases List.mem_append.1 he with he | he
    · exact h.ends e he
    · rw [List.mem_singleton] at he; subst he
      exact endOK_no fun a c e => by simp only [] at e; subst e; cases hk

theorem steady_filled (s : RState) : (filled s).inp.inStream = 0 := by
  show (refill s.out.stopIsForced { s.inp with inStream := 0 }).inStream = 0
  unfold refill
  split
  · exact (fill_frame _ _).2.1
  · rfl

/-- the state after StreamBegin -/
def begun (E : Env) (s : RState) : RState := { sent .streamBegin { s with
    numStreams := s.numStreams + 1, actualFormat := .default,
    out := { s.out with window := match E.o.dict with | none => [] | some d => windowWrite E.o.wbits [] d } } with header := {} }

theorem headRest_eq (E : Env) (s : RState) : headRest E s =
    Go.chk (readHeaderOf E E.o.format) (fun s => .ok (true, sent (.streamHeader s.header) s)) (begun E s) := rfl

theorem track_begun {E : Env} {s : RState} (h : Track s) (hi : s.inp.inStream = 0) (ho : s.out.outStream = 0) : TrackIn (begun E s) := by
  obtain ⟨a, b, h1⟩ := h.log
  refine ⟨⟨s.inp.inTotal, s.out.outTotal, .start h1 rfl rfl hi ho, by simp [begun, sent, hi], by simp [begun, sent, ho]⟩, h.total, fun e he => ?_⟩
  rcases List.mem_append.1 he with he | he
  · exact h.ends e he
  · rw [List.mem_singleton] at he; subst he
    exact endOK_no fun a c e => by cases e

theorem track_head {E : Env} {s : RState} (h : Track s) (hi : s.inp.inStream = 0) (ho : s.out.outStream = 0) {r : Bool} {s' : RState}
    (e : headRest E s = .ok (r, s')) : TrackIn s' ∧ s'.out.outStream = 0 := by
  rw [headRest_eq] at e
  have h0 := track_begun (E := E) h hi ho
  unfold Go.chk at e
  rcases hx : readHeaderOf E E.o.format (begun E s) with p | ⟨b, s1⟩
  · rw [hx] at e; cases e
  · rw [hx] at e
    have q := quiet_flow.headerOf E E.o.format _ _ _ hx
    have h1 := h0.quiet q
    have h2 : s1.out.outStream = 0 := q.stream.trans ho
    cases b
    · cases e; exact ⟨h1, h2⟩
    · cases e; exact ⟨h1.send rfl, h2⟩

theorem track_body {E : Env} {s : RState} (h : TrackIn s) (ho : s.out.outStream = 0) {r : Bool} {s' : RState} (e : bodyRest E s = .ok (r, s')) : TrackIn s' := by
  have h0 : TrackIn { s with out := { s.out with adler := Adler.init, crc := Crc.init } } := ⟨h.log, h.total, h.ends⟩
  have e' : (do readBlocks E; onOut fun o => ((), mustFlush E o); readFooter : Go RState Bool) { s with out := { s.out with adler := Adler.init, crc := Crc.init } } = .ok (r, s') := e
  refine h0.within ?_ ho rfl rfl
  refine Keeps.bind within_flow.toPre (within_flow.blocks E) (fun _ => Keeps.bind within_flow.toPre ?_ fun _ => within_flow.footer fun s => ?_) _ _ _ e'
  · intro s a s' e; cases e; exact within_flow.flush E s
  · exact inEv_sent _ (by simp) s fun a c e => by cases e; exact ⟨rfl, rfl⟩

theorem track_filled {s : RState} (h : Track s) : Track (filled s) := ⟨h.log, h.total, h.ends⟩

theorem Track.quiet {s s' : RState} (h : Track s) (q : Quiet s s') : Track s' := by
  obtain ⟨a, b, h1⟩ := h.log
  refine ⟨⟨a, b, by rw [q.events, q.num]; exact h1⟩, by rw [q.total, q.data]; exact h.total, fun e he => ?_⟩
  rw [q.events] at he; rw [q.data]; exact h.ends e he

theorem track_stream {E : Env} {s : RState} (h : Track s) {r : Bool} {s' : RState} (e : readStream E s = .ok (r, s')) : Track s' := by
  rw [readStream_split] at e
  have hf := track_filled h
  split at e
  · exact hf.quiet (Keeps.bind quiet_flow.toPre (quiet_propagate _) (fun _ => Keeps.pure quiet_flow.toPre _) _ _ _ e)
  · unfold Go.chk at e
    rcases hx : headRest E (filled s) with p | ⟨b, s1⟩
    · rw [hx] at e; cases e
    · rw [hx] at e
      obtain ⟨h1, h2⟩ := track_head hf (steady_filled s) rfl hx
      cases b
      · cases e; exact h1.between
      · exact (track_body h1 h2 e).between

theorem track_loop {E : Env} : ∀ (fuel : Nat) {s : RState} {r : Unit} {s' : RState}, Track s → streamLoop E fuel s = .ok (r, s') → Track s'
  | 0, _, _, _, _, e => by cases e
  | fuel + 1, s, r, s', h, e => by
    unfold streamLoop at e
    split at e
    · rcases hx : readStream E s with p | ⟨b, s1⟩
      · rw [hx] at e; cases e
      · rw [hx] at e
        have h1 := track_stream h hx
        cases b
        · cases e; exact h1
        · exact track_loop fuel h1 e
    · cases e; exact h

/-- The whole goroutine. -/
theorem track_thread {E : Env} {src : Src} {closed : Bool} {r : Unit} {s : RState} (e : readThread E (start src closed) = .ok (r, s)) : Track s := by
  have hst : readThread E (start src closed) = ((fun s => streamLoop E (s.inp.size + 2) s : Go RState Unit) >>= fun _ => finishThread) (start src closed) := by
    unfold readThread
    exact Go.bind_ok (Go.modify_apply _ _)
  have e' := hst.symm.trans e
  obtain ⟨_, s1, e1, e2⟩ := Go.bind_eq_ok.1 e'
  have h0 : Track (start src closed) := ⟨⟨0, 0, .nil⟩, rfl, by simp [start]⟩
  have h1 := track_loop _ h0 e1
  refine h1.quiet (Keeps.bind quiet_flow.toPre (quiet_flow.onInp fun _ i a i' e => ?_) (fun _ => quiet_propagate _) _ _ _ e2)
  cases e; exact steady_of rfl rfl (Nat.le_refl _)

end Flate.Proof.R
