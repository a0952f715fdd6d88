/-
Trees with too many codes are announced only after an error was recorded.
-/
import Verif.Proof.RBlockEv
import Verif.Proof.Conc

namespace Flate.Proof.R
open Flate.Spec Flate.Model Flate.Model.Rd

/-- the event does not announce a dynamic block with more codes than RFC 1951 permits -/
def FineEv (e : Event) : Prop := ∀ f tr, e.kind = .blockTrees .dynamic f tr → tr.llCount ≤ 286 ∧ tr.dCount ≤ 30

/-- the end of the input has not been reported -/
def NotEof (s : RState) : Prop := actErr s.out.acts ≠ some .eof

/-- and will not be reported -/
def Doomed (s : RState) : Prop := s.out.errorWasSet = true ∧ NotEof s

/-- what happens between `s` and `s'`, unless the end of the input is reported -/
def Cn (s s' : RState) : Prop := ∃ es, s'.events = s.events ++ es ∧ (NotEof s → NotEof s' ∧ (Doomed s → Doomed s') ∧ (Doomed s' ∨ ∀ e ∈ es, FineEv e))

theorem Cn.quiet {s s' : RState} (h1 : s'.events = s.events) (h2 : NotEof s → NotEof s' ∧ (s.out.errorWasSet = true → s'.out.errorWasSet = true)) : Cn s s' :=
  ⟨[], by rw [h1]; simp, fun hn => ⟨(h2 hn).1, fun hd => ⟨(h2 hn).2 hd.1, (h2 hn).1⟩, Or.inr fun _ he => by cases he⟩⟩

theorem notEof_data {acts : List Act} {p : List UInt8} (h : actErr acts ≠ some .eof) : actErr (acts ++ [.data p]) ≠ some .eof := by
  rw [Cc.actErr_append]
  cases hx : actErr acts with
  | none => simp [actErr]
  | some e => rw [hx] at h; simpa using h

theorem notEof_err {acts : List Act} {e : Err} (h : actErr acts ≠ some .eof) (he : e ≠ .eof) : actErr (acts ++ [.err e]) ≠ some .eof := by
  rw [Cc.actErr_append]
  cases hx : actErr acts with
  | none => simpa [actErr] using he
  | some e => rw [hx] at h; simpa using h

theorem notEof_flush (E : Env) (o : Out) (h : actErr o.acts ≠ some .eof) : actErr (mustFlush E o).acts ≠ some .eof ∧ (o.errorWasSet = true → (mustFlush E o).errorWasSet = true) := by
  unfold mustFlush
  split
  · exact ⟨h, id⟩
  · simp only []
    split
    · exact ⟨h, id⟩
    · split
      · split
        · exact ⟨notEof_data h, fun _ => rfl⟩
        · exact ⟨notEof_data h, id⟩
      · exact ⟨notEof_data h, id⟩

theorem cn_flow : OFlow Cn where
  refl _ := .quiet rfl fun h => ⟨h, id⟩
  trans := by
    rintro s s' s'' ⟨es, h1, h2⟩ ⟨es', h3, h4⟩
    refine ⟨es ++ es', by rw [h3, h1]; simp, fun hn => ?_⟩
    obtain ⟨a1, a2, a3⟩ := h2 hn
    obtain ⟨b1, b2, b3⟩ := h4 a1
    refine ⟨b1, fun hd => b2 (a2 hd), ?_⟩
    rcases b3 with b3 | b3
    · exact Or.inl b3
    · rcases a3 with a3 | a3
      · exact Or.inl (b2 a3)
      · exact Or.inr fun e he => (List.mem_append.1 he).elim (a3 e) (b3 e)
  inp _ _ _ := .quiet rfl fun h => ⟨h, id⟩
  close s e he := .quiet rfl fun h => by
    unfold closeOut
    show actErr (if s.out.errorWasSet then s.out else _ : Out).acts ≠ _ ∧ _
    by_cases hs : s.out.errorWasSet = true
    · rw [if_pos hs]; exact ⟨h, fun _ => hs⟩
    · rw [if_neg hs]; exact ⟨notEof_err h he, fun _ => rfl⟩
  hdr _ _ _ := .quiet rfl fun h => ⟨h, id⟩
  flush E s := .quiet rfl fun h => notEof_flush E s.out h
  keep _ _ _ _ := .quiet rfl fun h => ⟨h, id⟩

/-- an event which is no announcement of trees -/
theorem cn_event {s : RState} {k : EvKind} (hk : ∀ f tr, k ≠ .blockTrees .dynamic f tr) : Cn s (sent k s) :=
  ⟨_, rfl, fun hn => ⟨hn, id, Or.inr fun e he f tr h => by rw [List.mem_singleton.1 he] at h; exact absurd h (hk f tr)⟩⟩

section
variable {E : Env}

theorem cn_send {k : EvKind} (hk : ∀ f tr, k ≠ .blockTrees .dynamic f tr) : Keeps Cn (sendEvent k) := by
  intro s a s' e; cases e; exact cn_event hk

theorem cn_trees (f : Bool) : Keeps Cn (readDynamicTrees E f) := by
  have h := cn_flow.toFlow
  unfold readDynamicTrees
  refine h.needBits E _ _ fun v => ?_
  intro s r s' e
  obtain ⟨_, s1, e1, e2⟩ := Go.bind_eq_ok.1 e
  have hc := h.counts _ _ _ _ _ e1
  generalize 257 + (v &&& 0x1f) = numLL at e1 e2
  generalize 1 + ((v >>> 5) &&& 0x1f) = numD at e1 e2
  obtain ⟨r1, s2, e3, e4⟩ := Go.bind_eq_ok.1 e2
  have h2 := h.readCL E _ _ _ _ _ e3
  cases r1 with
  | none => cases e4; exact h.trans _ _ _ hc h2
  | some sX =>
    simp only [] at e4
    by_cases ha : (!E.L.accepts sX) = true
    · rw [if_pos ha] at e4
      exact h.trans _ _ _ (h.trans _ _ _ hc h2) (h.corrupt_none _ _ _ _ _ e4)
    rw [if_neg ha] at e4
    obtain ⟨r2, s3, e5, e6⟩ := Go.bind_eq_ok.1 e4
    have h3 := h.lensLoop E _ _ _ _ _ _ _ e5
    cases r2 with
    | none => cases e6; exact h.trans _ _ _ (h.trans _ _ _ hc h2) h3
    | some lens =>
      simp only [] at e6
      by_cases ha : (!E.L.accepts (padTo physicalNumLLCodes ((lens.take numLL).take physicalNumLLCodes))) = true
      · rw [if_pos ha] at e6
        exact h.trans _ _ _ (h.trans _ _ _ (h.trans _ _ _ hc h2) h3) (h.corrupt_none _ _ _ _ _ e6)
      rw [if_neg ha] at e6
      by_cases ha : (!E.L.accepts (padTo physicalNumDCodes ((lens.drop numLL).take physicalNumDCodes))) = true
      · rw [if_pos ha] at e6
        exact h.trans _ _ _ (h.trans _ _ _ (h.trans _ _ _ hc h2) h3) (h.corrupt_none _ _ _ _ _ e6)
      rw [if_neg ha] at e6
      cases e6
      by_cases hb : numLL ≤ 286 ∧ numD ≤ 30
      · refine h.trans _ _ _ (h.trans _ _ _ (h.trans _ _ _ hc h2) h3) ⟨_, rfl, fun hn => ⟨hn, id, Or.inr fun e he f' tr hk => ?_⟩⟩
        rw [List.mem_singleton.1 he] at hk
        cases hk
        exact hb
      · obtain ⟨t, k1, i, er, _, _, k2⟩ := checkCounts_bad hb s .eof
        rw [e1] at k1
        cases k1
        have hset : s1.out.errorWasSet = true := by rw [k2]; exact closeOut_set _ _
        obtain ⟨x1, x2, x3⟩ := hc
        obtain ⟨y1, y2, y3⟩ := h.trans _ _ _ h2 h3
        refine ⟨_, (congrArg (· ++ [_]) (y2.trans ((congrArg (· ++ y1) x2).trans (List.append_assoc _ _ _)))).trans (List.append_assoc _ _ _), fun hn => ?_⟩
        obtain ⟨z1, _, _⟩ := x3 hn
        obtain ⟨w1, w2, _⟩ := y3 z1
        have : Doomed s3 := w2 ⟨hset, z1⟩
        exact ⟨w1, fun _ => this, Or.inl this⟩

theorem cn_blockOf (f : Bool) (bt : BlockType) : Keeps Cn (readBlockOf E f bt) := by
  have h := cn_flow
  cases bt with
  | stored => exact h.stored E
  | static => exact Keeps.bind h.toPre (cn_send fun _ _ => fun hh => by cases hh) fun _ => h.huffBlock E _ _
  | dynamic =>
    show Keeps Cn (readDynamic E f)
    unfold readDynamic
    refine Keeps.bind h.toPre (cn_trees f) fun r => ?_
    cases r with
    | none => exact Keeps.pure h.toPre _
    | some p => exact h.huffBlock E _ _
  | invalid => exact h.fail _

theorem cn_block : Keeps Cn (readFlateBlock E) := by
  have h := cn_flow
  unfold readFlateBlock
  refine h.needBits E _ _ fun v => Keeps.bind h.toPre (cn_send fun _ _ => fun hh => by cases hh) fun _ => Keeps.bind h.toPre (cn_blockOf _ _) fun ok => ?_
  exact Keeps.ite (fun _ => Keeps.bind h.toPre (cn_send fun _ _ => fun hh => by cases hh) fun _ => Keeps.pure h.toPre _) fun _ => Keeps.pure h.toPre _

theorem cn_blockLoop : ∀ fuel, Keeps Cn (Rd.blockLoop E fuel)
  | 0 => Keeps.panic _
  | fuel + 1 => by
    have h := cn_flow
    unfold Rd.blockLoop
    refine Keeps.bind h.toPre cn_block fun r => ?_
    rcases r with _ | _ | _
    · exact Keeps.pure h.toPre _
    · exact cn_blockLoop fuel
    · exact Keeps.pure h.toPre _

theorem cn_footer : Keeps Cn readFooter := by
  have h := cn_flow
  unfold readFooter
  refine Keeps.bind h.toPre (h.onInp fun _ i a i' e => by cases e; exact steady_discard i) fun _ => ?_
  intro s a s' e
  have e' : Go.chk (readFooterOf s.actualFormat s.out.adler s.out.crc) (do sendEvent .streamClose; pure true) (sent (.streamEnd s.out.adler s.out.crc) s) = .ok (a, s') := e
  refine h.trans _ _ _ (cn_event fun _ _ => fun hh => by cases hh) (Keeps.chk h.toPre (h.footerOf _ _ _) ?_ _ _ _ e')
  exact Keeps.bind h.toPre (cn_send fun _ _ => fun hh => by cases hh) fun _ => Keeps.pure h.toPre _

theorem cn_bodyRest : Keeps Cn (bodyRest E) := by
  have h := cn_flow
  unfold bodyRest
  refine Keeps.bind h.toPre (fun s a s' e => by cases e; exact .quiet rfl fun h => ⟨h, id⟩) fun _ => ?_
  refine Keeps.bind h.toPre (fun s a s' e => cn_blockLoop _ s a s' e) fun _ => ?_
  refine Keeps.bind h.toPre (fun s a s' e => by cases e; exact h.flush E s) fun _ => ?_
  exact cn_footer

/-- like `Cn`, but the end of the input may be reported at the end -/
def CnEnd (s s' : RState) : Prop := ∃ es, s'.events = s.events ++ es ∧ (NotEof s → (Doomed s → Doomed s') ∧ (Doomed s' ∨ ∀ e ∈ es, FineEv e))

theorem Cn.ends {s s' : RState} (h : Cn s s') : CnEnd s s' := by
  obtain ⟨es, h1, h2⟩ := h
  exact ⟨es, h1, fun hn => (h2 hn).2⟩

theorem Cn.then {s s' s'' : RState} (h : Cn s s') (h' : CnEnd s' s'') : CnEnd s s'' := by
  obtain ⟨es, h1, h2⟩ := h
  obtain ⟨es', h3, h4⟩ := h'
  refine ⟨es ++ es', by rw [h3, h1]; simp, fun hn => ?_⟩
  obtain ⟨a1, a2, a3⟩ := h2 hn
  obtain ⟨b2, b3⟩ := h4 a1
  refine ⟨fun hd => b2 (a2 hd), ?_⟩
  rcases b3 with b3 | b3
  · exact Or.inl b3
  · rcases a3 with a3 | a3
    · exact Or.inl (b2 a3)
    · exact Or.inr fun e he => (List.mem_append.1 he).elim (a3 e) (b3 e)

/-- an error is recorded, perhaps the end of the input -/
theorem cnEnd_propagate (t : Bool) : Keeps CnEnd (propagateError t) := by
  intro s a s' e
  unfold propagateError at e
  cases hi : s.inp.inputError with
  | none => rw [hi] at e; cases e; exact (cn_flow.refl s).ends
  | some er =>
    rw [hi] at e
    simp only [] at e
    generalize (if (t && er == Err.eof) = true then Err.unexpectedEOF else er) = x at e
    have he : s' = { s with out := closeOut x s.out } := by
      unfold closeWithError onOut at e
      simp only [] at e
      unfold closeOut
      by_cases hs : s.out.errorWasSet = true
      · rw [if_pos hs] at e ⊢; cases e; rfl
      · rw [if_neg hs] at e ⊢; cases e; rfl
    subst he
    refine ⟨[], by simp, fun hn => ⟨fun hd => ?_, Or.inr fun _ he => by cases he⟩⟩
    unfold closeOut
    simp only [hd.1, if_true]
    exact hd

theorem cn_stream {s s' : RState} {b : Bool} (e : readStream E s = .ok (b, s')) : if b then Cn s s' else CnEnd s s' := by
  have h := cn_flow
  obtain ⟨f1, f2, f3, f4, f5, f6⟩ := filled_frame s
  have hf : Cn s (filled s) := .quiet f5 fun hn => ⟨hn, id⟩
  rw [readStream_split] at e
  split at e
  · obtain ⟨_, s1, e1, e2⟩ := Go.bind_eq_ok.1 e
    cases e2
    exact hf.then (cnEnd_propagate _ _ _ _ e1)
  · have h1 : Cn (filled s) s' := by
      refine Keeps.chk h.toPre ?_ cn_bodyRest _ _ _ e
      intro s a s' e
      rw [headRest_eq] at e
      have h0 : Cn s (begun E s) := h.trans _ (sent .streamBegin { s with
          numStreams := s.numStreams + 1, actualFormat := .default,
          out := { s.out with window := match E.o.dict with | none => [] | some d => windowWrite E.o.wbits [] d } }) _
        (h.trans _ { s with
          numStreams := s.numStreams + 1, actualFormat := .default,
          out := { s.out with window := match E.o.dict with | none => [] | some d => windowWrite E.o.wbits [] d } } _ (.quiet rfl fun hn => ⟨hn, id⟩) (cn_event fun _ _ => fun hh => by cases hh))
        (.quiet rfl fun hn => ⟨hn, id⟩)
      refine h.trans _ _ _ h0 (Keeps.chk h.toPre (h.headerOf E _) (fun s a s' e => by cases e; exact cn_event fun _ _ => fun hh => by cases hh) _ _ _ e)
    have := h.trans _ _ _ hf h1
    cases b
    · exact this.ends
    · exact this

theorem cn_loop : ∀ (fuel : Nat) {s s' : RState} {r : Unit}, streamLoop E fuel s = .ok (r, s') → ∃ s1, CnEnd s s1 ∧ s1 = s'
  | 0, _, _, _, e => by cases e
  | fuel + 1, s, s', r, e => by
    unfold streamLoop at e
    split at e
    · rcases hx : readStream E s with p | ⟨b, s1⟩
      · rw [hx] at e; cases e
      · rw [hx] at e
        have h1 := cn_stream hx
        cases b with
        | false => cases e; exact ⟨_, h1, rfl⟩
        | true =>
          obtain ⟨t, k1, rfl⟩ := cn_loop fuel e
          exact ⟨_, Cn.then h1 k1, rfl⟩
    · cases e; exact ⟨_, (cn_flow.refl s).ends, rfl⟩

/-- If the end of the input is reported, no dynamic block has been announced with too many codes. -/
theorem counts_thread {src : Src} {closed : Bool} {r : Unit} {s : RState} (e : readThread E (start src closed) = .ok (r, s)) (he : actErr s.out.acts = some .eof) :
    ∀ e ∈ s.events, FineEv e := by
  have hst : readThread E (start src closed) = ((fun s => streamLoop E (s.inp.size + 2) s : Go RState Unit) >>= fun _ => finishThread) (start src closed) := by
    unfold readThread
    exact Go.bind_ok (Go.modify_apply _ _)
  obtain ⟨_, s1, e1, e2⟩ := Go.bind_eq_ok.1 (hst.symm.trans e)
  have h3 : s.events = s1.events := Keeps.bind noEv_flow.toPre (noEv_flow.onInp fun _ i a i' e => by cases e; exact steady_of rfl rfl (Nat.le_refl _)) (fun _ => noEv_propagate _) _ _ _ e2
  obtain ⟨t, ⟨es, k1, k2⟩, rfl⟩ := cn_loop _ e1
  obtain ⟨_, k3⟩ := k2 (by show actErr [] ≠ _; simp [actErr])
  rw [show (start src closed).events = [] from rfl, List.nil_append] at k1
  rw [h3, k1]
  rcases k3 with k3 | k3
  · exfalso
    unfold finishThread at e2
    obtain ⟨_, s2, e3, e4⟩ := Go.bind_eq_ok.1 e2
    cases e3
    obtain ⟨_, _, q2⟩ := cnEnd_propagate _ _ _ _ e4
    have hd : Doomed { t with inp := { t.inp with inputError := some (t.inp.inputError.getD .eof) } } := k3
    exact ((q2 hd.2).1 hd).2 he
  · exact k3

end
end Flate.Proof.R
