/-
What a Reader does when its source ends after a flush of the Writer: in the middle of a stream, at the end of a block, on a byte boundary.
-/
import Verif.Proof.RRun
import Verif.Proof.RKeep

namespace Flate.Proof.R
open Flate.Spec Flate.Model Flate.Model.Rd

/-- once an error was reported, no actions are added -/
def Hush (s s' : RState) : Prop := s.out.errorWasSet = true → s'.out.errorWasSet = true ∧ s'.out.acts = s.out.acts ∧ s'.out.decodeBuffer = s.out.decodeBuffer

theorem hush_flow : Flow Hush where
  refl := fun _ h => ⟨h, rfl, rfl⟩
  trans := fun _ _ _ h h' e => by
    obtain ⟨a, b, c⟩ := h e
    obtain ⟨a', b', c'⟩ := h' a
    exact ⟨a', b'.trans b, c'.trans c⟩
  inp := fun _ _ _ h => ⟨h, rfl, rfl⟩
  close := fun s e _ h => by simp [closeOut, h]
  hdr := fun _ _ _ h => ⟨h, rfl, rfl⟩

theorem hush_footer : Keeps Hush readFooter := by
  unfold readFooter
  refine Keeps.bind hush_flow.toPre (hush_flow.onInp fun _ i a i' e => by cases e; exact steady_discard i) fun _ => ?_
  intro s a s' e
  have e' : Go.chk (readFooterOf s.actualFormat s.out.adler s.out.crc) (do sendEvent .streamClose; pure true) (sent (.streamEnd s.out.adler s.out.crc) s) = .ok (a, s') := e
  have hsend : ∀ s k, Hush s (sent k s) := fun _ _ h => ⟨h, rfl, rfl⟩
  refine hush_flow.trans _ _ _ (hsend s _) (Keeps.chk hush_flow.toPre (hush_flow.footerOf _ _ _) ?_ _ _ _ e')
  exact Keeps.bind hush_flow.toPre (fun s a s' e => by cases e; exact hsend s _) fun _ => Keeps.pure hush_flow.toPre _

section
variable {E : Env} {e0 : Err} {s : RState}

theorem needBits_none {α : Type} (hW : 32 ≤ E.W) (hs : Nm e0 s) (fl : α) {n : Nat} (h0 : 0 < n) (hn : n ≤ 24) (k : Nat → Go RState α) (hb : vb s.inp = []) :
    ∃ i', RStep s.inp i' ∧ needBits E fl n k s = .ok (fl, { s with inp := i', out := closeOut (propErr e0) s.out }) := by
  unfold needBits
  rcases fillRead_eq (W := E.W) (st := s.out.stopIsForced) (n := n) (by omega) (by omega) hs.err hs.small with
    ⟨h0, j, v, i', h1, h2, h3, h4⟩ | ⟨h0, i', h1, h2, h3⟩
  · rw [hb] at h0; simp at h0; omega
  · refine ⟨i', h2.step, ?_⟩
    have e1 : onInp (fun st => bitsFill E.W st n) s = .ok (false, { s with inp := i' }) := onInp_ok h1
    rw [Go.bind_ok e1]
    simp only [Bool.not_false, if_true]
    exact exhausted_eq fl (s := { s with inp := i' }) (h2.step.err.trans hs.err)

theorem blockLoop_cut (hE : EnvOK E) : ∀ {pos : Nat} {h h1 : List UInt8} {bs : List Bool}, Blocks (BlockEnc (Env.ok E) (2 ^ E.o.wbits)) pos h bs h1 →
    ∀ (fuel : Nat) {s : RState}, Nm e0 s → At pos s.inp → s.out.window = lastN (2 ^ E.o.wbits) h → s.inp.bits < fuel → vb s.inp = bs →
    ∃ p ks s1 i', h1 = h ++ p ∧ blockLoop E fuel s = .ok ((), { s1 with inp := i', out := closeOut (propErr e0) s1.out }) ∧ Ran E s bs p ks s1 ∧ RStep s1.inp i' := by
  intro pos h h1 bs hbs
  induction hbs with
  | nil pos h =>
    intro fuel s hs hp hw hf hb
    cases fuel with
    | zero => omega
    | succ fuel =>
      obtain ⟨i', hi, e⟩ := needBits_none hE.word hs (none : Option Bool) (n := 3) (by omega) (by omega) (fun out => blockRest E (decide (out % 2 = 1)) (blockTypeOf out)) hb
      rw [← block_eq] at e
      exact ⟨[], [], s, i', by simp, by unfold blockLoop; exact (Go.bind_ok e).trans rfl, .refl E hs.small, hi⟩
  | cons h1 _ ih =>
    rename_i pos h h2 h3 c bs _
    intro fuel s hs hp hw hf hb
    cases fuel with
    | zero => omega
    | succ fuel =>
      obtain ⟨p, ks, s1, rfl, q2, q3, q4⟩ := block_ok hE hs hp hw h1 (r := bs) hb
      have hc := q4.adv.count
      have hpos := enc_pos h1
      obtain ⟨q, ls, s2, i', e1, e2, e3, e4⟩ := ih fuel (hs.ran q4) (hp.adv q4.adv) (q4.emit.window _ hw) (by omega)
        (List.append_cancel_left (q4.adv.bits.symm.trans hb))
      exact ⟨p ++ q, ks ++ ls, s2, i', by rw [e1]; simp, by unfold blockLoop; exact (Go.bind_ok q2).trans e2, q4.trans e3, e4⟩

/-- everything is in the input buffer, and it ends after a block -/
theorem stream_cut (hE : EnvOK E) (hs : Ready e0 s) (hset : s.out.errorWasSet = false) (hsrc : s.inp.src.bytes = []) (hb : s.inp.buf ≠ []) {c : Container} {hdr r p : List UInt8} (hc : detect E.o.format s.inp.buf = c)
    (hd : HeaderOf (2 ^ E.o.wbits) E.o.dict c hdr) (hbuf : s.inp.buf = hdr ++ r)
    (hp : Blocks (BlockEnc (Env.ok E) (2 ^ E.o.wbits)) 0 (E.o.dict.getD []) (bytesBits r) (E.o.dict.getD [] ++ p)) :
    ∃ (b : Bool) (s' : RState) (ds : List (List UInt8)) (db : List UInt8), readStream E s = .ok (b, s') ∧
      s'.out.acts = s.out.acts ++ ds.map .data ++ .err (propErr e0) :: (if db = [] then [] else [.data db]) ∧ ds.flatten ++ db = p ∧ db.length ≤ E.cap ∧ s'.out.errorWasSet = true ∧ allB s'.inp = [] := by
  obtain ⟨h, s5, k1, k2, k3⟩ := stream_head_ok (E := E) hs hb hc hd hbuf
  have hvb : vb s5.inp = bytesBits r := by rw [vb_flat k2.flat, k2.ibuf]
  obtain ⟨p', ks, s1, i', q3, q4, q5, q6⟩ := blockLoop_cut hE hp (s5.inp.bits + 1) (k2.nm hs) (SomeAll.at0 k2.flat) k2.window (Nat.lt_succ_self _) hvb
  have hp' : p = p' := List.append_cancel_left q3
  subst hp'
  generalize hs6 : ({ s1 with inp := i', out := closeOut (propErr e0) s1.out } : RState) = s6 at q4
  have hbf : blocksFoot E s5 = readFooter { s6 with out := mustFlush E s6.out } := by
    unfold blocksFoot
    exact (Go.bind_ok (show readBlocks E s5 = _ from q4)).trans (Go.bind_ok rfl)
  have hf : s6.actualFormat ≠ .default := by
    rw [← hs6]
    show s1.actualFormat ≠ _
    rw [q5.fmt, k2.fmt]; exact fmtOf_ne c
  rcases (safe_readFooter (b := false) (X := False) (s := { s6 with out := mustFlush E s6.out }) hf).cases with ⟨b', s', e1, m, _⟩ | ⟨_, x⟩
  swap
  · exact x.elim
  obtain ⟨w, ⟨ds, d1, d2, _⟩, d7, d8, d9⟩ := q5.emit
  have hset1 : s1.out.errorWasSet = false := d7.trans (k2.set.trans hset)
  have hstop1 : s1.out.stopIsForced = false := d8.trans (k2.stop.trans hs.stop)
  have ho : s6.out = { s1.out with acts := s1.out.acts ++ [.err (propErr e0)], errorWasSet := true } := by rw [← hs6]; simp [closeOut, hset1]
  have hm : (mustFlush E s6.out).errorWasSet = true ∧ (mustFlush E s6.out).acts = s6.out.acts ++ (if s1.out.decodeBuffer = [] then [] else [.data s1.out.decodeBuffer]) := by
    rw [ho]
    unfold mustFlush
    simp only [hstop1, Bool.false_eq_true, if_false, hE.opn _]
    by_cases hx : s1.out.decodeBuffer = []
    · simp [hx]
    · simp [hx, countOut]
  obtain ⟨g1, g2, _⟩ := hush_footer _ _ _ e1 hm.1
  refine ⟨b', s', ds, s1.out.decodeBuffer, k3.trans (hbf.trans e1), ?_, ?_, ?_, g1, ?_⟩
  · rw [g2]
    show (mustFlush E s6.out).acts = _
    rw [hm.2, ho]
    show s1.out.acts ++ [.err (propErr e0)] ++ _ = _
    rw [d1, k2.acts]; simp
  · rw [d2, k2.buf, hs.empty]; simp
  · exact d9 (by rw [k2.buf, hs.empty]; exact Nat.zero_le _)
  · have hv : vb s1.inp = [] := by
      have := q5.adv.bits
      rw [hvb] at this
      exact List.append_cancel_left (this.symm.trans (List.append_nil _).symm)
    have hb1 : s1.inp.buf = [] := by
      unfold vb at hv
      have := (List.append_eq_nil_iff.1 hv).2
      cases h : s1.inp.buf with
      | nil => rfl
      | cons a l =>
        rw [h] at this
        have := congrArg List.length this
        rw [bytesBits_length] at this
        simp at this
    obtain ⟨⟨cc, c1, _⟩, _, c6⟩ := q6
    have hb2 : i'.buf = [] := by rw [hb1] at c1; exact (List.append_eq_nil_iff.1 c1.symm).2
    have ha : allB s6.inp = [] := by
      rw [← hs6]
      show i'.buf ++ i'.src.bytes = []
      rw [hb2, c6, q5.adv.step.src, k2.src, hsrc]; rfl
    obtain ⟨q, q1, _⟩ := m.inp.took
    rw [show allB ({ s6 with out := mustFlush E s6.out } : RState).inp = allB s6.inp from rfl, ha] at q1
    exact (List.append_eq_nil_iff.1 q1.symm).2

/-- nothing is left and an error was reported -/
theorem loop_dry (hset : s.out.errorWasSet = true) (hstop : s.out.stopIsForced = false) (ha : allB s.inp = []) : ∀ fuel, 0 < fuel →
    ∃ s', streamLoop E fuel s = .ok ((), s') ∧ s'.out.acts = s.out.acts ∧ s'.out.errorWasSet = true := by
  intro fuel hf
  cases fuel with
  | zero => omega
  | succ n =>
    unfold streamLoop
    cases hn : s.inp.inputError with
    | some e => simp only [Option.isNone_some, Bool.false_eq_true, if_false]; exact ⟨s, rfl, rfl, hset⟩
    | none =>
      simp only [Option.isNone_none, if_true]
      have hb : (filled s).inp.buf = [] := by
        have := (filled_frame s).2.1
        rw [ha] at this
        have h2 : allB (filled s).inp = (filled s).inp.buf ++ (filled s).inp.src.bytes := rfl
        rw [h2] at this
        exact (List.append_eq_nil_iff.1 this).1
      rw [readStream_split, if_pos (by simp [hb])]
      have hset' : (filled s).out.errorWasSet = true := hset
      cases hx : (filled s).inp.inputError with
      | none =>
        have : propagateError false (filled s) = .ok ((), filled s) := by unfold propagateError; rw [hx]
        rw [Go.bind_ok this]
        exact ⟨_, rfl, rfl, hset'⟩
      | some e =>
        have : propagateError false (filled s) = .ok ((), { filled s with out := closeOut e (filled s).out }) := by
          unfold propagateError
          rw [hx]
          exact closeWithError_eq _ _
        rw [Go.bind_ok this]
        refine ⟨_, rfl, ?_, closeOut_set _ _⟩
        show (closeOut e (filled s).out).acts = _
        simp only [closeOut, hset', if_true]
        rfl

/-- The whole goroutine, when the source ends after a block. -/
theorem run_cut (hE : EnvOK E) {src : Src} {c : Container} {hdr r p : List UInt8} (hc : detect E.o.format src.first = c) (hb : src.bytes = hdr ++ r) (h0 : src.bytes ≠ [])
    (hd : HeaderOf (2 ^ E.o.wbits) E.o.dict c hdr)
    (hp : Blocks (BlockEnc (Env.ok E) (2 ^ E.o.wbits)) 0 (E.o.dict.getD []) (bytesBits r) (E.o.dict.getD [] ++ p)) :
    ∃ (s : RState) (ds : List (List UInt8)) (db : List UInt8), readThread E (start src false) = .ok ((), s) ∧
      s.out.acts = ds.map .data ++ .err (propErr src.err) :: (if db = [] then [] else [.data db]) ∧ ds.flatten ++ db = p ∧ db.length ≤ E.cap := by
  have hcalm : Calm (start src false) := ⟨rfl, rfl, ⟨rfl, rfl⟩, rfl, rfl⟩
  have hall : allB (start src false).inp = src.bytes := rfl
  have hfc : (filled (start src false)).inp.buf = src.first := by
    unfold filled refill start fill Src.first
    rcases src with ⟨_ | ⟨⟨b, bs⟩, cs⟩, last, err⟩ <;> simp
  have hfb : (filled (start src false)).inp.buf ≠ [] := fun h => by
    have := ((filled_all hcalm).2 h).1
    exact h0 this
  have hcm := cm_readStream hE.opn (s := start src false) rfl hfb
  rw [hfc, hc] at hcm
  have hE' : EnvOK (asF E (fmtOf c)) := ⟨hE.lawful, hE.word, hE.opn⟩
  have hn1 : (nrm (start src false)).inp.src.bytes = [] := by simp [nrm, norm, start, Src.bytes]
  have hn2 : (nrm (start src false)).inp.buf ≠ [] := by rw [hcalm.nbuf, hall]; exact h0
  obtain ⟨b, t, ds, db, k1, k2, k3, k4, k5, k6⟩ := stream_cut hE' (s := nrm (start src false)) hcalm.ready rfl hn1 hn2 (detect_fmtOf c _) hd (hcalm.nbuf.trans (hall.trans hb)) hp
  rw [hcm] at k1
  obtain ⟨s1, k7, rfl⟩ := mapS_ok k1
  have k5 : s1.out.errorWasSet = true := k5
  have k2 : s1.out.acts = _ := k2
  have hloop : ∃ s', streamLoop E ((start src false).inp.size + 2) (start src false) = .ok ((), s') ∧ s'.out.acts = s1.out.acts ∧ s'.out.errorWasSet = true := by
    show ∃ s', streamLoop E ((start src false).inp.size + 1 + 1) (start src false) = .ok ((), s') ∧ _
    unfold streamLoop
    rw [if_pos (show (start src false).inp.inputError.isNone = true from rfl), k7]
    cases b with
    | false => exact ⟨s1, rfl, rfl, k5⟩
    | true =>
      refine loop_dry k5 (stop_readStream hE.opn rfl k7) ?_ _ (Nat.succ_pos _)
      have : allB (norm s1.inp) = [] := k6
      rw [allB_norm] at this
      exact this
  obtain ⟨s2, e1, e2, e3⟩ := hloop
  obtain ⟨er, he⟩ := finishThread_eq s2
  have hst : readThread E (start src false) = ((fun s => streamLoop E (s.inp.size + 2) s : Go RState Unit) >>= fun _ => finishThread) (start src false) := by
    unfold readThread
    exact Go.bind_ok (Go.modify_apply _ _)
  refine ⟨_, ds, db, hst.trans ((Go.bind_ok e1).trans he), ?_, k3, k4⟩
  show (closeOut er s2.out).acts = _
  simp only [closeOut, e3, if_true]
  rw [e2, k2]
  simp [start, nrm]

end
end Flate.Proof.R
