/-
What a valid beginning of a stream decodes to is delivered, whatever follows it.
-/
import Verif.Proof.RTellAll

namespace Flate.Proof.R.Salvage
open Flate.Spec Flate.Model Flate.Model.Rd Flate.Proof Flate.Proof.R.Pos Flate.Proof.R.Wrong

section
variable {E : Env} {s : RState} {e0 : Err}

theorem stream_part (hE : EnvOK E) (hs : Ready e0 s) (hb : s.inp.buf ≠ []) {c : Container} {hdr r p : List UInt8} {bits : List Bool} (hc : detect E.o.format s.inp.buf = c)
    (hd : HeaderOf (2 ^ E.o.wbits) E.o.dict c hdr) (hbuf : s.inp.buf = hdr ++ r)
    (hp : SomeBlocks (Env.ok E) (2 ^ E.o.wbits) 0 (E.o.dict.getD []) bits (E.o.dict.getD [] ++ p)) (hpre : bits <+: bytesBits r) :
    ∃ (b : Bool) (s1 s' : RState) (ds : List (List UInt8)), readStream E s = .ok (b, s') ∧ s1.out.acts = s.out.acts ++ ds.map .data ∧ ds.flatten ++ s1.out.decodeBuffer = p ∧
      s1.out.decodeBuffer.length ≤ E.cap ∧ Past s1 s' := by
  obtain ⟨h, s5, k1, k2, k3⟩ := stream_head_ok (E := E) hs hb hc hd hbuf
  obtain ⟨bs, b, h1, q1, q2, rfl⟩ := hp
  obtain ⟨rest, hrest⟩ := hpre
  have hvb : vb s5.inp = bs ++ b ++ rest := by rw [vb_flat k2.flat, k2.ibuf, hrest]
  obtain ⟨p', ks, s1, s6, q3, q4, q5, q6⟩ := blockLoop_part hE q1 q2 (s5.inp.bits + 1) (k2.nm hs) (SomeAll.at0 k2.flat) k2.window (Nat.lt_succ_self _) hvb
  have hp' : p = p' := List.append_cancel_left q3
  subst hp'
  have hbf : blocksFoot E s5 = readFooter { s6 with out := mustFlush E s6.out } := by
    unfold blocksFoot
    exact (Go.bind_ok (show readBlocks E s5 = _ from q4)).trans (Go.bind_ok rfl)
  have hf : s6.actualFormat ≠ .default := by
    rcases (safe_readBlocks (b := true) (X := False) (s := s5) ⟨hE.lawful, hE.word⟩).cases with ⟨_, s', e1, m, _⟩ | ⟨_, x⟩
    · have : s' = s6 := by
        have := e1.symm.trans q4
        cases this; rfl
      subst this
      exact m.fmt rfl (by rw [k2.fmt]; exact fmtOf_ne c)
    · exact x.elim
  rcases (safe_readFooter (b := false) (X := False) (s := { s6 with out := mustFlush E s6.out }) hf).cases with ⟨b', s', e1, m, _⟩ | ⟨_, x⟩
  swap
  · exact x.elim
  have hfit := q5.emit.fits (by rw [k2.buf, hs.empty]; simp)
  obtain ⟨ds, d1, d2, d3, d4, d5, d6⟩ := q5.emit.pieces
  refine ⟨b', s1, s', ds, k3.trans (hbf.trans e1), by rw [← k2.acts]; exact d1, ?_, hfit, q6.trans (Past.trans ?_ m.past)⟩
  · rw [d2, k2.buf, hs.empty]; simp
  · exact (mono_out (b := false) (stepO_mustFlush E s6.out)).past

/-- After `acts`, `p` was decompressed: all but the last `db` of it was delivered without an error, the rest was delivered later or is in the buffer. -/
def Kept (E : Env) (o : Out) (p : List UInt8) (o' : Out) : Prop :=
  ∃ (ds : List (List UInt8)) (db : List UInt8) (post : List Act) (q : List UInt8), o'.acts = o.acts ++ ds.map .data ++ post ∧ ds.flatten ++ db = p ∧ db.length ≤ E.cap ∧
    actData post ++ o'.decodeBuffer = db ++ q

theorem loop_last (hE : EnvOK E) {fuel : Nat} {sf : RState} (hf : (allB s.inp).length < fuel) (hs : Calm s) {hdr r p : List UInt8} {bits : List Bool} (ha : allB s.inp = hdr ++ r) (hne : allB s.inp ≠ [])
    (hd : HeaderOf (2 ^ E.o.wbits) E.o.dict (firstC E s) hdr)
    (hp : SomeBlocks (Env.ok E) (2 ^ E.o.wbits) 0 (E.o.dict.getD []) bits (E.o.dict.getD [] ++ p)) (hpre : bits <+: bytesBits r) (e : streamLoop E fuel s = .ok ((), sf)) :
    Kept E s.out p sf.out := by
  have hlib : LibOK E := ⟨hE.lawful, hE.word⟩
  cases fuel with
  | zero => omega
  | succ fuel =>
  have hstop := stop_streamLoop hE.opn _ hs.stop e
  have hb : (filled s).inp.buf ≠ [] := fun h => hne ((filled_all hs).2 h).1
  have hcm := cm_readStream hE.opn hs.stop hb
  have hE' : EnvOK (asF E (fmtOf (firstC E s))) := ⟨hE.lawful, hE.word, hE.opn⟩
  have hn2 : (nrm s).inp.buf ≠ [] := by rw [hs.nbuf]; exact hne
  obtain ⟨b, s1, t, ds, k1, k2, k3, k4, k5⟩ := stream_part hE' (s := nrm s) hs.ready hn2 (detect_fmtOf (firstC E s) _) hd (hs.nbuf.trans ha) hp hpre
  have hcm : readStream (asF E (fmtOf (firstC E s))) (nrm s) = _ := hcm
  rw [hcm] at k1
  obtain ⟨s', k7, rfl⟩ := mapS_ok k1
  have k2 : s1.out.acts = s.out.acts ++ ds.map .data := k2
  have k5 : StepO s1.out s'.out := k5.out
  have k8 : StepO s'.out sf.out := by
    unfold streamLoop at e
    simp only [hs.err, Option.isNone_none, if_true] at e
    rw [k7] at e
    cases b with
    | false => cases e; exact .refl _
    | true =>
      simp only [] at e
      obtain ⟨hz, hlt⟩ : s'.inp.ibLen = 0 ∧ (allB s'.inp).length < fuel := by
        rcases safe_readStream (X := True) (E := E) (s := s) hlib hs.flat.1 fun _ => trivial with ⟨s'', e, _⟩ | ⟨s'', e, _, z, m⟩ | ⟨e, _⟩
        · rw [k7] at e; cases e
        · rw [k7] at e; cases e; exact ⟨z, by omega⟩
        · rw [k7] at e; cases e
      rcases safe_streamLoop (X := True) hlib fuel s' hlt hz fun _ => trivial with ⟨s2, e2, m⟩ | ⟨e2, _⟩
      · rw [e2] at e; cases e
        exact m.out
      · rw [e2] at e; cases e
  obtain ⟨l, l1, _, _, l4⟩ := (k5.trans k8).acts
  obtain ⟨_, q, hq⟩ := l4 hstop
  exact ⟨ds, s1.out.decodeBuffer, l, q, by rw [l1, k2], k3, k4, hq⟩

/-- the loop, when there are complete streams before -/
theorem loop_salvage (hE : EnvOK E) {k : Container} {cur hdr r p : List UInt8} {bits : List Bool} (hc : cur = hdr ++ r) (hne : cur ≠ []) (hd : HeaderOf (2 ^ E.o.wbits) E.o.dict k hdr)
    (hp : SomeBlocks (Env.ok E) (2 ^ E.o.wbits) 0 (E.o.dict.getD []) bits (E.o.dict.getD [] ++ p)) (hpre : bits <+: bytesBits r) :
    ∀ (ps : List Given) (fuel : Nat) (s sf : RState), (allB s.inp).length < fuel → Calm s →
      allB s.inp = ps.flatMap (·.bytes) ++ cur → AllSeen E s.inp.src k cur ps → (ps ≠ [] → s.inp.src.last.length ≤ cur.length) → streamLoop E fuel s = .ok ((), sf) →
      Kept E s.out (ps.flatMap (·.data) ++ p) sf.out
  | _, 0, _, _, h, _, _, _, _, _ => by omega
  | [], fuel + 1, s, sf, hf, hs, ha, hp', _, e1 => by
    have ha : allB s.inp = cur := ha
    have hk : firstC E s = k := Seen.first hs ha hne hp'
    subst hk
    exact loop_last hE hf hs (ha.trans hc) (by rw [ha]; exact hne) hd hp hpre e1
  | p0 :: ps, fuel + 1, s, sf, hf, hs, ha, ⟨p1, p2, p3⟩, hl, hrun => by
    have ha : allB s.inp = p0.bytes ++ (ps.flatMap (·.bytes) ++ cur) := by rw [ha]; simp
    have hk : firstC E s = p0.k := Seen.first hs ha (by simp [stream_ne p1]) p2
    have hno : ¬ NoStream E p0.k (allB s.inp) := fun h => h _ _ _ p1 ha
    have hl := hl (by simp)
    unfold streamLoop at hrun
    simp only [hs.err, Option.isNone_none, if_true] at hrun
    rcases stream_step hE hs with ⟨h1, s', h2, h3, h4, h5, h6, h7⟩ | ⟨it, s', h1, h0, h2, h3, h4, h5, h6⟩ | ⟨b, c, q, s', h0, h1, h2, h3, h4, h5, h6, h8⟩ | ⟨h1, h0, h2, h3, h4⟩
    · rw [ha] at h1; exact absurd (List.append_eq_nil_iff.1 h1).1 (stream_ne p1)
    · rw [h3] at hrun
      simp only [] at hrun
      have hik : it.c = p0.k := h0.trans hk
      obtain ⟨e1, e2⟩ := stream_unique hE (hik ▸ h1.1) p1 (r := allB s'.inp) (r' := ps.flatMap (·.bytes) ++ cur) (by rw [← h6, ha])
      have ha' : allB s'.inp = ps.flatMap (·.bytes) ++ cur := by
        have := h6.symm.trans ha
        rw [e1] at this
        exact List.append_cancel_left this
      have hlen : 0 < it.S.length := List.length_pos_iff.2 (stream_ne h1.1)
      have hlt : (allB s'.inp).length < fuel := by
        have := congrArg List.length h6
        simp at this; omega
      obtain ⟨ds, d1, d2⟩ := h4.acts
      have d1 : s'.out.acts = s.out.acts ++ ds.map .data := d1
      have hi : s'.inp.inputError = none := by
        by_cases hi : s'.inp.inputError = none
        · exact hi
        · exfalso
          obtain ⟨g1, g2⟩ := h5.inp.fin (show s'.out.stopIsForced = false from h4.stop.trans hs.stop) hs.err hi
          rw [ha'] at g2
          rcases g2 with g2 | g2
          · rw [List.length_append] at g2; omega
          · exact hne (List.append_eq_nil_iff.1 g2).2
      have hlast := h5.inp.last hi
      obtain ⟨ds', db, post, q, q1, q2, q3, q4⟩ := loop_salvage hE hc hne hd hp hpre ps fuel s' sf hlt (h4.calm hs hi) ha' (p3.mono h5.inp.full hlast) (fun _ => by rw [hlast]; exact hl) hrun
      refine ⟨ds ++ ds', db, post, q, by rw [q1, d1]; simp, ?_, q3, q4⟩
      rw [List.flatten_append, List.append_assoc, q2, d2, e2]
      simp
    · rw [h0, hk] at h6; exact absurd h6 hno
    · rw [hk] at h0; rw [← h0] at hno; exact absurd h4 hno

/-- the goroutine -/
theorem run_kept {src : Src} {s' : RState} (hr : readThread E (start src false) = .ok ((), s')) {p : List UInt8}
    (h : ∀ sf, streamLoop E ((start src false).inp.size + 2) (start src false) = .ok ((), sf) → Kept E (start src false).out p sf.out) :
    ∃ (ds : List (List UInt8)) (db : List UInt8) (post : List Act) (q : List UInt8), s'.out.acts = ds.map .data ++ post ∧ ds.flatten ++ db = p ∧ db.length ≤ E.cap ∧ actData post = db ++ q := by
  have hst : readThread E (start src false) = ((fun s => streamLoop E (s.inp.size + 2) s : Go RState Unit) >>= fun _ => finishThread) (start src false) := by
    unfold readThread
    exact Go.bind_ok (Go.modify_apply _ _)
  rw [hst] at hr
  obtain ⟨_, s1, e1, e2⟩ := Go.bind_eq_ok.1 hr
  have hfin : finishThread s1 = .ok ((), { s1 with inp := { s1.inp with inputError := some (s1.inp.inputError.getD .eof) }, out := closeOut (s1.inp.inputError.getD .eof) s1.out }) := by
    unfold finishThread
    refine (Go.bind_ok (onInp_ok rfl)).trans ?_
    unfold propagateError
    simp only [Bool.false_and, Bool.false_eq_true, if_false]
    exact closeWithError_eq _ _
  rw [hfin] at e2
  cases e2
  obtain ⟨ds, db, post, q, q1, q2, q3, q4⟩ := h s1 e1
  rw [flushed_loop _ rfl e1, List.append_nil] at q4
  have q1 : s1.out.acts = ds.map .data ++ post := by simpa [start] using q1
  by_cases hset : s1.out.errorWasSet = true
  · exact ⟨ds, db, post, q, by simp [closeOut, hset, q1], q2, q3, q4⟩
  · refine ⟨ds, db, post ++ [.err (s1.inp.inputError.getD .eof)], q, by simp [closeOut, hset, q1], q2, q3, ?_⟩
    rw [actData_append, q4]; simp [actData]

end
end Flate.Proof.R.Salvage
