/-
Every first problem of a stream is reported, also after other streams.
-/
import Verif.Proof.RTellRun
import Verif.Proof.RAuto

namespace Flate.Proof.R.Wrong
open Flate.Spec Flate.Model Flate.Model.Rd Flate.Proof Flate.Proof.R.Pos

section
variable {E : Env} {m : Spec.Problem}

/-- a stream of format `k` at the beginning of `bytes` will be recognised -/
def Seen (E : Env) (src : Src) (k : Container) (bytes : List UInt8) : Prop :=
  E.o.format = fmtOf k ∨ detect E.o.format bytes = k ∧ ∀ post, post <:+ src.full → bytes.length ≠ 1 + (pieceBytes post ++ src.last).length

theorem Seen.mono {src src' : Src} (hf : src'.full <:+ src.full) (hl : src'.last = src.last) {k : Container} {bytes : List UInt8} (h : Seen E src k bytes) : Seen E src' k bytes := by
  rcases h with h | ⟨h1, h2⟩
  · exact Or.inl h
  · exact Or.inr ⟨h1, fun post hp => by rw [hl]; exact h2 post (hp.trans hf)⟩

theorem Seen.first {s : RState} (hs : Calm s) {k : Container} {bytes : List UInt8} (ha : allB s.inp = bytes) (hne : bytes ≠ []) (h : Seen E s.inp.src k bytes) : firstC E s = k := by
  rcases h with h | ⟨h1, h2⟩
  · unfold firstC; rw [h]; exact detect_fmtOf _ _
  · exact first_recognised hs ha hne h1 h2

/-- all the streams `ps` and what begins after them will be recognised -/
def AllSeen (E : Env) (src : Src) (k : Container) (cur : List UInt8) : List Given → Prop
  | [] => Seen E src k cur
  | p :: ps => Stream (Env.ok E) (2 ^ E.o.wbits) E.o.dict p.k p.bytes p.data ∧ Seen E src p.k (p.bytes ++ (ps.flatMap (·.bytes) ++ cur)) ∧ AllSeen E src k cur ps

theorem AllSeen.mono {src src' : Src} {k : Container} {cur : List UInt8} (hf : src'.full <:+ src.full) (hl : src'.last = src.last) :
    ∀ {ps : List Given}, AllSeen E src k cur ps → AllSeen E src' k cur ps
  | [], h => Seen.mono hf hl h
  | _ :: _, ⟨h1, h2, h3⟩ => ⟨h1, h2.mono hf hl, h3.mono hf hl⟩

/-- the loop -/
theorem loop_tell (hE : EnvOK E) {k : Container} {cur : List UInt8} {n : Nat} (hw : StreamWrong (Env.ok E) (2 ^ E.o.wbits) E.o.dict k m cur n) :
    ∀ (ps : List Given) (fuel : Nat) (s sf : RState), (allB s.inp).length < fuel → Calm s → NotC s.inp.src.err → actErr s.out.acts = none →
      allB s.inp = ps.flatMap (·.bytes) ++ cur → AllSeen E s.inp.src k cur ps → (ps ≠ [] → s.inp.src.last.length ≤ cur.length) → streamLoop E fuel s = .ok ((), sf) →
      ∃ b, actErr sf.out.acts = some (.corrupt (s.inp.inTotal + (ps.flatMap (·.bytes)).length + b) b m) ∧ (m ∉ noCodeMessages → b = n)
  | _, 0, _, _, h, _, _, _, _, _, _, _ => by omega
  | [], fuel + 1, s, sf, hf, hs, he, hn, ha, hp, _, e1 => by
    have hlib : LibOK E := ⟨hE.lawful, hE.word⟩
    have ha : allB s.inp = cur := ha
    have hne : cur ≠ [] := wrong_ne hw
    have hb : (filled s).inp.buf ≠ [] := fun h => hne (ha.symm.trans ((filled_all hs).2 h).1)
    have hk : firstC E s = k := Seen.first hs ha hne hp
    subst hk
    rw [← ha] at hw
    unfold streamLoop at e1
    simp only [hs.err, Option.isNone_none, if_true] at e1
    rcases hrs : readStream E s with er | ⟨a, s'⟩
    · rw [hrs] at e1; cases e1
    rw [hrs] at e1
    obtain ⟨b, k1, k2⟩ := step_tell hE hs he hn hb hw hrs
    refine ⟨b, ?_, k2⟩
    show _ = some (Err.corrupt (s.inp.inTotal + 0 + b) b m)
    rw [Nat.add_zero]
    cases a with
    | false => cases e1; exact k1
    | true =>
      simp only [] at e1
      obtain ⟨hz, hlt⟩ : s'.inp.ibLen = 0 ∧ (allB s'.inp).length < fuel := by
        rcases safe_readStream (X := True) (E := E) (s := s) hlib hs.flat.1 fun _ => trivial with ⟨s'', e, _⟩ | ⟨s'', e, _, z, m⟩ | ⟨e, _⟩
        · rw [hrs] at e; cases e
        · rw [hrs] at e; cases e; exact ⟨z, by omega⟩
        · rw [hrs] at e; cases e
      rcases safe_streamLoop (X := True) hlib fuel s' hlt hz fun _ => trivial with ⟨s2, e, m⟩ | ⟨e, _⟩
      · rw [e] at e1; cases e1
        obtain ⟨post, p1, _⟩ := m.out.acts
        rw [p1, actErr_append, k1]
      · rw [e] at e1; cases e1
  | p :: ps, fuel + 1, s, sf, hf, hs, he, hn, ha, ⟨p1, p2, p3⟩, hl, hrun => by
    have ha : allB s.inp = p.bytes ++ (ps.flatMap (·.bytes) ++ cur) := by rw [ha]; simp
    have hk : firstC E s = p.k := Seen.first hs ha (by simp [stream_ne p1]) p2
    have hno : ¬ NoStream E p.k (allB s.inp) := fun h => h _ _ _ p1 ha
    have hl := hl (by simp)
    unfold streamLoop at hrun
    simp only [hs.err, Option.isNone_none, if_true] at hrun
    rcases stream_step hE hs with ⟨h1, s', h2, h3, h4, h5, h6, h7⟩ | ⟨it, s', h1, h0, h2, h3, h4, h5, h6⟩ | ⟨b, c, q, s', h0, h1, h2, h3, h4, h5, h6, h8⟩ | ⟨h1, h0, h2, h3, h4⟩
    · rw [ha] at h1; exact absurd (List.append_eq_nil_iff.1 h1).1 (stream_ne p1)
    · rw [h3] at hrun
      simp only [] at hrun
      have hik : it.c = p.k := h0.trans hk
      obtain ⟨e1, e2⟩ := stream_unique hE (hik ▸ h1.1) p1 (r := allB s'.inp) (r' := ps.flatMap (·.bytes) ++ cur) (by rw [← h6, ha])
      have ha' : allB s'.inp = ps.flatMap (·.bytes) ++ cur := by
        have := h6.symm.trans ha
        rw [e1] at this
        exact List.append_cancel_left this
      have hlen : 0 < it.S.length := List.length_pos_iff.2 (stream_ne h1.1)
      have hlt : (allB s'.inp).length < fuel := by
        have := congrArg List.length h6
        simp at this; omega
      obtain ⟨ds, d1, d2⟩ := h4.acts
      have d1 : s'.out.acts = s.out.acts ++ ds.map .data := d1
      have hin : s'.inp.inTotal = s.inp.inTotal + it.S.length := h4.total
      have hn' : actErr s'.out.acts = none := by rw [d1]; exact actErr_datas hn ds
      have hi : s'.inp.inputError = none := by
        by_cases hi : s'.inp.inputError = none
        · exact hi
        · exfalso
          obtain ⟨g1, g2⟩ := h5.inp.fin (show s'.out.stopIsForced = false from h4.stop.trans hs.stop) hs.err hi
          rw [ha'] at g2
          have := List.length_pos_iff.2 (wrong_ne hw)
          rcases g2 with g2 | g2
          · rw [List.length_append] at g2; omega
          · exact wrong_ne hw (List.append_eq_nil_iff.1 g2).2
      have hsrc : s'.inp.src.err = s.inp.src.err := h5.inp.srcErr
      have hlast := h5.inp.last hi
      obtain ⟨b, q1, q2⟩ := loop_tell hE hw ps fuel s' sf hlt (h4.calm hs hi) (by rw [hsrc]; exact he) hn' ha' (p3.mono h5.inp.full hlast) (fun _ => by rw [hlast]; exact hl) hrun
      refine ⟨b, ?_, q2⟩
      rw [q1, hin, e1]
      simp only [List.flatMap_cons, List.length_append]
      congr 2; omega
    · rw [h0, hk] at h6; exact absurd h6 hno
    · rw [hk] at h0; rw [← h0] at hno; exact absurd h4 hno

/-- the goroutine -/
theorem run_tell_all (hE : EnvOK E) {src : Src} (he : NotC src.err) {s' : RState} (hr : readThread E (start src false) = .ok ((), s')) {k : Container} {ps : List Given} {cur : List UInt8} {n : Nat}
    (hb : src.bytes = ps.flatMap (·.bytes) ++ cur) (hp : AllSeen E src k cur ps) (hl : ps ≠ [] → src.last.length ≤ cur.length)
    (hw : StreamWrong (Env.ok E) (2 ^ E.o.wbits) E.o.dict k m cur n) :
    ∃ b, actErr s'.out.acts = some (.corrupt ((ps.flatMap (·.bytes)).length + b) b m) ∧ (m ∉ noCodeMessages → b = n) := by
  have hcalm : Calm (start src false) := ⟨rfl, rfl, ⟨rfl, rfl⟩, rfl, rfl⟩
  have hst : readThread E (start src false) = ((fun s => streamLoop E (s.inp.size + 2) s : Go RState Unit) >>= fun _ => finishThread) (start src false) := by
    unfold readThread
    exact Go.bind_ok (Go.modify_apply _ _)
  rw [hst] at hr
  obtain ⟨_, s1, e1, e2⟩ := Go.bind_eq_ok.1 hr
  have hfin : finishThread s1 = .ok ((), { s1 with inp := { s1.inp with inputError := some (s1.inp.inputError.getD .eof) }, out := closeOut (s1.inp.inputError.getD .eof) s1.out }) := by
    unfold finishThread
    refine (Go.bind_ok (onInp_ok rfl)).trans ?_
    unfold propagateError
    simp only [Bool.false_and, Bool.false_eq_true, if_false]
    exact closeWithError_eq _ _
  rw [hfin] at e2
  cases e2
  obtain ⟨b, h1, h2⟩ := loop_tell hE hw ps ((start src false).inp.size + 2) (start src false) s1 (by rw [size_eq]; omega) hcalm he rfl hb hp hl e1
  refine ⟨b, (close_first _ s1.out).1 _ ?_, h2⟩
  rw [h1]
  show some (Err.corrupt (0 + _ + b) b m) = _
  rw [Nat.zero_add]

end
end Flate.Proof.R.Wrong
