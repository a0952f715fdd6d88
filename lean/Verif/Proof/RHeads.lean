/-
When a Reader sends its StreamHeader events: each before the first byte and after the last byte of the previous stream has been flushed.
-/
import Verif.Proof.RHeadEv
import Verif.Proof.RRun

namespace Flate.Proof.R
open Flate.Spec Flate.Model Flate.Model.Rd

/-- the headers which are reported, with the number of bytes flushed before -/
def heads (l : List Event) : List (Nat × Header) := l.filterMap fun e => match e.kind with
  | .streamHeader h => some (e.outTotal, h)
  | _ => none

theorem heads_append (a b : List Event) : heads (a ++ b) = heads a ++ heads b := List.filterMap_append

theorem heads_none {l : List Event} (h : ∀ e ∈ l, ∀ x, e.kind ≠ .streamHeader x) : heads l = [] := by
  unfold heads
  rw [List.filterMap_eq_nil_iff]
  intro e he
  split
  · rename_i x hx; exact absurd hx (h e he x)
  · rfl

theorem heads_kinds (l : List Event) : (heads l).map Prod.snd = (l.map (·.kind)).filterMap fun k => match k with | .streamHeader h => some h | _ => none := by
  induction l with
  | nil => rfl
  | cons e l ih =>
    unfold heads at ih ⊢
    rw [List.filterMap_cons, List.map_cons, List.filterMap_cons]
    cases hk : e.kind <;> simp [ih]

/-- where the headers of the streams `l` are reported, if `n` bytes have been flushed before -/
def headsAt (n : Nat) : List RItem → List (Nat × Header)
  | [] => []
  | it :: l => (n, it.h) :: headsAt (n + it.data.length) l

variable {E : Env}

theorem stream_heads {s s' : RState} {b : Bool} (e : readStream E s = .ok (b, s')) :
    heads s'.events = heads s.events ∨ ∃ h, heads s'.events = heads s.events ++ [(s.out.outTotal, h)] := by
  obtain ⟨f1, f2, f3, f4, f5, f6⟩ := filled_frame s
  rw [readStream_split] at e
  split at e
  · have h1 : s'.events = (filled s).events := Keeps.bind noEv_flow.toPre (noEv_propagate _) (fun _ => Keeps.pure noEv_flow.toPre _) _ _ _ e
    exact Or.inl (by rw [h1, f5])
  · unfold Go.chk at e
    rcases hx : headRest E (filled s) with p | ⟨b1, s1⟩
    · rw [hx] at e; cases e
    · rw [hx] at e
      rw [headRest_eq] at hx
      unfold Go.chk at hx
      rcases hy : readHeaderOf E E.o.format (begun E (filled s)) with p | ⟨b2, s2⟩
      · rw [hy] at hx; cases hx
      · rw [hy] at hx
        have q := quiet_flow.headerOf E E.o.format _ _ _ hy
        have h3 : heads s2.events = heads s.events := by
          rw [q.events]
          show heads ((filled s).events ++ [_]) = _
          rw [f5, heads_append, heads_none (l := [_]), List.append_nil]
          intro e he x
          rw [List.mem_singleton] at he; subst he; simp
        cases b2 with
        | false => cases hx; cases e; exact Or.inl h3
        | true =>
          cases hx
          simp only [] at e
          obtain ⟨l, l1, l2⟩ := body_headless E _ _ _ e
          right
          refine ⟨s2.header, ?_⟩
          rw [l1, heads_append, heads_none (l := l) fun e he x hk => l2 x (List.mem_map.2 ⟨e, he, hk⟩), List.append_nil]
          show heads (s2.events ++ [_]) = _
          rw [heads_append, h3]
          congr 1
          show [(s2.out.outTotal, s2.header)] = _
          rw [q.total]
          rfl

theorem streamEvents_heads {h : Header} {data : List UInt8} {ks : List EvKind} (x : StreamEvents h data ks) :
    ks.filterMap (fun k => match k with | .streamHeader h => some h | _ => none) = [h] := by
  obtain ⟨bks, a, c, ⟨bl, last, h1, h2, h3⟩, _, _, rfl⟩ := x
  have hno : ∀ y, EvKind.streamHeader y ∉ bks := by
    intro y hy
    rw [h3] at hy
    rcases List.mem_append.1 hy with hy | hy
    · obtain ⟨z, hz, hy⟩ := List.mem_flatten.1 hy
      exact blockTrace_headless (h1 z hz) y hy
    · exact blockTrace_headless h2 y hy
  rw [List.filterMap_append, List.filterMap_append]
  have hb : bks.filterMap (fun k => match k with | .streamHeader h => some h | _ => none) = [] := by
    rw [List.filterMap_eq_nil_iff]
    intro k hk
    split
    · exact absurd hk (hno _)
    · rfl
  rw [hb]
  rfl

theorem clean_heads {s s' : RState} {it : RItem} (hv : it.Valid E) (e : readStream E s = .ok (true, s')) (hev : kinds s' = kinds s ++ it.ks) :
    heads s'.events = heads s.events ++ [(s.out.outTotal, it.h)] := by
  have h1 := heads_kinds s'.events
  have h2 := heads_kinds s.events
  have h3 := streamEvents_heads hv.2.2
  unfold kinds at hev
  rw [hev, List.filterMap_append, h3, ← h2] at h1
  rcases stream_heads e with hh | ⟨h, hh⟩
  · rw [hh] at h1
    have := congrArg List.length h1
    simp at this
  · rw [hh, List.map_append] at h1
    have := List.append_cancel_left h1
    simp only [List.map_cons, List.map_nil, List.cons.injEq, and_true] at this
    rw [hh, this]

theorem loop_heads (hE : EnvOK E) : ∀ (fuel : Nat) (s s' : RState), (allB s.inp).length < fuel → Calm s → streamLoop E fuel s = .ok ((), s') →
    ∃ l r tail, Items E l (allB s.inp) r ∧ heads s'.events = heads s.events ++ headsAt s.out.outTotal l ++ tail ∧ (tail = [] ∧ actData s'.out.acts = actData s.out.acts ++ datas l ∨ ∃ c, Chosen E c r ∧ NoStream E c r)
  | 0, _, _, h, _, _ => by omega
  | fuel + 1, s, s2, hf, hs, hrun => by
    unfold streamLoop at hrun
    simp only [hs.err, Option.isNone_none, if_true] at hrun
    rcases stream_step hE hs with ⟨h1, s', h2, h3, h4, h5, h6, h7⟩ | ⟨it, s', h1, h0, h2, h3, h4, h5, h6⟩ | ⟨b, c, p, s', h0, h1, h2, h3, h4, h5, h6, h8⟩ | ⟨h1, h0, h2, h3, h4⟩
    · rw [h2] at hrun
      cases hrun
      refine ⟨[], [], [], by rw [h1]; exact .nil _, by rw [h5]; simp [headsAt], Or.inl ⟨rfl, ?_⟩⟩
      rw [h4, actData_closeOut]; simp [datas]
    · rw [h3] at hrun
      simp only [] at hrun
      have hlen : 0 < it.S.length := List.length_pos_iff.2 (stream_ne h1.1)
      have hlt : (allB s'.inp).length < fuel := by
        have := congrArg List.length h6
        simp at this; omega
      have hout : s'.out.outTotal = s.out.outTotal + it.data.length := h4.outTotal
      have hev : kinds s' = kinds s ++ it.ks := h4.ev
      obtain ⟨ds, d1, d2⟩ := h4.acts
      have d1 : s'.out.acts = s.out.acts ++ ds.map .data := d1
      have hmap : ∀ ds : List (List UInt8), actData (ds.map Act.data) = ds.flatten := by
        intro ds
        induction ds with
        | nil => rfl
        | cons d ds ih => simp [actData, ih]
      have hd : actData s'.out.acts = actData s.out.acts ++ it.data := by rw [d1, actData_append, hmap, d2]
      have hh := clean_heads h1 h3 hev
      by_cases hn : s'.inp.inputError = none
      · obtain ⟨l, r, tail, hl, q1, q2⟩ := loop_heads hE fuel s' s2 hlt (h4.calm hs hn) hrun
        refine ⟨it :: l, r, tail, by rw [h6]; exact .cons h1 (by rw [← h6]; exact h2) hl, ?_, ?_⟩
        · rw [q1, hh, hout]
          simp [headsAt]
        · rcases q2 with ⟨q2, q3⟩ | q2
          · exact Or.inl ⟨q2, by rw [q3, hd]; simp [datas]⟩
          · exact Or.inr q2
      · obtain ⟨g1, g2⟩ := h5.inp.fin (show s'.out.stopIsForced = false from h4.stop.trans hs.stop) hs.err hn
        have hstop : streamLoop E fuel s' = .ok ((), s') := by
          cases fuel with
          | zero => omega
          | succ n => unfold streamLoop; simp [g1]
        rw [hstop] at hrun
        cases hrun
        exact ⟨[it], allB s2.inp, [], by rw [h6]; exact .cons h1 (by rw [← h6]; exact h2) (.nil _), by rw [hh]; simp [headsAt], Or.inl ⟨rfl, by rw [hd]; simp [datas]⟩⟩
    · have : ∃ l, s2.events = s.events ++ l := by
        obtain ⟨l, q1, _⟩ := emits_stream E _ _ _ h2
        rw [h2] at hrun
        cases b with
        | false => cases hrun; exact ⟨l, q1⟩
        | true =>
          obtain ⟨l', q2, _⟩ := emits_loop E fuel _ _ _ hrun
          exact ⟨l ++ l', by rw [q2, q1, List.append_assoc]⟩
      obtain ⟨l, hl⟩ := this
      exact ⟨[], allB s.inp, heads l, .nil _, by rw [hl, heads_append]; simp [headsAt], Or.inr ⟨c, h1, h6⟩⟩
    · rw [h1] at hrun; cases hrun

/-- The whole goroutine. -/
theorem run_heads (hE : EnvOK E) {src : Src} {s : RState} (e : readThread E (start src false) = .ok ((), s)) :
    ∃ l r tail, Items E l src.bytes r ∧ heads s.events = headsAt 0 l ++ tail ∧ (tail = [] ∧ actData s.out.acts = datas l ∨ ∃ c, Chosen E c r ∧ NoStream E c r) := by
  have hcalm : Calm (start src false) := ⟨rfl, rfl, ⟨rfl, rfl⟩, rfl, rfl⟩
  have hst : readThread E (start src false) = ((fun s => streamLoop E (s.inp.size + 2) s : Go RState Unit) >>= fun _ => finishThread) (start src false) := by
    unfold readThread
    exact Go.bind_ok (Go.modify_apply _ _)
  obtain ⟨_, s1, e1, e2⟩ := Go.bind_eq_ok.1 (hst.symm.trans e)
  have q : Quiet s1 s := Keeps.bind quiet_flow.toPre (quiet_flow.onInp fun _ i a i' e => by cases e; exact steady_of rfl rfl (Nat.le_refl _)) (fun _ => quiet_propagate _) _ _ _ e2
  rw [q.events, q.data]
  obtain ⟨l, r, tail, h1, h2, h4⟩ := loop_heads hE _ _ _ (by have := size_eq (start src false).inp; omega) hcalm e1
  exact ⟨l, r, tail, h1, by simpa [heads, start] using h2, by simpa [start, actData] using h4⟩

end Flate.Proof.R
