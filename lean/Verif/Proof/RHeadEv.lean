/-
What the Reader reports about the header of a stream is what the input says, in every run.
-/
import Verif.Proof.RCut
import Verif.Proof.RTrack

namespace Flate.Proof.R
open Flate.Spec Flate.Model Flate.Model.Rd

/-- The event tells the truth about a header in `B`; `b` is what was in the input buffer when the format was recognised. -/
def HeadEv (E : Env) (B : List UInt8) (e : Event) : Prop := ∀ h, e.kind = .streamHeader h →
  ∃ k pre hdr r b, B = pre ++ (hdr ++ r) ∧ e.inTotal = pre.length + hdr.length ∧ e.inStream = hdr.length ∧ e.format = fmtOf k ∧
    b ≠ [] ∧ b <+: hdr ++ r ∧ k = detect E.o.format b ∧ HeaderOf (2 ^ E.o.wbits) E.o.dict k hdr ∧ Reports k hdr h

theorem norm_prefix (i : Inp) : (norm i).buf <+: allB i := by
  unfold norm allB
  cases h : i.inputError <;> simp

section
variable {E : Env}

theorem header_true {s s' : RState} (hf : Flat s.inp) (hh : s.header = {}) (e : readHeaderOf E E.o.format s = .ok (true, s')) :
    ∃ hdr r h, HeaderOf (2 ^ E.o.wbits) E.o.dict (detect E.o.format s.inp.buf) hdr ∧ Reports (detect E.o.format s.inp.buf) hdr h ∧ allB s.inp = hdr ++ r ∧
      s'.inp.inTotal = s.inp.inTotal + hdr.length ∧ s'.inp.inStream = s.inp.inStream + hdr.length ∧ s'.header = h ∧
      s'.actualFormat = fmtOf (detect E.o.format s.inp.buf) := by
  rw [readHeaderOf_detect] at e
  generalize detect E.o.format s.inp.buf = k at e ⊢
  have main : ∀ (t t' : RState) (e0 : Err), t.inp.inputError = some e0 → Flat t.inp → t.header = {} → t.inp.buf <+: allB s.inp →
      readHeaderOf E (fmtOf k) t = .ok (true, t') → 
      ∃ hdr r h, HeaderOf (2 ^ E.o.wbits) E.o.dict k hdr ∧ Reports k hdr h ∧ allB s.inp = hdr ++ r ∧
      t'.inp.inTotal = t.inp.inTotal + hdr.length ∧ t'.inp.inStream = t.inp.inStream + hdr.length ∧ t'.header = h ∧ t'.actualFormat = fmtOf k := by
    intro t t' e0 h1 h2 h3 ⟨x, h4⟩ h5
    rcases head_sound (E := E) h1 h2 h3 k with ⟨hdr, r, h, c32, k1, k2, k3, k4⟩ | ⟨s1, _, _, k1, _⟩ | ⟨_, k1, _⟩
    · rw [h5] at k4
      cases k4
      refine ⟨hdr, r ++ x, h, k1, k2, by rw [← h4, k3]; simp, ?_, ?_, rfl, rfl⟩
      · simp [takeIn, countIn, Rd.discard]
      · simp [takeIn, countIn, Rd.discard]
    · rw [h5] at k1; cases k1
    · rw [h5] at k1; cases k1
  cases hs : s.out.stopIsForced with
  | false =>
    obtain ⟨h1, _⟩ := cm_readHeaderOf (E := E) (fmtOf_ne k) s hs
    rw [e] at h1
    exact main (nrm s) (nrm s') _ (norm_err _) hf hh (norm_prefix _) h1
  | true =>
    obtain ⟨h1, _⟩ := cs_readHeaderOf (E := E) (fmtOf_ne k) s hs
    rw [e] at h1
    exact main (lo s) (lo s') _ rfl hf hh ⟨_, rfl⟩ h1

/-- between streams -/
structure HInv (E : Env) (B : List UInt8) (s : RState) : Prop where
  flat : Flat s.inp
  pos : ∃ p, B = p ++ allB s.inp ∧ s.inp.inTotal = p.length
  evs : ∀ e ∈ s.events, HeadEv E B e

theorem HeadEv.none {B : List UInt8} {e : Event} (h : ∀ h, e.kind ≠ .streamHeader h) : HeadEv E B e := fun x hx => absurd hx (h x)

theorem blockTrace_headless {f : Bool} {ks : List EvKind} (h : BlockTrace f ks) (x : Header) : EvKind.streamHeader x ∉ ks := by
  cases h <;> simp

theorem blocks_headless {ks : List EvKind} (h : LooseBlocks ks) (x : Header) : EvKind.streamHeader x ∉ ks := by
  obtain ⟨bs, last, h1, rfl, h2⟩ := h
  intro hm
  rcases List.mem_append.1 hm with hm | hm
  · obtain ⟨b, hb, hm⟩ := List.mem_flatten.1 hm
    exact blockTrace_headless (h1 b hb) x hm
  · rcases h2 with h2 | rfl | ⟨f, h2⟩
    · exact blockTrace_headless h2 x hm
    · cases hm
    · cases h2 <;> simp at hm

theorem emits_body (E : Env) : Emits (bodyRest E) (fun ok ks => ∃ bks a c, LooseBlocks bks ∧ ks = bks ++ ([.streamEnd a c] ++ if ok then [.streamClose] else [])) := by
  unfold bodyRest
  refine Emits.bind (L := fun _ ks => ks = []) (Keeps.emits fun s a s' e => by cases e; rfl) ?_
  rintro _ _ rfl
  refine Emits.bind (L := fun _ ks => LooseBlocks ks) (fun s a s' e => emits_blockLoop E _ s a s' e) ?_
  intro _ bks hbk
  refine Emits.bind (L := fun _ ks => ks = []) (Keeps.emits fun s a s' e => by cases e; rfl) ?_
  rintro _ _ rfl
  refine emits_footer.imp ?_
  rintro ok ks ⟨a, c, rfl⟩
  exact ⟨bks, a, c, hbk, by simp⟩

theorem body_headless (E : Env) : Emits (bodyRest E) (fun _ ks => ∀ h, EvKind.streamHeader h ∉ ks) := by
  refine (emits_body E).imp ?_
  rintro ok ks ⟨bks, a, c, h, rfl⟩ x hm
  rcases List.mem_append.1 hm with hm | hm
  · exact blocks_headless h x hm
  · cases ok <;> simp at hm

theorem HInv.more {B : List UInt8} {s : RState} {l : List Event} {ev : List Event} (h : ∀ e ∈ l, HeadEv E B e) (hl : ∀ e ∈ ev, ∀ x, e.kind ≠ .streamHeader x) :
    ∀ e ∈ l ++ ev, HeadEv E B e := by
  intro e he
  rcases List.mem_append.1 he with he | he
  · exact h e he
  · exact .none (hl e he)

theorem hinv_stream {B : List UInt8} {s s' : RState} {b : Bool} (hE : LibOK E) (h : HInv E B s) (e : readStream E s = .ok (b, s')) : HInv E B s' := by
  have hpos : ∃ p, B = p ++ allB s'.inp ∧ s'.inp.inTotal = p.length := by
    obtain ⟨p, p1, p2⟩ := h.pos
    have : ∃ c, allB s.inp = c ++ allB s'.inp ∧ s'.inp.inTotal = s.inp.inTotal + c.length := by
      rcases safe_readStream (X := True) hE h.flat.1 (fun _ => trivial) with ⟨t, k1, _, _, k2⟩ | ⟨t, k1, k2, _⟩ | ⟨k1, _⟩
      · rw [e] at k1; cases k1; exact k2
      · rw [e] at k1; cases k1; exact k2.inp.took
      · rw [e] at k1; cases k1
    obtain ⟨c, c1, c2⟩ := this
    exact ⟨p ++ c, by rw [p1, c1, List.append_assoc], by rw [c2, p2, List.length_append]⟩
  refine ⟨flat_stream E _ _ _ e h.flat, hpos, ?_⟩
  obtain ⟨f1, f2, f3, f4, f5, f6⟩ := filled_frame s
  rw [readStream_split] at e
  split at e
  · have h1 : s'.events = (filled s).events := Keeps.bind noEv_flow.toPre (noEv_propagate _) (fun _ => Keeps.pure noEv_flow.toPre _) _ _ _ e
    rw [h1, f5]; exact h.evs
  · rename_i hne
    unfold Go.chk at e
    rcases hx : headRest E (filled s) with p | ⟨b1, s1⟩
    · rw [hx] at e; cases e
    · rw [hx] at e
      rw [headRest_eq] at hx
      unfold Go.chk at hx
      rcases hy : readHeaderOf E E.o.format (begun E (filled s)) with p | ⟨b2, s2⟩
      · rw [hy] at hx; cases hx
      · rw [hy] at hx
        have h2 : s2.events = _ := noEv_flow.headerOf E _ _ _ _ hy
        have h3 : ∀ e ∈ s2.events, HeadEv E B e := by
          rw [h2]
          show ∀ e ∈ (filled s).events ++ [_], _
          rw [f5]
          refine HInv.more h.evs (s := s) fun e he x => ?_
          rw [List.mem_singleton] at he; subst he; simp
        cases b2 with
        | false => cases hx; cases e; exact h3
        | true =>
          cases hx
          simp only [] at e
          obtain ⟨l, l1, l2⟩ := body_headless E _ _ _ e
          rw [l1]
          refine HInv.more (s := s) ?_ fun e he x hk => l2 x (List.mem_map.2 ⟨e, he, hk⟩)
          intro e he
          rcases List.mem_append.1 he with he | he
          · exact h3 e he
          · rw [List.mem_singleton] at he; subst he
            have hflat : Flat (begun E (filled s)).inp := by
              show Flat (refill s.out.stopIsForced { s.inp with inStream := 0 })
              unfold refill
              split
              · exact flat_fill _ _ h.flat
              · exact h.flat
            obtain ⟨hdr, r, hh, k1, k2, k3, k4, k5, k6, k7⟩ := header_true hflat rfl hy
            obtain ⟨p, p1, p2⟩ := h.pos
            intro y hk
            cases hk
            refine ⟨_, p, hdr, r, (filled s).inp.buf, ?_, ?_, ?_, k7, by simpa using hne, ?_, rfl, k1, k6 ▸ k2⟩
            · rw [p1, ← f2]; exact congrArg _ k3
            · show s2.inp.inTotal = _
              rw [k4]
              show (filled s).inp.inTotal + _ = _
              rw [f4, p2]
            · show s2.inp.inStream = _
              rw [k5]
              show (filled s).inp.inStream + _ = _
              rw [steady_filled]; simp
            · rw [← k3]; exact ⟨_, rfl⟩

theorem hinv_loop (hE : LibOK E) {B : List UInt8} : ∀ (fuel : Nat) {s s' : RState} {r : Unit}, HInv E B s → streamLoop E fuel s = .ok (r, s') → HInv E B s'
  | 0, _, _, _, _, e => by cases e
  | fuel + 1, s, s', r, h, e => by
    unfold streamLoop at e
    split at e
    · rcases hx : readStream E s with p | ⟨b, s1⟩
      · rw [hx] at e; cases e
      · rw [hx] at e
        have h1 := hinv_stream hE h hx
        cases b with
        | false => cases e; exact h1
        | true => exact hinv_loop hE fuel h1 e
    · cases e; exact h

theorem hinv_thread (hE : LibOK E) {src : Src} {closed : Bool} {r : Unit} {s : RState} (e : readThread E (start src closed) = .ok (r, s)) :
    ∀ e ∈ s.events, HeadEv E src.bytes e := by
  have hst : readThread E (start src closed) = ((fun s => streamLoop E (s.inp.size + 2) s : Go RState Unit) >>= fun _ => finishThread) (start src closed) := by
    unfold readThread
    exact Go.bind_ok (Go.modify_apply _ _)
  obtain ⟨_, s1, e1, e2⟩ := Go.bind_eq_ok.1 (hst.symm.trans e)
  have h3 : s.events = s1.events := Keeps.bind noEv_flow.toPre (noEv_flow.onInp fun _ i a i' e => by cases e; exact steady_of rfl rfl (Nat.le_refl _)) (fun _ => noEv_propagate _) _ _ _ e2
  rw [h3]
  exact (hinv_loop hE _ (s := start src closed) ⟨⟨rfl, rfl⟩, ⟨[], rfl, rfl⟩, fun _ he => by cases he⟩ e1).evs

end
end Flate.Proof.R
