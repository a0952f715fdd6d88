/-
The order of a Reader's events, in every run.
-/
import Verif.Proof.RTrack
import Verif.Spec.LooseTrace

namespace Flate.Proof.R
open Flate.Spec Flate.Model Flate.Model.Rd

/-- the function sends events of these kinds -/
def Emits {α : Type} (f : Go RState α) (L : α → List EvKind → Prop) : Prop :=
  ∀ s a s', f s = .ok (a, s') → ∃ l, s'.events = s.events ++ l ∧ L a (l.map (·.kind))

/-- no events -/
def NoEv (s s' : RState) : Prop := s'.events = s.events

theorem noEv_flow : OFlow NoEv where
  refl _ := rfl
  trans _ _ _ h h' := Eq.trans h' h
  inp _ _ _ := rfl
  close _ _ _ := rfl
  hdr _ _ _ := rfl
  flush _ _ := rfl
  keep _ _ _ _ := rfl

theorem noEv_propagate (t : Bool) : Keeps NoEv (propagateError t) := keeps_propagate noEv_flow.toPre (fun _ _ => rfl) t

section
variable {α β : Type}

theorem Keeps.emits {f : Go RState α} (h : Keeps NoEv f) : Emits f (fun _ ks => ks = []) := fun s a s' e => ⟨[], by rw [h s a s' e]; simp, rfl⟩

theorem Emits.imp {f : Go RState α} {L L' : α → List EvKind → Prop} (h : Emits f L) (hi : ∀ a ks, L a ks → L' a ks) : Emits f L' := by
  intro s a s' e
  obtain ⟨l, h1, h2⟩ := h s a s' e
  exact ⟨l, h1, hi _ _ h2⟩

theorem Emits.bind {f : Go RState α} {g : α → Go RState β} {L : α → List EvKind → Prop} {M : β → List EvKind → Prop} (h : Emits f L)
    (hg : ∀ a ks, L a ks → Emits (g a) (fun b ks' => M b (ks ++ ks'))) : Emits (f >>= g) M := by
  intro s b s' e
  obtain ⟨a, s1, e1, e2⟩ := Go.bind_eq_ok.1 e
  obtain ⟨l, h1, h2⟩ := h s a s1 e1
  obtain ⟨m, h3, h4⟩ := hg a _ h2 s1 b s' e2
  exact ⟨l ++ m, by rw [h3, h1]; simp, by rw [List.map_append]; exact h4⟩

theorem Emits.pure {L : α → List EvKind → Prop} {a : α} (h : L a []) : Emits (Pure.pure a) L := by
  intro s a s' e; cases e; exact ⟨[], by simp, h⟩

theorem emits_send (k : EvKind) : Emits (sendEvent k) (fun _ ks => ks = [k]) := by
  intro s a s' e; cases e; exact ⟨_, rfl, rfl⟩

theorem Emits.ite {c : Prop} [Decidable c] {x y : Go RState α} {L : α → List EvKind → Prop} (hx : c → Emits x L) (hy : ¬ c → Emits y L) :
    Emits (if c then x else y) L := by
  split
  · exact hx (by assumption)
  · exact hy (by assumption)

theorem Emits.needBits {E : Env} {fl : α} {n : Nat} {k : Nat → Go RState α} {L : α → List EvKind → Prop} (h0 : L fl []) (hk : ∀ v, Emits (k v) L) :
    Emits (Rd.needBits E fl n k) L := by
  unfold Rd.needBits
  refine Emits.bind (noEv_flow.onInp fun st => steady_bitsFill _ st n).emits ?_
  rintro ok _ rfl
  refine Emits.ite (fun _ => ?_) fun _ => ?_
  · refine Emits.bind (noEv_propagate _).emits ?_
    rintro _ _ rfl
    exact Emits.pure h0
  · refine Emits.bind (noEv_flow.onInp fun _ => steady_bitsRead _ n).emits ?_
    rintro v _ rfl
    exact hk v

end

theorem emits_trees (E : Env) (f : Bool) : Emits (readDynamicTrees E f) (fun r ks => (r = none → ks = []) ∧ (r ≠ none → ∃ tr, ks = [.blockTrees .dynamic f tr])) := by
  have h0 : ∀ (m : Spec.Problem), Emits (do corruptf m; pure none : Go RState (Option (List Nat × List Nat)))
      (fun r ks => (r = none → ks = []) ∧ (r ≠ none → ∃ tr, ks = [.blockTrees .dynamic f tr])) := by
    intro m
    refine Emits.bind (noEv_flow.corruptf m).emits ?_
    rintro _ _ rfl
    exact Emits.pure ⟨fun _ => rfl, fun h => absurd rfl h⟩
  unfold readDynamicTrees
  refine Emits.needBits ⟨fun _ => rfl, fun h => absurd rfl h⟩ fun v => ?_
  refine Emits.bind (noEv_flow.counts _ _).emits ?_
  rintro _ _ rfl
  refine Emits.bind (noEv_flow.readCL E _ _).emits ?_
  rintro r _ rfl
  cases r with
  | none => exact Emits.pure ⟨fun _ => rfl, fun h => absurd rfl h⟩
  | some sX =>
    refine Emits.ite (fun _ => h0 _) fun _ => ?_
    refine Emits.bind (Keeps.emits fun s a s' e => noEv_flow.lensLoop E _ _ _ _ s a s' e) ?_
    rintro r _ rfl
    cases r with
    | none => exact Emits.pure ⟨fun _ => rfl, fun h => absurd rfl h⟩
    | some lens =>
      refine Emits.ite (fun _ => h0 _) fun _ => Emits.ite (fun _ => h0 _) fun _ => ?_
      refine Emits.bind (emits_send _) ?_
      rintro _ _ rfl
      exact Emits.pure ⟨fun h => by simp at h, fun _ => ⟨_, rfl⟩⟩

theorem emits_blockOf (E : Env) (f : Bool) (t : BlockType) : Emits (readBlockOf E f t) (fun ok ks =>
    (ok = true → BlockTrace f ([.blockBegin t f] ++ ks ++ [.blockEnd t f])) ∧ (ok = false → LooseBlock f ([.blockBegin t f] ++ ks))) := by
  cases t with
  | stored =>
    refine (noEv_flow.stored E).emits.imp ?_
    rintro ok _ rfl
    exact ⟨fun _ => .stored, fun _ => .early _ (by simp)⟩
  | static =>
    refine Emits.bind (emits_send _) ?_
    rintro _ _ rfl
    refine (noEv_flow.huffBlock E _ _).emits.imp ?_
    rintro ok _ rfl
    exact ⟨fun _ => .static _, fun _ => .static _⟩
  | dynamic =>
    refine Emits.bind (emits_trees E f) ?_
    rintro r ks ⟨h1, h2⟩
    cases r with
    | none =>
      rw [h1 rfl]
      exact Emits.pure ⟨fun h => (nomatch h), fun _ => .early _ (by simp)⟩
    | some p =>
      obtain ⟨tr, rfl⟩ := h2 (by simp)
      refine (noEv_flow.huffBlock E _ _).emits.imp ?_
      rintro ok _ rfl
      exact ⟨fun _ => .dynamic _, fun _ => .dynamic _⟩
  | invalid =>
    intro s a s' e
    have h1 : a = false := by
      obtain ⟨_, s1, _, e2⟩ := Go.bind_eq_ok.1 (show (do corruptf .reserved; pure false : Go RState Bool) s = .ok (a, s') from e)
      cases e2; rfl
    subst h1
    refine ⟨[], by rw [noEv_flow.fail _ _ _ _ e]; simp, fun h => (nomatch h), fun _ => .early _ (by simp)⟩

theorem emits_block (E : Env) : Emits (readFlateBlock E) (fun r ks => (∀ f, r = some f → BlockTrace f ks) ∧ (r = none → ks = [] ∨ ∃ f, LooseBlock f ks)) := by
  unfold readFlateBlock
  refine Emits.needBits ⟨fun _ h => (nomatch h), fun _ => Or.inl rfl⟩ fun v => ?_
  refine Emits.bind (emits_send _) ?_
  rintro _ _ rfl
  refine Emits.bind (emits_blockOf E _ _) ?_
  rintro ok ks ⟨h1, h2⟩
  cases ok with
  | false => exact Emits.pure ⟨fun _ h => (nomatch h), fun _ => Or.inr ⟨_, by simpa using h2 rfl⟩⟩
  | true =>
    simp only [if_true]
    refine Emits.bind (emits_send _) ?_
    rintro _ _ rfl
    refine Emits.pure ⟨fun f h => ?_, fun h => (nomatch h)⟩
    cases h
    simpa using h1 rfl

theorem emits_blockLoop (E : Env) : ∀ fuel, Emits (blockLoop E fuel) (fun _ ks => LooseBlocks ks)
  | 0 => by intro s a s' e; cases e
  | fuel + 1 => by
    unfold blockLoop
    refine Emits.bind (emits_block E) ?_
    rintro r ks ⟨h1, h2⟩
    rcases r with _ | f | f
    · exact Emits.pure ⟨[], ks, by simp, by simp, Or.inr (h2 rfl)⟩
    · refine (emits_blockLoop E fuel).imp ?_
      rintro _ ks' ⟨bs, last, h3, rfl, h4⟩
      refine ⟨ks :: bs, last, fun b hb => ?_, by simp, h4⟩
      rcases List.mem_cons.1 hb with rfl | hb
      · exact h1 _ rfl
      · exact h3 b hb
    · exact Emits.pure ⟨[], ks, by simp, by simp, Or.inl (h1 _ rfl)⟩

theorem emits_footer : Emits readFooter (fun ok ks => ∃ a c, ks = [.streamEnd a c] ++ if ok then [.streamClose] else []) := by
  unfold readFooter
  refine Emits.bind (noEv_flow.onInp fun _ i a i' e => by cases e; exact steady_discard i).emits ?_
  rintro _ _ rfl
  intro s a s' e
  have e' : Go.chk (readFooterOf s.actualFormat s.out.adler s.out.crc) (do sendEvent .streamClose; pure true) (sent (.streamEnd s.out.adler s.out.crc) s) = .ok (a, s') := e
  unfold Go.chk at e'
  rcases hx : readFooterOf s.actualFormat s.out.adler s.out.crc (sent (.streamEnd s.out.adler s.out.crc) s) with p | ⟨ok, s1⟩
  · rw [hx] at e'; cases e'
  · rw [hx] at e'
    have h1 : s1.events = _ := noEv_flow.footerOf _ _ _ _ _ _ hx
    cases ok with
    | false => cases e'; exact ⟨_, h1, _, _, rfl⟩
    | true =>
      obtain ⟨_, s2, e2, e3⟩ := Go.bind_eq_ok.1 e'
      cases e2; cases e3
      have h2 : ∀ (x : Event), s1.events ++ [x] = s.events ++ [{ kind := .streamEnd s.out.adler s.out.crc, inTotal := s.inp.inTotal, inStream := s.inp.inStream, outTotal := s.out.outTotal, outStream := s.out.outStream, numStreams := s.numStreams, format := s.actualFormat }, x] := by
        intro x; rw [h1]; simp [sent]
      exact ⟨_, h2 _, s.out.adler, s.out.crc, rfl⟩

theorem emits_stream (E : Env) : Emits (readStream E) (fun ok ks => (ok = true → LooseClosed ks) ∧ (ok = false → LooseOpen ks)) := by
  intro s a s' e
  rw [readStream_split] at e
  split at e
  · have h1 : s'.events = (filled s).events := Keeps.bind noEv_flow.toPre (noEv_propagate _) (fun _ => Keeps.pure noEv_flow.toPre _) _ _ _ e
    obtain ⟨_, s1, _, e2⟩ := Go.bind_eq_ok.1 e
    cases e2
    exact ⟨[], by rw [h1]; simp [filled], fun h => (nomatch h), fun _ => Or.inl rfl⟩
  · unfold Go.chk at e
    rcases hx : headRest E (filled s) with p | ⟨b, s1⟩
    · rw [hx] at e; cases e
    · rw [hx] at e
      rw [headRest_eq] at hx
      unfold Go.chk at hx
      rcases hy : readHeaderOf E E.o.format (begun E (filled s)) with p | ⟨b', s2⟩
      · rw [hy] at hx; cases hx
      · rw [hy] at hx
        have h2 : s2.events = _ := noEv_flow.headerOf E _ _ _ _ hy
        cases b' with
        | false =>
          cases hx
          cases e
          exact ⟨_, h2, fun h => (nomatch h), fun _ => Or.inr (Or.inl rfl)⟩
        | true =>
          cases hx
          simp only [] at e
          have hb : Emits (bodyRest E) (fun ok ks => ∃ bks a c, LooseBlocks bks ∧ ks = bks ++ ([.streamEnd a c] ++ if ok then [.streamClose] else [])) := by
            unfold bodyRest
            refine Emits.bind (L := fun _ ks => ks = []) (Keeps.emits fun s a s' e => by cases e; rfl) ?_
            rintro _ _ rfl
            refine Emits.bind (L := fun _ ks => LooseBlocks ks) (fun s a s' e => emits_blockLoop E _ s a s' e) ?_
            intro _ bks hbk
            refine Emits.bind (L := fun _ ks => ks = []) (Keeps.emits fun s a s' e => by cases e; rfl) ?_
            rintro _ _ rfl
            refine emits_footer.imp ?_
            rintro ok ks ⟨a, c, rfl⟩
            exact ⟨bks, a, c, hbk, by simp⟩
          obtain ⟨l, l1, bks, x, c, l2, l3⟩ := hb _ _ _ e
          refine ⟨_, by rw [l1, sent, h2, begun, sent]; simp only [List.append_assoc]; rfl, ?_⟩
          simp only [List.map_append, List.map_cons, List.map_nil, List.append_assoc] at l3 ⊢
          rw [l3]
          refine ⟨fun h => ?_, fun h => ?_⟩
          · subst h; exact ⟨s2.header, bks, x, c, l2, by simp⟩
          · subst h; exact Or.inr (Or.inr ⟨s2.header, bks, x, c, l2, by simp⟩)

theorem emits_loop (E : Env) : ∀ fuel, Emits (streamLoop E fuel) (fun _ ks => LooseTrace ks)
  | 0 => by intro s a s' e; cases e
  | fuel + 1 => by
    intro s a s' e
    unfold streamLoop at e
    split at e
    · rcases hx : readStream E s with p | ⟨b, s1⟩
      · rw [hx] at e; cases e
      · rw [hx] at e
        obtain ⟨l, h1, h2, h3⟩ := emits_stream E _ _ _ hx
        cases b with
        | false => cases e; exact ⟨l, h1, [], _, by simp, h3 rfl, by simp⟩
        | true =>
          obtain ⟨m, h4, streams, rest, h5, h6, h7⟩ := emits_loop E fuel _ _ _ e
          refine ⟨l ++ m, by rw [h4, h1]; simp, l.map (·.kind) :: streams, rest, fun st hs => ?_, h6, by simp [h7]⟩
          rcases List.mem_cons.1 hs with rfl | hs
          · exact h2 rfl
          · exact h5 st hs
    · cases e; exact ⟨[], by simp, [], [], by simp, Or.inl rfl, rfl⟩

theorem loose_thread {E : Env} {src : Src} {closed : Bool} {r : Unit} {s : RState} (e : readThread E (start src closed) = .ok (r, s)) :
    LooseTrace (s.events.map (·.kind)) := by
  have hst : readThread E (start src closed) = ((fun s => streamLoop E (s.inp.size + 2) s : Go RState Unit) >>= fun _ => finishThread) (start src closed) := by
    unfold readThread
    exact Go.bind_ok (Go.modify_apply _ _)
  obtain ⟨_, s1, e1, e2⟩ := Go.bind_eq_ok.1 (hst.symm.trans e)
  obtain ⟨l, h1, h2⟩ := emits_loop E _ _ _ _ e1
  have h3 : s.events = s1.events := Keeps.bind noEv_flow.toPre (noEv_flow.onInp fun _ i a i' e => by cases e; exact steady_of rfl rfl (Nat.le_refl _)) (fun _ => noEv_propagate _) _ _ _ e2
  rw [h3, h1]
  simpa [start] using h2

end Flate.Proof.R
