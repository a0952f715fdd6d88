/-
C108: the tracers of a Reader are told the same story as those of the Writer.
-/
import Verif.Props.SameEvents
import Verif.Props.StreamCount
import Verif.Proof.RHeadEv

namespace Flate.Props
open Flate.Spec Flate.Model Flate.Model.Rd Flate.Proof Flate.Proof.R

/-! ### the first event of a Reader -/

theorem stream_first {E : Env} {s s' : RState} {b : Bool} (e : readStream E s = .ok (b, s')) :
    (s'.events = s.events ∧ b = false) ∨ ∃ ev es, s'.events = s.events ++ ev :: es ∧ ev.inTotal = s.inp.inTotal := by
  obtain ⟨f1, f2, f3, f4, f5, f6⟩ := filled_frame s
  rw [readStream_split] at e
  split at e
  · left
    have h1 : s'.events = (filled s).events := Keeps.bind noEv_flow.toPre (noEv_propagate _) (fun _ => Keeps.pure noEv_flow.toPre _) _ _ _ e
    refine ⟨by rw [h1, f5], ?_⟩
    obtain ⟨_, s1, _, e2⟩ := Go.bind_eq_ok.1 e
    cases e2; rfl
  · right
    unfold Go.chk at e
    rcases hx : headRest E (filled s) with p | ⟨b1, s1⟩
    · rw [hx] at e; cases e
    · rw [hx] at e
      rw [headRest_eq] at hx
      unfold Go.chk at hx
      rcases hy : readHeaderOf E E.o.format (Flate.Proof.R.begun E (filled s)) with p | ⟨b2, s2⟩
      · rw [hy] at hx; cases hx
      · rw [hy] at hx
        have h2 : s2.events = (Flate.Proof.R.begun E (filled s)).events := noEv_flow.headerOf E _ _ _ _ hy
        obtain ⟨ev, hev, hk⟩ : ∃ ev, s2.events = s.events ++ [ev] ∧ ev.inTotal = s.inp.inTotal := ⟨_, by rw [h2, ← f5]; rfl, f4⟩
        cases b2 with
        | false => cases hx; cases e; exact ⟨ev, [], hev, hk⟩
        | true =>
          cases hx
          simp only [] at e
          obtain ⟨l, l1, _⟩ := body_headless E _ _ _ e
          obtain ⟨eh, w1⟩ : ∃ eh, (sent (.streamHeader s2.header) s2).events = s2.events ++ [eh] := ⟨_, rfl⟩
          exact ⟨ev, eh :: l, by rw [l1, w1, hev]; simp, hk⟩

/-- nothing has been read when the first event is sent -/
theorem reader_first {E : Env} {src : Src} {closed : Bool} {r : Unit} {s : RState} (h : readThread E (start src closed) = .ok (r, s)) {ev : Event} {es : List Event}
    (he : s.events = ev :: es) : ev.inTotal = 0 := by
  have hst : readThread E (start src closed) = ((fun s => streamLoop E (s.inp.size + 2) s : Go RState Unit) >>= fun _ => finishThread) (start src closed) := by
    unfold readThread
    exact Go.bind_ok (Go.modify_apply _ _)
  obtain ⟨_, s1, e1, e2⟩ := Go.bind_eq_ok.1 (hst.symm.trans h)
  have h3 : s.events = s1.events := Keeps.bind noEv_flow.toPre (noEv_flow.onInp fun _ i a i' e => by cases e; exact steady_of rfl rfl (Nat.le_refl _)) (fun _ => noEv_propagate _) _ _ _ e2
  rw [h3] at he
  have e1 : streamLoop E ((start src closed).inp.size + 2) (start src closed) = .ok ((), s1) := e1
  unfold streamLoop at e1
  split at e1
  · rcases hx : readStream E (start src closed) with p | ⟨b, s2⟩
    · rw [hx] at e1; cases e1
    · rw [hx] at e1
      rcases stream_first hx with ⟨k1, rfl⟩ | ⟨ev', es', k1, k2⟩
      · cases e1
        rw [k1] at he; cases he
      · have k1 : s2.events = ev' :: es' := k1
        have : ∃ m, s1.events = ev' :: m := by
          cases b with
          | false => cases e1; exact ⟨_, k1⟩
          | true =>
            obtain ⟨m, h4, _⟩ := emits_loop E _ _ _ _ e1
            exact ⟨es' ++ m, by rw [h4, k1]; rfl⟩
        obtain ⟨m, hm⟩ := this
        rw [hm] at he
        cases he
        exact k2
  · cases e1; cases he

/-! ### C108 -/

theorem head_about {A : List EvKind} (h : ∀ k ∈ A, AboutBlock k) : EvKind.streamBegin ∉ A := fun x => h _ x

/-- the events of one stream, taken apart -/
theorem stream_parts {ks : List EvKind} (h : StreamTrace ks) :
    ∃ hd A a b, ks = .streamBegin :: .streamHeader hd :: (A ++ [.streamEnd a b, .streamClose]) ∧ ∀ k ∈ A, AboutBlock k := by
  cases h with
  | mk hd blocks last a b h1 h2 =>
    refine ⟨hd, blocks.flatten ++ last, a, b, by simp, fun k hk => ?_⟩
    rcases List.mem_append.1 hk with hk | hk
    · obtain ⟨x, hx, hk⟩ := List.mem_flatten.1 hk
      exact (blockTrace_about (h1 x hx)).1 k hk
    · exact (blockTrace_about h2).1 k hk

theorem map_two {α β : Type} {f : α → β} {l : List α} {x y : β} {r : List β} (h : l.map f = x :: y :: r) : ∃ a b m, l = a :: b :: m ∧ f a = x ∧ f b = y ∧ m.map f = r := by
  obtain ⟨a, l1, rfl, h1, h2⟩ := List.map_eq_cons_iff.1 h
  obtain ⟨b, l2, rfl, h3, h4⟩ := List.map_eq_cons_iff.1 h2
  exact ⟨a, b, l2, rfl, h1, h3, h4⟩

/-- after `Close` all data has been consumed -/
theorem closed_total {c : Setup} (hc : c.OK) {ops : List WOp} (hcl : WOp.close ∉ ops) {rs : List WRes} {t : WState} (h : c.Runs (ops ++ [.close]) rs t) (hn : NoErr rs) :
    t.inTotal = (writtenData ops).length := by
  obtain ⟨es, k, hh, cl, _, hk⟩ := run_close hc.lawful (hc.live _) (hc.any True) (fun _ _ _ => trivial) hcl h hn
  have h1 := hh.tin
  rw [cl.buf, hc.fresh.buf, hk, offered_eq] at h1
  have h2 : c.start.inTotal = 0 := rfl
  rw [h2] at h1
  simpa using h1

/-- **C108.** One stream is written without an error and closed, and read by a suitable Reader: after StreamBegin and StreamHeader, the tracers of both are sent the same events `ks`
(kinds, block types, final marks, code lengths, checksums), and the headers end with the same byte of the file. -/
theorem C108_story {c : Setup} (hc : c.OK) {ops : List WOp} (hops : ∀ op ∈ ops, Continues op) {rs : List WRes} {t : WState} (h : c.Runs (ops ++ [.close]) rs t) (hn : NoErr rs) (h0 : c.sink.out = [])
    {d : RSetup} (hd : d.OK) (hS : Suits c d) {src : Src} (hsrc : src.bytes = t.sink.out) :
    ∃ (s : RState) (hW hR : Header) (ks : List EvKind), d.Runs src s ∧
      (t.events.map fun p => p.ev.kind) = .streamBegin :: .streamHeader hW :: ks ∧ evKinds s = .streamBegin :: .streamHeader hR :: ks ∧
      ∀ e ∈ (t.events.map (·.ev))[1]?, ∀ e' ∈ s.events[1]?, e.outTotal = e'.inTotal ∧ e.format = e'.format := by
  have hcl := continues_close hops
  -- the Reader's run
  obtain ⟨bytes, ho, hst⟩ := C02_conforming hc hcl h hn
  rw [segs_single hops] at hst
  rw [h0, List.nil_append] at ho
  have hstream : d.Stream (container c.o.format) src.bytes (writtenData ops) := by rw [hsrc, ho]; exact hS.stream (streamsOf_single hst)
  have ht : d.Takes (container c.o.format) src := Or.inl hS.format
  obtain ⟨s, ds, it, hr, _, _, hv, _, hdata, _, hks⟩ := read_stream hd ht.det hstream rfl
  have hr' : readThread (d.envStop fun _ => none) (start src false) = .ok ((), s) := hr
  obtain ⟨_, _, bks', a', x', hbt, ha', hx', hk2⟩ := hv
  have htr' := StreamEvents.trace (⟨bks', a', x', hbt, ha', hx', hk2⟩ : StreamEvents it.h it.data it.ks)
  obtain ⟨hR, A', a2, b2, q1, q2⟩ := stream_parts htr'
  -- the Writer's events
  obtain ⟨hW, A, a, b, p1, p2⟩ := stream_parts (C107_single hc hops h hn)
  have p1' : (t.events.map (·.ev)).map (·.kind) = .streamBegin :: .streamHeader hW :: (A ++ [.streamEnd a b, .streamClose]) := by
    rw [List.map_map]; exact p1
  obtain ⟨w0, w1, w, hw, hw0, hw1, hw2⟩ := map_two p1'
  have q1' : s.events.map (·.kind) = .streamBegin :: .streamHeader hR :: (A' ++ [.streamEnd a2 b2, .streamClose]) := by rw [← q1, ← hks]; rfl
  obtain ⟨r0, r1, r, hr0, hrk0, hrk1, hr2⟩ := map_two q1'
  -- the same start
  obtain ⟨z1, z1'⟩ := first_event hc h hn hw
  have z2 := reader_first hr' hr0
  obtain ⟨v0, v1, vm, hv0, rfl, hv1', hv2⟩ : ∃ v0 v1 vm, t.events = v0 :: v1 :: vm ∧ v0.ev = w0 ∧ v1.ev = w1 ∧ vm.map (·.ev) = w := map_two hw
  subst hv1'
  have z3 := (C35_perStream hc h (l := []) (m := []) (r := vm) hv0 hw0 (by simp) (by rw [hw1]; simp)).2.2.2
  have z4 := (C35_reader_perStream hr' (l := []) (m := []) (r := r) hr0 hrk0 (by simp) (by rw [hrk1]; simp)).2.2.1
  have fW : v1.ev.format = c.o.format := ((C35_output hc h).1 v1 (by rw [hv0]; simp)).2
  have fR : r1.format = v1.ev.format := by
    obtain ⟨_, _, k, k1, k2, _⟩ := C59_header hd hr' (e := r1) (by rw [hr0]; simp) hrk1
    have hf := hS.format
    have hnd := hc.full.format
    rcases k2 with k2 | k2
    · exfalso
      rw [k2] at hf
      cases hcf : container c.o.format <;> rw [hcf] at hf <;> cases hf
    · rw [fW, ← k2, hf]
      cases hcf : c.o.format with
      | default => exact absurd hcf hnd
      | _ => rfl
  have hs : SameStart v1.ev r1 := ⟨fR.symm, by omega⟩
  obtain ⟨g0, ks, ks', aa, bb, aa', bb', rest, rest', g1, g2, g3, g4, g5, g6⟩ := C106_blocks hc hcl h hn h0 hd hS.lib (by rw [hsrc]; exact List.prefix_refl _) hr'
    (l := [v0.ev]) (r := w) (e := v1.ev) hw hw1 (l' := [r0]) (r' := r) (e' := r1) hr0 hrk1 hs
  obtain ⟨e1, rfl, rfl, e2⟩ := about_split p2 g3 (hw2.symm.trans g1)
  obtain ⟨e3, rfl, rfl, e4⟩ := about_split q2 g4 (hr2.symm.trans g2)
  obtain ⟨bl, last, b1, b2', rfl⟩ := hbt
  obtain ⟨_, pre, ty, hlast⟩ := blockTrace_about b2'
  obtain ⟨hA', hfoot⟩ : A' = bl.flatten ++ last ∧ a2 = a' ∧ b2 = x' := by
    rw [q1] at hk2
    simp only [endEvents, List.cons_append, List.nil_append, List.append_assoc] at hk2
    have hk3 : A' ++ .streamEnd a2 b2 :: [.streamClose] = (bl.flatten ++ last) ++ .streamEnd a' x' :: [.streamClose] := by
      simpa using (List.cons.inj (List.cons.inj hk2).2).2
    have := about_split q2 (fun k hk => by
      rcases List.mem_append.1 hk with hk | hk
      · obtain ⟨x, hx, hk⟩ := List.mem_flatten.1 hk
        exact (blockTrace_about (b1 x hx)).1 k hk
      · exact (blockTrace_about b2').1 k hk) hk3
    exact ⟨this.1, this.2.1, this.2.2.1⟩
  have hAA : A' = A := by
    have := g6 ty (by rw [← e3, hA', hlast]; simp)
    rw [e3, this, ← e1]
  subst hAA
  -- the checksums
  have hsum : a = a2 ∧ b = b2 := by
    obtain ⟨wa, wz, hwz, hwaA, hwe⟩ := List.map_eq_append_iff.1 hw2
    obtain ⟨x, y, m, hwm, hxk, hyk, hm⟩ := map_two hwe
    obtain rfl := List.map_eq_nil_iff.1 hm
    have hin := last_event hc h hn (by simp) (l := v0.ev :: v1.ev :: wa) (e := x) (f := y) (by rw [hw, hwz, hwm]; rfl) hyk
    rw [closed_total hc hcl h hn] at hin
    obtain ⟨va, vz, hva, hvb, hvc⟩ := List.map_eq_append_iff.1 (hv2.trans (by rw [hwz, hwm]))
    obtain ⟨px, py, pm, hvz, hpx, hpy, hpm⟩ := map_two hvc
    have hev : t.events = [] ++ v0 :: ((v1 :: va) ++ px :: py :: pm) := by rw [hv0, hva, hvz]; simp
    have hmem : px ∈ t.events := by rw [hev]; simp
    have hno : ∀ q ∈ v1 :: va, q.ev.kind ≠ .streamBegin := by
      intro q hq hk
      rcases List.mem_cons.1 hq with rfl | hq
      · rw [hw1] at hk; cases hk
      · have hqa : q.ev.kind ∈ A' := by
          rw [← hwaA, ← hvb]
          exact List.mem_map.2 ⟨q.ev, List.mem_map.2 ⟨q, hq, rfl⟩, rfl⟩
        exact absurd hk (fun hk => p2 _ hqa |> fun hab => by rw [hk] at hab; exact hab)
    have z5 := (C35_perStream hc h hev hw0 hno (by rw [hpx, hxk]; simp)).2.2.1
    obtain ⟨_, _, s3, s4⟩ := C53_footer hc h hmem (a := a) (x := b) (by rw [hpx, hxk])
    have hlen : px.ev.inTotal = (writtenData ops).length := by rw [hpx]; exact hin
    have hwd : writtenData (ops ++ [.close]) = writtenData ops := by simp [writtenData]
    have hsub : px.ev.inTotal - px.ev.inStream = 0 := by omega
    rw [hsub, hwd, hlen, List.take_length, List.drop_zero] at s3 s4
    refine ⟨?_, ?_⟩
    · apply BitVec.eq_of_toNat_eq
      rw [s3, hfoot.1, ha', hdata]
    · rw [s4, hfoot.2, hx', hdata]
  obtain ⟨rfl, rfl⟩ := hsum
  refine ⟨s, hW, hR, _, hr, p1, by rw [← q1, ← hks]; rfl, ?_⟩
  rw [hw, hr0]
  intro e he e' he'
  simp only [List.getElem?_cons_succ, List.getElem?_cons_zero, Option.mem_def, Option.some.injEq] at he he'
  subst he he'
  exact ⟨g0, fR.symm⟩

/-! ### a case -/

def storyOps : List WOp := [.write [97, 97, 97, 97, 98], .flush .partialFlush, .write [97, 97, 97], .flush .syncFlush]

/-- the kinds of events which both have been sent after StreamHeader, in short -/
def shortKind : EvKind → Nat × Nat × Nat
  | .streamBegin => (0, 0, 0)
  | .streamHeader _ => (1, 0, 0)
  | .blockBegin _ f => (2, 0, if f then 1 else 0)
  | .blockTrees _ _ tr => (3, tr.llCount, tr.dCount)
  | .blockEnd _ f => (4, 0, if f then 1 else 0)
  | .streamEnd a b => (5, a.toNat, b.toNat)
  | .streamClose => (6, 0, 0)

/-- a history of which `C108_story` speaks -/
example : ∃ rs t, (demo [.format .zlib, .mlevel 1]).Runs (storyOps ++ [.close]) rs t ∧ NoErr rs ∧ (∀ op ∈ storyOps, Continues op) ∧ (demo [.format .zlib, .mlevel 1]).sink.out = [] ∧
    Suits (demo [.format .zlib, .mlevel 1]) (rdemo [.format .zlib]) := by
  obtain ⟨rs, t, h1, h2⟩ := (demo_ok (opts := [.format .zlib, .mlevel 1]) (by decide)).run_close_ok (ops := storyOps) (Or.inr (by decide)) (demo_sink _) (by simp [storyOps])
  exact ⟨rs, t, h1, h2, by simp [storyOps, Continues], rfl, ⟨rfl, by decide, by decide, by decide⟩⟩

/-- what its tracers and those of the Reader are told -/
def storyBoth : Option (List (Nat × Nat × Nat) × List (Nat × Nat × Nat)) :=
  match runOps refLib (storyOps ++ [.close]) (demo [.format .zlib, .mlevel 1]).start with
  | .ok (_, t) => (match readThread (rdemo [.format .zlib]).env (start (inTwo t.sink.out) false) with
    | .ok (_, s) => some (t.events.map fun p => shortKind p.ev.kind, (evKinds s).map shortKind)
    | .error _ => none)
  | .error _ => none

example : storyBoth.map (fun p => decide (p.1 = p.2) && decide (p.1.length > 10)) = some true := by decide +kernel

end Flate.Props
