/-
C74: Writers (and Readers) do not disturb each other, although they share the package's pools.
-/
import Verif.Proof.PoolW
import Verif.Props.WriterOutput

namespace Flate.Props
open Flate Flate.Model Flate.Model.Pool Flate.Spec Flate.Proof Flate.Proof.Pool

/-- what a goroutine of the program does -/
inductive Job (ρ : Type) where
  /-- it makes the calls `ops` of a Writer of its own, whose memory is `s` -/
  | writer (L : HuffLib) (ops : List WOp) (s : WState)
  /-- something else -/
  | other (p : Prog ρ)

/-- its result -/
inductive JobRes (ρ : Type) where
  | writer (r : Except Panic (List WRes × WState))
  | other (x : ρ)

def Job.prog {ρ : Type} : Job ρ → Prog (JobRes ρ)
  | .writer L ops s => (runOpsP L ops s).bind fun r => .done (.writer r)
  | .other p => p.bind fun x => .done (.other x)

/-- a program which, if it runs alone, only uses memory from the pools while it has it (between Get and Put), and puts it back empty: what every user of a
shared pool has to do.  (With any addresses which `Get` may return.) -/
def Careful {ρ : Type} (p : Prog ρ) : Prop := wp p (fun _ => none) fun _ _ => True

/-- all goroutines at their start -/
def begin {ρ : Type} (jobs : List (Job ρ)) : Sys (JobRes ρ) := { procs := jobs.map Job.prog }

theorem begin_inv {ρ : Type} {jobs : List (Job ρ)} (h : ∀ p, .other p ∈ jobs → Careful p) :
    Inv (fun i b _ => ∀ L ops s, jobs[i]? = some (.writer L ops s) → b = .writer (runOps L ops s)) (begin jobs) (fun _ _ => none) := by
  refine Inv.start fun i P hi => ?_
  rw [List.getElem?_map] at hi
  obtain ⟨j, hj, rfl⟩ := Option.map_eq_some_iff.1 hi
  cases j with
  | writer L ops s =>
    refine wp_bind _ _ (wp_mono ?_ _ (runOpsP_tri L (fun _ => none) ops s))
    rintro r m ⟨rfl, -⟩ L' ops' s' e
    rw [hj] at e; cases e; rfl
  | other p =>
    refine wp_bind _ _ (wp_mono ?_ _ (h p (List.mem_of_getElem? hj)))
    intro b m _ L' ops' s' e
    rw [hj] at e; cases e

/-- C74: whatever Writers other goroutines use at the same time, and however their steps interleave: a goroutine which has made its calls has got the results, and
its Writer is in the state and has written what `Model/Writer` says for these calls alone. -/
theorem C74_independent {ρ : Type} {jobs : List (Job ρ)} (h : ∀ p, .other p ∈ jobs → Careful p) {t : Sys (JobRes ρ)} (ht : Steps (begin jobs) t)
    {i : Nat} {L : HuffLib} {ops : List WOp} {s : WState} (hi : jobs[i]? = some (.writer L ops s)) {b : JobRes ρ} (hb : t.procs[i]? = some (.done b)) :
    b = .writer (runOps L ops s) := by
  obtain ⟨own, hv⟩ := (begin_inv h).steps ht
  exact hv.prog i _ hb L ops s hi

/-- C74: so a Writer's history is one of a Writer used alone, for which all other theorems hold -/
theorem C74_runs {ρ : Type} {jobs : List (Job ρ)} (h : ∀ p, .other p ∈ jobs → Careful p) {t : Sys (JobRes ρ)} (ht : Steps (begin jobs) t)
    {i : Nat} {c : Setup} {ops : List WOp} (hi : jobs[i]? = some (.writer c.L ops c.start)) {rs : List WRes} {w : WState}
    (hb : t.procs[i]? = some (.done (.writer (.ok (rs, w))))) : c.Runs ops rs w := by
  have := C74_independent h ht hi hb
  injection this with this
  exact this.symm

/-- C74: for example, what it has written after a successful Close is a conforming stream of its own data -/
theorem C74_conforming {ρ : Type} {jobs : List (Job ρ)} (h : ∀ p, .other p ∈ jobs → Careful p) {t : Sys (JobRes ρ)} (ht : Steps (begin jobs) t)
    {i : Nat} {c : Setup} (hc : c.OK) {ops : List WOp} (hcl : WOp.close ∉ ops) (hi : jobs[i]? = some (.writer c.L (ops ++ [.close]) c.start)) {rs : List WRes} {w : WState}
    (hb : t.procs[i]? = some (.done (.writer (.ok (rs, w))))) (he : NoErr rs) :
    ∃ bytes, w.sink.out = c.sink.out ++ bytes ∧
      StreamsOf (Stream c.ok (2 ^ c.o.wbits) c.o.dict (container c.o.format)) bytes (segsOf (ops ++ [.close])).done :=
  C02_conforming hc hcl (C74_runs h ht hi hb) he

/-- C74: nobody waits for anybody: a goroutine can always go on to its end, without any step of the others -/
theorem C74_finish {ρ : Type} {jobs : List (Job ρ)} {t : Sys (JobRes ρ)} (ht : Steps (begin jobs) t) {i : Nat} (hi : i < jobs.length) :
    ∃ u b, Steps t u ∧ u.procs[i]? = some (.done b) ∧ ∀ j, j ≠ i → u.procs[j]? = t.procs[j]? := by
  have hlen : t.procs.length = jobs.length := by
    have : ∀ {s t : Sys (JobRes ρ)}, Steps s t → t.procs.length = s.procs.length := by
      intro s t h
      induction h with
      | refl => rfl
      | step _ hs ih =>
        rw [← ih]
        cases hs <;> simp
    rw [this ht, begin, List.length_map]
  have hi' : i < t.procs.length := hlen ▸ hi
  obtain ⟨u, b, hu, hb⟩ := finish (t.procs[i]) (s := t) (i := i) (List.getElem?_eq_getElem hi')
  exact ⟨u, b, hu, by rw [hb, List.getElem?_set_self hi'], fun j hj => by rw [hb, List.getElem?_set_ne (Ne.symm hj)]⟩

/-- a Reader is careful with the buffer in which it collects names and comments -/
theorem C74_reader_careful {σ : Type} (next : Go σ (Option UInt8)) (fuel : Nat) (s : σ) : Careful (readStringZP next fuel s) :=
  wp_mono (fun _ _ _ => trivial) _ (readStringZP_tri next fuel (fun _ => none) s)

/-- C74: and it gets the bytes of its own input up to the zero byte, whatever the others do -/
theorem C74_reader {σ : Type} {jobs : List (Job (Except Panic ((List UInt8 × Bool) × σ)))} (h : ∀ p, .other p ∈ jobs → Careful p) {t : Sys _} (ht : Steps (begin jobs) t)
    {i : Nat} {next : Go σ (Option UInt8)} {fuel : Nat} {s : σ} (hi : jobs[i]? = some (.other (readStringZP next fuel s))) {b : JobRes _} (hb : t.procs[i]? = some (.done b)) :
    b = .other (readStringZ next fuel [] s) := by
  have hv : Inv (fun j b _ => j = i → b = .other (readStringZ next fuel [] s)) (begin jobs) (fun _ _ => none) := by
    refine Inv.start fun j P hj => ?_
    rw [List.getElem?_map] at hj
    obtain ⟨x, hx, rfl⟩ := Option.map_eq_some_iff.1 hj
    by_cases e : j = i
    · subst e
      rw [hi] at hx; cases hx
      refine wp_bind _ _ (wp_mono ?_ _ (readStringZP_tri next fuel (fun _ => none) s))
      rintro r m ⟨rfl, -⟩ -
      rfl
    · cases x with
      | writer L ops s =>
        exact wp_bind _ _ (wp_mono (fun _ _ _ e' => absurd e' e) _ (runOpsP_tri L (fun _ => none) ops s))
      | other p => exact wp_bind _ _ (wp_mono (fun _ _ _ e' => absurd e' e) _ (h p (List.mem_of_getElem? hx)))
  obtain ⟨own, hv⟩ := hv.steps ht
  exact hv.prog i _ hb rfl

/-! ### the model can tell: careless programs are disturbed -/

/-- it gives its slice back before it has finished with it -/
def hasty (x : Token) : Prog (List Token) := .get .tokens fun p => .store p (.tokens [x]) (.put .tokens p (.load p fun c => .done c.toks))

/-- it does not empty the slice before it gives it back -/
def untidy (x : Token) : Prog (List Token) := .get .tokens fun p => .store p (.tokens [x]) (.load p fun c => .put .tokens p (.done c.toks))

/-- it relies on an empty slice -/
def trusting : Prog (List Token) := .get .tokens fun p => .load p fun c => .put .tokens p (.done c.toks)

theorem hasty_not_careful (x : Token) : ¬ Careful (hasty x) := by
  intro h
  obtain ⟨_, -, h⟩ := h 0 rfl
  have := h.1
  simp [Kind.empty] at this

/-- a hasty goroutine reads another's tokens -/
example (x y : Token) : ∃ t, Steps (begin [.other (hasty x), .other (untidy y)]) t ∧ t.procs[0]? = some (.done (.other [y])) := by
  refine ⟨_, .step (.step (.step (.step (.step (.step .refl (.fresh (i := 0) (p := 0) rfl (by simp [begin]))) (.store (i := 0) rfl)) (.put (i := 0) rfl))
    (.reuse (i := 1) (p := 0) rfl (by simp))) (.store (i := 1) rfl)) (.load (i := 0) rfl), rfl⟩

/-- a trusting goroutine gets another's tokens -/
example (x : Token) : ∃ t, Steps (begin [.other (untidy x), .other trusting]) t ∧ t.procs[1]? = some (.done (.other [x])) := by
  refine ⟨_, .step (.step (.step (.step (.step (.step (.step .refl (.fresh (i := 0) (p := 0) rfl (by simp [begin]))) (.store (i := 0) rfl)) (.load (i := 0) rfl)) (.put (i := 0) rfl))
    (.reuse (i := 1) (p := 0) rfl (by simp))) (.load (i := 1) rfl)) (.put (i := 1) rfl), rfl⟩

/-- two Writers at the same time: a case in which the hypotheses of `C74_conforming` hold for both -/
example : ∃ (jobs : List (Job Unit)) (t : Sys (JobRes Unit)) (rs rs' : List WRes) (w w' : WState),
    jobs = [.writer refLib ([.write [1, 2, 3]] ++ [.close]) (demo [.format .zlib, .mlevel 1]).start, .writer refLib ([.write [7, 7, 7, 7], .flush .syncFlush] ++ [.close]) (demo [.format .gzip, .mlevel 1]).start] ∧
    Steps (begin jobs) t ∧ t.procs[0]? = some (.done (.writer (.ok (rs, w)))) ∧ t.procs[1]? = some (.done (.writer (.ok (rs', w')))) ∧ NoErr rs ∧ NoErr rs' := by
  obtain ⟨rs, w, h1, h2⟩ := (demo_ok (opts := [.format .zlib, .mlevel 1]) (by decide)).run_close_ok (Or.inr (by decide)) (demo_sink _) (ops := [.write [1, 2, 3]]) (by simp)
  obtain ⟨rs', w', h1', h2'⟩ := (demo_ok (opts := [.format .gzip, .mlevel 1]) (by decide)).run_close_ok (Or.inr (by decide)) (demo_sink _) (ops := [.write [7, 7, 7, 7], .flush .syncFlush]) (by simp)
  generalize hj : ([.writer refLib ([.write [1, 2, 3]] ++ [.close]) (demo [.format .zlib, .mlevel 1]).start, .writer refLib ([.write [7, 7, 7, 7], .flush .syncFlush] ++ [.close]) (demo [.format .gzip, .mlevel 1]).start] : List (Job Unit)) = jobs
  have hc : ∀ p, .other p ∈ jobs → Careful p := by subst hj; intro p hp; simp at hp
  obtain ⟨t, b, ht, hb, -⟩ := C74_finish (jobs := jobs) .refl (i := 0) (by subst hj; simp)
  obtain ⟨u, b', hu, hb', he⟩ := C74_finish (jobs := jobs) ht (i := 1) (by subst hj; simp)
  have hb2 := (he 0 (by decide)).trans hb
  have e0 := C74_independent hc (Steps.trans ht hu) (i := 0) (by rw [← hj]; rfl) hb2
  have e1 := C74_independent hc (Steps.trans ht hu) (i := 1) (by rw [← hj]; rfl) hb'
  rw [show runOps refLib _ _ = _ from h1] at e0
  rw [show runOps refLib _ _ = _ from h1'] at e1
  exact ⟨jobs, u, rs, rs', w, w', rfl, Steps.trans ht hu, e0 ▸ hb2, e1 ▸ hb', h2, h2'⟩

end Flate.Props
