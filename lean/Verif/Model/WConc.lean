/-
Model of the concurrent use of one Writer: the mutex `mu` of writer.go:46, and what is done outside of it.

Every exported method of Writer (writer.go:137-449) has the form
   checks of the arguments, which do not look at the Writer;  mu.Lock();  body;  mu.Unlock()
(Unlock deferred in Reset, Write, Flush and Close, writer.go:231, 371, 400, 426).  The body is not assumed to be atomic: it consists of any number of steps (`Micro`), between which other
callers may do whatever they can.  During the body, the underlying io.Writer and the tracers are called; these may call methods of the same Writer (`Lab.reenter`).
sync.Mutex is not reentrant.

Simplifications: a panic is the end of the program (`next` is `none`: there is no step).  Format(), Method(), ... are represented by one getter, which returns all options.
Not represented: Tracers(), UnderlyingWriter().
-/
import Verif.Model.WriterApi

namespace Flate.Model.WConc
open Flate.Spec Flate.Model

/-- The body of a method as a sequence of small steps.  `C`: calls, `R`: results, `S`: the memory protected by the mutex. -/
structure Micro (S C R : Type) where
  /-- where a caller is within the body, and its local variables -/
  K : Type
  start : C → K
  /-- one step: what is left to do, or the result -/
  next : K → S → Option ((K ⊕ R) × S)
  /-- the result of a call which returns without having locked the mutex -/
  early : C → Option R

section
variable {S C R : Type} (M : Micro S C R)

/-- what the body does if nobody interferes -/
inductive Micro.Goes : M.K → S → R → S → Prop
  | ret {k : M.K} {s s' : S} {r : R} : M.next k s = some (.inr r, s') → Goes k s r s'
  | step {k k' : M.K} {s s1 s' : S} {r : R} : M.next k s = some (.inl k', s1) → Goes k' s1 r s' → Goes k s r s'

/-- what a call does if nobody interferes -/
inductive Micro.Call (c : C) (s : S) : R → S → Prop
  | early {r : R} : M.early c = some r → Call c s r s
  | body {r : R} {s' : S} : M.early c = none → M.Goes (M.start c) s r s' → Call c s r s'

/-- where a caller is -/
inductive Pc where
  | idle
  /-- before `mu.Lock` -/
  | want (c : C)
  /-- in the body -/
  | body (c : C) (k : M.K)
  /-- before `mu.Unlock` -/
  | held
  /-- in the body of `c`, in a callback, which has called the method `c'` of the same Writer -/
  | nested (c : C) (k : M.K) (c' : C)

structure St where
  mem : S
  mu : Option Nat := none
  pcs : List (Pc M)
  /-- calls so far, in order, with the caller's number -/
  calls : List (Nat × C) := []
  /-- results so far, in the order in which they were determined -/
  log : List (Nat × C × R) := []

/-- what is done -/
inductive Lab where
  | call | early | lock | step | unlock | reenter
  deriving DecidableEq

inductive Step (s : St M) : Lab → St M → Prop
  | call {i : Nat} (c : C) : s.pcs[i]? = some .idle → Step s .call { s with pcs := s.pcs.set i (.want c), calls := s.calls ++ [(i, c)] }
  /-- SetHeader with an invalid header, writer.go:288-307 -/
  | early {i : Nat} {c : C} {r : R} : s.pcs[i]? = some (.want c) → M.early c = some r → Step s .early { s with pcs := s.pcs.set i .idle, log := s.log ++ [(i, c, r)] }
  | lock {i : Nat} {c : C} : s.pcs[i]? = some (.want c) → M.early c = none → s.mu = none → Step s .lock { s with pcs := s.pcs.set i (.body c (M.start c)), mu := some i }
  | step {i : Nat} {c : C} {k k' : M.K} {m : S} : s.pcs[i]? = some (.body c k) → M.next k s.mem = some (.inl k', m) → Step s .step { s with pcs := s.pcs.set i (.body c k'), mem := m }
  | ret {i : Nat} {c : C} {k : M.K} {r : R} {m : S} : s.pcs[i]? = some (.body c k) → M.next k s.mem = some (.inr r, m) →
      Step s .step { s with pcs := s.pcs.set i .held, mem := m, log := s.log ++ [(i, c, r)] }
  | unlock {i : Nat} : s.pcs[i]? = some .held → Step s .unlock { s with pcs := s.pcs.set i .idle, mu := none }
  /-- the underlying writer or a tracer calls a method -/
  | reenter {i : Nat} {c : C} {k : M.K} (c' : C) : s.pcs[i]? = some (.body c k) → Step s .reenter { s with pcs := s.pcs.set i (.nested c k c') }
  /-- ... which returns early -/
  | back {i : Nat} {c c' : C} {k : M.K} {r : R} : s.pcs[i]? = some (.nested c k c') → M.early c' = some r → Step s .reenter { s with pcs := s.pcs.set i (.body c k) }
  /-- ... or locks the mutex.  (Then the rest of the nested call would follow: it is not represented, since this step is never possible.) -/
  | lockAgain {i : Nat} {c c' : C} {k : M.K} : s.pcs[i]? = some (.nested c k c') → M.early c' = none → s.mu = none → Step s .reenter { s with mu := some i }

inductive Steps (P : Lab → Prop) (s : St M) : St M → Prop
  | refl : Steps P s s
  | step {t u : St M} {l : Lab} : Steps P s t → Step M t l u → P l → Steps P s u

/-- `n` callers, nobody has called yet -/
def initial (mem : S) (n : Nat) : St M := { mem := mem, pcs := List.replicate n .idle }

/-- callbacks do not call methods of the Writer -/
def NoReenter (l : Lab) : Prop := l ≠ .reenter

end

/-! ### the Writer -/

/-- methods of Writer -/
inductive Meth where
  | op (o : WOp)
  /-- writer.go:224 -/
  | reset (w : Sink) (opts : List Opt)
  /-- writer.go:137-193 -/
  | options

inductive MRes where
  | op (r : WRes)
  | reset
  | options (o : Options)

/-- a call, if nobody interferes -/
def method (L : HuffLib) : Meth → Go WState MRes
  | .op o => fun s => match stepOp L o s with
    | .error e => .error e
    | .ok (r, s) => .ok (.op r, s)
  | .reset w opts => fun s => match wReset w opts s with
    | .error e => .error e
    | .ok (_, s) => .ok (.reset, s)
  | .options => fun s => .ok (.options s.o, s)

/-- a sequence of calls -/
def methods (L : HuffLib) : List Meth → Go WState (List MRes)
  | [] => fun s => .ok ([], s)
  | c :: cs => fun s => match method L c s with
    | .error e => .error e
    | .ok (r, s) => match methods L cs s with
      | .error e => .error e
      | .ok (rs, s) => .ok (r :: rs, s)

/-- writer.go:288-307: SetHeader locks the mutex only if there are no complaints -/
def early : Meth → Option MRes
  | .op (.setHeader h) => if headerOK h then none else some (.op (.header false))
  | _ => none

/-- where a caller is: in the loop of `Write` (writer.go:381-391), with `p` still to be written of `n` bytes, or elsewhere -/
inductive WK where
  | enter (c : Meth)
  | loop (fuel : Nat) (p : List UInt8) (n : Nat)

/-- One body step: an iteration of the loop of `Write`, or all of another body. -/
def wNext (L : HuffLib) : WK → WState → Option ((WK ⊕ MRes) × WState)
  | .enter (.op (.write p)), s =>
    if s.state = .closed then some (.inr (.op (.write 0 (some .closed))), s)
    else if s.state = .error then some (.inr (.op (.write 0 s.err)), s)
    else some (.inl (.loop (2 * p.length + 2) p p.length), s)
  | .enter c, s => match method L c s with
    | .error _ => none
    | .ok (r, s) => some (.inr r, s)
  | .loop 0 _ _, _ => none
  | .loop (fuel + 1) p n, s =>
    if p = [] then some (.inr (.op (.write n none)), s)
    else
      let (nn, z) := s.lz.write p
      let consumeAll := (nn == 0) || decide (nn < p.length)
      match compressImpl L consumeAll { s with lz := z } with
      | .error _ => none
      | .ok (false, s) => some (.inr (.op (.write 0 s.err)), s)
      | .ok (true, s) => some (.inl (.loop fuel (p.drop nn) n), s)

/-- a Writer with the body of `Write` in several steps -/
def writerMicro (L : HuffLib) : Micro WState Meth MRes := ⟨WK, .enter, wNext L, early⟩

end Flate.Model.WConc
