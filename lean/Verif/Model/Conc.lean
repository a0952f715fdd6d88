/-
Model of the concurrent side of reader.go: the goroutine `readThread`, any number of callers of `Read`, `Close`, `Reset` and the getters, the two mutexes
and the two condition variables.

A step is the work of one goroutine between two synchronisation operations: it acquires a mutex, or it does what it does while holding
one and releases it.  What is done to the fields protected by a mutex while it is held cannot be observed by others, so nothing is lost by
treating it as one step.  Which of several waiting callers a `Signal` wakes is left open; there are no spurious wake-ups
(sync.Cond: "Wait cannot return unless awoken by Broadcast or Signal").

What the goroutine does between the synchronisation operations is the subject of Model/Reader.lean; here it is reduced to the list of its actions:
flushes of decodeBuffer (`Act.data`, reader.go:1309-1348) and errors reported (`Act.err`, reader.go:1372-1383).  The underlying io.Reader and
the tracers are called while mu1 is held; they are assumed to return.
-/
import Verif.Model.Reader

namespace Flate.Model.Conc
open Flate.Model.Rd

/-- holder of a mutex -/
inductive Who where
  | thread
  | client (i : Nat)
  deriving DecidableEq, Repr

/-- where the goroutine is -/
inductive TPc where
  /-- not started, or ended (but for wg.Done) -/
  | absent
  /-- reader.go:328, before `mu1.Lock` -/
  | entry
  /-- decompressing, with mu1 held -/
  | run
  /-- reader.go:1378, in `closeWithError`, with mu1 and mu2 held -/
  | errHeld (e : Err)
  /-- reader.go:1318, `p` is in decodeBuffer; mu1 has been released, before `mu2.Lock` -/
  | fl1 (p : List UInt8)
  /-- reader.go:1319, mu2 held -/
  | fl2 (p : List UInt8)
  /-- reader.go:1320, in `cv2.Wait` -/
  | flWait (p : List UInt8)
  /-- still in `cv2.Wait`, awoken, before it locks mu2 -/
  | flWoken (p : List UInt8)
  /-- reader.go:1323, before `mu1.Lock` -/
  | fl3 (p : List UInt8)
  /-- reader.go:1325, mu1 held -/
  | fl4 (p : List UInt8)
  /-- reader.go:1333, mu1 and mu2 held -/
  | fl5 (p : List UInt8)
  deriving DecidableEq

/-- where a caller is -/
inductive CPc where
  | idle
  /-- `Read` of a slice of length `n`: reader.go:300, before `mu1.Lock` -/
  | rd0 (n : Nat)
  /-- reader.go:301, mu1 held -/
  | rd1 (n : Nat)
  /-- reader.go:260, before `mu2.Lock` -/
  | rd2 (n : Nat)
  /-- reader.go:263, mu2 held -/
  | rd3 (n : Nat)
  /-- reader.go:266, in `cv1.Wait` -/
  | rdWait (n : Nat)
  /-- still in `cv1.Wait`, awoken, before it locks mu2 -/
  | rdWoken (n : Nat)
  /-- reader.go:265, mu2 held -/
  | rd4 (n : Nat)
  /-- `Close`: reader.go:293, before `mu1.Lock` -/
  | cl0
  /-- reader.go:310, mu1 held, before `mu2.Lock` if the goroutine runs -/
  | cl1
  /-- reader.go:312, mu1 and mu2 held -/
  | cl3
  /-- reader.go:322, in `wg.Wait` -/
  | cl4
  /-- reader.go:323, before `mu1.Lock` -/
  | cl5
  /-- reader.go:295, mu1 held -/
  | cl6
  /-- `Reset` to a source which makes the goroutine do `script`: reader.go:199, before `mu1.Lock` -/
  | rs0 (script : List Act)
  /-- reader.go:202, mu1 held, before `mu2.Lock` -/
  | rs1 (script : List Act)
  /-- reader.go:205, mu1 and mu2 held -/
  | rs2 (script : List Act)
  /-- `Format`, `MemoryLevel`, `WindowBits`, `Dict` or `Tracers`: reader.go:139, 147, 155, 165, 177, before `mu1.Lock` -/
  | gt0
  /-- reader.go:140, 148, 156, 166-169, 178-181, mu1 held -/
  | gt1
  /-- `UnderlyingReader`: reader.go:188; no mutex is locked -/
  | ur
  deriving DecidableEq

/-- results of calls -/
inductive Res where
  | read (p : List UInt8) (e : Option Err)
  | closed
  | reset (script : List Act)
  /-- a getter returns (what it returns is the subject of Props/Accessors.lean) -/
  | got
  deriving DecidableEq

/-- reader.go:36-87, as far as synchronisation is concerned -/
structure St where
  /-- capacity of outputBuffer -/
  cap : Nat
  mu1 : Option Who := none
  mu2 : Option Who := none
  started : Bool := false
  stopped : Bool := false
  errSet : Bool := false
  forced : Bool := false
  outErr : Option Err := none
  buf : List UInt8 := []
  /-- counter of `wg` -/
  wg : Nat := 0
  /-- goroutines which have yet to call wg.Done, and nothing else -/
  zomb : Nat := 0
  th : TPc := .absent
  /-- what the goroutine has still to do (all of `script` before it is started) -/
  acts : List Act
  cls : List CPc
  /-- what the goroutine does altogether, for this source -/
  script : List Act
  /-- results of the calls so far, in the order in which they took effect, with the caller's number -/
  log : List (Nat × Res) := []
  deriving DecidableEq

/-- a Reader as made by `NewReader`, with `n` callers -/
def initial (cap : Nat) (script : List Act) (n : Nat) : St :=
  { cap := cap, acts := script, script := script, cls := List.replicate n .idle }

/-- effect of `cv2.Signal` and `cv2.Broadcast` (only the goroutine waits for cv2) -/
def wakeT : TPc → TPc
  | .flWait p => .flWoken p
  | t => t

/-- effect of `cv1.Broadcast` on a caller -/
def wakeC : CPc → CPc
  | .rdWait n => .rdWoken n
  | c => c

def St.setC (s : St) (i : Nat) (c : CPc) : St := { s with cls := s.cls.set i c }

/-- `cv1.Signal`: if somebody waits, one of those who wait is awoken -/
inductive Signal1 : List CPc → List CPc → Prop
  | nobody {cs : List CPc} : (∀ j n : Nat, cs[j]? ≠ some (CPc.rdWait n)) → Signal1 cs cs
  | one {cs : List CPc} {j n : Nat} : cs[j]? = some (.rdWait n) → Signal1 cs (cs.set j (.rdWoken n))

/-- what is done -/
inductive Lab where
  /-- a caller calls -/
  | callRead (i n : Nat)
  | callClose (i : Nat)
  | callReset (i : Nat) (script : List Act)
  /-- of one of the getters which lock mu1 -/
  | callGet (i : Nat)
  /-- of `UnderlyingReader` -/
  | callUnder (i : Nat)
  /-- a caller continues -/
  | client (i : Nat)
  /-- the goroutine continues -/
  | thread
  /-- wg.Done of a goroutine which has ended -/
  | done
  deriving DecidableEq

/-- not a call of `Reset` -/
def NoReset : Lab → Prop
  | .callReset _ _ => False
  | _ => True

/-- not a call -/
def Internal : Lab → Prop
  | .callRead _ _ | .callClose _ | .callReset _ _ | .callGet _ | .callUnder _ => False
  | _ => True

/-- only calls of `Read` and of the getters: neither `Close` nor `Reset` -/
def ReadOnly : Lab → Prop
  | .callClose _ | .callReset _ _ => False
  | _ => True

/-- contract of `outputBuffer.Read(p)`, for a non-empty buffer and `len(p) = n`: something is read, if there is space -/
def Reads (n : Nat) (buf p rest : List UInt8) : Prop := buf = p ++ rest ∧ p.length ≤ n ∧ (0 < n → p ≠ [])

/-- `Read` returns: reader.go:270-283.  (mu2 is released.) -/
inductive Finish (s : St) (i n : Nat) : St → Prop
  | error : s.buf = [] →
      Finish s i n { s.setC i .idle with mu2 := none, log := s.log ++ [(i, .read [] s.outErr)] }
  | all {p : List UInt8} : s.buf ≠ [] → Reads n s.buf p [] →
      Finish s i n { s.setC i .idle with mu2 := none, buf := [], th := wakeT s.th, log := s.log ++ [(i, .read p none)] }
  | some {p rest : List UInt8} {cs : List CPc} : s.buf ≠ [] → Reads n s.buf p rest → rest ≠ [] → Signal1 (s.cls.set i .idle) cs →
      Finish s i n { s with mu2 := none, buf := rest, cls := cs, log := s.log ++ [(i, .read p none)] }

/-- The steps. -/
inductive Step (s : St) : Lab → St → Prop
  /- calls -/
  | callRead {i : Nat} (n : Nat) : s.cls[i]? = some .idle → Step s (.callRead i n) (s.setC i (.rd0 n))
  | callClose {i : Nat} : s.cls[i]? = some .idle → Step s (.callClose i) (s.setC i .cl0)
  | callReset {i : Nat} (script : List Act) : s.cls[i]? = some .idle → Step s (.callReset i script) (s.setC i (.rs0 script))
  | callGet {i : Nat} : s.cls[i]? = some .idle → Step s (.callGet i) (s.setC i .gt0)
  | callUnder {i : Nat} : s.cls[i]? = some .idle → Step s (.callUnder i) (s.setC i .ur)
  /- Read -/
  /-- reader.go:300 -/
  | rd0 {i n : Nat} : s.cls[i]? = some (.rd0 n) → s.mu1 = none → Step s (.client i) { s.setC i (.rd1 n) with mu1 := some (.client i) }
  /-- reader.go:301-306 -/
  | rd1 {i n : Nat} : s.cls[i]? = some (.rd1 n) → s.started = true → Step s (.client i) { s.setC i (.rd2 n) with mu1 := none }
  | rd1go {i n : Nat} : s.cls[i]? = some (.rd1 n) → s.started = false →
      Step s (.client i) { s.setC i (.rd2 n) with mu1 := none, started := true, wg := s.wg + 1, th := .entry }
  /-- reader.go:260 -/
  | rd2 {i n : Nat} : s.cls[i]? = some (.rd2 n) → s.mu2 = none → Step s (.client i) { s.setC i (.rd3 n) with mu2 := some (.client i) }
  /-- reader.go:263-266 -/
  | rd3wait {i n : Nat} : s.cls[i]? = some (.rd3 n) → s.outErr = none → s.buf = [] →
      Step s (.client i) { s.setC i (.rdWait n) with mu2 := none, th := wakeT s.th }
  | rd3 {i n : Nat} {s' : St} : s.cls[i]? = some (.rd3 n) → ¬ (s.outErr = none ∧ s.buf = []) → Finish s i n s' → Step s (.client i) s'
  /-- the end of `cv1.Wait` -/
  | rdWoken {i n : Nat} : s.cls[i]? = some (.rdWoken n) → s.mu2 = none → Step s (.client i) { s.setC i (.rd4 n) with mu2 := some (.client i) }
  /-- reader.go:265-266 -/
  | rd4wait {i n : Nat} : s.cls[i]? = some (.rd4 n) → s.outErr = none → s.buf = [] →
      Step s (.client i) { s.setC i (.rdWait n) with mu2 := none }
  | rd4 {i n : Nat} {s' : St} : s.cls[i]? = some (.rd4 n) → ¬ (s.outErr = none ∧ s.buf = []) → Finish s i n s' → Step s (.client i) s'
  /- Close -/
  /-- reader.go:293 -/
  | cl0 {i : Nat} : s.cls[i]? = some .cl0 → s.mu1 = none → Step s (.client i) { s.setC i .cl1 with mu1 := some (.client i) }
  /-- reader.go:310, 295 -/
  | cl1ret {i : Nat} : s.cls[i]? = some .cl1 → ¬ (s.started = true ∧ s.stopped = false) →
      Step s (.client i) { s.setC i .idle with mu1 := none, log := s.log ++ [(i, .closed)] }
  /-- reader.go:310-311 -/
  | cl1 {i : Nat} : s.cls[i]? = some .cl1 → s.started = true → s.stopped = false → s.mu2 = none →
      Step s (.client i) { s.setC i .cl3 with mu2 := some (.client i) }
  /-- reader.go:312-321.  (Between `mu2.Unlock` and `mu1.Unlock` only fields protected by mu1 are set.) -/
  | cl3 {i : Nat} : s.cls[i]? = some .cl3 →
      Step s (.client i) { s with mu1 := none, mu2 := none, outErr := some .canceled, buf := [], errSet := true, forced := true, th := wakeT s.th, cls := (s.cls.set i .cl4).map wakeC }
  /-- reader.go:322 -/
  | cl4 {i : Nat} : s.cls[i]? = some .cl4 → s.wg = 0 → Step s (.client i) (s.setC i .cl5)
  /-- reader.go:323 -/
  | cl5 {i : Nat} : s.cls[i]? = some .cl5 → s.mu1 = none → Step s (.client i) { s.setC i .cl6 with mu1 := some (.client i) }
  /-- reader.go:295-296 -/
  | cl6 {i : Nat} : s.cls[i]? = some .cl6 → Step s (.client i) { s.setC i .idle with mu1 := none, log := s.log ++ [(i, .closed)] }
  /- Reset -/
  /-- reader.go:199 -/
  | rs0 {i : Nat} {sc : List Act} : s.cls[i]? = some (.rs0 sc) → s.mu1 = none → Step s (.client i) { s.setC i (.rs1 sc) with mu1 := some (.client i) }
  /-- reader.go:202 -/
  | rs1 {i : Nat} {sc : List Act} : s.cls[i]? = some (.rs1 sc) → s.mu2 = none → Step s (.client i) { s.setC i (.rs2 sc) with mu2 := some (.client i) }
  /-- reader.go:205-223, 199-203 (deferred), if the goroutine does not run.  If it does, `stopReadThreadLocked` attempts to lock mu2, which is
  held (reader.go:311): there is no step.  (Options, hence the capacity, are not changed here.) -/
  | rs2 {i : Nat} {sc : List Act} : s.cls[i]? = some (.rs2 sc) → ¬ (s.started = true ∧ s.stopped = false) →
      Step s (.client i) { s.setC i .idle with mu1 := none, mu2 := none, started := false, stopped := false, errSet := false, forced := false, outErr := none, buf := [], acts := sc, script := sc, log := s.log ++ [(i, .reset sc)] }
  /- the getters -/
  /-- reader.go:139, 147, 155, 165, 177 -/
  | gt0 {i : Nat} : s.cls[i]? = some .gt0 → s.mu1 = none → Step s (.client i) { s.setC i .gt1 with mu1 := some (.client i) }
  /-- reader.go:140-142, 148-150, 156-158, 166-171, 178-183 -/
  | gt1 {i : Nat} : s.cls[i]? = some .gt1 → Step s (.client i) { s.setC i .idle with mu1 := none, log := s.log ++ [(i, .got)] }
  /-- reader.go:188 -/
  | ur {i : Nat} : s.cls[i]? = some .ur → Step s (.client i) { s.setC i .idle with log := s.log ++ [(i, .got)] }
  /- the goroutine -/
  /-- reader.go:328 -/
  | entry : s.th = .entry → s.mu1 = none → Step s .thread { s with th := .run, mu1 := some .thread }
  /-- reader.go:1310-1313, 1316: the loop is not entered -/
  | skip {p : List UInt8} {r : List Act} : s.th = .run → s.acts = .data p :: r → s.forced = true ∨ p = [] → Step s .thread { s with acts := r }
  /-- reader.go:1316-1317 -/
  | flush {p : List UInt8} {r : List Act} : s.th = .run → s.acts = .data p :: r → s.forced = false → p ≠ [] →
      Step s .thread { s with acts := r, th := .fl1 p, mu1 := none }
  /-- reader.go:1373-1375 -/
  | skipErr {e : Err} {r : List Act} : s.th = .run → s.acts = .err e :: r → s.errSet = true → Step s .thread { s with acts := r }
  /-- reader.go:1377 -/
  | errLock {e : Err} {r : List Act} : s.th = .run → s.acts = .err e :: r → s.errSet = false → s.mu2 = none →
      Step s .thread { s with acts := r, th := .errHeld e, mu2 := some .thread }
  /-- reader.go:1378-1382 -/
  | errSet {e : Err} : s.th = .errHeld e →
      Step s .thread { s with th := .run, mu2 := none, outErr := some e, errSet := true, cls := s.cls.map wakeC }
  /-- reader.go:353-354 -/
  | exit : s.th = .run → s.acts = [] → Step s .thread { s with th := .absent, mu1 := none, stopped := true, zomb := s.zomb + 1 }
  /-- reader.go:1318 -/
  | fl1 {p : List UInt8} : s.th = .fl1 p → s.mu2 = none → Step s .thread { s with th := .fl2 p, mu2 := some .thread }
  /-- reader.go:1319-1320 -/
  | fl2wait {p : List UInt8} : s.th = .fl2 p → s.cap ≤ s.buf.length → Step s .thread { s with th := .flWait p, mu2 := none }
  /-- reader.go:1319, 1322 -/
  | fl2 {p : List UInt8} : s.th = .fl2 p → s.buf.length < s.cap → Step s .thread { s with th := .fl3 p, mu2 := none }
  /-- the end of `cv2.Wait` -/
  | flWoken {p : List UInt8} : s.th = .flWoken p → s.mu2 = none → Step s .thread { s with th := .fl2 p, mu2 := some .thread }
  /-- reader.go:1323 -/
  | fl3 {p : List UInt8} : s.th = .fl3 p → s.mu1 = none → Step s .thread { s with th := .fl4 p, mu1 := some .thread }
  /-- reader.go:1325-1328 -/
  | fl4stop {p : List UInt8} : s.th = .fl4 p → s.forced = true → Step s .thread { s with th := .run }
  /-- reader.go:1325, 1332 -/
  | fl4 {p : List UInt8} : s.th = .fl4 p → s.forced = false → s.mu2 = none → Step s .thread { s with th := .fl5 p, mu2 := some .thread }
  /-- reader.go:1330-1347, 1316: part `q` of `p` is moved to outputBuffer (`PrepareBulkRead` need not offer everything); the loop ends -/
  | fl5end {p : List UInt8} {cs : List CPc} : s.th = .fl5 p → s.buf.length + p.length ≤ s.cap → Signal1 s.cls cs →
      Step s .thread { s with th := .run, mu2 := none, buf := s.buf ++ p, cls := cs }
  /-- reader.go:1330-1347, 1316-1317: something remains in decodeBuffer -/
  | fl5 {p q r : List UInt8} {cs : List CPc} : s.th = .fl5 p → p = q ++ r → q ≠ [] → r ≠ [] → s.buf.length + q.length ≤ s.cap → Signal1 s.cls cs →
      Step s .thread { s with th := .fl1 r, mu1 := none, mu2 := none, buf := s.buf ++ q, cls := cs }
  /-- reader.go:1330-1347 if outputBuffer is full (which does not happen) -/
  | fl5full {p : List UInt8} : s.th = .fl5 p → s.cap ≤ s.buf.length → p ≠ [] → Step s .thread { s with th := .fl1 p, mu1 := none, mu2 := none }
  /-- reader.go:355 -/
  | done : 0 < s.zomb → Step s .done { s with zomb := s.zomb - 1, wg := s.wg - 1 }

/-- what can happen from the state `s`, if only steps `P` are taken -/
inductive Steps (P : Lab → Prop) (s : St) : St → Prop
  | refl : Steps P s s
  | step {t u : St} {l : Lab} : Steps P s t → Step t l u → P l → Steps P s u

/-- What can happen to a Reader whose outputBuffer has capacity `cap`, whose goroutine does `script` and which has `n` callers, if only steps `P`
are taken. -/
def Reach (P : Lab → Prop) (cap : Nat) (script : List Act) (n : Nat) (s : St) : Prop := Steps P (initial cap script n) s

/-- what the goroutine does for the source last given (`script` is the one given to `NewReader`) -/
def source (script : List Act) : List (Nat × Res) → List Act := fun log => log.foldl (fun acc x => match x.2 with
  | .reset sc => sc
  | _ => acc) script

/-- the bytes returned by `Read` since the last `Reset` -/
def got : List (Nat × Res) → List UInt8 := fun log => log.foldl (fun acc x => match x.2 with
  | .read p _ => acc ++ p
  | .closed | .got => acc
  | .reset _ => []) []

end Flate.Model.Conc
