/-
Model of the memory which all Writers of a program share: `tokenPool` (pools.go) and the library `bufferpool`, and what the Writer does with it
(writer.go:961-1019, 1021-1065, 1067-1121, 1123-1218), as a program of small steps between which other goroutines may do anything.

`Model/Writer` and `Model/Block` take a fresh empty list where the code takes a slice or buffer from a pool.  Here the same functions are written with
pointers: `load` and `store` are accesses to the slice or buffer behind a pointer, in memory which the other goroutines can reach as well.
Everything else (the Writer's own memory, its sink, its tracers) belongs to one goroutine.

Simplifications: a loop which only counts (`studyFrequencies`) and `encodeTreeTokens` access the slice in one step each; loops which write bits access one token
per iteration.  `bytes.Buffer` is its contents.  A goroutine which panics gives its slices back before it dies (they are given back by `defer`).
-/
import Verif.Model.WriterApi

namespace Flate.Model.Pool
open Flate Flate.Model Flate.Spec

/-- a pointer, as returned by `takeTokens` (pools.go:17) or `bufferpool.Get` -/
abbrev Ptr := Nat

/-- the two pools: `tokenPool` (pools.go:9), and that of the library `bufferpool` -/
inductive Kind where
  | tokens | bytes
  deriving DecidableEq

/-- what is behind a pointer: `[]token` or `bytes.Buffer` -/
inductive Cell where
  | tokens (l : List Token)
  | bytes (l : List UInt8)

/-- pools.go:11-13: a new slice is empty; so is a new buffer -/
def Kind.empty : Kind → Cell
  | .tokens => .tokens []
  | .bytes => .bytes []

def Cell.toks : Cell → List Token
  | .tokens l => l
  | .bytes _ => []

def Cell.data : Cell → List UInt8
  | .tokens _ => []
  | .bytes l => l

/-- a program of one goroutine, up to its own memory: what it does with memory from the pools, and its result -/
inductive Prog (β : Type) : Type where
  | done (b : β)
  /-- `sync.Pool.Get` -/
  | get (kd : Kind) (k : Ptr → Prog β)
  | load (p : Ptr) (k : Cell → Prog β)
  | store (p : Ptr) (c : Cell) (k : Prog β)
  /-- `sync.Pool.Put` -/
  | put (kd : Kind) (p : Ptr) (k : Prog β)

def Prog.bind {β γ : Type} : Prog β → (β → Prog γ) → Prog γ
  | .done b, f => f b
  | .get kd k, f => .get kd fun p => (k p).bind f
  | .load p k, f => .load p fun c => (k c).bind f
  | .store p c k, f => .store p c (k.bind f)
  | .put kd p k, f => .put kd p (k.bind f)

/-! ### all goroutines together -/

/-- the memory and the goroutines -/
structure Sys (β : Type) where
  heap : Ptr → Cell := fun _ => .tokens []
  /-- pointers which have been allocated -/
  alloc : List Ptr := []
  /-- the contents of the pools, in any order -/
  free : List (Kind × Ptr) := []
  procs : List (Prog β)

/-- one step of one goroutine.  `sync.Pool.Get` returns any pointer which is in the pool, or a new one. -/
inductive Step {β : Type} (s : Sys β) : Sys β → Prop
  | fresh {i : Nat} {kd : Kind} {k : Ptr → Prog β} {p : Ptr} : s.procs[i]? = some (.get kd k) → p ∉ s.alloc →
      Step s { s with heap := fun q => if q = p then kd.empty else s.heap q, alloc := p :: s.alloc, procs := s.procs.set i (k p) }
  | reuse {i : Nat} {kd : Kind} {k : Ptr → Prog β} {p : Ptr} : s.procs[i]? = some (.get kd k) → (kd, p) ∈ s.free →
      Step s { s with free := s.free.erase (kd, p), procs := s.procs.set i (k p) }
  | load {i : Nat} {k : Cell → Prog β} {p : Ptr} : s.procs[i]? = some (.load p k) → Step s { s with procs := s.procs.set i (k (s.heap p)) }
  | store {i : Nat} {k : Prog β} {p : Ptr} {c : Cell} : s.procs[i]? = some (.store p c k) →
      Step s { s with heap := fun q => if q = p then c else s.heap q, procs := s.procs.set i k }
  | put {i : Nat} {kd : Kind} {k : Prog β} {p : Ptr} : s.procs[i]? = some (.put kd p k) →
      Step s { s with free := (kd, p) :: s.free, procs := s.procs.set i k }
  /-- the garbage collector empties pools -/
  | drop {x : Kind × Ptr} : Step s { s with free := s.free.erase x }

inductive Steps {β : Type} (s : Sys β) : Sys β → Prop
  | refl : Steps s s
  | step {t u : Sys β} : Steps s t → Step t u → Steps s u

/-! ### the Writer as such a program -/

/-- a function with a receiver of type `σ` (owned by the goroutine) which may panic, and which uses the pools -/
def PGo (σ α : Type) : Type := σ → Prog (Except Panic (α × σ))

namespace PGo
variable {σ α β : Type}

instance : Monad (PGo σ) where
  pure a := fun s => .done (.ok (a, s))
  bind x f := fun s => (x s).bind fun r => match r with
    | .ok (a, s') => f a s'
    | .error e => .done (.error e)

/-- a function which does not use the pools -/
def lift (x : Go σ α) : PGo σ α := fun s => .done (x s)

/-- `if !x() { return false }; y` -/
def chk (x y : PGo σ Bool) : PGo σ Bool := fun s => (x s).bind fun r => match r with
  | .ok (true, s') => y s'
  | .ok (false, s') => .done (.ok (false, s'))
  | .error e => .done (.error e)

/-- read what is behind a pointer -/
def load (p : Ptr) : PGo σ Cell := fun s => .load p fun c => .done (.ok (c, s))

/-- `*p = c` -/
def store (p : Ptr) (c : Cell) : PGo σ Unit := fun s => .store p c (.done (.ok ((), s)))

/-- `p := Get(); defer Put(p); ...`: pools.go:17-26 for tokens (`*ptr = (*ptr)[:0]; tokenPool.Put(ptr)`), `bufferpool.Get` and `Put` for bytes.
`Put` is reached in any case, also when the rest panics. -/
def pooled (kd : Kind) (f : Ptr → PGo σ α) : PGo σ α := fun s =>
  .get kd fun p => (f p s).bind fun r => .store p kd.empty (.put kd p (.done r))

/-- `for i := range tokens { if !f(tokens[i]) { return false } }` over the `n` tokens of a slice, starting at index `i` -/
def forToks (p : Ptr) (f : Token → Go σ Bool) : Nat → Nat → PGo σ Bool
  | 0, _ => pure true
  | n + 1, i => chk (do lift (f ((← load p).toks.getD i makeStopToken))) (forToks p f n (i + 1))

end PGo

open PGo

section
variable {σ : Type} (bw : BitWriter σ)

/-- writer.go:1021-1065: `data` is the contents of the buffer `bb`, `n` its length -/
def writeStoredBlockP (bb : Ptr) (n : Nat) (isFinal : Bool) : PGo σ Bool := do
  lift (Go.assert (n ≤ 65535) "uncompressed block length exceeds uint16_t")
  chk (lift (evStep bw (.blockBegin .stored isFinal))) <|
    chk (lift (bw.bitsWrite 3 (if isFinal then 1 else 0))) <|
    chk (lift bw.bitsFlush) <|
    chk (lift (bw.bufWriteU16 (n % 65536))) <|
    chk (lift (bw.bufWriteU16 (65535 - n % 65536))) <|
    chk (do lift (bw.bufWrite (← load bb).data)) <|
    lift (evStep bw (.blockEnd .stored isFinal))

/-- writer.go:1067-1121: `n` tokens behind `tok` -/
def writeStaticBlockP (tok : Ptr) (n : Nat) (isFinal : Bool) : PGo σ Bool := do
  lift (assertStop (← load tok).toks)
  chk (lift (evStep bw (.blockBegin .static isFinal))) <|
    chk (lift (bw.bitsWrite 3 (if isFinal then 3 else 2))) <|
    chk (lift (evStep bw (.blockTrees .static isFinal { ll := fixedSizesLL, d := fixedSizesD }))) <|
    chk (forToks tok (encodeLLD bw fixedSizesLL fixedSizesD) n 0) <|
    lift (evStep bw (.blockEnd .static isFinal))

/-- writer.go:1152-1218: the part of `writeDynamicBlock` which uses `xtokens` -/
def writeTreesP (L : HuffLib) (sLL sD : List Nat) (tok : Ptr) (n : Nat) (isFinal : Bool) (x : Ptr) : PGo σ Bool := do
  let (xt, numLL) ← lift (Go.lift (encodeTreeTokens (← load x).toks sLL 257))
  store x (.tokens xt)
  let (xt, numD) ← lift (Go.lift (encodeTreeTokens (← load x).toks sD 1))
  store x (.tokens xt)
  let freqX ← lift (Go.lift (studyFrequenciesX (← load x).toks))
  let sX := L.sizes physicalNumXCodes freqX
  let numX := trimX sX physicalNumXCodes
  chk (lift (bw.bitsWrite 5 (numLL - 257))) <|
    chk (lift (bw.bitsWrite 5 (numD - 1))) <|
    chk (lift (bw.bitsWrite 4 (numX - 4))) <|
    chk (lift (forAll (fun i => bw.bitsWrite 3 (sX.getD (scramble.getD i 0) 0)) (List.range numX))) <|
    chk (do forToks x (encodeX bw sX) (← load x).toks.length 0) <|
    chk (lift (evStep bw (.blockTrees .dynamic isFinal
        { codeCount := numX, llCount := numLL, dCount := numD, codeSizes := sX, ll := sLL, d := sD }))) <|
    chk (forToks tok (encodeLLD bw sLL sD) n 0) <|
    lift (evStep bw (.blockEnd .dynamic isFinal))

/-- writer.go:1123-1218 -/
def writeDynamicBlockP (L : HuffLib) (sLL sD : List Nat) (tok : Ptr) (n : Nat) (isFinal : Bool) : PGo σ Bool := do
  lift (assertStop (← load tok).toks)
  chk (lift (evStep bw (.blockBegin .dynamic isFinal))) <|
    chk (lift (bw.bitsWrite 3 (if isFinal then 5 else 4))) <|
    pooled .tokens (writeTreesP bw L sLL sD tok n isFinal)

end

/-- writer.go:1005-1009: run a block writer on a fresh `bitcounter` -/
def countBitsP {σ : Type} (W : Nat) (f : BitWriter Nat → PGo Nat Bool) : PGo σ Nat := fun s =>
  (f (bitcounter W) 0).bind fun r => .done (match r with
    | .ok (_, n) => .ok (n, s)
    | .error e => .error e)

/-- writer.go:996-1019 -/
def compressTokensP {σ : Type} (bw : BitWriter σ) (W : Nat) (L : HuffLib) (bb tok : Ptr) (isFinal : Bool) : PGo σ Bool := do
  let size := (← load bb).data.length
  let n := (← load tok).toks.length
  let (freqLL, freqD) ← lift (Go.lift (studyFrequenciesLLD (← load tok).toks))
  let sLL := L.sizes physicalNumLLCodes freqLL
  let sD := L.sizes physicalNumDCodes freqD
  let dynamicLength ← countBitsP W fun c => writeDynamicBlockP c L sLL sD tok n isFinal
  let staticLength ← countBitsP W fun c => writeStaticBlockP c tok n isFinal
  let storedLength := size * 8 + 35
  if storedLength < dynamicLength then writeStoredBlockP bw bb size isFinal
  else if staticLength ≤ dynamicLength then writeStaticBlockP bw tok n isFinal
  else writeDynamicBlockP bw L sLL sD tok n isFinal

/-- writer.go:976-989 -/
def tokenLoopP (bb tok : Ptr) : Nat → Nat → PGo WState Unit
  | 0, _ => lift (Go.panic .fuel)
  | fuel + 1, available =>
    if available = 0 then pure ()
    else do
      let (p, m) ← lift inputBufferAdvance
      match m with
      | some (distance, length) =>
        lift (Go.assert (length ≥ 3) "length < 3")
        lift (Go.assert (distance ≥ 1) "distance < 1")
        store bb (.bytes ((← load bb).data ++ p))
        let t ← lift (Go.lift (makeCopyToken (length % 65536) (distance % 65536)))
        store tok (.tokens ((← load tok).toks ++ [t]))
        tokenLoopP bb tok fuel (available - p.length)
      | none =>
        match p with
        | [] => lift (Go.panic .bounds)
        | ch :: _ =>
          store bb (.bytes ((← load bb).data ++ [ch]))
          store tok (.tokens ((← load tok).toks ++ [makeLiteralToken ch]))
          tokenLoopP bb tok fuel (available - p.length)

/-- writer.go:961-994 (and 949-959) -/
def compressSlowP (L : HuffLib) (consumeAll : Bool) : PGo WState Bool := fun s =>
  let available := s.lz.buf.length
  if available < 4096 ∧ consumeAll = false ∧ available < s.lz.cap then .done (.ok (true, s))
  else (pooled .bytes fun bb => pooled .tokens fun tok => do
    tokenLoopP bb tok (available + 1) available
    store tok (.tokens ((← load tok).toks ++ [makeStopToken]))
    compressTokensP wBW s.W L bb tok false) s

/-- writer.go:451-475 -/
def compressImplP (L : HuffLib) (consumeAll : Bool) : PGo WState Bool := fun s =>
  if s.lz.buf = [] then .done (.ok (true, s))
  else
    (chk (lift finishClosing) <|
     chk (lift fun s => if s.state = .noStream ∨ s.state = .closedStream then
       Go.chk writeHeader (setState .openStream) s else .ok (true, s)) <|
     fun s => if usesStore s.o then .done (compressStore consumeAll s) else compressSlowP L consumeAll s) s

/-- writer.go:477-520.  (The blocks written by `flushGuts` do not use the pools: writer.go:522-552.) -/
def flushImplP (L : HuffLib) (t : FlushType) : PGo WState Bool :=
  chk (compressImplP L true) <|
  lift <|
    Go.chk (fun s => if t = .finishFlush ∧ s.state = .noStream then
      Go.chk writeHeader (setState .openStream) s else .ok (true, s)) <|
    Go.chk (fun s => if s.state = .openStream then flushGuts t s else .ok (true, s)) <|
    Go.chk finishClosing <|
    Go.chk sinkFlush sinkSync

/-- writer.go:379-391 -/
def writeLoopP (L : HuffLib) : Nat → List UInt8 → PGo WState (Option (Option Err))
  | 0, _ => lift (Go.panic .fuel)
  | fuel + 1, p => fun s =>
    if p = [] then .done (.ok (none, s))
    else
      let (nn, z) := s.lz.write p
      let consumeAll := (nn == 0) || decide (nn < p.length)
      (compressImplP L consumeAll { s with lz := z }).bind fun r => match r with
      | .error e => .done (.error e)
      | .ok (false, s) => .done (.ok (some s.err, s))
      | .ok (true, s) => writeLoopP L fuel (p.drop nn) s

/-- one call (writer.go:286-308, 366-449) -/
def stepOpP (L : HuffLib) : WOp → PGo WState WRes
  | .write p => fun s =>
    if s.state = .closed then .done (.ok (.write 0 (some .closed), s))
    else if s.state = .error then .done (.ok (.write 0 s.err, s))
    else (writeLoopP L (2 * p.length + 2) p s).bind fun r => .done (match r with
      | .error e => .error e
      | .ok (none, s) => .ok (.write p.length none, s)
      | .ok (some e, s) => .ok (.write 0 e, s))
  | .flush t => fun s =>
    if s.state = .closed then .done (.ok (.flush (some .closed), s))
    else if s.state = .error then .done (.ok (.flush s.err, s))
    else (flushImplP L t s).bind fun r => .done (match r with
      | .error e => .error e
      | .ok (true, s) => .ok (.flush none, s)
      | .ok (false, s) => .ok (.flush s.err, s))
  | .setHeader h => lift (stepOp L (.setHeader h))
  | .close => fun s =>
    if s.state = .closed then .done (.ok (.close (some .closed), s))
    else if s.state = .error then .done (.ok (.close s.err, { s with state := .closed, err := none }))
    else (flushImplP L .finishFlush s).bind fun r => .done (match r with
      | .error e => .error e
      | .ok (true, s) => .ok (.close none, { s with state := .closed })
      | .ok (false, s) => .ok (.close s.err, { s with state := .closed, err := none }))

/-- a sequence of calls -/
def runOpsP (L : HuffLib) : List WOp → PGo WState (List WRes)
  | [] => pure []
  | op :: ops => do
    let r ← stepOpP L op
    let rs ← runOpsP L ops
    pure (r :: rs)

/-! ### the Reader's use of a pool -/

/-- reader.go:1206-1232 `inputBufferReadStringZ`: the string is built in a pooled buffer.  `next` stands for reading a byte of the input, `none` at its end;
the result is the string and whether a zero byte ended it.  `fuel` bounds the number of bytes (the input is finite). -/
def readStringZP {σ : Type} (next : Go σ (Option UInt8)) (fuel : Nat) : PGo σ (List UInt8 × Bool) :=
  pooled .bytes fun bb => do
    let ok ← loop bb fuel
    pure ((← PGo.load bb).data, ok)
where
  loop (bb : Ptr) : Nat → PGo σ Bool
    | 0 => lift (Go.panic .fuel)
    | n + 1 => do
      match ← lift next with
      | none => pure false
      | some ch => if ch = 0 then pure true else do
        store bb (.bytes ((← PGo.load bb).data ++ [ch]))
        loop bb n

end Flate.Model.Pool
