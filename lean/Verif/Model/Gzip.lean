/-
Model of cmd/gzip/main.go.

Not modelled: the parsing of the command line (package getopt; the values of the flags are what the `Parse` methods of Model/Text.lean produce),
`--version`, logging, and the CPU and memory profiles.
-/
import Verif.Model.WriterApi
import Verif.Model.Conc

namespace Flate.Model.Gz
open Flate.Spec Flate.Model.Rd Flate.Model.Conc

/-- cmd/gzip/main.go:19-52: the flags, after `getopt.Parse()` -/
structure Flags where
  format : Format := .default
  strategy : Strategy := .default
  clevel : Int := -1
  mlevel : Nat := 0
  wbits : Nat := 0
  /-- `flag0`, ..., `flag9` -/
  digit : Nat → Bool := fun _ => false
  dict : List UInt8 := []
  fileName : List UInt8 := []
  comment : List UInt8 := []
  lastModified : Option Int := none
  decompress : Bool := false
  stdout : Bool := false
  /-- `getopt.NArgs()` -/
  nargs : Nat := 0

/-- main.go:124-145: of several digits the smallest one counts, and it counts more than `--compress-level` -/
def Flags.level (f : Flags) : Int := match (List.range 10).find? f.digit with
  | some d => d
  | none => f.clevel

/-- main.go:151-164.  `none`: the file could not be read (`log.Fatal`).  The result of a successful `ioutil.ReadFile` is never nil. -/
def Flags.dictionary (f : Flags) (readFile : List UInt8 → Option (List UInt8)) : Option (Option (List UInt8)) :=
  match f.dict with
  | [] => some none
  | c :: name => if c = 0x40 then (readFile name).map some else some (some f.dict)

/-- main.go:166-168 -/
def Flags.fmt (f : Flags) : Format := if f.format = .default ∧ f.decompress = false then .gzip else f.format

/-- main.go:233-242 -/
def Flags.opts (f : Flags) (dict : Option (List UInt8)) : List Opt :=
  [.tracers [0], .format f.fmt, .strategy f.strategy, .clevel f.level, .mlevel f.mlevel, .wbits f.wbits] ++
    match dict with
    | none => []
    | some d => [.dict (some d)]

/-- main.go:264-268 -/
def Flags.header (f : Flags) : Header := { fileName := f.fileName, comment := f.comment, lastModified := f.lastModified }

/-- what comes of the flags -/
inductive Prep where
  /-- `log.Fatal`: exit status 1 -/
  | fatal
  /-- one of the assertions of options.go -/
  | panic
  | go (opts : List Opt)

/-- main.go:147-164, 199-204, 233-242 -/
def prepare (f : Flags) (readFile : List UInt8 → Option (List UInt8)) : Prep :=
  match f.dictionary readFile with
  | none => .fatal
  | some d =>
    if f.stdout = true ∨ f.nargs = 0 then
      if (f.opts d).all Opt.valid then .go (f.opts d) else .panic
    else .fatal

/-- What successive calls of `os.Stdin.Read` return: bytes, and an error or nil.  After the list there is only `(0, io.EOF)`. -/
abbrev Stdin := List (List UInt8 × Option Err)

/-- `io.Copy(fw, r)` (main.go:275, package io; `flate.Writer` has no method `ReadFrom`): read, write what was read, until there is an error; end of file is not an error.  The result
says whether the error returned is nil. -/
def copyIn (L : HuffLib) : Stdin → Go WState Bool
  | [] => fun s => .ok (true, s)
  | (p, e) :: rest => fun s =>
    match (if p = [] then .ok ((0, none), s) else wWrite L p s) with
    | .error x => .error x
    | .ok ((n, ew), s) =>
      if ew ≠ none ∨ n ≠ p.length then .ok (false, s)
      else match e with
        | none => copyIn L rest s
        | some .eof => .ok (true, s)
        | some _ => .ok (false, s)

/-- main.go:262-296: `true` is exit status 0, `false` is `log.Fatal` (exit status 1) -/
def compress (L : HuffLib) (h : Header) (stdin : Stdin) : Go WState Bool :=
  Go.chk (wSetHeader h) <| Go.chk (copyIn L stdin) <| fun s =>
    match wFlush L .finishFlush s with
    | .error x => .error x
    | .ok (some _, s) => .ok (false, s)
    | .ok (none, s) => match wClose L s with
      | .error x => .error x
      | .ok (e, s) => .ok (e.isNone, s)

/-! ### decompression

The main goroutine calls `Read` and `Close`; the Reader's goroutine runs concurrently. -/

/-- where the main goroutine is -/
inductive DPc where
  /-- in `io.Copy`, before a call of `Read` -/
  | copy
  /-- in `Read` -/
  | read
  /-- main.go:255, before the call of `Close` -/
  | copied
  /-- in `Close` -/
  | close
  | exit (status : Nat)
  deriving DecidableEq

structure DSt where
  pc : DPc := .copy
  rd : St
  out : Sink

/-- the buffer of `io.Copy` -/
def copyBuf : Nat := 32 * 1024

/-- `os.Stdout.Write`, and whether it succeeds.  (`io.Copy` does not write empty slices.) -/
def putOut (p : List UInt8) (k : Sink) : Bool × Sink :=
  if p = [] then (true, k)
  else match k.wfail k.nWrites with
    | none => (true, { k with out := k.out ++ p, nWrites := k.nWrites + 1 })
    | some (n, e) => (false, { k with out := k.out ++ p.take n, nWrites := k.nWrites + 1, errs := k.errs ++ [e] })

/-- `io.Copy(w, fr)` (main.go:247) after `Read` has returned `p` and `e`, and main.go:248-253 -/
def afterRead (p : List UInt8) (e : Option Err) (k : Sink) : DPc × Sink :=
  match putOut p k with
  | (false, k) => (.exit 1, k)
  | (true, k) => match e with
    | none => (.copy, k)
    | some .eof => (.copied, k)
    | some _ => (.exit 1, k)

/-- The steps of the program (main.go:245-260).  When `main` returns, or `log.Fatal` is called, nothing happens any more. -/
inductive DStep (s : DSt) : DSt → Prop
  | callRead {c : St} : s.pc = .copy → Step s.rd (.callRead 0 copyBuf) c → DStep s { s with pc := .read, rd := c }
  | callClose {c : St} : s.pc = .copied → Step s.rd (.callClose 0) c → DStep s { s with pc := .close, rd := c }
  /-- any goroutine continues, without a call returning -/
  | inside {c : St} {l : Lab} : (∀ n, s.pc ≠ .exit n) → Internal l → Step s.rd l c → c.log = s.rd.log → DStep s { s with rd := c }
  | readRet {c : St} {l : Lab} {p : List UInt8} {e : Option Err} : s.pc = .read → Internal l → Step s.rd l c → c.log = s.rd.log ++ [(0, .read p e)] →
      DStep s { pc := (afterRead p e s.out).1, rd := c, out := (afterRead p e s.out).2 }
  | closeRet {c : St} {l : Lab} : s.pc = .close → Internal l → Step s.rd l c → c.log = s.rd.log ++ [(0, .closed)] →
      DStep s { s with pc := .exit 0, rd := c }

inductive DSteps (s : DSt) : DSt → Prop
  | refl : DSteps s s
  | step {t u : DSt} : DSteps s t → DStep t u → DSteps s u

/-- reader.go:129-131 `outputBufferNumBits` (main.go:238 sets the memory level) -/
def dStart (o : Flate.Model.Rd.ROptions) (acts : List Act) (k : Sink) : DSt := { rd := initial (2 ^ (o.mlevel + 6)) acts 1, out := k }

end Flate.Model.Gz
