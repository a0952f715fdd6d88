/-
Model of token.go, analysis.go and the constants of huffman.go.
Go's `uint16` fields are `Nat`; they never exceed 65535 since they come from the `make...` functions.
-/
import Verif.Model.HuffLib

namespace Flate.Model
open Flate.Spec

/-- token.go:25-28 -/
structure Token where
  ll : Nat
  dist : Nat
  deriving DecidableEq, Repr

/-- pure function which may panic -/
abbrev Partial := Except Panic

def passert (c : Bool) (msg : String) : Partial Unit := if c then .ok () else .error (.assert msg)

/-- token.go:30-36 -/
def makeCopyToken (length distance : Nat) : Partial Token := do
  passert (length ≥ 3) "copy length < minimum 3"
  passert (length ≤ 258) "copy length > maximum 258"
  passert (distance ≥ 1) "copy distance < minimum 1"
  passert (distance ≤ 32768) "copy distance > maximum 32768"
  pure ⟨length, distance⟩

/-- token.go:38-40 -/
def makeLiteralToken (ch : UInt8) : Token := ⟨ch.toNat, 0⟩
/-- token.go:42-44 -/
def makeStopToken : Token := ⟨256, 0⟩
/-- token.go:46-49 -/
def makeTreeLenToken (size : Nat) : Partial Token := do
  passert (size < 16) "symbol bit length >= 16"
  pure ⟨512 + size, 0⟩
/-- token.go:51-55 -/
def makeTreeDupToken (count : Nat) : Partial Token := do
  passert (count ≥ 3) "symbol bit length copy count < minimum 3"
  passert (count ≤ 6) "symbol bit length copy count > maximum 6"
  pure ⟨1024 + (count - 3), 0⟩
/-- token.go:57-64 -/
def makeTreeZeroRunToken (count : Nat) : Partial Token := do
  passert (count ≥ 3) "symbol bit length zero count < minimum 3"
  passert (count ≤ 138) "symbol bit length zero count > maximum 138"
  if count < 11 then pure ⟨2048 + (count - 3), 0⟩ else pure ⟨4096 + (count - 11), 0⟩

/-- token.go:92-142: symbol (`none` = InvalidSymbol), number of extra bits, their value -/
def Token.symbolLL (t : Token) : Partial (Option Nat × Nat × Nat) :=
  if t.dist = 0 ∧ t.ll > 256 then .ok (none, 0, 0)
  else if t.dist = 0 ∧ t.ll = 256 then .ok (some 256, 0, 0)
  else if t.dist = 0 then .ok (some t.ll, 0, 0)
  else if t.ll ≤ 2 then .error (.assert "copy length < minimum 3")
  else if t.ll ≤ 10 then .ok (some (254 + t.ll), 0, 0)
  else if t.ll ≤ 18 then .ok (some (265 + (t.ll - 11) / 2), 1, (t.ll - 11) % 2)
  else if t.ll ≤ 34 then .ok (some (269 + (t.ll - 19) / 4), 2, (t.ll - 19) % 4)
  else if t.ll ≤ 66 then .ok (some (273 + (t.ll - 35) / 8), 3, (t.ll - 35) % 8)
  else if t.ll ≤ 130 then .ok (some (277 + (t.ll - 67) / 16), 4, (t.ll - 67) % 16)
  else if t.ll ≤ 257 then .ok (some (281 + (t.ll - 131) / 32), 5, (t.ll - 131) % 32)
  else if t.ll = 258 then .ok (some 285, 0, 0)
  else .error (.assert "copy length > maximum 258")

/-- `16 - bits.LeadingZeros16(d)`: number of bits of `d` -/
def bitLen (d : Nat) : Nat := if d = 0 then 0 else Nat.log2 d + 1

/-- token.go:144-169 -/
def Token.symbolD (t : Token) : Partial (Option Nat × Nat × Nat) :=
  if t.dist = 0 then .ok (none, 0, 0)
  else if t.dist ≤ 4 then .ok (some (0 + (t.dist - 1)), 0, 0)
  else if t.dist ≤ 32768 then
    let d := t.dist - 1
    let k := bitLen d
    let code := k * 2 - 1
    let code := if d &&& (1 <<< (k - 2)) = 0 then code - 1 else code
    let size := code / 2 - 1
    let bits := d &&& ((1 <<< size) - 1)
    .ok (some code, size, bits)
  else .error (.assert "copy distance > maximum 32768")

/-- token.go:171-194 -/
def Token.symbolX (t : Token) : Option Nat × Nat × Nat :=
  if t.dist ≠ 0 then (none, 0, 0)
  else if t.ll < 512 then (none, 0, 0)
  else if t.ll ≥ 512 ∧ t.ll < 512 + 16 then (some (t.ll - 512), 0, 0)
  else if t.ll ≥ 1024 ∧ t.ll < 1024 + 4 then (some 16, 2, t.ll - 1024)
  else if t.ll ≥ 2048 ∧ t.ll < 2048 + 8 then (some 17, 3, t.ll - 2048)
  else if t.ll ≥ 4096 ∧ t.ll < 4096 + 128 then (some 18, 7, t.ll - 4096)
  else (none, 0, 0)

/-- token.go:70-90, reduced to what the callers test: is it a stop token?  (An invalid token panics.) -/
def Token.isStop (t : Token) : Partial Bool :=
  if t.dist ≠ 0 then .ok false
  else if t.ll < 256 then .ok false
  else if t.ll = 256 then .ok true
  else if t.ll ≥ 512 ∧ t.ll < 512 + 16 then .ok false
  else if t.ll ≥ 1024 ∧ t.ll < 1024 + 4 then .ok false
  else if t.ll ≥ 2048 ∧ t.ll < 2048 + 8 then .ok false
  else if t.ll ≥ 4096 ∧ t.ll < 4096 + 128 then .ok false
  else .error (.assert "invalid token")

/-! huffman.go -/

/-- huffman.go:11-18 -/
def logicalNumLLCodes : Nat := 286
def logicalNumDCodes : Nat := 30
def physicalNumLLCodes : Nat := 288
def physicalNumDCodes : Nat := 32
def physicalNumXCodes : Nat := 19

/-- huffman.go:19 -/
def scramble : List Nat := [16, 17, 18, 0, 8, 7, 9, 6, 10, 5, 11, 4, 12, 3, 13, 2, 14, 1, 15]

/-- huffman.go:30-42, sizes of the fixed literal/length code -/
def fixedSizesLL : List Nat :=
  (List.range physicalNumLLCodes).map fun i =>
    if i < 144 then 8 else if i < 256 then 9 else if i < 280 then 7 else 8

/-- huffman.go:50-53, sizes of the fixed distance code -/
def fixedSizesD : List Nat := (List.range physicalNumDCodes).map fun _ => 5

/-! analysis.go -/

/-- analysis.go:3-16 -/
def isText (buf : List UInt8) : Bool :=
  buf.all fun ch => !(ch < 0x09 || (ch > 0x0d && ch < 0x20) || ch == 0x7f)

/-- `freq[sym]++`, panicking when out of range -/
def bump (freq : List Nat) (sym : Nat) : Partial (List Nat) :=
  if sym < freq.length then .ok (freq.modify sym (· + 1)) else .error .bounds

/-- analysis.go:21-29, loop of `studyFrequenciesLLD` -/
def studyLoopLLD : List Token → List Nat → List Nat → Partial (List Nat × List Nat)
  | [], fLL, fD => .ok (fLL, fD)
  | t :: ts, fLL, fD => do
    let (sLL, _, _) ← t.symbolLL
    let fLL ← match sLL with | some s => bump fLL s | none => pure fLL
    let (sD, _, _) ← t.symbolD
    let fD ← match sD with | some s => bump fD s | none => pure fD
    studyLoopLLD ts fLL fD

/-- analysis.go:18-31 -/
def studyFrequenciesLLD (tokens : List Token) : Partial (List Nat × List Nat) :=
  studyLoopLLD tokens (List.replicate physicalNumLLCodes 0) (List.replicate physicalNumDCodes 0)

/-- analysis.go:35-39 -/
def studyLoopX : List Token → List Nat → Partial (List Nat)
  | [], f => .ok f
  | t :: ts, f => do
    let f ← match t.symbolX.1 with | some s => bump f s | none => pure f
    studyLoopX ts f

/-- analysis.go:33-41 -/
def studyFrequenciesX (tokens : List Token) : Partial (List Nat) :=
  studyLoopX tokens (List.replicate physicalNumXCodes 0)

/-- analysis.go:43-50 -/
def sizesAllZeroes (sizes : List Nat) : Bool := sizes.all (· == 0)

/-- analysis.go:52-61 -/
def sizeRunLength : List Nat → Nat → Nat
  | [], _ => 0
  | x :: xs, size => if x = size then sizeRunLength xs size + 1 else 0

/-- analysis.go:76-80: `for run >= 9` -/
def dupLoop : Nat → List Token → Nat → Nat → Partial (List Token × Nat × Nat)
  | 0, _, _, _ => .error .fuel
  | fuel + 1, xt, i, run =>
    if run ≥ 9 then do
      let t ← makeTreeDupToken 6
      dupLoop fuel (xt ++ [t]) (i + 6) (run - 6)
    else .ok (xt, i, run)

/-- analysis.go:91-95 and 118-122: `for run != 0` emitting single lengths -/
def lenLoop (size : Nat) : Nat → List Token → Nat → Partial (List Token × Nat)
  | 0, xt, i => .ok (xt, i)
  | run + 1, xt, i => do
    let t ← makeTreeLenToken size
    lenLoop size run (xt ++ [t]) (i + 1)

/-- analysis.go:103-107: `for run >= 141` -/
def zeroLoop : Nat → List Token → Nat → Nat → Partial (List Token × Nat × Nat)
  | 0, _, _, _ => .error .fuel
  | fuel + 1, xt, i, run =>
    if run ≥ 141 then do
      let t ← makeTreeZeroRunToken 138
      zeroLoop fuel (xt ++ [t]) (i + 138) (run - 138)
    else .ok (xt, i, run)

/-- analysis.go:71-97, a non-zero size and its repetitions -/
def encodeNonZero (sizes : List Nat) (xt : List Token) (i size : Nat) : Partial (List Token × Nat) := do
  let t ← makeTreeLenToken size
  let xt := xt ++ [t]
  let i := i + 1
  let run := sizeRunLength (sizes.drop i) size
  let (xt, i, run) ← dupLoop (run + 1) xt i run
  let (xt, i, run) ←
    if run > 6 then do
      let t ← makeTreeDupToken 4
      pure (xt ++ [t], i + 4, run - 4)
    else pure (xt, i, run)
  let (xt, i, run) ←
    if run > 2 then do
      let t ← makeTreeDupToken run
      pure (xt ++ [t], i + run, 0)
    else pure (xt, i, run)
  lenLoop size run xt i

/-- analysis.go:99-122, a run of zeros -/
def encodeZero (sizes : List Nat) (min : Nat) (xt : List Token) (i : Nat) : Partial (List Token × Nat) := do
  let run := sizeRunLength (sizes.drop i) 0
  let run := if i + run > min ∧ sizesAllZeroes (sizes.drop i) = true then min else run
  let (xt, i, run) ← zeroLoop (run + 1) xt i run
  let (xt, i, run) ←
    if run > 138 then do
      let t ← makeTreeZeroRunToken 136
      pure (xt ++ [t], i + 136, run - 136)
    else pure (xt, i, run)
  let (xt, i, run) ←
    if run > 3 then do
      let t ← makeTreeZeroRunToken run
      pure (xt ++ [t], i + run, 0)
    else pure (xt, i, run)
  lenLoop 0 run xt i

/-- analysis.go:66-123, the outer loop of `encodeTreeTokens` -/
def encodeTreeLoop (sizes : List Nat) (min : Nat) : Nat → List Token → Nat → Partial (List Token × Nat)
  | 0, _, _ => .error .fuel
  | fuel + 1, xt, i =>
    if i < sizes.length then
      if i ≥ min ∧ sizesAllZeroes (sizes.drop i) = true then .ok (xt, i)
      else
        let size := sizes.getD i 0
        if size ≠ 0 then do
          let (xt, i) ← encodeNonZero sizes xt i size
          encodeTreeLoop sizes min fuel xt i
        else do
          let (xt, i) ← encodeZero sizes min xt i
          encodeTreeLoop sizes min fuel xt i
    else .ok (xt, i)

/-- analysis.go:63-126 -/
def encodeTreeTokens (xtokens : List Token) (sizes : List Nat) (min : Nat) : Partial (List Token × Nat) :=
  encodeTreeLoop sizes min (sizes.length + 1) xtokens 0

end Flate.Model
