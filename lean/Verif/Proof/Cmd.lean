/-
Block writers as sequences of elementary commands.
-/
import Verif.Model.Block
import Verif.Proof.Rle
import Verif.Proof.Bits

namespace Flate.Proof
open Flate.Spec Flate.Model

section
variable {σ : Type}

@[simp] theorem chk_pure_true (y : Go σ Bool) : Go.chk (pure true) y = y := rfl
@[simp] theorem chk_true_right (x : Go σ Bool) : Go.chk x (pure true) = x := by
  funext s
  unfold Go.chk
  cases h : x s with
  | error e => rfl
  | ok r => obtain ⟨b, s'⟩ := r; cases b <;> rfl

theorem chk_assoc (x y z : Go σ Bool) : Go.chk (Go.chk x y) z = Go.chk x (Go.chk y z) := by
  funext s
  unfold Go.chk
  cases h : x s with
  | error e => rfl
  | ok r => obtain ⟨b, s'⟩ := r; cases b <;> rfl

theorem chk_ok {x y : Go σ Bool} {s s' : σ} (h : x s = .ok (true, s')) : Go.chk x y s = y s' := by
  unfold Go.chk; rw [h]
theorem chk_false {x y : Go σ Bool} {s s' : σ} (h : x s = .ok (false, s')) :
    Go.chk x y s = .ok (false, s') := by
  unfold Go.chk; rw [h]

@[simp] theorem lift_ok {α : Type} (a : α) : (Go.lift (.ok a) : Go σ α) = pure a := rfl

end

/-- elementary actions on a bitwriter -/
inductive Cmd where
  | ev (k : EvKind)
  | bits (n v : Nat)
  | flush
  | u16 (v : Nat)
  | bytes (p : List UInt8)

def exec {σ : Type} (bw : BitWriter σ) : Cmd → Go σ Bool
  | .ev k => evStep bw k
  | .bits n v => bw.bitsWrite n v
  | .flush => bw.bitsFlush
  | .u16 v => bw.bufWriteU16 v
  | .bytes p => bw.bufWrite p

/-- run until the first failure -/
def run {σ : Type} (bw : BitWriter σ) : List Cmd → Go σ Bool
  | [] => pure true
  | c :: cs => Go.chk (exec bw c) (run bw cs)

theorem run_append {σ : Type} (bw : BitWriter σ) (a b : List Cmd) :
    run bw (a ++ b) = Go.chk (run bw a) (run bw b) := by
  induction a with
  | nil => rfl
  | cons c a ih => simp only [List.cons_append, run, ih, chk_assoc]

theorem run_one {σ : Type} (bw : BitWriter σ) (c : Cmd) : run bw [c] = exec bw c := by
  simp [run]

/-- the optional extra bits -/
def extraCmds (n v : Nat) : List Cmd := if n = 0 then [] else [.bits n v]

theorem run_extra {σ : Type} (bw : BitWriter σ) (n v : Nat) : run bw (extraCmds n v) = extraWrite bw n v := by
  unfold extraCmds extraWrite
  by_cases h : n = 0
  · simp [h, run]
  · simp [h, run, exec]

/-- what a token stands for -/
inductive TokIs : Token → Item → Prop
  | lit (b : UInt8) : TokIs (makeLiteralToken b) (.lit b)
  | ref {len dist li lx di dx : Nat} :
      Token.symbolLL ⟨len, dist⟩ = .ok (some (257 + li), lenExtra.getD li 0, lx) →
      Token.symbolD ⟨len, dist⟩ = .ok (some di, distExtra.getD di 0, dx) →
      li < 29 → lx < 2 ^ lenExtra.getD li 0 → di < 30 → dx < 2 ^ distExtra.getD di 0 →
      refLen li lx = len → refDist di dx = dist → TokIs ⟨len, dist⟩ (.ref li lx di dx)

theorem tokIs_copy {len dist : Nat} (h1 : 3 ≤ len) (h2 : len ≤ 258) (h3 : 1 ≤ dist) (h4 : dist ≤ 32768) :
    ∃ li lx di dx, TokIs ⟨len, dist⟩ (.ref li lx di dx) ∧ refLen li lx = len ∧ refDist di dx = dist := by
  obtain ⟨li, lx, a1, a2, a3, a4⟩ := symbolLL_copy h1 h2 (dist := dist) (by omega)
  obtain ⟨di, dx, b1, b2, b3, b4⟩ := symbolD_copy (len := len) h3 h4
  exact ⟨li, lx, di, dx, .ref a1 b1 a2 a3 b2 b3 a4 b4, a4, b4⟩

/-- writing a Huffman code -/
def codeCmd (lens : List Nat) (s : Nat) : Cmd := .bits (hcSize lens s) (hcBits lens s)

def itemCmds (ll d : List Nat) : Item → List Cmd
  | .lit b => [codeCmd ll b.toNat]
  | .ref li lx di dx => codeCmd ll (257 + li) :: (extraCmds (lenExtra.getD li 0) lx ++
      codeCmd d di :: extraCmds (distExtra.getD di 0) dx)

theorem encodeLLD_eq {σ : Type} (bw : BitWriter σ) (ll d : List Nat) {t : Token} {i : Item} (h : TokIs t i) :
    encodeLLD bw ll d t = run bw (itemCmds ll d i) := by
  cases h with
  | lit b =>
    unfold encodeLLD
    rw [symbolLL_lit]
    simp only [makeLiteralToken, symbolD_lit, lift_ok, itemCmds, run, exec, codeCmd, extraWrite]
    simp
  | @ref len dist li lx di dx hl hd _ _ _ _ _ _ =>
    unfold encodeLLD
    rw [hl, hd]
    simp only [lift_ok, itemCmds, run, run_append, run_extra, exec, codeCmd]
    simp

theorem encodeLLD_stop {σ : Type} (bw : BitWriter σ) (ll d : List Nat) :
    encodeLLD bw ll d makeStopToken = run bw [codeCmd ll 256] := by
  unfold encodeLLD
  rw [symbolLL_stop]
  simp only [makeStopToken, symbolD_lit, lift_ok, run, exec, codeCmd, extraWrite]
  simp

/-- tokens of a block: items followed by the stop token -/
inductive ToksAre : List Token → List Item → Prop
  | stop : ToksAre [makeStopToken] []
  | cons {t : Token} {i : Item} {ts : List Token} {is : List Item} :
      TokIs t i → ToksAre ts is → ToksAre (t :: ts) (i :: is)

def dataCmds (ll d : List Nat) (is : List Item) : List Cmd :=
  is.flatMap (itemCmds ll d) ++ [codeCmd ll 256]

theorem encodeAll_eq {σ : Type} (bw : BitWriter σ) (ll d : List Nat) {ts : List Token} {is : List Item}
    (h : ToksAre ts is) : forAll (encodeLLD bw ll d) ts = run bw (dataCmds ll d is) := by
  induction h with
  | stop => simp [forAll, encodeLLD_stop, dataCmds]
  | cons ht _ ih =>
    simp only [forAll, ih, encodeLLD_eq bw ll d ht, dataCmds, List.flatMap_cons, List.append_assoc, run_append]

theorem toksAre_stop {ts : List Token} {is : List Item} (h : ToksAre ts is) :
    1 ≤ ts.length ∧ ts.getLastD makeStopToken = makeStopToken := by
  induction h with
  | stop => simp
  | cons ht hs ih =>
    refine ⟨by simp, ?_⟩
    rename_i t i ts is
    cases ts with
    | nil => cases hs
    | cons a as => simpa using ih.2

theorem assertStop_eq {σ : Type} {ts : List Token} {is : List Item} (h : ToksAre ts is) :
    (assertStop ts : Go σ Unit) = pure () := by
  obtain ⟨h1, h2⟩ := toksAre_stop h
  unfold assertStop
  rw [h2]
  funext s
  simp only [ge_iff_le, h1, decide_true]
  rfl

def storedCmds (data : List UInt8) (final : Bool) : List Cmd :=
  [.ev (.blockBegin .stored final), .bits 3 (if final then 1 else 0), .flush, .u16 (data.length % 65536),
   .u16 (65535 - data.length % 65536), .bytes data, .ev (.blockEnd .stored final)]

theorem writeStoredBlock_eq {σ : Type} (bw : BitWriter σ) {data : List UInt8} (h : data.length ≤ 65535)
    (final : Bool) : writeStoredBlock bw data final = run bw (storedCmds data final) := by
  unfold writeStoredBlock
  simp only [h, decide_true]
  funext s
  simp [storedCmds, run, exec, Go.bind_apply]

theorem writeStoredBlock_panic {σ : Type} (bw : BitWriter σ) {data : List UInt8} (h : ¬ data.length ≤ 65535)
    (final : Bool) (s : σ) : writeStoredBlock bw data final s =
      .error (.assert "uncompressed block length exceeds uint16_t") := by
  unfold writeStoredBlock
  simp only [h, decide_false, Go.bind_apply, Go.assert_false]

def staticCmds (is : List Item) (final : Bool) : List Cmd :=
  [.ev (.blockBegin .static final), .bits 3 (if final then 3 else 2),
   .ev (.blockTrees .static final { ll := fixedSizesLL, d := fixedSizesD })] ++
  dataCmds fixedSizesLL fixedSizesD is ++ [.ev (.blockEnd .static final)]

theorem writeStaticBlock_eq {σ : Type} (bw : BitWriter σ) {ts : List Token} {is : List Item}
    (h : ToksAre ts is) (final : Bool) : writeStaticBlock bw ts final = run bw (staticCmds is final) := by
  unfold writeStaticBlock staticCmds
  rw [assertStop_eq h]
  simp only [Go.pure_bind, encodeAll_eq bw _ _ h, run_append, run, exec, List.append_assoc, chk_assoc,
    chk_true_right]

/-- commands for a code length symbol -/
def xCmds (cl : List Nat) (p : Nat × Nat) : List Cmd := codeCmd cl p.1 :: extraCmds (clExtra p.1) p.2

theorem encodeX_eq {σ : Type} (bw : BitWriter σ) (cl : List Nat) {t : Token} (h : XTok t) :
    encodeX bw cl t = run bw (xCmds cl (xPair t)) := by
  unfold encodeX
  rw [(xTok_pair h).1]
  simp only [xCmds, run, exec, codeCmd, run_extra]

theorem encodeX_all {σ : Type} (bw : BitWriter σ) (cl : List Nat) {ts : List Token} (h : ∀ t ∈ ts, XTok t) :
    forAll (encodeX bw cl) ts = run bw ((ts.map xPair).flatMap (xCmds cl)) := by
  induction ts with
  | nil => rfl
  | cons t ts ih =>
    simp only [forAll, List.map_cons, List.flatMap_cons]
    rw [run_append, encodeX_eq bw cl (h t (by simp)), ih fun t ht => h t (by simp [ht])]

theorem forAll_bits {σ α : Type} (bw : BitWriter σ) (n : Nat) (f : α → Nat) (l : List α) :
    forAll (fun i => bw.bitsWrite n (f i)) l = run bw (l.map fun i => .bits n (f i)) := by
  induction l with
  | nil => rfl
  | cons a l ih => simp only [forAll, List.map_cons, run, exec, ih]

/-- frequencies of code length symbols -/
theorem studyLoopX_ok {ts : List Token} (h : ∀ t ∈ ts, XTok t) (f : List Nat) (hf : f.length = 19) :
    ∃ f', studyLoopX ts f = .ok f' ∧ f'.length = 19 ∧ (∀ s, f.getD s 0 ≤ f'.getD s 0) ∧
      ∀ t ∈ ts, 0 < f'.getD (xPair t).1 0 := by
  induction ts generalizing f with
  | nil => exact ⟨f, rfl, hf, fun _ => Nat.le_refl _, by simp⟩
  | cons t ts ih =>
    obtain ⟨e, h19, _⟩ := xTok_pair (h t (by simp))
    have hm : (f.modify (xPair t).1 (· + 1)).length = 19 := by simp [hf]
    obtain ⟨f', h1, h2, h3, h4⟩ := ih (fun t ht => h t (by simp [ht])) _ hm
    have hget : ∀ s, f.getD s 0 ≤ (f.modify (xPair t).1 (· + 1)).getD s 0 := by
      intro s
      simp only [List.getD_eq_getElem?_getD, List.getElem?_modify]
      by_cases hs : (xPair t).1 = s
      · simp only [hs, if_true]
        cases f[s]? <;> simp
      · simp [hs]
    have hpos : 0 < (f.modify (xPair t).1 (· + 1)).getD (xPair t).1 0 := by
      simp only [List.getD_eq_getElem?_getD, List.getElem?_modify, if_true]
      have hlt : (xPair t).1 < f.length := by omega
      rw [List.getElem?_eq_getElem hlt]; simp
    refine ⟨f', ?_, h2, fun s => Nat.le_trans (hget s) (h3 s), ?_⟩
    · unfold studyLoopX
      rw [e]
      simp only [bump, hf, h19, if_true]
      exact h1
    · intro t' ht'
      rcases List.mem_cons.1 ht' with rfl | ht'
      · exact Nat.lt_of_lt_of_le hpos (h3 _)
      · exact h4 t' ht'

end Flate.Proof
